/- Concatenation along an axis commutes with elementwise operations and preserves sums. -/
import Verif.NumPy.Lemmas

namespace Verif.NDArray
variable {K K' : Type}

theorem zipWith_flatMap {ι A B C : Type} (f : A → B → C) (l : List ι) (g : ι → List A) (h : ι → List B)
    (e : ∀ x ∈ l, (g x).length = (h x).length) :
    List.zipWith f (l.flatMap g) (l.flatMap h) = l.flatMap fun x => List.zipWith f (g x) (h x) := by
  induction l with
  | nil => rfl
  | cons a l ih =>
    simp only [List.flatMap_cons]
    rw [List.zipWith_append (e a (by simp)), ih (fun x hx => e x (by simp [hx]))]

theorem chunk_zipWith {A B C : Type} (f : A → B → C) (w : Nat) (a : List A) (b : List B) (o : Nat) :
    chunk w (List.zipWith f a b) o = List.zipWith f (chunk w a o) (chunk w b o) := by
  simp [chunk, List.drop_zipWith, List.take_zipWith]

theorem chunk_map (f : K → K') (w : Nat) (a : List K) (o : Nat) :
    chunk w (a.map f) o = (chunk w a o).map f := by simp [chunk]

theorem length_chunk_eq {A B : Type} {w : Nat} {a : List A} {b : List B} (h : a.length = b.length) (o : Nat) :
    (chunk w a o).length = (chunk w b o).length := by simp [chunk, h]

theorem concatData_zipWith {A B C : Type} (f : A → B → C) (out inn : Nat) (l : List Nat) (sz : Nat → Nat)
    (a : Nat → List A) (b : Nat → List B) (e : ∀ r ∈ l, (a r).length = (b r).length) :
    concatData out inn (l.map fun r => (sz r, List.zipWith f (a r) (b r))) =
      List.zipWith f (concatData out inn (l.map fun r => (sz r, a r)))
        (concatData out inn (l.map fun r => (sz r, b r))) := by
  have e1 : ∀ o, (l.flatMap fun r => chunk (sz r * inn) (a r) o).length
      = (l.flatMap fun r => chunk (sz r * inn) (b r) o).length := by
    intro o
    rw [List.length_flatMap, List.length_flatMap]
    congr 1
    apply List.map_congr_left
    intro r hr; exact length_chunk_eq (e r hr) o
  unfold concatData
  simp only [List.flatMap_map]
  rw [zipWith_flatMap f _ _ _ (fun o _ => e1 o)]
  apply List.flatMap_congr
  intro o _
  rw [zipWith_flatMap f _ _ _ (fun r hr => length_chunk_eq (e r hr) o)]
  apply List.flatMap_congr
  intro r _; exact chunk_zipWith f _ _ _ _

theorem concatData_map (f : K → K') (out inn : Nat) (l : List Nat) (sz : Nat → Nat)
    (a : Nat → List K) :
    concatData out inn (l.map fun r => (sz r, (a r).map f)) =
      (concatData out inn (l.map fun r => (sz r, a r))).map f := by
  unfold concatData
  simp only [List.flatMap_map, List.map_flatMap, chunk_map]

theorem sum_map_flatMap_comm {γ ι ι' : Type} [AddCommMonoid γ] (l : List ι) (l' : List ι') (F : ι → ι' → γ) :
    (l.map fun x => (l'.map fun y => F x y).sum).sum = (l'.map fun y => (l.map fun x => F x y).sum).sum := by
  induction l' with
  | nil => simp
  | cons y l' ih => simp [List.sum_map_add, ih]

theorem sum_flatMap' {γ ι : Type} [AddCommMonoid γ] (l : List ι) (f : ι → List γ) :
    (l.flatMap f).sum = (l.map fun x => (f x).sum).sum := by
  induction l with
  | nil => simp
  | cons y l' ih => simp [ih]

/-- the sum of a concatenation is the sum of the sums of the pieces -/
theorem sum_concatData [AddCommMonoid K] (out inn : Nat) (l : List Nat) (sz : Nat → Nat) (a : Nat → List K)
    (h : ∀ r ∈ l, (a r).length = out * (sz r * inn)) :
    (concatData out inn (l.map fun r => (sz r, a r))).sum = (l.map fun r => (a r).sum).sum := by
  unfold concatData
  simp only [List.flatMap_map, sum_flatMap']
  rw [sum_map_flatMap_comm]
  congr 1
  apply List.map_congr_left
  intro r hr
  rw [← sum_flatMap', flatMap_chunk (h r hr)]

theorem sum_map_mul_const {ι : Type} (l : List ι) (f : ι → Nat) (c : Nat) :
    (l.map fun x => f x * c).sum = (l.map f).sum * c := by
  induction l with
  | nil => simp
  | cons a l ih => simp [ih, Nat.add_mul]

theorem length_concatData (out inn : Nat) (l : List Nat) (sz : Nat → Nat) (a : Nat → List K)
    (h : ∀ r ∈ l, (a r).length = out * (sz r * inn)) :
    (concatData out inn (l.map fun r => (sz r, a r))).length = out * ((l.map sz).sum * inn) := by
  unfold concatData
  apply length_flatMap_range
  intro o ho
  rw [List.flatMap_map, List.length_flatMap]
  have : l.map (fun r => (chunk (sz r * inn) (a r) o).length) = l.map (fun r => sz r * inn) := by
    apply List.map_congr_left
    intro r hr; exact length_chunk (h r hr) ho
  rw [this, sum_map_mul_const]

/-- slicing a concatenation at the boundaries gives the pieces back -/
theorem slice_concatData {s : List Nat} {ax : Nat} (sz : Nat → Nat) (n : Nat)
    (hs : psum sz n = len s ax) (a : Nat → List K)
    (h : ∀ r < n, (a r).length = outer s ax * (sz r * inner s ax)) {r : Nat} (hr : r < n) :
    sliceData s ax (psum sz r) (psum sz (r + 1))
      (concatData (outer s ax) (inner s ax) ((List.range n).map fun r => (sz r, a r))) = a r := by
  have hlen : ∀ o < outer s ax, ((List.range n).flatMap fun r =>
      chunk (sz r * inner s ax) (a r) o).length = len s ax * inner s ax := by
    intro o ho
    rw [List.length_flatMap]
    have : (List.range n).map (fun r => (chunk (sz r * inner s ax) (a r) o).length)
        = (List.range n).map (fun r => sz r * inner s ax) := by
      apply List.map_congr_left
      intro r hr; exact length_chunk (h r (by simpa using hr)) ho
    rw [this, sum_map_mul_const, ← psum_eq_sum, hs]
  conv_rhs => rw [← flatMap_chunk (h r hr)]
  unfold sliceData
  apply List.flatMap_congr
  intro o ho
  have ho : o < outer s ax := by simpa using ho
  unfold concatData
  simp only [List.flatMap_map]
  rw [chunk_flatMap hlen ho]
  obtain ⟨m, rfl⟩ : ∃ m, n = r + 1 + m := ⟨n - (r + 1), by omega⟩
  have e : List.range (r + 1 + m) = List.range r ++ [r] ++ (List.range m).map (r + 1 + ·) := by
    rw [List.range_add, List.range_succ]
  have h1 : ((List.range r).flatMap fun r => chunk (sz r * inner s ax) (a r) o).length
      = psum sz r * inner s ax := by
    rw [List.length_flatMap]
    have : (List.range r).map (fun r => (chunk (sz r * inner s ax) (a r) o).length)
        = (List.range r).map (fun r => sz r * inner s ax) := by
      apply List.map_congr_left
      intro q hq; exact length_chunk (h q (by have := List.mem_range.mp hq; omega)) ho
    rw [this, sum_map_mul_const, ← psum_eq_sum]
  have h2 : (chunk (sz r * inner s ax) (a r) o).length = sz r * inner s ax := length_chunk (h r hr) ho
  have h3 : psum sz (r + 1) - psum sz r = sz r := by simp [psum]
  rw [e, List.flatMap_append, List.flatMap_append, List.append_assoc, h3, ← h1,
    List.drop_left, List.flatMap_cons, List.flatMap_nil, List.append_nil]
  exact List.take_left' h2

/-! slices of slices and concatenation of adjacent slices -/

theorem slice_slice {a : NDArray K} {ax lo hi i j : Nat} (ha : a.WF) (hax : ax < a.shape.length)
    (hij : i ≤ j) (hj : lo + j ≤ hi) (hhi : hi ≤ len a.shape ax) :
    (a.slice ax lo hi).slice ax i j = a.slice ax (lo + i) (lo + j) := by
  have hlen : len (a.slice ax lo hi).shape ax = hi - lo := by
    simp only [slice]
    rw [len_set hax]; omega
  have e1 : min j (hi - lo) - min i (hi - lo) = min (lo + j) (len a.shape ax) - min (lo + i) (len a.shape ax) := by omega
  have e2 : sliceData (a.slice ax lo hi).shape ax i j (a.slice ax lo hi).data
      = sliceData a.shape ax (lo + i) (lo + j) a.data := by
    unfold sliceData
    rw [hlen]
    simp only [slice, outer_set, inner_set]
    apply List.flatMap_congr
    intro o ho
    have ho : o < outer a.shape ax := by simpa using ho
    rw [chunk_sliceData hax ha (by omega) hhi ho, List.drop_take, List.drop_drop, List.take_take]
    congr 1
    · have : (hi - lo) * inner a.shape ax - i * inner a.shape ax = (hi - lo - i) * inner a.shape ax := by
        rw [Nat.sub_mul (hi - lo)]
      rw [this, Nat.min_eq_left (Nat.mul_le_mul_right _ (by omega))]
      congr 1; omega
    · congr 1; ring
  unfold slice at e2 ⊢
  dsimp only at e2 ⊢
  rw [e2]
  congr 1
  unfold slice at hlen
  dsimp only at hlen
  rw [hlen, List.set_set, e1]

theorem concat_slices {a : NDArray K} {ax lo mid hi : Nat} (ha : a.WF) (hax : ax < a.shape.length)
    (h1 : lo ≤ mid) (h2 : mid ≤ hi) (h3 : hi ≤ len a.shape ax) :
    concat ax [a.slice ax lo mid, a.slice ax mid hi] = .ok (a.slice ax lo hi) := by
  have l1 : len (a.slice ax lo mid).shape ax = mid - lo := by
    simp only [slice]; rw [len_set hax]; omega
  have l2 : len (a.slice ax mid hi).shape ax = hi - mid := by
    simp only [slice]; rw [len_set hax]; omega
  unfold concat
  dsimp only
  rw [if_pos]
  · congr 1
    unfold slice
    dsimp only
    simp only [List.map_cons, List.map_nil]
    unfold slice at l1 l2
    dsimp only at l1 l2
    rw [l1, l2]
    simp only [List.sum_cons, List.sum_nil, List.set_set, List.foldl_cons, List.foldl_nil, outer_set, inner_set]
    congr 1
    · congr 1; omega
    · cases a.dtype <;> rfl
    · unfold concatData
      conv_rhs => unfold sliceData
      apply List.flatMap_congr
      intro o ho
      have ho : o < outer a.shape ax := by simpa using ho
      simp only [List.flatMap_cons, List.flatMap_nil, List.append_nil]
      rw [chunk_sliceData hax ha h1 (by omega) ho, chunk_sliceData hax ha h2 h3 ho]
      have e : mid * inner a.shape ax = lo * inner a.shape ax + (mid - lo) * inner a.shape ax := by
        rw [← Nat.add_mul]; congr 1; omega
      rw [e, ← List.drop_drop, ← List.take_add, ← Nat.add_mul]
      congr 2; omega
  · simp [slice, hax]

end Verif.NDArray

/- Lemmas about the NumPy fragment. -/
import Verif.NumPy.Array
import Mathlib.Tactic.Ring
import Mathlib.Tactic.FieldSimp
import Mathlib.Data.List.Basic
import Mathlib.Data.Nat.Cast.Basic
import Mathlib.Algebra.Ring.CharZero
import Mathlib.Algebra.BigOperators.Group.List.Lemmas

namespace Verif.NDArray
variable {K : Type}

theorem prod_split {s : List Nat} {ax : Nat} (h : ax < s.length) :
    s.prod = outer s ax * (len s ax * inner s ax) := by
  conv_lhs => rw [← List.take_append_drop ax s, List.prod_append, List.drop_eq_getElem_cons h,
    List.prod_cons]
  simp [outer, len, inner, List.getD_eq_getElem?_getD, h]

@[simp] theorem outer_set (s : List Nat) (ax n : Nat) : outer (s.set ax n) ax = outer s ax := by
  simp [outer, List.take_set_of_le]

@[simp] theorem inner_set (s : List Nat) (ax n : Nat) : inner (s.set ax n) ax = inner s ax := by
  simp [inner, List.drop_set_of_lt]

theorem len_set {s : List Nat} {ax n : Nat} (h : ax < s.length) : len (s.set ax n) ax = n := by
  simp [len, List.getD_eq_getElem?_getD, h]

theorem set_len (s : List Nat) (ax : Nat) : s.set ax (len s ax) = s := by
  by_cases h : ax < s.length
  · have : len s ax = s[ax] := by simp [len, List.getD_eq_getElem?_getD, h]
    rw [this]; exact List.set_getElem_self h
  · exact List.set_eq_of_length_le (by omega)

theorem length_chunk {w out : Nat} {l : List K} {o : Nat} (hl : l.length = out * w) (ho : o < out) :
    (chunk w l o).length = w := by
  have : o * w + w ≤ out * w := by
    calc o * w + w = (o + 1) * w := by ring
      _ ≤ out * w := Nat.mul_le_mul_right _ ho
  simp [chunk, hl]; omega

theorem length_flatMap_range {out w : Nat} {f : Nat → List K} (h : ∀ o < out, (f o).length = w) :
    ((List.range out).flatMap f).length = out * w := by
  induction out with
  | zero => simp
  | succ n ih =>
    rw [List.range_succ, List.flatMap_append, List.length_append, ih (fun o ho => h o (by omega))]
    simp [h n (by omega)]; ring

theorem chunk_flatMap {w out : Nat} {f : Nat → List K} (h : ∀ o < out, (f o).length = w)
    {o : Nat} (ho : o < out) : chunk w ((List.range out).flatMap f) o = f o := by
  obtain ⟨m, rfl⟩ : ∃ m, out = o + 1 + m := ⟨out - (o + 1), by omega⟩
  have e : List.range (o + 1 + m) = List.range o ++ [o] ++ (List.range m).map (o + 1 + ·) := by
    rw [List.range_add, List.range_succ]
  rw [e, List.flatMap_append, List.flatMap_append, chunk]
  have h1 : ((List.range o).flatMap f).length = o * w :=
    length_flatMap_range (fun q hq => h q (by omega))
  have h2 := h o ho
  rw [List.append_assoc, List.drop_append_of_le_length (by omega), List.drop_of_length_le (by omega)]
  simp [← h2]

theorem flatMap_chunk {w out : Nat} {l : List K} (hl : l.length = out * w) :
    (List.range out).flatMap (chunk w l) = l := by
  have aux : ∀ m ≤ out, (List.range m).flatMap (chunk w l) = l.take (m * w) := by
    intro m
    induction m with
    | zero => simp
    | succ m ih =>
      intro hm
      rw [List.range_succ, List.flatMap_append, ih (by omega)]
      simp only [List.flatMap_cons, List.flatMap_nil, List.append_nil, chunk]
      rw [show (m + 1) * w = m * w + w by ring, List.take_add]
  rw [aux out (le_refl _), ← hl, List.take_length]

theorem ext_chunk {w out : Nat} {l l' : List K} (hl : l.length = out * w) (hl' : l'.length = out * w)
    (h : ∀ o < out, chunk w l o = chunk w l' o) : l = l' := by
  rw [← flatMap_chunk hl, ← flatMap_chunk hl']
  apply List.flatMap_congr
  intro o ho; exact h o (by simpa using ho)

/-- prefix sums -/
def psum (sz : Nat → Nat) : Nat → Nat
  | 0 => 0
  | r + 1 => psum sz r + sz r

theorem psum_eq_sum (sz : Nat → Nat) (n : Nat) : psum sz n = ((List.range n).map sz).sum := by
  induction n with
  | zero => rfl
  | succ n ih => rw [List.range_succ]; simp [psum, ih]

theorem psum_mono (sz : Nat → Nat) {r n : Nat} (h : r ≤ n) : psum sz r ≤ psum sz n := by
  induction h with
  | refl => exact le_refl _
  | step _ ih => exact le_trans ih (by simp [psum])

theorem flatMap_pieces (sz : Nat → Nat) (l : List K) (n : Nat) :
    (List.range n).flatMap (fun r => (l.drop (psum sz r)).take (sz r)) = l.take (psum sz n) := by
  induction n with
  | zero => simp [psum]
  | succ n ih =>
    rw [List.range_succ, List.flatMap_append, ih]
    simp [psum, List.take_add]

theorem psum_mul (sz : Nat → Nat) (m n : Nat) : psum sz n * m = psum (fun r => sz r * m) n := by
  induction n with
  | zero => simp [psum]
  | succ n ih => simp [psum, ← ih]; ring

/-! slices -/

theorem length_sliceData {s : List Nat} {ax lo hi : Nat} {d : List K} (hax : ax < s.length)
    (hd : d.length = s.prod) (h1 : lo ≤ hi) (h2 : hi ≤ len s ax) :
    (sliceData s ax lo hi d).length = outer s ax * ((hi - lo) * inner s ax) := by
  apply length_flatMap_range
  intro o ho
  rw [prod_split hax] at hd
  have hc := length_chunk hd ho
  have : hi * inner s ax ≤ len s ax * inner s ax := Nat.mul_le_mul_right _ h2
  have : (hi - lo) * inner s ax + lo * inner s ax = hi * inner s ax := by
    rw [← Nat.add_mul]; congr 1; omega
  simp [hc]; omega

theorem chunk_sliceData {s : List Nat} {ax lo hi : Nat} {d : List K} (hax : ax < s.length)
    (hd : d.length = s.prod) (h1 : lo ≤ hi) (h2 : hi ≤ len s ax) {o : Nat} (ho : o < outer s ax) :
    chunk ((hi - lo) * inner s ax) (sliceData s ax lo hi d) o =
      ((chunk (len s ax * inner s ax) d o).drop (lo * inner s ax)).take ((hi - lo) * inner s ax) := by
  rw [sliceData, chunk_flatMap _ ho]
  intro o ho
  rw [prod_split hax] at hd
  have hc := length_chunk hd ho
  have : hi * inner s ax ≤ len s ax * inner s ax := Nat.mul_le_mul_right _ h2
  have : (hi - lo) * inner s ax + lo * inner s ax = hi * inner s ax := by
    rw [← Nat.add_mul]; congr 1; omega
  simp [hc]; omega

theorem prod_set {s : List Nat} {ax n : Nat} (hax : ax < s.length) :
    (s.set ax n).prod = outer s ax * (n * inner s ax) := by
  rw [prod_split (ax := ax) (by simpa using hax), outer_set, inner_set, len_set hax]

theorem slice_wf {a : NDArray K} {ax lo hi : Nat} (ha : a.WF) (hax : ax < a.shape.length)
    (h1 : lo ≤ hi) (h2 : hi ≤ len a.shape ax) : (a.slice ax lo hi).WF := by
  unfold WF slice
  dsimp only
  rw [length_sliceData hax ha h1 h2, prod_set hax, min_eq_left h2, min_eq_left (h1.trans h2)]

/-- Concatenating consecutive slices gives the array back. -/
theorem concatData_slices {s : List Nat} {ax : Nat} {d : List K} (hax : ax < s.length)
    (hd : d.length = s.prod) (sz : Nat → Nat) (n : Nat) (hs : psum sz n = len s ax) :
    concatData (outer s ax) (inner s ax)
      ((List.range n).map fun r => (sz r, sliceData s ax (psum sz r) (psum sz (r + 1)) d)) = d := by
  have hd' := hd
  rw [prod_split hax] at hd'
  conv_rhs => rw [← flatMap_chunk hd']
  unfold concatData
  apply List.flatMap_congr
  intro o ho
  have ho : o < outer s ax := by simpa using ho
  rw [List.flatMap_map]
  have e : ∀ r ∈ List.range n, chunk (sz r * inner s ax)
      (sliceData s ax (psum sz r) (psum sz (r + 1)) d) o =
      ((chunk (len s ax * inner s ax) d o).drop (psum (fun r => sz r * inner s ax) r)).take
        (sz r * inner s ax) := by
    intro r hr
    have hr : r < n := by simpa using hr
    have h2 : psum sz (r + 1) ≤ len s ax := hs ▸ psum_mono sz hr
    have h1 : psum sz (r + 1) - psum sz r = sz r := by simp [psum]
    have := chunk_sliceData hax hd (psum_mono sz (Nat.le_succ r)) h2 ho
    rw [h1] at this
    rw [this, psum_mul]
  rw [List.flatMap_congr e, flatMap_pieces, ← psum_mul, hs,
    List.take_of_length_le (by rw [length_chunk hd' ho])]

/-! broadcasting -/

theorem mapM_some_map {α β : Type} (f : α → Option β) (g : α → β) (l : List α)
    (h : ∀ a ∈ l, f a = some (g a)) : l.mapM f = some (l.map g) := by
  induction l with
  | nil => rfl
  | cons a l ih =>
    rw [List.mapM_cons, h a (by simp), ih (fun b hb => h b (by simp [hb]))]
    rfl

theorem mapM_some_mem {α β : Type} {f : α → Option β} {l : List α} {r : List β}
    (h : l.mapM f = some r) : r.length = l.length ∧ ∀ b ∈ r, ∃ a ∈ l, f a = some b := by
  induction l generalizing r with
  | nil => simp at h; subst h; simp
  | cons a l ih =>
    rw [List.mapM_cons] at h
    cases h1 : f a with
    | none => simp [h1] at h
    | some b =>
      cases h2 : l.mapM f with
      | none => simp [h1, h2] at h
      | some r' =>
        simp [h1, h2] at h
        subst h
        obtain ⟨h3, h4⟩ := ih h2
        refine ⟨by simp [h3], ?_⟩
        intro c hc
        rcases List.mem_cons.mp hc with rfl | hc
        · exact ⟨a, by simp, h1⟩
        · obtain ⟨x, hx, hx2⟩ := h4 c hc
          exact ⟨x, by simp [hx], hx2⟩

theorem bcastData_self (s : List Nat) (d : List K) (hd : d.length = s.prod) :
    bcastData s s d = some d := by
  induction s generalizing d with
  | nil => rfl
  | cons n s ih =>
    have hd' : d.length = n * s.prod := by simpa using hd
    rw [bcastData, if_pos rfl, mapM_some_map _ (fun i => chunk s.prod d i)]
    · rw [Option.map_some, ← List.flatMap_def]; exact congrArg some (flatMap_chunk hd')
    · intro i hi
      exact ih _ (length_chunk hd' (by simpa using hi))

theorem alignShape_self (s : List Nat) : alignShape s.length s = s := by simp [alignShape]

theorem stretches_self (s : List Nat) : stretches s s = true := by
  induction s with
  | nil => rfl
  | cons n s ih => simp [stretches, ih]

theorem stretches_ones (s : List Nat) : stretches s (List.replicate s.length 1) = true := by
  induction s with
  | nil => rfl
  | cons n s ih => simp [List.replicate_succ, stretches, ih]

theorem bcastTo_self {s : List Nat} {v : NDArray K} (hs : v.shape = s) (hd : v.data.length = s.prod) :
    bcastTo s v = .ok v.data := by
  simp [bcastTo, hs, alignShape_self, stretches_self, bcastData_self s v.data hd]

theorem flatten_replicate_replicate (n m : Nat) (x : K) :
    (List.replicate n (List.replicate m x)).flatten = List.replicate (n * m) x := by
  induction n with
  | zero => simp
  | succ n ih => rw [List.replicate_succ, List.flatten_cons, ih, List.replicate_append_replicate]; congr 1; ring

theorem bcastData_ones (s : List Nat) (x : K) :
    bcastData s (List.replicate s.length 1) [x] = some (List.replicate s.prod x) := by
  induction s with
  | nil => rfl
  | cons n s ih =>
    rw [List.length_cons, List.replicate_succ, bcastData]
    split_ifs with h
    · subst h
      simp [chunk]
      exact ih
    · rw [ih]; simp
    · exact absurd rfl ‹_›

theorem bcastTo_scalar (s : List Nat) (t : DType) (x : K) :
    bcastTo s (scalar t x) = .ok (List.replicate s.prod x) := by
  have : alignShape s.length [] = List.replicate s.length 1 := by simp [alignShape]
  simp [bcastTo, scalar, this, stretches_ones, bcastData_ones]

theorem length_bcastData {tgt src : List Nat} {d e : List K} (hd : d.length = src.prod)
    (h : bcastData tgt src d = some e) : e.length = tgt.prod := by
  induction tgt generalizing src d e with
  | nil => cases src with
    | nil => simp only [bcastData, Option.some.injEq] at h; subst h; simpa using hd
    | cons => simp [bcastData] at h
  | cons n tgt ih => cases src with
    | nil => simp [bcastData] at h
    | cons m src =>
      rw [bcastData] at h
      split_ifs at h with h1 h2
      · subst h1
        have hd' : d.length = m * src.prod := by simpa using hd
        simp only [Option.map_eq_some_iff] at h
        obtain ⟨ls, h3, rfl⟩ := h
        obtain ⟨hl, h4⟩ := mapM_some_mem h3
        have hall : ∀ x ∈ ls, x.length = tgt.prod := by
          intro x hx
          obtain ⟨i, hi, h5⟩ := h4 x hx
          exact ih (length_chunk hd' (by simpa using hi)) h5
        rw [List.length_flatten, List.map_congr_left hall]
        simp [hl]
      · subst h2
        simp only [Option.map_eq_some_iff] at h
        obtain ⟨e', h3, rfl⟩ := h
        have := ih (by simpa using hd) h3
        simp [this]

/-! casts and assignment -/

section
variable [Field K] [StarRing K]

theorem castTo_of_fits [CharZero K] {t : DType} {d : List K} (h : FitsL t d) :
    d.map (castTo t) = d := by
  cases t with
  | cplx => exact (List.map_congr_left (fun _ _ => rfl)).trans (List.map_id d)
  | real =>
    conv_rhs => rw [← List.map_id d]
    apply List.map_congr_left
    intro x hx
    have := h rfl x hx
    have h2 : (2 : K) ≠ 0 := two_ne_zero
    simp only [castTo, this, id]
    field_simp
    ring

theorem fitsL_castTo {t : DType} (d : List K) : FitsL t (d.map (castTo t)) := by
  intro ht x hx
  subst ht
  obtain ⟨y, _, rfl⟩ := List.mem_map.mp hx
  simp [castTo, add_comm]

omit [Field K] [StarRing K] in
theorem writeAt_range_aux (pre d vs : List K) (h : vs.length = d.length) :
    writeAt (pre ++ d) ((List.range d.length).map (pre.length + ·)) vs = pre ++ vs := by
  induction d generalizing pre vs with
  | nil => cases vs with
    | nil => simp [writeAt]
    | cons => simp at h
  | cons x d ih => cases vs with
    | nil => simp at h
    | cons v vs =>
      have h' : vs.length = d.length := by simpa using h
      rw [List.length_cons, List.range_succ_eq_map, List.map_cons, writeAt]
      have e1 : (pre ++ x :: d).set (pre.length + 0) v = (pre ++ [v]) ++ d := by
        simp [List.set_append_right]
      have e2 : ((List.range d.length).map Nat.succ).map (pre.length + ·)
          = (List.range d.length).map ((pre ++ [v]).length + ·) := by
        simp only [List.map_map]; apply List.map_congr_left; intro i _; simp; omega
      rw [e1, e2, ih (pre ++ [v]) vs h']
      simp

omit [Field K] [StarRing K] in
theorem writeAt_range {d vs : List K} {n : Nat} (hd : d.length = n) (hv : vs.length = n) :
    writeAt d (List.range n) vs = vs := by
  subst hd
  have := writeAt_range_aux [] d vs hv
  simpa using this

/-- `a[:] = v` with a value of the same shape. -/
theorem setIndex_all {a v : NDArray K} (ha : a.WF) (hs : v.shape = a.shape) (hv : v.WF) :
    setIndex Index.all a v = .ok ⟨a.shape, a.dtype, v.data.map (castTo a.dtype)⟩ := by
  have hv' : v.data.length = a.shape.prod := by rw [← hs]; exact hv
  simp only [setIndex, Index.all, bind, Except.bind, pure, Except.pure, bcastTo_self hs hv']
  rw [writeAt_range ha (by simpa using hv')]

/-- `a[:] = x` with a scalar. -/
theorem setIndex_all_scalar {a : NDArray K} (ha : a.WF) (t : DType) (x : K) :
    setIndex Index.all a (scalar t x) =
      .ok ⟨a.shape, a.dtype, List.replicate a.shape.prod (castTo a.dtype x)⟩ := by
  simp only [setIndex, Index.all, bind, Except.bind, pure, Except.pure, bcastTo_scalar]
  rw [writeAt_range ha (by simp)]
  simp

end

end Verif.NDArray

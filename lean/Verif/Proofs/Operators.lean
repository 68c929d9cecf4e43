/- Facts about the global operators and the local loops. -/
import Verif.Proofs.Redistribute
import Verif.Spec.Operators
import Verif.Model.Stacking
import Verif.MPI.Bind

namespace Verif
open NDArray Relation

set_option linter.unusedSectionVars false

variable {K : Type}

theorem inSum_cons (b : Bool) (o : LOp K) (os : List (LOp K)) : inSum b (o :: os) = o.inDim b + inSum b os := by simp [inSum]
theorem inSum_append (b : Bool) (l l' : List (LOp K)) : inSum b (l ++ l') = inSum b l + inSum b l' := by simp [inSum]
theorem outSum_append (b : Bool) (l l' : List (LOp K)) : outSum b (l ++ l') = outSum b l + outSum b l' := inSum_append _ _ _
theorem outSum_cons (b : Bool) (o : LOp K) (os : List (LOp K)) : outSum b (o :: os) = o.outDim b + outSum b os := inSum_cons _ _ _

theorem inSum_allOps (b : Bool) (n : Nat) (ops : Nat → List (LOp K)) : inSum b (allOps n ops) = psum (fun r => inSum b (ops r)) n := by
  induction n with
  | zero => simp [allOps, inSum, psum]
  | succ n ih =>
    have : allOps (n + 1) ops = allOps n ops ++ ops n := by simp [allOps, List.range_succ]
    rw [this, inSum_append, ih]
    rfl

theorem allOps_split (n : Nat) (ops : Nat → List (LOp K)) {r : Nat} (hr : r < n) :
    ∃ rest, allOps n ops = allOps r ops ++ (ops r ++ rest) ∧ ∀ o ∈ rest, o ∈ allOps n ops := by
  refine ⟨((List.range (n - (r + 1))).map (r + 1 + ·)).flatMap ops, ?_, fun o ho => ?_⟩
  · have e : List.range n = List.range r ++ (r :: (List.range (n - (r + 1))).map (r + 1 + ·)) := by
      have := List.range_add (n := r + 1) (m := n - (r + 1))
      rw [show r + 1 + (n - (r + 1)) = n by omega, List.range_succ] at this
      rw [this]; simp
    unfold allOps
    rw [e]
    simp
  · simp only [List.mem_flatMap, List.mem_map, List.mem_range] at ho
    obtain ⟨q, ⟨i, hi, rfl⟩, ho⟩ := ho
    simp only [allOps, List.mem_flatMap, List.mem_range]
    exact ⟨r + 1 + i, by omega, ho⟩

theorem mem_allOps {n : Nat} {ops : Nat → List (LOp K)} {r : Nat} (hr : r < n) {o : LOp K} (ho : o ∈ ops r) : o ∈ allOps n ops := by
  simp only [allOps, List.mem_flatMap, List.mem_range]; exact ⟨r, hr, ho⟩

theorem slices_append (b : Bool) (l l' : List (LOp K)) (x : List K) :
    slices b (l ++ l') x = slices b l x ++ slices b l' (x.drop (inSum b l)) := by
  induction l generalizing x with
  | nil => simp [slices, inSum]
  | cons o os ih => simp only [List.cons_append, slices, ih, inSum_cons, List.drop_drop]

theorem slices_take (b : Bool) (l : List (LOp K)) (x : List K) {k : Nat} (hk : inSum b l ≤ k) : slices b l (x.take k) = slices b l x := by
  induction l generalizing x k with
  | nil => rfl
  | cons o os ih =>
    rw [inSum_cons] at hk
    simp only [slices, List.take_take, List.drop_take]
    rw [ih _ (by omega), Nat.min_eq_left (by omega)]

theorem length_slices (b : Bool) (l : List (LOp K)) (x : List K) : (slices b l x).length = l.length := by
  induction l generalizing x with
  | nil => rfl
  | cons o os ih => simp [slices, ih]

/-- the operator gives vectors of the right size -/
def LOp.Sized (o : LOp K) (b : Bool) : Prop := ∀ d, d.length = o.inDim b → (o.fn b d).length = o.outDim b

theorem slices_sized {b : Bool} {l : List (LOp K)} (hl : ∀ o ∈ l, o.Sized b) {x : List K} (hx : inSum b l ≤ x.length) :
    (slices b l x).map List.length = l.map (·.outDim b) := by
  induction l generalizing x with
  | nil => rfl
  | cons o os ih =>
    rw [inSum_cons] at hx
    simp only [slices, List.map_cons]
    rw [hl o (by simp) _ (by simp; omega), ih (fun o ho => hl o (by simp [ho])) (by simp; omega)]

theorem length_blockDiag_sized {b : Bool} {l : List (LOp K)} (hl : ∀ o ∈ l, o.Sized b) {x : List K} (hx : inSum b l ≤ x.length) :
    (blockDiag b l x).length = outSum b l := by
  unfold blockDiag
  rw [List.length_flatten, slices_sized hl hx]
  rfl

/-- the part of the block-diagonal result computed on rank `r` -/
theorem blockDiag_part_sized {b : Bool} {n : Nat} {ops : Nat → List (LOp K)} (hl : ∀ o ∈ allOps n ops, o.Sized b) {d : List K}
    (hd : d.length = inSum b (allOps n ops)) {r : Nat} (hr : r < n) :
    ((blockDiag b (allOps n ops) d).drop (psum (fun r => outSum b (ops r)) r)).take (outSum b (ops r))
      = blockDiag b (ops r) ((d.drop (psum (fun r => inSum b (ops r)) r)).take (inSum b (ops r))) := by
  obtain ⟨rest, h, hrest⟩ := allOps_split n ops hr
  have hl1 : ∀ o ∈ allOps r ops, o.Sized b := fun o ho => hl o (by rw [h]; simp [ho])
  have hl2 : ∀ o ∈ ops r, o.Sized b := fun o ho => hl o (by rw [h]; simp [ho])
  have hlen : d.length = inSum b (allOps r ops) + (inSum b (ops r) + inSum b rest) := by rw [hd, h, inSum_append, inSum_append]
  have e1 : psum (fun r => outSum b (ops r)) r = (blockDiag b (allOps r ops) d).length := by
    rw [length_blockDiag_sized hl1 (by omega)]; exact (inSum_allOps _ _ _).symm
  have e2 : blockDiag b (allOps n ops) d = blockDiag b (allOps r ops) d
      ++ (blockDiag b (ops r) (d.drop (inSum b (allOps r ops))) ++ blockDiag b rest ((d.drop (inSum b (allOps r ops))).drop (inSum b (ops r)))) := by
    unfold blockDiag
    rw [h, slices_append, slices_append]
    simp
  rw [e1, e2, List.drop_left, List.take_left' (length_blockDiag_sized hl2 (by simp; omega)), inSum_allOps]
  unfold blockDiag
  rw [slices_take _ _ _ (le_refl _)]

section
variable [Field K] [StarRing K] [CharZero K] {b : Bool} {din dout : DType}

theorem slices_ok {l : List (LOp K)} (hl : ∀ o ∈ l, o.Ok b din dout) {x : List K} (hx : inSum b l ≤ x.length) :
    (slices b l x).map List.length = l.map (·.outDim b) := slices_sized (fun o ho => (hl o ho).length) hx

theorem fits_take {t : DType} {x : List K} (h : FitsL t x) (k : Nat) : FitsL t (x.take k) := fun ht y hy => h ht y (List.mem_of_mem_take hy)
theorem fits_drop {t : DType} {x : List K} (h : FitsL t x) (k : Nat) : FitsL t (x.drop k) := fun ht y hy => h ht y (List.mem_of_mem_drop hy)

theorem slices_fits {l : List (LOp K)} (hl : ∀ o ∈ l, o.Ok b din dout) {x : List K} (hx : inSum b l ≤ x.length) (hf : FitsL din x) :
    ∀ y ∈ slices b l x, FitsL dout y := by
  induction l generalizing x with
  | nil => simp [slices]
  | cons o os ih =>
    rw [inSum_cons] at hx
    intro y hy
    simp only [slices, List.mem_cons] at hy
    rcases hy with rfl | hy
    · exact (hl o (by simp)).fits _ (by simp; omega) (fits_take hf _)
    · exact ih (fun o ho => hl o (by simp [ho])) (by simp; omega) (fits_drop hf _) y hy

theorem length_blockDiag {l : List (LOp K)} (hl : ∀ o ∈ l, o.Ok b din dout) {x : List K} (hx : inSum b l ≤ x.length) :
    (blockDiag b l x).length = outSum b l := length_blockDiag_sized (fun o ho => (hl o ho).length) hx

theorem fits_blockDiag {l : List (LOp K)} (hl : ∀ o ∈ l, o.Ok b din dout) {x : List K} (hx : inSum b l ≤ x.length) (hf : FitsL din x) :
    FitsL dout (blockDiag b l x) := by
  intro ht y hy
  obtain ⟨z, hz, hy⟩ := List.mem_flatten.1 hy
  exact slices_fits hl hx hf z hz ht y hy

/-- the part of the block-diagonal result computed on rank `r` -/
theorem blockDiag_part {n : Nat} {ops : Nat → List (LOp K)} (hl : ∀ o ∈ allOps n ops, o.Ok b din dout) {d : List K}
    (hd : d.length = inSum b (allOps n ops)) {r : Nat} (hr : r < n) :
    ((blockDiag b (allOps n ops) d).drop (psum (fun r => outSum b (ops r)) r)).take (outSum b (ops r))
      = blockDiag b (ops r) ((d.drop (psum (fun r => inSum b (ops r)) r)).take (inSum b (ops r))) :=
  blockDiag_part_sized (fun o ho => (hl o ho).length) hd hr

/-- results of the local loop -/
def outs (b : Bool) (dt : DType) : List (LOp K) → List K → List (NDArray K)
  | [], _ => []
  | o :: os, x => ⟨[o.outDim b], o.dtype.promote dt, o.fn b (x.take (o.inDim b))⟩ :: outs b dt os (x.drop (o.inDim b))

omit [Field K] [StarRing K] [CharZero K] in
theorem outs_data (b : Bool) (dt : DType) (l : List (LOp K)) (x : List K) : (outs b dt l x).map (·.data) = slices b l x := by
  induction l generalizing x with
  | nil => rfl
  | cons o os ih => simp [outs, slices, ih]

omit [Field K] [StarRing K] [CharZero K] in
theorem outs_shape (b : Bool) (dt : DType) (l : List (LOp K)) (x : List K) : (outs b dt l x).map (·.shape) = l.map fun o => [o.outDim b] := by
  induction l generalizing x with
  | nil => rfl
  | cons o os ih => simp [outs, ih]

omit [Field K] [StarRing K] [CharZero K] in
theorem applyAt_ok (b : Bool) {x : NDArray K} {m : Nat} (hs : x.shape = [m]) (hx : x.data.length = m) (l : List (LOp K)) (off : Nat)
    (h : off + inSum b l ≤ m) : applyAt b x off l = .ok (outs b x.dtype l (x.data.drop off)) := by
  induction l generalizing off with
  | nil => rfl
  | cons o os ih =>
    rw [inSum_cons] at h
    have e : (x.slice 0 off (off + o.inDim b)) = ⟨[o.inDim b], x.dtype, (x.data.drop off).take (o.inDim b)⟩ := by
      unfold slice
      rw [sliceData_axis0 (by rw [hs]; simp) (by rw [hs]; simpa using hx), hs]
      have i1 : inner [m] 0 = 1 := by simp [inner]
      have l1 : len [m] 0 = m := by simp [len]
      rw [i1, l1, Nat.mul_one, Nat.mul_one, Nat.min_eq_left (by omega), Nat.min_eq_left (by omega), Nat.add_sub_cancel_left]
      simp
    simp only [applyAt, e, LOp.apply, ne_eq, not_true_eq_false, if_false, bind, Except.bind, ih (off + o.inDim b) (by omega), pure, Except.pure,
      outs, List.drop_drop]

omit [Field K] [StarRing K] [CharZero K] in
theorem concat1 (l : List (NDArray K)) (hne : l ≠ []) (ks : List Nat) (hs : l.map (·.shape) = ks.map fun k => [k])
    (hd : l.map (fun a => a.data.length) = ks) : ∃ t, concat 0 l = .ok ⟨[ks.sum], t, (l.map (·.data)).flatten⟩ := by
  have h1 : ∀ a ∈ l, a.shape = [a.data.length] := by
    subst hd
    rw [List.map_map] at hs
    intro a ha
    exact (List.map_inj_left.1 hs) a ha
  cases l with
  | nil => exact absurd rfl hne
  | cons a as =>
    refine ⟨(a :: as).foldl (fun t b => t.promote b.dtype) a.dtype, ?_⟩
    unfold concat
    dsimp only
    have ha := h1 a (by simp)
    rw [if_pos ?_]
    · congr 1
      congr 1
      · rw [ha]
        simp only [List.set_cons_zero]
        congr 2
        rw [← hd]
        exact List.map_congr_left fun c hc => by rw [h1 c hc]; simp [len]
      · rw [ha]
        have o1 : outer [a.data.length] 0 = 1 := by simp [outer]
        have i1 : inner [a.data.length] 0 = 1 := by simp [inner]
        rw [o1, i1]
        unfold concatData
        simp only [List.range_one, List.flatMap_cons, List.flatMap_nil, List.append_nil]
        rw [List.flatMap_def, List.map_map]
        congr 1
        exact List.map_congr_left fun c hc => by
          simp only [Function.comp]
          rw [h1 c hc]
          simp [chunk, len]
    · refine ⟨?_, by rw [ha]; simp⟩
      rw [List.all_eq_true]
      intro c hc
      rw [ha, h1 c hc]
      simp

/-! ### sums of vectors -/

theorem length_vadd (x y : List K) : (vadd x y).length = min x.length y.length := by simp [vadd]

theorem vadd_assoc (x y z : List K) : vadd (vadd x y) z = vadd x (vadd y z) := by
  unfold vadd
  induction x generalizing y z with
  | nil => simp
  | cons a x ih =>
    cases y with
    | nil => simp
    | cons c y =>
      cases z with
      | nil => simp
      | cons e z => simp [ih, add_assoc]

theorem vadd_comm (x y : List K) : vadd x y = vadd y x := by
  unfold vadd; rw [List.zipWith_comm]; simp [add_comm]

theorem vadd_zero {x : List K} {N : Nat} (h : x.length = N) : vadd x (List.replicate N 0) = x := by
  subst h
  unfold vadd
  induction x with
  | nil => rfl
  | cons a x ih => simp [List.replicate_succ, ih]

theorem zero_vadd {x : List K} {N : Nat} (h : x.length = N) : vadd (List.replicate N 0) x = x := by rw [vadd_comm, vadd_zero h]

theorem length_vsum {N : Nat} {l : List (List K)} (h : ∀ x ∈ l, x.length = N) : (vsum N l).length = N := by
  induction l with
  | nil => simp [vsum]
  | cons a l ih =>
    have := ih fun x hx => h x (by simp [hx])
    simp only [vsum, List.foldr_cons, length_vadd] at this ⊢
    rw [this, h a (by simp), Nat.min_self]

theorem vsum_cons (N : Nat) (a : List K) (l : List (List K)) : vsum N (a :: l) = vadd a (vsum N l) := rfl

theorem vsum_append {N : Nat} {l l' : List (List K)} (h' : ∀ x ∈ l', x.length = N) : vsum N (l ++ l') = vadd (vsum N l) (vsum N l') := by
  induction l with
  | nil => rw [List.nil_append]; exact (zero_vadd (length_vsum h')).symm
  | cons a l ih => rw [List.cons_append, vsum_cons, vsum_cons, ih, vadd_assoc]

theorem foldl_vadd {N : Nat} {a : List K} {l : List (List K)} (ha : a.length = N) (h : ∀ x ∈ l, x.length = N) : l.foldl vadd a = vadd a (vsum N l) := by
  induction l generalizing a with
  | nil => exact (vadd_zero ha).symm
  | cons c l ih =>
    rw [List.foldl_cons, ih (by rw [length_vadd, ha, h c (by simp), Nat.min_self]) (fun x hx => h x (by simp [hx])), vsum_cons, vadd_assoc]

theorem fits_vadd {t : DType} {x y : List K} (hx : FitsL t x) (hy : FitsL t y) : FitsL t (vadd x y) := by
  intro ht z hz
  unfold vadd at hz
  obtain ⟨i, hi, rfl⟩ := List.getElem_of_mem hz
  rw [List.getElem_zipWith]
  simp [hx ht _ (List.getElem_mem _), hy ht _ (List.getElem_mem _)]

theorem fits_vsum {t : DType} {N : Nat} {l : List (List K)} (h : ∀ x ∈ l, FitsL t x) : FitsL t (vsum N l) := by
  induction l with
  | nil => intro _ z hz; rw [List.eq_of_mem_replicate hz]; simp
  | cons a l ih => exact fits_vadd (h a (by simp)) (ih fun x hx => h x (by simp [hx]))

/-- reduction of equally shaped 1-D arrays -/
theorem foldlM_zip {N : Nat} (l : List (NDArray K)) (a : NDArray K) (ha : a.shape = [N]) (hl : ∀ x ∈ l, x.shape = [N]) :
    ∃ t, l.foldlM (NDArray.zip (· + ·)) a = (.ok ⟨[N], t, (l.map (·.data)).foldl vadd a.data⟩ : Except Err (NDArray K)) := by
  induction l generalizing a with
  | nil => exact ⟨a.dtype, by obtain ⟨s, t, d⟩ := a; simp only at ha; subst ha; rfl⟩
  | cons c l ih =>
    have hc := hl c (by simp)
    obtain ⟨t, h⟩ := ih ⟨a.shape, a.dtype.promote c.dtype, List.zipWith (· + ·) a.data c.data⟩ ha (fun x hx => hl x (by simp [hx]))
    refine ⟨t, ?_⟩
    rw [List.foldlM_cons]
    have e : NDArray.zip (· + ·) a c = .ok ⟨a.shape, a.dtype.promote c.dtype, List.zipWith (· + ·) a.data c.data⟩ := by
      unfold NDArray.zip; rw [if_pos (by rw [ha, hc])]
    rw [e]
    exact h

theorem sumRows_ok {N : Nat} {l : List (NDArray K)} (hne : l ≠ []) (hs : ∀ x ∈ l, x.shape = [N]) (hd : ∀ x ∈ l, x.data.length = N) :
    ∃ t, sumRows l = .ok ⟨[N], t, vsum N (l.map (·.data))⟩ := by
  cases l with
  | nil => exact absurd rfl hne
  | cons a l =>
    obtain ⟨t, h⟩ := foldlM_zip l a (hs a (by simp)) (fun x hx => hs x (by simp [hx]))
    refine ⟨t, ?_⟩
    unfold sumRows
    dsimp only
    rw [h, foldl_vadd (hd a (by simp)) (fun x hx => by obtain ⟨y, hy, rfl⟩ := List.mem_map.1 hx; exact hd y (by simp [hy]))]
    rfl

theorem runs_allreduce_vec {α : Type} {n N : Nat} {J : Nat → Nat → K} {v : Nat → NDArray K} (hs : ∀ r < n, (v r).shape = [N])
    (hd : ∀ r < n, (v r).data.length = N) {k : Nat → NDArray K → P K α} {ρ}
    (h : ∀ t, Runs n (fun r => k r ⟨[N], t, vsum N ((List.range n).map fun r => (v r).data)⟩) ρ) :
    Runs n (fun r => (allreduce (env n J r).world (NDArray.zip (· + ·)) (v r)).bind (k r)) ρ := by
  unfold allreduce
  simp only [Prog.bind_eq, Prog.bind_assoc, env_world]
  rcases Nat.eq_zero_or_pos n with rfl | hn
  · exact Runs.of_zero
  refine runs_gather ?_
  have hin : ∀ q ∈ (List.range (n - 1)).map (· + 1), q < n := by
    intro q hq
    obtain ⟨i, hi, rfl⟩ := List.mem_map.1 hq
    have := List.mem_range.1 hi
    omega
  obtain ⟨t, h1⟩ := foldlM_zip (((List.range (n - 1)).map (· + 1)).map v) (v 0) (hs 0 hn) (fun x hx => by
    obtain ⟨q, hq, rfl⟩ := List.mem_map.1 hx
    exact hs q (hin q hq))
  simp only [range_cons hn, List.map_cons]
  have e : ((((List.range (n - 1)).map (· + 1)).map v).map (·.data)).foldl vadd (v 0).data = vsum N ((List.range n).map fun r => (v r).data) := by
    rw [foldl_vadd (N := N) (hd 0 hn) (fun x hx => by
      obtain ⟨a, ha, rfl⟩ := List.mem_map.1 hx
      obtain ⟨q, hq, rfl⟩ := List.mem_map.1 ha
      exact hd q (hin q hq)), range_cons hn, List.map_cons, vsum_cons, List.map_map]
    rfl
  rw [e] at h1
  simp only [h1, Prog.lift_ok, Prog.ret_bind]
  exact h t

end
end Verif

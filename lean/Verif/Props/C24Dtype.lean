/- C23, C24: the dtype of a stack of operators when none is given. -/
import Verif.Props.C24Empty

namespace Verif
open NDArray

variable {K : Type} [Field K] [StarRing K] [CharZero K] {n N : Nat} {J : Nat → Nat → K} {ops : Nat → List (LOp K)} {mask : Option (List Nat)}

theorem foldl_promote_ops (os : List (LOp K)) (t : DType) :
    os.foldl (fun t o => t.promote o.dtype) t = if t = .cplx ∨ ∃ o ∈ os, o.dtype = .cplx then .cplx else .real := by
  induction os generalizing t with
  | nil => cases t <;> simp
  | cons o os ih =>
    rw [List.foldl_cons, ih]
    have : t.promote o.dtype = .cplx ↔ t = .cplx ∨ o.dtype = .cplx := by
      cases t <;> cases o.dtype <;> simp [DType.promote]
    simp [this, or_assoc]

theorem opsDType_none {l : List (LOp K)} (h : l ≠ []) : opsDType l none = .ok (if ∃ o ∈ l, o.dtype = .cplx then .cplx else .real) := by
  obtain ⟨o, os, rfl⟩ := List.exists_cons_of_ne_nil h
  show Except.ok _ = _
  rw [foldl_promote_ops]
  simp

/-- **C23** (dtype).  Without a dtype given, MPIBlockDiag is complex on a rank exactly if one of the operators of that rank is complex, wherever it is in the list. -/
theorem C23_dtype (h0 : ∀ r < n, ops r ≠ []) : Always n (fun r => do
        let p ← mkBlockDiag (env n J r) (ops r) mask none
        .ret p.dtype)
      (fun r => .ok (if ∃ o ∈ ops r, o.dtype = .cplx then .cplx else .real)) := by
  refine Runs.always ?_
  unfold mkBlockDiag
  simp only [Prog.bind_eq, Prog.bind_assoc]
  refine runs_allgather (J := J) (v := fun r => [inSum false (ops r)]) ?_
  refine runs_allgather (J := J) (v := fun r => [inSum true (ops r)]) ?_
  refine runs_allreduce_nat (J := J) (v := fun r => inSum true (ops r)) ?_
  refine runs_allreduce_nat (J := J) (v := fun r => inSum false (ops r)) ?_
  refine (Runs.lift _).congr (fun r hr => ?_) fun _ _ => rfl
  rw [opsDType_none (h0 r hr)]
  rfl

/-- **C24** (dtype).  Without a dtype given, MPIVStack is complex on a rank exactly if one of the operators of that rank is complex, wherever it is in the list. -/
theorem C24_dtype (hn : 0 < n) (h0 : ∀ r < n, ops r ≠ []) (hN : ∀ o ∈ allOps n ops, o.cols = N) : Always n (fun r => do
        let p ← mkVStack (env n J r) (ops r) none
        .ret p.dtype)
      (fun r => .ok (if ∃ o ∈ ops r, o.dtype = .cplx then .cplx else .real)) := by
  have hne : allOps n ops ≠ [] := fun e => by
    unfold allOps at e
    rw [List.flatMap_eq_nil_iff] at e
    exact h0 0 hn (e 0 (by simpa using hn))
  refine Runs.always ?_
  unfold mkVStack
  simp only [Prog.bind_eq, Prog.bind_assoc]
  refine runs_allgather (J := J) (v := fun r => [inSum true (ops r)]) ?_
  refine runs_allgather (J := J) (v := fun r => (ops r).map (·.cols)) ?_
  have e : ((List.range n).map fun r => (ops r).map (·.cols)).flatten = List.replicate (allOps n ops).length N := by
    rw [flatten_map, List.eq_replicate_iff]
    exact ⟨by simp, fun x hx => by obtain ⟨o, ho, rfl⟩ := List.mem_map.1 hx; exact hN o ho⟩
  have hlen : (allOps n ops).length = (allOps n ops).length - 1 + 1 := by
    have := List.length_pos_iff.2 hne; omega
  rw [e, hlen, List.replicate_succ]
  dsimp only
  have hany : ¬ ((List.replicate ((allOps n ops).length - 1) N).any fun x => decide (x ≠ N)) = true := by simp
  simp only [if_neg hany, Prog.bind_assoc]
  refine runs_allreduce_nat (J := J) (v := fun r => inSum true (ops r)) ?_
  refine (Runs.lift _).congr (fun r hr => ?_) fun _ _ => rfl
  rw [opsDType_none (h0 r hr)]
  rfl

/-- Non-vacuity: a complex operator followed by a real one makes the stack complex, on two ranks. -/
example : Always 2 (fun r => do
    let p ← mkBlockDiag (env 2 (fun _ _ => (0 : QI)) r) [.times .cplx QI.I, .times .real 1] none none
    .ret p.dtype) (fun _ => .ok .cplx) :=
  (C23_dtype (ops := fun _ => [.times .cplx QI.I, .times .real 1]) fun _ _ => by simp).runs.congr (fun _ _ => rfl) (fun _ _ => by simp [LOp.times]) |>.always

example : Always 2 (fun r => do
    let p ← mkVStack (env 2 (fun _ _ => (0 : QI)) r) [.times .cplx QI.I, .times .real 1] none
    .ret p.dtype) (fun _ => .ok .cplx) :=
  (C24_dtype (N := 1) (ops := fun _ => [.times .cplx QI.I, .times .real 1]) (by decide) (fun _ _ => by simp) (by
    intro o ho
    simp only [allOps, List.mem_flatMap] at ho
    obtain ⟨-, -, ho⟩ := ho
    rcases List.mem_cons.1 ho with rfl | ho
    · rfl
    · rw [List.mem_singleton.1 ho]; rfl)).runs.congr (fun _ _ => rfl) (fun _ _ => by simp [LOp.times]) |>.always

end Verif

/- C23: MPIBlockDiag is the global block-diagonal operator. -/
import Verif.Proofs.Stacking
import Verif.Spec.Examples
import Verif.MPI.Sim

namespace Verif
open NDArray

variable {K : Type} [Field K] [StarRing K] [CharZero K] {n : Nat} {J : Nat → Nat → K} {ops : Nat → List (LOp K)} {mask : Option (List Nat)}
  {dtype : Option DType} {dx dt : DType} {X : Layout} {b : Bool}

/-- construct `MPIBlockDiag(ops)` and apply `matvec` (`b = false`) or `rmatvec` (`b = true`) -/
def bdProg (n : Nat) (J : Nat → Nat → K) (ops : Nat → List (LOp K)) (mask : Option (List Nat)) (dtype : Option DType) (b : Bool)
    (x : Nat → DArr K) (r : Nat) : P K (DArr K) := do
  let p ← mkBlockDiag (env n J r) (ops r) mask dtype
  MOp.run (env n J r) b (.leaf p) (x r)

/-- **C23** (shape). -/
theorem C23_shape (hdt : ∀ r < n, opsDType (ops r) dtype = .ok dt) :
    Always n (fun r => do
        let p ← mkBlockDiag (env n J r) (ops r) mask dtype
        .ret (p.rows, p.cols, p.dtype))
      (fun _ => .ok (((allOps n ops).map (·.rows)).sum, ((allOps n ops).map (·.cols)).sum, dt)) :=
  (Runs.bind_ok (k := fun _ p => .ret (p.rows, p.cols, p.dtype)) (runs_mkBlockDiag (J := J) (mask := mask) hdt) (Runs.ret fun _ => _)).always

theorem runs_bdRun (hX : X.WF n) (hg : X.gshape = [inSum b (allOps n ops)]) (hp : X.part = .scatter) (hax : X.axis = 0)
    (hN : Near n X (.lin (inSum b (allOps n ops)) fun r => inSum b (ops r)))
    (hok : ∀ o ∈ allOps n ops, o.Ok b dx dt) (hne : ∀ r < n, ops r ≠ [])
    (hm : ∀ m, mask = some m → n ≤ m.length) {d : List K} (hd : VSpace.Mem ⟨X, dx⟩ d) :
    Runs n (fun r => MOp.run (env n J r) b (.leaf (bdPrim n ops mask dt r)) (VSpace.vec ⟨X, dx⟩ n d r))
      (fun r => .ok (VSpace.vec ⟨.lin (outSum b (allOps n ops)) (fun r => outSum b (ops r)) mask, dt⟩ n (blockDiag b (allOps n ops) d) r)) := by
  have h := runs_blockDiagMv (J := J) (conform_in hX hg hp hax) hN hok hne hm hd
  refine h.congr (fun r hr => ?_) fun _ _ => rfl
  have hgs : (VSpace.vec ⟨X, dx⟩ n d r : DArr K).gshape = [inSum b (allOps n ops)] := hg
  unfold MOp.run checkDim
  cases b with
  | false => rw [if_neg (by rw [hgs]; simp [bdPrim])]; rfl
  | true => rw [if_neg (by rw [hgs]; simp [bdPrim, outSum])]; rfl

theorem runs_bdProg (hX : X.WF n) (hg : X.gshape = [inSum b (allOps n ops)]) (hp : X.part = .scatter) (hax : X.axis = 0)
    (hN : Near n X (.lin (inSum b (allOps n ops)) fun r => inSum b (ops r)))
    (hdt : ∀ r < n, opsDType (ops r) dtype = .ok dt) (hok : ∀ o ∈ allOps n ops, o.Ok b dx dt) (hne : ∀ r < n, ops r ≠ [])
    (hm : ∀ m, mask = some m → n ≤ m.length) {d : List K} (hd : VSpace.Mem ⟨X, dx⟩ d) :
    Runs n (bdProg n J ops mask dtype b (VSpace.vec ⟨X, dx⟩ n d))
      (fun r => .ok (VSpace.vec ⟨.lin (outSum b (allOps n ops)) (fun r => outSum b (ops r)) mask, dt⟩ n (blockDiag b (allOps n ops) d) r)) := by
  unfold bdProg
  simp only [Prog.bind_eq]
  exact Runs.bind_ok (runs_mkBlockDiag (J := J) (mask := mask) hdt) (runs_bdRun hX hg hp hax hN hok hne hm hd)

/-- **C23**.  For any number of ranks, any per-rank lists of operators and any split `X` of the input near the one the operator uses,
    every execution leaves on all ranks their parts of the block-diagonal operator applied to the global vector `d`.
    Missing for the full statement: input layouts whose rank boundaries are further away (the redistribution raises, `C21_raises`), ranks with an empty
    list of operators (`C23_violated_empty`), dtypes that differ between ranks (`C24_violated_dtype`). -/
theorem C23_blockdiag_partial (hX : X.WF n) (hg : X.gshape = [inSum b (allOps n ops)]) (hp : X.part = .scatter) (hax : X.axis = 0)
    (hN : Near n X (.lin (inSum b (allOps n ops)) fun r => inSum b (ops r)))
    (hdt : ∀ r < n, opsDType (ops r) dtype = .ok dt) (hok : ∀ o ∈ allOps n ops, o.Ok b dx dt) (hne : ∀ r < n, ops r ≠ [])
    (hm : ∀ m, mask = some m → n ≤ m.length) {d : List K} (hd : VSpace.Mem ⟨X, dx⟩ d) :
    Always n (bdProg n J ops mask dtype b (VSpace.vec ⟨X, dx⟩ n d))
      (fun r => .ok (VSpace.vec ⟨.lin (outSum b (allOps n ops)) (fun r => outSum b (ops r)) mask, dt⟩ n (blockDiag b (allOps n ops) d) r)) :=
  (runs_bdProg hX hg hp hax hN hdt hok hne hm hd).always

/-- **C23** (gathered). -/
theorem C23_gathered_partial (hX : X.WF n) (hg : X.gshape = [inSum b (allOps n ops)]) (hp : X.part = .scatter) (hax : X.axis = 0)
    (hN : Near n X (.lin (inSum b (allOps n ops)) fun r => inSum b (ops r)))
    (hdt : ∀ r < n, opsDType (ops r) dtype = .ok dt) (hok : ∀ o ∈ allOps n ops, o.Ok b dx dt) (hne : ∀ r < n, ops r ≠ [])
    (hm : ∀ m, mask = some m → n ≤ m.length) {d : List K} (hd : VSpace.Mem ⟨X, dx⟩ d) :
    Always n (fun r => do
        let y ← bdProg n J ops mask dtype b (VSpace.vec ⟨X, dx⟩ n d) r
        y.asarray (env n J r))
      (fun _ => .ok ⟨[outSum b (allOps n ops)], dt, blockDiag b (allOps n ops) d⟩) := by
  refine Runs.always (Runs.bind_ok (runs_bdProg (J := J) hX hg hp hax hN hdt hok hne hm hd) ?_)
  have hlen : d.length = inSum b (allOps n ops) := by rw [hd.1]; simp [hg]
  exact runs_asarray_vec (S := ⟨.lin _ _ mask, dt⟩) (inL_wf hm) (mem_blockDiag hok hlen hd.2)

/-- two ranks: a 1×2 and a 1×1 operator on rank 0, a 1×3 operator on rank 1 -/
def bdOps : Nat → List (LOp ℚ) := fun r => if r = 0 then [.row [1, 2], .row [5]] else [.row [1, 0, -1]]

theorem bdOps_row {n : Nat} {o : LOp ℚ} (h : o ∈ allOps n bdOps) : ∃ c, o = .row c := by
  simp only [allOps, List.mem_flatMap, List.mem_range, bdOps] at h
  obtain ⟨q, _, h⟩ := h
  split_ifs at h
  · simp only [List.mem_cons, List.not_mem_nil, or_false] at h
    rcases h with rfl | rfl <;> exact ⟨_, rfl⟩
  · simp only [List.mem_cons, List.not_mem_nil, or_false] at h
    exact ⟨_, h⟩

/-- Non-vacuity: input (1, …, 6) split 4 + 2 although the operator needs 3 + 3. -/
example : Always 2 (fun r => do
        let y ← bdProg 2 (fun _ _ => 0) bdOps none none false (VSpace.vec ⟨.lin 6 fun r => if r = 0 then 4 else 2, .real⟩ 2 [1, 2, 3, 4, 5, 6]) r
        y.asarray (env 2 (fun _ _ => 0) r))
      (fun _ => .ok ⟨[3], .real, [5, 15, -2]⟩) := by
  have h := C23_gathered_partial (n := 2) (J := fun _ _ => 0) (ops := bdOps) (mask := none) (dtype := none) (dx := .real) (dt := .real) (b := false)
    (X := .lin 6 fun r => if r = 0 then 4 else 2) (d := [1, 2, 3, 4, 5, 6])
    (lin_wf (by decide) (by simp)) (by decide) rfl rfl (by
      intro r hr
      match r, hr with
      | 0, _ => decide) (fun r hr => by
      match r, hr with
      | 0, _ => rfl
      | 1, _ => rfl) (fun o ho => by obtain ⟨c, rfl⟩ := bdOps_row ho; exact LOp.row_ok _ _ _ _)
      (fun r _ => by unfold bdOps; split_ifs <;> simp) (by simp) ⟨rfl, fits_rat _ _⟩
  refine h.congr fun r _ => ?_
  decide +kernel

/-- **C23 fails for ranks with an empty list of operators**: with [1 2] on rank 0 and nothing on rank 1, the construction succeeds on rank 0 and raises ValueError on
    rank 1 (`numpy.result_type` of nothing); rank 0 then waits forever in `matvec`.  With an explicit dtype the construction succeeds, but rank 1
    raises ValueError in `matvec` (`numpy.concatenate` of nothing). -/
theorem C23_violated_empty :
    Ends 2 (fun r => do
        let y ← bdProg 2 (fun _ _ => (0 : ℚ)) (fun r => if r = 0 then [.row [1, 2]] else []) none none false (VSpace.vec ⟨.lin 2 (fun r => if r = 0 then 2 else 0), .real⟩ 2 [1, 1]) r
        .ret y.larr.data)
      (fun r => [none, some (.error .value)].getD r none) ∧
    Ends 2 (fun r => do
        let y ← bdProg 2 (fun _ _ => (0 : ℚ)) (fun r => if r = 0 then [.row [1, 2]] else []) none (some .real) false (VSpace.vec ⟨.lin 2 (fun r => if r = 0 then 2 else 0), .real⟩ 2 [1, 1]) r
        .ret y.larr.data)
      (fun r => [some (.ok [3]), some (.error .value)].getD r none) :=
  ⟨ends_of_sim 50 (by decide +kernel), ends_of_sim 50 (by decide +kernel)⟩

end Verif

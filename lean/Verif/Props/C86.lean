/- C86: MPIBlockDiag, MPIVStack and MPIHStack return the right result or raise, and which. -/
import Verif.Proofs.SafeStacks

set_option linter.unusedSectionVars false

namespace Verif
open NDArray

variable {K : Type} [Field K] [StarRing K] [CharZero K] {n : Nat} {J : Nat → Nat → K} {ops : Nat → List (LOp K)} {mask : Option (List Nat)} {dtype : Option DType} {dx dt : DType} {X : Layout} {L : Nat} {d : List K} {b : Bool}

/-- **C86** (MPIBlockDiag).  Whatever the lists of operators of the ranks (also empty ones) and the one-dimensional input: if no rank is without operators, the sizes fit and the pieces of the input can be
    rearranged by exchanges between neighbours, then in all executions all ranks obtain the block-diagonal product; otherwise in all executions some rank raises. -/
theorem C86_blockDiag (hn : 0 < n) (hok : ∀ o ∈ allOps n ops, o.Ok b dx dt) (hdt : ∀ r < n, ∀ t, opsDType (ops r) dtype = .ok t → t = dt) (hm : ∀ m, mask = some m → n ≤ m.length)
    (hX : X.WF n) (hg : X.gshape = [L]) (hd : VSpace.Mem ⟨X, dx⟩ d) :
    (BDGood n ops b X → Always n (bdProg n J ops mask dtype b (VSpace.vec ⟨X, dx⟩ n d))
      (fun r => .ok (VSpace.vec ⟨.lin (outSum b (allOps n ops)) (fun r => outSum b (ops r)) mask, dt⟩ n (blockDiag b (allOps n ops) d) r))) ∧
    (¬ BDGood n ops b X → Raises n (bdProg n J ops mask dtype b (VSpace.vec ⟨X, dx⟩ n d))) :=
  ⟨fun h => ((bd_cases hn hok hdt hm hX hg hd).1 h).always, (bd_cases hn hok hdt hm hX hg hd).2⟩

/-- **C86** (MPIVStack.matvec). -/
theorem C86_vstack_matvec (hn : 0 < n) (hok : ∀ o ∈ allOps n ops, o.Ok false dx dt) (hdt : ∀ r < n, ∀ t, opsDType (ops r) dtype = .ok t → t = dt) (hX : X.WF n) (hg : X.gshape = [L])
    (hd : VSpace.Mem ⟨X, dx⟩ d) :
    (VSGood n ops X → Always n (vsProg n J ops dtype false (VSpace.vec ⟨X, dx⟩ n d))
      (fun r => .ok (VSpace.vec ⟨.lin (outSum false (allOps n ops)) (fun r => outSum false (ops r)), dt⟩ n (vcat false (allOps n ops) d) r))) ∧
    (¬ VSGood n ops X → Raises n (vsProg n J ops dtype false (VSpace.vec ⟨X, dx⟩ n d))) :=
  ⟨fun h => ((vs_fwd_cases hn hok hdt hX hg hd).1 h).always, (vs_fwd_cases hn hok hdt hX hg hd).2⟩

/-- **C86** (MPIVStack.rmatvec).  `N` is the common number of columns. -/
theorem C86_vstack_rmatvec (hn : 0 < n) (hok : ∀ o ∈ allOps n ops, o.Ok true dx dt) (hdt : ∀ r < n, ∀ t, opsDType (ops r) dtype = .ok t → t = dt) (hX : X.WF n) (hg : X.gshape = [L])
    (hd : VSpace.Mem ⟨X, dx⟩ d) :
    (∀ N, VSGoodAdj n ops N X → Always n (vsProg n J ops dtype true (VSpace.vec ⟨X, dx⟩ n d)) (fun r => .ok (VSpace.vec ⟨.all N, dt⟩ n (hsum true N (allOps n ops) d) r))) ∧
    ((¬ ∃ N, VSGoodAdj n ops N X) → Raises n (vsProg n J ops dtype true (VSpace.vec ⟨X, dx⟩ n d))) :=
  ⟨fun N h => ((vs_adj_cases hn hok hdt hX hg hd).1 N h).always, (vs_adj_cases hn hok hdt hX hg hd).2⟩

/-- **C86** (MPIHStack.matvec).  `M` is the common number of rows. -/
theorem C86_hstack_matvec (hn : 0 < n) (hok : ∀ o ∈ allOps n ops, o.Ok false dx dt) (hdt : ∀ r < n, ∀ t, opsDType (ops r) dtype = .ok t → t = dt) (hX : X.WF n) (hg : X.gshape = [L])
    (hd : VSpace.Mem ⟨X, dx⟩ d) :
    (∀ M, HSGood n ops M X → Always n (hsProg n J ops dtype false (VSpace.vec ⟨X, dx⟩ n d)) (fun r => .ok (VSpace.vec ⟨.all M, dt⟩ n (hsum false M (allOps n ops) d) r))) ∧
    ((¬ ∃ M, HSGood n ops M X) → Raises n (hsProg n J ops dtype false (VSpace.vec ⟨X, dx⟩ n d))) :=
  ⟨fun M h => ((hs_fwd_cases hn hok hdt hX hg hd).1 M h).always, (hs_fwd_cases hn hok hdt hX hg hd).2⟩

/-- **C86** (MPIHStack.rmatvec). -/
theorem C86_hstack_rmatvec (hn : 0 < n) (hok : ∀ o ∈ allOps n ops, o.Ok true dx dt) (hdt : ∀ r < n, ∀ t, opsDType (ops r) dtype = .ok t → t = dt) (hX : X.WF n) (hg : X.gshape = [L])
    (hd : VSpace.Mem ⟨X, dx⟩ d) :
    (HSGoodAdj n ops X → Always n (hsProg n J ops dtype true (VSpace.vec ⟨X, dx⟩ n d))
      (fun r => .ok (VSpace.vec ⟨.lin (inSum false (allOps n ops)) (fun r => inSum false (ops r)), dt⟩ n (vcat true (allOps n ops) d) r))) ∧
    (¬ HSGoodAdj n ops X → Raises n (hsProg n J ops dtype true (VSpace.vec ⟨X, dx⟩ n d))) :=
  ⟨fun h => ((hs_adj_cases hn hok hdt hX hg hd).1 h).always, (hs_adj_cases hn hok hdt hX hg hd).2⟩

/-! Non-vacuity: [1 2] on rank 0 and [3 4; 5 6] on rank 1, from which the result is obtained; [1 2] on rank 0 and nothing on rank 1, or a scattered input, or an input of the wrong size, for which some rank raises. -/

theorem vsOps_dt : ∀ r < 2, ∀ t, opsDType (vsOps r) none = .ok t → t = DType.real := by
  intro r hr t ht
  match r, hr with
  | 0, _ => exact (Except.ok.inj ht).symm
  | 1, _ => exact (Except.ok.inj ht).symm

theorem emptyOps_dt : ∀ r < 2, ∀ t, opsDType (emptyOps r) none = .ok t → t = DType.real := by
  intro r hr t ht
  match r, hr with
  | 0, _ => exact (Except.ok.inj ht).symm
  | 1, _ => exact absurd ht (by simp [emptyOps, opsDType])

theorem emptyOps_none : ¬ ∀ r < 2, emptyOps r ≠ [] := fun h => h 1 (by omega) rfl

example : Always 2 (vsProg 2 (fun _ _ => 0) vsOps none false (VSpace.vec ⟨.all 2, .real⟩ 2 [1, 10]))
    (fun r => .ok (VSpace.vec ⟨.lin 3 (fun r => outSum false (vsOps r)), .real⟩ 2 [21, 43, 65] r)) := by
  have h := (C86_vstack_matvec (n := 2) (J := fun _ _ => 0) (ops := vsOps) (dtype := none) (dx := .real) (dt := .real) (X := .all 2) (d := [1, 10]) (by omega)
    (fun o ho => by obtain ⟨x, y, rfl⟩ := vsOps_row ho; exact LOp.row_ok _ _ _ _) vsOps_dt (all_wf rfl) rfl ⟨rfl, fits_rat _ _⟩).1
    ⟨fun r _ => by unfold vsOps; split_ifs <;> simp, fun o ho => by obtain ⟨x, y, rfl⟩ := vsOps_row ho; rfl, rfl⟩
  have e : vcat false (allOps 2 vsOps) [1, 10] = [21, 43, 65] := by decide +kernel
  rwa [e] at h

/-- the input is scattered -/
example : Raises 2 (vsProg 2 (fun _ _ => 0) vsOps none false (VSpace.vec ⟨.lin 2 (fun _ => 1), .real⟩ 2 [1, 10])) :=
  (C86_vstack_matvec (n := 2) (J := fun _ _ => 0) (ops := vsOps) (dtype := none) (dx := .real) (dt := .real) (X := .lin 2 (fun _ => 1)) (d := [1, 10]) (by omega)
    (fun o ho => by obtain ⟨x, y, rfl⟩ := vsOps_row ho; exact LOp.row_ok _ _ _ _) vsOps_dt (lin_wf (by decide) (by simp)) rfl ⟨rfl, fits_rat _ _⟩).2 fun h => absurd h.2.2 (by decide)

/-- rank 1 has no operators -/
example : Raises 2 (vsProg 2 (fun _ _ => 0) emptyOps none true (VSpace.vec ⟨.lin 1 (fun r => if r = 0 then 1 else 0), .real⟩ 2 [5])) :=
  (C86_vstack_rmatvec (n := 2) (J := fun _ _ => 0) (ops := emptyOps) (dtype := none) (dx := .real) (dt := .real) (X := .lin 1 (fun r => if r = 0 then 1 else 0)) (d := [5]) (by omega)
    (fun o ho => by rw [emptyOps_row ho]; exact LOp.row_ok _ _ _ _) emptyOps_dt (lin_wf (by decide) (by simp)) rfl ⟨rfl, fits_rat _ _⟩).2 fun ⟨_, h⟩ => emptyOps_none h.1

example : Always 2 (hsProg 2 (fun _ _ => 0) vsOps none false (VSpace.vec ⟨.lin 6 (fun _ => 3), .real⟩ 2 [1, 1, 1, 1, 1, 2])) (fun r => .ok (VSpace.vec ⟨.all 1, .real⟩ 2 [27] r)) := by
  have h := (C86_hstack_matvec (n := 2) (J := fun _ _ => 0) (ops := vsOps) (dtype := none) (dx := .real) (dt := .real) (X := .lin 6 (fun _ => 3)) (d := [1, 1, 1, 1, 1, 2]) (by omega)
    (fun o ho => by obtain ⟨x, y, rfl⟩ := vsOps_row ho; exact LOp.row_ok _ _ _ _) vsOps_dt (lin_wf (by decide) (by simp)) rfl ⟨rfl, fits_rat _ _⟩).1 1
    ⟨fun r _ => by unfold vsOps; split_ifs <;> simp, fun o ho => by obtain ⟨x, y, rfl⟩ := vsOps_row ho; rfl, by decide, rfl, by
      intro r hr
      match r, hr with
      | 0, _ => decide⟩
  have e : hsum false 1 (allOps 2 vsOps) [1, 1, 1, 1, 1, 2] = [27] := by decide +kernel
  rwa [e] at h

/-- the input has too few entries -/
example : Raises 2 (hsProg 2 (fun _ _ => 0) vsOps none true (VSpace.vec ⟨.all 0, .real⟩ 2 [])) :=
  (C86_hstack_rmatvec (n := 2) (J := fun _ _ => 0) (ops := vsOps) (dtype := none) (dx := .real) (dt := .real) (X := .all 0) (d := []) (by omega)
    (fun o ho => by obtain ⟨x, y, rfl⟩ := vsOps_row ho; exact LOp.row_ok _ _ _ _) vsOps_dt (all_wf rfl) rfl ⟨rfl, fits_rat _ _⟩).2
    fun h => absurd (h.2.1 (.row [1, 2]) (by simp [allOps, vsOps, List.range_succ])) (by decide)

/-- rank 1 has no operators -/
example : Raises 2 (bdProg 2 (fun _ _ => 0) emptyOps none none false (VSpace.vec ⟨.lin 2 (fun r => if r = 0 then 2 else 0), .real⟩ 2 [1, 1])) :=
  (C86_blockDiag (n := 2) (J := fun _ _ => 0) (ops := emptyOps) (mask := none) (dtype := none) (b := false) (dx := .real) (dt := .real) (X := .lin 2 (fun r => if r = 0 then 2 else 0)) (d := [1, 1]) (by omega)
    (fun o ho => by rw [emptyOps_row ho]; exact LOp.row_ok _ _ _ _) emptyOps_dt (by simp) (lin_wf (by decide) (by simp)) rfl ⟨rfl, fits_rat _ _⟩).2 fun h => emptyOps_none h.1

/-- [1 2] on each of three ranks; all entries of the input are on rank 0, and rank 2 gets its piece from its neighbours only -/
example : Raises 3 (bdProg 3 (fun _ _ => 0) (fun _ => [.row [1, 2]]) none none false (VSpace.vec ⟨.lin 6 (fun r => if r = 0 then 6 else 0), .real⟩ 3 ([1, 1, 1, 1, 1, 1] : List ℚ))) :=
  (C86_blockDiag (n := 3) (J := fun _ _ => 0) (ops := fun _ => [.row [1, 2]]) (mask := none) (dtype := none) (b := false) (dx := .real) (dt := .real) (X := .lin 6 (fun r => if r = 0 then 6 else 0))
    (d := ([1, 1, 1, 1, 1, 1] : List ℚ)) (by omega) (fun o ho => by
      obtain ⟨_, _, ho⟩ := List.mem_flatMap.1 ho
      rw [List.mem_singleton.1 ho]
      exact LOp.row_ok _ _ _ _) (fun r _ t ht => (Except.ok.inj ht).symm) (by simp) (lin_wf (by decide) (by simp)) rfl ⟨rfl, fits_rat _ _⟩).2 fun h => absurd (h.2.2.2 1 (by omega)) (by decide)

end Verif

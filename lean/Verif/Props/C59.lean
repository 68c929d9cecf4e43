/- C59: solvers on arrays with a mask. -/
import Verif.Props.C46
import Verif.Proofs.GroupDeadlock

namespace Verif
open NDArray Serial

variable {K : Type} [RCLike K] {n : Nat} {J : Nat → Nat → K} {V W : VSpace} {M N : Nat → Nat} {op : Nat → XOp K} {tol damp : ℝ} {mx : Int} {m : Nat}

/-- **C59** (`cg`), partial: for all numbers of ranks, masks, layouts, operators that apply `A γ` in each group `γ`, data, limits and tolerances.  When the serial runs of all groups stop after
    the same number `m` of steps, every rank returns, in every execution, its part of the iterate `x_m` of its own group, `m`, the cost history of its group, and its callback has seen its parts of
    the iterates of its group.  Missing: groups that stop after different numbers of steps, for which the claim is false (`C59_cg_deadlock`, `C59_violated`). -/
theorem C59_cg_partial {A : ∀ γ, Vec K (N γ) → Vec K (N γ)} {y x0 : ∀ γ, Vec K (N γ)} (h : GCGHyp n J op V A y x0)
    (hst : ∀ r < n, Stops (fun i => (CG.seq K (A (V.L.color r)) (y (V.L.color r)) (x0 (V.L.color r)) i).k) mx tol 0 m)
    (hb : ∀ r < n, ∀ i < m, ¬ CG.Breaks K (A (V.L.color r)) (CG.seq K (A (V.L.color r)) (y (V.L.color r)) (x0 (V.L.color r)) i)) :
    Always n (fun r => CGS.solve (env n J r) (op r) (V.gpart n y r) (V.gpart n x0 r) (some mx) tol)
      (fun r => .ok (V.gpart n (fun γ => (CG.seq K (A γ) (y γ) (x0 γ) m).x) r, m,
        (List.range (m + 1)).map fun i => Real.sqrt (CG.seq K (A (V.L.color r)) (y (V.L.color r)) (x0 (V.L.color r)) i).k,
        (List.range' 1 m).map fun i => V.gpart n (fun γ => (CG.seq K (A γ) (y γ) (x0 γ) i).x) r)) :=
  (runs_gcg_solve h hst hb).always

/-- **C59** (`setup` and `j` calls of `step` of `CG`).  No assumption on when the groups would stop: the iterates of each group are those of the serial algorithm on its own operator and data. -/
theorem C59_cg_steps {A : ∀ γ, Vec K (N γ) → Vec K (N γ)} {y x0 : ∀ γ, Vec K (N γ)} (h : GCGHyp n J op V A y x0) {niter : Option Int} (j : Nat)
    (hb : ∀ r < n, ∀ i < j, ¬ CG.Breaks K (A (V.L.color r)) (CG.seq K (A (V.L.color r)) (y (V.L.color r)) (x0 (V.L.color r)) i)) :
    ∃ s : Nat → CGS K, (∀ r, (s r).iiter = j ∧ (s r).kold = (CG.seq K (A (V.L.color r)) (y (V.L.color r)) (x0 (V.L.color r)) j).k ∧
        (s r).cost = (List.range (j + 1)).map fun i => Real.sqrt (CG.seq K (A (V.L.color r)) (y (V.L.color r)) (x0 (V.L.color r)) i).k) ∧
      Always n (fun r => CGS.steps (env n J r) (op r) (V.gpart n y r) (V.gpart n x0 r) niter tol j)
        (fun r => .ok (s r, V.gpart n (fun γ => (CG.seq K (A γ) (y γ) (x0 γ) j).x) r)) :=
  ⟨_, fun _ => ⟨rfl, rfl, rfl⟩, (runs_gcg_steps h j hb).always⟩

/-- **C59** (`cgls`), partial: as for `cg`; `B γ` is what `rmatvec` computes in group `γ`.  Missing: groups that stop after different numbers of steps (`C59_cgls_deadlock`). -/
theorem C59_cgls_partial {A : ∀ γ, Vec K (M γ) → Vec K (N γ)} {B : ∀ γ, Vec K (N γ) → Vec K (M γ)} {y : ∀ γ, Vec K (N γ)} {x0 : ∀ γ, Vec K (M γ)}
    (h : GCGLSHyp n J op V W A B y x0) (hst : ∀ r < n, Stops (fun i => (gcgls A B damp y x0 i (V.L.color r)).k) mx tol 0 m)
    (hb : ∀ r < n, ∀ i < m, ¬ CGLS.Breaks (damp ^ 2) (gcgls A B damp y x0 i (V.L.color r))) :
    ∃ res : Nat → CGLSS.Result K, (∀ r, (res r).x = V.gpart n (fun γ => (gcgls A B damp y x0 m γ).x) r ∧ (res r).iiter = m ∧
        (res r).cost = (List.range (m + 1)).map (fun i => ‖(gcgls A B damp y x0 i (V.L.color r)).s‖) ∧ (res r).r1norm = (gcgls A B damp y x0 m (V.L.color r)).k ∧
        (res r).istop = (if (gcgls A B damp y x0 m (V.L.color r)).k < tol then 1 else 2) ∧
        (res r).trace = (List.range' 1 m).map fun i => V.gpart n (fun γ => (gcgls A B damp y x0 i γ).x) r) ∧
      Always n (fun r => CGLSS.solve (env n J r) (op r) (W.gpart n y r) (V.gpart n x0 r) (some mx) damp tol) (fun r => .ok (res r)) :=
  ⟨_, fun _ => ⟨rfl, rfl, rfl, rfl, rfl, rfl⟩, (runs_gcgls_solve h hst hb).always⟩

open Classical in
/-- **C59** (`cg`, groups that stop after different numbers of steps).  Let all groups make `m` steps, and let the group of a rank `q` stop then.  In every execution the ranks whose groups stop after `m`
    steps return the results of their groups, and *all other ranks wait forever*.  (`hw`: `matvec` starts with a collective operation of all ranks, as it does for `MPIBlockDiag`, see
    `C59_blockDiag_waits`.) -/
theorem C59_cg_deadlock {A : ∀ γ, Vec K (N γ) → Vec K (N γ)} {y x0 : ∀ γ, Vec K (N γ)} (h : GCGHyp n J op V A y x0)
    (hw : ∀ x : ∀ γ, Vec K (N γ), V.GHas n x → ∀ r < n, WaitsAll n ((op r).mv (env n J r) (V.gpart n x r)))
    (hgo : ∀ r < n, ∀ i < m, (i : Int) < mx ∧ tol < (CG.seq K (A (V.L.color r)) (y (V.L.color r)) (x0 (V.L.color r)) i).k)
    (hb : ∀ r < n, ∀ i < m, ¬ CG.Breaks K (A (V.L.color r)) (CG.seq K (A (V.L.color r)) (y (V.L.color r)) (x0 (V.L.color r)) i))
    {q : Nat} (hq : q < n) (hqs : ¬ ((m : Int) < mx ∧ tol < (CG.seq K (A (V.L.color q)) (y (V.L.color q)) (x0 (V.L.color q)) m).k)) :
    Ends n (fun r => CGS.solve (env n J r) (op r) (V.gpart n y r) (V.gpart n x0 r) (some mx) tol)
      (fun r => if (m : Int) < mx ∧ tol < (CG.seq K (A (V.L.color r)) (y (V.L.color r)) (x0 (V.L.color r)) m).k then none
        else some (.ok (V.gpart n (fun γ => (CG.seq K (A γ) (y γ) (x0 γ) m).x) r, m,
          (List.range (m + 1)).map fun i => Real.sqrt (CG.seq K (A (V.L.color r)) (y (V.L.color r)) (x0 (V.L.color r)) i).k,
          (List.range' 1 m).map fun i => V.gpart n (fun γ => (CG.seq K (A γ) (y γ) (x0 γ) i).x) r))) :=
  halts_gcg_solve h hw hgo hb hq hqs

open Classical in
/-- **C59** (`cgls`, groups that stop after different numbers of steps).  As for `cg`, for all operators. -/
theorem C59_cgls_deadlock {A : ∀ γ, Vec K (M γ) → Vec K (N γ)} {B : ∀ γ, Vec K (N γ) → Vec K (M γ)} {y : ∀ γ, Vec K (N γ)} {x0 : ∀ γ, Vec K (M γ)}
    (h : GCGLSHyp n J op V W A B y x0) (hgo : ∀ r < n, ∀ i < m, (i : Int) < mx ∧ tol < (gcgls A B damp y x0 i (V.L.color r)).k)
    (hb : ∀ r < n, ∀ i < m, ¬ CGLS.Breaks (damp ^ 2) (gcgls A B damp y x0 i (V.L.color r)))
    {q : Nat} (hq : q < n) (hqs : ¬ ((m : Int) < mx ∧ tol < (gcgls A B damp y x0 m (V.L.color q)).k)) :
    ∃ res : Nat → CGLSS.Result K, (∀ r, (res r).x = V.gpart n (fun γ => (gcgls A B damp y x0 m γ).x) r ∧ (res r).iiter = m) ∧
      Ends n (fun r => CGLSS.solve (env n J r) (op r) (W.gpart n y r) (V.gpart n x0 r) (some mx) damp tol)
        (fun r => if (m : Int) < mx ∧ tol < (gcgls A B damp y x0 m (V.L.color r)).k then none else some (.ok (res r))) :=
  ⟨_, fun _ => ⟨rfl, rfl⟩, halts_gcgls_solve h hgo hb hq hqs⟩

/-- **C59** (`MPIBlockDiag` with a mask).  Each group applies the block-diagonal matrix of the blocks of its ranks; so the hypotheses on the operator of the theorems above hold. -/
theorem C59_blockDiag {b : Bool} {ops : Nat → List (LOp K)} {dx dt : DType} {mask : Option (List Nat)} {A : ∀ γ, Vec K (M γ) → Vec K (N γ)} (hok : ∀ o ∈ allOps n ops, o.Ok b dx dt)
    (hne : ∀ r < n, ops r ≠ []) (hm : ∀ m, mask = some m → n ≤ m.length)
    (hA : ∀ r < n, ∀ v, FitsL dx (toL v) → toL (A ((inL b n ops mask).color r) v) = blockDiag b (groupOps (inL b n ops mask) n ops ((inL b n ops mask).color r)) (toL v)) :
    GActs n J (fun r => (MOp.toX (.leaf (bdPrim n ops mask dt r))).dir b) ⟨inL b n ops mask, dx⟩ ⟨inL (!b) n ops mask, dt⟩ A :=
  gacts_blockDiag hok hne hm hA

/-- **C59** (`MPIBlockDiag` starts with a collective operation of all ranks, whatever the mask). -/
theorem C59_blockDiag_waits {b : Bool} {ops : Nat → List (LOp K)} {dx dt : DType} {mask : Option (List Nat)} {L : Layout} (hp : L.part = .scatter)
    (hg : L.gshape = [inSum b (allOps n ops)]) (x : ∀ γ, Vec K (N γ)) {r : Nat} (hr : r < n) :
    WaitsAll n ((MOp.toX (.leaf (bdPrim n ops mask dt r))).dir b (env n J r) (VSpace.gpart ⟨L, dx⟩ n x r)) :=
  waits_blockDiag hp hg x hr

/-! ### diag(a, b) on two ranks that are groups of their own -/

namespace Diag2

/-- one entry on each rank, mask [0, 1] -/
def VM : VSpace := ⟨.lin 2 (fun _ => 1) (some [0, 1]), .real⟩
/-- `MPIBlockDiag` with this mask -/
noncomputable def opM (a b : ℝ) (r : Nat) : XOp ℝ := MOp.toX (.leaf (bdPrim 2 (ops a b) (some [0, 1]) .real r))
/-- each group has one number -/
noncomputable def AM (a b : ℝ) (γ : Nat) (x : Vec ℝ 1) : Vec ℝ 1 := (if γ = 0 then a else b) • x
/-- a vector with one entry in each group -/
noncomputable def vM (s t : ℝ) (γ : Nat) : Vec ℝ 1 := !₂[if γ = 0 then s else t]

theorem colorM {r : Nat} (hr : r < 2) : VM.L.color r = r := by interval_cases r <;> rfl

theorem hasM (x : Nat → Vec ℝ 1) : VM.GHas 2 x := fun r hr => by
  refine ⟨?_, fun _ z _ => by simp⟩
  rw [colorM hr, length_toL]
  interval_cases r <;> rfl

theorem inL_eqM (a b : ℝ) (d : Bool) : inL d 2 (ops a b) (some [0, 1]) = VM.L := by
  unfold inL VM
  have : (fun r => inSum d (ops a b r)) = fun _ => 1 := by
    funext r; unfold ops; split_ifs <;> cases d <;> simp [inSum, LOp.inDim, one]
  rw [this]
  cases d <;> simp [inSum, LOp.inDim, one, allOps, ops, List.range_succ]

theorem gacts (a b : ℝ) (d : Bool) (J : Nat → Nat → ℝ) : GActs 2 J (fun r => (opM a b r).dir d) VM VM (AM a b) := by
  have h := C59_blockDiag (J := J) (b := d) (n := 2) (ops := ops a b) (dx := .real) (dt := .real) (mask := some [0, 1]) (A := AM a b) (fun o ho => ok a b d ho)
    (fun r _ => by unfold ops; split_ifs <;> simp) (by simp) (fun r hr v _ => by
      rw [inL_eqM, colorM hr]
      interval_cases r <;> cases d <;>
        simp [groupOps, Layout.color, VM, Layout.lin, List.range_succ, blockDiag, slices, ops, one, LOp.inDim, LOp.fn, toL, List.ofFn_succ, AM])
  rw [inL_eqM, inL_eqM] at h
  exact h

theorem hypM (a b : ℝ) (y x0 : Nat → Vec ℝ 1) (J : Nat → Nat → ℝ) : GCGHyp 2 J (opM a b) VM (AM a b) y x0 :=
  ⟨lin_wf (by simp [psum]) (by simp), rfl, gacts a b false J, hasM y, hasM x0⟩

theorem hypLSM (a b : ℝ) (y x0 : Nat → Vec ℝ 1) (J : Nat → Nat → ℝ) : GCGLSHyp 2 J (opM a b) VM VM (AM a b) (AM a b) y x0 :=
  ⟨lin_wf (by simp [psum]) (by simp), lin_wf (by simp [psum]) (by simp), rfl, rfl, rfl, gacts a b false J, gacts a b true J, hasM y, hasM x0⟩

theorem waitsM (a b : ℝ) (J : Nat → Nat → ℝ) (x : Nat → Vec ℝ 1) : ∀ r < 2, WaitsAll 2 ((opM a b r).mv (env 2 J r) (VM.gpart 2 x r)) := fun r hr =>
  C59_blockDiag_waits (b := false) (L := VM.L) (dx := .real) rfl (by
    have := congrArg Layout.gshape (inL_eqM a b false)
    exact this.symm) x hr

end Diag2

open Diag2

/-- **C59 is false**: `cg` for diag(1, 1), data (1, 0), starting point 0 on two ranks with mask [0, 1] and `niter = 1`.  The group of rank 1 has nothing to do and returns at once; the group of rank 0
    makes a step: rank 0 waits forever, in every execution. -/
theorem C59_violated (J : Nat → Nat → ℝ) :
    Ends 2 (fun r => CGS.solve (env 2 J r) (opM 1 1 r) (VM.gpart 2 (vM 1 0) r) (VM.gpart 2 (vM 0 0) r) (some 1) 0)
      (fun r => if r = 0 then none else some (.ok (VM.gpart 2 (vM 0 0) r, 0, [0], []))) := by
  have k0 : ∀ γ, (CG.seq ℝ (AM 1 1 γ) (vM 1 0 γ) (vM 0 0 γ) 0).k = if γ = 0 then 1 else 0 := fun γ => by
    by_cases h : γ = 0 <;> simp [CG.seq, CG.init, AM, vM, EuclideanSpace.norm_sq_eq, h]
  have h := C59_cg_deadlock (mx := 1) (tol := 0) (m := 0) (hypM 1 1 (vM 1 0) (vM 0 0) J) (fun x _ => waitsM 1 1 J x) (fun _ _ i hi => by omega) (fun _ _ i hi => by omega) (q := 1)
    (by omega) (by rw [colorM (by omega), k0]; norm_num)
  refine h.congr' rfl fun r hr => ?_
  have hx : (fun γ => (CG.seq ℝ (AM 1 1 γ) (vM 1 0 γ) (vM 0 0 γ) 0).x) = vM 0 0 := rfl
  rw [hx, colorM hr]
  simp only [k0, Nat.zero_add, List.range_one, List.map_cons, List.map_nil, List.range'_zero]
  interval_cases r <;> simp

/-- **C46 is false for arrays with a mask**: one step of `cg` for diag(1, 2), data (1, 1), starting point 0 on two ranks.  With mask [0, 1] the result is (1, 1/2) in every execution; the iterate of the
    serial algorithm on the gathered operator and data is (2/3, 2/3). -/
theorem C46_violated_mask (J : Nat → Nat → ℝ) :
    (CG.seq ℝ (A 1 2) !₂[1, 1] 0 1).x = !₂[2 / 3, 2 / 3] ∧
    ∃ res : Nat → XArr ℝ × Nat × List ℝ × List (XArr ℝ), (∀ r < 2, (res r).1 = VM.gpart 2 (vM 1 (1 / 2)) r) ∧
      Always 2 (fun r => CGS.solve (env 2 J r) (opM 1 2 r) (VM.gpart 2 (vM 1 1) r) (VM.gpart 2 (vM 0 0) r) (some 1) 0) (fun r => .ok (res r)) := by
  have hi : ∀ γ, CG.seq ℝ (AM 1 2 γ) (vM 1 1 γ) (vM 0 0 γ) 0 = ⟨vM 0 0 γ, vM 1 1 γ, vM 1 1 γ, 1⟩ := fun γ => by
    have h0 : vM 0 0 γ = 0 := by ext i; fin_cases i; simp [vM]
    have h1 : ‖vM 1 1 γ‖ ^ 2 = 1 := by rw [EuclideanSpace.norm_sq_eq]; simp [vM]
    simp only [CG.seq, CG.init, Function.iterate_zero, id_eq, h0, AM, smul_zero, sub_zero, h1]
  have hc : ∀ γ, inner ℝ (vM 1 1 γ) (AM 1 2 γ (vM 1 1 γ)) = (if γ = 0 then 1 else 2 : ℝ) := fun γ => by
    have h1 : inner ℝ (vM 1 1 γ) (vM 1 1 γ) = (1 : ℝ) := by rw [PiLp.inner_apply]; simp [vM]
    rw [AM, inner_smul_right, h1, mul_one]
  have hx : (fun γ => (CG.seq ℝ (AM 1 2 γ) (vM 1 1 γ) (vM 0 0 γ) 1).x) = vM 1 (1 / 2) := by
    funext γ
    rw [CG.seq_succ, hi]
    simp only [CG.next, CG.alpha, hc]
    ext i
    fin_cases i
    by_cases h : γ = 0 <;> simp [vM, h]
  refine ⟨?_, fun r => (_, _, _, _), fun r _ => congrArg (fun z => VM.gpart 2 z r) hx,
    C59_cg_partial (m := 1) (hypM 1 2 (vM 1 1) (vM 0 0) J) (fun r hr => ⟨by omega, fun i _ h1 => ?_, .inl (by simp)⟩) (fun r hr i h1 => ?_)⟩
  · have h0 : CG.seq ℝ (A 1 2) !₂[1, 1] 0 0 = ⟨0, !₂[1, 1], !₂[1, 1], 2⟩ := by
      have h1 : ‖(!₂[1, 1] : Vec ℝ 2)‖ ^ 2 = 2 := by rw [EuclideanSpace.norm_sq_eq]; simp [Fin.sum_univ_two]; norm_num
      simp only [CG.seq, CG.init, Function.iterate_zero, id_eq, map_zero, sub_zero, h1]
    have h1 : inner ℝ (!₂[1, 1] : Vec ℝ 2) (A 1 2 !₂[1, 1]) = (3 : ℝ) := by simp [A, PiLp.inner_apply, Fin.sum_univ_two]; norm_num
    rw [CG.seq_succ, h0]
    simp only [CG.next, CG.alpha, h1]
    ext i
    fin_cases i <;> simp
  · obtain rfl : i = 0 := by omega
    simp only [hi]
    norm_num
  · obtain rfl : i = 0 := by omega
    rw [hi, CG.Breaks, hc]
    split_ifs <;> norm_num

/-- Non-vacuity of the theorems for `cgls`: data (1, 0) as in `C59_violated`. -/
example (J : Nat → Nat → ℝ) : ∃ res : Nat → CGLSS.Result ℝ, Ends 2 (fun r => CGLSS.solve (env 2 J r) (opM 1 1 r) (VM.gpart 2 (vM 1 0) r) (VM.gpart 2 (vM 0 0) r) (some 1) 0 0)
    (fun r => if r = 0 then none else some (.ok (res r))) := by
  have k0 : ∀ γ, (gcgls (AM 1 1) (AM 1 1) 0 (vM 1 0) (vM 0 0) 0 γ).k = if γ = 0 then 1 else 0 := fun γ => by
    by_cases h : γ = 0 <;> simp [gcgls, CGLS.seq, CGLS.init, AM, vM, EuclideanSpace.norm_sq_eq, h]
  obtain ⟨res, _, h⟩ := C59_cgls_deadlock (mx := 1) (tol := 0) (damp := 0) (m := 0) (hypLSM 1 1 (vM 1 0) (vM 0 0) J) (fun _ _ i hi => by omega) (fun _ _ i hi => by omega) (q := 1)
    (by omega) (by rw [colorM (by omega), k0]; norm_num)
  refine ⟨res, h.congr' rfl fun r hr => ?_⟩
  simp only [colorM hr, k0]
  interval_cases r <;> simp

/-- Non-vacuity of `C59_cgls_partial`: one step for diag(1, 2), data (1, 1). -/
example (J : Nat → Nat → ℝ) : ∃ res : Nat → CGLSS.Result ℝ, (∀ r, (res r).iiter = 1) ∧
    Always 2 (fun r => CGLSS.solve (env 2 J r) (opM 1 2 r) (VM.gpart 2 (vM 1 1) r) (VM.gpart 2 (vM 0 0) r) (some 1) 0 0) (fun r => .ok (res r)) := by
  have h0 : ∀ γ, vM 0 0 γ = 0 := fun γ => by ext i; fin_cases i; simp [vM]
  have k0 : ∀ γ, (gcgls (AM 1 2) (AM 1 2) 0 (vM 1 1) (vM 0 0) 0 γ).k = if γ = 0 then 1 else 4 := fun γ => by
    by_cases h : γ = 0 <;> simp [gcgls, CGLS.seq, CGLS.init, AM, h0, EuclideanSpace.norm_sq_eq, h] <;> simp [vM] <;> norm_num
  have q0 : ∀ γ, ‖(gcgls (AM 1 2) (AM 1 2) 0 (vM 1 1) (vM 0 0) 0 γ).q‖ ^ 2 = if γ = 0 then 1 else 16 := fun γ => by
    by_cases h : γ = 0 <;> simp [gcgls, CGLS.seq, CGLS.init, AM, h0, EuclideanSpace.norm_sq_eq, h] <;> simp [vM] <;> norm_num
  obtain ⟨res, h1, h2⟩ := C59_cgls_partial (mx := 1) (tol := 0) (damp := 0) (m := 1) (hypLSM 1 2 (vM 1 1) (vM 0 0) J)
    (fun r hr => ⟨by omega, fun i _ h1 => by
      obtain rfl : i = 0 := by omega
      simp only [k0]
      split_ifs <;> norm_num, .inl (by simp)⟩)
    (fun r hr i h1 => by
      obtain rfl : i = 0 := by omega
      rw [CGLS.Breaks, q0, k0]
      split_ifs <;> norm_num)
  exact ⟨res, fun r => (h1 r).2.1, h2⟩

end Verif

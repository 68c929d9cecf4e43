/- C41: loop control of the solvers. -/
import Verif.Props.C40

namespace Verif
open NDArray Serial

variable {K : Type} [RCLike K] {n : Nat} {J : Nat → Nat → K} {S T : XSpace} {M N : Nat} {op : Nat → XOp K} {tol damp : ℝ}

/-! ### CG -/

section
variable {y x0 : Vec K N} {A : Vec K N →ₗ[K] Vec K N} {niter0 niter1 : Option Int} {mx : Int}

/-- **C41** (CG).  `setup` with `niter0`, `j` calls of `step`, then `run` with `niter1` (which takes precedence), giving the limit `mx`: when the squared residual norms
    `‖y - A x_i‖²` of the iterates make the loop stop after `m` steps (the limit is reached or the tolerance is met, and neither was the case before), and no step
    divides by zero, then all ranks return `x_m`, `iiter = m`, and the callback was called with x_{j+1}, …, x_m, once each and in this order; at most `mx` steps are made. -/
theorem C41_cg (hS : S.WF n) (hm : S.NoMask) (hA : Acts n J (fun r => (op r).mv) S S A) (hy : S.Has y) (hx : S.Has x0) (hn : niter1.or niter0 = some mx) {j m : Nat}
    (hst : Stops (fun i => ‖y - A (CG.seq K A y x0 i).x‖ ^ 2) mx tol j m) (hb : ∀ i < m, ¬ CG.Breaks K A (CG.seq K A y x0 i)) :
    (m = j ∨ (m : Int) ≤ mx) ∧ ∃ st : Nat → CGS K, (∀ r, (st r).iiter = m) ∧
    Always n (fun r => (CGS.steps (env n J r) (op r) (S.part n y r) (S.part n x0 r) niter0 tol j).bind fun p => CGS.run (env n J r) (op r) p.1 p.2 niter1)
      (fun r => .ok (st r, S.part n (CG.seq K A y x0 m).x r, (List.range' (j + 1) (m - j)).map fun i => S.part n (CG.seq K A y x0 i).x r)) := by
  have hk : (fun i => ‖y - A (CG.seq K A y x0 i).x‖ ^ 2) = fun i => (CG.seq K A y x0 i).k := by
    funext i; have h := CG.inv A y x0 i; rw [h.2, h.1]
  rw [hk] at hst
  refine ⟨?_, fun r => cgState S n y x0 niter0 tol A m r, fun r => rfl, (runs_cg_run hS hm hA hy hx hn hst hb).always⟩
  by_contra hc
  push Not at hc
  have := (hst.2.1 (m - 1) (by have := hst.1; omega) (by have := hst.1; omega)).1
  omega

/-- **C41** (CG, all cases).  For all operators, data, limits and tolerances either the loop stops as above or it comes to a step that divides by zero, which then fails on all ranks. -/
theorem C41_cg_cases (hS : S.WF n) (hm : S.NoMask) (hA : Acts n J (fun r => (op r).mv) S S A) (hy : S.Has y) (hx : S.Has x0) (mx : Int) (tol : ℝ) :
    ∃ m, (∀ i < m, ¬ CG.Breaks K A (CG.seq K A y x0 i)) ∧ (Stops (fun i => ‖y - A (CG.seq K A y x0 i).x‖ ^ 2) mx tol 0 m ∨
      (∀ i ≤ m, (i : Int) < mx ∧ ‖y - A (CG.seq K A y x0 i).x‖ ^ 2 > tol) ∧ CG.Breaks K A (CG.seq K A y x0 m) ∧
      ∃ e : Err, (e = .nonfinite ∨ e = .zeroDiv) ∧ Always n (fun r => CGS.solve (env n J r) (op r) (S.part n y r) (S.part n x0 r) (some mx) tol) (fun _ => .error e)) := by
  have hk : (fun i => ‖y - A (CG.seq K A y x0 i).x‖ ^ 2) = fun i => (CG.seq K A y x0 i).k := by
    funext i; have h := CG.inv A y x0 i; rw [h.2, h.1]
  obtain ⟨m, h1, h2⟩ := stops_or_hits (fun i => ‖y - A (CG.seq K A y x0 i).x‖ ^ 2) (fun i => CG.Breaks K A (CG.seq K A y x0 i)) mx tol mx.toNat 0 (by omega) (by simp)
  refine ⟨m, h1, h2.imp id fun h => ⟨fun i hi => h.2.1 i (by omega) hi, h.2.2, ?_⟩⟩
  rw [hk] at h
  have h3 := runs_cg_run_break (niter := some mx) (niter1 := some mx) hS hm hA hy hx rfl h h1
  have h4 := Runs.bind (k := fun r q => .ret (q.2.1, q.1.iiter, q.1.cost, q.2.2)) h3 (Runs.throw _)
  refine ⟨_, ?_, (h4.congr (fun r _ => ?_) fun r _ => rfl).always⟩
  · split_ifs <;> simp
  · simp only [CGS.solve, CGS.steps, Prog.bind_eq, Prog.bind_assoc]

/-- **C41** (CG without a limit).  All ranks raise ValueError. -/
theorem C41_cg_none (hS : S.WF n) (hm : S.NoMask) (hA : Acts n J (fun r => (op r).mv) S S A) (hy : S.Has y) (hx : S.Has x0) :
    Always n (fun r => CGS.solve (env n J r) (op r) (S.part n y r) (S.part n x0 r) none tol) (fun _ => .error .value) := by
  refine Runs.always ?_
  simp only [CGS.solve, Prog.bind_eq]
  refine Runs.bind_ok (runs_cg_setup hS hm hA hy hx) ?_
  exact Runs.throw _

end

/-! ### CGLS -/

section
variable {y : Vec K N} {x0 : Vec K M} {A : Vec K M →ₗ[K] Vec K N} {B : Vec K N → Vec K M} {niter0 niter1 : Option Int} {mx : Int}

/-- **C41** (CGLS).  As for CG; the squared residual measure is that of the gradient, `kold`. -/
theorem C41_cgls (h : CGLSHyp n J op S T A B y x0) (hn : niter1.or niter0 = some mx) {j m : Nat}
    (hst : Stops (fun i => (CGLS.seq K A B damp (damp ^ 2) y x0 i).k) mx tol j m) (hb : ∀ i < m, ¬ CGLS.Breaks (damp ^ 2) (CGLS.seq K A B damp (damp ^ 2) y x0 i)) :
    (m = j ∨ (m : Int) ≤ mx) ∧ ∃ st : Nat → CGLSS K, (∀ r, (st r).iiter = m ∧ (st r).kold = (CGLS.seq K A B damp (damp ^ 2) y x0 m).k) ∧
    Always n (fun r => (CGLSS.steps (env n J r) (op r) (T.part n y r) (S.part n x0 r) niter0 damp tol j).bind fun p => CGLSS.run (env n J r) (op r) p.1 p.2 niter1)
      (fun r => .ok (st r, S.part n (CGLS.seq K A B damp (damp ^ 2) y x0 m).x r,
        (List.range' (j + 1) (m - j)).map fun i => S.part n (CGLS.seq K A B damp (damp ^ 2) y x0 i).x r)) := by
  refine ⟨?_, fun r => cglsState S T n y x0 niter0 damp tol A B m r, fun r => ⟨rfl, rfl⟩, (runs_cgls_run h hn hst hb).always⟩
  by_contra hc
  push Not at hc
  have := (hst.2.1 (m - 1) (by have := hst.1; omega) (by have := hst.1; omega)).1
  omega

/-- **C41** (`cgls`).  `istop` is 1 when the measure is below the tolerance and 2 otherwise, `iiter` is the number of steps, the callback is called with each iterate. -/
theorem C41_cgls_solve (h : CGLSHyp n J op S T A B y x0) {m : Nat}
    (hst : Stops (fun i => (CGLS.seq K A B damp (damp ^ 2) y x0 i).k) mx tol 0 m) (hb : ∀ i < m, ¬ CGLS.Breaks (damp ^ 2) (CGLS.seq K A B damp (damp ^ 2) y x0 i)) :
    ∃ res : Nat → CGLSS.Result K, (∀ r, (res r).x = S.part n (CGLS.seq K A B damp (damp ^ 2) y x0 m).x r ∧ (res r).iiter = m
      ∧ ((res r).istop = 1 ↔ (CGLS.seq K A B damp (damp ^ 2) y x0 m).k < tol) ∧ ((res r).istop = 1 ∨ (res r).istop = 2)
      ∧ (res r).trace = (List.range' 1 m).map fun i => S.part n (CGLS.seq K A B damp (damp ^ 2) y x0 i).x r) ∧
    Always n (fun r => CGLSS.solve (env n J r) (op r) (T.part n y r) (S.part n x0 r) (some mx) damp tol) (fun r => .ok (res r)) := by
  refine ⟨_, fun r => ⟨rfl, rfl, ?_, ?_, rfl⟩, (runs_cgls_solve h hst hb).always⟩
  · dsimp only; split_ifs with h1 <;> simp [h1]
  · dsimp only; split_ifs <;> simp

/-- **C41** (CGLS, all cases). -/
theorem C41_cgls_cases (h : CGLSHyp n J op S T A B y x0) (mx : Int) (damp tol : ℝ) :
    ∃ m, (∀ i < m, ¬ CGLS.Breaks (damp ^ 2) (CGLS.seq K A B damp (damp ^ 2) y x0 i)) ∧ (Stops (fun i => (CGLS.seq K A B damp (damp ^ 2) y x0 i).k) mx tol 0 m ∨
      (∀ i ≤ m, (i : Int) < mx ∧ (CGLS.seq K A B damp (damp ^ 2) y x0 i).k > tol) ∧ CGLS.Breaks (damp ^ 2) (CGLS.seq K A B damp (damp ^ 2) y x0 m) ∧
      ∃ e : Err, (e = .nonfinite ∨ e = .zeroDiv) ∧
        Always n (fun r => CGLSS.solve (env n J r) (op r) (T.part n y r) (S.part n x0 r) (some mx) damp tol) (fun _ => .error e)) := by
  obtain ⟨m, h1, h2⟩ := stops_or_hits (fun i => (CGLS.seq K A B damp (damp ^ 2) y x0 i).k) (fun i => CGLS.Breaks (damp ^ 2) (CGLS.seq K A B damp (damp ^ 2) y x0 i)) mx tol mx.toNat 0
    (by omega) (by simp)
  refine ⟨m, h1, h2.imp id fun hh => ⟨fun i hi => hh.2.1 i (by omega) hi, hh.2.2, _, ?_, (runs_cgls_solve_break h hh h1).always⟩⟩
  split_ifs <;> simp

/-- **C41** (CGLS without a limit). -/
theorem C41_cgls_none (h : CGLSHyp n J op S T A B y x0) :
    Always n (fun r => CGLSS.solve (env n J r) (op r) (T.part n y r) (S.part n x0 r) none damp tol) (fun _ => .error .value) := by
  refine Runs.always ?_
  simp only [CGLSS.solve, Prog.bind_eq]
  refine Runs.bind_ok (runs_cgls_setup h) ?_
  exact Runs.throw _

end

/-- Non-vacuity: diag(2, 5) on two ranks with a limit of one step. -/
example : ∃ st : Nat → CGS ℝ, (∀ r, (st r).iiter = 1) ∧
    Always 2 (fun r => (CGS.steps (env 2 (fun _ _ => 0) r) (Diag2.op 2 5 r) ((XSpace.one Diag2.V).part 2 !₂[(2 : ℝ), 5] r) ((XSpace.one Diag2.V).part 2 (0 : Vec ℝ 2) r) none 0 0).bind
        fun p => CGS.run (env 2 (fun _ _ => 0) r) (Diag2.op 2 5 r) p.1 p.2 (some 1))
      (fun r => .ok (st r, (XSpace.one Diag2.V).part 2 (CG.seq ℝ (Diag2.A 2 5) !₂[2, 5] 0 1).x r, [(XSpace.one Diag2.V).part 2 (CG.seq ℝ (Diag2.A 2 5) !₂[2, 5] 0 1).x r])) := by
  refine (C41_cg (mx := 1) Diag2.wf Diag2.noMask (Diag2.acts 2 5 false (fun _ _ => 0)) (Diag2.has _) (Diag2.has _) rfl (m := 1) ⟨by omega, fun i _ hi => ?_, .inl (by simp)⟩ fun i hi => ?_).2
  · obtain rfl : i = 0 := by omega
    refine ⟨by simp, ?_⟩
    simp [CG.seq, CG.init, EuclideanSpace.norm_sq_eq, Fin.sum_univ_two, Diag2.A]; norm_num
  · obtain rfl : i = 0 := by omega
    exact diag2_ok

end Verif

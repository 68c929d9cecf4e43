/- C40: CG residual invariant. -/
import Verif.Proofs.SolverExample

namespace Verif
open NDArray Serial

variable {K : Type} [RCLike K] {n : Nat} {J : Nat → Nat → K} {S : XSpace} {N : Nat} {op : Nat → XOp K} {y x0 : Vec K N} {niter : Option Int} {tol : ℝ}

theorem cg_cost (A : Vec K N →ₗ[K] Vec K N) (i : Nat) : Real.sqrt (CG.seq K A y x0 i).k = ‖y - A (CG.seq K A y x0 i).x‖ := by
  have h := CG.inv A y x0 i
  rw [h.2, Real.sqrt_sq (norm_nonneg _), h.1]

/-- **C40**.  There are iterates `xs` and directions `cs`, starting at `x0`, such that for every number `j` of steps: when none of these steps divides by zero
    (in serial CG), then in every execution all ranks end `setup` and `j` calls of `step` with the iterate
    `xs j`, the tracked residual is `y - A (xs j)`, `kold` its squared norm, `cost` the list of the norms of the residuals of `xs 0, …, xs j`, and
    `len(cost) = iiter + 1 = j + 1`. -/
theorem C40_invariant (hS : S.WF n) (hm : S.NoMask) {A : Vec K N →ₗ[K] Vec K N} (hA : Acts n J (fun r => (op r).mv) S S A) (hy : S.Has y) (hx : S.Has x0) :
    ∃ xs cs : Nat → Vec K N, xs 0 = x0 ∧ ∀ j, (∀ i < j, ¬ CG.Breaks K A (CG.seq K A y x0 i)) →
      Always n (fun r => CGS.steps (env n J r) (op r) (S.part n y r) (S.part n x0 r) niter tol j)
        (fun r => .ok (⟨S.part n y r, niter, tol, S.part n (y - A (xs j)) r, S.part n (cs j) r, ‖y - A (xs j)‖ ^ 2,
          (List.range (j + 1)).map fun i => ‖y - A (xs i)‖, j⟩, S.part n (xs j) r)) := by
  refine ⟨fun j => (CG.seq K A y x0 j).x, fun j => (CG.seq K A y x0 j).c, rfl, fun j hb => ?_⟩
  have h1 := runs_cg_steps (niter := niter) (tol := tol) hS hm hA hy hx j hb
  refine Runs.always (h1.congr (fun _ _ => rfl) fun r _ => ?_)
  have h := CG.inv A y x0 j
  unfold cgState
  rw [← h.1, ← h.2]
  simp only [cg_cost]

/-- **C40** (the other case).  When step `j` divides by zero and the steps before it do not, it fails on all ranks (or continues with infinities). -/
theorem C40_break (hS : S.WF n) (hm : S.NoMask) {A : Vec K N →ₗ[K] Vec K N} (hA : Acts n J (fun r => (op r).mv) S S A) (hy : S.Has y) (hx : S.Has x0) {j : Nat}
    (hb : ∀ i < j, ¬ CG.Breaks K A (CG.seq K A y x0 i)) (hj : CG.Breaks K A (CG.seq K A y x0 j)) :
    ∃ e : Err, (e = .nonfinite ∨ e = .zeroDiv) ∧
      Always n (fun r => CGS.steps (env n J r) (op r) (S.part n y r) (S.part n x0 r) niter tol (j + 1)) (fun _ => .error e) := by
  have h : Runs n (fun r => CGS.steps (env n J r) (op r) (S.part n y r) (S.part n x0 r) niter tol (j + 1)) _ :=
    Runs.bind_ok (runs_cg_steps hS hm hA hy hx j hb) (cg_step_break hS hm hA hy hx j hj)
  refine ⟨_, ?_, h.always⟩
  split_ifs <;> simp

theorem diag2_ok : ¬ CG.Breaks ℝ (Diag2.A 2 5) (CG.seq ℝ (Diag2.A 2 5) !₂[2, 5] 0 0) := by
  have e : (CG.seq ℝ (Diag2.A 2 5) !₂[2, 5] 0 0).c = !₂[2, 5] := by simp [CG.seq, CG.init]
  have e' : (CG.seq ℝ (Diag2.A 2 5) !₂[2, 5] 0 0).k = 29 := by
    simp [CG.seq, CG.init, EuclideanSpace.norm_sq_eq, Fin.sum_univ_two]; norm_num
  rintro (h | h)
  · rw [e] at h
    simp [Diag2.A, PiLp.inner_apply, Fin.sum_univ_two] at h
    norm_num at h
  · rw [e'] at h; norm_num at h

/-- Non-vacuity: diag(2, 5) on two ranks, y = (2, 5), x0 = 0, one step. -/
example : ∃ xs cs : Nat → Vec ℝ 2, xs 0 = 0 ∧
      Always 2 (fun r => CGS.steps (env 2 (fun _ _ => 0) r) (Diag2.op 2 5 r) ((XSpace.one Diag2.V).part 2 !₂[(2 : ℝ), 5] r) ((XSpace.one Diag2.V).part 2 (0 : Vec ℝ 2) r) (some 3) 0 1)
        (fun r => .ok (⟨(XSpace.one Diag2.V).part 2 !₂[(2 : ℝ), 5] r, some 3, 0, (XSpace.one Diag2.V).part 2 (!₂[2, 5] - Diag2.A 2 5 (xs 1)) r,
          (XSpace.one Diag2.V).part 2 (cs 1) r, ‖!₂[2, 5] - Diag2.A 2 5 (xs 1)‖ ^ 2, (List.range 2).map fun i => ‖!₂[2, 5] - Diag2.A 2 5 (xs i)‖, 1⟩,
          (XSpace.one Diag2.V).part 2 (xs 1) r)) := by
  obtain ⟨xs, cs, h1, h2⟩ := C40_invariant (niter := some 3) (tol := 0) (x0 := (0 : Vec ℝ 2)) Diag2.wf Diag2.noMask (Diag2.acts 2 5 false (fun _ _ => 0)) (Diag2.has !₂[2, 5]) (Diag2.has _)
  refine ⟨xs, cs, h1, h2 1 fun i hi => ?_⟩
  obtain rfl : i = 0 := by omega
  exact diag2_ok

end Verif

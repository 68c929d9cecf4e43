/- C87: How fast the solvers converge. -/
import Verif.Props.C42
import Verif.Props.C45
import Verif.Proofs.CGRate

namespace Verif
open NDArray Serial

section
variable {K : Type} [RCLike K] {n : Nat} {J : Nat → Nat → K} {S : XSpace} {N : Nat} {op : Nat → XOp K} {y x0 : Vec K N} {A : Vec K N →ₗ[K] Vec K N} {tol a b : ℝ}

theorem cg_solve (hS : S.WF n) (hm : S.NoMask) (hA : Acts n J (fun r => (op r).mv) S S A) (hy : S.Has y) (hx : S.Has x0) (hpd : HPD A) (htol : 0 ≤ tol) {mx : Int} {m : Nat}
    (hst : Stops (fun i => (CG.seq K A y x0 i).k) mx tol 0 m) :
    (∀ j < m, (CG.seq K A y x0 j).r ≠ 0) ∧ ∃ (costs : List ℝ) (tr : Nat → List (XArr K)),
      Always n (fun r => CGS.solve (env n J r) (op r) (S.part n y r) (S.part n x0 r) (some mx) tol) (fun r => .ok (S.part n (CG.seq K A y x0 m).x r, m, costs, tr r)) := by
  have hne : ∀ j < m, (CG.seq K A y x0 j).r ≠ 0 := by
    intro j hj h0
    have := (hst.2.1 j (by omega) hj).2
    dsimp only at this
    rw [(CG.inv A y x0 j).2, h0, norm_zero] at this
    norm_num at this
    linarith
  have h1 := runs_cg_run (niter := some mx) (niter1 := some mx) hS hm hA hy hx rfl hst fun i hi => CG.no_break hpd.spsd (hpd.range _) fun k hk => hne k (by omega)
  have h2 := Runs.bind_ok (k := fun r q => .ret (q.2.1, q.1.iiter, q.1.cost, q.2.2)) h1 (Runs.ret _)
  refine ⟨hne, _, _, (h2.congr (fun r _ => ?_) fun r _ => rfl).always⟩
  simp only [CGS.solve, CGS.steps, Prog.bind_eq, Prog.bind_assoc]

/-- **C87** (`cg`).  Let the operator be Hermitian positive definite with eigenvalues between `a` and `b`, and the tolerance not negative.  Whatever the limit on the number of steps, in all executions
    all ranks end with their parts of one vector `x` after `m` steps, and
    * the limit is reached or the squared residual is within the tolerance;
    * `x` is the best vector in x0 + span (r, A r, …, A^(m-1) r), r = y - A x0, in the energy norm;
    * the energy norm of the error is at most 2 ((√κ - 1) / (√κ + 1))^m times the first one, κ = b / a. -/
theorem C87_cg (hS : S.WF n) (hm : S.NoMask) (hA : Acts n J (fun r => (op r).mv) S S A) (hy : S.Has y) (hx : S.Has x0) (hpd : HPD A) (ha : 0 < a) (hab : a ≤ b) (hev : SpectrumIn A a b)
    (htol : 0 ≤ tol) (mx : Int) :
    ∃ (m : Nat) (x : Vec K N) (costs : List ℝ) (tr : Nat → List (XArr K)),
      Always n (fun r => CGS.solve (env n J r) (op r) (S.part n y r) (S.part n x0 r) (some mx) tol) (fun r => .ok (S.part n x r, m, costs, tr r)) ∧
      m ≤ mx.toNat ∧ (m = mx.toNat ∨ ‖y - A x‖ ^ 2 ≤ tol) ∧
      x - x0 ∈ krylov A (y - A x0) m ∧
      ∀ xsol, A xsol = y → (∀ w ∈ krylov A (y - A x0) m, energyOf A (xsol - x) ≤ energyOf A (xsol - (x0 + w))) ∧
        √(energyOf A (xsol - x)) ≤ 2 * rho a b ^ m * √(energyOf A (xsol - x0)) := by
  obtain ⟨m, hst, hle, hend⟩ := CG.exists_stops (fun i => (CG.seq K A y x0 i).k) mx tol
  obtain ⟨hne, costs, tr, hrun⟩ := cg_solve hS hm hA hy hx hpd htol hst
  refine ⟨m, _, costs, tr, hrun, hle, hend.imp id fun h => ?_, CG.dirs_le m (CG.x_mem m), fun xsol hsol => ⟨fun w hw => ?_, ?_⟩⟩
  · rw [← (CG.inv A y x0 m).1, ← (CG.inv A y x0 m).2]
    exact h
  · exact CG.optimal hpd.spsd (hpd.range _) hne hsol (CG.le_dirs hpd.spsd (hpd.range _) hne hw)
  · have := CG.rate hpd.spsd (hpd.range _) ha hab hev hne hsol
    have h0 : 0 ≤ 2 * rho a b ^ m := mul_nonneg (by norm_num) (pow_nonneg (CG.rho_nonneg hab) m)
    refine (Real.sqrt_le_sqrt this).trans_eq ?_
    rw [Real.sqrt_mul (by positivity), Real.sqrt_sq (x := 2 * ((√b - √a) / (√b + √a)) ^ m) h0]
    rfl

/-- **C87** (`cg`, number of steps).  With tolerance 0 and a limit of at least ½ √κ log (2 / ε) steps, the energy norm of the error is reduced at least by the factor `ε`. -/
theorem C87_cg_count (hS : S.WF n) (hm : S.NoMask) (hA : Acts n J (fun r => (op r).mv) S S A) (hy : S.Has y) (hx : S.Has x0) (hpd : HPD A) (ha : 0 < a) (hab : a ≤ b) (hev : SpectrumIn A a b)
    {ε : ℝ} (hε : 0 < ε) {mx : Nat} (hmx : √(b / a) / 2 * Real.log (2 / ε) ≤ mx) :
    ∃ (m : Nat) (x : Vec K N) (costs : List ℝ) (tr : Nat → List (XArr K)),
      Always n (fun r => CGS.solve (env n J r) (op r) (S.part n y r) (S.part n x0 r) (some mx) 0) (fun r => .ok (S.part n x r, m, costs, tr r)) ∧
      ∀ xsol, A xsol = y → √(energyOf A (xsol - x)) ≤ ε * √(energyOf A (xsol - x0)) := by
  obtain ⟨m, x, costs, tr, h1, h2, h3, -, h5⟩ := C87_cg hS hm hA hy hx hpd ha hab hev le_rfl mx
  refine ⟨m, x, costs, tr, h1, fun xsol hsol => ?_⟩
  rcases h3 with h3 | h3
  · refine (h5 xsol hsol).2.trans (mul_le_mul_of_nonneg_right (CG.rho_count ha hab hε ?_) (Real.sqrt_nonneg _))
    rw [h3]
    simpa using hmx
  · have h6 : ‖y - A x‖ = 0 := by
      have : 0 ≤ ‖y - A x‖ ^ 2 := by positivity
      exact pow_eq_zero_iff two_ne_zero |>.1 (le_antisymm h3 this)
    have h7 : A (xsol - x) = 0 := by rw [map_sub, hsol]; exact norm_eq_zero.1 h6
    have h8 : energyOf A (xsol - x) = 0 := by unfold energyOf; rw [h7, inner_zero_right, map_zero]
    rw [h8, Real.sqrt_zero]
    positivity

/-- **C87** (`cg`, few eigenvalues).  With tolerance 0 and a limit of at least the number of different eigenvalues, `cg` returns the solution after at most that many steps. -/
theorem C87_cg_eigenvalues (hS : S.WF n) (hm : S.NoMask) (hA : Acts n J (fun r => (op r).mv) S S A) (hy : S.Has y) (hx : S.Has x0) (hpd : HPD A) {s : Finset ℝ}
    (hev : ∀ μ : ℝ, Module.End.HasEigenvalue A (μ : K) → μ ∈ s) {mx : Nat} (hmx : s.card ≤ mx) :
    ∃ (m : Nat) (x : Vec K N) (costs : List ℝ) (tr : Nat → List (XArr K)), m ≤ s.card ∧ A x = y ∧
      Always n (fun r => CGS.solve (env n J r) (op r) (S.part n y r) (S.part n x0 r) (some mx) 0) (fun r => .ok (S.part n x r, m, costs, tr r)) := by
  obtain ⟨m, hst, hle, hend⟩ := CG.exists_stops (fun i => (CG.seq K A y x0 i).k) mx 0
  obtain ⟨hne, costs, tr, hrun⟩ := cg_solve hS hm hA hy hx hpd le_rfl hst
  obtain ⟨j, hj, hj0⟩ := CG.terminates_card hpd.spsd (hpd.range (y - A x0)) (s := s.erase 0) (by simp) fun μ hμ => by
    by_cases h0 : μ = 0
    · exact .inl h0
    · exact .inr (Finset.mem_erase.2 ⟨h0, hev μ hμ⟩)
  have hjc : j ≤ s.card := hj.trans (Finset.card_erase_le)
  have hmj : m ≤ j := by
    by_contra h
    exact hne j (by omega) hj0
  have hr0 : (CG.seq K A y x0 m).r = 0 := by
    rcases hend with h | h
    · have : m = j := by simp at h; omega
      rw [this, hj0]
    · rw [(CG.inv A y x0 m).2] at h
      exact norm_eq_zero.1 (pow_eq_zero_iff two_ne_zero |>.1 (le_antisymm h (by positivity)))
  refine ⟨m, _, costs, tr, hmj.trans hjc, ?_, hrun⟩
  rw [(CG.inv A y x0 m).1, sub_eq_zero] at hr0
  exact hr0.symm

end

section
variable {K : Type} [RCLike K] {n : Nat} {J : Nat → Nat → K} {S T : XSpace} {M N : Nat} {op : Nat → XOp K} {y : Vec K N} {x0 : Vec K M} {A : Vec K M →ₗ[K] Vec K N} {B : Vec K N →ₗ[K] Vec K M}
  {damp tol a b : ℝ}

/-- **C87** (`cgls`).  From a zero starting point, or with `damp` 0 or 1, `rmatvec` adjoint to `matvec`, a tolerance that is not negative and eigenvalues of A^H A + damp² that are 0 or between `a` and `b`
    (so that `A` may lack full rank): whatever the limit on the number of steps, in all executions all ranks end with their parts of one vector `x` after `m` steps, and
    * the limit is reached or the squared gradient is within the tolerance;
    * `x` minimises the damped objective in x0 + span (g, N g, …, N^(m-1) g), N = A^H A + damp², g = A^H y - N x0;
    * the distance of the objective from its minimum is at most (2 ((√κ - 1) / (√κ + 1))^m)² times the first one. -/
theorem C87_cgls (hAB : ∀ x z, inner K (A x) z = inner K x (B z)) (hd : damp = 0 ∨ damp = 1 ∨ x0 = 0) (h : CGLSHyp n J op S T A B y x0) (ha : 0 < a) (hab : a ≤ b)
    (hev : SpectrumIn (B ∘ₗ A + ((damp ^ 2 : ℝ) : K) • LinearMap.id) a b) (htol : 0 ≤ tol) (mx : Int) :
    ∃ (m : Nat) (x : Vec K M) (res : Nat → CGLSS.Result K),
      Always n (fun r => CGLSS.solve (env n J r) (op r) (T.part n y r) (S.part n x0 r) (some mx) damp tol) (fun r => .ok (res r)) ∧
      (∀ r, (res r).x = S.part n x r ∧ (res r).iiter = m) ∧
      m ≤ mx.toNat ∧ (m = mx.toNat ∨ ‖dgrad A B damp y x‖ ^ 2 ≤ tol) ∧
      x - x0 ∈ krylov (B ∘ₗ A + ((damp ^ 2 : ℝ) : K) • LinearMap.id) (dgrad A B damp y x0) m ∧
      (∀ w ∈ krylov (B ∘ₗ A + ((damp ^ 2 : ℝ) : K) • LinearMap.id) (dgrad A B damp y x0) m, objective A (damp ^ 2) y x ≤ objective A (damp ^ 2) y (x0 + w)) ∧
      ∀ z, (∀ z', objective A (damp ^ 2) y z ≤ objective A (damp ^ 2) y z') →
        objective A (damp ^ 2) y x - objective A (damp ^ 2) y z ≤ (2 * rho a b ^ m) ^ 2 * (objective A (damp ^ 2) y x0 - objective A (damp ^ 2) y z) := by
  have hsp := CGLS.normal_spsd hAB (sq_nonneg damp)
  have hr := CGLS.normal_range hAB (sq_nonneg damp) y x0
  have hN : CGLS.normal A B (damp ^ 2) = B ∘ₗ A + ((damp ^ 2 : ℝ) : K) • LinearMap.id := rfl
  obtain ⟨m, hst, hle, hend⟩ := CG.exists_stops (fun i => (CGLS.seq K A B damp (damp ^ 2) y x0 i).k) mx tol
  have hg : ∀ j < m, dgrad A B damp y (CGLS.seq K A B damp (damp ^ 2) y x0 j).x ≠ 0 := by
    intro j hj h0
    have := (hst.2.1 j (by omega) hj).2
    dsimp only at this
    rw [cgls_k hAB hd, h0, norm_zero] at this
    norm_num at this
    linarith
  have hne : ∀ j < m, (CG.seq K (CGLS.normal A B (damp ^ 2)) (B y) x0 j).r ≠ 0 := fun j hj => by rw [(cgls_cg hAB hd j).2.2.2]; exact hg j hj
  have hg0 : dgrad A B damp y x0 = B y - CGLS.normal A B (damp ^ 2) x0 := by rw [dgrad, CGLS.normal_apply, map_sub]; abel
  have hxe : (CGLS.seq K A B damp (damp ^ 2) y x0 m).x = (CG.seq K (CGLS.normal A B (damp ^ 2)) (B y) x0 m).x := (cgls_cg hAB hd m).1
  obtain ⟨w0, hw0⟩ := hr
  have hxs : CGLS.normal A B (damp ^ 2) (x0 + w0) = B y := by rw [map_add, ← hw0]; abel
  -- the objective is the energy of the error, up to its minimum
  have hobj : ∀ x, objective A (damp ^ 2) y x = objective A (damp ^ 2) y (x0 + w0) + RCLike.re (inner K ((x0 + w0) - x) (CGLS.normal A B (damp ^ 2) ((x0 + w0) - x))) := by
    intro x
    have := CGLS.objective_add hAB (δ := damp ^ 2) y (x0 + w0) (x - (x0 + w0))
    rw [add_sub_cancel, hxs, sub_self, inner_zero_right] at this
    rw [this, ← neg_sub x (x0 + w0), map_neg, inner_neg_neg]
    simp
  have hmin : ∀ z, (∀ z', objective A (damp ^ 2) y z ≤ objective A (damp ^ 2) y z') → objective A (damp ^ 2) y z = objective A (damp ^ 2) y (x0 + w0) := fun z hz =>
    le_antisymm (hz _) (CGLS.objective_min hAB (sq_nonneg damp) hxs z)
  refine ⟨m, _, _, (runs_cgls_solve h hst fun i hi => cgls_no_break hAB hd fun k hk => hg k (by omega)).always, fun r => ⟨rfl, rfl⟩, hle, hend.imp id fun h => ?_, ?_, fun w hw => ?_, fun z hz => ?_⟩
  · rw [← cgls_k hAB hd]; exact h
  · rw [hxe, hg0, ← hN]
    exact CG.dirs_le m (CG.x_mem m)
  · rw [hg0, ← hN] at hw
    rw [hobj, hobj (x0 + w), hxe]
    have := CG.optimal hsp ⟨w0, hw0⟩ hne hxs (CG.le_dirs hsp ⟨w0, hw0⟩ hne hw)
    linarith
  · rw [hmin z hz, hobj, hobj x0, hxe]
    have := CG.rate hsp ⟨w0, hw0⟩ ha hab hev hne hxs
    simp only [add_sub_cancel_left] at this ⊢
    exact this

end

/-! Non-vacuity: diag(2, 5) on two ranks. -/

theorem Diag2.spectrum : SpectrumIn (Diag2.A 2 5) 2 5 := by
  intro μ hμ
  obtain ⟨v, hv⟩ := hμ.exists_hasEigenvector
  have h := hv.apply_eq_smul
  have h0 : 2 * v 0 = μ * v 0 := by simpa [Diag2.A] using congrArg (fun w : Vec ℝ 2 => w 0) h
  have h1 : 5 * v 1 = μ * v 1 := by simpa [Diag2.A] using congrArg (fun w : Vec ℝ 2 => w 1) h
  right
  by_cases hz : v 0 = 0
  · have hz1 : v 1 ≠ 0 := fun h1 => hv.2 (by ext i; fin_cases i <;> simp [hz, h1])
    have := mul_right_cancel₀ hz1 h1
    constructor <;> linarith
  · have := mul_right_cancel₀ hz h0
    constructor <;> linarith

example : ∃ (m : Nat) (x : Vec ℝ 2) (costs : List ℝ) (tr : Nat → List (XArr ℝ)),
    Always 2 (fun r => CGS.solve (env 2 (fun _ _ => 0) r) (Diag2.op 2 5 r) ((XSpace.one Diag2.V).part 2 !₂[(2 : ℝ), 5] r) ((XSpace.one Diag2.V).part 2 (0 : Vec ℝ 2) r) (some 1) 0)
      (fun r => .ok ((XSpace.one Diag2.V).part 2 x r, m, costs, tr r)) ∧
    m ≤ 1 ∧ √(energyOf (Diag2.A 2 5) (!₂[1, 1] - x)) ≤ 2 * rho 2 5 ^ m * √(energyOf (Diag2.A 2 5) (!₂[1, 1] - 0)) := by
  obtain ⟨m, x, costs, tr, h1, h2, -, -, h5⟩ := C87_cg (tol := 0) Diag2.wf Diag2.noMask (Diag2.acts 2 5 false (fun _ _ => 0)) (Diag2.has !₂[(2 : ℝ), 5]) (Diag2.has 0) Diag2.hpd
    (by norm_num) (by norm_num) Diag2.spectrum le_rfl 1
  exact ⟨m, x, costs, tr, h1, h2, (h5 !₂[1, 1] (by ext i; fin_cases i <;> simp [Diag2.A])).2⟩

theorem Diag2.hpd' : HPD (Diag2.A 3 3) := by
  refine ⟨Diag2.adj 3 3, fun x hx => ?_⟩
  have e : RCLike.re (inner ℝ x (Diag2.A 3 3 x)) = 3 * x 0 ^ 2 + 3 * x 1 ^ 2 := by
    simp [Diag2.A, PiLp.inner_apply, Fin.sum_univ_two]; ring
  rw [e]
  by_contra hc
  have h0 : x 0 = 0 := by nlinarith [sq_nonneg (x 0), sq_nonneg (x 1)]
  have h1 : x 1 = 0 := by nlinarith [sq_nonneg (x 0), sq_nonneg (x 1)]
  exact hx (by ext i; fin_cases i <;> simp [h0, h1])

/-- diag(3, 3) has one eigenvalue: the solution is found in one step -/
example : ∃ (m : Nat) (x : Vec ℝ 2) (costs : List ℝ) (tr : Nat → List (XArr ℝ)), m ≤ 1 ∧ Diag2.A 3 3 x = !₂[2, 5] ∧
    Always 2 (fun r => CGS.solve (env 2 (fun _ _ => 0) r) (Diag2.op 3 3 r) ((XSpace.one Diag2.V).part 2 !₂[(2 : ℝ), 5] r) ((XSpace.one Diag2.V).part 2 (0 : Vec ℝ 2) r) (some (1 : Nat)) 0)
      (fun r => .ok ((XSpace.one Diag2.V).part 2 x r, m, costs, tr r)) := by
  refine C87_cg_eigenvalues (s := {3}) Diag2.wf Diag2.noMask (Diag2.acts 3 3 false _) (Diag2.has _) (Diag2.has _) Diag2.hpd' (fun μ hμ => ?_) (by simp)
  obtain ⟨v, hv⟩ := hμ.exists_hasEigenvector
  have h := hv.apply_eq_smul
  have h0 : 3 * v 0 = μ * v 0 := by simpa [Diag2.A] using congrArg (fun w : Vec ℝ 2 => w 0) h
  have h1 : 3 * v 1 = μ * v 1 := by simpa [Diag2.A] using congrArg (fun w : Vec ℝ 2 => w 1) h
  rw [Finset.mem_singleton]
  by_cases hz : v 0 = 0
  · have hz1 : v 1 ≠ 0 := fun h1 => hv.2 (by ext i; fin_cases i <;> simp [hz, h1])
    exact (mul_right_cancel₀ hz1 h1).symm
  · exact (mul_right_cancel₀ hz h0).symm

/-- the normal matrix of diag(1, 0), which is singular, has the eigenvalues 1 and 0 -/
theorem Diag2.spectrum_normal : SpectrumIn (Diag2.A 1 0 ∘ₗ Diag2.A 1 0 + (((0 : ℝ) ^ 2 : ℝ) : ℝ) • LinearMap.id) 1 1 := by
  intro μ hμ
  obtain ⟨v, hv⟩ := hμ.exists_hasEigenvector
  have h := hv.apply_eq_smul
  have h0 : v 0 = μ * v 0 := by simpa [Diag2.A] using congrArg (fun w : Vec ℝ 2 => w 0) h
  have h1 : μ = 0 ∨ v 1 = 0 := by simpa [Diag2.A] using congrArg (fun w : Vec ℝ 2 => w 1) h
  rcases h1 with h1 | h1
  · exact .inl h1
  · right
    have hz : v 0 ≠ 0 := fun hz => hv.2 (by ext i; fin_cases i <;> simp [hz, h1])
    have : 1 = μ := mul_right_cancel₀ hz (by rw [one_mul]; exact h0)
    constructor <;> linarith

example := C87_cgls (damp := 0) (tol := 0) (a := 1) (b := 1) (Diag2.adj 1 0) (.inl rfl) (Diag2.hyp 1 0 (fun _ _ => 0) !₂[1, 1] !₂[3, 3]) (by norm_num) le_rfl Diag2.spectrum_normal le_rfl 5

end Verif

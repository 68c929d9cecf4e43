/- C42: CG solves Hermitian positive definite systems. -/
import Verif.Props.C41

namespace Verif
open NDArray Serial

variable {K : Type} [RCLike K] {n : Nat} {J : Nat → Nat → K} {S : XSpace} {N : Nat} {op : Nat → XOp K} {y x0 : Vec K N} {niter : Option Int} {tol : ℝ}

/-- Hermitian positive definite -/
def HPD (A : Vec K N →ₗ[K] Vec K N) : Prop := (∀ x z, inner K (A x) z = inner K x (A z)) ∧ ∀ x, x ≠ 0 → 0 < RCLike.re (inner K x (A x))

theorem HPD.spsd {A : Vec K N →ₗ[K] Vec K N} (h : HPD A) : CG.SPSD A := by
  refine ⟨h.1, fun x => ?_⟩
  by_cases hx : x = 0
  · rw [hx, inner_zero_left, map_zero]
  · exact (h.2 x hx).le

theorem HPD.injective {A : Vec K N →ₗ[K] Vec K N} (h : HPD A) : Function.Injective A := by
  rw [injective_iff_map_eq_zero]
  intro x hx
  by_contra hne
  have := h.2 x hne
  rw [hx, inner_zero_right, map_zero] at this
  exact lt_irrefl _ this

theorem HPD.surjective {A : Vec K N →ₗ[K] Vec K N} (h : HPD A) : Function.Surjective A := LinearMap.injective_iff_surjective.1 h.injective

theorem HPD.range {A : Vec K N →ₗ[K] Vec K N} (h : HPD A) (y : Vec K N) : ∃ z, y = A z := by
  obtain ⟨z, hz⟩ := h.surjective y
  exact ⟨z, hz.symm⟩

/-- **C42**.  For a Hermitian positive definite operator there are iterates `xs` and directions `cs`, such that
    * as long as the residual is not zero, no step divides by zero: all ranks reach the iterate `xs m` with residual `y - A (xs m)` and direction `cs m`;
    * every step with non-zero residual decreases the energy norm of the error;
    * residuals are orthogonal and directions are conjugate;
    * the solution is reached after at most `N` steps. -/
theorem C42_hpd (hS : S.WF n) (hm : S.NoMask) {A : Vec K N →ₗ[K] Vec K N} (hA : Acts n J (fun r => (op r).mv) S S A) (hy : S.Has y) (hx : S.Has x0) (hpd : HPD A) :
    ∃ xs cs : Nat → Vec K N, xs 0 = x0 ∧
      (∀ m, (∀ i < m, A (xs i) ≠ y) → Always n (fun r => CGS.steps (env n J r) (op r) (S.part n y r) (S.part n x0 r) niter tol m)
        (fun r => .ok (⟨S.part n y r, niter, tol, S.part n (y - A (xs m)) r, S.part n (cs m) r, ‖y - A (xs m)‖ ^ 2,
          (List.range (m + 1)).map fun i => ‖y - A (xs i)‖, m⟩, S.part n (xs m) r))) ∧
      (∀ m, (∀ i ≤ m, A (xs i) ≠ y) → ∀ xsol, A xsol = y →
        RCLike.re (inner K (xsol - xs (m + 1)) (A (xsol - xs (m + 1)))) < RCLike.re (inner K (xsol - xs m) (A (xsol - xs m)))) ∧
      (∀ m, (∀ i < m, A (xs i) ≠ y) → ∀ i j, i < j → j ≤ m → inner K (y - A (xs i)) (y - A (xs j)) = 0 ∧ inner K (cs i) (A (cs j)) = 0) ∧
      ∃ m ≤ N, (∀ i < m, A (xs i) ≠ y) ∧ A (xs m) = y := by
  have hr : ∃ z, y - A x0 = A z := hpd.range _
  have hsp := hpd.spsd
  have e : ∀ i, (CG.seq K A y x0 i).r = y - A (CG.seq K A y x0 i).x := fun i => (CG.inv A y x0 i).1
  have hne : ∀ {i}, A (CG.seq K A y x0 i).x ≠ y → (CG.seq K A y x0 i).r ≠ 0 := fun {i} h h' => h (by rw [e] at h'; exact (sub_eq_zero.1 h').symm)
  refine ⟨fun j => (CG.seq K A y x0 j).x, fun j => (CG.seq K A y x0 j).c, rfl, fun m h => ?_, fun m h xsol hsol => ?_, fun m h i j hij hj => ?_, ?_⟩
  · have h1 := runs_cg_steps (niter := niter) (tol := tol) hS hm hA hy hx m fun i hi => CG.no_break hsp hr fun k hk => hne (h k (by omega))
    refine Runs.always (h1.congr (fun _ _ => rfl) fun r _ => ?_)
    have h := CG.inv A y x0 m
    unfold cgState
    rw [← h.1, ← h.2]
    simp only [cg_cost]
  · obtain ⟨h1, h2⟩ := CG.energy hsp hr (fun i hi => hne (h i hi)) hsol
    dsimp only
    rw [h1]
    have := hne (h m le_rfl)
    have : 0 < ‖(CG.seq K A y x0 m).r‖ ^ 2 := by positivity
    nlinarith [mul_pos h2 this]
  · obtain ⟨h1, h2, _⟩ := CG.conj hsp hr (m := m) fun i hi => hne (h i hi)
    dsimp only
    rw [← e, ← e]
    exact ⟨h1 j hj i hij, h2 j hj i hij⟩
  · obtain ⟨j, hj, hj0⟩ := CG.terminates hsp hr
    rw [finrank_euclideanSpace_fin] at hj
    have hex : ∃ j, A (CG.seq K A y x0 j).x = y := ⟨j, by rw [e] at hj0; exact (sub_eq_zero.1 hj0).symm⟩
    classical
    refine ⟨Nat.find hex, ?_, fun i hi => Nat.find_min hex hi, Nat.find_spec hex⟩
    exact (Nat.find_min' hex (by rw [e] at hj0; exact (sub_eq_zero.1 hj0).symm)).trans hj

/-- **C42** (`cg`).  With tolerance 0 and a limit of at least `N`, `cg` returns the solution after at most `N` steps on all ranks. -/
theorem C42_cg (hS : S.WF n) (hm : S.NoMask) {A : Vec K N →ₗ[K] Vec K N} (hA : Acts n J (fun r => (op r).mv) S S A) (hy : S.Has y) (hx : S.Has x0) (hpd : HPD A)
    {mx : Int} (hmx : (N : Int) ≤ mx) :
    ∃ (m : Nat) (x : Vec K N) (costs : List ℝ) (tr : Nat → List (XArr K)), m ≤ N ∧ A x = y ∧
      Always n (fun r => CGS.solve (env n J r) (op r) (S.part n y r) (S.part n x0 r) (some mx) 0) (fun r => .ok (S.part n x r, m, costs, tr r)) := by
  have hr : ∃ z, y - A x0 = A z := hpd.range _
  have hsp := hpd.spsd
  have e : ∀ i, (CG.seq K A y x0 i).r = y - A (CG.seq K A y x0 i).x := fun i => (CG.inv A y x0 i).1
  obtain ⟨j, hj, hj0⟩ := CG.terminates hsp hr
  rw [finrank_euclideanSpace_fin] at hj
  classical
  have hex : ∃ j, (CG.seq K A y x0 j).r = 0 := ⟨j, hj0⟩
  set m := Nat.find hex with hmdef
  have hm0 : (CG.seq K A y x0 m).r = 0 := Nat.find_spec hex
  have hmin : ∀ i < m, (CG.seq K A y x0 i).r ≠ 0 := fun i hi => Nat.find_min hex hi
  have hmN : m ≤ N := (Nat.find_min' hex hj0).trans hj
  have hst : Stops (fun i => (CG.seq K A y x0 i).k) mx 0 0 m := by
    refine ⟨by omega, fun i _ hi => ⟨by omega, ?_⟩, .inr ?_⟩
    · dsimp only
      rw [(CG.inv A y x0 i).2]
      have := hmin i hi
      positivity
    · dsimp only
      rw [(CG.inv A y x0 m).2, hm0]; simp
  have h1 := runs_cg_run (niter := some mx) (niter1 := some mx) hS hm hA hy hx rfl hst fun i hi => CG.no_break hsp hr fun k hk => hmin k (by omega)
  have h2 := Runs.bind_ok (k := fun r q => .ret (q.2.1, q.1.iiter, q.1.cost, q.2.2)) h1 (Runs.ret _)
  refine ⟨m, (CG.seq K A y x0 m).x, _, _, hmN, ?_, (h2.congr (fun r _ => ?_) fun r _ => rfl).always⟩
  · rw [e] at hm0; exact (sub_eq_zero.1 hm0).symm
  · simp only [CGS.solve, CGS.steps, Prog.bind_eq, Prog.bind_assoc]

theorem Diag2.hpd : HPD (Diag2.A 2 5) := by
  refine ⟨Diag2.adj 2 5, fun x hx => ?_⟩
  have e : RCLike.re (inner ℝ x (Diag2.A 2 5 x)) = 2 * x 0 ^ 2 + 5 * x 1 ^ 2 := by
    simp [Diag2.A, PiLp.inner_apply, Fin.sum_univ_two]; ring
  rw [e]
  by_contra hc
  have h0 : x 0 = 0 := by nlinarith [sq_nonneg (x 0), sq_nonneg (x 1)]
  have h1 : x 1 = 0 := by nlinarith [sq_nonneg (x 0), sq_nonneg (x 1)]
  exact hx (by ext i; fin_cases i <;> simp [h0, h1])

/-- Non-vacuity: diag(2, 5) on two ranks. -/
example : ∃ (m : Nat) (x : Vec ℝ 2) (costs : List ℝ) (tr : Nat → List (XArr ℝ)), m ≤ 2 ∧ Diag2.A 2 5 x = !₂[2, 5] ∧
    Always 2 (fun r => CGS.solve (env 2 (fun _ _ => 0) r) (Diag2.op 2 5 r) ((XSpace.one Diag2.V).part 2 !₂[(2 : ℝ), 5] r) ((XSpace.one Diag2.V).part 2 (0 : Vec ℝ 2) r) (some 10) 0)
      (fun r => .ok ((XSpace.one Diag2.V).part 2 x r, m, costs, tr r)) :=
  C42_cg Diag2.wf Diag2.noMask (Diag2.acts 2 5 false _) (Diag2.has _) (Diag2.has _) Diag2.hpd (by norm_num)

end Verif

/- C45: CGLS decreases the damped objective. -/
import Verif.Props.C43

namespace Verif
open NDArray Serial

variable {K : Type} [RCLike K] {n : Nat} {J : Nat → Nat → K} {S T : XSpace} {M N : Nat} {op : Nat → XOp K} {y : Vec K N} {x0 : Vec K M}
  {A : Vec K M →ₗ[K] Vec K N} {B : Vec K N →ₗ[K] Vec K M} {niter : Option Int} {damp tol : ℝ}

/-- negative half gradient of the damped objective -/
noncomputable def dgrad (A : Vec K M →ₗ[K] Vec K N) (B : Vec K N →ₗ[K] Vec K M) (damp : ℝ) (y : Vec K N) (x : Vec K M) : Vec K M := B (y - A x) - ((damp ^ 2 : ℝ) : K) • x

section
variable (hAB : ∀ x z, inner K (A x) z = inner K x (B z)) (hd : damp = 0 ∨ damp = 1 ∨ x0 = 0)
include hAB hd

theorem cgls_cg (j : Nat) :
    let s := CGLS.seq K A B damp (damp ^ 2) y x0 j
    let t := CG.seq K (CGLS.normal A B (damp ^ 2)) (B y) x0 j
    s.x = t.x ∧ s.c = t.c ∧ s.k = t.k ∧ t.r = dgrad A B damp y s.x := by
  have h0 : (damp : K) • x0 = ((damp ^ 2 : ℝ) : K) • x0 := by rcases hd with rfl | rfl | rfl <;> simp
  obtain ⟨h1, h2, h3, h4⟩ := CGLS.eq_cg hAB (y := y) h0 j
  refine ⟨h1, h2, h3, ?_⟩
  rw [h4, (CGLS.inv A B damp (damp ^ 2) y x0 j).1]
  rfl

theorem cgls_k (j : Nat) : (CGLS.seq K A B damp (damp ^ 2) y x0 j).k = ‖dgrad A B damp y (CGLS.seq K A B damp (damp ^ 2) y x0 j).x‖ ^ 2 := by
  obtain ⟨h1, h2, h3, h4⟩ := cgls_cg (y := y) hAB hd j
  rw [h3, (CG.inv _ _ _ j).2, h4]

theorem cgls_no_break {m : Nat} (h : ∀ i ≤ m, dgrad A B damp y (CGLS.seq K A B damp (damp ^ 2) y x0 i).x ≠ 0) :
    ¬ CGLS.Breaks (damp ^ 2) (CGLS.seq K A B damp (damp ^ 2) y x0 m) := by
  have hsp := CGLS.normal_spsd hAB (sq_nonneg damp)
  have hr := CGLS.normal_range hAB (sq_nonneg damp) y x0
  have hne : ∀ i ≤ m, (CG.seq K (CGLS.normal A B (damp ^ 2)) (B y) x0 i).r ≠ 0 := fun i hi => by
    rw [(cgls_cg hAB hd i).2.2.2]; exact h i hi
  have := CG.no_break hsp hr hne
  obtain ⟨h1, h2, h3, h4⟩ := cgls_cg (y := y) hAB hd m
  rintro (h5 | h5)
  · refine this (.inl ?_)
    rw [CGLS.inner_normal hAB, ← h2, ← (CGLS.inv A B damp (damp ^ 2) y x0 m).2, h5]
    simp
  · exact this (.inr (h3 ▸ h5))

theorem cgls_decrease {m : Nat} (h : ∀ i ≤ m, dgrad A B damp y (CGLS.seq K A B damp (damp ^ 2) y x0 i).x ≠ 0) :
    objective A (damp ^ 2) y (CGLS.seq K A B damp (damp ^ 2) y x0 (m + 1)).x < objective A (damp ^ 2) y (CGLS.seq K A B damp (damp ^ 2) y x0 m).x := by
  have hsp := CGLS.normal_spsd hAB (sq_nonneg damp)
  have hr := CGLS.normal_range hAB (sq_nonneg damp) y x0
  have hne : ∀ i ≤ m, (CG.seq K (CGLS.normal A B (damp ^ 2)) (B y) x0 i).r ≠ 0 := fun i hi => by
    rw [(cgls_cg hAB hd i).2.2.2]; exact h i hi
  obtain ⟨_, _, _, i4, _, i6⟩ := CG.conj hsp hr (m := m + 1) fun i hi => hne i (by omega)
  rw [(cgls_cg (y := y) hAB hd (m + 1)).1, (cgls_cg (y := y) hAB hd m).1, CG.seq_succ]
  have hk := (CG.inv (CGLS.normal A B (damp ^ 2)) (B y) x0 m)
  set t := CG.seq K (CGLS.normal A B (damp ^ 2)) (B y) x0 m with ht
  have h4 := i4 m (by omega)
  have h6 := i6 m (by omega)
  rw [← ht] at h4 h6
  show objective A (damp ^ 2) y (t.x + (CG.alpha K (CGLS.normal A B (damp ^ 2)) t : K) • t.c) < _
  rw [CGLS.objective_add hAB, ← hk.1, inner_smul_left, inner_smul_left, map_smul, inner_smul_right, h4, RCLike.conj_ofReal, CGLS.inner_normal hAB]
  have hQ := CGLS.inner_normal hAB (δ := damp ^ 2) t.c
  set Q := ‖A t.c‖ ^ 2 + damp ^ 2 * ‖t.c‖ ^ 2 with hQd
  have hQ0 : Q ≠ 0 := by intro h0; rw [hQ, h0] at h6; simp at h6
  have hQn : 0 ≤ Q := by rw [hQd]; positivity
  have hQp : 0 < Q := lt_of_le_of_ne hQn (Ne.symm hQ0)
  have hR : 0 < ‖t.r‖ ^ 2 := by
    have := hne m le_rfl
    rw [← ht] at this
    positivity
  have ha : CG.alpha K (CGLS.normal A B (damp ^ 2)) t = ‖t.r‖ ^ 2 / Q := by
    unfold CG.alpha; rw [hQ, RCLike.norm_ofReal, abs_of_nonneg hQn, hk.2]
  rw [ha]
  simp only [← RCLike.ofReal_mul, RCLike.ofReal_re]
  have e : ‖t.r‖ ^ 2 / Q * (‖t.r‖ ^ 2 / Q * Q) = ‖t.r‖ ^ 2 / Q * ‖t.r‖ ^ 2 := by field_simp
  rw [e]
  have : 0 < ‖t.r‖ ^ 2 / Q * ‖t.r‖ ^ 2 := by positivity
  linarith

theorem cgls_terminates : ∃ m ≤ M, (∀ i < m, dgrad A B damp y (CGLS.seq K A B damp (damp ^ 2) y x0 i).x ≠ 0) ∧ dgrad A B damp y (CGLS.seq K A B damp (damp ^ 2) y x0 m).x = 0 := by
  have hsp := CGLS.normal_spsd hAB (sq_nonneg damp)
  have hr := CGLS.normal_range hAB (sq_nonneg damp) y x0
  obtain ⟨j, hj, hj0⟩ := CG.terminates hsp hr
  rw [finrank_euclideanSpace_fin] at hj
  rw [(cgls_cg hAB hd j).2.2.2] at hj0
  classical
  have hex : ∃ j, dgrad A B damp y (CGLS.seq K A B damp (damp ^ 2) y x0 j).x = 0 := ⟨j, hj0⟩
  exact ⟨Nat.find hex, (Nat.find_min' hex hj0).trans hj, fun i hi => Nat.find_min hex hi, Nat.find_spec hex⟩

theorem cgls_min {x : Vec K M} (h : dgrad A B damp y x = 0) (z : Vec K M) : objective A (damp ^ 2) y x ≤ objective A (damp ^ 2) y z := by
  refine CGLS.objective_min hAB (sq_nonneg damp) ?_ z
  have : B y - CGLS.normal A B (damp ^ 2) x = 0 := by rw [← h, dgrad, CGLS.normal_apply, map_sub]; abel
  exact (sub_eq_zero.1 this).symm

/-- **C45** (all but `r1norm`).  From a zero starting point, or with `damp` 0 or 1, and `rmatvec` adjoint to `matvec`, there are iterates `xs` such that
    * as long as the gradient of the damped objective is not zero, no step divides by zero and all ranks reach `xs m`;
    * every step decreases the damped objective;
    * the normal equations are solved after at most as many steps as there are unknowns, and their solution minimises the objective.
    Missing for the full claim: `r1norm`, for which the claim is false (`C45_violated`). -/
theorem C45_partial (h : CGLSHyp n J op S T A B y x0) :
    ∃ xs : Nat → Vec K M, xs 0 = x0 ∧
      (∀ m, (∀ i < m, dgrad A B damp y (xs i) ≠ 0) → ∃ st : Nat → CGLSS K,
        Always n (fun r => CGLSS.steps (env n J r) (op r) (T.part n y r) (S.part n x0 r) niter damp tol m) (fun r => .ok (st r, S.part n (xs m) r))) ∧
      (∀ m, (∀ i ≤ m, dgrad A B damp y (xs i) ≠ 0) → objective A (damp ^ 2) y (xs (m + 1)) < objective A (damp ^ 2) y (xs m)) ∧
      ∃ m ≤ M, (∀ i < m, dgrad A B damp y (xs i) ≠ 0) ∧ B (A (xs m)) + ((damp ^ 2 : ℝ) : K) • xs m = B y ∧ ∀ z, objective A (damp ^ 2) y (xs m) ≤ objective A (damp ^ 2) y z := by
  refine ⟨fun j => (CGLS.seq K A B damp (damp ^ 2) y x0 j).x, rfl, fun m hm => ?_, fun m hm => cgls_decrease hAB hd hm, ?_⟩
  · exact ⟨_, (runs_cgls_steps h m fun i hi => cgls_no_break hAB hd fun k hk => hm k (by omega)).always⟩
  · obtain ⟨m, h1, h2, h3⟩ := cgls_terminates (y := y) hAB hd
    refine ⟨m, h1, h2, ?_, fun z => cgls_min hAB hd h3 z⟩
    rw [dgrad, map_sub, sub_sub, sub_eq_zero] at h3
    exact h3.symm

/-- **C45** (`cgls`).  With tolerance 0 and a limit of at least the number of unknowns, `cgls` returns on all ranks a minimiser of the damped objective; `r2norm` is the square root of the objective. -/
theorem C45_cgls (h : CGLSHyp n J op S T A B y x0) {mx : Int} (hmx : (M : Int) ≤ mx) :
    ∃ (m : Nat) (x : Vec K M) (res : Nat → CGLSS.Result K), m ≤ M ∧ (∀ z, objective A (damp ^ 2) y x ≤ objective A (damp ^ 2) y z) ∧
      (∀ r, (res r).x = S.part n x r ∧ (res r).iiter = m ∧ (res r).r2norm = .fin (Real.sqrt (objective A (damp ^ 2) y x))) ∧
      Always n (fun r => CGLSS.solve (env n J r) (op r) (T.part n y r) (S.part n x0 r) (some mx) damp 0) (fun r => .ok (res r)) := by
  obtain ⟨m, h1, h2, h3⟩ := cgls_terminates (y := y) hAB hd
  have hst : Stops (fun i => (CGLS.seq K A B damp (damp ^ 2) y x0 i).k) mx 0 0 m := by
    refine ⟨by omega, fun i _ hi => ⟨by omega, ?_⟩, .inr ?_⟩
    · dsimp only
      rw [cgls_k hAB hd]
      have := h2 i hi
      positivity
    · dsimp only
      rw [cgls_k hAB hd, h3]; simp
  refine ⟨m, _, _, h1, fun z => cgls_min hAB hd h3 z, fun r => ⟨rfl, rfl, ?_⟩,
    (runs_cgls_solve h hst fun i hi => cgls_no_break hAB hd fun k hk => h2 k (by omega)).always⟩
  dsimp only
  unfold cglsCost1 objective
  dsimp only
  rw [(CGLS.inv A B damp (damp ^ 2) y x0 m).1]
  have : (if m = 0 then damp else damp ^ 2) * ‖(CGLS.seq K A B damp (damp ^ 2) y x0 m).x‖ ^ 2 = damp ^ 2 * ‖(CGLS.seq K A B damp (damp ^ 2) y x0 m).x‖ ^ 2 := by
    split_ifs with hm
    · subst hm
      rcases hd with rfl | rfl | rfl <;> simp [CGLS.seq, CGLS.init]
    · rfl
  rw [this, FNum.sqrt, if_neg (not_lt.2 (by positivity))]

end

/-- **C45** (norms returned).  For all data, damping and starting points: after `m ≥ 1` steps `r2norm` is the square root of the damped objective, and `r1norm` is the squared norm of the
    gradient (not the norm of the residual). -/
theorem C45_norms (h : CGLSHyp n J op S T A B y x0) {mx : Int} {m : Nat} (hm : 1 ≤ m)
    (hst : Stops (fun i => (CGLS.seq K A B damp (damp ^ 2) y x0 i).k) mx tol 0 m) (hb : ∀ i < m, ¬ CGLS.Breaks (damp ^ 2) (CGLS.seq K A B damp (damp ^ 2) y x0 i)) :
    ∃ (x : Vec K M) (res : Nat → CGLSS.Result K), (∀ r, (res r).x = S.part n x r ∧ (res r).r1norm = ‖dgrad A B damp y x‖ ^ 2 ∧
        (res r).r2norm = .fin (Real.sqrt (objective A (damp ^ 2) y x))) ∧
      Always n (fun r => CGLSS.solve (env n J r) (op r) (T.part n y r) (S.part n x0 r) (some mx) damp tol) (fun r => .ok (res r)) := by
  refine ⟨_, _, fun r => ⟨rfl, ?_, ?_⟩, (runs_cgls_solve h hst hb).always⟩
  · obtain ⟨j, rfl⟩ : ∃ j, m = j + 1 := ⟨m - 1, by omega⟩
    have h1 := (CGLS.inv_grad A B damp (damp ^ 2) y x0 j).1
    dsimp only at h1 ⊢
    rw [h1, (CGLS.inv A B damp (damp ^ 2) y x0 (j + 1)).1]
    rfl
  · dsimp only
    unfold cglsCost1 objective
    dsimp only
    rw [(CGLS.inv A B damp (damp ^ 2) y x0 m).1, if_neg (by omega), FNum.sqrt, if_neg (not_lt.2 (by positivity))]

theorem Diag2.seq1 : CGLS.seq ℝ (Diag2.A 1 0) (Diag2.A 1 0) 0 (0 ^ 2) !₂[1, 1] 0 1 = ⟨!₂[1, 0], !₂[0, 1], 0, 0, 0⟩ := by
  have ha : CGLS.alpha (0 ^ 2) (CGLS.init (Diag2.A 1 0) (Diag2.A 1 0) 0 ℝ !₂[(1 : ℝ), 1] 0) = 1 := by
    simp [CGLS.alpha, CGLS.init, EuclideanSpace.norm_sq_eq, Fin.sum_univ_two, Diag2.A]
  have hg : CGLS.grad ℝ (Diag2.A 1 0) (0 ^ 2) (CGLS.init (Diag2.A 1 0) (Diag2.A 1 0) 0 ℝ !₂[(1 : ℝ), 1] 0) = 0 := by
    unfold CGLS.grad
    rw [ha]
    ext i; fin_cases i <;> simp [CGLS.init, Diag2.A]
  show CGLS.next ℝ (Diag2.A 1 0) (Diag2.A 1 0) (0 ^ 2) (CGLS.init (Diag2.A 1 0) (Diag2.A 1 0) 0 ℝ !₂[1, 1] 0) = _
  unfold CGLS.next
  rw [hg, ha]
  congr 1
  · ext i; fin_cases i <;> simp [CGLS.init, Diag2.A]
  · ext i; fin_cases i <;> simp [CGLS.init, Diag2.A]
  · simp
  · simp
  · simp

/-- **C45 is false for r1norm**: for diag(1, 0) on two ranks, y = (1, 1), x0 = 0 and damp = 0, `cgls` returns the least-squares solution (1, 0) with r1norm = 0; the norm of the residual is 1. -/
theorem C45_violated :
    let S : XSpace := .one Diag2.V
    ∃ res : Nat → CGLSS.Result ℝ,
      Always 2 (fun r => CGLSS.solve (env 2 (fun _ _ => 0) r) (Diag2.op 1 0 r) (S.part 2 !₂[(1 : ℝ), 1] r) (S.part 2 (0 : Vec ℝ 2) r) (some 10) 0 0) (fun r => .ok (res r)) ∧
      ∀ r, (res r).x = S.part 2 !₂[(1 : ℝ), 0] r ∧ (res r).r1norm = 0 ∧ ‖(!₂[1, 1] : Vec ℝ 2) - Diag2.A 1 0 !₂[1, 0]‖ = 1 := by
  intro S
  have hk0 : (CGLS.seq ℝ (Diag2.A 1 0) (Diag2.A 1 0) 0 (0 ^ 2) !₂[1, 1] 0 0).k = 1 := by
    simp [CGLS.seq, CGLS.init, EuclideanSpace.norm_sq_eq, Fin.sum_univ_two, Diag2.A]
  have hst : Stops (fun i => (CGLS.seq ℝ (Diag2.A 1 0) (Diag2.A 1 0) 0 (0 ^ 2) !₂[1, 1] 0 i).k) 10 0 0 1 := by
    refine ⟨by omega, fun i _ hi => ?_, .inr ?_⟩
    · obtain rfl : i = 0 := by omega
      refine ⟨by norm_num, ?_⟩
      dsimp only
      rw [hk0]; norm_num
    · dsimp only
      rw [Diag2.seq1]
  have h1 := (runs_cgls_solve (Diag2.hyp 1 0 (fun _ _ => 0) !₂[1, 1] 0) hst fun i hi => by
    obtain rfl : i = 0 := by omega
    rintro (h | h)
    · simp [CGLS.seq, CGLS.init, EuclideanSpace.norm_sq_eq, Fin.sum_univ_two, Diag2.A] at h
    · rw [hk0] at h; norm_num at h).always
  refine ⟨_, h1, fun r => ⟨?_, ?_, ?_⟩⟩
  · dsimp only
    rw [Diag2.seq1]
  · dsimp only
    rw [Diag2.seq1]
  · have e : (!₂[1, 1] : Vec ℝ 2) - Diag2.A 1 0 !₂[1, 0] = !₂[0, 1] := by ext i; fin_cases i <;> simp [Diag2.A]
    rw [e]
    simp [EuclideanSpace.norm_eq, Fin.sum_univ_two]

/-- Non-vacuity: diag(2, 5) on two ranks, y = (1, 1), damp = 3. -/
example : ∃ (m : Nat) (x : Vec ℝ 2) (res : Nat → CGLSS.Result ℝ), m ≤ 2 ∧ (∀ z, objective (Diag2.A 2 5) (3 ^ 2) !₂[1, 1] x ≤ objective (Diag2.A 2 5) (3 ^ 2) !₂[1, 1] z) ∧
    (∀ r, (res r).x = (XSpace.one Diag2.V).part 2 x r ∧ (res r).iiter = m ∧ (res r).r2norm = .fin (Real.sqrt (objective (Diag2.A 2 5) (3 ^ 2) !₂[1, 1] x))) ∧
    Always 2 (fun r => CGLSS.solve (env 2 (fun _ _ => 0) r) (Diag2.op 2 5 r) ((XSpace.one Diag2.V).part 2 !₂[(1 : ℝ), 1] r) ((XSpace.one Diag2.V).part 2 (0 : Vec ℝ 2) r) (some 10) 3 0)
      (fun r => .ok (res r)) :=
  C45_cgls (Diag2.adj 2 5) (.inr (.inr rfl)) (Diag2.hyp 2 5 _ _ _) (by norm_num)

end Verif

/- The conjugate gradient algorithm in exact arithmetic, for symmetric positive semidefinite operators and consistent systems. -/
import Verif.Spec.Solvers
import Mathlib.Analysis.InnerProductSpace.Positive

namespace Verif.Serial
open scoped InnerProductSpace

variable {K : Type} [RCLike K] {E : Type} [NormedAddCommGroup E] [InnerProductSpace K E]

namespace CG

theorem seq_succ (A : E → E) (y x0 : E) (j : Nat) : seq K A y x0 (j + 1) = next K A (seq K A y x0 j) := by
  unfold seq; rw [Function.iterate_succ_apply']

/-- the tracked residual and its squared norm -/
theorem inv (A : E →ₗ[K] E) (y x0 : E) (j : Nat) :
    (seq K A y x0 j).r = y - A (seq K A y x0 j).x ∧ (seq K A y x0 j).k = ‖(seq K A y x0 j).r‖ ^ 2 := by
  induction j with
  | zero => exact ⟨rfl, rfl⟩
  | succ j ih =>
    rw [seq_succ]
    refine ⟨?_, rfl⟩
    simp only [next, res, map_add, map_smul, ih.1]
    abel

/-- symmetric, positive semidefinite -/
structure SPSD (A : E →ₗ[K] E) : Prop where
  sym : ∀ x y : E, ⟪A x, y⟫_K = ⟪x, A y⟫_K
  pos : ∀ x : E, 0 ≤ RCLike.re ⟪x, A x⟫_K

variable {A : E →ₗ[K] E}

theorem SPSD.real (h : SPSD A) (x : E) : ((RCLike.re ⟪x, A x⟫_K : ℝ) : K) = ⟪x, A x⟫_K := by
  apply RCLike.conj_eq_iff_re.1
  rw [inner_conj_symm, h.sym]

theorem SPSD.norm (h : SPSD A) (x : E) : ((‖⟪x, A x⟫_K‖ : ℝ) : K) = ⟪x, A x⟫_K := by
  have := h.real x
  rw [← this, RCLike.norm_ofReal, abs_of_nonneg (h.pos x)]

/-- Cauchy–Schwarz for the semi-inner product: ⟨x, A x⟩ = 0 implies A x = 0 -/
theorem SPSD.ker (h : SPSD A) {x : E} (h0 : ⟪x, A x⟫_K = 0) : A x = 0 := by
  -- expand ⟨x + t A x, A (x + t A x)⟩ ≥ 0 for real t
  by_contra hne
  have hp : 0 < ‖A x‖ ^ 2 := by positivity
  have key : ∀ t : ℝ, 0 ≤ 2 * t * ‖A x‖ ^ 2 + t ^ 2 * RCLike.re ⟪A x, A (A x)⟫_K := by
    intro t
    have h1 := h.pos (x + (t : K) • A x)
    rw [map_add, map_smul, inner_add_left, inner_add_right, inner_add_right, inner_smul_left, inner_smul_right, inner_smul_left, inner_smul_right, h0] at h1
    have e1 : ⟪x, A (A x)⟫_K = ((‖A x‖ ^ 2 : ℝ) : K) := by
      rw [← h.sym, inner_self_eq_norm_sq_to_K]; push_cast; rfl
    have e2 : ⟪A x, A x⟫_K = ((‖A x‖ ^ 2 : ℝ) : K) := by
      rw [inner_self_eq_norm_sq_to_K]; push_cast; rfl
    have e3 : ⟪A x, A (A x)⟫_K = ((RCLike.re ⟪A x, A (A x)⟫_K : ℝ) : K) := (h.real (A x)).symm
    rw [e1, e2, e3, RCLike.conj_ofReal] at h1
    have : RCLike.re ((0 : K) + (t : K) * ((‖A x‖ ^ 2 : ℝ) : K) + ((t : K) * ((‖A x‖ ^ 2 : ℝ) : K) + (t : K) * ((t : K) * ((RCLike.re ⟪A x, A (A x)⟫_K : ℝ) : K))))
        = 2 * t * ‖A x‖ ^ 2 + t ^ 2 * RCLike.re ⟪A x, A (A x)⟫_K := by
      rw [zero_add, ← RCLike.ofReal_mul, ← RCLike.ofReal_mul, ← RCLike.ofReal_mul, ← RCLike.ofReal_add, ← RCLike.ofReal_add, RCLike.ofReal_re]
      ring
    rw [this] at h1
    exact h1
  set p := ‖A x‖ ^ 2
  set c := RCLike.re ⟪A x, A (A x)⟫_K
  have hc : 0 ≤ c := h.pos (A x)
  have := key (-p / (c + 1))
  have hc1 : 0 < c + 1 := by linarith
  have e : 2 * (-p / (c + 1)) * p + (-p / (c + 1)) ^ 2 * c = - (p ^ 2 * (c + 2)) / (c + 1) ^ 2 := by
    field_simp; ring
  rw [e] at this
  have : 0 < p ^ 2 * (c + 2) / (c + 1) ^ 2 := by positivity
  have h2 : - (p ^ 2 * (c + 2)) / (c + 1) ^ 2 = - (p ^ 2 * (c + 2) / (c + 1) ^ 2) := by ring
  linarith

section
variable (h : SPSD A) {y x0 : E} (hr : ∃ z, y - A x0 = A z)
include h hr

/-- everything that is known after `m` steps, when the residuals before step `m` are not zero -/
theorem conj {m : Nat} (hne : ∀ i < m, (seq K A y x0 i).r ≠ 0) :
    (∀ j ≤ m, ∀ i < j, ⟪(seq K A y x0 i).r, (seq K A y x0 j).r⟫_K = 0) ∧
    (∀ j ≤ m, ∀ i < j, ⟪(seq K A y x0 i).c, A (seq K A y x0 j).c⟫_K = 0) ∧
    (∀ j ≤ m, ∀ i < j, ⟪(seq K A y x0 i).c, (seq K A y x0 j).r⟫_K = 0) ∧
    (∀ j ≤ m, ⟪(seq K A y x0 j).c, (seq K A y x0 j).r⟫_K = ((‖(seq K A y x0 j).r‖ ^ 2 : ℝ) : K)) ∧
    (∀ j ≤ m, (∃ z, (seq K A y x0 j).c = A z) ∧ ∃ z, (seq K A y x0 j).r = A z) ∧
    (∀ j < m, ⟪(seq K A y x0 j).c, A (seq K A y x0 j).c⟫_K ≠ 0) := by
  induction m with
  | zero =>
    refine ⟨by omega, by omega, by omega, ?_, ?_, by omega⟩
    · intro j hj
      obtain rfl : j = 0 := by omega
      show ⟪y - A x0, y - A x0⟫_K = _
      rw [inner_self_eq_norm_sq_to_K]; push_cast; rfl
    · intro j hj
      obtain rfl : j = 0 := by omega
      exact ⟨hr, hr⟩
  | succ m ih =>
    obtain ⟨i1, i2, i3, i4, i5, i6⟩ := ih fun i hi => hne i (by omega)
    set S := seq K A y x0 with hS
    have hrm := hne m (by omega)
    have hk : ∀ j, (S j).k = ‖(S j).r‖ ^ 2 := fun j => (inv A y x0 j).2
    -- no breakdown at step m
    have hb : ⟪(S m).c, A (S m).c⟫_K ≠ 0 := by
      intro h0
      have hA := h.ker h0
      obtain ⟨⟨z, hz⟩, _⟩ := i5 m le_rfl
      have hc : (S m).c = 0 := by
        rw [← inner_self_eq_zero (𝕜 := K)]
        nth_rewrite 1 [hz]
        rw [h.sym, hA, inner_zero_right]
      have := i4 m le_rfl
      rw [hc, inner_zero_left] at this
      have h2 : ‖(S m).r‖ ^ 2 = 0 := by exact_mod_cast this.symm
      exact hrm (by simpa using h2)
    have hb' : ∀ j < m + 1, ⟪(S j).c, A (S j).c⟫_K ≠ 0 := fun j hj => by
      rcases Nat.lt_succ_iff_lt_or_eq.1 hj with hj | rfl
      · exact i6 j hj
      · exact hb
    -- the recurrences
    have ra : ∀ j, (S (j + 1)).r = (S j).r - (alpha K A (S j) : K) • A (S j).c := fun j => by rw [hS, seq_succ]; rfl
    have rc : ∀ j, (S (j + 1)).c = (S (j + 1)).r + ((‖(S (j + 1)).r‖ ^ 2 / (S j).k : ℝ) : K) • (S j).c := fun j => by rw [hS, seq_succ]; rfl
    have al : ∀ j < m + 1, (alpha K A (S j) : K) * ⟪(S j).c, A (S j).c⟫_K = ((‖(S j).r‖ ^ 2 : ℝ) : K) := fun j hj => by
      have hn := h.norm (S j).c
      unfold alpha
      rw [hk j, RCLike.ofReal_div, hn]
      exact div_mul_cancel₀ _ (hb' j hj)
    have al0 : ∀ j < m + 1, (alpha K A (S j) : K) ≠ 0 := fun j hj h0 => by
      have := al j hj
      rw [h0, zero_mul] at this
      have h2 : ‖(S j).r‖ ^ 2 = 0 := by exact_mod_cast this.symm
      exact hne j hj (by simpa using h2)
    have Ac : ∀ j < m + 1, A (S j).c = (alpha K A (S j) : K)⁻¹ • ((S j).r - (S (j + 1)).r) := fun j hj => by
      rw [ra j, sub_sub_cancel, smul_smul, inv_mul_cancel₀ (al0 j hj), one_smul]
    -- (3)
    have p3 : ∀ i < m + 1, ⟪(S i).c, (S (m + 1)).r⟫_K = 0 := fun i hi => by
      rw [ra m, inner_sub_right, inner_smul_right]
      rcases Nat.lt_succ_iff_lt_or_eq.1 hi with hi | rfl
      · rw [i3 m le_rfl i hi, i2 m le_rfl i hi]; simp
      · rw [i4 i le_rfl, al i (by omega)]; simp
    -- (1)
    have p1 : ∀ i < m + 1, ⟪(S i).r, (S (m + 1)).r⟫_K = 0 := fun i hi => by
      cases i with
      | zero => exact p3 0 hi
      | succ i =>
        have e : (S (i + 1)).r = (S (i + 1)).c - ((‖(S (i + 1)).r‖ ^ 2 / (S i).k : ℝ) : K) • (S i).c := by
          have := rc i
          exact (eq_sub_of_add_eq this.symm)
        rw [e, inner_sub_left, inner_smul_left, p3 (i + 1) hi, p3 i (by omega)]; simp
    -- (4)
    have p4 : ⟪(S (m + 1)).c, (S (m + 1)).r⟫_K = ((‖(S (m + 1)).r‖ ^ 2 : ℝ) : K) := by
      rw [rc m, inner_add_left, inner_smul_left, p3 m (by omega), mul_zero, add_zero, inner_self_eq_norm_sq_to_K]
      push_cast; rfl
    -- (2)
    have p2 : ∀ i < m + 1, ⟪(S i).c, A (S (m + 1)).c⟫_K = 0 := fun i hi => by
      rw [rc m, map_add, map_smul, inner_add_right, inner_smul_right, ← h.sym]
      rcases Nat.lt_succ_iff_lt_or_eq.1 hi with hi' | rfl
      · rw [i2 m le_rfl i hi', Ac i hi, inner_smul_left, inner_sub_left, p1 i hi, p1 (i + 1) (by omega)]; simp
      · rw [Ac i hi, inner_smul_left, inner_sub_left, p1 i hi, inner_self_eq_norm_sq_to_K, map_inv₀, RCLike.conj_ofReal]
        have hk0 : ((S i).k : K) ≠ 0 := by
          rw [hk i]
          have : ‖(S i).r‖ ^ 2 ≠ 0 := by simpa using hrm
          exact_mod_cast this
        have e : ⟪(S i).c, (alpha K A (S i) : K)⁻¹ • ((S i).r - (S (i + 1)).r)⟫_K = (alpha K A (S i) : K)⁻¹ * ((‖(S i).r‖ ^ 2 : ℝ) : K) := by
          rw [← Ac i hi, ← al i hi, ← mul_assoc, inv_mul_cancel₀ (al0 i hi), one_mul]
        rw [e, RCLike.ofReal_div, ← hk i]
        have ha := al0 i hi
        push_cast
        field_simp
        ring
    have p5 : (∃ z, (S (m + 1)).c = A z) ∧ ∃ z, (S (m + 1)).r = A z := by
      obtain ⟨⟨z, hz⟩, ⟨w, hw⟩⟩ := i5 m le_rfl
      have e1 : (S (m + 1)).r = A (w - (alpha K A (S m) : K) • (S m).c) := by rw [ra m, hw, map_sub, map_smul]
      refine ⟨⟨w - (alpha K A (S m) : K) • (S m).c + ((‖(S (m + 1)).r‖ ^ 2 / (S m).k : ℝ) : K) • z, ?_⟩, ⟨_, e1⟩⟩
      · rw [map_add, map_smul, ← e1, ← hz]; exact rc m
    refine ⟨?_, ?_, ?_, ?_, ?_, hb'⟩
    · intro j hj i hi
      rcases Nat.le_succ_iff.1 hj with hj | rfl
      · exact i1 j hj i hi
      · exact p1 i hi
    · intro j hj i hi
      rcases Nat.le_succ_iff.1 hj with hj | rfl
      · exact i2 j hj i hi
      · exact p2 i hi
    · intro j hj i hi
      rcases Nat.le_succ_iff.1 hj with hj | rfl
      · exact i3 j hj i hi
      · exact p3 i hi
    · intro j hj
      rcases Nat.le_succ_iff.1 hj with hj | rfl
      · exact i4 j hj
      · exact p4
    · intro j hj
      rcases Nat.le_succ_iff.1 hj with hj | rfl
      · exact i5 j hj
      · exact p5

/-- no division by zero while the residual is not zero -/
theorem no_break {m : Nat} (hne : ∀ i ≤ m, (seq K A y x0 i).r ≠ 0) : ¬ Breaks K A (seq K A y x0 m) := by
  have := (conj h hr (m := m + 1) fun i hi => hne i (by omega)).2.2.2.2.2 m (by omega)
  rintro (h1 | h1)
  · exact this h1
  · rw [(inv A y x0 m).2] at h1
    exact hne m le_rfl (by simpa using h1)

/-- the residual vanishes after at most `dim E` steps -/
theorem terminates [FiniteDimensional K E] : ∃ j ≤ Module.finrank K E, (seq K A y x0 j).r = 0 := by
  by_contra hne
  push Not at hne
  have ho := (conj h hr (m := Module.finrank K E) fun i hi => hne i hi.le).1
  have hli : LinearIndependent K fun i : Fin (Module.finrank K E + 1) => (seq K A y x0 i).r := by
    refine linearIndependent_of_ne_zero_of_inner_eq_zero (𝕜 := K) (fun i => hne i (by omega)) fun i j hij => ?_
    rcases lt_or_gt_of_ne hij with hlt | hgt
    · exact ho j (by omega) i hlt
    · rw [← inner_conj_symm, ho i (by omega) j hgt, map_zero]
  have := hli.fintype_card_le_finrank
  simp at this

/-- each step decreases the energy ⟨x* - x, A (x* - x)⟩ of the error by α ‖r‖² -/
theorem energy {m : Nat} (hne : ∀ i ≤ m, (seq K A y x0 i).r ≠ 0) {xs : E} (hxs : A xs = y) :
    RCLike.re ⟪xs - (seq K A y x0 (m + 1)).x, A (xs - (seq K A y x0 (m + 1)).x)⟫_K
      = RCLike.re ⟪xs - (seq K A y x0 m).x, A (xs - (seq K A y x0 m).x)⟫_K - alpha K A (seq K A y x0 m) * ‖(seq K A y x0 m).r‖ ^ 2
    ∧ 0 < alpha K A (seq K A y x0 m) := by
  obtain ⟨_, _, _, i4, _, i6⟩ := conj h hr (m := m + 1) fun i hi => hne i (by omega)
  set S := seq K A y x0 with hS
  have hb := i6 m (by omega)
  have hk : (S m).k = ‖(S m).r‖ ^ 2 := (inv A y x0 m).2
  have hrp : 0 < ‖(S m).r‖ ^ 2 := by
    have := hne m le_rfl
    positivity
  have hd : 0 < ‖⟪(S m).c, A (S m).c⟫_K‖ := norm_pos_iff.2 hb
  have hpos : 0 < alpha K A (S m) := by
    unfold alpha
    rw [hk]
    exact div_pos hrp hd
  refine ⟨?_, hpos⟩
  have hx : (S (m + 1)).x = (S m).x + (alpha K A (S m) : K) • (S m).c := by rw [hS, seq_succ]; rfl
  have hr' : A (xs - (S m).x) = (S m).r := by rw [map_sub, hxs]; exact (inv A y x0 m).1.symm
  set e := xs - (S m).x with he
  have e1 : xs - (S (m + 1)).x = e - (alpha K A (S m) : K) • (S m).c := by rw [hx, he]; abel
  have al : (alpha K A (S m) : K) * ⟪(S m).c, A (S m).c⟫_K = ((‖(S m).r‖ ^ 2 : ℝ) : K) := by
    have hn := h.norm (S m).c
    unfold alpha
    rw [hk, RCLike.ofReal_div, hn]
    exact div_mul_cancel₀ _ hb
  have e2 : ⟪(S m).c, A e⟫_K = ((‖(S m).r‖ ^ 2 : ℝ) : K) := by rw [hr']; exact i4 m (by omega)
  have e3 : ⟪e, A (S m).c⟫_K = ((‖(S m).r‖ ^ 2 : ℝ) : K) := by
    rw [← h.sym, ← inner_conj_symm, e2, RCLike.conj_ofReal]
  rw [e1, map_sub, map_smul, inner_sub_left, inner_sub_right, inner_sub_right, inner_smul_left, inner_smul_right, inner_smul_right, inner_smul_left,
    e2, e3, RCLike.conj_ofReal, al, ← RCLike.ofReal_mul]
  simp only [map_sub, RCLike.ofReal_re]
  ring

end
end CG
end Verif.Serial

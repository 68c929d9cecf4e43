/- How fast the conjugate gradient algorithm converges, in exact arithmetic. -/
import Verif.Proofs.CGTheory
import Verif.Spec.Rate
import Mathlib.Analysis.InnerProductSpace.Spectrum
import Mathlib.Analysis.SpecialFunctions.Trigonometric.Chebyshev.RootsExtrema
import Mathlib.Analysis.SpecialFunctions.Log.Deriv

namespace Verif.Serial
open scoped InnerProductSpace
open Polynomial

variable {K : Type} [RCLike K] {E : Type} [NormedAddCommGroup E] [InnerProductSpace K E]

namespace CG
variable {A : E →ₗ[K] E} {y x0 : E}

/-- the directions of the first `m` steps -/
def dirs (A : E →ₗ[K] E) (y x0 : E) (m : Nat) : Submodule K E := Submodule.span K {c | ∃ i < m, c = (seq K A y x0 i).c}

theorem c_mem {i m : Nat} (h : i < m) : (seq K A y x0 i).c ∈ dirs A y x0 m := Submodule.subset_span ⟨i, h, rfl⟩

theorem dirs_mono {m m' : Nat} (h : m ≤ m') : dirs A y x0 m ≤ dirs A y x0 m' := Submodule.span_mono fun _ ⟨i, hi, e⟩ => ⟨i, by omega, e⟩

theorem x_mem (m : Nat) : (seq K A y x0 m).x - x0 ∈ dirs A y x0 m := by
  induction m with
  | zero => show x0 - x0 ∈ _; rw [sub_self]; exact zero_mem _
  | succ m ih =>
    rw [seq_succ]
    have : (next K A (seq K A y x0 m)).x - x0 = ((seq K A y x0 m).x - x0) + (alpha K A (seq K A y x0 m) : K) • (seq K A y x0 m).c := by
      simp only [next]; abel
    rw [this]
    exact add_mem (dirs_mono (by omega) ih) (Submodule.smul_mem _ _ (c_mem (by omega)))

theorem r_mem (m : Nat) : (seq K A y x0 m).r ∈ dirs A y x0 (m + 1) := by
  cases m with
  | zero => exact c_mem (i := 0) (by omega)
  | succ m =>
    have h1 := c_mem (A := A) (y := y) (x0 := x0) (i := m + 1) (m := m + 1 + 1) (by omega)
    have h2 := c_mem (A := A) (y := y) (x0 := x0) (i := m) (m := m + 1 + 1) (by omega)
    rw [seq_succ] at h1 ⊢
    have : (next K A (seq K A y x0 m)).r = (next K A (seq K A y x0 m)).c - ((‖res K A (seq K A y x0 m)‖ ^ 2 / (seq K A y x0 m).k : ℝ) : K) • (seq K A y x0 m).c := by
      simp only [next]; abel
    rw [this]
    exact sub_mem h1 (Submodule.smul_mem _ _ h2)

section
variable (h : SPSD A) (hr : ∃ z, y - A x0 = A z)
include h hr

theorem alpha_pos {m : Nat} (hne : ∀ i ≤ m, (seq K A y x0 i).r ≠ 0) : 0 < alpha K A (seq K A y x0 m) := by
  have hb := (conj h hr (m := m + 1) fun i hi => hne i (by omega)).2.2.2.2.2 m (by omega)
  have hrm := hne m le_rfl
  unfold alpha
  rw [(inv A y x0 m).2]
  exact div_pos (by positivity) (norm_pos_iff.2 hb)

theorem Ac_mem {i : Nat} (hne : ∀ j ≤ i, (seq K A y x0 j).r ≠ 0) : A (seq K A y x0 i).c ∈ dirs A y x0 (i + 2) := by
  have ha : (alpha K A (seq K A y x0 i) : K) ≠ 0 := RCLike.ofReal_ne_zero.2 (alpha_pos h hr hne).ne'
  have e : (seq K A y x0 (i + 1)).r = (seq K A y x0 i).r - (alpha K A (seq K A y x0 i) : K) • A (seq K A y x0 i).c := by rw [seq_succ]; rfl
  have h1 := r_mem (A := A) (y := y) (x0 := x0) (i + 1)
  have h2 := dirs_mono (A := A) (y := y) (x0 := x0) (show i + 1 ≤ i + 2 by omega) (r_mem i)
  have h3 := sub_mem h2 h1
  rw [e, sub_sub_cancel] at h3
  have := Submodule.smul_mem _ (alpha K A (seq K A y x0 i) : K)⁻¹ h3
  rwa [smul_smul, inv_mul_cancel₀ ha, one_smul] at this

theorem A_mem {m : Nat} (hne : ∀ j < m, (seq K A y x0 j).r ≠ 0) {w : E} (hw : w ∈ dirs A y x0 m) : A w ∈ dirs A y x0 (m + 1) := by
  induction hw using Submodule.span_induction with
  | mem x hx =>
    obtain ⟨i, hi, rfl⟩ := hx
    exact dirs_mono (by omega) (Ac_mem h hr (i := i) fun j hj => hne j (by omega))
  | zero => rw [map_zero]; exact zero_mem _
  | add x z _ _ hx hz => rw [map_add]; exact add_mem hx hz
  | smul a x _ hx => rw [map_smul]; exact Submodule.smul_mem _ _ hx

theorem pow_mem {m k : Nat} (hne : ∀ j < m, (seq K A y x0 j).r ≠ 0) (hk : k < m) : (A ^ k) (y - A x0) ∈ dirs A y x0 (k + 1) := by
  induction k with
  | zero => exact c_mem (i := 0) (by omega)
  | succ k ih =>
    rw [pow_succ', Module.End.mul_apply]
    exact A_mem h hr (fun j hj => hne j (by omega)) (ih (by omega))

theorem aeval_mem {m : Nat} (hne : ∀ j < m, (seq K A y x0 j).r ≠ 0) {q : K[X]} (hq : q.natDegree < m) : aeval A q (y - A x0) ∈ dirs A y x0 m := by
  rw [aeval_eq_sum_range' hq, LinearMap.sum_apply]
  refine Submodule.sum_mem _ fun k hk => ?_
  rw [LinearMap.smul_apply]
  have hk' := Finset.mem_range.1 hk
  exact Submodule.smul_mem _ _ (dirs_mono (by omega) (pow_mem h hr hne hk'))

/-- the iterate is the best one among those that differ from the start by a combination of the directions -/
theorem optimal {m : Nat} (hne : ∀ j < m, (seq K A y x0 j).r ≠ 0) {xs : E} (hxs : A xs = y) {w : E} (hw : w ∈ dirs A y x0 m) :
    RCLike.re ⟪xs - (seq K A y x0 m).x, A (xs - (seq K A y x0 m).x)⟫_K ≤ RCLike.re ⟪xs - (x0 + w), A (xs - (x0 + w))⟫_K := by
  set e := xs - (seq K A y x0 m).x with he
  have hAe : A e = (seq K A y x0 m).r := by rw [he, map_sub, hxs]; exact (inv A y x0 m).1.symm
  set v := ((seq K A y x0 m).x - x0) - w with hv
  have hvm : v ∈ dirs A y x0 m := sub_mem (x_mem m) hw
  have hort : ∀ u ∈ dirs A y x0 m, ⟪u, A e⟫_K = 0 := by
    intro u hu
    rw [hAe]
    induction hu using Submodule.span_induction with
    | mem x hx =>
      obtain ⟨i, hi, rfl⟩ := hx
      exact (conj h hr hne).2.2.1 m le_rfl i hi
    | zero => rw [inner_zero_left]
    | add x z _ _ hx hz => rw [inner_add_left, hx, hz, add_zero]
    | smul a x _ hx => rw [inner_smul_left, hx, mul_zero]
  have e1 : xs - (x0 + w) = e + v := by rw [he, hv]; abel
  have e2 : ⟪e, A v⟫_K = 0 := by rw [← h.sym, ← inner_conj_symm, hort v hvm, map_zero]
  rw [e1, map_add, inner_add_left, inner_add_right, inner_add_right, hort v hvm, e2]
  simp only [add_zero, zero_add, map_add]
  linarith [h.pos v]

/-- the error is at most that of any polynomial in `A` with constant term 1 applied to the first error -/
theorem poly_bound {m : Nat} (hne : ∀ j < m, (seq K A y x0 j).r ≠ 0) {xs : E} (hxs : A xs = y) {p : K[X]} (hp : p.natDegree ≤ m) (hp0 : p.coeff 0 = 1) :
    RCLike.re ⟪xs - (seq K A y x0 m).x, A (xs - (seq K A y x0 m).x)⟫_K ≤ RCLike.re ⟪aeval A p (xs - x0), A (aeval A p (xs - x0))⟫_K := by
  have hw : -(aeval A p.divX (y - A x0)) ∈ dirs A y x0 m := by
    refine neg_mem ?_
    rcases Nat.eq_zero_or_pos m with rfl | hm
    · have : p.divX = 0 := by
        ext i
        rw [coeff_divX, coeff_zero]
        exact coeff_eq_zero_of_natDegree_lt (by omega)
      rw [this, map_zero]
      exact zero_mem _
    · exact aeval_mem h hr hne (by rw [natDegree_divX_eq_natDegree_tsub_one]; omega)
  have := optimal h hr hne hxs hw
  have e : xs - (x0 + -(aeval A p.divX (y - A x0))) = aeval A p (xs - x0) := by
    conv_rhs => rw [← divX_mul_X_add p]
    rw [hp0, map_add, map_mul, aeval_X, C_1, map_one, LinearMap.add_apply, Module.End.mul_apply, Module.End.one_apply, map_sub A, hxs]
    abel
  rwa [e] at this

end

section
variable [FiniteDimensional K E]

theorem inner_aeval (h : SPSD A) {μ : ℝ} {v : E} (hv : A v = (μ : K) • v) (p : ℝ[X]) (e : E) : ⟪v, aeval A (p.map (algebraMap ℝ K)) e⟫_K = ((p.eval μ : ℝ) : K) * ⟪v, e⟫_K := by
  induction p using Polynomial.induction_on' with
  | add p q hp hq => rw [Polynomial.map_add, map_add, LinearMap.add_apply, inner_add_right, hp, hq, eval_add, RCLike.ofReal_add, add_mul]
  | monomial k a =>
    have hk : ∀ e, ⟪v, (A ^ k) e⟫_K = ((μ ^ k : ℝ) : K) * ⟪v, e⟫_K := by
      induction k with
      | zero => intro e; simp
      | succ k ih =>
        intro e
        rw [pow_succ, Module.End.mul_apply, ih, ← h.sym, hv, inner_smul_left, RCLike.conj_ofReal, pow_succ, RCLike.ofReal_mul]
        ring
    rw [map_monomial, aeval_monomial, Module.End.mul_apply, Module.algebraMap_end_apply, inner_smul_right, hk, eval_monomial, RCLike.ofReal_mul]
    have : (algebraMap ℝ K a : K) = (a : K) := rfl
    rw [this]
    ring

theorem SPSD.isSymm (h : SPSD A) : A.IsSymmetric := h.sym

/-- the energy in terms of the eigenvalues -/
theorem energy_eq (h : SPSD A) (e : E) :
    RCLike.re ⟪e, A e⟫_K = ∑ i, h.isSymm.eigenvalues rfl i * ‖⟪h.isSymm.eigenvectorBasis rfl i, e⟫_K‖ ^ 2 := by
  rw [← OrthonormalBasis.sum_inner_mul_inner (h.isSymm.eigenvectorBasis rfl) e (A e), map_sum]
  refine Finset.sum_congr rfl fun i _ => ?_
  rw [← h.sym, h.isSymm.apply_eigenvectorBasis, inner_smul_left, RCLike.conj_ofReal, mul_left_comm, ← inner_conj_symm, RCLike.conj_mul, ← RCLike.ofReal_pow, ← RCLike.ofReal_mul, RCLike.ofReal_re]

/-- a polynomial that is at most `C` at the eigenvalues other than 0 changes the energy at most by the factor `C²` -/
theorem spectral_bound (h : SPSD A) {p : ℝ[X]} {C : ℝ} (hC : ∀ μ : ℝ, Module.End.HasEigenvalue A (μ : K) → μ = 0 ∨ |p.eval μ| ≤ C) (e : E) :
    RCLike.re ⟪aeval A (p.map (algebraMap ℝ K)) e, A (aeval A (p.map (algebraMap ℝ K)) e)⟫_K ≤ C ^ 2 * RCLike.re ⟪e, A e⟫_K := by
  rw [energy_eq h, energy_eq h, Finset.mul_sum]
  refine Finset.sum_le_sum fun i _ => ?_
  rw [inner_aeval h (h.isSymm.apply_eigenvectorBasis rfl i), norm_mul, mul_pow, RCLike.norm_ofReal]
  have hl : 0 ≤ h.isSymm.eigenvalues rfl i := by
    have := h.pos (h.isSymm.eigenvectorBasis rfl i)
    rw [h.isSymm.apply_eigenvectorBasis, inner_smul_right, inner_self_eq_norm_sq_to_K, OrthonormalBasis.norm_eq_one] at this
    simpa using this
  rcases hC _ (h.isSymm.hasEigenvalue_eigenvalues rfl i) with h0 | h1
  · rw [h0]; simp
  · have h2 : |p.eval (h.isSymm.eigenvalues rfl i)| ^ 2 ≤ C ^ 2 := pow_le_pow_left₀ (abs_nonneg _) h1 2
    have h3 : 0 ≤ ‖⟪h.isSymm.eigenvectorBasis rfl i, e⟫_K‖ ^ 2 := by positivity
    calc _ = |p.eval (h.isSymm.eigenvalues rfl i)| ^ 2 * (h.isSymm.eigenvalues rfl i * ‖⟪h.isSymm.eigenvectorBasis rfl i, e⟫_K‖ ^ 2) := by ring
      _ ≤ _ := mul_le_mul_of_nonneg_right h2 (mul_nonneg hl h3)

end

theorem cosh_aux {p q : ℝ} (hp : 0 < p) (hpq : p < q) : (q ^ 2 + p ^ 2) / (q ^ 2 - p ^ 2) = ((q + p) / (q - p) + (q - p) / (q + p)) / 2 := by
  have h1 : q - p ≠ 0 := (sub_pos.2 hpq).ne'
  have h2 : q + p ≠ 0 := (by linarith : (0:ℝ) < q + p).ne'
  have h3 : q ^ 2 - p ^ 2 ≠ 0 := by rw [sq_sub_sq]; exact mul_ne_zero h2 h1
  field_simp
  ring

/-- a polynomial of degree at most `m` with constant term 1 that is small on the interval from `a` to `b` -/
theorem chebyshev {a b : ℝ} (ha : 0 < a) (hab : a ≤ b) (m : Nat) : ∃ p : ℝ[X], p.natDegree ≤ m ∧ p.coeff 0 = 1 ∧
    ∀ t, a ≤ t → t ≤ b → |p.eval t| ≤ 2 * ((√b - √a) / (√b + √a)) ^ m := by
  rcases Nat.eq_zero_or_pos m with rfl | hm
  · exact ⟨1, by simp, by simp, fun t _ _ => by simp⟩
  rcases hab.eq_or_lt with rfl | hlt
  · refine ⟨1 - C (1 / a) * X, ?_, by simp, fun t h1 h2 => ?_⟩
    · refine (natDegree_sub_le _ _).trans (max_le (by simp) ((natDegree_C_mul_le _ _).trans ?_))
      rw [natDegree_X]; omega
    · have ht : t = a := le_antisymm h2 h1
      have : (1 - C (1 / a) * X : ℝ[X]).eval t = 0 := by
        simp only [eval_sub, eval_one, eval_mul, eval_C, eval_X, ht]
        field_simp
        ring
      rw [this, abs_zero, sub_self, zero_div, zero_pow (by omega), mul_zero]
  have hb : 0 < b := ha.trans hlt
  have hsa : 0 < √a := Real.sqrt_pos.2 ha
  have hsl : √a < √b := Real.sqrt_lt_sqrt ha.le hlt
  have hsb : 0 < √b - √a := sub_pos.2 hsl
  have hba : 0 < b - a := sub_pos.2 hlt
  have qa : √a ^ 2 = a := Real.sq_sqrt ha.le
  have qb : √b ^ 2 = b := Real.sq_sqrt hb.le
  set u := (√b + √a) / (√b - √a) with hu
  have hu0 : 0 < u := div_pos (by linarith) hsb
  set z := (b + a) / (b - a) with hz
  have hzu : z = Real.cosh (Real.log u) := by
    rw [Real.cosh_log hu0, hu, hz, inv_div, ← cosh_aux hsa hsl, qa, qb]
  have hT : u ^ m / 2 ≤ (Chebyshev.T ℝ m).eval z := by
    rw [hzu, Chebyshev.T_real_cosh, Real.cosh_eq]
    have : Real.exp ((m : ℤ) * Real.log u) = u ^ m := by
      rw [Int.cast_natCast, mul_comm, Real.exp_mul, Real.exp_log hu0, Real.rpow_natCast]
    rw [this]
    have := Real.exp_pos (-((m : ℤ) * Real.log u))
    linarith
  have hT0 : 0 < (Chebyshev.T ℝ m).eval z := lt_of_lt_of_le (by positivity) hT
  refine ⟨C (1 / (Chebyshev.T ℝ m).eval z) * (Chebyshev.T ℝ m).comp (C z - C (2 / (b - a)) * X), ?_, ?_, fun t h1 h2 => ?_⟩
  · refine (natDegree_C_mul_le _ _).trans ((natDegree_comp_le).trans ?_)
    rw [Chebyshev.natDegree_T, Int.natAbs_natCast]
    have : (C z - C (2 / (b - a)) * X : ℝ[X]).natDegree ≤ 1 :=
      (natDegree_sub_le _ _).trans (max_le (by simp) ((natDegree_C_mul_le _ _).trans (by rw [natDegree_X])))
    calc _ ≤ m * 1 := Nat.mul_le_mul_left m this
      _ = m := mul_one m
  · rw [coeff_zero_eq_eval_zero, eval_mul, eval_C, eval_comp, eval_sub, eval_C, eval_mul, eval_X, mul_zero, sub_zero]
    exact one_div_mul_cancel hT0.ne'
  · rw [eval_mul, eval_C, eval_comp, eval_sub, eval_C, eval_mul, eval_X, eval_C, abs_mul]
    have hs : |z - 2 / (b - a) * t| ≤ 1 := by
      have : z - 2 / (b - a) * t = (b + a - 2 * t) / (b - a) := by rw [hz]; ring
      rw [this, abs_div, abs_of_pos hba, div_le_one hba, abs_le]
      constructor <;> linarith
    have h3 := Chebyshev.abs_eval_T_real_le_one m hs
    rw [abs_of_pos (by positivity)]
    calc _ ≤ 1 / (Chebyshev.T ℝ m).eval z * 1 := mul_le_mul_of_nonneg_left h3 (by positivity)
      _ ≤ 1 / (u ^ m / 2) := by rw [mul_one]; exact one_div_le_one_div_of_le (by positivity) hT
      _ = 2 * ((√b - √a) / (√b + √a)) ^ m := by rw [hu, ← inv_div (√b + √a), inv_pow]; field_simp

/-- the factor per step in terms of the condition number -/
theorem rho_le {a b : ℝ} (ha : 0 < a) (hab : a ≤ b) : (√b - √a) / (√b + √a) ≤ Real.exp (-(2 * √(a / b))) := by
  have hb : 0 < b := ha.trans_le hab
  have hsb : 0 < √b := Real.sqrt_pos.2 hb
  have hsa : 0 < √a := Real.sqrt_pos.2 ha
  set s := √(a / b) with hs
  have hs' : s = √a / √b := Real.sqrt_div ha.le b
  have hs0 : 0 < s := by rw [hs']; positivity
  have e : (√b - √a) / (√b + √a) = (1 - s) / (1 + s) := by rw [hs']; field_simp
  rw [e]
  rcases (show s ≤ 1 by rw [hs', div_le_one hsb]; exact Real.sqrt_le_sqrt hab).eq_or_lt with h1 | h1
  · rw [h1, sub_self, zero_div]; positivity
  · have hsum := Real.hasSum_log_sub_log_of_abs_lt_one (x := s) (by rw [abs_of_pos hs0]; exact h1)
    have hle : 2 * s ≤ Real.log (1 + s) - Real.log (1 - s) := by
      have := le_hasSum hsum 0 fun j _ => by positivity
      simpa using this
    have hp : 0 < 1 - s := by linarith
    have hq : 0 < 1 + s := by linarith
    rw [← Real.log_le_log_iff (by positivity) (Real.exp_pos _), Real.log_exp, Real.log_div hp.ne' hq.ne']
    linarith

section
variable (h : SPSD A) (hr : ∃ z, y - A x0 = A z)
include h hr

/-- the energy norm of the error after `m` steps, when the eigenvalues other than 0 are between `a` and `b` -/
theorem rate [FiniteDimensional K E] {a b : ℝ} (ha : 0 < a) (hab : a ≤ b) (hev : ∀ μ : ℝ, Module.End.HasEigenvalue A (μ : K) → μ = 0 ∨ a ≤ μ ∧ μ ≤ b) {m : Nat}
    (hne : ∀ j < m, (seq K A y x0 j).r ≠ 0) {xs : E} (hxs : A xs = y) :
    RCLike.re ⟪xs - (seq K A y x0 m).x, A (xs - (seq K A y x0 m).x)⟫_K ≤ (2 * ((√b - √a) / (√b + √a)) ^ m) ^ 2 * RCLike.re ⟪xs - x0, A (xs - x0)⟫_K := by
  obtain ⟨p, h1, h2, h3⟩ := chebyshev ha hab m
  refine (poly_bound h hr hne hxs (p := p.map (algebraMap ℝ K)) ?_ ?_).trans (spectral_bound h (fun μ hμ => ?_) _)
  · rw [natDegree_map]; exact h1
  · rw [coeff_map, h2, map_one]
  · exact (hev μ hμ).imp id fun hm => h3 μ hm.1 hm.2

/-- the solution is reached after at most as many steps as there are eigenvalues other than 0 -/
theorem terminates_card [FiniteDimensional K E] {s : Finset ℝ} (hs : (0 : ℝ) ∉ s) (hev : ∀ μ : ℝ, Module.End.HasEigenvalue A (μ : K) → μ = 0 ∨ μ ∈ s) :
    ∃ j ≤ s.card, (seq K A y x0 j).r = 0 := by
  by_contra hne
  push Not at hne
  obtain ⟨w, hw⟩ := hr
  have hxs : A (x0 + w) = y := by rw [map_add, ← hw]; abel
  set p : ℝ[X] := ∏ μ ∈ s, (1 - C (1 / μ) * X) with hp
  have h1 : p.natDegree ≤ s.card := by
    refine (natDegree_prod_le _ _).trans ?_
    rw [Finset.card_eq_sum_ones]
    refine Finset.sum_le_sum fun μ _ => (natDegree_sub_le _ _).trans (max_le (by simp) ((natDegree_C_mul_le _ _).trans (by rw [natDegree_X])))
  have h2 : p.coeff 0 = 1 := by
    rw [coeff_zero_eq_eval_zero, hp, eval_prod]
    exact Finset.prod_eq_one fun μ _ => by simp
  have h3 := (poly_bound h ⟨w, hw⟩ (fun j hj => hne j hj.le) hxs (p := p.map (algebraMap ℝ K)) (by rw [natDegree_map]; exact h1) (by rw [coeff_map, h2, map_one])).trans
    (spectral_bound h (C := 0) (fun μ hμ => (hev μ hμ).imp id fun hm => by
      rw [hp, eval_prod, Finset.prod_eq_zero hm, abs_zero]
      have : μ ≠ 0 := fun h0 => hs (h0 ▸ hm)
      simp only [eval_sub, eval_one, eval_mul, eval_C, eval_X]
      field_simp
      ring) _)
  rw [zero_pow two_ne_zero, zero_mul] at h3
  set e := x0 + w - (seq K A y x0 s.card).x with he
  have h4 : ⟪e, A e⟫_K = 0 := by rw [← h.real, le_antisymm h3 (h.pos e), RCLike.ofReal_zero]
  have h5 := h.ker h4
  refine hne s.card le_rfl ?_
  rw [(inv A y x0 _).1, ← h5, he, map_sub, hxs]

end
theorem krylov_mono {r : E} {m m' : Nat} (h : m ≤ m') : krylov A r m ≤ krylov A r m' := Submodule.span_mono fun _ ⟨i, hi, e⟩ => ⟨i, by omega, e⟩

theorem krylov_A {r : E} {m : Nat} {w : E} (hw : w ∈ krylov A r m) : A w ∈ krylov A r (m + 1) := by
  induction hw using Submodule.span_induction with
  | mem x hx =>
    obtain ⟨i, hi, rfl⟩ := hx
    exact Submodule.subset_span ⟨i + 1, by omega, by rw [pow_succ', Module.End.mul_apply]⟩
  | zero => rw [map_zero]; exact zero_mem _
  | add x z _ _ hx hz => rw [map_add]; exact add_mem hx hz
  | smul a x _ hx => rw [map_smul]; exact Submodule.smul_mem _ _ hx

theorem rc_krylov (m : Nat) : (seq K A y x0 m).r ∈ krylov A (y - A x0) (m + 1) ∧ (seq K A y x0 m).c ∈ krylov A (y - A x0) (m + 1) := by
  induction m with
  | zero => exact ⟨Submodule.subset_span ⟨0, by omega, rfl⟩, Submodule.subset_span ⟨0, by omega, rfl⟩⟩
  | succ m ih =>
    rw [seq_succ]
    have h1 : res K A (seq K A y x0 m) ∈ krylov A (y - A x0) (m + 1 + 1) := sub_mem (krylov_mono (by omega) ih.1) (Submodule.smul_mem _ _ (krylov_A ih.2))
    exact ⟨h1, add_mem h1 (Submodule.smul_mem _ _ (krylov_mono (by omega) ih.2))⟩

theorem dirs_le (m : Nat) : dirs A y x0 m ≤ krylov A (y - A x0) m := by
  refine Submodule.span_le.2 ?_
  rintro _ ⟨i, hi, rfl⟩
  exact krylov_mono (by omega) (rc_krylov i).2

theorem le_dirs (h : SPSD A) (hr : ∃ z, y - A x0 = A z) {m : Nat} (hne : ∀ j < m, (seq K A y x0 j).r ≠ 0) : krylov A (y - A x0) m ≤ dirs A y x0 m := by
  refine Submodule.span_le.2 ?_
  rintro _ ⟨i, hi, rfl⟩
  exact dirs_mono (by omega) (pow_mem h hr hne hi)

theorem rho_nonneg {a b : ℝ} (hab : a ≤ b) : 0 ≤ rho a b := div_nonneg (sub_nonneg.2 (Real.sqrt_le_sqrt hab)) (by positivity)

/-- the number of steps that reduces the error by the factor `ε` -/
theorem rho_count {a b ε : ℝ} (ha : 0 < a) (hab : a ≤ b) (hε : 0 < ε) {m : Nat} (hm : √(b / a) / 2 * Real.log (2 / ε) ≤ m) : 2 * rho a b ^ m ≤ ε := by
  have h1 : rho a b ^ m ≤ Real.exp (-(2 * √(a / b))) ^ m := pow_le_pow_left₀ (rho_nonneg hab) (rho_le ha hab) m
  have hb : 0 < b := ha.trans_le hab
  have hs : 0 < √(a / b) := Real.sqrt_pos.2 (by positivity)
  have e : √(b / a) = 1 / √(a / b) := by rw [← inv_div, Real.sqrt_inv, one_div]
  rw [← Real.exp_nat_mul] at h1
  have h2 : Real.log (2 / ε) ≤ 2 * √(a / b) * m := by
    rw [e] at hm
    have := mul_le_mul_of_nonneg_left hm (show 0 ≤ 2 * √(a / b) by positivity)
    calc Real.log (2 / ε) = 2 * √(a / b) * (1 / √(a / b) / 2 * Real.log (2 / ε)) := by field_simp
      _ ≤ _ := this
  have h3 : Real.exp (m * -(2 * √(a / b))) ≤ ε / 2 := by
    calc Real.exp (m * -(2 * √(a / b))) ≤ Real.exp (-Real.log (2 / ε)) := Real.exp_le_exp.2 (by linarith)
      _ = ε / 2 := by rw [Real.exp_neg, Real.exp_log (by positivity), inv_div]
  linarith

/-- a number of steps after which the loop ends exists -/
theorem exists_stops (k : Nat → ℝ) (mx : Int) (tol : ℝ) : ∃ m, Stops k mx tol 0 m ∧ m ≤ mx.toNat ∧ (m = mx.toNat ∨ k m ≤ tol) := by
  classical
  have hex : ∃ m : Nat, mx ≤ m ∨ k m ≤ tol := ⟨mx.toNat, .inl (by omega)⟩
  have hle : Nat.find hex ≤ mx.toNat := Nat.find_min' hex (.inl (by omega))
  refine ⟨Nat.find hex, ⟨by omega, fun i _ hi => ?_, Nat.find_spec hex⟩, hle, (Nat.find_spec hex).imp (fun h => by omega) id⟩
  have := Nat.find_min hex hi
  push Not at this
  exact this

end CG
end Verif.Serial

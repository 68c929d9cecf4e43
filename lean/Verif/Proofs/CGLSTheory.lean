/- CGLS in exact arithmetic: it is the conjugate gradient algorithm for the damped normal equations. -/
import Verif.Proofs.CGTheory
import Mathlib.Analysis.InnerProductSpace.Projection.Basic
import Mathlib.Analysis.InnerProductSpace.Projection.FiniteDimensional
import Mathlib.Analysis.InnerProductSpace.Projection.Submodule

namespace Verif.Serial
open scoped InnerProductSpace

variable {K : Type} [RCLike K] {E F : Type} [NormedAddCommGroup E] [InnerProductSpace K E] [NormedAddCommGroup F] [InnerProductSpace K F]

namespace CGLS

theorem seq_succ (A : E → F) (B : F → E) (δ₀ δ : ℝ) (y : F) (x0 : E) (j : Nat) : seq K A B δ₀ δ y x0 (j + 1) = next K A B δ (seq K A B δ₀ δ y x0 j) := by
  unfold seq; rw [Function.iterate_succ_apply']

/-- residual, image of the direction; the gradient after every step -/
theorem inv (A : E →ₗ[K] F) (B : F → E) (δ₀ δ : ℝ) (y : F) (x0 : E) (j : Nat) :
    (seq K A B δ₀ δ y x0 j).s = y - A (seq K A B δ₀ δ y x0 j).x ∧ (seq K A B δ₀ δ y x0 j).q = A (seq K A B δ₀ δ y x0 j).c := by
  induction j with
  | zero => exact ⟨rfl, rfl⟩
  | succ j ih =>
    rw [seq_succ]
    refine ⟨?_, rfl⟩
    simp only [next, map_add, map_smul, ih.1, ih.2]
    abel

theorem inv_grad (A : E →ₗ[K] F) (B : F → E) (δ₀ δ : ℝ) (y : F) (x0 : E) (j : Nat) :
    let s := seq K A B δ₀ δ y x0 j
    let t := seq K A B δ₀ δ y x0 (j + 1)
    t.k = ‖B t.s - (δ : K) • t.x‖ ^ 2 ∧ t.c = (B t.s - (δ : K) • t.x) + ((t.k / s.k : ℝ) : K) • s.c := by
  simp only [seq_succ]
  exact ⟨rfl, rfl⟩

/-- the matrix of the damped normal equations -/
def normal (A : E →ₗ[K] F) (B : F →ₗ[K] E) (δ : ℝ) : E →ₗ[K] E := B ∘ₗ A + (δ : K) • LinearMap.id

theorem normal_apply (A : E →ₗ[K] F) (B : F →ₗ[K] E) (δ : ℝ) (x : E) : normal A B δ x = B (A x) + (δ : K) • x := rfl

section
variable {A : E →ₗ[K] F} {B : F →ₗ[K] E} (hAB : ∀ x z, ⟪A x, z⟫_K = ⟪x, B z⟫_K) {δ : ℝ}
include hAB

theorem inner_normal (x : E) : ⟪x, normal A B δ x⟫_K = ((‖A x‖ ^ 2 + δ * ‖x‖ ^ 2 : ℝ) : K) := by
  rw [normal_apply, inner_add_right, inner_smul_right, ← hAB, inner_self_eq_norm_sq_to_K, inner_self_eq_norm_sq_to_K]
  push_cast
  rfl

theorem normal_spsd (hδ : 0 ≤ δ) : CG.SPSD (normal A B δ) := by
  refine ⟨fun x z => ?_, fun x => ?_⟩
  · rw [normal_apply, normal_apply, inner_add_left, inner_add_right, inner_smul_left, inner_smul_right, ← hAB, RCLike.conj_ofReal]
    congr 1
    rw [← inner_conj_symm, ← hAB, inner_conj_symm]
  · rw [inner_normal hAB, RCLike.ofReal_re]; positivity

/-- the normal equations have a solution -/
theorem normal_range [FiniteDimensional K E] (hδ : 0 ≤ δ) (y : F) (x0 : E) : ∃ z, B y - normal A B δ x0 = normal A B δ z := by
  have hs := normal_spsd hAB hδ
  have h1 : B y ∈ LinearMap.range (normal A B δ) := by
    rw [← Submodule.orthogonal_orthogonal (LinearMap.range (normal A B δ)), Submodule.mem_orthogonal]
    intro u hu
    rw [Submodule.mem_orthogonal] at hu
    have hN : normal A B δ u = 0 := by
      rw [← inner_self_eq_zero (𝕜 := K), hs.sym, ← inner_conj_symm, hu _ ⟨_, rfl⟩, map_zero]
    have h2 : ⟪u, normal A B δ u⟫_K = 0 := by rw [hN, inner_zero_right]
    rw [inner_normal hAB] at h2
    have h3 : ‖A u‖ ^ 2 + δ * ‖u‖ ^ 2 = 0 := by exact_mod_cast h2
    have h4 : ‖A u‖ ^ 2 = 0 := by
      have : 0 ≤ δ * ‖u‖ ^ 2 := by positivity
      have : 0 ≤ ‖A u‖ ^ 2 := by positivity
      linarith
    have h5 : A u = 0 := by simpa using h4
    rw [← hAB, h5, inner_zero_left]
  obtain ⟨w, hw⟩ := h1
  exact ⟨w - x0, by rw [map_sub, hw]⟩

theorem objective_add (y : F) (x d : E) : objective A δ y (x + d) =
    objective A δ y x - 2 * RCLike.re ⟪d, B y - normal A B δ x⟫_K + RCLike.re ⟪d, normal A B δ d⟫_K := by
  unfold objective
  rw [inner_normal hAB, RCLike.ofReal_re]
  have e1 : y - A (x + d) = (y - A x) - A d := by rw [map_add]; abel
  have e2 : B y - normal A B δ x = B (y - A x) - (δ : K) • x := by rw [normal_apply, map_sub]; abel
  rw [e1, e2, @norm_sub_sq K, @norm_add_sq K, inner_sub_right, inner_smul_right, ← hAB, map_sub, RCLike.re_ofReal_mul]
  have e3 : RCLike.re ⟪y - A x, A d⟫_K = RCLike.re ⟪A d, y - A x⟫_K := by rw [← inner_conj_symm, RCLike.conj_re]
  have e4 : RCLike.re ⟪x, d⟫_K = RCLike.re ⟪d, x⟫_K := by rw [← inner_conj_symm, RCLike.conj_re]
  rw [e3, e4]
  ring

/-- solutions of the normal equations minimise the objective -/
theorem objective_min (hδ : 0 ≤ δ) {y : F} {x : E} (hx : normal A B δ x = B y) (z : E) : objective A δ y x ≤ objective A δ y z := by
  have := objective_add hAB (δ := δ) y x (z - x)
  rw [add_sub_cancel, hx, sub_self, inner_zero_right] at this
  rw [this]
  have := (normal_spsd hAB hδ).pos (z - x)
  simp only [map_zero, mul_zero, sub_zero]
  linarith

/-- from a starting point with δ₀ x0 = δ x0, CGLS makes the steps of CG for the normal equations -/
theorem eq_cg {δ₀ : ℝ} {y : F} {x0 : E} (h0 : (δ₀ : K) • x0 = (δ : K) • x0) (j : Nat) :
    let s := seq K A B δ₀ δ y x0 j
    let t := CG.seq K (normal A B δ) (B y) x0 j
    s.x = t.x ∧ s.c = t.c ∧ s.k = t.k ∧ t.r = B s.s - (δ : K) • s.x := by
  induction j with
  | zero =>
    have e : B (y - A x0) - (δ : K) • x0 = B y - normal A B δ x0 := by rw [normal_apply, map_sub]; abel
    refine ⟨rfl, ?_, ?_, ?_⟩
    · show B (y - A x0) - (δ₀ : K) • x0 = B y - normal A B δ x0
      rw [h0, e]
    · show ‖B (y - A x0) - (δ₀ : K) • x0‖ ^ 2 = ‖B y - normal A B δ x0‖ ^ 2
      rw [h0, e]
    · exact e.symm
  | succ j ih =>
    obtain ⟨h1, h2, h3, h4⟩ := ih
    have hi := inv A B δ₀ δ y x0 j
    simp only [seq_succ, CG.seq_succ]
    set s := seq K A B δ₀ δ y x0 j
    set t := CG.seq K (normal A B δ) (B y) x0 j
    have ha : alpha δ s = CG.alpha K (normal A B δ) t := by
      unfold alpha CG.alpha
      rw [← h2, inner_normal hAB, ← h3, hi.2, RCLike.norm_ofReal, abs_div]
      congr 1
      rw [h3, (CG.inv (normal A B δ) (B y) x0 j).2]
      exact abs_of_nonneg (by positivity)
    have hg : grad K B δ s = CG.res K (normal A B δ) t := by
      unfold grad CG.res
      rw [ha, h4, ← h2, normal_apply, map_sub, map_smul, hi.2]
      simp only [smul_add, smul_smul, mul_comm (δ : K)]
      abel
    refine ⟨?_, ?_, ?_, ?_⟩
    · simp only [next, CG.next, ha, h1, h2]
    · simp only [next, CG.next, hg, h2, h3]
    · simp only [next, CG.next, hg]
    · simp only [next, CG.next, ← hg]; rfl

end
end CGLS
end Verif.Serial

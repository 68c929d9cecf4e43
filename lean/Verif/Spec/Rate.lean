/- What the rate of convergence of the conjugate gradient algorithms is stated with. -/
import Verif.Spec.Solvers
import Mathlib.LinearAlgebra.Eigenspace.Basic

namespace Verif.Serial

variable {K : Type} [RCLike K] {E : Type} [NormedAddCommGroup E] [InnerProductSpace K E]

/-- the energy ⟨e, A e⟩ of an error -/
noncomputable def energyOf (A : E →ₗ[K] E) (e : E) : ℝ := RCLike.re (inner K e (A e))

/-- the combinations of r, A r, …, A^(m-1) r -/
def krylov (A : E →ₗ[K] E) (r : E) (m : Nat) : Submodule K E := Submodule.span K {v | ∃ i < m, v = (A ^ i) r}

/-- the real eigenvalues of `A` are 0 or between `a` and `b` -/
def SpectrumIn (A : E →ₗ[K] E) (a b : ℝ) : Prop := ∀ μ : ℝ, Module.End.HasEigenvalue A (μ : K) → μ = 0 ∨ a ≤ μ ∧ μ ≤ b

/-- (√κ - 1) / (√κ + 1) for the condition number κ = b / a -/
noncomputable def rho (a b : ℝ) : ℝ := (√b - √a) / (√b + √a)

end Verif.Serial

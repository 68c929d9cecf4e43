/-
  What a solver with rounding errors has to deliver: the residual that it updates, and the numbers that it reports, belong to the vector that it returns.
-/
import Verif.Spec.Rounding
import Verif.Spec.BlockSolvers

namespace Verif

variable {K : Type} [RCLike K]

/-- the operations of the solvers are rounded; negation and conjugation are exact, and absolute values are real and not negative -/
structure SolverRounding (A : Arith K) (u : ℝ) : Prop extends Rounding A u where
  neg : ∀ a, A.neg a = -a
  conj : ∀ a, A.conj a = star a
  abs : ∀ a, ∃ t : ℝ, 0 ≤ t ∧ A.abs a = (t : K) ∧ |t - ‖a‖| ≤ u * ‖a‖
  sqrt : ∀ t : ℝ, 0 ≤ t → Rounded u (A.sqrt (t : K)) ((√t : ℝ) : K)
  add : ∀ x y, Rounded u (A.add x y) (x + y)
  mul : ∀ x y, Rounded u (A.mul x y) (x * y)

/-- the function multiplies vectors whose dtype is in `D` by the matrix with `rows` rows and `cols` columns, up to rounding errors of `k` operations; the dtype of the result is in `D'` -/
def MulUpTo (u : ℝ) (k : Nat) (D D' : DType → Prop) (F : SVec K → SVec K) (M : Nat → Nat → K) (rows cols : Nat) : Prop :=
  ∀ v : SVec K, v.v.length = cols → D v.dt → D' (F v).dt ∧ ∀ j < rows, SumUpTo u k (rowTerms M cols j v.v) ((F v).v.getD j 0)

/-- `y - M x` -/
def residual (M : Nat → Nat → K) (rows cols : Nat) (y x : List K) : List K := (List.range rows).map fun j => y.getD j 0 - (rowTerms M cols j x).sum

/-- `|y| + |M| X`: the scale of the residual of vectors whose entries are at most those of `X` -/
def scaleOf (M : Nat → Nat → K) (rows cols : Nat) (y : List K) (X : Nat → ℝ) : List ℝ := (List.range rows).map fun j => ‖y.getD j 0‖ + ((List.range cols).map fun i => ‖M j i‖ * X i).sum

/-- the Euclidean norm -/
noncomputable def l2 {E : Type} [Norm E] (l : List E) : ℝ := √(l.map fun a => ‖a‖ ^ 2).sum

end Verif

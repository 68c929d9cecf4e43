/-
  The dot test with rounded arithmetic: what it compares, and how exact that is.
-/
import Verif.Model.FloatDottest
import Verif.Spec.Rounding

namespace Verif

/-- what `dottest` gives if the two numbers are close (or not) -/
def verdict (ok raiseerror : Bool) : Except Err Bool := if ok then .ok true else if raiseerror then .error .assertion else .ok false

variable {K : Type} [RCLike K]

/-- `numpy.vdot` is a rounded sum of rounded products, the first factors conjugated -/
def VdotRounding (A : DotArith K) (u : ℝ) : Prop :=
  ∀ a b : List K, a.length = b.length → ∃ p, List.Forall₂ (fun v x => Rounded u v (star x.1 * x.2)) p (a.zip b) ∧ RoundedSum u p (A.vdot a b)

/-- entry `j` of `x` is `w j` up to errors of `k` operations on terms whose absolute values add up to `m j` -/
def UpTo (u : ℝ) (k : Nat) (x : List K) (w : Nat → K) (m : Nat → ℝ) : Prop := ∀ j < x.length, ‖x.getD j 0 - w j‖ ≤ errBound u k * m j ∧ ‖w j‖ ≤ m j

end Verif

/- Cases in which a transposed stencil is silently wrong because the last rank has too few rows. -/
import Verif.Spec.Vector
import Verif.Spec.Derivatives

namespace Verif

variable {K : Type} [Field K]

/-- a 1-D vector of `N` entries, scattered in any way or held by all ranks -/
def VecIn (n N : Nat) (X : Layout) : Prop := (X.WF n ∧ X.gshape = [N] ∧ X.part = .scatter) ∨ X = .all N

/-- the transposed stencil returns something else than the adjoint, and no rank raises -/
def fdSilent (k : FDKind) (edge : Bool) (n N : Nat) : Prop :=
  match k with
  | .forward => 2 ≤ n ∧ N + 1 = n
  | .centered5 => edge = true ∧ n = 1 ∧ N = 3
  | _ => False
def sdSilent (k : SDKind) (n N : Nat) : Prop :=
  match k with
  | .forward => 2 ≤ n ∧ N + 1 = 2 * n
  | _ => False

/-- what `_rmatvec_forward` of the first derivative computes when the last rank has no rows -/
def fdAdjWrong (v : Nat → K) (p : Nat) : K := (if 1 ≤ p then v (p - 1) else 0) - v p

/-- what `_rmatvec_forward` of the second derivative computes when the last rank has one row -/
def sdAdjWrong (N : Nat) (v : Nat → K) (p : Nat) : K :=
  (if 2 ≤ p then v (p - 2) else 0) - 2 * (if 1 ≤ p ∧ p + 1 < N then v (p - 1) else 0) + if p + 1 < N then v p else 0

end Verif

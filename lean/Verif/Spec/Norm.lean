/- Specification of vector norms (numpy.linalg.norm of a 1-D array), independent of the model. -/
import Verif.Model.Norm

namespace Verif

variable {K : Type} [RCLike K]

open Classical in
/-- `t ** p` for a non-negative number `t` -/
noncomputable def powAbs (p t : ℝ) : FNum :=
  if t = 0 then (if 0 < p then .fin 0 else .inf) else .fin (t ^ p)

open Classical in
/-- `numpy.linalg.norm(l, ord)` of a vector: number of non-zero entries, largest / smallest absolute
    value (NaN here stands for the ValueError of an empty vector), or
    `sum(abs(l)**p)**(1/p)`. -/
noncomputable def vecNorm (o : NormOrd) (l : List K) : FNum :=
  match o with
  | .none => .fin (Real.sqrt (l.map fun x => ‖x‖ ^ 2).sum)
  | .num p => if p = 0 then .fin (l.countP (fun x => decide (x ≠ 0)) : ℕ)
      else FNum.root p (l.map fun x => powAbs p ‖x‖).sum
  | .inf => match (l.map fun x => ‖x‖).max? with
      | some m => .fin m
      | none => .nan
  | .ninf => match (l.map fun x => ‖x‖).min? with
      | some m => .fin m
      | none => .nan
  | .fro | .nuc => .nan

/-- Orders for which `numpy.float_power` of an entry `x` of an array of dtype `dt` agrees with
    `abs(x)**p` in absolute value: real arrays need a non-negative entry or an integer order,
    complex arrays a non-zero entry or a positive order. -/
def OrdOk (o : NormOrd) (dt : DType) (x : K) : Prop :=
  match o with
  | .num p => p = 0 ∨ ((dt = .real → (∃ m : ℤ, p = m) ∨ 0 ≤ RCLike.re x) ∧ (dt = .cplx → 0 < p ∨ x ≠ 0))
  | .none | .inf | .ninf => True
  | .fro | .nuc => False

/-- orders that take the maximum or the minimum (and so need at least one entry) -/
def NormOrd.extremal : NormOrd → Prop
  | .inf | .ninf => True
  | _ => False

end Verif

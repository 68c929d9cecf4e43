/-
  Model of `DistributedArray.norm` and `_compute_vector_norm`
  (/repo/pylops_mpi/DistributedArray.py:498-538, 553-573).

  Scalars are real or complex numbers (`RCLike`); float64 results are real numbers, infinity or NaN.
  Not modelled: negative `axis` other than the default -1.
-/
import Verif.Model.DistributedArray
import Mathlib.Analysis.RCLike.Basic
import Mathlib.Analysis.SpecialFunctions.Pow.Real

namespace Verif
open NDArray

/-- the `ord` argument: `None`, a number, `numpy.inf`, `-numpy.inf`, 'fro', 'nuc' -/
inductive NormOrd
  | none
  | num (p : ℝ)
  | inf
  | ninf
  | fro
  | nuc

open Classical in
/-- `numpy.power(t, 1. / p)` for a non-negative float `t` -/
noncomputable def FNum.root (p : ℝ) : FNum → FNum
  | nan => nan
  | inf => if 0 < p then inf else fin 0
  | fin t => if t = 0 then (if 0 < p then fin 0 else inf) else fin (t ^ (1 / p))

variable {K : Type} [RCLike K]

open Classical in
/-- `numpy.abs(numpy.float_power(x, p))` for an element of an array of dtype `dt` (`p ≠ 0`): real
    arrays give NaN for a negative base and a non-integer exponent and infinity for 0 to a negative
    power, complex arrays give NaN for 0 to a negative power. -/
noncomputable def absFloatPower (dt : DType) (p : ℝ) (x : K) : FNum :=
  match dt with
  | .real =>
    if RCLike.re x = 0 then (if 0 < p then .fin 0 else .inf)
    else if 0 < RCLike.re x then .fin (RCLike.re x ^ p)
    else if ∃ m : ℤ, p = m then .fin ((-RCLike.re x) ^ p) else .nan
  | .cplx =>
    if x = 0 then (if 0 < p then .fin 0 else .nan)
    else .fin (‖x‖ ^ p)

open Classical in
/-- `numpy.count_nonzero` -/
noncomputable def countNonzero (l : List K) : FNum := .fin (l.countP (fun x => decide (x ≠ 0)) : ℕ)

/-- `numpy.max(numpy.abs(l))`: ValueError on an empty array -/
noncomputable def maxAbs (l : List K) : Except Err FNum :=
  match (l.map fun x => ‖x‖).max? with
  | some m => .ok (.fin m)
  | none => .error .value

/-- `numpy.min(numpy.abs(l))` -/
noncomputable def minAbs (l : List K) : Except Err FNum :=
  match (l.map fun x => ‖x‖).min? with
  | some m => .ok (.fin m)
  | none => .error .value

/-- elementwise combination of two buffers of the same shape in a reduction -/
def combine (f : FNum → FNum → FNum) (a b : RArr) : Except Err RArr := do
  let z ← NDArray.zip f a.val b.val
  return ⟨z⟩

/-- `_compute_vector_norm` — DistributedArray.py:498-538 (`numpy.squeeze` of the ±inf buffers
    removes the axis of length 1, so all branches return the array with the axis removed) -/
noncomputable def computeVectorNorm (sub : List Nat) (larr : NDArray K) (axis : Nat) (o : NormOrd) : P K (NDArray FNum) :=
  let o := match o with | .none => NormOrd.num 2 | o => o
  open Classical in
  match o with
  | .fro | .nuc | .none => .throw .value
  | .num p =>
    if p = 0 then do
      let b ← Prog.lift (reduceAxis (fun l => .ok (countNonzero l)) axis larr)
      let s ← allreduce sub (combine (· + ·)) (RArr.mk b)
      .ret s.val
    else do
      let b ← Prog.lift (reduceAxis (fun l => .ok (l.map (absFloatPower larr.dtype p)).sum) axis larr)
      let s ← allreduce sub (combine (· + ·)) (RArr.mk b)
      .ret (s.val.map (FNum.root p))
  | .inf => do
      let b ← Prog.lift (reduceAxis maxAbs axis larr)
      let s ← allreduce sub (combine FNum.max2) (RArr.mk b)
      .ret s.val
  | .ninf => do
      let b ← Prog.lift (reduceAxis minAbs axis larr)
      let s ← allreduce sub (combine FNum.min2) (RArr.mk b)
      .ret s.val

/-- `norm` — DistributedArray.py:553-573; `axis = none` is the default `axis=-1` -/
noncomputable def DArr.norm (c : Ctx K) (d : DArr K) (o : NormOrd) (axis : Option Nat) : P K (NDArray FNum) := do
  let x ← d.toScatter c d.part
  match axis with
  | none => computeVectorNorm x.sub x.larr.flatten 0 o
  | some ax =>
    if ax ≠ x.axis then .throw .notImplemented
    else computeVectorNorm x.sub x.larr x.axis o

end Verif

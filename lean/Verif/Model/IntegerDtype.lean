/-
  Arrays of integer dtype.  Of the methods of `DistributedArray` only storing numbers in an array depends on the dtype: `a[:] = v` with an integer array `a` and
  floats `v` truncates towards zero (NumPy assigns with `casting='unsafe'`).  `__neg__`, `add`, `multiply`, `conj`, `copy` and `iadd` assign their results to an array of the
  dtype of `self` — DistributedArray.py:407-482, 575-601.

  The arithmetic is exact: integers do not overflow and floats are not rounded.
-/
import Verif.Proofs.FloatExact

namespace Verif

/-- the two dtypes of the model play int64 and float64 here -/
abbrev int64 : DType := .real
abbrev float64 : DType := .cplx

/-- the integer part, towards zero -/
noncomputable def intPart (x : ℝ) : ℝ := if 0 ≤ x then (⌊x⌋ : ℝ) else (⌈x⌉ : ℝ)

/-- exact arithmetic with arrays of integers and of floats -/
noncomputable def Arith.ints : Arith ℝ := { Arith.exact (K := ℝ) with cast := fun dt x => if dt = int64 then intPart x else x }

end Verif

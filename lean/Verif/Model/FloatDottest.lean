/-
  Model of /repo/pylops_mpi/utils/dottest.py with arbitrary arithmetic (compare Model/Dottest.lean, where arithmetic is exact).  Printing (`verb`) is not modelled.
-/
import Verif.Model.FloatOperators

namespace Verif
open NDArray

/-- what NumPy does with the gathered arrays -/
structure DotArith (K : Type) extends OpArith K where
  /-- `numpy.vdot` of arrays of equal sizes -/
  vdot : List K → List K → K
  /-- `numpy.isclose(a, b, rtol, atol)`, with the given tolerances -/
  isclose : K → K → Bool

variable {K : Type}

namespace DotArith
variable (A : DotArith K)

/-- `numpy.vdot(a, b)` of flattened arrays -/
def vdotArr (a b : NDArray K) : Except Err K := if a.data.length ≠ b.data.length then .error .value else .ok (A.vdot a.data b.data)

/-- the two inner products compared by the dot test, `(yy, xx)` — dottest.py:84-88 -/
def dotPair (c : Ctx K) (op : MOp K (Prim K)) (u v : DArr K) : P K (K × K) := do
  let y ← A.run c false op u
  let x ← A.run c true op v
  let ya ← y.asarray c
  let va ← v.asarray c
  let yy ← Prog.lift (A.vdotArr ya va)
  let ua ← u.asarray c
  let xa ← x.asarray c
  let xx ← Prog.lift (A.vdotArr ua xa)
  .ret (yy, xx)

/-- `dottest` — dottest.py:76-107 -/
def dottest (c : Ctx K) (op : MOp K (Prim K)) (u v : DArr K) (nr nc : Option Nat) (raiseerror : Bool) : P K Bool :=
  let sh := op.shape Prim.shape
  if (nr.getD sh.1, nc.getD sh.2) ≠ sh then .throw .assertion
  else do
    let p ← A.dotPair c op u v
    if !A.isclose p.2 p.1 && raiseerror then .throw .assertion
    else .ret (A.isclose p.2 p.1)

end DotArith
end Verif

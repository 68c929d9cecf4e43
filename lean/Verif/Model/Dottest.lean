/-
  Model of /repo/pylops_mpi/utils/dottest.py.  Printing (`verb`) is not modelled.
-/
import Verif.Model.LinearOperator

namespace Verif
open NDArray

variable {K : Type} [Field K] [StarRing K]

/-- `numpy.vdot(a, b)` of flattened arrays -/
def vdot (a b : NDArray K) : Except Err K :=
  if a.data.length ≠ b.data.length then .error .value
  else .ok (List.zipWith (fun x y => star x * y) a.data b.data).sum

/-- the two inner products compared by the dot test, `(yy, xx)` — dottest.py:84-88 -/
def dotPair (c : Ctx K) (op : MOp K (Prim K)) (u v : DArr K) : P K (K × K) := do
  let y ← MOp.run c false op u
  let x ← MOp.run c true op v
  let ya ← y.asarray c
  let va ← v.asarray c
  let yy ← Prog.lift (vdot ya va)
  let ua ← u.asarray c
  let xa ← x.asarray c
  let xx ← Prog.lift (vdot ua xa)
  .ret (yy, xx)

/-- `dottest` — dottest.py:76-107.  `close xx yy` is `numpy.isclose(xx, yy, rtol, atol)`. -/
def dottest (c : Ctx K) (op : MOp K (Prim K)) (u v : DArr K) (nr nc : Option Nat) (close : K → K → Bool) (raiseerror : Bool) : P K Bool :=
  let sh := op.shape Prim.shape
  if (nr.getD sh.1, nc.getD sh.2) ≠ sh then .throw .assertion
  else do
    let p ← dotPair c op u v
    if !close p.2 p.1 && raiseerror then .throw .assertion
    else .ret (close p.2 p.1)

end Verif

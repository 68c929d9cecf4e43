/-
  Model of `DistributedArray.ravel` with its argument `order` (/repo/pylops_mpi/DistributedArray.py:603-627).

  Local arrays are created by `numpy.empty` and only written in place (DistributedArray.py:127, 132-155), so they are stored in C order; orders "A" and "K" then mean "C".
-/
import Verif.Model.DistributedArray

namespace Verif
open NDArray

/-- the values of `order` -/
inductive Order | C | F | A | K
  deriving DecidableEq, Repr

/-- the position in C order of the entry that is number `p` in Fortran order (first index fastest) -/
def cOfF : List Nat → Nat → Nat
  | [], _ => 0
  | m :: s, p => p % m * s.prod + cOfF s (p / m)

variable {K : Type} [Field K] [StarRing K]

/-- `numpy.ravel(a, order)` of an array stored in C order -/
def NDArray.ravel (o : Order) (a : NDArray K) : NDArray K :=
  match o with
  | .F => ⟨[a.shape.prod], a.dtype, (List.range a.shape.prod).map fun p => a.data.getD (cOfF a.shape p) 0⟩
  | _ => ⟨[a.shape.prod], a.dtype, a.data⟩

/-- `ravel(order)` — DistributedArray.py:603-627 -/
def DArr.ravelO (c : Ctx K) (d : DArr K) (o : Order) : P K (DArr K) := do
  let ls ← d.localShapes c
  let r ← mkDArr c [d.gshape.prod] d.part 0 (some (ls.map fun s => [s.prod])) d.mask d.dtype
  r.setAll c (d.larr.ravel o)

end Verif

/- When a flat scattered vector can be brought into another layout by exchanging entries with the neighbouring ranks. -/
import Verif.Spec.Vector

namespace Verif
open NDArray

/-- numbers of local entries before and after -/
abbrev Layout.cnt (L : Layout) (r : Nat) : Nat := (L.lshape r).prod

/-- the two layouts describe the same flat vector: `X` is 1-D, both are scattered along the first axis -/
structure Conform (n : Nat) (X T : Layout) : Prop where
  wfX : X.WF n
  wfT : T.WF n
  X1 : X.gshape = [T.gshape.prod]
  scX : X.part = .scatter
  axX : X.axis = 0
  scT : T.part = .scatter
  axT : T.axis = 0
  mT : T.mask = none

/-- Every boundary between ranks of the target layout lies within the parts, in the old layout, of the two ranks it
    separates. -/
def Near (n : Nat) (X T : Layout) : Prop := ∀ r, r + 1 < n →
  psum X.cnt r ≤ psum T.cnt (r + 1) ∧ psum T.cnt (r + 1) ≤ psum X.cnt (r + 2)

end Verif

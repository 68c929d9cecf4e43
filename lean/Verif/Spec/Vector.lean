/-
  Distributed vectors as values: `S.vec n d r` is what rank `r` of `n` holds of the global vector with
  flat data `d`, in the layout and dtype `S`.
-/
import Verif.Spec.Layout

namespace Verif
open NDArray

variable {K : Type}

/-- a layout together with a dtype -/
structure VSpace where
  L : Layout
  dt : DType

/-- flat data of the right size, representable in the dtype -/
def VSpace.Mem [Star K] (S : VSpace) (d : List K) : Prop := d.length = S.L.gshape.prod ∧ FitsL S.dt d

/-- what rank `r` holds of the vector `d` -/
def VSpace.vec (S : VSpace) (n : Nat) (d : List K) (r : Nat) : DArr K := S.L.fam n S.dt (S.L.piece d) r

/-- 1-D layout with the given number of entries per rank -/
def Layout.lin (N : Nat) (sizes : Nat → Nat) (mask : Option (List Nat) := none) : Layout := ⟨[N], .scatter, 0, sizes, mask⟩
/-- 1-D vector held by all ranks -/
def Layout.all (N : Nat) (part : Partition := .broadcast) : Layout := ⟨[N], part, 0, fun _ => 0, none⟩

end Verif

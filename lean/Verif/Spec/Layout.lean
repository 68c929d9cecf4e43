/-
  Families of per-rank objects: how the `DArr` of the different ranks fit together.

  `Layout` describes a distributed array as a whole; `L.fam n dt a r` is the `DArr` held by rank
  `r` when the local data of rank `q` is `a q`.
-/
import Verif.Model.DistributedArray
import Verif.NumPy.Lemmas

namespace Verif
open NDArray

variable {K : Type}

/-- The context of rank `r` of `n`; `J r` is the contents of its uninitialised memory. -/
def env (n : Nat) (J : Nat → Nat → K) (r : Nat) : Ctx K := ⟨n, r, J r⟩

/-- How a distributed array is laid out: `sizes r` is the extent of rank `r`'s part along the
    axis (scattered arrays only). -/
structure Layout where
  gshape : List Nat
  part : Partition
  axis : Nat
  sizes : Nat → Nat
  mask : Option (List Nat)

namespace Layout

/-- shape of the local array of rank `r` -/
def lshape (L : Layout) (r : Nat) : List Nat :=
  if L.part.isBroadcast then L.gshape else L.gshape.set L.axis (L.sizes r)

/-- the ranks with the same mask colour as `r` (all ranks if there is no mask) -/
def members (L : Layout) (n r : Nat) : List Nat :=
  match L.mask with
  | none => List.range n
  | some m => (List.range n).filter fun q => m.getD q 0 = m.getD r 0

/-- A layout is valid for `n` ranks: the axis exists, the parts add up to the global shape and
    the mask has an entry for each rank. -/
structure WF (L : Layout) (n : Nat) : Prop where
  axis_lt : L.axis < L.gshape.length
  sum : L.part = .scatter → psum L.sizes n = len L.gshape L.axis
  mask : ∀ m, L.mask = some m → n ≤ m.length

/-- the object held by rank `r` when rank `q`'s local data is `a q` -/
def fam (L : Layout) (n : Nat) (dt : DType) (a : Nat → List K) (r : Nat) : DArr K :=
  { gshape := L.gshape, part := L.part, axis := L.axis, mask := L.mask, sub := L.members n r,
    lshape := L.lshape r, dtype := dt, larr := ⟨L.lshape r, dt, a r⟩ }

/-- local data of the right size on each rank, representable in the dtype, and for BROADCAST
    arrays equal on all ranks -/
structure Good [Star K] (L : Layout) (n : Nat) (dt : DType) (a : Nat → List K) : Prop where
  length : ∀ r < n, (a r).length = (L.lshape r).prod
  fits : ∀ r < n, FitsL dt (a r)
  consistent : L.part = .broadcast → ∀ r < n, a r = a 0

/-- what a write leaves on each rank: BROADCAST arrays take rank 0's value -/
def sync {β : Type} (L : Layout) (a : Nat → β) : Nat → β :=
  if L.part = .broadcast then fun _ => a 0 else a

/-- the flat data of the global array: concatenation of the parts for scattered arrays -/
def globalData (L : Layout) (n : Nat) (a : Nat → List K) : List K :=
  if L.part.isBroadcast then a 0
  else concatData (outer L.gshape L.axis) (inner L.gshape L.axis)
    ((List.range n).map fun r => (L.sizes r, a r))

/-- the global array -/
def global (L : Layout) (n : Nat) (dt : DType) (a : Nat → List K) : NDArray K :=
  ⟨L.gshape, dt, L.globalData n a⟩

/-- rank `r`'s part of the global flat data `d` -/
def piece (L : Layout) (d : List K) (r : Nat) : List K :=
  if L.part.isBroadcast then d
  else sliceData L.gshape L.axis (psum L.sizes r) (psum L.sizes (r + 1)) d

end Layout
end Verif

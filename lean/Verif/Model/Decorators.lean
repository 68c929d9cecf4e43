/-
  Model of /repo/pylops_mpi/utils/decorators.py.
-/
import Verif.Model.DistributedArray

namespace Verif
open NDArray

variable {K : Type}

/-- `a.reshape(shape)` (C order): ValueError if the sizes differ -/
def NDArray.reshape (a : NDArray K) (shape : List Nat) : Except Err (NDArray K) :=
  if a.data.length = shape.prod then .ok ⟨shape, a.dtype, a.data⟩ else .error .value

/-- `numpy.cumsum` -/
def cumsum : List Int → List Int
  | [] => []
  | x :: xs => x :: (cumsum xs).map (x + ·)

/-- Python indexing `l[r - 1]`, where `l[-1]` is the last element -/
def pyPrev (l : List Int) (r : Nat) : Int := if r = 0 then l.getLastD 0 else l.getD (r - 1) 0

section
variable [Field K] [StarRing K]

/-- the part of `reshaped` that redistributes the input: decorators.py:44-70.  `gshape` and
    `lshapes` are `global_shape` and `local_shapes` of decorators.py:46-54. -/
def redistribute (c : Ctx K) (gshape : List Nat) (lshapes : Option (List (List Nat))) (x : DArr K) : P K (DArr K) :=
  if x.part ≠ .scatter then .throw .value                                   -- :44-45
  else do
    let arr ← mkDArr c gshape .scatter 0 lshapes none x.dtype               -- :55-57
    let al ← allgather c arr.lshape.prod                                    -- :58
    let xl ← allgather c x.lshape.prod                                      -- :59
    let dif := cumsum (List.zipWith (fun (a b : Nat) => (a : Int) - (b : Int)) al xl) -- :61
    let front := (min 0 (pyPrev dif c.rank)).natAbs                         -- :63
    let back := (max 0 (dif.getD c.rank 0)).toNat                           -- :65
    let g ← x.addGhostCells c (some front) (some back)                      -- :66
    let index := (max 0 (pyPrev dif c.rank)).toNat                          -- :68
    let v ← Prog.lift ((g.slice 0 index (al.getD c.rank 0 + index)).reshape arr.lshape)
    arr.setAll c v                                                          -- :69

/-- `reshaped` — decorators.py:43-74: redistribute the input, run the operator, ravel the result -/
def reshaped (c : Ctx K) (gshape : List Nat) (lshapes : Option (List (List Nat)))
    (f : DArr K → P K (DArr K)) (x : DArr K) : P K (DArr K) := do
  let arr ← redistribute c gshape lshapes x
  let y ← f arr
  if y.gshape.length > 1 then y.ravel c else .ret y

end
end Verif

/-
  Model of the first sections of /repo/examples/plot_distributed_array.py (:25-111; the rest is in Model/GalleryArrays.lean).

  Shapes, axis, arrays and the factor are parameters: in the script (10, 5), the axes 0, 1 and 0 in the first three sections, and axis 1, arange(50)/50, arange(50)/100 and .5 in the others.
  Floating-point types and integers are one dtype (`real`), arithmetic is exact.  The programs return what the plotting functions are given to draw (Model/Plotting.lean).
-/
import Verif.Model.Plotting

namespace Verif
open NDArray

variable {K : Type} [Field K] [StarRing K] [CharZero K]

/-- `np.arange(m * rank, m * (rank + 1)).reshape(shape)` with `m` the number of entries of `shape` (`shape[0] * shape[1]`, as the arrays have two axes) -/
def exLocalRange (rank : Nat) (shape : List Nat) : NDArray K :=
  ⟨shape, .real, (List.range shape.prod).map fun i => ((shape.prod * rank + i : Nat) : K)⟩

/-- plot_distributed_array.py:31-37 (`axis = 0`) and 42-48 (`axis = 1`) -/
def exFilled (c : Ctx K) (gshape : List Nat) (axis : Nat) : P K (Option (NDArray K × NDArray K)) := do
  let arr ← mkDArr c gshape .scatter axis none none .real                        -- :31-33, :42-44
  let arr ← arr.setAll c (exLocalRange c.rank arr.lshape)                         -- :35-36, :46-47
  plotDistributedArray c arr                                                     -- :37, :48

/-- plot_distributed_array.py:56-62: the local shapes are given -/
def exFilledShapes (c : Ctx K) (gshape : List Nat) (axis : Nat) : P K (Option (NDArray K × NDArray K)) := do
  let ls ← allgather c (localSplit c gshape .scatter axis)                       -- :56-58
  let arr ← mkDArr c gshape .scatter axis (some ls) none .real                   -- :59
  let arr ← arr.setAll c (exLocalRange c.rank arr.lshape)                         -- :60-61
  plotDistributedArray c arr                                                     -- :62

/-- the local arrays drawn by plot_distributed_array.py:76-111 -/
structure OpsShow (K : Type) where
  arr1 : Option (List (NDArray K))
  arr2 : Option (List (NDArray K))
  scaled : Option (List (NDArray K))
  sum : Option (List (NDArray K))
  isum : Option (List (NDArray K))
  diff : Option (List (NDArray K))
  mult : Option (List (NDArray K))

/-- plot_distributed_array.py:69-111 -/
def exOps (c : Ctx K) (axis : Nat) (x₁ x₂ : NDArray K) (s : K) : P K (OpsShow K) := do
  let arr1 ← toDist c x₁ .scatter axis none none                                 -- :72
  let arr2 ← toDist c x₂ .scatter axis none none                                 -- :74
  let p1 ← plotLocalArrays c arr1                                                -- :76
  let p2 ← plotLocalArrays c arr2                                                -- :77
  let scale ← arr1.smul c .real s                                                -- :85
  let p3 ← plotLocalArrays c scale                                               -- :86
  let sum ← arr1.add c arr2                                                      -- :91
  let p4 ← plotLocalArrays c sum                                                 -- :92
  let sum ← sum.iadd c arr2                                                      -- :98
  let p5 ← plotLocalArrays c sum                                                 -- :99
  let diff ← arr1.sub' c arr2                                                    -- :104
  let p6 ← plotLocalArrays c diff                                                -- :105
  let mult ← arr1.mul c arr2                                                     -- :110
  let p7 ← plotLocalArrays c mult                                                -- :111
  .ret ⟨p1, p2, p3, p4, p5, p6, p7⟩

end Verif

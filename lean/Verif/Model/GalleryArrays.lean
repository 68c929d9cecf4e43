/-
  Model of the last three sections of /repo/examples/plot_distributed_array.py (:125-203): arrays with a mask.

  The three sections are one program with the global shape, the axis, the local values and the axis argument of `norm` as parameters: (5·size), 0 and no axis (:138-154),
  (2, 5·size), 1 and 1 (:163-179), (5·size, 2), 0 and 0 (:187-203).  Floating-point types are one dtype (`real`), arithmetic is exact.  Prints are left out: the program returns
  `xloc`, `dot` and `norm`, which the script compares with the dot product and the norm of a part of `xloc`.
-/
import Verif.Model.Norm

namespace Verif
open NDArray

variable {K : Type} [RCLike K]

/-- `subsize = max(1, size // nsub)` with `nsub = 2` — plot_distributed_array.py:130-131 -/
def exSubsize (size : Nat) : Nat := max 1 (size / 2)

/-- `mask = np.repeat(np.arange(size // subsize), subsize)` — plot_distributed_array.py:132 -/
def exMask (size : Nat) : List Nat := (List.range (size / exSubsize size)).flatMap fun g => List.replicate (exSubsize size) g

/-- plot_distributed_array.py:138-151, 163-176, 187-200: the array with the mask, filled, gathered, its dot product with itself and its norm of order 2 -/
noncomputable def exMasked (c : Ctx K) (gshape : List Nat) (axis : Nat) (v : NDArray K) (normAxis : Option Nat) : P K (NDArray K × K × NDArray FNum) := do
  let x ← mkDArr c gshape .scatter axis none (some (exMask c.size)) .real         -- :138-140
  let x ← x.setAll c v                                                           -- :141
  let xloc ← x.asarray c                                                         -- :142
  let dot ← x.dot c x                                                            -- :145
  let nrm ← x.norm c (.num 2) normAxis                                           -- :151
  .ret (xloc, dot, nrm)

end Verif

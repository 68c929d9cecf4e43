/-
  Model of /repo/pylops_mpi/plotting/plotting.py: the data that is given to matplotlib.  The drawing itself is not modelled (matplotlib
  accepts arrays with two dimensions only; the model returns the arrays whatever their shapes are).
-/
import Verif.Model.DistributedArray

namespace Verif
open NDArray

variable {K : Type} [Field K] [StarRing K] [CharZero K]

/-- `plot_distributed_array` — plotting.py:13-44: on rank 0 the arrays given to the two calls of `matshow` (:36, :38) -/
def plotDistributedArray (c : Ctx K) (arr : DArr K) : P K (Option (NDArray K × NDArray K)) :=
  if arr.part = .broadcast then .throw .notImplemented else do                                     -- :23-24
    let d ← arr.likeMask c none                                                                     -- :25-29 (the mask is not passed on)
    let d ← d.setAll c ⟨d.lshape, .real, List.replicate d.lshape.prod (c.rank : K)⟩                 -- :30
    let fullDist ← d.asarray c                                                                      -- :31
    let full ← arr.asarray c                                                                        -- :32
    .ret (if c.rank = 0 then some (full, fullDist) else none)                                       -- :33-38

/-- `plot_local_arrays` — plotting.py:48-73: on rank 0 the arrays given to `imshow` (:67), one for each rank.  The result of `gather` is `None` on the other ranks. -/
def plotLocalArrays (c : Ctx K) (arr : DArr K) : P K (Option (List (NDArray K))) := do
  let l ← gather .gather c.world arr.larr                                                           -- :62
  .ret (if c.rank = 0 then some l else none)                                                        -- :63-67

end Verif

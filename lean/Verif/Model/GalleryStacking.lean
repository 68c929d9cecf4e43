/-
  Model of two more scripts of the gallery: /repo/examples/plot_stacking.py and /repo/examples/plot_mpilinop.py.

  The serial derivatives of PyLops are parameters, and so are the arrays assigned to the vectors (in the scripts unit impulses); floating-point types are one dtype (`real`),
  arithmetic is exact.  The final `.reshape(…)` of the NumPy arrays, the plots and the prints are left out.
-/
import Verif.Model.Gallery
import Verif.Model.Dispatch

namespace Verif
open NDArray

variable {K : Type} [RCLike K]

/-- `a * Op` for a PyLops operator and an integer: the multiple in both directions, the dtype of the operator -/
def LOp.multiple (a : Nat) (o : LOp K) : LOp K := ⟨o.rows, o.cols, o.dtype, fun x => (o.fwd x).map ((a : K) * ·), fun x => (o.adj x).map ((a : K) * ·)⟩

/-- `DistributedArray(N, partition=Partition.BROADCAST)` followed by `x[:] = v` — plot_stacking.py:73-74, plot_mpilinop.py:40-41, 62-63 -/
def replicatedArr (c : Ctx K) (N : Nat) (v : NDArray K) : P K (DArr K) := do
  let x ← mkDArr c [N] .broadcast 0 none none .real
  x.setAll c v

/-- plot_stacking.py:73-169: the three arrays `y_array`; `dv` and `dh` are `D2vop` and `D2hop`, `u` is `X1` of :72 and `w` is `X1` of :121 -/
def exStacking (c : Ctx K) (dv dh : LOp K) (u w : NDArray K) : P K (NDArray K × NDArray K × NDArray K) := do
  let x ← replicatedArr c dv.cols u                                                       -- :73-74
  let vs ← mkVStack c [dv.multiple (c.rank + 1), dh.multiple (c.rank + 1)] none                 -- :75
  let y ← MOp.run c false (.leaf vs) x                                                    -- :76
  let ya ← y.asarray c                                                                    -- :77
  let x ← repeatedArr c (c.size * (dv.cols + dh.cols)) w                                  -- :122-123
  let hs ← mkHStack c [dv.multiple (c.rank + 1), dh.multiple (c.rank + 1)] none                 -- :124
  let y ← MOp.run c false (.leaf hs) x                                                    -- :125
  let yb ← y.asarray c                                                                    -- :126
  let bd ← mkBlockDiag c [dv.multiple (c.rank + 1), dh.multiple (c.rank + 1)] none none         -- :167
  let y ← MOp.run c false (.leaf bd) x                                                    -- :168
  let yc ← y.asarray c                                                                    -- :169
  .ret (ya, yb, yc)

/-- plot_mpilinop.py:31-65, 83-86: the local array of `y` of :42, and the arrays `y` of :65 and :86; `f` and `s` are `Fop` and `Sop`, `u` is `X1` of :61 -/
def exMpilinop (c : Ctx K) (f s : LOp K) (u : NDArray K) : P K (NDArray K × NDArray K × NDArray K) := do
  let mop := asMPI (.serial f)                                                            -- :31
  let x ← replicatedArr c f.cols (scalar .real 1)                                         -- :40-41
  let y0 ← MOp.run c false mop x                                                          -- :42
  let vs ← mkVStack c [s.multiple (c.rank + 1)] none                                         -- :52
  let full ← Prog.lift (MOp.mul Prim.shape (.leaf vs) mop)                                -- :53
  let x ← replicatedArr c f.cols u                                                        -- :62-63
  let y ← MOp.run c false full x                                                          -- :64
  let ya ← y.asarray c                                                                    -- :65
  let x ← repeatedArr c (c.size * s.rows) u                                               -- :83-84
  let fullH ← Prog.lift (full.H Prim.shape)                                               -- :85
  let y ← MOp.run c false fullH x                                                         -- :85
  let yb ← y.asarray c                                                                    -- :86
  .ret (y0.larr, ya, yb)

end Verif

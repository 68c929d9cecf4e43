/-
  Model of two scripts of the gallery: /repo/examples/plot_cgls.py and the operator part of /repo/examples/plot_stacked_array.py.

  The matrices are parameters (`MatrixMult` is a serial operator of PyLops); in both scripts all ranks have the same ones, in plot_cgls.py because every rank seeds the generator
  with 42 (:21).  The local vector, the iteration limit and the tolerance are parameters too (in the scripts all ones, 15 and 1e-10).  Floating-point types are one dtype
  (`real`), arithmetic is exact.  Plots and prints are left out.
-/
import Verif.Model.Tutorials
import Verif.Model.StackedOperator
import Verif.Model.Stacked

namespace Verif
open NDArray

variable {K : Type} [RCLike K]

/-- `DistributedArray(N, dtype=…)` followed by `x[:] = v` — plot_cgls.py:37-38, 50-51, plot_stacked_array.py:126-130 -/
def repeatedArr (c : Ctx K) (N : Nat) (v : NDArray K) : P K (DArr K) := do
  let x ← mkDArr c [N] .scatter 0 none none .real
  x.setAll c v

/-- plot_cgls.py:32-53: `xinv_array`, the number of iterations and the costs; `o` is `Mop`, `v` is `np.ones(M)` -/
noncomputable def exCgls (c : Ctx K) (o : LOp K) (v : NDArray K) (niter : Option Int) (tol : ℝ) : P K (NDArray K × Nat × List ℝ) := do
  let bd ← mkBlockDiag c [o] none (some .real)                                  -- :32
  let x ← repeatedArr c (c.size * o.cols) v                                      -- :37-38
  let y ← MOp.run c false (.leaf bd) x                                          -- :39
  let x0 ← repeatedArr c bd.cols (scalar .real 0)                                -- :50-51
  let q ← CGLSS.solve c (MOp.toX (.leaf bd)) (.one y) (.one x0) niter 0 tol     -- :52
  let m ← gatherX c q.x                                                         -- :53
  .ret (m.2, q.iiter, q.cost)

/-- `x.asarray()` for a distributed array or a stacked one -/
def gatherAny (c : Ctx K) : XArr K → P K (NDArray K)
  | .one x => x.asarray c
  | .stack l => SArr.asarray c l

/-- plot_stacked_array.py:126-152: `y_arr`, `xadj_arr`, `xinv_array` and the number of iterations; `o₁` and `o₂` are the two operators `MatrixMult` -/
noncomputable def exStacked (c : Ctx K) (o₁ o₂ : LOp K) (niter : Option Int) (tol : ℝ) : P K (NDArray K × NDArray K × NDArray K × Nat) := do
  let x ← repeatedArr c (c.size * o₁.cols) (scalar .real 1)                      -- :126-130
  let mop1 ← mkBlockDiag c [o₁] none none                                       -- :133
  let mop2 ← mkBlockDiag c [o₂] none none                                       -- :134
  let mop ← Prog.lift (SOp.mkVStack Prim.shape [.leaf mop1, .leaf mop2])        -- :135
  let y ← SOp.run c false mop (.one x)                                          -- :137
  let ya ← gatherAny c y                                                        -- :138
  let xadj ← SOp.run c true mop y                                               -- :139
  let xa ← gatherAny c xadj                                                     -- :140
  let x0 ← x.copy c                                                             -- :149
  let x0 ← x0.setAll c (scalar .real 0)                                         -- :150
  let q ← CGLSS.solve c mop.toX y (.one x0) niter 0 tol                         -- :151
  let xi ← gatherAny c q.x                                                      -- :152
  .ret (ya, xa, xi, q.iiter)

end Verif

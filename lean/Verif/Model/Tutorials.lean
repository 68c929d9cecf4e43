/-
  Model of the computations with distributed arrays of /repo/tutorials/lsm.py and /repo/tutorials/mdd.py.

  The serial operators (`lsm.Demop`, `FFT`) are parameters; so are the reflectivity, the kernel in the frequency domain and the model that the scripts compute
  with NumPy.  Reshaping of the gathered arrays, plotting and the messages printed by `show=True` (C61) are left out.  The iteration limit and the tolerance
  are parameters (in the scripts 100 and 50, and the default 1e-4).
-/
import Verif.Model.Solvers
import Verif.Model.Stacking
import Verif.Model.MDC

namespace Verif
open NDArray

variable {K : Type} [RCLike K]

/-- `DistributedArray(global_shape=N, partition=Partition.BROADCAST, dtype=dt)` followed by `m[:] = v` — lsm.py:149-150, 168-169, mdd.py:115-118, 191-194 -/
def bcastArr (c : Ctx K) (N : Nat) (dt : DType) (v : NDArray K) : P K (DArr K) := do
  let m ← mkDArr c [N] .broadcast 0 none none dt
  m.setAll c v

/-- `minv_dist.asarray()` for the first result of `cgls`, followed by `cgls`'s result itself — lsm.py:170-171, mdd.py:195-196 -/
def gatherX (c : Ctx K) : XArr K → P K (DArr K × NDArray K)
  | .one x => do
    let a ← x.asarray c
    .ret (x, a)
  | .stack _ => .throw .attribute

/-- the arrays that lsm.py displays: `d`, `madj`, `d_adj`, `minv`, `d_inv` -/
structure LSMResult (K : Type) where
  d : NDArray K
  madj : NDArray K
  dadj : NDArray K
  minv : NDArray K
  dinv : NDArray K

/-- lsm.py:148-173; `ops` is `[lsm.Demop]`, `N` is `nx * nz`, `refl` is `refl.flatten()` -/
noncomputable def lsm (c : Ctx K) (ops : List (LOp K)) (N : Nat) (refl : NDArray K) (niter : Option Int) (tol : ℝ) : P K (LSMResult K) := do
  let v ← mkVStack c ops none                                                    -- :148
  let refl ← bcastArr c N .real refl                                             -- :149-150
  let d ← MOp.run c false (.leaf v) refl                                         -- :151
  let da ← d.asarray c                                                           -- :152
  let vh ← Prog.lift ((MOp.leaf v).H Prim.shape)                                 -- :157
  let madj ← MOp.run c false vh d
  let madja ← madj.asarray c                                                     -- :158
  let dadj ← MOp.run c false (.leaf v) madj                                      -- :159
  let dadja ← dadj.asarray c                                                     -- :160
  let x0 ← bcastArr c v.cols .real (scalar .real 0)                              -- :168-169
  let q ← CGLSS.solve c (MOp.toX (.leaf v)) (.one d) (.one x0) niter 0 tol       -- :170
  let m ← gatherX c q.x                                                          -- :171
  let dinv ← MOp.run c false (.leaf v) m.1                                       -- :172
  let dinva ← dinv.asarray c                                                     -- :173
  .ret ⟨da, madja, dadja, m.2, dinva⟩

/-- `a.real` -/
def areal (a : NDArray K) : NDArray K := ⟨a.shape, .real, a.data.map (castTo .real)⟩

/-- the frequencies of the calling rank — mdd.py:96-102 (`np.insert(np.cumsum(nf_ranks)[:-1], 0, 0)[rank]` is the sum of the entries before `rank`) -/
def mddKernel (c : Ctx K) (nf : Nat) (G : NDArray K) : P K (NDArray K) := do
  let l ← allgather c (localSplit c [nf] .scatter 0)
  let nfs := l.flatten
  Prog.lift (sliceRows (nfs.take c.rank).sum (nfs.take (c.rank + 1)).sum G)

/-- mdd.py:96-122, 187-196: the arrays `dloc`, `madjloc`, `minvloc`; `G` is `Gwav_fft` (of dtype `cdtype`), `s` the factor `1.0 * dt * sqrt(nt)`, `m` is `mrefl.ravel()` -/
noncomputable def mdd (c : Ctx K) (fft : Nat → Nat → Nat → Bool → LOp K) (sqrt : Nat → K) (G : NDArray K) (s : K) (nt nx nf : Nat) (dt : K) (m : NDArray K)
    (niter : Option Int) (tol : ℝ) : P K (NDArray K × NDArray K × NDArray K) := do
  let G ← mddKernel c nf G                                                                                    -- :96-102
  let op ← mkMDC c fft sqrt (G.map (s * ·)) (2 * nt - 1) 1 nf dt 1 true true false false true                 -- :109-112
  let m ← bcastArr c ((2 * nt - 1) * nx * 1) .real m                                                          -- :115-118
  let d ← MOp.run c false op.1 m                                                                              -- :121
  let da ← d.asarray c                                                                                        -- :122
  let oph ← Prog.lift (op.1.H Prim.shape)                                                                     -- :187
  let madj ← MOp.run c false oph d
  let madja ← madj.asarray c                                                                                  -- :188
  let m0 ← bcastArr c ((2 * nt - 1) * nx * 1) .cplx (scalar .real 0)                                          -- :191-194
  let q ← CGLSS.solve c (MOp.toX op.1) (.one d) (.one m0) niter 0 tol                                         -- :195
  let x ← gatherX c q.x                                                                                       -- :196
  .ret (areal da, areal madja, areal x.2)

end Verif

/-
  Model of `MPILinearOperator(Op)` (LinearOperator.py) and of pylops_mpi/waveeqprocessing/MDC.py.

  The serial operators of the pylops library are not part of the repository: `pylops.signalprocessing.FFT` is a parameter,
  `pylops.Identity` is modelled by its documented behaviour.
-/
import Verif.Model.Fredholm

namespace Verif
open NDArray

variable {K : Type} [Field K] [StarRing K]

/-- `_matvec` (`b = false`) and `_rmatvec` (`b = true`) of `MPILinearOperator(Op)` — LinearOperator.py:78-87, 115-124.  (`Op._matvec` on
    a local array of the wrong size is taken to raise ValueError.) -/
def wrapMv (o : LOp K) (b : Bool) (c : Ctx K) (x : DArr K) : P K (DArr K) := do
  let y ← mkDArr c [o.outDim b] x.part x.axis none none o.dtype
  let v ← Prog.lift (o.apply b x.larr)
  y.setAll c v

/-- `MPILinearOperator(Op)` — LinearOperator.py:37-51 -/
def wrap (o : LOp K) : Prim K := ⟨o.rows, o.cols, o.dtype, wrapMv o false, wrapMv o true⟩

/-- the first `N` entries of `x`, followed by zeros if there are fewer -/
def padTo (N : Nat) (x : List K) : List K := x.take N ++ List.replicate (N - x.length) 0

/-- `pylops.Identity(N, M, dtype=dt)` -/
def identityOp (N M : Nat) (dt : DType) : LOp K := ⟨N, M, dt, padTo N, padTo M⟩

/-- the product of the operators, given the Fredholm operator — MDC.py:44-69 -/
def mdcChain (fft : Nat → Nat → Nat → Bool → LOp K) (nt ns nr nv nfreq : Nat) (twosided conj : Bool) (dtype : DType) (fr : Prim K) : Except Err (MOp K (Prim K)) :=
  let frop : MOp K (Prim K) := if conj then .conj (.leaf fr) else .leaf fr                           -- :44-45
  let nfft := nt / 2 + 1                                                                             -- :50, ceil((nt + 1) / 2)
  let nfmax := if nfreq > nfft then nfft else nfreq                                                  -- :51-53
  let fop : MOp K (Prim K) := .leaf (wrap (fft nt nr nv twosided))
  let f1op : MOp K (Prim K) := .leaf (wrap (fft nt ns nv false))
  let iop : MOp K (Prim K) := .leaf (wrap (identityOp (nfmax * nr * nv) (nfft * nr * nv) dtype))
  let i1op : MOp K (Prim K) := .leaf (wrap (identityOp (nfmax * ns * nv) (nfft * ns * nv) dtype))
  do
    let f1h ← f1op.H Prim.shape
    let i1h ← i1op.H Prim.shape
    let m ← f1h.mul Prim.shape i1h
    let m ← m.mul Prim.shape frop
    let m ← m.mul Prim.shape iop
    m.mul Prim.shape fop

/-- `MPIMDC(G, nt, nv, nfreq, dt, dr, twosided, saveGt=…, conj=…, usematmul=…, prescaled=…)` and its `dtype` — MDC.py:12-74, 77-80, 174-180.
    `fft nt n nv s` is `FFT(dims=(nt, n, nv), axis=0, real=True, ifftshift_before=s, dtype=rdtype)`, `sqrt` is `numpy.sqrt`. -/
def mkMDC (c : Ctx K) (fft : Nat → Nat → Nat → Bool → LOp K) (sqrt : Nat → K) (G : NDArray K) (nt nv nfreq : Nat) (dt dr : K)
    (twosided saveGt conj usematmul prescaled : Bool) : P K (MOp K (Prim K) × DType) :=
  if twosided ∧ nt % 2 = 0 then .throw .value                                                        -- :28-29
  else if G.shape.length < 3 ∨ 0 ∈ G.shape.take 3 then .throw .index                                 -- :32, G[0, 0, 0]
  else do
    let fr ← mkFredholm c (if prescaled then G else G.map (dr * dt * sqrt nt * ·)) nv saveGt usematmul G.dtype   -- :36-43
    let m ← Prog.lift (mdcChain fft nt (len G.shape 1) (len G.shape 2) nv nfreq twosided conj G.dtype fr)        -- :44-69
    .ret (m, .real)                                                                                              -- :72

end Verif

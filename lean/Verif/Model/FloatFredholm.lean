/-
  Fredholm1.py (MPIFredholm1), `MPILinearOperator(Op)` of LinearOperator.py and MDC.py (MPIMDC) with arbitrary arithmetic (compare Model/Fredholm.lean and Model/MDC.lean, where
  arithmetic is exact).

  The products of matrices are parameters: one entry of the result may depend on all entries of the two matrices, on their shapes and dtypes and on the place in the code (which determines
  the memory layout of the operands).  It is assumed that it depends on nothing else; in particular `numpy.matmul` treats the slices of a stack one by one.  The serial operators `pylops.FFT`
  and `pylops.Identity` are parameters.
-/
import Verif.Model.FloatOperators
import Verif.Model.Fredholm

namespace Verif
open NDArray

/-- the products in Fredholm1.py: `G x`, `GT x`, `x^H G` -/
inductive MatCall
  | fwd | saved | plain
deriving DecidableEq

/-- what NumPy does with matrices -/
structure MatArith (K : Type) extends OpArith K where
  /-- entry `i` (in row-major order) of `numpy.matmul` of an `m × k` and a `k × p` matrix (dtypes and sizes come first) -/
  mm : MatCall → DType → DType → Nat → Nat → Nat → List K → List K → Nat → K
  /-- entry `i` of `numpy.dot` of arrays of given dtypes and shapes -/
  ndot : MatCall → DType → DType → List Nat → List Nat → List K → List K → Nat → K

variable {K : Type}

namespace MatArith
variable (A : MatArith K)

/-- `a.conj()` -/
def aconj (a : NDArray K) : NDArray K := a.map A.conj

/-- `a.transpose((0, 2, 1))` -/
def transpose021 (a : NDArray K) : Except Err (NDArray K) := @NDArray.transpose021 K ⟨A.zero⟩ a

/-- `a.T` -/
def tr (a : NDArray K) : NDArray K := @NDArray.tr K ⟨A.zero⟩ a

/-- `numpy.zeros(s, dtype)` -/
def zerosOf (s : List Nat) (t : DType) : NDArray K := ⟨s, t, List.replicate s.prod A.zero⟩

/-- `numpy.matmul(a, b)`, see `NDArray.matmul` -/
def matmul (w : MatCall) (a b : NDArray K) : Except Err (NDArray K) :=
  match a.shape, b.shape with
  | [s, m, k], [s', k', p] =>
    if s = s' ∧ k = k' then
      .ok ⟨[s, m, p], a.dtype.promote b.dtype, (List.range s).flatMap fun i => (List.range (m * p)).map (A.mm w a.dtype b.dtype m k p (chunk (m * k) a.data i) (chunk (k * p) b.data i))⟩
    else .error .value
  | [s, m, k], [k', p] =>
    if k = k' then .ok ⟨[s, m, p], a.dtype.promote b.dtype, (List.range s).flatMap fun i => (List.range (m * p)).map (A.mm w a.dtype b.dtype m k p (chunk (m * k) a.data i) b.data)⟩
    else .error .value
  | _, _ => .error .value

/-- `numpy.dot(a, b)`, see `NDArray.npDot` -/
def npDot (w : MatCall) (a b : NDArray K) : Except Err (NDArray K) :=
  let out (s : List Nat) : NDArray K := ⟨s, a.dtype.promote b.dtype, (List.range s.prod).map (A.ndot w a.dtype b.dtype a.shape b.shape a.data b.data)⟩
  match a.shape, b.shape with
  | [], s => .ok (out s)
  | s, [] => .ok (out s)
  | [m, k], [k', p] => if k = k' then .ok (out [m, p]) else .error .value
  | [m, k], [k'] => if k = k' then .ok (out [m]) else .error .value
  | [k], [k', p] => if k = k' then .ok (out [p]) else .error .value
  | _, _ => .error .value

/-- the loop `for isl in range(nsl): y1[isl] = f(isl)` — Fredholm1.py:125-126, 155-159 -/
def fredLoop (nsl : Nat) (f : Nat → Except Err (NDArray K)) (y : NDArray K) : Except Err (NDArray K) :=
  (List.range nsl).foldlM (fun y isl => do
    let v ← f isl
    A.setIndex (Index.row isl) y v) y

/-- `y1` of `_matvec` — Fredholm1.py:119-126 -/
def fredFwd (o : Fred K) (x : NDArray K) : Except Err (NDArray K) :=
  if o.usematmul then A.matmul .fwd o.G (if o.nz = 1 then x.newaxis else x)
  else A.fredLoop o.nsl (fun isl => do A.npDot .fwd (← A.get (Index.row isl) o.G) (← A.get (Index.row isl) x)) (A.zerosOf [o.nsl, o.nx, o.nz] o.dt).squeeze

/-- `y1` of `_rmatvec` — Fredholm1.py:141-159 -/
def fredAdj (o : Fred K) (x : NDArray K) : Except Err (NDArray K) :=
  if o.usematmul then
    let x := if o.nz = 1 then x.newaxis else x
    match o.GT with
    | some gt => A.matmul .saved gt x
    | none => do
      let y ← A.matmul .plain (A.aconj (← A.transpose021 x)) o.G
      .ok (A.aconj (← A.transpose021 y))
  else
    let y := (A.zerosOf [o.nsl, o.ny, o.nz] o.dt).squeeze
    match o.GT with
    | some gt => A.fredLoop o.nsl (fun isl => do A.npDot .saved (← A.get (Index.row isl) gt) (← A.get (Index.row isl) x)) y
    | none => A.fredLoop o.nsl (fun isl => do
        let v ← A.npDot .plain (A.aconj (A.tr (← A.get (Index.row isl) x))) (← A.get (Index.row isl) o.G)
        .ok (A.aconj (A.tr v))) y

/-- `_matvec` (`b = false`) and `_rmatvec` (`b = true`) — Fredholm1.py:109-129, 131-163 -/
def fredMv (o : Fred K) (b : Bool) (c : Ctx K) (x : DArr K) : P K (DArr K) :=
  if ¬ x.part.isBroadcast then .throw .value
  else do
    let y ← A.mkDArr c [o.tot * (if b then o.ny else o.nx) * o.nz] .broadcast 0 none none o.dt
    let x1 ← Prog.lift (fredInput c o (if b then o.nx else o.ny) x.larr)
    let y1 ← Prog.lift (if b then A.fredAdj o x1 else A.fredFwd o x1)
    let l ← allgather c y1
    let v ← Prog.lift (vstack l)
    A.setAll c y v.flatten

/-- `MPIFredholm1(G, nz, saveGt, usematmul, dtype=dtype)` — Fredholm1.py:78-107; see `Verif.mkFredholm` -/
def mkFredholm (c : Ctx K) (G : NDArray K) (nz : Nat) (saveGt usematmul : Bool) (dt : DType) : P K (Prim K) :=
  match G.shape with
  | [nsl, nx, ny] => do
    let nsls ← allgather c nsl
    if c.rank = 0 ∧ 1 ∈ nsls then .throw .notImplemented                          -- :90-93
    else do
      let tot ← allreduce c.world (fun a b => .ok (a + b)) nsl
      let gt ← Prog.lift (if saveGt then (A.transpose021 G).map (some ∘ A.aconj) else .ok none)
      let o : Fred K := ⟨G, nsl, nx, ny, nz, nsls, tot, gt, usematmul, dt⟩
      .ret { rows := tot * nx * nz, cols := tot * ny * nz, dtype := dt, mv := A.fredMv o false, rmv := A.fredMv o true }
  | _ => .throw .value

end MatArith

namespace OpArith
variable (A : OpArith K)

/-- `_matvec` (`b = false`) and `_rmatvec` (`b = true`) of `MPILinearOperator(Op)` — LinearOperator.py:78-87, 115-124; see `Verif.wrapMv` -/
def wrapMv (o : FOp K) (b : Bool) (c : Ctx K) (x : DArr K) : P K (DArr K) := do
  let y ← A.mkDArr c [if b then o.cols else o.rows] x.part x.axis none none o.dtype
  let v ← Prog.lift ((o.on x.larr.dtype).apply b x.larr)
  A.setAll c y v

/-- `MPILinearOperator(Op)` — LinearOperator.py:37-51 -/
def wrap (o : FOp K) : Prim K := ⟨o.rows, o.cols, o.dtype, A.wrapMv o false, A.wrapMv o true⟩

end OpArith

/-- constructors of the serial operators: `fft nt n nv s` is `FFT(dims=(nt, n, nv), axis=0, real=True, ifftshift_before=s, dtype=rdtype)`, `idn N M dtype` is
    `Identity(N, M, inplace=True, dtype=dtype)` -/
structure MDCSerial (K : Type) where
  fft : Nat → Nat → Nat → Bool → FOp K
  idn : Nat → Nat → DType → FOp K

namespace MatArith
variable (A : MatArith K)

/-- the product of the operators, given the Fredholm operator — MDC.py:44-69 -/
def mdcChain (S : MDCSerial K) (nt ns nr nv nfreq : Nat) (twosided conj : Bool) (dtype : DType) (fr : Prim K) : Except Err (MOp K (Prim K)) :=
  let frop : MOp K (Prim K) := if conj then .conj (.leaf fr) else .leaf fr                           -- :44-45
  let nfft := nt / 2 + 1                                                                             -- :50, ceil((nt + 1) / 2)
  let nfmax := if nfreq > nfft then nfft else nfreq                                                  -- :51-53
  let fop : MOp K (Prim K) := .leaf (A.wrap (S.fft nt nr nv twosided))
  let f1op : MOp K (Prim K) := .leaf (A.wrap (S.fft nt ns nv false))
  let iop : MOp K (Prim K) := .leaf (A.wrap (S.idn (nfmax * nr * nv) (nfft * nr * nv) dtype))
  let i1op : MOp K (Prim K) := .leaf (A.wrap (S.idn (nfmax * ns * nv) (nfft * ns * nv) dtype))
  do
    let f1h ← A.opH Prim.shape f1op
    let i1h ← A.opH Prim.shape i1op
    let m ← OpArith.opMul Prim.shape f1h i1h
    let m ← OpArith.opMul Prim.shape m frop
    let m ← OpArith.opMul Prim.shape m iop
    OpArith.opMul Prim.shape m fop

/-- `MPIMDC(G, nt, nv, nfreq, dt, dr, twosided, saveGt=…, conj=…, usematmul=…, prescaled=…)` and its `dtype` — MDC.py:12-74, 77-80, 174-180; `sqrt` is `numpy.sqrt` -/
def mkMDC (c : Ctx K) (S : MDCSerial K) (sqrt : Nat → K) (G : NDArray K) (nt nv nfreq : Nat) (dt dr : K) (twosided saveGt conj usematmul prescaled : Bool) : P K (MOp K (Prim K) × DType) :=
  if twosided ∧ nt % 2 = 0 then .throw .value                                                        -- :28-29
  else if G.shape.length < 3 ∨ 0 ∈ G.shape.take 3 then .throw .index                                 -- :32, G[0, 0, 0]
  else do
    let fr ← A.mkFredholm c (if prescaled then G else G.map (A.mul (A.mul (A.mul dr dt) (sqrt nt)))) nv saveGt usematmul G.dtype   -- :36-43
    let m ← Prog.lift (A.mdcChain S nt (len G.shape 1) (len G.shape 2) nv nfreq twosided conj G.dtype fr)                          -- :44-69
    .ret (m, .real)                                                                                                                -- :72

end MatArith
end Verif

/-
  Model of pylops_mpi/signalprocessing/Fredholm1.py
-/
import Verif.Model.LinearOperator
import Verif.Model.Decorators
import Verif.NumPy.Matmul

namespace Verif
open NDArray

variable {K : Type} [Field K] [StarRing K]

/-- the attributes of an `MPIFredholm1` object on one rank -/
structure Fred (K : Type) where
  G : NDArray K
  nsl : Nat
  nx : Nat
  ny : Nat
  nz : Nat
  nsls : List Nat
  tot : Nat
  /-- `self.GT`, set if `saveGt` -/
  GT : Option (NDArray K)
  usematmul : Bool
  dt : DType

/-- `a.conj()` -/
def aconj (a : NDArray K) : NDArray K := a.map star

/-- the part of the input of the calling rank — Fredholm1.py:116-117, 138-139 -/
def fredInput (c : Ctx K) (o : Fred K) (n1 : Nat) (x : NDArray K) : Except Err (NDArray K) := do
  let x ← x.reshape [o.tot, n1, o.nz]
  sliceRows (o.nsls.take c.rank).sum (o.nsls.take (c.rank + 1)).sum x.squeeze

/-- the loop `for isl in range(nsl): y1[isl] = f(isl)` — Fredholm1.py:125-126, 155-159 -/
def fredLoop (nsl : Nat) (f : Nat → Except Err (NDArray K)) (y : NDArray K) : Except Err (NDArray K) :=
  (List.range nsl).foldlM (fun y isl => do
    let v ← f isl
    setIndex (Index.row isl) y v) y

/-- `y1` of `_matvec` — Fredholm1.py:119-126 -/
def fredFwd (o : Fred K) (x : NDArray K) : Except Err (NDArray K) :=
  if o.usematmul then matmul o.G (if o.nz = 1 then x.newaxis else x)
  else fredLoop o.nsl (fun isl => do npDot (← get (Index.row isl) o.G) (← get (Index.row isl) x)) (zerosOf [o.nsl, o.nx, o.nz] o.dt).squeeze

/-- `y1` of `_rmatvec` — Fredholm1.py:141-159 -/
def fredAdj (o : Fred K) (x : NDArray K) : Except Err (NDArray K) :=
  if o.usematmul then
    let x := if o.nz = 1 then x.newaxis else x
    match o.GT with
    | some gt => matmul gt x
    | none => do
      let y ← matmul (aconj (← transpose021 x)) o.G
      .ok (aconj (← transpose021 y))
  else
    let y := (zerosOf [o.nsl, o.ny, o.nz] o.dt).squeeze
    match o.GT with
    | some gt => fredLoop o.nsl (fun isl => do npDot (← get (Index.row isl) gt) (← get (Index.row isl) x)) y
    | none => fredLoop o.nsl (fun isl => do
        let v ← npDot (aconj (← get (Index.row isl) x).tr) (← get (Index.row isl) o.G)
        .ok (aconj v.tr)) y

/-- `_matvec` (`b = false`) and `_rmatvec` (`b = true`) — Fredholm1.py:109-129, 131-163 -/
def fredMv (o : Fred K) (b : Bool) (c : Ctx K) (x : DArr K) : P K (DArr K) :=
  if ¬ x.part.isBroadcast then .throw .value
  else do
    let y ← mkDArr c [o.tot * (if b then o.ny else o.nx) * o.nz] .broadcast 0 none none o.dt
    let x1 ← Prog.lift (fredInput c o (if b then o.nx else o.ny) x.larr)
    let y1 ← Prog.lift (if b then fredAdj o x1 else fredFwd o x1)
    let l ← allgather c y1
    let v ← Prog.lift (vstack l)
    y.setAll c v.flatten

/-- `MPIFredholm1(G, nz, saveGt, usematmul, dtype=dtype)` — Fredholm1.py:78-107; a kernel without exactly three axes raises ValueError. -/
def mkFredholm (c : Ctx K) (G : NDArray K) (nz : Nat) (saveGt usematmul : Bool) (dt : DType) : P K (Prim K) :=
  match G.shape with
  | [nsl, nx, ny] => do
    let nsls ← allgather c nsl
    if c.rank = 0 ∧ 1 ∈ nsls then .throw .notImplemented                          -- :90-93
    else do
      let tot ← allreduce c.world (fun a b => .ok (a + b)) nsl
      let gt ← Prog.lift (if saveGt then (transpose021 G).map (some ∘ aconj) else .ok none)
      let o : Fred K := ⟨G, nsl, nx, ny, nz, nsls, tot, gt, usematmul, dt⟩
      .ret { rows := tot * nx * nz, cols := tot * ny * nz, dtype := dt, mv := fredMv o false, rmv := fredMv o true }
  | _ => .throw .value

end Verif

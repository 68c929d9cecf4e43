/-
  Arrays and operators on a communicator other than `MPI.COMM_WORLD`.

  A program that makes MPI calls only on `base_comm` is the program of the other files, with the ranks renamed (`BCtx.on`).  That covers the methods of `DistributedArray`
  that create their result with `base_comm=self.base_comm` and otherwise only use `self.base_comm` and `self.sub_comm`: the constructor, `to_dist`, `__setitem__`, `asarray`,
  `__neg__`, `add`, `iadd`, `__sub__`, `__isub__`, `multiply`, `conj`, `copy`, `zeros_like`, `add_ghost_cells`, and `dot` and `norm` of scattered arrays; and
  `MPILinearOperator(Op, base_comm)` (LinearOperator.py:80-85, 117-122).
  The functions below create arrays with the default `base_comm=MPI.COMM_WORLD` although they are given arrays or operators on another communicator.

  Not modelled: Laplacian, Gradient, MDC on other communicators (they are built from the operators below).
-/
import Verif.MPI.Rename
import Verif.Model.Norm
import Verif.Model.Stacking
import Verif.Model.Fredholm

namespace Verif
open NDArray

/-- What a rank knows: its place in `MPI.COMM_WORLD`, its place in `base_comm`, and the numbers in `MPI.COMM_WORLD` of the ranks of `base_comm`. -/
structure BCtx (K : Type) where
  w : Ctx K
  b : Ctx K
  f : Nat → Nat

variable {K : Type} {α : Type}

/-- run a program on `base_comm` -/
def BCtx.on (B : BCtx K) (p : P K α) : P K α := p.rename B.f

section
variable [Field K] [StarRing K]

/-- `dot` — DistributedArray.py:484-496: `to_dist(x=self.local_array)` is on `MPI.COMM_WORLD`, the sum over `self.sub_comm` -/
def DArr.dotOn (B : BCtx K) (d e : DArr K) : P K K := do
  d.checkCompat e
  let x ← d.toScatter B.w d.part
  let y ← e.toScatter B.w d.part
  let v ← Prog.lift (NDArray.dot x.larr.flatten y.larr.flatten)
  let s ← B.on (allreduce d.sub (fun a b => .ok ⟨a.val + b.val⟩) (Sc.mk v))
  .ret s.val

/-- `ravel` — DistributedArray.py:603-627: the result is created on `MPI.COMM_WORLD` (:617-622) -/
def DArr.ravelOn (B : BCtx K) (d : DArr K) : P K (DArr K) := do
  let ls ← B.on (d.localShapes B.b)
  let r ← mkDArr B.w [d.gshape.prod] d.part 0 (some (ls.map fun s => [s.prod])) d.mask d.dtype
  r.setAll B.w d.larr.flatten

/-- `a - b` of two 1-D NumPy arrays: an array of length 1 is repeated, other different lengths raise ValueError -/
def bsub (a b : List Nat) : Except Err (List Int) :=
  if a.length = b.length then .ok (List.zipWith (fun (a b : Nat) => (a : Int) - (b : Int)) a b)
  else if b.length = 1 then .ok (a.map fun (x : Nat) => (x : Int) - ((b.getD 0 0 : Nat) : Int))
  else if a.length = 1 then .ok (b.map fun (x : Nat) => ((a.getD 0 0 : Nat) : Int) - (x : Int))
  else .error .value

/-- the part of `reshaped` that redistributes the input — decorators.py:44-70: `arr` is on `MPI.COMM_WORLD`, `x` on its `base_comm` and `self.rank` is the rank in the
    operator's `base_comm` -/
def redistributeOn (B : BCtx K) (gshape : List Nat) (lshapes : Option (List (List Nat))) (x : DArr K) : P K (DArr K) :=
  if x.part ≠ .scatter then .throw .value
  else do
    let arr ← mkDArr B.w gshape .scatter 0 lshapes none x.dtype             -- :55-57
    let al ← allgather B.w arr.lshape.prod                                  -- :58
    let xl ← B.on (allgather B.b x.lshape.prod)                             -- :59
    let dl ← Prog.lift (bsub al xl)
    let dif := cumsum dl                                                    -- :61
    let front := (min 0 (pyPrev dif B.b.rank)).natAbs
    let back := (max 0 (dif.getD B.b.rank 0)).toNat
    let g ← B.on (x.addGhostCells B.b (some front) (some back))             -- :66
    let index := (max 0 (pyPrev dif B.b.rank)).toNat
    let v ← Prog.lift ((g.slice 0 index (al.getD B.b.rank 0 + index)).reshape arr.lshape)
    arr.setAll B.w v                                                        -- :69

/-- `reshaped` — decorators.py:43-74; the operators below return arrays on `MPI.COMM_WORLD` -/
def reshapedOn (B : BCtx K) (gshape : List Nat) (lshapes : Option (List (List Nat))) (f : DArr K → P K (DArr K)) (x : DArr K) : P K (DArr K) := do
  let arr ← redistributeOn B gshape lshapes x
  let y ← f arr
  if y.gshape.length > 1 then y.ravel B.w else .ret y

/-- an operator on a communicator: `_matvec` and `_rmatvec` -/
structure PrimOn (K : Type) where
  mv : DArr K → P K (DArr K)
  rmv : DArr K → P K (DArr K)

/-- `MPIBlockDiag._matvec` and `_rmatvec` — BlockDiag.py:121-143: `y` is on `MPI.COMM_WORLD` -/
def blockDiagMvOn (ops : List (LOp K)) (mask : Option (List Nat)) (dt : DType) (b : Bool) (lin lout : List (List Nat)) (M : Nat) (B : BCtx K) (x : DArr K) : P K (DArr K) :=
  reshapedOn B x.gshape (some lin) (fun x => do
    let y ← mkDArr B.w [M] .scatter 0 (some lout) mask dt
    let y1 ← Prog.lift (applyAt b x.larr 0 ops)
    let v ← Prog.lift (concat 0 y1)
    y.setAll B.w v) x

/-- `MPIBlockDiag(ops, base_comm)` — BlockDiag.py:100-119 -/
def mkBlockDiagOn (B : BCtx K) (ops : List (LOp K)) (mask : Option (List Nat)) (dtype : Option DType) : P K (PrimOn K) := do
  let mops := (ops.map (·.cols)).sum
  let lm ← B.on (allgather B.b [mops])
  let nops := (ops.map (·.rows)).sum
  let ln ← B.on (allgather B.b [nops])
  let M ← B.on (allreduce B.b.world (fun a b => .ok (a + b)) nops)
  let N ← B.on (allreduce B.b.world (fun a b => .ok (a + b)) mops)
  let dt ← Prog.lift (opsDType ops dtype)
  .ret { mv := blockDiagMvOn ops mask dt false lm ln M B, rmv := blockDiagMvOn ops mask dt true ln lm N B }

/-- `MPIVStack._matvec` — VStack.py:119-130: `y` is on `MPI.COMM_WORLD` -/
def vstackMvOn (ops : List (LOp K)) (dt : DType) (ln : List (List Nat)) (M : Nat) (B : BCtx K) (x : DArr K) : P K (DArr K) :=
  if ¬ x.part.isBroadcast then .throw .value
  else do
    let y ← mkDArr B.w [M] .scatter 0 (some ln) none dt
    let y1 ← Prog.lift (ops.mapM fun o => o.apply false x.larr)
    let v ← Prog.lift (concat 0 y1)
    y.setAll B.w v

/-- `MPIVStack._rmatvec` — VStack.py:132-143: `y` is on `MPI.COMM_WORLD`, the sum on `base_comm` -/
def vstackRmvOn (ops : List (LOp K)) (dt : DType) (ln : List (List Nat)) (N : Nat) (B : BCtx K) (x : DArr K) : P K (DArr K) :=
  reshapedOn B x.gshape (some ln) (fun x => do
    let y ← mkDArr B.w [N] .broadcast 0 none none dt
    let y1 ← Prog.lift (applyAt true x.larr 0 ops)
    let s ← Prog.lift (sumRows y1)
    let t ← B.on (allreduce B.b.world (NDArray.zip (· + ·)) s)
    y.setAll B.w t) x

/-- `MPIVStack(ops, base_comm)` — VStack.py:100-117 -/
def mkVStackOn (B : BCtx K) (ops : List (LOp K)) (dtype : Option DType) : P K (PrimOn K) := do
  let nops := (ops.map (·.rows)).sum
  let ln ← B.on (allgather B.b [nops])
  let ms ← B.on (allgather B.b (ops.map (·.cols)))
  match ms.flatten with
  | [] => .throw .index
  | N :: rest =>
    if rest.any (· ≠ N) then .throw .value
    else do
      let M ← B.on (allreduce B.b.world (fun a b => .ok (a + b)) nops)
      let dt ← Prog.lift (opsDType ops dtype)
      .ret { mv := vstackMvOn ops dt ln M B, rmv := vstackRmvOn ops dt ln N B }

/-- the value assigned in `MPIFredholm1._matvec` and `_rmatvec` — Fredholm1.py:116-128, 138-162: all MPI calls are on `base_comm` -/
def fredValue (o : Fred K) (b : Bool) (c : Ctx K) (x : NDArray K) : P K (NDArray K) := do
  let x1 ← Prog.lift (fredInput c o (if b then o.nx else o.ny) x)
  let y1 ← Prog.lift (if b then fredAdj o x1 else fredFwd o x1)
  let l ← allgather c y1
  let v ← Prog.lift (vstack l)
  .ret v.flatten

/-- `MPIFredholm1._matvec` and `_rmatvec` — Fredholm1.py:109-163: `y` is on `MPI.COMM_WORLD` -/
def fredMvOn (o : Fred K) (b : Bool) (B : BCtx K) (x : DArr K) : P K (DArr K) :=
  if ¬ x.part.isBroadcast then .throw .value
  else do
    let y ← mkDArr B.w [o.tot * (if b then o.ny else o.nx) * o.nz] .broadcast 0 none none o.dt
    let v ← B.on (fredValue o b B.b x.larr)
    y.setAll B.w v

end

/-- `norm` — DistributedArray.py:553-573: for broadcast arrays `x` is the array of `to_dist(x=self.local_array)`, on `MPI.COMM_WORLD` -/
noncomputable def DArr.normOn [RCLike K] (B : BCtx K) (d : DArr K) (o : NormOrd) (axis : Option Nat) : P K (NDArray FNum) :=
  if d.part.isBroadcast then d.norm B.w o axis else B.on (d.norm B.b o axis)

end Verif

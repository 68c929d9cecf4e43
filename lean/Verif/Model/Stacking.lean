/-
  Model of /repo/pylops_mpi/basicoperators/BlockDiag.py (MPIBlockDiag), VStack.py (MPIVStack) and
  HStack.py (MPIHStack).
-/
import Verif.Model.LinearOperator

namespace Verif
open NDArray

variable {K : Type}

/-- `_get_dtype(ops) if dtype is None else dtype` -/
def opsDType (ops : List (LOp K)) : Option DType → Except Err DType
  | some dt => .ok dt
  | none => match ops with
    | [] => .error .value
    | o :: os => .ok (os.foldl (fun t o => t.promote o.dtype) o.dtype)

/-- the loop of BlockDiag.py:126-129, 138-141, VStack.py:137-139: operator `i` is applied to the slice of `x`
    between the partial sums of the input sizes -/
def applyAt (b : Bool) (x : NDArray K) : Nat → List (LOp K) → Except Err (List (NDArray K))
  | _, [] => .ok []
  | off, o :: os => do
    let y ← o.apply b (x.slice 0 off (off + o.inDim b))
    let ys ← applyAt b x (off + o.inDim b) os
    return y :: ys

/-- `numpy.sum(numpy.vstack(arrays), axis=0)` of 1-D arrays -/
def sumRows [Add K] : List (NDArray K) → Except Err (NDArray K)
  | [] => .error .value
  | a :: as => as.foldlM (NDArray.zip (· + ·)) a

section
variable [Field K] [StarRing K]

/-- `MPIBlockDiag._matvec` (`false`) and `_rmatvec` (`true`) — BlockDiag.py:121-143.  `lin`/`lout`: local shapes of
    input and output, `M`: output size. -/
def blockDiagMv (ops : List (LOp K)) (mask : Option (List Nat)) (dt : DType) (b : Bool) (lin lout : List (List Nat)) (M : Nat)
    (c : Ctx K) (x : DArr K) : P K (DArr K) :=
  reshaped c x.gshape (some lin) (fun x => do
    let y ← mkDArr c [M] .scatter 0 (some lout) mask dt
    let y1 ← Prog.lift (applyAt b x.larr 0 ops)
    let v ← Prog.lift (concat 0 y1)
    y.setAll c v) x

/-- `MPIBlockDiag.__init__` — BlockDiag.py:100-119 -/
def mkBlockDiag (c : Ctx K) (ops : List (LOp K)) (mask : Option (List Nat)) (dtype : Option DType) : P K (Prim K) := do
  let mops := (ops.map (·.cols)).sum
  let lm ← allgather c [mops]
  let nops := (ops.map (·.rows)).sum
  let ln ← allgather c [nops]
  let M ← allreduce c.world (fun a b => .ok (a + b)) nops
  let N ← allreduce c.world (fun a b => .ok (a + b)) mops
  let dt ← Prog.lift (opsDType ops dtype)
  .ret { rows := M, cols := N, dtype := dt,
         mv := blockDiagMv ops mask dt false lm ln M,
         rmv := blockDiagMv ops mask dt true ln lm N }

/-- `MPIVStack._matvec` — VStack.py:119-130 -/
def vstackMv (ops : List (LOp K)) (dt : DType) (ln : List (List Nat)) (M : Nat) (c : Ctx K) (x : DArr K) : P K (DArr K) :=
  if ¬ x.part.isBroadcast then .throw .value
  else do
    let y ← mkDArr c [M] .scatter 0 (some ln) none dt
    let y1 ← Prog.lift (ops.mapM fun o => o.apply false x.larr)
    let v ← Prog.lift (concat 0 y1)
    y.setAll c v

/-- `MPIVStack._rmatvec` — VStack.py:132-143 -/
def vstackRmv (ops : List (LOp K)) (dt : DType) (ln : List (List Nat)) (N : Nat) (c : Ctx K) (x : DArr K) : P K (DArr K) :=
  reshaped c x.gshape (some ln) (fun x => do
    let y ← mkDArr c [N] .broadcast 0 none none dt
    let y1 ← Prog.lift (applyAt true x.larr 0 ops)
    let s ← Prog.lift (sumRows y1)
    let t ← allreduce c.world (NDArray.zip (· + ·)) s
    y.setAll c t) x

/-- `MPIVStack.__init__` — VStack.py:100-117 -/
def mkVStack (c : Ctx K) (ops : List (LOp K)) (dtype : Option DType) : P K (Prim K) := do
  let nops := (ops.map (·.rows)).sum
  let ln ← allgather c [nops]
  let ms ← allgather c (ops.map (·.cols))
  match ms.flatten with
  | [] => .throw .index                                            -- mops[0]
  | N :: rest =>
    if rest.any (· ≠ N) then .throw .value                          -- :111-112
    else do
      let M ← allreduce c.world (fun a b => .ok (a + b)) nops
      let dt ← Prog.lift (opsDType ops dtype)
      .ret { rows := M, cols := N, dtype := dt, mv := vstackMv ops dt ln M, rmv := vstackRmv ops dt ln N }

/-- `MPIHStack.__init__`, `_matvec`, `_rmatvec` — HStack.py:90-106.  `self.HStack` is
    `MPIVStack(hops).H`, an `_AdjointLinearOperator`. -/
def mkHStack (c : Ctx K) (ops : List (LOp K)) (dtype : Option DType) : P K (Prim K) := do
  let ns ← allgather c (ops.map (·.rows))
  if (match ns.flatten with
    | [] => false
    | N :: rest => rest.any (· ≠ N)) then .throw .value
  else do
    let v ← mkVStack c (ops.map (·.H)) dtype
    .ret { rows := v.cols, cols := v.rows, dtype := v.dtype,
           mv := fun c x => MOp.run c false (.adj (.leaf v)) x,
           rmv := fun c x => MOp.run c true (.adj (.leaf v)) x }

end
end Verif

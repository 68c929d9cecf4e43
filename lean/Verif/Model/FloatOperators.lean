/-
  The stacking operators of BlockDiag.py, VStack.py and HStack.py and the operator classes of LinearOperator.py with arbitrary arithmetic: nothing is assumed about the
  operations on numbers nor about the serial operators (compare Model/Stacking.lean and Model/LinearOperator.lean, where arithmetic is exact).

  Simplifications: dtypes are float64 and complex128, both stored in the type `K`; serial operators do not raise; `base_comm` is COMM_WORLD.
-/
import Verif.Model.FloatDerivatives
import Verif.Model.Stacking

namespace Verif
open NDArray

/-- what NumPy and MPI do with whole arrays, and the literal of `__neg__` -/
structure OpArith (K : Type) extends ArrArith K where
  /-- entry `j` of `numpy.sum(numpy.vstack(rows), axis=0)`; it may depend on all of the rows, since NumPy chooses the order by their memory layout -/
  sumRows : List (List K) → Nat → K
  /-- entry `j` of the result of `MPI.SUM` for the arrays of the ranks -/
  sumArr : List (List K) → Nat → K
  /-- `-1` -/
  negOne : K

variable {K : Type}

/-- `pylops.LinearOperator` on one rank: the functions that compute the forward and adjoint products may depend on the dtype of the argument -/
structure FOp (K : Type) where
  rows : Nat
  cols : Nat
  dtype : DType
  fwd : DType → List K → List K
  adj : DType → List K → List K

/-- the operator on arguments of dtype `t` -/
def FOp.on (o : FOp K) (t : DType) : LOp K := ⟨o.rows, o.cols, o.dtype, o.fwd t, o.adj t⟩

/-- `oper.H` -/
def FOp.H (o : FOp K) : FOp K := ⟨o.cols, o.rows, o.dtype, o.adj, o.fwd⟩

/-- `_get_dtype(ops) if dtype is None else dtype` -/
def fopsDType (ops : List (FOp K)) (dtype : Option DType) : Except Err DType := opsDType (ops.map (·.on .real)) dtype

namespace OpArith
variable (A : OpArith K)

/-- `numpy.sum(numpy.vstack(arrays), axis=0)` of 1-D arrays -/
def stackSum : List (NDArray K) → Except Err (NDArray K)
  | [] => .error .value
  | a :: as =>
    if as.any (·.shape ≠ a.shape) then .error .value
    else .ok ⟨a.shape, as.foldl (fun t b => t.promote b.dtype) a.dtype, (List.range a.shape.prod).map (A.sumRows ((a :: as).map (·.data)))⟩

/-- `base_comm.allreduce(v, op=MPI.SUM)` of arrays -/
def allreduceArr (c : Ctx K) (v : NDArray K) : P K (NDArray K) := do
  let l ← gather .allreduce c.world v
  match l with
  | a :: as =>
    if as.any (·.shape ≠ a.shape) then .throw .value
    else .ret ⟨a.shape, as.foldl (fun t b => t.promote b.dtype) a.dtype, (List.range a.shape.prod).map (A.sumArr ((a :: as).map (·.data)))⟩
  | [] => .throw .protocol

/-- `MPIBlockDiag._matvec` (`false`) and `_rmatvec` (`true`) — BlockDiag.py:121-143 -/
def blockDiagMv (ops : List (FOp K)) (mask : Option (List Nat)) (dt : DType) (b : Bool) (lin lout : List (List Nat)) (M : Nat) (c : Ctx K) (x : DArr K) : P K (DArr K) :=
  A.reshaped c x.gshape (some lin) (fun x => do
    let y ← A.mkDArr c [M] .scatter 0 (some lout) mask dt
    let y1 ← Prog.lift (applyAt b x.larr 0 (ops.map (·.on x.larr.dtype)))
    let v ← Prog.lift (concat 0 y1)
    A.setAll c y v) x

/-- `MPIBlockDiag.__init__` — BlockDiag.py:100-119 -/
def mkBlockDiag (c : Ctx K) (ops : List (FOp K)) (mask : Option (List Nat)) (dtype : Option DType) : P K (Prim K) := do
  let mops := (ops.map (·.cols)).sum
  let lm ← allgather c [mops]
  let nops := (ops.map (·.rows)).sum
  let ln ← allgather c [nops]
  let M ← allreduce c.world (fun a b => .ok (a + b)) nops
  let N ← allreduce c.world (fun a b => .ok (a + b)) mops
  let dt ← Prog.lift (fopsDType ops dtype)
  .ret { rows := M, cols := N, dtype := dt,
         mv := A.blockDiagMv ops mask dt false lm ln M,
         rmv := A.blockDiagMv ops mask dt true ln lm N }

/-- `MPIVStack._matvec` — VStack.py:119-130 -/
def vstackMv (ops : List (FOp K)) (dt : DType) (ln : List (List Nat)) (M : Nat) (c : Ctx K) (x : DArr K) : P K (DArr K) :=
  if ¬ x.part.isBroadcast then .throw .value
  else do
    let y ← A.mkDArr c [M] .scatter 0 (some ln) none dt
    let y1 ← Prog.lift ((ops.map (·.on x.larr.dtype)).mapM fun o => o.apply false x.larr)
    let v ← Prog.lift (concat 0 y1)
    A.setAll c y v

/-- `MPIVStack._rmatvec` — VStack.py:132-143 -/
def vstackRmv (ops : List (FOp K)) (dt : DType) (ln : List (List Nat)) (N : Nat) (c : Ctx K) (x : DArr K) : P K (DArr K) :=
  A.reshaped c x.gshape (some ln) (fun x => do
    let y ← A.mkDArr c [N] .broadcast 0 none none dt
    let y1 ← Prog.lift (applyAt true x.larr 0 (ops.map (·.on x.larr.dtype)))
    let s ← Prog.lift (A.stackSum y1)
    let t ← A.allreduceArr c s
    A.setAll c y t) x

/-- `MPIVStack.__init__` — VStack.py:100-117 -/
def mkVStack (c : Ctx K) (ops : List (FOp K)) (dtype : Option DType) : P K (Prim K) := do
  let nops := (ops.map (·.rows)).sum
  let ln ← allgather c [nops]
  let ms ← allgather c (ops.map (·.cols))
  match ms.flatten with
  | [] => .throw .index                                            -- mops[0]
  | N :: rest =>
    if rest.any (· ≠ N) then .throw .value                          -- :111-112
    else do
      let M ← allreduce c.world (fun a b => .ok (a + b)) nops
      let dt ← Prog.lift (fopsDType ops dtype)
      .ret { rows := M, cols := N, dtype := dt, mv := A.vstackMv ops dt ln M, rmv := A.vstackRmv ops dt ln N }

/-! ### LinearOperator.py -/

/-- `numpy.conj(alpha)` -/
def conjScal (s : Scal K) : Scal K := ⟨s.dtype, A.conj s.val⟩

/-- `y[:] *= alpha` — LinearOperator.py:313, 319; see `DArr.scaleInPlace` -/
def scaleInPlace (c : Ctx K) (y : DArr K) (s : Scal K) : P K (DArr K) :=
  if y.dtype = .real ∧ s.dtype = .cplx then .throw .type
  else A.setAll c { y with larr := ⟨y.larr.shape, y.larr.dtype, y.larr.data.map (A.mul · s.val)⟩ } ⟨y.larr.shape, y.larr.dtype, y.larr.data.map (A.mul · s.val)⟩

/-- `for _ in range(p): res[:] = fun(res).local_array` — LinearOperator.py:371-374 -/
def powLoop (c : Ctx K) (f : DArr K → P K (DArr K)) : Nat → DArr K → P K (DArr K)
  | 0, res => .ret res
  | p + 1, res => do
    let z ← f res
    let res ← A.setAll c res z.larr
    powLoop c f p res

/-- the check at the beginning of `matvec` (:71-74) and `rmatvec` (:108-111) -/
def check (sh : Nat × Nat) (b : Bool) (x : DArr K) (k : P K (DArr K)) : P K (DArr K) := if x.gshape ≠ [if b then sh.1 else sh.2] then .throw .value else k

/-- `matvec` (`false`) and `rmatvec` (`true`) of an operator expression — LinearOperator.py, see `MOp.run` -/
def run (c : Ctx K) : Bool → MOp K (Prim K) → DArr K → P K (DArr K)
  | b, .leaf p, x => check p.shape b x (if b then p.rmv c x else p.mv c x)
  | b, .adj e, x => check ((MOp.adj e).shape Prim.shape) b x (run c (!b) e x)
  | b, .trans e, x => check ((MOp.trans e).shape Prim.shape) b x (do
      let x ← A.dconj c x
      let y ← run c (!b) e x
      A.dconj c y)
  | false, .prod e f, x => check ((MOp.prod e f).shape Prim.shape) false x (do
      let y ← run c false f x
      run c false e y)
  | true, .prod e f, x => check ((MOp.prod e f).shape Prim.shape) true x (do
      let y ← run c true e x
      run c true f y)
  | b, .scaled e s, x => check ((MOp.scaled e s).shape Prim.shape) b x (do
      let y ← run c b e x
      A.scaleInPlace c y (if b then A.conjScal s else s))
  | b, .sum e f, x => check ((MOp.sum e f).shape Prim.shape) b x (do
      let y ← run c b e x
      let z ← run c b f x
      A.dadd c y z)
  | b, .pow e p, x => check ((MOp.pow e p).shape Prim.shape) b x (do
      let res ← A.dcopy c x
      A.powLoop c (run c b e) p res)
  | b, .conj e, x => check ((MOp.conj e).shape Prim.shape) b x (do
      let x ← A.dconj c x
      let y ← run c b e x
      A.dconj c y)

/-- `A * B` — LinearOperator.py:140-141, 277-284 -/
def opMul {ℓ : Type} (sh : ℓ → Nat × Nat) (e f : MOp K ℓ) : Except Err (MOp K ℓ) := if (e.shape sh).2 ≠ (f.shape sh).1 then .error .value else .ok (.prod e f)

/-- `A + B` — LinearOperator.py:201-202, 331-338 -/
def opAdd {ℓ : Type} (sh : ℓ → Nat × Nat) (e f : MOp K ℓ) : Except Err (MOp K ℓ) := if e.shape sh ≠ f.shape sh then .error .value else .ok (.sum e f)

/-- `-A` — LinearOperator.py:204-205 -/
def opNeg {ℓ : Type} (e : MOp K ℓ) : MOp K ℓ := .scaled e ⟨.real, A.negOne⟩

/-- `A - B` — LinearOperator.py:207-208 -/
def opSub {ℓ : Type} (sh : ℓ → Nat × Nat) (e f : MOp K ℓ) : Except Err (MOp K ℓ) := opAdd sh e (A.opNeg f)

/-- `A.H` — LinearOperator.py:151-163, see `MOp.H` -/
def opH {ℓ : Type} (sh : ℓ → Nat × Nat) : MOp K ℓ → Except Err (MOp K ℓ)
  | .prod e f => do
    let fh ← opH sh f
    let eh ← opH sh e
    opMul sh fh eh
  | .scaled e s => do
    let eh ← opH sh e
    return .scaled eh (A.conjScal s)
  | .sum e f => do
    let eh ← opH sh e
    let fh ← opH sh f
    opAdd sh eh fh
  | .conj e => do
    let eh ← opH sh e
    return .conj eh
  | e => .ok (.adj e)

/-- `MPIHStack.__init__`, `_matvec`, `_rmatvec` — HStack.py:90-106 -/
def mkHStack (c : Ctx K) (ops : List (FOp K)) (dtype : Option DType) : P K (Prim K) := do
  let ns ← allgather c (ops.map (·.rows))
  if (match ns.flatten with
    | [] => false
    | N :: rest => rest.any (· ≠ N)) then .throw .value
  else do
    let v ← A.mkVStack c (ops.map (·.H)) dtype
    .ret { rows := v.cols, cols := v.rows, dtype := v.dtype,
           mv := fun c x => A.run c false (.adj (.leaf v)) x,
           rmv := fun c x => A.run c true (.adj (.leaf v)) x }

/-- the first and the second derivative as leaves of expressions -/
def fdPrim (k : FDKind) (o : Deriv K) : Prim K :=
  ⟨o.dims.prod, o.dims.prod, o.dtype, fun c x => A.derivApply c o (A.fdMv k) x, fun c x => A.derivApply c o (A.fdRmv k) x⟩
def sdPrim (k : SDKind) (o : Deriv K) : Prim K :=
  ⟨o.dims.prod, o.dims.prod, o.dtype, fun c x => A.derivApply c o (A.sdMv k) x, fun c x => A.derivApply c o (A.sdRmv k) x⟩

/-- an expression as `Op` of a solver -/
def asOp (e : MOp K (Prim K)) : XOp K where
  mv c x := match x with
    | .one d => do
      let y ← A.run c false e d
      .ret (.one y)
    | .stack _ => .throw .attribute
  rmv c x := match x with
    | .one d => do
      let y ← A.run c true e d
      .ret (.one y)
    | .stack _ => .throw .attribute

end OpArith
end Verif

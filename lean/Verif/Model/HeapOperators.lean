/-
  The operators of /repo/pylops_mpi/LinearOperator.py and StackedLinearOperator.py acting on the memory (see Model/Heap, and
  Model/LinearOperator and Model/StackedOperator for the same operators as functions of values).

  A leaf (an operator of its own class) is any program on the memory; `Prim.heap` is the leaf that computes its result from the value of its
  argument and returns it in a new array, as the `_matvec` and `_rmatvec` of all classes of the library do (they only assign to arrays
  created in the same call).
-/
import Verif.Model.HeapSolvers

namespace Verif
open NDArray

variable {K : Type}

/-- an operator of its own class, acting on the memory -/
structure HPrim (K : Type) where
  rows : Nat
  cols : Nat
  mv : Ctx K → Nat → HP K Nat
  rmv : Ctx K → Nat → HP K Nat

abbrev HPrim.shape (p : HPrim K) : Nat × Nat := (p.rows, p.cols)

/-- the value of the argument is read, and the result is a new array -/
def Prim.heap (p : Prim K) : HPrim K where
  rows := p.rows
  cols := p.cols
  mv c x := do
    let d ← HP.read x
    let y ← HP.lift (p.mv c d)
    HP.alloc y
  rmv c x := do
    let d ← HP.read x
    let y ← HP.lift (p.rmv c d)
    HP.alloc y

section
variable [Field K] [StarRing K]

/-- `y[:] *= alpha`: the local array is multiplied in place, and then assigned to `y[:]` — LinearOperator.py:313, 319 -/
def HArr.scaleInPlace (c : Ctx K) (y : Nat) (s : Scal K) : HP K Unit := do
  let d ← HP.read y
  if d.dtype = .real ∧ s.dtype = .cplx then HP.throw .type
  else do
    HP.write y ⟨d.larr.shape, d.larr.dtype, d.larr.data.map (· * s.val)⟩
    HArr.setAll c y ⟨d.larr.shape, d.larr.dtype, d.larr.data.map (· * s.val)⟩

/-- `for _ in range(p): res[:] = fun(res).local_array` — LinearOperator.py:371-374 -/
def HArr.powLoop (c : Ctx K) (f : Nat → HP K Nat) : Nat → Nat → HP K Nat
  | 0, res => HP.ret res
  | p + 1, res => do
    let z ← f res
    let d ← HP.read z
    HArr.setAll c res d.larr
    HArr.powLoop c f p res

/-- the check at the beginning of `matvec` (:71-74) and `rmatvec` (:108-111) -/
def HArr.checkDim (sh : Nat × Nat) (b : Bool) (x : Nat) (k : HP K Nat) : HP K Nat := do
  let d ← HP.read x
  if d.gshape ≠ [if b then sh.1 else sh.2] then HP.throw .value else k

namespace MOp

/-- `matvec` (`false`) and `rmatvec` (`true`) — see `MOp.run` -/
def hrun (c : Ctx K) : Bool → MOp K (HPrim K) → Nat → HP K Nat
  | b, leaf p, x => HArr.checkDim p.shape b x (if b then p.rmv c x else p.mv c x)
  | b, adj A, x => HArr.checkDim ((adj A).shape HPrim.shape) b x (A.hrun c (!b) x)                 -- :245-249
  | b, trans A, x => HArr.checkDim ((trans A).shape HPrim.shape) b x (do                          -- :261-271
      let x ← HArr.conj c x
      let y ← A.hrun c (!b) x
      HArr.conj c y)
  | false, prod A B, x => HArr.checkDim ((prod A B).shape HPrim.shape) false x (do                -- :286-287
      let y ← B.hrun c false x
      A.hrun c false y)
  | true, prod A B, x => HArr.checkDim ((prod A B).shape HPrim.shape) true x (do                  -- :289-290
      let y ← A.hrun c true x
      B.hrun c true y)
  | b, scaled A s, x => HArr.checkDim ((scaled A s).shape HPrim.shape) b x (do                    -- :310-320
      let y ← A.hrun c b x
      HArr.scaleInPlace c y (if b then s.conj else s)
      HP.ret y)
  | b, sum A B, x => HArr.checkDim ((sum A B).shape HPrim.shape) b x (do                          -- :340-348
      let y ← A.hrun c b x
      let z ← B.hrun c b x
      HArr.add c y z)
  | b, pow A p, x => HArr.checkDim ((pow A p).shape HPrim.shape) b x (do                          -- :370-380
      let res ← HArr.copy c x
      HArr.powLoop c (A.hrun c b) p res)
  | b, conj A, x => HArr.checkDim ((conj A).shape HPrim.shape) b x (do                            -- :393-405
      let x ← HArr.conj c x
      let y ← A.hrun c b x
      HArr.conj c y)

/-- a `MPILinearOperator` as the operator of a solver -/
def toHX (e : MOp K (HPrim K)) : HXOp K where
  mv c x := match x with
    | .one x => do let y ← MOp.hrun c false e x; HP.ret (.one y)
    | .stack _ => HP.throw .attribute
  rmv c x := match x with
    | .one x => do let y ← MOp.hrun c true e x; HP.ret (.one y)
    | .stack _ => HP.throw .attribute

end MOp

namespace SOp

/-- the check at the beginning of `matvec` and `rmatvec` — StackedLinearOperator.py:67-73, 100-106 (see `SOp.checkDim`) -/
def hcheckDim (sh : Nat × Nat) (b : Bool) (x : XRef) (k : HP K XRef) : HP K XRef := do
  let v ← HX.read x
  match v with
  | .one d => if d.gshape ≠ [if b then sh.1 else sh.2] then HP.throw .value else k
  | .stack l =>
    if l.any fun d => d.gshape.length ≠ ((l.map fun e => e.gshape.length).headD 0) then HP.throw .value
    else if (l.map fun d => d.gshape.sum).sum ≠ (if b then sh.1 else sh.2) then HP.throw .value else k

/-- `MPIStackedVStack._matvec` — VStack.py:183-188 -/
def hvsMv (c : Ctx K) (ops : List (MOp K (HPrim K))) : XRef → HP K XRef
  | .one x => do
    let y1 ← HP.forList (fun o => MOp.hrun c false o x) ops
    HP.ret (.stack y1)
  | .stack _ => HP.throw .attribute

/-- the loop of `MPIStackedVStack._rmatvec` — VStack.py:192-193 -/
def hvsLoop (c : Ctx K) : Nat → List (Nat × MOp K (HPrim K)) → HP K Nat
  | y, [] => HP.ret y
  | y, p :: l => do
    let z ← MOp.hrun c true p.2 p.1
    let y ← HArr.add c y z
    hvsLoop c y l

/-- `MPIStackedVStack._rmatvec` — VStack.py:190-194 -/
def hvsRmv (c : Ctx K) (ops : List (MOp K (HPrim K))) : XRef → HP K XRef
  | .stack (x0 :: xs) => match ops with
    | o :: os => do
      let y ← MOp.hrun c true o x0
      let y ← hvsLoop c y (xs.zip os)
      HP.ret (.one y)
    | [] => HP.throw .index
  | .stack [] => HP.throw .index
  | .one _ => HP.throw .attribute

/-- `MPIStackedBlockDiag._matvec` and `_rmatvec` — BlockDiag.py:177-187 -/
def hbdMv (c : Ctx K) (b : Bool) (ops : List (MOp K (HPrim K))) : XRef → HP K XRef
  | .stack xs => do
    let y1 ← HP.forList (fun p : Nat × MOp K (HPrim K) => MOp.hrun c b p.2 p.1) (xs.zip ops)
    HP.ret (.stack y1)
  | .one _ => HP.throw .attribute

/-- `for _ in range(p): res[:] = fun(res)[:]` — StackedLinearOperator.py:366-370 (see `SOp.powLoop`) -/
def hpowLoop (c : Ctx K) (f : XRef → HP K XRef) : Nat → XRef → HP K XRef
  | 0, res => HP.ret res
  | p + 1, res => do
    let z ← f res
    match res, z with
    | .one x, .one y => do
      let d ← HP.read y
      HArr.setAll c x d.larr
      hpowLoop c f p (.one x)
    | .one _, .stack _ => HP.throw .value
    | .stack l, _ => hpowLoop c f p (.stack l)

/-- `matvec` (`false`) and `rmatvec` (`true`) — see `SOp.run` -/
def hrun (c : Ctx K) : Bool → SOp K (HPrim K) → XRef → HP K XRef
  | b, vstack ops, x => hcheckDim ((vstack ops).shape HPrim.shape) b x (if b then hvsRmv c ops x else hvsMv c ops x)
  | b, grad ops, x => hcheckDim ((grad ops).shape HPrim.shape) b x (if b then hvsRmv c ops x else hvsMv c ops x)
  | b, bdiag ops, x => hcheckDim ((bdiag ops).shape HPrim.shape) b x (hbdMv c b ops x)
  | b, adj A, x => hcheckDim ((adj A).shape HPrim.shape) b x (A.hrun c (!b) x)
  | b, trans A, x => hcheckDim ((trans A).shape HPrim.shape) b x (do
      let x ← HX.conj c x
      let y ← A.hrun c (!b) x
      HX.conj c y)
  | false, prod A B, x => hcheckDim ((prod A B).shape HPrim.shape) false x (do
      let y ← B.hrun c false x
      A.hrun c false y)
  | true, prod A B, x => hcheckDim ((prod A B).shape HPrim.shape) true x (do
      let y ← A.hrun c true x
      B.hrun c true y)
  | b, scaled A s, x => hcheckDim ((scaled A s).shape HPrim.shape) b x (do
      let y ← A.hrun c b x
      HX.smul c (if b then s.conj else s).dtype (if b then s.conj else s).val y)
  | b, sum A B, x => hcheckDim ((sum A B).shape HPrim.shape) b x (do
      let y ← A.hrun c b x
      let z ← B.hrun c b x
      HX.add c y z)
  | b, pow A p, x => hcheckDim ((pow A p).shape HPrim.shape) b x (do
      let res ← HX.copy c x
      hpowLoop c (A.hrun c b) p res)
  | b, conj A, x => hcheckDim ((conj A).shape HPrim.shape) b x (do
      let x ← HX.conj c x
      let y ← A.hrun c b x
      HX.conj c y)

/-- a `MPIStackedLinearOperator` as the operator of a solver -/
def toHX (e : SOp K (HPrim K)) : HXOp K := ⟨fun c => SOp.hrun c false e, fun c => SOp.hrun c true e⟩

end SOp
end
end Verif

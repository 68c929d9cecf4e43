/-
  StackedLinearOperator.py, `MPIStackedVStack` (VStack.py:145-194), `MPIStackedBlockDiag` (BlockDiag.py:146-187) and the delegation in `MPIGradient` (Gradient.py:77-99) with
  arbitrary arithmetic (compare Model/StackedOperator.lean, where arithmetic is exact).
-/
import Verif.Model.FloatOperators
import Verif.Model.StackedOperator

namespace Verif
open NDArray

variable {K : Type}

namespace OpArith
variable (A : OpArith K)

/-- the check at the beginning of `matvec` and `rmatvec` — StackedLinearOperator.py:67-73, 100-106; see `SOp.checkDim` -/
def xcheck (sh : Nat × Nat) (b : Bool) (x : XArr K) (k : P K (XArr K)) : P K (XArr K) :=
  match x with
  | .one d => if d.gshape ≠ [if b then sh.1 else sh.2] then .throw .value else k
  | .stack l =>
    if l.any fun d => d.gshape.length ≠ ((l.map fun e => e.gshape.length).headD 0) then .throw .value
    else if (l.map fun d => d.gshape.sum).sum ≠ (if b then sh.1 else sh.2) then .throw .value else k

/-- `y * alpha` for a scalar of dtype `t` -/
def smulX (c : Ctx K) (t : DType) (a : K) : XArr K → P K (XArr K)
  | .one d => do let y ← A.dsmul c d t a; .ret (.one y)
  | .stack l => do let y ← A.ssmul c l t a; .ret (.stack y)

/-- `MPIStackedVStack._matvec` — VStack.py:183-188 -/
def vsMv (c : Ctx K) (ops : List (MOp K (Prim K))) : XArr K → P K (XArr K)
  | .one x => do
    let y1 ← forList (fun o => A.run c false o x) ops
    .ret (.stack y1)
  | .stack _ => .throw .attribute

/-- the loop of `MPIStackedVStack._rmatvec` — VStack.py:192-193 -/
def vsLoop (c : Ctx K) : DArr K → List (DArr K × MOp K (Prim K)) → P K (DArr K)
  | y, [] => .ret y
  | y, p :: l => do
    let z ← A.run c true p.2 p.1
    let y ← A.dadd c y z
    vsLoop c y l

/-- `MPIStackedVStack._rmatvec` — VStack.py:190-194 -/
def vsRmv (c : Ctx K) (ops : List (MOp K (Prim K))) : XArr K → P K (XArr K)
  | .stack (x0 :: xs) => match ops with
    | o :: os => do
      let y ← A.run c true o x0
      let y ← A.vsLoop c y (xs.zip os)
      .ret (.one y)
    | [] => .throw .index
  | .stack [] => .throw .index
  | .one _ => .throw .attribute

/-- `MPIStackedBlockDiag._matvec` and `_rmatvec` — BlockDiag.py:177-187 -/
def bdMv (c : Ctx K) (b : Bool) (ops : List (MOp K (Prim K))) : XArr K → P K (XArr K)
  | .stack xs => do
    let y1 ← forList (fun p : DArr K × MOp K (Prim K) => A.run c b p.2 p.1) (xs.zip ops)
    .ret (.stack y1)
  | .one _ => .throw .attribute

/-- `for _ in range(p): res[:] = fun(res)[:]` — StackedLinearOperator.py:366-370; see `SOp.powLoop` -/
def xpowLoop (c : Ctx K) (f : XArr K → P K (XArr K)) : Nat → XArr K → P K (XArr K)
  | 0, res => .ret res
  | p + 1, res => do
    let z ← f res
    match res, z with
    | .one d, .one e => do
      let d ← A.setAll c d e.larr
      xpowLoop c f p (.one d)
    | .one _, .stack _ => .throw .value
    | .stack l, _ => xpowLoop c f p (.stack l)

/-- `matvec` (`false`) and `rmatvec` (`true`) of a stacked operator — StackedLinearOperator.py:47-107, see `SOp.run` -/
def srun (c : Ctx K) : Bool → SOp K (Prim K) → XArr K → P K (XArr K)
  | b, .vstack ops, x => xcheck ((SOp.vstack ops).shape Prim.shape) b x (if b then A.vsRmv c ops x else A.vsMv c ops x)
  | b, .grad ops, x => xcheck ((SOp.grad ops).shape Prim.shape) b x (if b then A.vsRmv c ops x else A.vsMv c ops x)
  | b, .bdiag ops, x => xcheck ((SOp.bdiag ops).shape Prim.shape) b x (A.bdMv c b ops x)
  | b, .adj e, x => xcheck ((SOp.adj e).shape Prim.shape) b x (srun c (!b) e x)
  | b, .trans e, x => xcheck ((SOp.trans e).shape Prim.shape) b x (do
      let x ← A.conjX c x
      let y ← srun c (!b) e x
      A.conjX c y)
  | false, .prod e f, x => xcheck ((SOp.prod e f).shape Prim.shape) false x (do
      let y ← srun c false f x
      srun c false e y)
  | true, .prod e f, x => xcheck ((SOp.prod e f).shape Prim.shape) true x (do
      let y ← srun c true e x
      srun c true f y)
  | b, .scaled e s, x => xcheck ((SOp.scaled e s).shape Prim.shape) b x (do
      let y ← srun c b e x
      A.smulX c (if b then A.conjScal s else s).dtype (if b then A.conjScal s else s).val y)
  | b, .sum e f, x => xcheck ((SOp.sum e f).shape Prim.shape) b x (do
      let y ← srun c b e x
      let z ← srun c b f x
      A.addX c y z)
  | b, .pow e p, x => xcheck ((SOp.pow e p).shape Prim.shape) b x (do
      let res ← A.copy c x
      A.xpowLoop c (srun c b e) p res)
  | b, .conj e, x => xcheck ((SOp.conj e).shape Prim.shape) b x (do
      let x ← A.conjX c x
      let y ← srun c b e x
      A.conjX c y)

section
variable {ℓ : Type} (sh : ℓ → Nat × Nat)

/-- `e * f` — StackedLinearOperator.py:130-131, 169-170, 266-279; see `SOp.mul` -/
def smulOp (e f : SOp K ℓ) : Except Err (SOp K ℓ) :=
  if e.type = .vstack ∧ f.type = .vstack then .error .value
  else match e, f with
  | .bdiag a, .bdiag b =>
    if a.length ≠ b.length then .error .value
    else if (e.shape sh).2 ≠ (f.shape sh).1 then .error .value else .ok (.prod e f)
  | _, _ => if (e.shape sh).2 ≠ (f.shape sh).1 then .error .value else .ok (.prod e f)

/-- `e + f` — StackedLinearOperator.py:191-192, 326-334 -/
def saddOp (e f : SOp K ℓ) : Except Err (SOp K ℓ) :=
  if e.type ≠ f.type then .error .value
  else if e.shape sh ≠ f.shape sh then .error .value else .ok (.sum e f)

/-- `e - f`, that is `e + (-1) * f` — StackedLinearOperator.py:194-198 -/
def ssubOp (e f : SOp K ℓ) : Except Err (SOp K ℓ) := saddOp sh e (.scaled f ⟨.real, A.negOne⟩)

/-- `e.H` — StackedLinearOperator.py:143-154, 200-201 and the `_adjoint` methods -/
def sopH : SOp K ℓ → Except Err (SOp K ℓ)
  | .prod e f => do
    let fh ← sopH f
    let eh ← sopH e
    smulOp sh fh eh
  | .scaled e s => do
    let eh ← sopH e
    return .scaled eh (A.conjScal s)
  | .sum e f => do
    let eh ← sopH e
    let fh ← sopH f
    saddOp sh eh fh
  | .conj e => do
    let eh ← sopH e
    return .conj eh
  | e => .ok (.adj e)

end

/-- a stacked operator as `Op` of a solver -/
def asStackedOp (e : SOp K (Prim K)) : XOp K where
  mv c x := A.srun c false e x
  rmv c x := A.srun c true e x

end OpArith
end Verif

/-
  Model of /repo/pylops_mpi/StackedLinearOperator.py and of `MPIStackedVStack`
  (/repo/pylops_mpi/basicoperators/VStack.py:145-194), `MPIStackedBlockDiag`
  (/repo/pylops_mpi/basicoperators/BlockDiag.py:146-187) and the delegation in `MPIGradient`
  (/repo/pylops_mpi/basicoperators/Gradient.py:77-99).

  Python duck typing: an operation applied to an object without the attribute it needs raises AttributeError.
-/
import Verif.Model.Stacked
import Verif.Model.LinearOperator

namespace Verif
open NDArray

variable {K : Type}

/-- `Union[DistributedArray, StackedDistributedArray]` -/
inductive XArr (K : Type)
  | one (d : DArr K)
  | stack (l : SArr K)

namespace XArr
section
variable [Field K] [StarRing K]

def copy (c : Ctx K) : XArr K → P K (XArr K)
  | one d => do let y ← d.copy c; .ret (one y)
  | stack l => do let y ← l.copy c; .ret (stack y)

def conj (c : Ctx K) : XArr K → P K (XArr K)
  | one d => do let y ← d.conj c; .ret (one y)
  | stack l => do let y ← l.conj c; .ret (stack y)

/-- `x + y` -/
def add (c : Ctx K) : XArr K → XArr K → P K (XArr K)
  | one d, one e => do let y ← d.add c e; .ret (one y)
  | stack l, stack m => do let y ← l.add c m; .ret (stack y)
  | _, _ => .throw .attribute

/-- `x - y` -/
def sub' (c : Ctx K) : XArr K → XArr K → P K (XArr K)
  | one d, one e => do let y ← d.sub' c e; .ret (one y)
  | stack l, stack m => do let y ← l.sub' c m; .ret (stack y)
  | one d, stack m => do let _ ← m.neg c; .throw .attribute
  | stack l, one e => do let _ ← e.neg c; .throw .attribute

/-- `x += y` -/
def iadd (c : Ctx K) : XArr K → XArr K → P K (XArr K)
  | one d, one e => do let y ← d.iadd c e; .ret (one y)
  | stack l, stack m => do let y ← l.iadd c m; .ret (stack y)
  | _, _ => .throw .attribute

/-- `x -= y` -/
def isub (c : Ctx K) : XArr K → XArr K → P K (XArr K)
  | one d, one e => do let y ← d.isub c e; .ret (one y)
  | stack l, stack m => do let y ← l.isub c m; .ret (stack y)
  | one d, stack m => do let _ ← m.neg c; .throw .attribute
  | stack l, one e => do let _ ← e.neg c; .throw .attribute

/-- `x * s` and `s * x` for a scalar of dtype `t`; also `x *= s` (neither class defines `__imul__`) -/
def smul (c : Ctx K) (t : DType) (s : K) : XArr K → P K (XArr K)
  | one d => do let y ← d.smul c t s; .ret (one y)
  | stack l => do let y ← l.smul c t s; .ret (stack y)

/-- `x.dot(y)` -/
def dot (c : Ctx K) : XArr K → XArr K → P K K
  | one d, one e => d.dot c e
  | stack l, stack m => l.dot c m
  | _, _ => .throw .attribute

end

/-- `x.norm()` as a number -/
noncomputable def norm [RCLike K] (c : Ctx K) : XArr K → P K FNum
  | one d => do let a ← d.norm c .none none; .ret (a.data.getD 0 .nan)
  | stack l => l.norm c .none

end XArr

/-- Stacked operator expressions: `MPIStackedVStack`, `MPIStackedBlockDiag`, `MPIGradient` (a `MPIStackedVStack` in its attribute `Op`),
    and the classes of StackedLinearOperator.py: `_AdjointStackedLinearOperator` (:226), `_TransposedStackedLinearOperator` (:242),
    `_ProductStackedLinearOperator` (:264), `_ScaledStackedLinearOperator` (:292), `_SumStackedLinearOperator` (:322),
    `_PowerLinearOperator` (:351), `_ConjLinearOperator` (:379).  `ℓ` are the leaves of the constituent operators. -/
inductive SOp (K : Type) (ℓ : Type)
  | vstack (ops : List (MOp K ℓ))
  | bdiag (ops : List (MOp K ℓ))
  | grad (ops : List (MOp K ℓ))
  | adj (A : SOp K ℓ)
  | trans (A : SOp K ℓ)
  | prod (A B : SOp K ℓ)
  | scaled (A : SOp K ℓ) (s : Scal K)
  | sum (A B : SOp K ℓ)
  | pow (A : SOp K ℓ) (p : Nat)
  | conj (A : SOp K ℓ)

/-- `type(A)` -/
inductive SType | vstack | bdiag | grad | adj | trans | prod | scaled | sum | pow | conj
  deriving DecidableEq

namespace SOp
variable {ℓ ℓ' : Type}

def type : SOp K ℓ → SType
  | vstack _ => .vstack
  | bdiag _ => .bdiag
  | grad _ => .grad
  | adj _ => .adj
  | trans _ => .trans
  | prod _ _ => .prod
  | scaled _ _ => .scaled
  | sum _ _ => .sum
  | pow _ _ => .pow
  | conj _ => .conj

/-- replace the leaves -/
def map (f : ℓ → ℓ') : SOp K ℓ → SOp K ℓ'
  | vstack ops => vstack (ops.map (MOp.map f))
  | bdiag ops => bdiag (ops.map (MOp.map f))
  | grad ops => grad (ops.map (MOp.map f))
  | adj A => adj (A.map f)
  | trans A => trans (A.map f)
  | prod A B => prod (A.map f) (B.map f)
  | scaled A s => scaled (A.map f) s
  | sum A B => sum (A.map f) (B.map f)
  | pow A p => pow (A.map f) p
  | conj A => conj (A.map f)

/-- shape of a vertical stack — VStack.py:179 -/
def vshape (sh : ℓ → Nat × Nat) (ops : List (MOp K ℓ)) : Nat × Nat :=
  ((ops.map fun o => (o.shape sh).1).sum, ((ops.map fun o => (o.shape sh).2).headD 0))

/-- attribute `shape` -/
def shape (sh : ℓ → Nat × Nat) : SOp K ℓ → Nat × Nat
  | vstack ops => vshape sh ops
  | bdiag ops => ((ops.map fun o => (o.shape sh).1).sum, (ops.map fun o => (o.shape sh).2).sum)   -- BlockDiag.py:173-174
  | grad ops => vshape sh ops                       -- Gradient.py:93
  | adj A => ((A.shape sh).2, (A.shape sh).1)       -- :232
  | trans A => ((A.shape sh).2, (A.shape sh).1)     -- :248
  | prod A B => ((A.shape sh).1, (B.shape sh).2)    -- :278
  | scaled A _ => A.shape sh                        -- :302
  | sum A _ => A.shape sh                           -- :334
  | pow A _ => A.shape sh                           -- :363
  | conj A => A.shape sh                            -- :387

section
variable [Field K] [StarRing K]

/-- the check at the beginning of `matvec` and `rmatvec` — StackedLinearOperator.py:67-73, 100-106.  `numpy.sum` of a list of tuples of
    different lengths raises ValueError. -/
def checkDim (sh : Nat × Nat) (b : Bool) (x : XArr K) (k : P K (XArr K)) : P K (XArr K) :=
  match x with
  | .one d => if d.gshape ≠ [if b then sh.1 else sh.2] then .throw .value else k
  | .stack l =>
    if l.any fun d => d.gshape.length ≠ ((l.map fun e => e.gshape.length).headD 0) then .throw .value
    else if (l.map fun d => d.gshape.sum).sum ≠ (if b then sh.1 else sh.2) then .throw .value else k

/-- `MPIStackedVStack._matvec` — VStack.py:183-188 -/
def vsMv (c : Ctx K) (ops : List (MOp K (Prim K))) : XArr K → P K (XArr K)
  | .one x => do
    let y1 ← forList (fun o => MOp.run c false o x) ops
    .ret (.stack y1)
  | .stack _ => .throw .attribute

/-- the loop of `MPIStackedVStack._rmatvec` — VStack.py:192-193 -/
def vsLoop (c : Ctx K) : DArr K → List (DArr K × MOp K (Prim K)) → P K (DArr K)
  | y, [] => .ret y
  | y, p :: l => do
    let z ← MOp.run c true p.2 p.1
    let y ← y.add c z
    vsLoop c y l

/-- `MPIStackedVStack._rmatvec` — VStack.py:190-194 -/
def vsRmv (c : Ctx K) (ops : List (MOp K (Prim K))) : XArr K → P K (XArr K)
  | .stack (x0 :: xs) => match ops with
    | o :: os => do
      let y ← MOp.run c true o x0
      let y ← vsLoop c y (xs.zip os)
      .ret (.one y)
    | [] => .throw .index
  | .stack [] => .throw .index
  | .one _ => .throw .attribute

/-- `MPIStackedBlockDiag._matvec` and `_rmatvec` — BlockDiag.py:177-187 (`zip` stops at the shorter list) -/
def bdMv (c : Ctx K) (b : Bool) (ops : List (MOp K (Prim K))) : XArr K → P K (XArr K)
  | .stack xs => do
    let y1 ← forList (fun p : DArr K × MOp K (Prim K) => MOp.run c b p.2 p.1) (xs.zip ops)
    .ret (.stack y1)
  | .one _ => .throw .attribute

/-- `for _ in range(p): res[:] = fun(res)[:]` — StackedLinearOperator.py:366-370.  For a stacked array, `res[:]` is a new list of the
    components, and assigning to it does not change `res` (`__setitem__`, DistributedArray.py:717-718). -/
def powLoop (c : Ctx K) (f : XArr K → P K (XArr K)) : Nat → XArr K → P K (XArr K)
  | 0, res => .ret res
  | p + 1, res => do
    let z ← f res
    match res, z with
    | .one d, .one e => do
      let d ← d.setAll c e.larr
      powLoop c f p (.one d)
    | .one _, .stack _ => .throw .value
    | .stack l, _ => powLoop c f p (.stack l)

/-- `matvec` (`false`) and `rmatvec` (`true`) — StackedLinearOperator.py:47-107 and the `_matvec`, `_rmatvec` of the classes -/
def run (c : Ctx K) : Bool → SOp K (Prim K) → XArr K → P K (XArr K)
  | b, vstack ops, x => checkDim ((vstack ops).shape Prim.shape) b x (if b then vsRmv c ops x else vsMv c ops x)
  | b, grad ops, x => checkDim ((grad ops).shape Prim.shape) b x (if b then vsRmv c ops x else vsMv c ops x)  -- Gradient.py:95-99
  | b, bdiag ops, x => checkDim ((bdiag ops).shape Prim.shape) b x (bdMv c b ops x)
  | b, adj A, x => checkDim ((adj A).shape Prim.shape) b x (A.run c (!b) x)                 -- :235-239
  | b, trans A, x => checkDim ((trans A).shape Prim.shape) b x (do                          -- :251-261
      let x ← x.conj c
      let y ← A.run c (!b) x
      y.conj c)
  | false, prod A B, x => checkDim ((prod A B).shape Prim.shape) false x (do                -- :281-282
      let y ← B.run c false x
      A.run c false y)
  | true, prod A B, x => checkDim ((prod A B).shape Prim.shape) true x (do                  -- :284-285
      let y ← A.run c true x
      B.run c true y)
  | b, scaled A s, x => checkDim ((scaled A s).shape Prim.shape) b x (do                    -- :305-315
      let y ← A.run c b x
      y.smul c (if b then s.conj else s).dtype (if b then s.conj else s).val)
  | b, sum A B, x => checkDim ((sum A B).shape Prim.shape) b x (do                          -- :336-344
      let y ← A.run c b x
      let z ← B.run c b x
      y.add c z)
  | b, pow A p, x => checkDim ((pow A p).shape Prim.shape) b x (do                          -- :366-376
      let res ← x.copy c
      powLoop c (A.run c b) p res)
  | b, conj A, x => checkDim ((conj A).shape Prim.shape) b x (do                            -- :389-401
      let x ← x.conj c
      let y ← A.run c b x
      y.conj c)

variable (sh : ℓ → Nat × Nat)

/-- `MPIStackedVStack(ops)` — VStack.py:173-181 -/
def mkVStack (ops : List (MOp K ℓ)) : Except Err (SOp K ℓ) :=
  match ops with
  | [] => .error .index
  | o :: os => if os.any fun q => (q.shape sh).2 ≠ (o.shape sh).2 then .error .value else .ok (vstack (o :: os))

/-- `A * B` — StackedLinearOperator.py:130-131, 169-170, 266-279 -/
def mul (A B : SOp K ℓ) : Except Err (SOp K ℓ) :=
  if A.type = .vstack ∧ B.type = .vstack then .error .value
  else match A, B with
  | bdiag a, bdiag b =>
    if a.length ≠ b.length then .error .value
    else if (A.shape sh).2 ≠ (B.shape sh).1 then .error .value else .ok (prod A B)
  | _, _ => if (A.shape sh).2 ≠ (B.shape sh).1 then .error .value else .ok (prod A B)

/-- `A + B` — StackedLinearOperator.py:191-192, 326-334 -/
def add (A B : SOp K ℓ) : Except Err (SOp K ℓ) :=
  if A.type ≠ B.type then .error .value
  else if A.shape sh ≠ B.shape sh then .error .value else .ok (sum A B)

/-- `-A` — StackedLinearOperator.py:194-195 -/
def neg (A : SOp K ℓ) : SOp K ℓ := scaled A ⟨.real, -1⟩

/-- `A - B` — StackedLinearOperator.py:197-198 -/
def sub (A B : SOp K ℓ) : Except Err (SOp K ℓ) := A.add sh B.neg

/-- `A ** p` — StackedLinearOperator.py:188-189, 355-364 -/
def power (A : SOp K ℓ) (p : Nat) : Except Err (SOp K ℓ) :=
  if (A.shape sh).1 ≠ (A.shape sh).2 then .error .value else .ok (pow A p)

/-- `A.H` — StackedLinearOperator.py:143-154, 200-201 and the `_adjoint` methods -/
def H : SOp K ℓ → Except Err (SOp K ℓ)
  | prod A B => do
    let bh ← B.H
    let ah ← A.H
    bh.mul sh ah
  | scaled A s => do
    let ah ← A.H
    return scaled ah s.conj
  | sum A B => do
    let ah ← A.H
    let bh ← B.H
    ah.add sh bh
  | conj A => do
    let ah ← A.H
    return conj ah
  | e => .ok (adj e)

/-- `Op * x`, `Op @ x`, `Op.dot(x)` for an array — StackedLinearOperator.py:113-141: stacked arrays with components that are not all 1-D give `None` -/
def dotArr (c : Ctx K) (A : SOp K (Prim K)) : XArr K → P K (Option (XArr K))
  | .one d => if d.gshape.length = 1 then do
      let y ← A.run c false (.one d)
      .ret (some y)
    else .throw .value
  | .stack l => if l ≠ [] ∧ l.all (fun d => d.gshape.length = 1) then do
      let y ← A.run c false (.stack l)
      .ret (some y)
    else .ret none

end
end SOp
end Verif

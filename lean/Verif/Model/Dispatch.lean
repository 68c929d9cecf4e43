/-
  Model of the type dispatch of `dot`, `*`, `@` and `**` in /repo/pylops_mpi/LinearOperator.py and
  /repo/pylops_mpi/StackedLinearOperator.py, and of `asmpilinearoperator`.

  An operand is an operator, a scalar (`numpy.isscalar`) or an array; other objects (`None`, NumPy arrays, lists) are not modelled.
-/
import Verif.Model.MDC
import Verif.Model.StackedOperator

namespace Verif
open NDArray

variable {K : Type} [Field K] [StarRing K]

/-- an operand of `*`, `@` and `dot`, and their result -/
inductive Operand (K : Type)
  | op (A : MOp K (Prim K))
  | scalar (s : Scal K)
  | array (x : DArr K)

namespace MOp

/-- `A.dot(x)` — LinearOperator.py:126-149 -/
def dot (c : Ctx K) (A : MOp K (Prim K)) : Operand K → P K (Operand K)
  | .op B => do                                   -- :140-141
    let C ← Prog.lift (A.mul Prim.shape B)
    .ret (.op C)
  | .scalar s => .ret (.op (scaled A s))          -- :142-143
  | .array x =>                                   -- :145-149
    if x.gshape.length = 1 then do
      let y ← A.run c false x
      .ret (.array y)
    else .throw .value

/-- `A * x` — LinearOperator.py:179-180 -/
def times (c : Ctx K) (A : MOp K (Prim K)) (x : Operand K) : P K (Operand K) := A.dot c x

/-- `A.__rmul__(x)` — LinearOperator.py:182-186 (`none`: NotImplemented) -/
def rtimes (A : MOp K (Prim K)) : Operand K → Option (Operand K)
  | .scalar s => some (.op (scaled A s))
  | _ => none

/-- `A @ x` — LinearOperator.py:188-191 -/
def matmul (c : Ctx K) (A : MOp K (Prim K)) (x : Operand K) : P K (Operand K) :=
  match x with
  | .scalar _ => .throw .value
  | x => A.times c x

/-- `A.__rmatmul__(x)` — LinearOperator.py:193-196 -/
def rmatmul (A : MOp K (Prim K)) (x : Operand K) : P K (Option (Operand K)) :=
  match x with
  | .scalar _ => .throw .value
  | x => .ret (A.rtimes x)

/-- `A ** p` for an integer `p` — LinearOperator.py:198-199, 358-368 -/
def ipower (A : MOp K (Prim K)) (p : Int) : Except Err (MOp K (Prim K)) :=
  if (A.shape Prim.shape).1 ≠ (A.shape Prim.shape).2 then .error .value
  else if p < 0 then .error .value else .ok (pow A p.toNat)

end MOp

/-- an operand of `*`, `@` and `dot` of a stacked operator -/
inductive SOperand (K : Type)
  | op (A : SOp K (Prim K))
  | scalar (s : Scal K)
  | array (x : XArr K)

namespace SOp

/-- `A.dot(x)` — StackedLinearOperator.py:113-141 (`none`: the method returns `None`) -/
def dot (c : Ctx K) (A : SOp K (Prim K)) : SOperand K → P K (Option (SOperand K))
  | .op B => do
    let C ← Prog.lift (A.mul Prim.shape B)
    .ret (some (.op C))
  | .scalar s => .ret (some (.op (scaled A s)))
  | .array x => do
    let y ← A.dotArr c x
    .ret (y.map .array)

/-- `A * x` — StackedLinearOperator.py:169-170 -/
def times (c : Ctx K) (A : SOp K (Prim K)) (x : SOperand K) : P K (Option (SOperand K)) := A.dot c x

/-- `A @ x` — StackedLinearOperator.py:178-181 -/
def matmul (c : Ctx K) (A : SOp K (Prim K)) (x : SOperand K) : P K (Option (SOperand K)) :=
  match x with
  | .scalar _ => .throw .value
  | x => A.times c x

/-- `A ** p` for an integer `p` — StackedLinearOperator.py:188-189, 354-364 -/
def ipower (A : SOp K (Prim K)) (p : Int) : Except Err (SOp K (Prim K)) :=
  if (A.shape Prim.shape).1 ≠ (A.shape Prim.shape).2 then .error .value
  else if p < 0 then .error .value else .ok (pow A p.toNat)

end SOp

/-- argument of `asmpilinearoperator`: a pylops operator or a distributed one -/
inductive AnyOp (K : Type)
  | serial (o : LOp K)
  | mpi (A : MOp K (Prim K))

/-- `asmpilinearoperator` — LinearOperator.py:411-430 -/
def asMPI : AnyOp K → MOp K (Prim K)
  | .mpi A => A
  | .serial o => .leaf (wrap o)

end Verif

/-
  Operators on global vectors (flat lists), against which the distributed operators are compared.
-/
import Verif.Spec.Vector
import Verif.Model.LinearOperator
import Verif.MPI.Runs

namespace Verif
open NDArray

variable {K : Type}

/-- the distributed program `mv r` of rank `r` computes `f`: given the parts of a vector `d` in `S`, every execution ends with
    all ranks holding their parts of `f d` in `T` -/
def Computes [Field K] [StarRing K] (n : Nat) (J : Nat → Nat → K) (mv : Nat → Ctx K → DArr K → P K (DArr K)) (S T : VSpace)
    (f : List K → List K) : Prop :=
  ∀ d, S.Mem d → T.Mem (f d) ∧ Always n (fun r => mv r (env n J r) (S.vec n d r)) (fun r => .ok (T.vec n (f d) r))

/-- sum of two vectors -/
def vadd [Add K] (x y : List K) : List K := List.zipWith (· + ·) x y

/-- sum of vectors with `N` entries -/
def vsum [Add K] [Zero K] (N : Nat) (l : List (List K)) : List K := l.foldr vadd (List.replicate N 0)

/-- inner product, conjugating the first argument -/
def ip [Field K] [StarRing K] (u v : List K) : K := (List.zipWith (fun a b => star a * b) u v).sum

/-- what a local operator must satisfy in direction `b`: output of the right size, and representable in the dtype `dout`
    if the input is in `din` -/
structure LOp.Ok [Star K] (o : LOp K) (b : Bool) (din dout : DType) : Prop where
  length : ∀ d, d.length = o.inDim b → (o.fn b d).length = o.outDim b
  fits : ∀ d, d.length = o.inDim b → FitsL din d → FitsL dout (o.fn b d)

/-- the two directions of a local operator are adjoint to each other -/
def LOp.Adjoint [Field K] [StarRing K] (o : LOp K) : Prop :=
  ∀ u v, u.length = o.cols → v.length = o.rows → ip (o.fwd u) v = ip u (o.adj v)

/-- all operators, in rank order -/
def allOps (n : Nat) (ops : Nat → List (LOp K)) : List (LOp K) := (List.range n).flatMap ops

/-- results of the operators on consecutive slices of the input -/
def slices (b : Bool) : List (LOp K) → List K → List (List K)
  | [], _ => []
  | o :: os, x => o.fn b (x.take (o.inDim b)) :: slices b os (x.drop (o.inDim b))

/-- block-diagonal operator (`true`: adjoint) -/
def blockDiag (b : Bool) (ops : List (LOp K)) (x : List K) : List K := (slices b ops x).flatten

/-- vertical stack of the operators: all act on the same input (`true`: on the adjoints) -/
def vcat (b : Bool) (ops : List (LOp K)) (x : List K) : List K := ops.flatMap fun o => o.fn b x

/-- horizontal stack: sum of the operators on consecutive slices -/
def hsum [Add K] [Zero K] (b : Bool) (N : Nat) (ops : List (LOp K)) (x : List K) : List K := vsum N (slices b ops x)

/-- total input size -/
def inSum (b : Bool) (ops : List (LOp K)) : Nat := (ops.map (·.inDim b)).sum
/-- total output size -/
def outSum (b : Bool) (ops : List (LOp K)) : Nat := inSum (!b) ops

end Verif

/-
  Stacked operator expressions on lists of global vectors, with arbitrary arithmetic.
-/
import Verif.Model.FloatStacked
import Verif.Spec.FloatOperators
import Verif.Spec.StackSolvers

namespace Verif

variable {K : Type}

/-- layouts and dtypes of an array or of the arrays of a stack -/
inductive XDom where
  | one (V : VSpace)
  | stack (l : List VSpace)

namespace XDom

def lay : XDom → XLay
  | .one V => .one V.L
  | .stack l => .stack (l.map VSpace.L)

def dts : XDom → List DType
  | .one V => [V.dt]
  | .stack l => l.map VSpace.dt

end XDom

/-- the sum from left to right -/
def SVec.addAll (A : Arith K) : List (SVec K) → SVec K
  | [] => ⟨.real, []⟩
  | y :: ys => ys.foldl (SVec.add A) y

namespace OpArith
variable (A : OpArith K)

/-- product with the operators one above the other: a vector gives the list of the results; the adjoints take a list of vectors to the sum of the results -/
def evalStack {ι : Type} (lf : ι → Bool → SVec K → SVec K) (ops : List (MOp K ι)) : Bool → XVec K → XVec K
  | false, .one x => .stack (ops.map fun o => A.eval lf false o x)
  | true, .stack xs => .one (SVec.addAll A.toArith (List.zipWith (fun o x => A.eval lf true o x) ops xs))
  | _, x => x

/-- each operator on its vector -/
def evalDiag {ι : Type} (lf : ι → Bool → SVec K → SVec K) (ops : List (MOp K ι)) (b : Bool) : XVec K → XVec K
  | .stack xs => .stack (List.zipWith (fun o x => A.eval lf b o x) ops xs)
  | x => x

/-- powers: on single vectors `p` products, each stored in the dtype of the argument; a list of vectors is only copied -/
def evalPow (p : Nat) (F : XVec K → XVec K) (x : XVec K) : XVec K :=
  match x with
  | .one x => .one ((fun y => match F (.one y) with
      | .one z => (⟨x.dt, z.v.map (A.cast x.dt)⟩ : SVec K)
      | .stack _ => y)^[p] (x.copy A.toArith))
  | .stack _ => x.copy A.toArith

/-- what a stacked operator computes, if the leaves of the expressions in it compute `lf` -/
def seval {ι : Type} (lf : ι → Bool → SVec K → SVec K) : Bool → SOp K ι → XVec K → XVec K
  | b, .vstack ops, x => A.evalStack lf ops b x
  | b, .grad ops, x => A.evalStack lf ops b x
  | b, .bdiag ops, x => A.evalDiag lf ops b x
  | b, .adj e, x => seval lf (!b) e x
  | b, .trans e, x => (seval lf (!b) e (x.conj A.toArith)).conj A.toArith
  | false, .prod e f, x => seval lf false e (seval lf false f x)
  | true, .prod e f, x => seval lf true f (seval lf true e x)
  | b, .scaled e s, x => (seval lf b e x).scale A.toArith (if b then A.conj s.val else s.val)
  | b, .sum e f, x => (seval lf b e x).add A.toArith (seval lf b f x)
  | b, .pow e p, x => A.evalPow p (seval lf b e) x
  | b, .conj e, x => (seval lf b e (x.conj A.toArith)).conj A.toArith

end OpArith

/-- the programs of the ranks take the distributed vectors `x` of `S` to the distributed vectors `F x` of `T`, in all executions -/
structure XTakes (n : Nat) (J : Nat → Nat → K) (mv : Nat → Ctx K → XArr K → P K (XArr K)) (S T : XDom) (F : XVec K → XVec K) : Prop where
  dtype : ∀ x : XVec K, x.Fits S.lay → x.dts = S.dts → (F x).dts = T.dts
  fits : ∀ x : XVec K, x.Fits S.lay → x.dts = S.dts → (F x).Fits T.lay
  runs : ∀ x : XVec K, x.Fits S.lay → x.dts = S.dts → Always n (fun r => mv r (env n J r) (x.part S.lay n r)) (fun r => .ok ((F x).part T.lay n r))

section
variable {ι : Type} (n : Nat) (J : Nat → Nat → K) (prim : ι → Nat → Prim K) (sh : ι → Nat × Nat) (lf : ι → Bool → SVec K → SVec K)

/-- operators one above the other can be applied -/
def StackAccepts (ops : List (MOp K ι)) : Bool → XDom → XDom → Prop
  | false, .one V, .stack Ws => ops ≠ [] ∧ List.Forall₂ (fun o W => Accepts n J prim sh lf false o V W) ops Ws
  | true, .stack Vs, .one W => match ops, Vs with
    | o :: os, V :: Vs => Accepts n J prim sh lf true o V W ∧ List.Forall₂ (fun o V => ∃ t, Accepts n J prim sh lf true o V ⟨W.L, t⟩) os Vs
    | _, _ => False
  | _, _, _ => False

/-- operators one after the other can be applied -/
def DiagAccepts (b : Bool) : List (MOp K ι) → List VSpace → List VSpace → Prop
  | [], [], [] => True
  | o :: os, V :: Vs, W :: Ws => Accepts n J prim sh lf b o V W ∧ DiagAccepts b os Vs Ws
  | _, _, _ => False

/-- a stacked operator can be applied to (lists of) vectors of `S` and gives (lists of) vectors of `T` (see `Accepts`) -/
def SAccepts : Bool → SOp K ι → XDom → XDom → Prop
  | b, .vstack ops, S, T => StackAccepts n J prim sh lf ops b S T
  | b, .grad ops, S, T => StackAccepts n J prim sh lf ops b S T
  | b, .bdiag ops, .stack Vs, .stack Ws => ops ≠ [] ∧ DiagAccepts n J prim sh lf b ops Vs Ws
  | _, .bdiag _, _, _ => False
  | b, .adj e, S, T => SAccepts (!b) e S T
  | b, .trans e, S, T => SAccepts (!b) e S T
  | false, .prod e f, S, T => ∃ U, SAccepts false f S U ∧ SAccepts false e U T
  | true, .prod e f, S, T => ∃ U, SAccepts true e S U ∧ SAccepts true f U T
  | b, .scaled e _, S, T => SAccepts b e S T
  | b, .sum e f, S, T => SAccepts b e S T ∧ ∃ T', T'.lay = T.lay ∧ SAccepts b f S T'
  | b, .pow e _, S, T => S = T ∧ ∃ T', T'.lay = S.lay ∧ SAccepts b e S T'
  | b, .conj e, S, T => SAccepts b e S T

end

end Verif

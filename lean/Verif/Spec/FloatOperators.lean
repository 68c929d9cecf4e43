/-
  Stacked operators and operator expressions on global vectors, with arbitrary arithmetic.
-/
import Verif.Model.FloatOperators
import Verif.Spec.BlockSolvers
import Verif.Spec.Operators
import Verif.Spec.Algebra

namespace Verif

variable {K : Type}

/-- all operators, in rank order -/
def allFOps (n : Nat) (ops : Nat → List (FOp K)) : List (FOp K) := (List.range n).flatMap ops

/-- input size of the operators in direction `b` (`true`: adjoint) -/
def FOp.inDim (o : FOp K) (b : Bool) : Nat := if b then o.rows else o.cols

/-- total input size -/
def fopIn (b : Bool) (ops : List (FOp K)) : Nat := (ops.map (·.inDim b)).sum

/-- the serial operator gives vectors of the right size -/
def FOp.Sized (o : FOp K) (b : Bool) : Prop := ∀ t v, v.length = o.inDim b → ((o.on t).fn b v).length = o.inDim (!b)

namespace OpArith
variable (A : OpArith K)

/-- the operators on consecutive slices of the vector, one after the other; the input has been copied and the result is stored in dtype `dt` -/
def bdiag (dt : DType) (b : Bool) (ops : List (FOp K)) (x : SVec K) : SVec K :=
  ⟨dt, (blockDiag b (ops.map (·.on x.dt)) (x.copy A.toArith).v).map (A.cast dt)⟩

/-- all operators (`true`: their adjoints) on the whole vector -/
def onWhole (dt : DType) (b : Bool) (ops : List (FOp K)) (x : SVec K) : SVec K := ⟨dt, (vcat b (ops.map (·.on x.dt)) x.v).map (A.cast dt)⟩

/-- results of the operators (`true`: of the adjoints) on consecutive slices, in the groups in which the operators are given -/
def groupSlices (b : Bool) (t : DType) : List (List (FOp K)) → List K → List (List (List K))
  | [], _ => []
  | g :: gs, v => slices b (g.map (·.on t)) v :: groupSlices b t gs (v.drop (fopIn b g))

/-- the sum of these results: first in each group, then of the groups -/
def sumSlices (dt : DType) (b : Bool) (N : Nat) (groups : List (List (FOp K))) (x : SVec K) : SVec K :=
  ⟨dt, (List.range N).map fun j => A.cast dt (A.sumArr ((groupSlices b x.dt groups (x.copy A.toArith).v).map fun rows => (List.range N).map (A.sumRows rows)) j)⟩

/-- what an expression computes, if its leaves compute `lf` -/
def eval {ι : Type} (lf : ι → Bool → SVec K → SVec K) : Bool → MOp K ι → SVec K → SVec K
  | b, .leaf i, x => lf i b x
  | b, .adj e, x => eval lf (!b) e x
  | b, .trans e, x => (eval lf (!b) e (x.conj A.toArith)).conj A.toArith
  | false, .prod e f, x => eval lf false e (eval lf false f x)
  | true, .prod e f, x => eval lf true f (eval lf true e x)
  | b, .scaled e s, x => (eval lf b e x).scale A.toArith (if b then A.conj s.val else s.val)
  | b, .sum e f, x => (eval lf b e x).add A.toArith (eval lf b f x)
  | b, .pow e p, x => (fun y => (⟨x.dt, (eval lf b e y).v.map (A.cast x.dt)⟩ : SVec K))^[p] (x.copy A.toArith)
  | b, .conj e, x => (eval lf b e (x.conj A.toArith)).conj A.toArith

end OpArith

/-- the program of rank `r` takes the distributed vector `x` of `S` to the distributed vector `F x` of `T`, in all executions -/
structure TakesTo (n : Nat) (J : Nat → Nat → K) (mv : Nat → Ctx K → DArr K → P K (DArr K)) (S T : VSpace) (F : SVec K → SVec K) : Prop where
  dtype : ∀ x : SVec K, x.v.length = S.L.gshape.prod → x.dt = S.dt → (F x).dt = T.dt
  length : ∀ x : SVec K, x.v.length = S.L.gshape.prod → x.dt = S.dt → (F x).v.length = T.L.gshape.prod
  runs : ∀ x : SVec K, x.v.length = S.L.gshape.prod → x.dt = S.dt →
    Always n (fun r => mv r (env n J r) (S.L.fam n x.dt (S.L.piece x.v) r)) (fun r => .ok (T.L.fam n (F x).dt (T.L.piece (F x).v) r))

/-- an expression whose leaves `i` are the operators `prim i r` of rank `r` can be applied to vectors of `S` and gives vectors of `T`; leaves of shape `sh i` compute `lf i` -/
def Accepts {ι : Type} (n : Nat) (J : Nat → Nat → K) (prim : ι → Nat → Prim K) (sh : ι → Nat × Nat) (lf : ι → Bool → SVec K → SVec K) : Bool → MOp K ι → VSpace → VSpace → Prop
  | b, .leaf i, S, T => (∀ r < n, (prim i r).shape = sh i) ∧ (S.L.WF n ∧ S.L.mask = none) ∧ (T.L.WF n ∧ T.L.mask = none) ∧
      S.L.gshape = [if b then (sh i).1 else (sh i).2] ∧ T.L.gshape = [if b then (sh i).2 else (sh i).1] ∧
      TakesTo n J (fun r c x => if b then (prim i r).rmv c x else (prim i r).mv c x) S T (lf i b)
  | b, .adj e, S, T => Accepts n J prim sh lf (!b) e S T
  | b, .trans e, S, T => Accepts n J prim sh lf (!b) e S T
  | false, .prod e f, S, T => ∃ U, Accepts n J prim sh lf false f S U ∧ Accepts n J prim sh lf false e U T
  | true, .prod e f, S, T => ∃ U, Accepts n J prim sh lf true e S U ∧ Accepts n J prim sh lf true f U T
  | b, .scaled e s, S, T => Accepts n J prim sh lf b e S T ∧ (T.dt = .real → s.dtype = .real)
  | b, .sum e f, S, T => Accepts n J prim sh lf b e S T ∧ ∃ t, Accepts n J prim sh lf b f S ⟨T.L, t⟩
  | b, .pow e _, S, T => S = T ∧ ∃ t, Accepts n J prim sh lf b e S ⟨S.L, t⟩
  | b, .conj e, S, T => Accepts n J prim sh lf b e S T

end Verif

/-
  The mathematical meaning of operator expressions: what `A + B`, `A * B`, … do to a global vector.
-/
import Verif.Spec.Operators

namespace Verif
open NDArray

variable {K ι : Type}

/-- leaves of an expression: the shape of each, and the functions it computes in the two directions (`true`: adjoint) -/
structure Leaves (K ι : Type) where
  sh : ι → Nat × Nat
  fn : ι → Bool → List K → List K

/-- size of the input (`false`) or output (`true` of `!b`) in direction `b` of an operator of shape `sh` -/
def dimOf (sh : Nat × Nat) (b : Bool) : Nat := if b then sh.1 else sh.2

section
variable [Field K] [StarRing K] (lv : Leaves K ι)

/-- complex conjugate of a vector -/
def vconj (x : List K) : List K := x.map star
/-- scalar multiple of a vector -/
def vscale (s : K) (x : List K) : List K := x.map (· * s)

/-- meaning of an expression; `den lv true e` is the adjoint -/
def den : Bool → MOp K ι → List K → List K
  | b, .leaf i, x => lv.fn i b x
  | b, .adj A, x => den (!b) A x
  | b, .trans A, x => vconj (den (!b) A (vconj x))
  | false, .prod A B, x => den false A (den false B x)
  | true, .prod A B, x => den true B (den true A x)
  | b, .scaled A s, x => vscale (if b then star s.val else s.val) (den b A x)
  | b, .sum A B, x => vadd (den b A x) (den b B x)
  | b, .pow A p, x => (den b A)^[p] x
  | b, .conj A, x => vconj (den b A (vconj x))

/-- all shape checks made when the expression was built have passed -/
def Shaped (sh : ι → Nat × Nat) : MOp K ι → Prop
  | .leaf _ => True
  | .adj A | .trans A | .scaled A _ | .conj A => Shaped sh A
  | .prod A B => Shaped sh A ∧ Shaped sh B ∧ (A.shape sh).2 = (B.shape sh).1
  | .sum A B => Shaped sh A ∧ Shaped sh B ∧ A.shape sh = B.shape sh
  | .pow A _ => Shaped sh A ∧ (A.shape sh).1 = (A.shape sh).2

/-- the leaves map vectors of the right size to vectors of the right size -/
def Leaves.Sized : Prop := ∀ i b x, x.length = dimOf (lv.sh i) b → (lv.fn i b x).length = dimOf (lv.sh i) (!b)

/-- the two directions of each leaf are adjoint to each other -/
def Leaves.Adjoint : Prop := ∀ i u v, u.length = (lv.sh i).2 → v.length = (lv.sh i).1 → ip (lv.fn i false u) v = ip u (lv.fn i true v)

/-- `e` maps vectors of the space `S` to vectors of the space `T` in direction `b`.  The distributed leaves `prim i r` are required to compute
    `lv.fn i`; the combinators require equal spaces (layout, partition, mask and dtype) where the vectors are combined. -/
def Typed (n : Nat) (J : Nat → Nat → K) (prim : ι → Nat → Prim K) : Bool → MOp K ι → VSpace → VSpace → Prop
  | b, .leaf i, S, T => (∀ r < n, (prim i r).shape = lv.sh i) ∧ S.L.WF n ∧ T.L.WF n ∧ S.L.gshape = [dimOf (lv.sh i) b] ∧ T.L.gshape = [dimOf (lv.sh i) (!b)]
      ∧ Computes n J (fun r c x => if b then (prim i r).rmv c x else (prim i r).mv c x) S T (lv.fn i b)
  | b, .adj A, S, T => Typed n J prim (!b) A S T
  | b, .trans A, S, T => Typed n J prim (!b) A S T
  | false, .prod A B, S, T => ∃ U, Typed n J prim false B S U ∧ Typed n J prim false A U T
  | true, .prod A B, S, T => ∃ U, Typed n J prim true A S U ∧ Typed n J prim true B U T
  | b, .scaled A s, S, T => Typed n J prim b A S T ∧ (T.dt = .real → s.dtype = .real ∧ star s.val = s.val)
  | b, .sum A B, S, T => Typed n J prim b A S T ∧ Typed n J prim b B S T
  | b, .pow A _, S, T => S = T ∧ Typed n J prim b A S S
  | b, .conj A, S, T => Typed n J prim b A S T

end
end Verif

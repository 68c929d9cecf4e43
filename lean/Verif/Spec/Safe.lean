/-
  Operators that give the right result or raise.
-/
import Verif.Spec.StackedOperator
import Verif.Spec.Solvers
import Verif.Spec.Operators
import Verif.Spec.Redistribute
import Verif.MPI.Partial

namespace Verif

/-- in every execution some rank ends with an exception -/
def Raises {M α : Type} (n : Nat) (ps : Nat → Prog M α) : Prop := ∃ m < n, ∃ e, RankEnds n ps m (.error e)

section
variable {K : Type} [Field K] [StarRing K]

/-- For every vector of the space `S`: either all ranks end with their parts of `f d`, in all executions, or some rank ends with an exception, in all executions. -/
def ComputesOr (n : Nat) (J : Nat → Nat → K) (mv : Nat → Ctx K → DArr K → P K (DArr K)) (S T : VSpace) (f : List K → List K) : Prop :=
  ∀ d, S.Mem d → T.Mem (f d) ∧ (Always n (fun r => mv r (env n J r) (S.vec n d r)) (fun r => .ok (T.vec n (f d) r)) ∨ Raises n (fun r => mv r (env n J r) (S.vec n d r)))

/-- the same for operators on stacked vectors -/
def XComputesOr (n : Nat) (J : Nat → Nat → K) (mv : Nat → Ctx K → XArr K → P K (XArr K)) (S T : XSpace) (f : List K → List K) : Prop :=
  ∀ d, S.Mem d → T.Mem (f d) ∧ (Always n (fun r => mv r (env n J r) (S.vec n d r)) (fun r => .ok (T.vec n (f d) r)) ∨ Raises n (fun r => mv r (env n J r) (S.vec n d r)))

variable {ι : Type} (lv : Leaves K ι) (n : Nat) (J : Nat → Nat → K) (prim : ι → Nat → Prim K)

/-- As `Typed`, but the leaves may raise. -/
def TypedOr : Bool → MOp K ι → VSpace → VSpace → Prop
  | b, .leaf i, S, T => (∀ r < n, (prim i r).shape = lv.sh i) ∧ S.L.WF n ∧ T.L.WF n ∧ S.L.gshape = [dimOf (lv.sh i) b] ∧ T.L.gshape = [dimOf (lv.sh i) (!b)]
      ∧ ComputesOr n J (fun r c x => if b then (prim i r).rmv c x else (prim i r).mv c x) S T (lv.fn i b)
  | b, .adj A, S, T => TypedOr (!b) A S T
  | b, .trans A, S, T => TypedOr (!b) A S T
  | false, .prod A B, S, T => ∃ U, TypedOr false B S U ∧ TypedOr false A U T
  | true, .prod A B, S, T => ∃ U, TypedOr true A S U ∧ TypedOr true B U T
  | b, .scaled A s, S, T => TypedOr b A S T ∧ (T.dt = .real → s.dtype = .real ∧ star s.val = s.val)
  | b, .sum A B, S, T => TypedOr b A S T ∧ TypedOr b B S T
  | b, .pow A _, S, T => S = T ∧ TypedOr b A S S
  | b, .conj A, S, T => TypedOr b A S T

/-- a vertical stack, whose parts may raise -/
def VTypedOr (ops : List (MOp K ι)) : Bool → XSpace → XSpace → Prop
  | false, .one S, .stack Ts => ops ≠ [] ∧ List.Forall₂ (fun e T => TypedOr lv n J prim false e S T) ops Ts
  | true, .stack Ss, .one T => ops ≠ [] ∧ List.Forall₂ (fun e S => TypedOr lv n J prim true e S T) ops Ss
  | _, _, _ => False

/-- a block-diagonal stack, whose parts may raise -/
def BTypedOr (ops : List (MOp K ι)) (b : Bool) : XSpace → XSpace → Prop
  | .stack Ss, .stack Ts => Ss.length = ops.length ∧ List.Forall₂ (fun (p : VSpace × MOp K ι) T => TypedOr lv n J prim b p.2 p.1 T) (Ss.zip ops) Ts
  | _, _ => False

/-- as `STyped`, but the leaves may raise -/
def STypedOr : Bool → SOp K ι → XSpace → XSpace → Prop
  | b, .vstack ops, S, T => VTypedOr lv n J prim ops b S T
  | b, .grad ops, S, T => VTypedOr lv n J prim ops b S T
  | b, .bdiag ops, S, T => BTypedOr lv n J prim ops b S T
  | b, .adj A, S, T => STypedOr (!b) A S T
  | b, .trans A, S, T => STypedOr (!b) A S T
  | false, .prod A B, S, T => ∃ U, STypedOr false B S U ∧ STypedOr false A U T
  | true, .prod A B, S, T => ∃ U, STypedOr true A S U ∧ STypedOr true B U T
  | b, .scaled A s, S, T => STypedOr b A S T ∧ (T.HasReal → star s.val = s.val)
  | b, .sum A B, S, T => STypedOr b A S T ∧ STypedOr b B S T
  | b, .pow A _, S, T => S = T ∧ (∃ V, S = .one V) ∧ STypedOr b A S S
  | b, .conj A, S, T => STypedOr b A S T

end

/-- when an application of MPIFredholm1 (`b`: of the adjoint) to an array with layout `X` succeeds: no rank has exactly one slice, all ranks hold the input, its middle axis is not squeezed away (or this does no harm, as there is nothing to compute
    or all products are products of numbers), and the results can be stacked -/
def FredGood (n : Nat) (sz : Nat → Nat) (nx ny nz : Nat) (um b : Bool) (X : Layout) : Prop :=
  (∀ r < n, sz r ≠ 1) ∧ X.part.isBroadcast = true ∧ ((if b then nx else ny) ≠ 1 ∨ um = false ∧ ((nx = 1 ∧ ny = 1 ∧ nz = 1) ∨ ∀ r < n, sz r = 0)) ∧
    (um = true ∨ (if b then ny else nx) ≠ 1 ∨ nz ≠ 1 ∨ ∀ r < n, sz r = sz 0)

/-- as `Acts`, but the operator may raise -/
def ActsOr {K : Type} [RCLike K] (n : Nat) (J : Nat → Nat → K) (mv : Nat → Ctx K → XArr K → P K (XArr K)) (S T : XSpace) {M N : Nat} (A : Vec K M → Vec K N) : Prop :=
  ∀ x, S.Has x → T.Has (A x) ∧ (Always n (fun r => mv r (env n J r) (S.part n x r)) (fun r => .ok (T.part n (A x) r)) ∨ Raises n (fun r => mv r (env n J r) (S.part n x r)))

section
variable {K : Type} [Field K] [StarRing K] [CharZero K]

/-- what is needed for MPIBlockDiag to return -/
def BDGood (n : Nat) (ops : Nat → List (LOp K)) (b : Bool) (X : Layout) : Prop :=
  (∀ r < n, ops r ≠ []) ∧ X.gshape = [inSum b (allOps n ops)] ∧ X.part = .scatter ∧ Near n X (.lin (inSum b (allOps n ops)) fun r => inSum b (ops r))

/-- what is needed for `MPIVStack.matvec` to return -/
def VSGood (n : Nat) (ops : Nat → List (LOp K)) (X : Layout) : Prop :=
  (∀ r < n, ops r ≠ []) ∧ (∀ o ∈ allOps n ops, X.gshape = [o.cols]) ∧ X.part.isBroadcast = true

/-- what is needed for `MPIVStack.rmatvec` to return -/
def VSGoodAdj (n : Nat) (ops : Nat → List (LOp K)) (N : Nat) (X : Layout) : Prop :=
  (∀ r < n, ops r ≠ []) ∧ (∀ o ∈ allOps n ops, o.cols = N) ∧ X.gshape = [inSum true (allOps n ops)] ∧ X.part = .scatter ∧
    Near n X (.lin (inSum true (allOps n ops)) fun r => inSum true (ops r))

/-- what is needed for `MPIHStack.rmatvec` to return -/
def HSGoodAdj (n : Nat) (ops : Nat → List (LOp K)) (X : Layout) : Prop :=
  (∀ r < n, ops r ≠ []) ∧ (∀ o ∈ allOps n ops, X.gshape = [o.rows]) ∧ X.part.isBroadcast = true

/-- what is needed for `MPIHStack.matvec` to return -/
def HSGood (n : Nat) (ops : Nat → List (LOp K)) (M : Nat) (X : Layout) : Prop :=
  (∀ r < n, ops r ≠ []) ∧ (∀ o ∈ allOps n ops, o.rows = M) ∧ X.gshape = [inSum false (allOps n ops)] ∧ X.part = .scatter ∧
    Near n X (.lin (inSum false (allOps n ops)) fun r => inSum false (ops r))

end

end Verif

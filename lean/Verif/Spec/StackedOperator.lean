/-
  What stacked operator expressions mean on global vectors, and when they are typed.
-/
import Verif.Model.StackedOperator
import Verif.Spec.Stacked
import Verif.Spec.Algebra

namespace Verif
open NDArray

variable {K ι : Type}

/-- a space of distributed vectors or of stacked distributed vectors -/
inductive XSpace
  | one (V : VSpace)
  | stack (S : SSpace)

namespace XSpace
def WF (n : Nat) : XSpace → Prop
  | one V => V.L.WF n
  | stack S => S.WF n
def dim : XSpace → Nat
  | one V => V.L.gshape.prod
  | stack S => S.dim
def Mem [Star K] : XSpace → List K → Prop
  | one V, d => V.Mem d
  | stack S, d => S.Mem d
/-- what rank `r` holds of the vector `d` -/
def vec (n : Nat) : XSpace → List K → Nat → XArr K
  | one V, d, r => .one (V.vec n d r)
  | stack S, d, r => .stack (S.vec n d r)
/-- some component is real -/
def HasReal : XSpace → Prop
  | one V => V.dt = .real
  | stack S => ∃ V ∈ S, V.dt = .real
/-- no mask -/
def NoMask : XSpace → Prop
  | one V => V.L.mask = none
  | stack S => ∀ V ∈ S, V.L.mask = none
/-- all arrays are 1-D -/
def Flat : XSpace → Prop
  | one V => V.L.gshape.length = 1
  | stack S => ∀ V ∈ S, V.L.gshape.length = 1
end XSpace

section
variable [Field K] [StarRing K]

/-- the distributed program `mv r` of rank `r` computes `f` from `S` to `T` (cf. `Computes`) -/
def XComputes (n : Nat) (J : Nat → Nat → K) (mv : Nat → Ctx K → XArr K → P K (XArr K)) (S T : XSpace) (f : List K → List K) : Prop :=
  ∀ d, S.Mem d → T.Mem (f d) ∧ Always n (fun r => mv r (env n J r) (S.vec n d r)) (fun r => .ok (T.vec n (f d) r))

variable (lv : Leaves K ι)

/-- an operator expression as an operator on global vectors -/
def MOp.toLOp (e : MOp K ι) : LOp K := ⟨(e.shape lv.sh).1, (e.shape lv.sh).2, .real, den lv false e, den lv true e⟩

/-- meaning of a stacked expression; `true`: adjoint.  Vertical stacks put the results of the operators one after the other (adjoint: the sum of the adjoints of
    the slices), block-diagonal stacks apply each operator to its slice. -/
def sden : Bool → SOp K ι → List K → List K
  | false, .vstack ops, x => vcat false (ops.map (MOp.toLOp lv)) x
  | true, .vstack ops, x => hsum true (SOp.vshape lv.sh ops).2 (ops.map (MOp.toLOp lv)) x
  | false, .grad ops, x => vcat false (ops.map (MOp.toLOp lv)) x
  | true, .grad ops, x => hsum true (SOp.vshape lv.sh ops).2 (ops.map (MOp.toLOp lv)) x
  | b, .bdiag ops, x => blockDiag b (ops.map (MOp.toLOp lv)) x
  | b, .adj A, x => sden (!b) A x
  | b, .trans A, x => vconj (sden (!b) A (vconj x))
  | false, .prod A B, x => sden false A (sden false B x)
  | true, .prod A B, x => sden true B (sden true A x)
  | b, .scaled A s, x => vscale (if b then star s.val else s.val) (sden b A x)
  | b, .sum A B, x => vadd (sden b A x) (sden b B x)
  | b, .pow A p, x => (sden b A)^[p] x
  | b, .conj A, x => vconj (sden b A (vconj x))

/-- all checks made when the expression was built have passed -/
def SShaped (sh : ι → Nat × Nat) : SOp K ι → Prop
  | .vstack ops | .grad ops => ops ≠ [] ∧ (∀ o ∈ ops, Shaped sh o) ∧ ∀ o ∈ ops, (o.shape sh).2 = (SOp.vshape sh ops).2
  | .bdiag ops => ∀ o ∈ ops, Shaped sh o
  | .adj A | .trans A | .scaled A _ | .conj A => SShaped sh A
  | .prod A B => SShaped sh A ∧ SShaped sh B ∧ (A.shape sh).2 = (B.shape sh).1
  | .sum A B => SShaped sh A ∧ SShaped sh B ∧ A.shape sh = B.shape sh ∧ A.type = B.type
  | .pow A _ => SShaped sh A ∧ (A.shape sh).1 = (A.shape sh).2

variable (n : Nat) (J : Nat → Nat → K) (prim : ι → Nat → Prim K)

/-- a vertical stack maps `S` to `T` in direction `b` -/
def VTyped (ops : List (MOp K ι)) : Bool → XSpace → XSpace → Prop
  | false, .one S, .stack Ts => ops ≠ [] ∧ List.Forall₂ (fun e T => Typed lv n J prim false e S T) ops Ts
  | true, .stack Ss, .one T => ops ≠ [] ∧ List.Forall₂ (fun e S => Typed lv n J prim true e S T) ops Ss
  | _, _, _ => False

/-- a block-diagonal stack maps `S` to `T` in direction `b` -/
def BTyped (ops : List (MOp K ι)) (b : Bool) : XSpace → XSpace → Prop
  | .stack Ss, .stack Ts => Ss.length = ops.length ∧ List.Forall₂ (fun (p : VSpace × MOp K ι) T => Typed lv n J prim b p.2 p.1 T) (Ss.zip ops) Ts
  | _, _ => False

/-- `e` maps the space `S` to the space `T` in direction `b`.  Powers are restricted to spaces of (unstacked) distributed vectors. -/
def STyped : Bool → SOp K ι → XSpace → XSpace → Prop
  | b, .vstack ops, S, T => VTyped lv n J prim ops b S T
  | b, .grad ops, S, T => VTyped lv n J prim ops b S T
  | b, .bdiag ops, S, T => BTyped lv n J prim ops b S T
  | b, .adj A, S, T => STyped (!b) A S T
  | b, .trans A, S, T => STyped (!b) A S T
  | false, .prod A B, S, T => ∃ U, STyped false B S U ∧ STyped false A U T
  | true, .prod A B, S, T => ∃ U, STyped true A S U ∧ STyped true B U T
  | b, .scaled A s, S, T => STyped b A S T ∧ (T.HasReal → star s.val = s.val)
  | b, .sum A B, S, T => STyped b A S T ∧ STyped b B S T
  | b, .pow A _, S, T => S = T ∧ (∃ V, S = .one V) ∧ STyped b A S S
  | b, .conj A, S, T => STyped b A S T

end
end Verif

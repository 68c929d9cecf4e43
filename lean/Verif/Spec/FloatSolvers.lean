/-
  What "the ranks stay in step" means: families of arrays of given layouts with any contents, and programs that either return on all ranks or raise on all ranks.
-/
import Verif.Model.FloatSolvers
import Verif.Spec.Layout
import Verif.MPI.Runs

namespace Verif

variable {K : Type} {α : Type}

/-- in all executions, either all ranks return, with values related as `Q` says, or (only if `may` holds) all ranks raise -/
def Together (n : Nat) (may : Prop) (ps : Nat → P K α) (Q : (Nat → α) → Prop) : Prop :=
  (∃ a, Q a ∧ Always n ps fun r => .ok (a r)) ∨ may ∧ ∃ e : Nat → Err, Always n ps fun r => .error (e r)

/-- the layout of an array, or of each array of a stack -/
inductive XLayout
  | one (L : Layout)
  | stack (Ls : List Layout)

/-- the layouts are valid, and without mask -/
def XLayout.WF (n : Nat) : XLayout → Prop
  | .one L => L.WF n ∧ L.mask = none
  | .stack Ls => ∀ L ∈ Ls, L.WF n ∧ L.mask = none

/-- the objects `d r` of the ranks form an array of the layout, with any contents; if `agree` then the ranks hold the same values where the array is not scattered -/
def Fam (n : Nat) (agree : Prop) (L : Layout) (d : Nat → DArr K) : Prop :=
  ∃ (dt : DType) (a : Nat → List K), (∀ r < n, (a r).length = (L.lshape r).prod) ∧ (agree → L.part.isBroadcast = true → ∀ r < n, a r = a 0) ∧
    ∀ r < n, d r = L.fam n dt a r

/-- the same for arrays and stacks -/
def XFam (n : Nat) (agree : Prop) : XLayout → (Nat → XArr K) → Prop
  | .one L, x => ∃ d, Fam n agree L d ∧ ∀ r < n, x r = .one (d r)
  | .stack Ls, x => ∃ ds, List.Forall₂ (Fam n agree) Ls ds ∧ ∀ r < n, x r = .stack (ds.map (· r))

/-- the local data of the BROADCAST arrays -/
def XArr.replicas : XArr K → List (List K)
  | .one d => if d.part = .broadcast then [d.larr.data] else []
  | .stack l => (l.filter fun d => d.part = .broadcast).map (·.larr.data)

/-- `mv` takes arrays of layout `S` to arrays of layout `T`, or (only if `may` holds) raises on all ranks -/
def InStep (n : Nat) (J : Nat → Nat → K) (agree may : Prop) (mv : Ctx K → XArr K → P K (XArr K)) (S T : XLayout) : Prop :=
  ∀ x, XFam n agree S x → Together n may (fun r => mv (env n J r) (x r)) (XFam n agree T)

/-- the ranks make `m` calls of the callback, the argument of each being an array of the layout -/
def Traced (n : Nat) (agree : Prop) (S : XLayout) (m : Nat) (t : Nat → List (XArr K)) : Prop :=
  ∃ ts : List (Nat → XArr K), ts.length = m ∧ (∀ x ∈ ts, XFam n agree S x) ∧ ∀ r < n, t r = ts.map (· r)

end Verif

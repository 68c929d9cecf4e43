/- The log of the solvers: which iterations are shown, and what a line contains. -/
import Verif.Model.SolverLog

namespace Verif

variable {K : Type}

/-- the iteration that starts when `i` iterations have been made is shown: one of the first, of the last, or a multiple of `every` -/
def Shown (it : IterShow) (mx : Int) (i : Nat) : Prop := (i : Int) < it.first ∨ mx - i < it.last ∨ it.every ∣ (i : Int)

instance (it : IterShow) (mx : Int) (i : Nat) : Decidable (Shown it mx i) := inferInstanceAs (Decidable (_ ∨ _ ∨ _))

/-- whether that iteration is shown can be found out without dividing by zero -/
def IterShow.Decided (it : IterShow) (mx : Int) (i : Nat) : Prop := it.every ≠ 0 ∨ (i : Int) < it.first ∨ mx - i < it.last

/-- the array of which the first entry is printed -/
def XArr.head? : XArr K → Option (DArr K)
  | .one d => some d
  | .stack l => l.head?

/-- the local array (of the first component) is a nonempty vector with first entry `v` -/
def XArr.Starts (x : XArr K) (v : K) : Prop := ∃ d, x.head? = some d ∧ ∃ k l, d.larr.shape = [k + 1] ∧ d.larr.data = v :: l

/-- the local arrays of all components have the same shape -/
def XArr.SameShapes : XArr K → Prop
  | .one _ => True
  | .stack l => ∀ d ∈ l, ∀ e ∈ l, d.larr.shape = e.larr.shape

/-- `log` has one line for each shown iteration `i < m`, in order: the number `i + 1`, the first entry of the iterate, and the costs after the iteration -/
def IsLog (it : IterShow) (mx : Int) (tr : List (XArr K)) (cost : List ℝ) (cost1 : Option (List FNum)) (log : List (LogLine K)) : Prop :=
  List.Forall₂ (fun (i : Nat) (l : LogLine K) => l.iiter = i + 1 ∧ (∃ x, tr[i]? = some x ∧ x.Starts l.x0) ∧ cost[i + 1]? = some l.cost ∧ (cost1.bind fun c => c[i + 1]?) = l.cost1)
    ((List.range tr.length).filter fun i => Shown it mx i) log

end Verif

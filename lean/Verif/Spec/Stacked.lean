/-
  Stacked distributed vectors as values: the global vector of a stack is the concatenation of the flattened
  global arrays of its components.
-/
import Verif.Model.Stacked
import Verif.Spec.Vector

namespace Verif
open NDArray

variable {K : Type}

/-- layouts and dtypes of the components -/
abbrev SSpace := List VSpace

namespace SSpace

/-- total number of entries -/
def dim (S : SSpace) : Nat := (S.map fun V => V.L.gshape.prod).sum

/-- all layouts are valid for `n` ranks -/
def WF (S : SSpace) (n : Nat) : Prop := ∀ V ∈ S, V.L.WF n

/-- flat data of the right size, each component representable in its dtype -/
def Mem [Star K] : SSpace → List K → Prop
  | [], d => d = []
  | V :: S, d => V.Mem (d.take V.L.gshape.prod) ∧ Mem S (d.drop V.L.gshape.prod)

/-- what rank `r` holds of the stack with global data `d` -/
def vec (n : Nat) : SSpace → List K → Nat → SArr K
  | [], _, _ => []
  | V :: S, d, r => V.vec n (d.take V.L.gshape.prod) r :: vec n S (d.drop V.L.gshape.prod) r

end SSpace
end Verif

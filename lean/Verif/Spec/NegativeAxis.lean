/-
  What a (possibly negative) axis means.
-/
import Verif.Model.NegativeAxis
import Verif.Spec.Layout

namespace Verif

/-- `a` designates axis `k` of an array of `nd` dimensions: it is `k` itself, or `k` counted from the end -/
def IsAxis (nd : Nat) (a : Int) (k : Nat) : Prop := k < nd ∧ (a = k ∨ a = k - nd)

/-- the object held by rank `r` of an array created with `axis=a`, where `a` designates the axis of the layout -/
def Layout.zfam {K : Type} (L : Layout) (n : Nat) (dt : DType) (ax : Int) (a : Nat → List K) (r : Nat) : ZArr K := ⟨L.fam n dt a r, ax⟩

end Verif

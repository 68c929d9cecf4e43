/-
  Arrays with a mask: the ranks form groups (one for each colour of the mask), and each group holds a vector of its own.
  `dot` and `norm` reduce over the group of a rank.
-/
import Verif.Spec.Solvers

namespace Verif
open NDArray

variable {K : Type}

/-- the colour of rank `r` -/
def Layout.color (L : Layout) (r : Nat) : Nat :=
  match L.mask with
  | none => 0
  | some m => m.getD r 0

/-- number of entries that the ranks of colour `γ` among the first `k` ranks hold together -/
def Layout.gsize (L : Layout) (γ k : Nat) : Nat := (((List.range k).filter fun q => L.color q = γ).map fun q => (L.lshape q).prod).sum

/-- what rank `r` holds when the ranks of colour `γ` hold, one after the other, the vector `x γ` -/
def Layout.gpiece (L : Layout) (x : Nat → List K) (r : Nat) : List K := ((x (L.color r)).drop (L.gsize (L.color r) r)).take (L.lshape r).prod

/-- the array of rank `r` -/
def VSpace.gvec (V : VSpace) (n : Nat) (x : Nat → List K) (r : Nat) : DArr K := V.L.fam n V.dt (V.L.gpiece x) r

/-- the vectors of the groups of the ranks have the right sizes, and are real for real dtypes -/
def VSpace.GMem [Star K] (V : VSpace) (n : Nat) (x : Nat → List K) : Prop :=
  ∀ r < n, (x (V.L.color r)).length = V.L.gsize (V.L.color r) n ∧ FitsL V.dt (x (V.L.color r))

section
variable [RCLike K]

/-- the same for vectors of Euclidean spaces -/
def VSpace.gpart (V : VSpace) (n : Nat) {N : Nat → Nat} (x : ∀ γ, Vec K (N γ)) (r : Nat) : XArr K := .one (V.gvec n (fun γ => toL (x γ)) r)

def VSpace.GHas (V : VSpace) (n : Nat) {N : Nat → Nat} (x : ∀ γ, Vec K (N γ)) : Prop := V.GMem n fun γ => toL (x γ)

/-- the distributed program `mv r` of rank `r` applies `A γ` to the vector of each group `γ`, in all executions -/
def GActs (n : Nat) (J : Nat → Nat → K) (mv : Nat → Ctx K → XArr K → P K (XArr K)) (V W : VSpace) {M N : Nat → Nat} (A : ∀ γ, Vec K (M γ) → Vec K (N γ)) : Prop :=
  ∀ x, V.GHas n x → W.GHas n (fun γ => A γ (x γ)) ∧ Always n (fun r => mv r (env n J r) (V.gpart n x r)) (fun r => .ok (W.gpart n (fun γ => A γ (x γ)) r))

end
end Verif

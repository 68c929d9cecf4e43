/-
  The serial conjugate gradient algorithms, in exact arithmetic on inner product spaces, and how vectors are distributed.
-/
import Verif.Spec.StackedOperator
import Mathlib.Analysis.InnerProductSpace.PiL2

namespace Verif
open NDArray

/-! ### Serial algorithms -/

namespace Serial
variable {K : Type} [RCLike K] {E F : Type} [NormedAddCommGroup E] [InnerProductSpace K E] [NormedAddCommGroup F] [InnerProductSpace K F]

/-- iterate, residual, direction, squared norm of the residual -/
structure CG (E : Type) where
  x : E
  r : E
  c : E
  k : ℝ

namespace CG
/-- start: r = c = y - A x -/
def init (A : E → E) (y x0 : E) : CG E := ⟨x0, y - A x0, y - A x0, ‖y - A x0‖ ^ 2⟩

/-- step length k / |⟨c, A c⟩| -/
noncomputable def alpha (K : Type) [RCLike K] [InnerProductSpace K E] (A : E → E) (s : CG E) : ℝ := s.k / ‖inner K s.c (A s.c)‖

/-- the residual after the step -/
noncomputable def res (K : Type) [RCLike K] [InnerProductSpace K E] (A : E → E) (s : CG E) : E := s.r - (alpha K A s : K) • A s.c

/-- one step -/
noncomputable def next (K : Type) [RCLike K] [InnerProductSpace K E] (A : E → E) (s : CG E) : CG E where
  x := s.x + (alpha K A s : K) • s.c
  r := res K A s
  k := ‖res K A s‖ ^ 2
  c := res K A s + ((‖res K A s‖ ^ 2 / s.k : ℝ) : K) • s.c

/-- the state after `j` steps -/
noncomputable def seq (K : Type) [RCLike K] [InnerProductSpace K E] (A : E → E) (y x0 : E) (j : Nat) : CG E := (next K A)^[j] (init A y x0)

/-- the step would divide by zero -/
def Breaks (K : Type) [RCLike K] [InnerProductSpace K E] (A : E → E) (s : CG E) : Prop := inner K s.c (A s.c) = 0 ∨ s.k = 0
end CG

/-- iterate, residual of the data, direction, image of the direction, squared norm of the gradient -/
structure CGLS (E F : Type) where
  x : E
  s : F
  c : E
  q : F
  k : ℝ

namespace CGLS
/-- start: s = y - A x, c = B s - δ x (`B` is the adjoint of `A`, `δ` the coefficient of the damping term) -/
def init (A : E → F) (B : F → E) (δ : ℝ) (K : Type) [RCLike K] [InnerProductSpace K E] (y : F) (x0 : E) : CGLS E F where
  x := x0
  s := y - A x0
  c := B (y - A x0) - (δ : K) • x0
  q := A (B (y - A x0) - (δ : K) • x0)
  k := ‖B (y - A x0) - (δ : K) • x0‖ ^ 2

/-- |k / (‖q‖² + δ ‖c‖²)| -/
noncomputable def alpha (δ : ℝ) (s : CGLS E F) : ℝ := |s.k / (‖s.q‖ ^ 2 + δ * ‖s.c‖ ^ 2)|

/-- gradient B s - δ x after the step -/
noncomputable def grad (K : Type) [RCLike K] [InnerProductSpace K E] [InnerProductSpace K F] (B : F → E) (δ : ℝ) (s : CGLS E F) : E :=
  B (s.s - (alpha δ s : K) • s.q) - (δ : K) • (s.x + (alpha δ s : K) • s.c)

/-- one step -/
noncomputable def next (K : Type) [RCLike K] [InnerProductSpace K E] [InnerProductSpace K F] (A : E → F) (B : F → E) (δ : ℝ) (s : CGLS E F) : CGLS E F where
  x := s.x + (alpha δ s : K) • s.c
  s := s.s - (alpha δ s : K) • s.q
  k := ‖grad K B δ s‖ ^ 2
  c := grad K B δ s + ((‖grad K B δ s‖ ^ 2 / s.k : ℝ) : K) • s.c
  q := A (grad K B δ s + ((‖grad K B δ s‖ ^ 2 / s.k : ℝ) : K) • s.c)

/-- the state after `j` steps; `δ₀` is the coefficient used in the start, `δ` that used in the steps -/
noncomputable def seq (K : Type) [RCLike K] [InnerProductSpace K E] [InnerProductSpace K F] (A : E → F) (B : F → E) (δ₀ δ : ℝ) (y : F) (x0 : E) (j : Nat) : CGLS E F :=
  (next K A B δ)^[j] (init A B δ₀ K y x0)

/-- the step would divide by zero -/
def Breaks (δ : ℝ) (s : CGLS E F) : Prop := ‖s.q‖ ^ 2 + δ * ‖s.c‖ ^ 2 = 0 ∨ s.k = 0
end CGLS

/-- the objective ‖y - A x‖² + δ ‖x‖² -/
noncomputable def objective (A : E → F) (δ : ℝ) (y : F) (x : E) : ℝ := ‖y - A x‖ ^ 2 + δ * ‖x‖ ^ 2

/-- a loop with iteration limit `niter` and tolerance `tol`, entered after `j` steps, is left after `m` steps, when `k i` is the squared residual measure after
    `i` steps -/
def Stops (k : Nat → ℝ) (niter : Int) (tol : ℝ) (j m : Nat) : Prop :=
  j ≤ m ∧ (∀ i, j ≤ i → i < m → (i : Int) < niter ∧ k i > tol) ∧ (niter ≤ m ∨ k m ≤ tol)

/-- such a loop comes to a step `m` that divides by zero -/
def Hits (k : Nat → ℝ) (breaks : Nat → Prop) (niter : Int) (tol : ℝ) (j m : Nat) : Prop :=
  j ≤ m ∧ (∀ i, j ≤ i → i ≤ m → (i : Int) < niter ∧ k i > tol) ∧ breaks m

end Serial

/-! ### Distribution of vectors -/

section
variable {K : Type} [RCLike K] {n : Nat} {J : Nat → Nat → K}

/-- the space of vectors with `N` entries -/
abbrev Vec (K : Type) (N : Nat) := EuclideanSpace K (Fin N)

/-- entries of a vector -/
def toL {N : Nat} (x : Vec K N) : List K := List.ofFn fun i => x i

/-- what rank `r` holds of the vector `x` -/
def XSpace.part (S : XSpace) (n : Nat) {N : Nat} (x : Vec K N) (r : Nat) : XArr K := S.vec n (toL x) r

/-- `x` is a vector of the space `S`: it has the right size, and components with real dtype are real -/
def XSpace.Has (S : XSpace) {N : Nat} (x : Vec K N) : Prop := S.Mem (toL x)

/-- the distributed program `mv r` of rank `r` applies `A` to vectors of `S`, giving vectors of `T`, in all executions -/
def Acts (n : Nat) (J : Nat → Nat → K) (mv : Nat → Ctx K → XArr K → P K (XArr K)) (S T : XSpace) {M N : Nat} (A : Vec K M → Vec K N) : Prop :=
  ∀ x, S.Has x → T.Has (A x) ∧ Always n (fun r => mv r (env n J r) (S.part n x r)) (fun r => .ok (T.part n (A x) r))

end
end Verif

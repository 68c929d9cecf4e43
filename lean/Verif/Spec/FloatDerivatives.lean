/-
  Finite differences of a column `v 0, …, v (N - 1)` of numbers with arbitrary arithmetic, on one process: the operations that lead to entry `p` of the result, in order.
-/
import Verif.Model.FloatDerivatives
import Verif.Spec.Derivatives
import Verif.Spec.BlockSolvers

namespace Verif
variable {K : Type}

namespace ArrArith
variable (A : ArrArith K) (dt : DType) (edge : Bool) (N : Nat) (s : K) (v : Nat → K) (p : Nat)

/-- the number if the condition holds, else zero -/
def orZero (c : Prop) [Decidable c] (x : K) : K := if c then x else A.zero

/-- `y op x`, stored in the dtype of the operator, if the condition holds -/
def step (c : Prop) [Decidable c] (op : K → K → K) (x y : K) : K := if c then A.cast dt (op y x) else y

/-- first differences -/
def fdEntry : FDKind → K
  | .forward => A.cast dt (A.div (A.orZero (p + 1 < N) (A.sub (v (p + 1)) (v p))) s)
  | .backward => A.cast dt (A.div (A.orZero (1 ≤ p) (A.sub (v p) (v (p - 1)))) s)
  | .centered3 =>
    let y := if edge ∧ p + 1 = N then A.sub (v p) (v (p - 1))
      else if edge ∧ p = 0 then A.sub (v 1) (v 0)
      else A.orZero (1 ≤ p ∧ p + 1 < N) (A.mul A.half (A.sub (v (p + 1)) (v (p - 1))))
    A.cast dt (A.div (A.cast dt y) s)
  | .centered5 =>
    let y := if edge ∧ p + 1 = N then A.sub (v p) (v (p - 1))
      else if edge ∧ p = 0 then A.sub (v 1) (v 0)
      else if edge ∧ (p = 1 ∨ p + 2 = N) then A.mul A.half (A.sub (v (p + 1)) (v (p - 1)))
      else A.orZero (2 ≤ p ∧ p + 2 < N)
        (A.sub (A.add (A.sub (A.div (v (p - 2)) A.twelve) (A.div (A.mul A.two (v (p - 1))) A.three)) (A.div (A.mul A.two (v (p + 1))) A.three)) (A.div (v (p + 2)) A.twelve))
    A.cast dt (A.div (A.cast dt y) s)

/-- transposed first differences -/
def fdEntryAdj : FDKind → K
  | .forward =>
    let y := A.cast dt A.zero
    let y := A.step dt (p + 1 < N) A.sub (v p) y
    let y := A.step dt True A.add (A.orZero (1 ≤ p) (v (p - 1))) y
    A.step dt True A.div s y
  | .backward =>
    let y := A.cast dt A.zero
    let y := A.step dt True A.sub (A.orZero (p + 1 < N) (v (p + 1))) y
    let y := A.step dt (1 ≤ p) A.add (v p) y
    A.step dt True A.div s y
  | .centered3 =>
    let y := A.cast dt A.zero
    let y := A.step dt True A.sub (A.orZero (p + 2 < N) (A.mul A.half (v (p + 1)))) y
    let y := A.step dt True A.add (A.orZero (2 ≤ p) (A.mul A.half (v (p - 1)))) y
    let y := A.step dt (edge ∧ p = 0) A.sub (v 0) y
    let y := A.step dt (edge ∧ p = 1) A.add (v 0) y
    let y := A.step dt (edge ∧ p + 2 = N) A.sub (v (N - 1)) y
    let y := A.step dt (edge ∧ p + 1 = N) A.add (v (N - 1)) y
    A.step dt True A.div s y
  | .centered5 =>
    let y := A.cast dt A.zero
    let y := A.step dt True A.add (A.orZero (p + 4 < N) (A.div (v (p + 2)) A.twelve)) y
    let y := A.step dt True A.sub (A.orZero (1 ≤ p ∧ p + 3 < N) (A.div (A.mul A.two (v (p + 1))) A.three)) y
    let y := A.step dt True A.add (A.orZero (3 ≤ p ∧ p + 1 < N) (A.div (A.mul A.two (v (p - 1))) A.three)) y
    let y := A.step dt True A.sub (A.orZero (4 ≤ p) (A.div (v (p - 2)) A.twelve)) y
    let y := A.step dt (edge ∧ p = 0) A.sub (A.add (v 0) (A.mul A.half (v 1))) y
    let y := A.step dt (edge ∧ p = 1) A.add (v 0) y
    let y := A.step dt (edge ∧ p = 2) A.add (A.mul A.half (v 1)) y
    let y := A.step dt (edge ∧ p + 3 = N) A.sub (A.mul A.half (v (N - 2))) y
    let y := A.step dt (edge ∧ p + 2 = N) A.sub (v (N - 1)) y
    let y := A.step dt (edge ∧ p + 1 = N) A.add (A.add (A.mul A.half (v (N - 2))) (v (N - 1))) y
    A.step dt True A.div s y

/-- second differences; `s` is the square of the sampling step -/
def sdEntry : SDKind → K
  | .forward => A.cast dt (A.div (A.orZero (p + 2 < N) (A.add (A.sub (v (p + 2)) (A.mul A.two (v (p + 1)))) (v p))) s)
  | .backward => A.cast dt (A.div (A.orZero (2 ≤ p) (A.add (A.sub (v p) (A.mul A.two (v (p - 1)))) (v (p - 2)))) s)
  | .centered =>
    let y := if edge ∧ p + 1 = N then A.add (A.sub (v (p - 2)) (A.mul A.two (v (p - 1)))) (v p)
      else if edge ∧ p = 0 then A.add (A.sub (v 0) (A.mul A.two (v 1))) (v 2)
      else A.orZero (1 ≤ p ∧ p + 1 < N) (A.add (A.sub (v (p + 1)) (A.mul A.two (v p))) (v (p - 1)))
    A.cast dt (A.div (A.cast dt y) s)

/-- transposed second differences -/
def sdEntryAdj : SDKind → K
  | .forward =>
    let y := A.cast dt A.zero
    let y := A.step dt (p + 2 < N) A.add (v p) y
    let y := A.step dt True A.sub (A.mul A.two (A.orZero (1 ≤ p ∧ p + 1 < N) (v (p - 1)))) y
    let y := A.step dt True A.add (A.orZero (2 ≤ p) (v (p - 2))) y
    A.step dt True A.div s y
  | .backward =>
    let y := A.cast dt A.zero
    let y := A.step dt True A.add (A.orZero (p + 2 < N) (v (p + 2))) y
    let y := A.step dt True A.sub (A.orZero (1 ≤ p ∧ p + 1 < N) (A.mul A.two (v (p + 1)))) y
    let y := A.step dt (2 ≤ p) A.add (v p) y
    A.step dt True A.div s y
  | .centered =>
    let y := A.cast dt A.zero
    let y := A.step dt True A.add (A.orZero (p + 2 < N) (v (p + 1))) y
    let y := A.step dt True A.sub (A.orZero (1 ≤ p ∧ p + 1 < N) (A.mul A.two (v p))) y
    let y := A.step dt True A.add (A.orZero (2 ≤ p) (v (p - 1))) y
    let y := A.step dt (edge ∧ p = 0) A.add (v 0) y
    let y := A.step dt (edge ∧ p = 1) A.sub (A.mul A.two (v 0)) y
    let y := A.step dt (edge ∧ p = 2) A.add (v 0) y
    let y := A.step dt (edge ∧ p + 3 = N) A.add (v (N - 1)) y
    let y := A.step dt (edge ∧ p + 2 = N) A.sub (A.mul A.two (v (N - 1))) y
    let y := A.step dt (edge ∧ p + 1 = N) A.add (v (N - 1)) y
    A.step dt True A.div s y

/-- differences along the first axis of an array of shape `N :: rest`, given as a flat vector; arrays with several axes are stored a second time, as vectors -/
def along (dt : DType) (N : Nat) (rest : List Nat) (E : (Nat → K) → Nat → K) (x : SVec K) : SVec K :=
  ⟨dt, tab N rest.prod fun p j =>
    let y := E (fun q => x.v.getD (q * rest.prod + j) A.zero) p
    if rest = [] then y else A.cast dt y⟩

/-- the vector after the redistribution: it is stored in a new array, and if all ranks hold it, then before that in a scattered one -/
def received (X : Layout) (x : SVec K) : SVec K := if X.part.isBroadcast then (x.copy A.toArith).copy A.toArith else x.copy A.toArith

end ArrArith

end Verif

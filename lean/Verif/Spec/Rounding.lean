/-
  The standard model of floating-point arithmetic: every operation gives the exact result up to a relative error of at most `u`; sums of several numbers are computed by such additions in any
  order.  Overflow and underflow are excluded.
-/
import Verif.Model.FloatFredholm
import Verif.Spec.FloatOperators
import Mathlib.Analysis.RCLike.Basic
import Mathlib.Analysis.Real.Sqrt

namespace Verif

variable {K : Type} [RCLike K]

/-- `v` is `x` up to a relative error of at most `u` -/
def Rounded (u : ℝ) (v x : K) : Prop := ‖v - x‖ ≤ u * ‖x‖

/-- `s` is a sum of the numbers of the list: they are added in some order, with some brackets, and every addition is rounded -/
inductive RoundedSum (u : ℝ) : List K → K → Prop
  | nil : RoundedSum u [] 0
  | one (x : K) : RoundedSum u [x] x
  | add {l m : List K} {s t v : K} : l ≠ [] → m ≠ [] → RoundedSum u l s → RoundedSum u m t → Rounded u v (s + t) → RoundedSum u (l ++ m) v
  | perm {l m : List K} {s : K} : l.Perm m → RoundedSum u l s → RoundedSum u m s

/-- dot products are rounded sums of rounded products (or of exact products, as with fused operations), and so on -/
structure Rounding (A : Arith K) (u : ℝ) : Prop where
  nonneg : 0 ≤ u
  dot : ∀ a b : List K, a.length = b.length → ∃ p, List.Forall₂ (fun v x => Rounded u v (x.1 * x.2)) p (a.zip b) ∧ RoundedSum u p (A.dot a b)
  sumSq : ∀ a : List K, ∃ p, List.Forall₂ (fun v x => Rounded u v ((‖x‖ ^ 2 : ℝ) : K)) p a ∧ RoundedSum u p (A.sumSq a)
  sum : ∀ l, RoundedSum u l (A.sum l)
  root : ∀ s, Rounded u (A.root s) ((√‖s‖ : ℝ) : K)

/-- the operations on single numbers; the constants of the formulas for derivatives are exact -/
structure ArrRounding (A : ArrArith K) (u : ℝ) : Prop extends Rounding A.toArith u where
  zero : A.zero = 0
  add : ∀ x y, Rounded u (A.add x y) (x + y)
  sub : ∀ x y, Rounded u (A.sub x y) (x - y)
  mul : ∀ x y, Rounded u (A.mul x y) (x * y)
  div : ∀ x y, y ≠ 0 → Rounded u (A.div x y) (x / y)
  half : A.half = 1 / 2
  two : A.two = 2
  three : A.three = 3
  twelve : A.twelve = 12

/-- sums of arrays are rounded sums, entry by entry -/
structure OpRounding (A : OpArith K) (u : ℝ) : Prop extends ArrRounding A.toArrArith u where
  sumRows : ∀ rows j, (∀ r ∈ rows, j < r.length) → RoundedSum u (rows.map (·.getD j 0)) (A.sumRows rows j)
  sumArr : ∀ rows j, (∀ r ∈ rows, j < r.length) → RoundedSum u (rows.map (·.getD j 0)) (A.sumArr rows j)

/-- storing a number rounds it -/
def Stores (A : Arith K) (u : ℝ) (dt : DType) : Prop := ∀ a, Rounded u (A.cast dt a) a

/-- what is computed by `k` operations deviates by at most this much, relative to the sum of the absolute values of the terms -/
def errBound (u : ℝ) (k : Nat) : ℝ := (1 + u) ^ k - 1

/-- row `j` of a matrix with `c` columns times a vector: the terms of the sum -/
def rowTerms (M : Nat → Nat → K) (c j : Nat) (v : List K) : List K := (List.range c).map fun i => M j i * v.getD i 0

/-- row `j` of the matrices of the operators side by side, times a vector: the terms of the sum -/
def sideTerms (M : FOp K → Nat → Nat → K) (b : Bool) (j : Nat) : List (FOp K) → List K → List K
  | [], _ => []
  | o :: os, v => rowTerms (M o) (o.inDim b) j (v.take (o.inDim b)) ++ sideTerms M b j os (v.drop (o.inDim b))

/-- `a` deviates from the sum of the terms by at most what `k` operations give -/
def SumUpTo (u : ℝ) (k : Nat) (terms : List K) (a : K) : Prop := ‖a - terms.sum‖ ≤ errBound u k * (terms.map (‖·‖)).sum

/-- the serial operator (`true`: its adjoint) multiplies vectors of dtype `t` by the matrix, up to rounding errors of `k` operations -/
def FOp.Multiplies (o : FOp K) (u : ℝ) (k : Nat) (b : Bool) (t : DType) (M : Nat → Nat → K) : Prop :=
  ∀ v : List K, v.length = o.inDim b → ((o.on t).fn b v).length = o.inDim (!b) ∧ ∀ j < o.inDim (!b), SumUpTo u k (rowTerms M (o.inDim b) j v) (((o.on t).fn b v).getD j 0)

/-- entries of matrix products are rounded sums of rounded products -/
structure MatRounding (A : MatArith K) (u : ℝ) : Prop extends OpRounding A.toOpArith u where
  mm : ∀ w tA tB m k p (a b : List K) i, i < m * p →
    ∃ t, List.Forall₂ (fun v l => Rounded u v (a.getD (i / p * k + l) 0 * b.getD (l * p + i % p) 0)) t (List.range k) ∧ RoundedSum u t (A.mm w tA tB m k p a b i)

end Verif

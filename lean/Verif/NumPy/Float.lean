/-
  Non-negative float64 values produced by the norm computations: a real number (no rounding),
  infinity or NaN; and the NumPy reductions along an axis.
-/
import Verif.NumPy.Array
import Mathlib.Data.Real.Basic

namespace Verif

/-- a float64 value (without rounding) -/
inductive FNum
  | fin (x : ℝ)
  | inf
  | nan

namespace FNum

/-- `+` on non-negative floats -/
def add : FNum → FNum → FNum
  | nan, _ => nan
  | _, nan => nan
  | inf, _ => inf
  | _, inf => inf
  | fin x, fin y => fin (x + y)

instance : Zero FNum := ⟨fin 0⟩
instance : Add FNum := ⟨add⟩

theorem zero_def : (0 : FNum) = fin 0 := rfl
@[simp] theorem fin_add_fin (x y : ℝ) : fin x + fin y = fin (x + y) := rfl
@[simp] theorem nan_add (x : FNum) : nan + x = nan := rfl
@[simp] theorem add_nan (x : FNum) : x + nan = nan := by cases x <;> rfl

noncomputable instance : AddCommMonoid FNum where
  add := (· + ·)
  zero := 0
  add_assoc a b c := by
    show add (add a b) c = add a (add b c)
    cases a <;> cases b <;> cases c <;> simp [add, add_assoc]
  zero_add a := by
    show add (fin 0) a = a
    cases a <;> simp [add]
  add_zero a := by
    show add a (fin 0) = a
    cases a <;> simp [add]
  add_comm a b := by
    show add a b = add b a
    cases a <;> cases b <;> simp [add, add_comm]
  nsmul := nsmulRec

theorem sum_fin (l : List ℝ) : (l.map fin).sum = fin l.sum := by
  induction l with
  | nil => rfl
  | cons x l ih => rw [List.map_cons, List.sum_cons, ih, List.sum_cons]; rfl

open Classical in
/-- `MPI.MAX` / `numpy.maximum` on floats (`max`) and `MPI.MIN` (`min`); infinities do not occur
    here -/
noncomputable def max2 : FNum → FNum → FNum
  | fin x, fin y => fin (max x y)
  | _, _ => nan
open Classical in
noncomputable def min2 : FNum → FNum → FNum
  | fin x, fin y => fin (min x y)
  | _, _ => nan

end FNum

namespace NDArray
variable {K : Type}

/-- the `len` entries of the flat array `d` along the axis, at outer position `o` and inner
    position `k` -/
def column (len inn : Nat) [Zero K] (d : List K) (o k : Nat) : List K :=
  (List.range len).map fun i => d.getD (o * (len * inn) + i * inn + k) 0

/-- reduction along axis `ax` (the axis is removed) -/
def reduceAxis {β : Type} [Zero K] (f : List K → Except Err β) (ax : Nat) (a : NDArray K) : Except Err (NDArray β) := do
  let d ← (List.range (outer a.shape ax * inner a.shape ax)).mapM fun j =>
    f (column (len a.shape ax) (inner a.shape ax) a.data (j / inner a.shape ax) (j % inner a.shape ax))
  return ⟨a.shape.eraseIdx ax, .real, d⟩

end NDArray
end Verif

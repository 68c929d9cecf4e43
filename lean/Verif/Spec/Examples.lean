/- Small local operators used in the examples. -/
import Verif.Spec.Operators
import Mathlib.Data.Rat.Star
import Mathlib.Tactic.Ring

namespace Verif
open NDArray

/-- the 1 × k matrix `c` -/
def LOp.row (c : List ℚ) : LOp ℚ where
  rows := 1
  cols := c.length
  dtype := .real
  fwd x := [(List.zipWith (· * ·) c x).sum]
  adj y := c.map fun a => a * y.headD 0

theorem fits_rat (t : DType) (d : List ℚ) : FitsL t d := fun _ x _ => by simp

theorem LOp.row_ok (c : List ℚ) (b : Bool) (t t' : DType) : (LOp.row c).Ok b t t' := by
  refine ⟨fun d hd => ?_, fun d _ _ => fits_rat _ _⟩
  cases b <;> simp [LOp.row, LOp.fn, LOp.outDim, LOp.inDim]

theorem LOp.row_adjoint (c : List ℚ) : (LOp.row c).Adjoint := by
  intro u v hu hv
  obtain ⟨y, rfl⟩ := List.length_eq_one_iff.1 hv
  simp only [LOp.row, ip, List.zipWith_cons_cons, List.zipWith_nil_left, List.sum_cons, List.sum_nil, add_zero, List.headD_cons]
  change u.length = c.length at hu
  clear hv
  induction c generalizing u with
  | nil => simp
  | cons a c ih =>
    cases u with
    | nil => simp at hu
    | cons x u =>
      simp only [List.length_cons, Nat.add_right_cancel_iff] at hu
      have := ih u hu
      simp only [star_trivial] at this
      simp only [List.zipWith_cons_cons, List.sum_cons, List.map_cons, star_trivial, ← this]
      ring

/-- the transposed matrix -/
theorem LOp.H_ok {K : Type} [Star K] {o : LOp K} {b : Bool} {t t' : DType} (h : o.Ok (!b) t t') : o.H.Ok b t t' := by
  cases b
  · exact ⟨h.length, h.fits⟩
  · exact ⟨h.length, h.fits⟩

end Verif

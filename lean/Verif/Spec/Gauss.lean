/- Complex numbers with rational real and imaginary part, on which concrete executions can be computed (used in counterexamples only). -/
import Verif.NumPy.Array
import Mathlib.Algebra.Star.Basic
import Mathlib.Algebra.Order.Field.Rat
import Mathlib.Data.Rat.Star
import Mathlib.Tactic.Ring
import Mathlib.Tactic.FieldSimp
import Mathlib.Tactic.Positivity
import Mathlib.Tactic.Linarith

namespace Verif

@[ext] structure QI where
  re : ℚ
  im : ℚ
  deriving DecidableEq

namespace QI
open NDArray

instance : Zero QI := ⟨⟨0, 0⟩⟩
instance : One QI := ⟨⟨1, 0⟩⟩
instance : Add QI := ⟨fun a b => ⟨a.re + b.re, a.im + b.im⟩⟩
instance : Neg QI := ⟨fun a => ⟨-a.re, -a.im⟩⟩
instance : Mul QI := ⟨fun a b => ⟨a.re * b.re - a.im * b.im, a.re * b.im + a.im * b.re⟩⟩
instance : Inv QI := ⟨fun a => ⟨a.re / (a.re ^ 2 + a.im ^ 2), -a.im / (a.re ^ 2 + a.im ^ 2)⟩⟩
instance : NatCast QI := ⟨fun k => ⟨k, 0⟩⟩
def I : QI := ⟨0, 1⟩

@[simp] theorem zero_re : (0 : QI).re = 0 := rfl
@[simp] theorem zero_im : (0 : QI).im = 0 := rfl
@[simp] theorem one_re : (1 : QI).re = 1 := rfl
@[simp] theorem one_im : (1 : QI).im = 0 := rfl
@[simp] theorem add_re (a b : QI) : (a + b).re = a.re + b.re := rfl
@[simp] theorem add_im (a b : QI) : (a + b).im = a.im + b.im := rfl
@[simp] theorem neg_re (a : QI) : (-a).re = -a.re := rfl
@[simp] theorem neg_im (a : QI) : (-a).im = -a.im := rfl
@[simp] theorem mul_re (a b : QI) : (a * b).re = a.re * b.re - a.im * b.im := rfl
@[simp] theorem mul_im (a b : QI) : (a * b).im = a.re * b.im + a.im * b.re := rfl
@[simp] theorem inv_re (a : QI) : (a⁻¹).re = a.re / (a.re ^ 2 + a.im ^ 2) := rfl
@[simp] theorem inv_im (a : QI) : (a⁻¹).im = -a.im / (a.re ^ 2 + a.im ^ 2) := rfl

instance : CommRing QI where
  add_assoc a b c := by ext <;> simp [add_assoc]
  zero_add a := by ext <;> simp
  add_zero a := by ext <;> simp
  add_comm a b := by ext <;> simp [add_comm]
  neg_add_cancel a := by ext <;> simp
  mul_assoc a b c := by ext <;> simp <;> ring
  one_mul a := by ext <;> simp
  mul_one a := by ext <;> simp
  left_distrib a b c := by ext <;> simp <;> ring
  right_distrib a b c := by ext <;> simp <;> ring
  zero_mul a := by ext <;> simp
  mul_zero a := by ext <;> simp
  mul_comm a b := by ext <;> simp <;> ring
  natCast_zero := by ext <;> simp [NatCast.natCast]
  natCast_succ k := by ext <;> simp [NatCast.natCast]
  nsmul := nsmulRec
  zsmul := zsmulRec

instance : Field QI where
  exists_pair_ne := ⟨0, 1, fun h => by have := congrArg QI.re h; simp at this⟩
  mul_inv_cancel a ha := by
    have : a.re ^ 2 + a.im ^ 2 ≠ 0 := by
      intro h
      apply ha
      have h1 : a.re ^ 2 = 0 := by nlinarith [sq_nonneg a.re, sq_nonneg a.im]
      have h2 : a.im ^ 2 = 0 := by nlinarith [sq_nonneg a.re, sq_nonneg a.im]
      ext
      · simpa using h1
      · simpa using h2
    ext
    · simp only [mul_re, inv_re, inv_im, one_re]
      field_simp
      ring
    · simp only [mul_im, inv_re, inv_im, one_im]
      field_simp
      ring
  inv_zero := by ext <;> simp
  nnqsmul := _
  qsmul := _

instance : StarRing QI where
  star a := ⟨a.re, -a.im⟩
  star_involutive a := by ext <;> simp
  star_mul a b := by ext <;> simp <;> ring
  star_add a b := by ext <;> simp <;> ring

instance : CharZero QI where
  cast_injective a b h := by
    have := congrArg QI.re h
    exact_mod_cast (show ((a : ℕ) : ℚ) = b from this)

theorem fits_of {t : DType} {d : List QI} (h : d.all fun z => z.im == 0) : FitsL t d := by
  intro _ x hx
  have := List.all_eq_true.1 h x hx
  simp only [beq_iff_eq] at this
  ext
  · rfl
  · show -x.im = x.im
    rw [this, neg_zero]

end QI
end Verif

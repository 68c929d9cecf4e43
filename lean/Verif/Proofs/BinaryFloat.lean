/-
  Binary floating-point numbers with `p + 1` significant bits and unlimited exponents, as an example of rounded arithmetic.
-/
import Verif.Proofs.Rounding
import Mathlib.Algebra.Order.Round
import Mathlib.Data.Int.Log
import Mathlib.Data.Real.Archimedean

namespace Verif

/-- the nearest number with `p + 1` significant bits -/
noncomputable def rd (p : Nat) (x : ℝ) : ℝ := round (x * 2 ^ ((p : Int) - Int.log 2 |x|)) / 2 ^ ((p : Int) - Int.log 2 |x|)

theorem rd_rounded (p : Nat) (x : ℝ) : Rounded ((1 / 2) ^ (p + 1)) (rd p x) x := by
  unfold Rounded rd
  rcases eq_or_ne x 0 with rfl | hx
  · simp
  set e := Int.log 2 |x| with he
  have h2 : (0 : ℝ) < 2 ^ ((p : Int) - e) := by positivity
  have h1 : (2 : ℝ) ^ e ≤ |x| := by
    have := Int.zpow_log_le_self (b := 2) (r := |x|) (by norm_num) (abs_pos.2 hx)
    simpa using this
  have h3 := abs_sub_round (x * 2 ^ ((p : Int) - e))
  have h4 : (round (x * 2 ^ ((p : Int) - e)) : ℝ) / 2 ^ ((p : Int) - e) - x = -(x * 2 ^ ((p : Int) - e) - round (x * 2 ^ ((p : Int) - e))) / 2 ^ ((p : Int) - e) := by
    field_simp
    ring
  rw [Real.norm_eq_abs, Real.norm_eq_abs, h4, abs_div, abs_neg, abs_of_pos h2, div_le_iff₀ h2]
  have h5 : (1 / 2 : ℝ) ^ (p + 1) * |x| * 2 ^ ((p : Int) - e) = 1 / 2 * (|x| * (2 ^ e)⁻¹) := by
    rw [zpow_sub₀ (by norm_num), zpow_natCast, pow_succ, one_div, inv_pow]
    field_simp
  rw [h5]
  have h6 : 1 ≤ |x| * ((2 : ℝ) ^ e)⁻¹ := by
    rw [← div_eq_mul_inv, le_div_iff₀ (by positivity)]
    linarith
  linarith

theorem rd_zero (p : Nat) : rd p 0 = 0 := by simp [rd]

/-- numbers with few bits are not changed -/
theorem rd_of_int {p : Nat} {y : ℝ} {k : Int} {m : Int} (hy : y = k * 2 ^ m) (h : Int.log 2 |y| ≤ m + p) : rd p y = y := by
  unfold rd
  set e := Int.log 2 |y| with he
  have h2 : (2 : ℝ) ^ ((p : Int) - e) ≠ 0 := by positivity
  obtain ⟨t, ht⟩ := Int.eq_ofNat_of_zero_le (show 0 ≤ m + p - e by omega)
  have h1 : y * 2 ^ ((p : Int) - e) = ((k * 2 ^ t : Int) : ℝ) := by
    rw [hy, mul_assoc, ← zpow_add₀ (by norm_num), show m + ((p : Int) - e) = t by omega, zpow_natCast]
    push_cast
    rfl
  rw [h1, round_intCast, ← h1]
  field_simp

/-- rounding a rounded number changes nothing -/
theorem rd_idem (p : Nat) (x : ℝ) : rd p (rd p x) = rd p x := by
  rcases eq_or_ne x 0 with rfl | hx
  · rw [rd_zero, rd_zero]
  set e := Int.log 2 |x| with he
  set k := round (x * 2 ^ ((p : Int) - e)) with hk
  have hr : rd p x = k * 2 ^ (e - p) := by
    unfold rd
    rw [← he, ← hk, div_eq_mul_inv, ← zpow_neg, neg_sub]
  have hx2 : |x| < 2 ^ (e + 1) := by
    have := Int.lt_zpow_succ_log_self (b := 2) (by norm_num) |x|
    simpa using this
  -- the significand has at most `p + 2` bits, and if it has so many it is a power of two
  have hb : |k| ≤ 2 ^ (p + 1) := by
    have h1 : |x * 2 ^ ((p : Int) - e)| < ((2 ^ (p + 1) : Int) : ℝ) := by
      rw [abs_mul, abs_of_pos (show (0 : ℝ) < 2 ^ ((p : Int) - e) by positivity)]
      calc |x| * 2 ^ ((p : Int) - e) < 2 ^ (e + 1) * 2 ^ ((p : Int) - e) := mul_lt_mul_of_pos_right hx2 (by positivity)
        _ = ((2 ^ (p + 1) : Int) : ℝ) := by
          rw [← zpow_add₀ (by norm_num), show e + 1 + ((p : Int) - e) = ((p + 1 : Nat) : Int) by push_cast; ring, zpow_natCast]
          push_cast; rfl
    obtain ⟨a, b⟩ := abs_lt.1 h1
    rw [abs_le, hk, round_eq]
    constructor
    · rw [Int.le_floor]
      push_cast at a ⊢
      linarith
    · rw [← Int.lt_add_one_iff, Int.floor_lt]
      push_cast at b ⊢
      linarith
  by_cases h0 : rd p x = 0
  · rw [h0, rd_zero]
  have hp2 : (0 : ℝ) < 2 ^ (e - p) := by positivity
  have habs : |rd p x| = ((|k| : Int) : ℝ) * 2 ^ (e - p) := by rw [hr, abs_mul, abs_of_pos hp2, Int.cast_abs]
  have htop : ((2 ^ (p + 1) : Int) : ℝ) * 2 ^ (e - p) = 2 ^ (e + 1) := by
    push_cast
    rw [← zpow_natCast, ← zpow_add₀ (by norm_num)]
    congr 1
    push_cast
    ring
  rcases hb.lt_or_eq with hlt | heq
  · refine rd_of_int hr ?_
    have : Int.log 2 |rd p x| < e + 1 := by
      rw [← Int.lt_zpow_iff_log_lt (by norm_num) (abs_pos.2 h0), habs]
      push_cast
      rw [← htop]
      have : ((|k| : Int) : ℝ) < ((2 ^ (p + 1) : Int) : ℝ) := by exact_mod_cast hlt
      push_cast at this ⊢
      exact mul_lt_mul_of_pos_right this hp2
    omega
  · have hlog : Int.log 2 |rd p x| < e + 2 := by
      rw [← Int.lt_zpow_iff_log_lt (by norm_num) (abs_pos.2 h0), habs, heq, htop]
      push_cast
      exact zpow_lt_zpow_right₀ (by norm_num) (by omega)
    rcases abs_eq (by positivity) |>.1 heq with hk' | hk'
    · refine rd_of_int (k := 1) (m := e + 1) ?_ (by omega)
      rw [hr, hk', htop]
      simp
    · refine rd_of_int (k := -1) (m := e + 1) ?_ (by omega)
      rw [hr, hk', Int.cast_neg, neg_mul, htop]
      simp

end Verif

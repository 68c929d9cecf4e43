/-
  With exact arithmetic, the operations in Spec/FloatDerivatives.lean compute the finite differences of Spec/Derivatives.lean and their transposes.
-/
import Verif.Proofs.FloatExact
import Verif.Proofs.SecondDerivative
import Verif.Proofs.MixedDtype
import Verif.Spec.FloatDerivatives

namespace Verif
open NDArray

variable {K : Type} [RCLike K]

/-- exact arithmetic -/
noncomputable def ArrArith.exact : ArrArith K where
  toArith := Arith.exact
  sub := (· - ·)
  div := (· / ·)
  half := 1 / 2
  two := 2
  three := 3
  twelve := 12

theorem r_cast (a : ℝ) : castTo .real (a : K) = ((a : ℝ) : K) := by rw [castTo_re]; simp
theorem r_add (a b : ℝ) : (a : K) + (b : K) = ((a + b : ℝ) : K) := by push_cast; rfl
theorem r_sub (a b : ℝ) : (a : K) - (b : K) = ((a - b : ℝ) : K) := by push_cast; rfl
theorem r_mul (a b : ℝ) : (a : K) * (b : K) = ((a * b : ℝ) : K) := by push_cast; rfl
theorem r_div (a b : ℝ) : (a : K) / (b : K) = ((a / b : ℝ) : K) := by push_cast; rfl
theorem r_ite (c : Prop) [Decidable c] (a b : ℝ) : (if c then (a : K) else (b : K)) = ((if c then a else b : ℝ) : K) := by split_ifs <;> rfl
theorem r_zero : (0 : K) = ((0 : ℝ) : K) := RCLike.ofReal_zero.symm
theorem r_one : (1 : K) = ((1 : ℝ) : K) := RCLike.ofReal_one.symm
theorem r_two : (2 : K) = ((2 : ℝ) : K) := by push_cast; rfl
theorem r_three : (3 : K) = ((3 : ℝ) : K) := by push_cast; rfl
theorem r_twelve : (12 : K) = ((12 : ℝ) : K) := by push_cast; rfl
theorem c_cast (z : K) : castTo .cplx z = z := rfl

theorem real_of_star {z : K} (h : star z = z) : z = ((RCLike.re z : ℝ) : K) := (RCLike.conj_eq_iff_re.1 h).symm

macro "entries" : tactic => `(tactic|
  simp only [ArrArith.fdEntry, ArrArith.fdEntryAdj, ArrArith.sdEntry, ArrArith.sdEntryAdj, ArrArith.step, ArrArith.orZero, ArrArith.exact, Arith.exact, if_true, c_cast])

variable {dt : DType} {edge : Bool} {N : Nat} {s : K} {v : Nat → K} {p : Nat}

section
variable (hs : star s = s) (hv : ∀ q, star (v q) = v q)
include hs hv

theorem reals_of_star : ∃ (t : ℝ) (w : Nat → ℝ), s = ((t : ℝ) : K) ∧ v = fun q => ((w q : ℝ) : K) :=
  ⟨RCLike.re s, fun q => RCLike.re (v q), real_of_star hs, funext fun q => real_of_star (hv q)⟩

theorem fdEntry_real (k : FDKind) : ArrArith.exact.fdEntry .real edge N s v p k = ArrArith.exact.fdEntry .cplx edge N s v p k := by
  obtain ⟨t, w, rfl, rfl⟩ := reals_of_star hs hv
  cases k <;> entries <;>
    simp only [r_zero (K := K), r_one (K := K), r_two (K := K), r_three (K := K), r_twelve (K := K), r_add, r_sub, r_mul, r_div, r_ite, r_cast]

theorem fdEntryAdj_real (k : FDKind) : ArrArith.exact.fdEntryAdj .real edge N s v p k = ArrArith.exact.fdEntryAdj .cplx edge N s v p k := by
  obtain ⟨t, w, rfl, rfl⟩ := reals_of_star hs hv
  cases k <;> entries <;>
    simp only [r_zero (K := K), r_one (K := K), r_two (K := K), r_three (K := K), r_twelve (K := K), r_add, r_sub, r_mul, r_div, r_ite, r_cast]

theorem sdEntry_real (k : SDKind) : ArrArith.exact.sdEntry .real edge N s v p k = ArrArith.exact.sdEntry .cplx edge N s v p k := by
  obtain ⟨t, w, rfl, rfl⟩ := reals_of_star hs hv
  cases k <;> entries <;>
    simp only [r_zero (K := K), r_one (K := K), r_two (K := K), r_three (K := K), r_twelve (K := K), r_add, r_sub, r_mul, r_div, r_ite, r_cast]

theorem sdEntryAdj_real (k : SDKind) : ArrArith.exact.sdEntryAdj .real edge N s v p k = ArrArith.exact.sdEntryAdj .cplx edge N s v p k := by
  obtain ⟨t, w, rfl, rfl⟩ := reals_of_star hs hv
  cases k <;> entries <;>
    simp only [r_zero (K := K), r_one (K := K), r_two (K := K), r_three (K := K), r_twelve (K := K), r_add, r_sub, r_mul, r_div, r_ite, r_cast]
end

theorem fdEntry_cplx (k : FDKind) (hp : p < N) (hN : edge = true → 2 ≤ N) : ArrArith.exact.fdEntry .cplx edge N s v p k = fdAt k edge N v p / s := by
  cases k <;> entries <;> simp only [fdAt]
  · cases edge <;> simp only [if_true, if_false, Bool.false_eq_true, false_and, true_and, forall_const] at hN ⊢ <;> split_ifs <;> first | omega | rfl | ring
  · cases edge <;> simp only [if_true, if_false, Bool.false_eq_true, false_and, true_and, forall_const] at hN ⊢ <;> split_ifs <;> first | omega | rfl | ring

theorem sdEntry_cplx (k : SDKind) (hp : p < N) (hN : edge = true → 2 ≤ N) : ArrArith.exact.sdEntry .cplx edge N s v p k = sdAt k edge N v p / s := by
  cases k <;> entries <;> simp only [sdAt]
  cases edge <;> simp only [if_true, if_false, Bool.false_eq_true, false_and, true_and, forall_const] at hN ⊢ <;> split_ifs <;> first | omega | rfl | ring

/-- a chain of conditional additions -/
theorem ite_add' (c : Prop) [Decidable c] (x y : K) : (if c then y + x else y) = y + if c then x else 0 := by split_ifs <;> simp
theorem ite_sub' (c : Prop) [Decidable c] (x y : K) : (if c then y - x else y) = y - if c then x else 0 := by split_ifs <;> simp
theorem ite_mul' (c : Prop) [Decidable c] (a x : K) : (if c then a * x else 0) = a * if c then x else 0 := by split_ifs <;> simp
theorem ite_div' (c : Prop) [Decidable c] (a x : K) : (if c then x / a else 0) = (if c then x else 0) / a := by split_ifs <;> simp
theorem ite_plus' (c : Prop) [Decidable c] (x y : K) : (if c then x + y else 0) = (if c then x else 0) + if c then y else 0 := by split_ifs <;> simp

theorem fdEntryAdj_cplx (k : FDKind) : ArrArith.exact.fdEntryAdj .cplx edge N s v p k = fdAdj k edge N v p / s := by
  cases k <;> entries <;> simp only [fdAdj] <;> refine congrArg (· / s) ?_ <;> cases edge <;>
    simp only [if_true, if_false, Bool.false_eq_true, false_and, true_and, ite_add', ite_sub', ite_mul', ite_div', ite_plus'] <;> ring

theorem sdEntryAdj_cplx (k : SDKind) : ArrArith.exact.sdEntryAdj .cplx edge N s v p k = sdAdj k edge N v p / s := by
  cases k <;> entries <;> simp only [sdAdj] <;> refine congrArg (· / s) ?_ <;> cases edge <;>
    simp only [if_true, if_false, Bool.false_eq_true, false_and, true_and, ite_add', ite_sub', ite_mul', ite_div', ite_plus'] <;> ring

/-- a vector of real dtype has real entries -/
abbrev SVec.Fits (x : SVec K) : Prop := x.dt = .real → ∀ z ∈ x.v, star z = z

theorem copy_exact {x : SVec K} (hx : x.Fits) : x.copy Arith.exact = x := by
  obtain ⟨dt, v⟩ := x
  simp only [SVec.copy, SVec.map, SVec.mk.injEq, true_and]
  have h : ∀ z ∈ v, castTo dt (id z) = z := fun z hz => castTo_fit fun h => hx h z hz
  exact (List.map_congr_left h).trans (List.map_id' v)

theorem received_exact {X : Layout} {x : SVec K} (hx : x.Fits) : ArrArith.exact.received X x = x := by
  unfold ArrArith.received
  split_ifs
  · show (x.copy Arith.exact).copy Arith.exact = x
    rw [copy_exact hx, copy_exact hx]
  · exact copy_exact hx

/-- differences along the first axis, computed exactly -/
theorem along_exact {rest : List Nat} {X : Layout} {x : SVec K} {E D : (Nat → K) → Nat → K} (hx : x.Fits) (hd : dt = .real → x.dt = .real)
    (hE : ∀ v p, p < N → (dt = .real → ∀ q, star (v q) = v q) → E v p = D v p / s) (hs : dt = .real → star s = s) (hD : ∀ v, (∀ q, star (v q) = v q) → ∀ p, star (D v p) = D v p) :
    ArrArith.exact.along dt N rest E (ArrArith.exact.received X x) = ⟨dt, alongRows D s N rest.prod x.v⟩ := by
  have hcol : ∀ j, dt = .real → ∀ q, star (x.v.getD (q * rest.prod + j) 0) = x.v.getD (q * rest.prod + j) 0 := fun j h q => by
    by_cases hq : q * rest.prod + j < x.v.length
    · rw [List.getD_eq_getElem _ _ hq]; exact hx (hd h) _ (List.getElem_mem _)
    · rw [List.getD_eq_default _ _ (by omega), star_zero]
  rw [received_exact hx]
  unfold ArrArith.along alongRows tab
  congr 1
  refine List.map_congr_left fun i hi => ?_
  have hp : i / rest.prod < N := Nat.div_lt_of_lt_mul (by rw [Nat.mul_comm]; exact List.mem_range.1 hi)
  have h := hE (fun q => x.v.getD (q * rest.prod + i % rest.prod) 0) (i / rest.prod) hp (hcol _)
  show (if rest = [] then _ else castTo dt _) = _
  have e : castTo dt (E (fun q => x.v.getD (q * rest.prod + i % rest.prod) 0) (i / rest.prod)) = E (fun q => x.v.getD (q * rest.prod + i % rest.prod) 0) (i / rest.prod) :=
    castTo_fit fun hr => by rw [h, star_div₀, hs hr, hD _ (hcol _ hr)]
  show (if rest = [] then E (fun q => x.v.getD (q * rest.prod + i % rest.prod) 0) (i / rest.prod) else castTo dt (E (fun q => x.v.getD (q * rest.prod + i % rest.prod) 0) (i / rest.prod))) = _
  rw [e, ite_self, h]
  rfl

end Verif

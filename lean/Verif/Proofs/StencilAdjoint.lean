/-
  The transposed differences are adjoint to the differences.
-/
import Verif.Proofs.DerivApply
import Mathlib.Algebra.BigOperators.Ring.Finset
import Mathlib.Algebra.BigOperators.Field
import Mathlib.Algebra.BigOperators.Intervals

namespace Verif
open NDArray Finset
set_option linter.unusedSectionVars false

variable {K : Type} [Field K] [StarRing K] [CharZero K] {N w : Nat} {s : K} {edge : Bool}

/-- `D'` is the transpose of `D` -/
def Transpose (N : Nat) (D D' : (Nat → K) → Nat → K) : Prop :=
  ∀ u v, ∑ i ∈ range N, D u i * v i = ∑ p ∈ range N, u p * D' v p

variable {D D' E E' : (Nat → K) → Nat → K}

theorem Transpose.add (h : Transpose N D D') (g : Transpose N E E') : Transpose N (fun u i => D u i + E u i) (fun v p => D' v p + E' v p) := by
  intro u v
  simp only [add_mul, mul_add, sum_add_distrib, h u v, g u v]

theorem Transpose.sub (h : Transpose N D D') (g : Transpose N E E') : Transpose N (fun u i => D u i - E u i) (fun v p => D' v p - E' v p) := by
  intro u v
  simp only [sub_mul, mul_sub, sum_sub_distrib, h u v, g u v]

theorem Transpose.smul (c : K) (h : Transpose N D D') : Transpose N (fun u i => c * D u i) (fun v p => c * D' v p) := by
  intro u v
  have h1 := h u v
  simp only [mul_assoc, mul_left_comm (b := c), ← mul_sum]
  rw [h1]

theorem Transpose.zero : Transpose N (fun _ _ => (0 : K)) (fun _ _ => 0) := by
  intro u v
  simp

theorem Transpose.congr (h : Transpose N D D') (h1 : ∀ u i, i < N → E u i = D u i) (h2 : ∀ v p, p < N → E' v p = D' v p) : Transpose N E E' := by
  intro u v
  rw [sum_congr rfl fun i hi => by rw [h1 u i (mem_range.1 hi)], h u v]
  exact sum_congr rfl fun p hp => by rw [h2 v p (mem_range.1 hp)]

/-- one entry of the stencil -/
theorem Transpose.shift (P Q : Nat → Prop) [DecidablePred P] [DecidablePred Q] (e e' : Nat → Nat)
    (h1 : ∀ i, i < N → P i → Q (e i) ∧ e i < N ∧ e' (e i) = i) (h2 : ∀ p, p < N → Q p → P (e' p) ∧ e' p < N ∧ e (e' p) = p) :
    Transpose N (fun (u : Nat → K) i => if P i then u (e i) else 0) (fun v p => if Q p then v (e' p) else 0) := by
  intro u v
  simp only [ite_mul, zero_mul, mul_ite, mul_zero, ← sum_filter]
  refine sum_nbij' e e' ?_ ?_ ?_ ?_ ?_
  · intro i hi
    rw [mem_filter, mem_range] at hi ⊢
    exact ⟨(h1 i hi.1 hi.2).2.1, (h1 i hi.1 hi.2).1⟩
  · intro p hp
    rw [mem_filter, mem_range] at hp ⊢
    exact ⟨(h2 p hp.1 hp.2).2.1, (h2 p hp.1 hp.2).1⟩
  · intro i hi
    rw [mem_filter, mem_range] at hi
    exact (h1 i hi.1 hi.2).2.2
  · intro p hp
    rw [mem_filter, mem_range] at hp
    exact (h2 p hp.1 hp.2).2.2
  · intro i hi
    rw [mem_filter, mem_range] at hi
    rw [(h1 i hi.1 hi.2).2.2]

theorem sum_range_map (m : Nat) (f : Nat → K) : ((List.range m).map f).sum = ∑ i ∈ range m, f i := by
  induction m with
  | zero => simp
  | succ m ih => rw [List.range_succ, sum_range_succ, List.map_append, List.sum_append, ih]; simp

theorem sum_tab (f : Nat → Nat → K) : ((List.range (N * w)).map fun p => f (p / w) (p % w)).sum = ∑ i ∈ range N, ∑ j ∈ range w, f i j := by
  rw [sum_range_map]
  induction N with
  | zero => simp
  | succ N ih =>
    rw [sum_range_succ, Nat.succ_mul, sum_range_add, ih]
    congr 1
    refine sum_congr rfl fun j hj => ?_
    have hj := mem_range.1 hj
    rw [Nat.mul_comm, Nat.mul_add_div (by omega), Nat.mul_add_mod, Nat.div_eq_of_lt hj, Nat.mod_eq_of_lt hj, Nat.add_zero]

theorem ip_tab (f g : Nat → Nat → K) : ip (tab N w f) (tab N w g) = ∑ i ∈ range N, ∑ j ∈ range w, star (f i j) * g i j := by
  unfold ip tab
  rw [List.zipWith_map, List.zipWith_self, ← sum_tab]

/-- `D` commutes with conjugation -/
def Conj (D : (Nat → K) → Nat → K) : Prop := ∀ u i, star (D u i) = D (fun p => star (u p)) i

theorem adjoint_alongRows (h : Transpose N D D') (hD : Conj D) (hs : star s = s) {u v : List K} (hu : u.length = N * w) (hv : v.length = N * w) :
    ip (alongRows D s N w u) v = ip u (alongRows D' s N w v) := by
  conv_lhs => rw [← tab_entry hv]
  conv_rhs => rw [← tab_entry hu]
  unfold alongRows
  rw [ip_tab, ip_tab, sum_comm, sum_comm (s := range N)]
  refine sum_congr rfl fun j _ => ?_
  have := h (fun p => star (entry w u p j)) (fun p => entry w v p j)
  have e1 : ∀ i, star (D (fun p => entry w u p j) i / s) * entry w v i j = D (fun p => star (entry w u p j)) i * entry w v i j / s := by
    intro i
    rw [star_div₀, hD, hs]; ring
  have e2 : ∀ p, star (entry w u p j) * (D' (fun q => entry w v q j) p / s) = star (entry w u p j) * D' (fun q => entry w v q j) p / s := by
    intro p; ring
  simp only [e1, e2, ← sum_div]
  rw [this]

theorem conj_fdAt (k : FDKind) : Conj (fdAt (K := K) k edge N) := by
  intro u i
  cases k <;> simp only [fdAt] <;> split_ifs <;> simp

theorem conj_sdAt (k : SDKind) : Conj (sdAt (K := K) k edge N) := by
  intro u i
  cases k <;> simp only [sdAt] <;> split_ifs <;> simp

/-- the index conditions of `Transpose.shift` -/
macro "shft" : tactic => `(tactic| (intros; omega))

theorem transpose_forward : Transpose N (fdAt (K := K) .forward edge N) (fdAdj .forward edge N) :=
  ((Transpose.shift (fun i => i + 1 < N) (fun p => 1 ≤ p) (fun i => i + 1) (fun p => p - 1) (by shft) (by shft)).sub
    (Transpose.shift (fun i => i + 1 < N) (fun p => p + 1 < N) (fun i => i) (fun p => p) (by shft) (by shft))).congr
    (fun u i _ => by simp only [fdAt]; split_ifs <;> simp) (fun v p _ => rfl)

theorem transpose_backward : Transpose N (fdAt (K := K) .backward edge N) (fdAdj .backward edge N) :=
  ((Transpose.shift (fun i => 1 ≤ i) (fun p => 1 ≤ p) (fun i => i) (fun p => p) (by shft) (by shft)).sub
    (Transpose.shift (fun i => 1 ≤ i) (fun p => p + 1 < N) (fun i => i - 1) (fun p => p + 1) (by shft) (by shft))).congr
    (fun u i _ => by simp only [fdAt]; split_ifs <;> simp) (fun v p _ => rfl)

/-- the value of an entry does not depend on how its index is written -/
theorem ueq {u : Nat → K} {a b : Nat} (h : a = b) : u a = u b := by rw [h]

theorem transpose_centered3 (hN : edge = true → 2 ≤ N) : Transpose N (fdAt (K := K) .centered3 edge N) (fdAdj .centered3 edge N) := by
  have h := ((Transpose.shift (K := K) (fun i => 1 ≤ i ∧ i + 1 < N) (fun p => 2 ≤ p) (fun i => i + 1) (fun p => p - 1) (by shft) (by shft)).smul (1 / 2)).sub
    ((Transpose.shift (N := N) (fun i => 1 ≤ i ∧ i + 1 < N) (fun p => p + 2 < N) (fun i => i - 1) (fun p => p + 1) (by shft) (by shft)).smul (1 / 2))
  cases edge
  · refine h.congr (fun u i _ => ?_) (fun v p _ => by simp [fdAdj])
    simp only [fdAt]
    split_ifs <;> simp_all <;> ring
  · have hN := hN rfl
    have g := (((Transpose.shift (K := K) (N := N) (fun i => i = 0) (fun p => p = 1) (fun _ => 1) (fun _ => 0) (by shft) (by shft)).sub
      (Transpose.shift (fun i => i = 0) (fun p => p = 0) (fun _ => 0) (fun _ => 0) (by shft) (by shft))).add
      (Transpose.shift (fun i => i + 1 = N) (fun p => p + 1 = N) (fun _ => N - 1) (fun _ => N - 1) (by shft) (by shft))).sub
      (Transpose.shift (fun i => i + 1 = N) (fun p => p + 2 = N) (fun _ => N - 2) (fun _ => N - 1) (by shft) (by shft))
    refine (h.add g).congr (fun u i hi => ?_) (fun v p _ => by simp [fdAdj])
    simp only [fdAt, if_true]
    split_ifs <;> first | omega | ring1 | (unify_idx u; ring1)

theorem transpose_centered5 (hN : edge = true → 4 ≤ N) : Transpose N (fdAt (K := K) .centered5 edge N) (fdAdj .centered5 edge N) := by
  have h := ((((Transpose.shift (K := K) (N := N) (fun i => 2 ≤ i ∧ i + 2 < N) (fun p => p + 4 < N) (fun i => i - 2) (fun p => p + 2) (by shft) (by shft)).smul (1 / 12)).sub
    ((Transpose.shift (N := N) (fun i => 2 ≤ i ∧ i + 2 < N) (fun p => 1 ≤ p ∧ p + 3 < N) (fun i => i - 1) (fun p => p + 1) (by shft) (by shft)).smul (2 / 3))).add
    ((Transpose.shift (N := N) (fun i => 2 ≤ i ∧ i + 2 < N) (fun p => 3 ≤ p ∧ p + 1 < N) (fun i => i + 1) (fun p => p - 1) (by shft) (by shft)).smul (2 / 3))).sub
    ((Transpose.shift (N := N) (fun i => 2 ≤ i ∧ i + 2 < N) (fun p => 4 ≤ p) (fun i => i + 2) (fun p => p - 2) (by shft) (by shft)).smul (1 / 12))
  cases edge
  · refine h.congr (fun u i _ => ?_) (fun v p _ => by simp [fdAdj])
    simp only [fdAt]
    split_ifs <;> simp_all <;> ring
  · have hN := hN rfl
    have g := ((((Transpose.shift (K := K) (N := N) (fun i => i = 0) (fun p => p = 1) (fun i => 1) (fun p => 0) (by shft) (by shft)).sub
      (Transpose.shift (N := N) (fun i => i = 0) (fun p => p = 0) (fun i => 0) (fun p => 0) (by shft) (by shft))).add
      (Transpose.shift (N := N) (fun i => i + 1 = N) (fun p => p + 1 = N) (fun i => N - 1) (fun p => N - 1) (by shft) (by shft))).sub
      (Transpose.shift (N := N) (fun i => i + 1 = N) (fun p => p + 2 = N) (fun i => N - 2) (fun p => N - 1) (by shft) (by shft))).add
      (((((Transpose.shift (K := K) (N := N) (fun i => i = 1) (fun p => p = 2) (fun i => 2) (fun p => 1) (by shft) (by shft)).sub
      (Transpose.shift (N := N) (fun i => i = 1) (fun p => p = 0) (fun i => 0) (fun p => 1) (by shft) (by shft))).add
      (Transpose.shift (N := N) (fun i => i + 2 = N) (fun p => p + 1 = N) (fun i => N - 1) (fun p => N - 2) (by shft) (by shft))).sub
      (Transpose.shift (N := N) (fun i => i + 2 = N) (fun p => p + 3 = N) (fun i => N - 3) (fun p => N - 2) (by shft) (by shft))).smul (1 / 2))
    refine (h.add g).congr (fun u i hi => ?_) (fun v p _ => by simp [fdAdj])
    simp only [fdAt, if_true]
    split_ifs <;> first | omega | ring1 | (unify_idx u; ring1)

theorem transpose_sdForward : Transpose N (sdAt (K := K) .forward edge N) (sdAdj .forward edge N) :=
  (((Transpose.shift (N := N) (fun i => i + 2 < N) (fun p => 2 ≤ p) (fun i => i + 2) (fun p => p - 2) (by shft) (by shft)).sub
    ((Transpose.shift (N := N) (fun i => i + 2 < N) (fun p => 1 ≤ p ∧ p + 1 < N) (fun i => i + 1) (fun p => p - 1) (by shft) (by shft)).smul 2)).add
    (Transpose.shift (N := N) (fun i => i + 2 < N) (fun p => p + 2 < N) (fun i => i) (fun p => p) (by shft) (by shft))).congr
    (fun u i _ => by simp only [sdAt]; split_ifs <;> simp) (fun v p _ => rfl)

theorem transpose_sdBackward : Transpose N (sdAt (K := K) .backward edge N) (sdAdj .backward edge N) :=
  (((Transpose.shift (N := N) (fun i => 2 ≤ i) (fun p => 2 ≤ p) (fun i => i) (fun p => p) (by shft) (by shft)).sub
    ((Transpose.shift (N := N) (fun i => 2 ≤ i) (fun p => 1 ≤ p ∧ p + 1 < N) (fun i => i - 1) (fun p => p + 1) (by shft) (by shft)).smul 2)).add
    (Transpose.shift (N := N) (fun i => 2 ≤ i) (fun p => p + 2 < N) (fun i => i - 2) (fun p => p + 2) (by shft) (by shft))).congr
    (fun u i _ => by simp only [sdAt]; split_ifs <;> simp) (fun v p _ => rfl)

theorem transpose_sdCentered (hN : edge = true → 3 ≤ N) : Transpose N (sdAt (K := K) .centered edge N) (sdAdj .centered edge N) := by
  have h := ((Transpose.shift (K := K) (N := N) (fun i => 1 ≤ i ∧ i + 1 < N) (fun p => 2 ≤ p) (fun i => i + 1) (fun p => p - 1) (by shft) (by shft)).sub
    ((Transpose.shift (N := N) (fun i => 1 ≤ i ∧ i + 1 < N) (fun p => 1 ≤ p ∧ p + 1 < N) (fun i => i) (fun p => p) (by shft) (by shft)).smul 2)).add
    (Transpose.shift (N := N) (fun i => 1 ≤ i ∧ i + 1 < N) (fun p => p + 2 < N) (fun i => i - 1) (fun p => p + 1) (by shft) (by shft))
  cases edge
  · refine h.congr (fun u i _ => ?_) (fun v p _ => by simp [sdAdj])
    simp only [sdAt]
    split_ifs <;> simp_all
  · have hN := hN rfl
    have g := (((((Transpose.shift (K := K) (N := N) (fun i => i = 0) (fun p => p = 0) (fun i => 0) (fun p => 0) (by shft) (by shft)).sub
      ((Transpose.shift (N := N) (fun i => i = 0) (fun p => p = 1) (fun i => 1) (fun p => 0) (by shft) (by shft)).smul 2)).add
      (Transpose.shift (N := N) (fun i => i = 0) (fun p => p = 2) (fun i => 2) (fun p => 0) (by shft) (by shft))).add
      (Transpose.shift (N := N) (fun i => i + 1 = N) (fun p => p + 3 = N) (fun i => N - 3) (fun p => N - 1) (by shft) (by shft))).sub
      ((Transpose.shift (N := N) (fun i => i + 1 = N) (fun p => p + 2 = N) (fun i => N - 2) (fun p => N - 1) (by shft) (by shft)).smul 2)).add
      (Transpose.shift (N := N) (fun i => i + 1 = N) (fun p => p + 1 = N) (fun i => N - 1) (fun p => N - 1) (by shft) (by shft))
    refine (h.add g).congr (fun u i hi => ?_) (fun v p _ => by simp [sdAdj])
    simp only [sdAt, if_true]
    split_ifs <;> first | omega | ring1 | (unify_idx u; ring1)

end Verif

/-
  Propagation of rounding errors.
-/
import Verif.Spec.Rounding
import Verif.Spec.FloatDerivatives
import Verif.Proofs.FloatDerivExact
import Verif.Proofs.FloatStacking
import Mathlib.Tactic.Ring
import Mathlib.Tactic.Linarith
import Mathlib.Tactic.Positivity
import Mathlib.Tactic.FieldSimp

namespace Verif

variable {K : Type} [RCLike K] {u : ℝ}

theorem errBound_zero : errBound u 0 = 0 := by simp [errBound]

theorem errBound_nonneg (hu : 0 ≤ u) (k : Nat) : 0 ≤ errBound u k := by
  have := one_le_pow₀ (a := 1 + u) (by linarith) (n := k)
  unfold errBound
  linarith

theorem errBound_mono (hu : 0 ≤ u) {k l : Nat} (h : k ≤ l) : errBound u k ≤ errBound u l := by
  have := pow_le_pow_right₀ (a := 1 + u) (by linarith) h
  unfold errBound
  linarith

theorem errBound_add (k l : Nat) : (1 + errBound u k) * (1 + errBound u l) = 1 + errBound u (k + l) := by
  simp [errBound, pow_add]

theorem errBound_one : errBound u 1 = u := by simp [errBound]

theorem errBound_succ (k : Nat) : errBound u (k + 1) = errBound u k + u * (1 + errBound u k) := by
  have := errBound_add (u := u) k 1
  rw [errBound_one] at this
  linarith [this]

/-- `a` is `e` after `k` rounded operations on terms whose absolute values add up to `m` -/
structure Approx (u : ℝ) (k : Nat) (a e : K) (m : ℝ) : Prop where
  err : ‖a - e‖ ≤ errBound u k * m
  mag : ‖e‖ ≤ m

namespace Approx
variable {k l : Nat} {a b e f v : K} {m p : ℝ}

theorem exact (a : K) : Approx u 0 a a ‖a‖ := ⟨by simp [errBound_zero], le_rfl⟩

theorem nonneg (h : Approx u k a e m) : 0 ≤ m := (norm_nonneg e).trans h.mag

theorem weaken (hu : 0 ≤ u) (h : Approx u k a e m) (hk : k ≤ l) : Approx u l a e m := ⟨h.err.trans (mul_le_mul_of_nonneg_right (errBound_mono hu hk) h.nonneg), h.mag⟩

theorem size (h : Approx u k a e m) : ‖a‖ ≤ (1 + errBound u k) * m := by
  have := norm_le_norm_add_norm_sub' a e
  have h1 := h.err
  have h2 := h.mag
  nlinarith

theorem round (hu : 0 ≤ u) (h : Approx u k a e m) (hv : Rounded u v a) : Approx u (k + 1) v e m := by
  refine ⟨?_, h.mag⟩
  have h1 : ‖v - e‖ ≤ ‖v - a‖ + ‖a - e‖ := norm_sub_le_norm_sub_add_norm_sub v a e
  have h2 := mul_le_mul_of_nonneg_left h.size hu
  rw [errBound_succ]
  have := h.err
  unfold Rounded at hv
  nlinarith

theorem plus (h : Approx u k a e m) (h' : Approx u k b f p) : Approx u k (a + b) (e + f) (m + p) := by
  refine ⟨?_, (norm_add_le _ _).trans (add_le_add h.mag h'.mag)⟩
  have h1 : a + b - (e + f) = (a - e) + (b - f) := by ring
  rw [h1, mul_add]
  exact (norm_add_le _ _).trans (add_le_add h.err h'.err)

theorem minus (h : Approx u k a e m) (h' : Approx u k b f p) : Approx u k (a - b) (e - f) (m + p) := by
  refine ⟨?_, (norm_sub_le _ _).trans (add_le_add h.mag h'.mag)⟩
  have h1 : a - b - (e - f) = (a - e) - (b - f) := by ring
  rw [h1, mul_add]
  exact (norm_sub_le _ _).trans (add_le_add h.err h'.err)

theorem times (hu : 0 ≤ u) (h : Approx u k a e m) (h' : Approx u l b f p) : Approx u (k + l) (a * b) (e * f) (m * p) := by
  refine ⟨?_, by rw [norm_mul]; exact mul_le_mul h.mag h'.mag (norm_nonneg _) h.nonneg⟩
  have h1 : a * b - e * f = (a - e) * b + e * (b - f) := by ring
  have h2 : ‖a * b - e * f‖ ≤ ‖a - e‖ * ‖b‖ + ‖e‖ * ‖b - f‖ := by
    rw [h1]
    refine (norm_add_le _ _).trans ?_
    rw [norm_mul, norm_mul]
  have e1 := mul_le_mul h.err h'.size (norm_nonneg _) (mul_nonneg (errBound_nonneg hu k) h.nonneg)
  have e2 := mul_le_mul h.mag h'.err (norm_nonneg _) h.nonneg
  have e3 := errBound_add (u := u) k l
  have e4 : errBound u (k + l) * (m * p) = errBound u k * m * ((1 + errBound u l) * p) + m * (errBound u l * p) := by
    have : errBound u (k + l) = (1 + errBound u k) * (1 + errBound u l) - 1 := by rw [e3]; ring
    rw [this]; ring
  rw [e4]
  linarith

/-- a factor that is exact -/
theorem over (h : Approx u k a e m) (s : K) : Approx u k (a / s) (e / s) (m / ‖s‖) := by
  refine ⟨?_, by rw [norm_div]; exact div_le_div_of_nonneg_right h.mag (norm_nonneg _)⟩
  rw [← sub_div, norm_div, ← mul_div_assoc]
  exact div_le_div_of_nonneg_right h.err (norm_nonneg _)

theorem zero (hu : 0 ≤ u) (k : Nat) : Approx u k (0 : K) 0 0 := ⟨by simp, by simp⟩

end Approx

theorem perm_lift {α β : Type} (f : α → β) {l l' : List β} (h : l.Perm l') : ∀ {T : List α}, T.map f = l' → ∃ T' : List α, T'.map f = l ∧ T'.Perm T := by
  induction h with
  | nil => intro T hT; exact ⟨T, hT, .refl _⟩
  | cons x h ih =>
    intro T hT
    obtain ⟨a, T, rfl, rfl, hT'⟩ := List.map_eq_cons_iff.1 hT
    obtain ⟨T', h1, h2⟩ := ih hT'
    exact ⟨a :: T', by simp [h1], h2.cons a⟩
  | swap x y l =>
    intro T hT
    obtain ⟨a, T, rfl, rfl, hT'⟩ := List.map_eq_cons_iff.1 hT
    obtain ⟨b, T, rfl, rfl, hT''⟩ := List.map_eq_cons_iff.1 hT'
    exact ⟨b :: a :: T, by simp [hT''], .swap _ _ _⟩
  | trans h1 h2 ih1 ih2 =>
    intro T hT
    obtain ⟨T', a1, a2⟩ := ih2 hT
    obtain ⟨T'', b1, b2⟩ := ih1 a1
    exact ⟨T'', b1, b2.trans a2⟩

/-- a rounded sum of numbers `a i`, each of which is `e i` after `k` operations -/
theorem RoundedSum.near {ι : Type} (hu : 0 ≤ u) {a e : ι → K} {m : ι → ℝ} {k : Nat} {l : List K} {s : K} (h : RoundedSum u l s) :
    ∀ {T : List ι}, T.map a = l → (∀ i ∈ T, Approx u k (a i) (e i) (m i)) → Approx u (k + (l.length - 1)) s (T.map e).sum (T.map m).sum := by
  induction h with
  | nil =>
    intro T hT _
    rw [List.map_eq_nil_iff.1 hT]
    simpa using Approx.zero hu k
  | one x =>
    intro T hT hn
    obtain ⟨i, T, rfl, rfl, hT'⟩ := List.map_eq_cons_iff.1 hT
    rw [List.map_eq_nil_iff.1 hT']
    simpa using hn i (by simp)
  | @add l l' s t v hl hl' _ _ hv ih1 ih2 =>
    intro T hT hn
    obtain ⟨T1, T2, rfl, rfl, rfl⟩ := List.map_eq_append_iff.1 hT
    have p1 := List.length_pos_of_ne_nil hl
    have p2 := List.length_pos_of_ne_nil hl'
    have n1 := ih1 rfl fun i hi => hn i (by simp [hi])
    have n2 := ih2 rfl fun i hi => hn i (by simp [hi])
    simp only [List.length_map, List.length_append, List.map_append, List.sum_append] at n1 n2 p1 p2 ⊢
    have n1' := n1.weaken hu (l := k + (T1.length + T2.length - 2)) (by omega)
    have n2' := n2.weaken hu (l := k + (T1.length + T2.length - 2)) (by omega)
    exact ((n1'.plus n2').round hu hv).weaken hu (by omega)
  | perm hp _ ih =>
    intro T hT hn
    obtain ⟨T', h1, h2⟩ := perm_lift a hp hT
    have := ih h1 fun i hi => hn i (h2.mem_iff.1 hi)
    rwa [hp.length_eq, (h2.map e).sum_eq, (h2.map m).sum_eq] at this

/-- a rounded sum of rounded terms -/
theorem RoundedSum.terms {ι : Type} (hu : 0 ≤ u) {e : ι → K} {p : List K} {T : List ι} {s : K} {m : Nat} (hp : List.Forall₂ (fun v i => Rounded u v (e i)) p T) (h : RoundedSum u p s) (hm : T.length ≤ m) :
    Approx u m s (T.map e).sum (T.map fun i => ‖e i‖).sum := by
  obtain ⟨hl, hz⟩ := List.forall₂_iff_zip.1 hp
  have k := h.near hu (k := 1) (T := p.zip T) (a := Prod.fst) (e := fun t => e t.2) (m := fun t => ‖e t.2‖) (List.map_fst_zip hl.le) fun t ht =>
    (Approx.exact (e t.2)).round hu (hz (a := t.1) (b := t.2) ht)
  have e1 : (p.zip T).map (fun t => e t.2) = T.map e := by
    conv_rhs => rw [← List.map_snd_zip hl.ge, List.map_map]
    rfl
  have e2 : (p.zip T).map (fun t => ‖e t.2‖) = T.map fun i => ‖e i‖ := by
    conv_rhs => rw [← List.map_snd_zip hl.ge, List.map_map]
    rfl
  rw [e1, e2] at k
  cases T with
  | nil =>
    have hp0 : p = [] := List.length_eq_zero_iff.1 hl
    have : Approx u 1 s (0 : K) 0 := by simpa [hp0] using k
    have h0 : s = 0 := by
      have := this.err
      simpa using this
    subst h0
    simpa using Approx.zero hu m
  | cons t T =>
    refine k.weaken hu ?_
    rw [hl]
    simp only [List.length_cons] at hm ⊢
    omega

section
variable {A : Arith K}

theorem Rounding.dot_near (hA : Rounding A u) {a b : List K} (h : a.length = b.length) {m : Nat} (hm : a.length ≤ m) :
    Approx u m (A.dot a b) ((a.zip b).map fun p => p.1 * p.2).sum ((a.zip b).map fun p => ‖p.1 * p.2‖).sum := by
  obtain ⟨p, h1, h2⟩ := hA.dot a b h
  exact h2.terms hA.nonneg (e := fun p : K × K => p.1 * p.2) h1 (by simp [h ▸ hm, hm])

theorem Rounding.sumSq_near (hA : Rounding A u) {a : List K} {m : Nat} (hm : a.length ≤ m) :
    Approx u m (A.sumSq a) (a.map fun x => ((‖x‖ ^ 2 : ℝ) : K)).sum (a.map fun x => ‖x‖ ^ 2).sum := by
  obtain ⟨p, h1, h2⟩ := hA.sumSq a
  have := h2.terms hA.nonneg (e := fun x : K => ((‖x‖ ^ 2 : ℝ) : K)) h1 hm
  simpa using this

/-- sums over the ranks -/
theorem Rounding.sum_near (hA : Rounding A u) {n m : Nat} {a e : Nat → K} {M : Nat → ℝ} (h : ∀ q < n, Approx u m (a q) (e q) (M q)) :
    Approx u (m + (n - 1)) (A.sum ((List.range n).map a)) ((List.range n).map e).sum ((List.range n).map M).sum := by
  have := (hA.sum ((List.range n).map a)).near hA.nonneg (k := m) (T := List.range n) (a := a) (e := e) (m := M) rfl fun q hq => h q (List.mem_range.1 hq)
  simpa using this

/-- the square root -/
theorem root_near (hA : Rounding A u) {k : Nat} {s : K} {S : ℝ} (h : Approx u k s (S : K) S) : ‖A.root s - ((√S : ℝ) : K)‖ ≤ errBound u (k + 1) * √S := by
  have hS : 0 ≤ S := h.nonneg
  have hε := errBound_nonneg hA.nonneg k
  have h1 : |‖s‖ - S| ≤ errBound u k * S := by
    have := abs_norm_sub_norm_le s (S : K)
    rw [RCLike.norm_ofReal, abs_of_nonneg hS] at this
    exact this.trans h.err
  have h2 : |√‖s‖ - √S| ≤ errBound u k * √S := by
    rcases hS.eq_or_lt with h0 | h0
    · rw [← h0] at h1 ⊢
      have : ‖s‖ = 0 := by simpa using h1
      simp [this]
    · have hr : 0 < √S := Real.sqrt_pos.2 h0
      have e1 : |√‖s‖ - √S| * (√‖s‖ + √S) = |‖s‖ - S| := by
        rw [← abs_of_nonneg (add_nonneg (Real.sqrt_nonneg ‖s‖) hr.le), ← abs_mul]
        congr 1
        have a1 := Real.mul_self_sqrt (norm_nonneg s)
        have a2 := Real.mul_self_sqrt hS
        nlinarith
      have e2 : |√‖s‖ - √S| * √S ≤ |√‖s‖ - √S| * (√‖s‖ + √S) := mul_le_mul_of_nonneg_left (by linarith [Real.sqrt_nonneg ‖s‖]) (abs_nonneg _)
      have e3 : errBound u k * S = errBound u k * √S * √S := by rw [mul_assoc, Real.mul_self_sqrt hS]
      refine le_of_mul_le_mul_right ?_ hr
      linarith
  have h3 := hA.root s
  unfold Rounded at h3
  rw [RCLike.norm_ofReal, abs_of_nonneg (Real.sqrt_nonneg _)] at h3
  have h4 : ‖(((√‖s‖ : ℝ) : K) - ((√S : ℝ) : K))‖ = |√‖s‖ - √S| := by
    rw [← RCLike.ofReal_sub, RCLike.norm_ofReal]
  have h5 := norm_sub_le_norm_sub_add_norm_sub (A.root s) ((√‖s‖ : ℝ) : K) ((√S : ℝ) : K)
  have h6 : √‖s‖ ≤ (1 + errBound u k) * √S := by
    have := (abs_le.1 h2).2
    linarith
  have h7 := mul_le_mul_of_nonneg_left h6 hA.nonneg
  rw [errBound_succ]
  linarith

end

/-! ### differences -/

section
variable {A : ArrArith K} {dt : DType} {k l : Nat} {a b e f : K} {m p : ℝ}

theorem Approx.grow (hu : 0 ≤ u) (h : Approx u k a e m) (hk : k ≤ l) (hm : m ≤ p) : Approx u l a e p :=
  ⟨h.err.trans (mul_le_mul (errBound_mono hu hk) hm h.nonneg (errBound_nonneg hu l)), h.mag.trans hm⟩

theorem Approx.leaf (hu : 0 ≤ u) (k : Nat) (h : ‖a‖ ≤ m) : Approx u k a a m := (Approx.exact a).grow hu (Nat.zero_le _) h

theorem ap_add (hA : ArrRounding A u) (h : Approx u k a e m) (h' : Approx u k b f p) : Approx u (k + 1) (A.add a b) (e + f) (m + p) := (h.plus h').round hA.nonneg (hA.add a b)

theorem ap_sub (hA : ArrRounding A u) (h : Approx u k a e m) (h' : Approx u k b f p) : Approx u (k + 1) (A.sub a b) (e - f) (m + p) := (h.minus h').round hA.nonneg (hA.sub a b)

theorem ap_half (hA : ArrRounding A u) (h : Approx u k a e m) : Approx u (k + 1) (A.mul A.half a) (1 / 2 * e) (m / 2) := by
  rw [hA.half]
  have h1 := ((Approx.exact (u := u) (1 / 2 : K)).times hA.nonneg h).round hA.nonneg (hA.mul (1 / 2) a)
  exact h1.grow hA.nonneg (by omega) (by simp; linarith)

theorem ap_two (hA : ArrRounding A u) (h : Approx u k a e m) : Approx u (k + 1) (A.mul A.two a) (2 * e) (2 * m) := by
  rw [hA.two]
  have h1 := ((Approx.exact (u := u) (2 : K)).times hA.nonneg h).round hA.nonneg (hA.mul 2 a)
  exact h1.grow hA.nonneg (by omega) (by simp)

theorem ap_three (hA : ArrRounding A u) (h : Approx u k a e m) : Approx u (k + 1) (A.div a A.three) (e / 3) (m / 3) := by
  rw [hA.three]
  have h1 := (h.over (3 : K)).round hA.nonneg (hA.div a 3 (by norm_num))
  exact h1.grow hA.nonneg le_rfl (by simp)

theorem ap_twelve (hA : ArrRounding A u) (h : Approx u k a e m) : Approx u (k + 1) (A.div a A.twelve) (e / 12) (m / 12) := by
  rw [hA.twelve]
  have h1 := (h.over (12 : K)).round hA.nonneg (hA.div a 12 (by norm_num))
  exact h1.grow hA.nonneg le_rfl (by simp)

theorem ap_div (hA : ArrRounding A u) {s : K} (hs : s ≠ 0) (h : Approx u k a e m) : Approx u (k + 1) (A.div a s) (e / s) (m / ‖s‖) := (h.over s).round hA.nonneg (hA.div a s hs)

theorem ap_cast (hA : ArrRounding A u) (hd : Stores A.toArith u dt) (h : Approx u k a e m) : Approx u (k + 1) (A.cast dt a) e m := h.round hA.nonneg (hd a)

theorem ap_orZero (hA : ArrRounding A u) (c : Prop) [Decidable c] (h : c → Approx u k a e m) (hm : 0 ≤ m) : Approx u k (A.orZero c a) (if c then e else 0) m := by
  unfold ArrArith.orZero
  split_ifs with hc
  · exact h hc
  · rw [hA.zero]
    exact (Approx.zero hA.nonneg k).grow hA.nonneg le_rfl hm

theorem ap_ite (c : Prop) [Decidable c] (h : c → Approx u k a e m) (h' : ¬ c → Approx u k b f m) : Approx u k (if c then a else b) (if c then e else f) m := by
  split_ifs with hc
  · exact h hc
  · exact h' hc

/-- a conditional step of a chain -/
theorem ap_stepAdd (hA : ArrRounding A u) (hd : Stores A.toArith u dt) (c : Prop) [Decidable c] (hy : Approx u k b f p) (hx : Approx u k a e m) :
    Approx u (k + 2) (A.step dt c A.add a b) (if c then f + e else f) (p + m) := by
  unfold ArrArith.step
  split_ifs with hc
  · exact ap_cast hA hd (ap_add hA hy hx)
  · exact hy.grow hA.nonneg (by omega) (by linarith [hx.nonneg])

theorem ap_stepSub (hA : ArrRounding A u) (hd : Stores A.toArith u dt) (c : Prop) [Decidable c] (hy : Approx u k b f p) (hx : Approx u k a e m) :
    Approx u (k + 2) (A.step dt c A.sub a b) (if c then f - e else f) (p + m) := by
  unfold ArrArith.step
  split_ifs with hc
  · exact ap_cast hA hd (ap_sub hA hy hx)
  · exact hy.grow hA.nonneg (by omega) (by linarith [hx.nonneg])

theorem ap_stepDiv (hA : ArrRounding A u) (hd : Stores A.toArith u dt) {s : K} (hs : s ≠ 0) (hy : Approx u k b f p) :
    Approx u (k + 2) (A.step dt True A.div s b) (f / s) (p / ‖s‖) := by
  unfold ArrArith.step
  rw [if_pos trivial]
  exact ap_cast hA hd (ap_div hA hs hy)

variable {edge : Bool} {N q : Nat} {s : K} {v : Nat → K} {M : ℝ}

theorem fdEntry_approx (hA : ArrRounding A u) (hd : Stores A.toArith u dt) (kd : FDKind) (hs : s ≠ 0) (hv : ∀ i, ‖v i‖ ≤ M) (hq : q < N) (hN : edge = true → 2 ≤ N) :
    Approx u 9 (A.fdEntry dt edge N s v q kd) (fdAt kd edge N v q / s) (2 * M / ‖s‖) := by
  have hu := hA.nonneg
  have hM : 0 ≤ M := (norm_nonneg _).trans (hv 0)
  have hf : ∀ k i, Approx u k (v i) (v i) M := fun k i => Approx.leaf hu k (hv i)
  have hsub : ∀ k i j, Approx u (k + 1) (A.sub (v i) (v j)) (v i - v j) (2 * M) := fun k i j => (ap_sub hA (hf k i) (hf k j)).grow hu le_rfl (by linarith)
  rw [← fdEntry_cplx kd hq hN]
  have hmid : ∀ i j, Approx u 2 (A.mul A.half (A.sub (v i) (v j))) (1 / 2 * (v i - v j)) (2 * M) := fun i j => (ap_half hA (hsub 0 i j)).grow hu le_rfl (by linarith)
  cases kd with
  | forward => exact (ap_cast hA hd (ap_div hA hs (ap_orZero hA _ (fun _ => hsub 0 _ _) (by linarith)))).grow hu (by omega) le_rfl
  | backward => exact (ap_cast hA hd (ap_div hA hs (ap_orZero hA _ (fun _ => hsub 0 _ _) (by linarith)))).grow hu (by omega) le_rfl
  | centered3 =>
    refine (ap_cast hA hd (ap_div hA hs (ap_cast hA hd (k := 2) ?_))).grow hu (by omega) le_rfl
    exact ap_ite _ (fun _ => hsub 1 _ _) fun _ => ap_ite _ (fun _ => hsub 1 _ _) fun _ => ap_orZero hA _ (fun _ => hmid _ _) (by linarith)
  | centered5 =>
    refine (ap_cast hA hd (ap_div hA hs (ap_cast hA hd (k := 6) ?_))).grow hu (by omega) le_rfl
    refine ap_ite _ (fun _ => hsub 5 _ _) fun _ => ap_ite _ (fun _ => hsub 5 _ _) fun _ => ap_ite _ (fun _ => (hmid _ _).grow hu (by omega) le_rfl) fun _ => ap_orZero hA _ (fun _ => ?_) (by linarith)
    have t : ∀ k i, Approx u (k + 2) (A.div (A.mul A.two (v i)) A.three) (2 * v i / 3) (2 * M / 3) := fun k i => ap_three hA (ap_two hA (hf k i))
    have w : ∀ k i, Approx u (k + 1) (A.div (v i) A.twelve) (v i / 12) (M / 12) := fun k i => ap_twelve hA (hf k i)
    exact (ap_sub hA (ap_add hA (ap_sub hA (w 1 _) (t 0 _)) (t 1 _)) (w 3 _)).grow hu (by omega) (by linarith)

theorem sdEntry_approx (hA : ArrRounding A u) (hd : Stores A.toArith u dt) (kd : SDKind) (hs : s ≠ 0) (hv : ∀ i, ‖v i‖ ≤ M) (hq : q < N) (hN : edge = true → 2 ≤ N) :
    Approx u 6 (A.sdEntry dt edge N s v q kd) (sdAt kd edge N v q / s) (4 * M / ‖s‖) := by
  have hu := hA.nonneg
  have hM : 0 ≤ M := (norm_nonneg _).trans (hv 0)
  have hf : ∀ k i, Approx u k (v i) (v i) M := fun k i => Approx.leaf hu k (hv i)
  have h3 : ∀ i j l, Approx u 3 (A.add (A.sub (v i) (A.mul A.two (v j))) (v l)) (v i - 2 * v j + v l) (4 * M) := fun i j l =>
    (ap_add hA (ap_sub hA (hf 1 i) (ap_two hA (hf 0 j))) (hf 2 l)).grow hu le_rfl (by linarith)
  rw [← sdEntry_cplx kd hq hN]
  cases kd with
  | forward => exact (ap_cast hA hd (ap_div hA hs (ap_orZero hA _ (fun _ => h3 _ _ _) (by linarith)))).grow hu (by omega) le_rfl
  | backward => exact (ap_cast hA hd (ap_div hA hs (ap_orZero hA _ (fun _ => h3 _ _ _) (by linarith)))).grow hu (by omega) le_rfl
  | centered =>
    refine (ap_cast hA hd (ap_div hA hs (ap_cast hA hd (k := 3) ?_))).grow hu (by omega) le_rfl
    exact ap_ite _ (fun _ => h3 _ _ _) fun _ => ap_ite _ (fun _ => h3 _ _ _) fun _ => ap_orZero hA _ (fun _ => h3 _ _ _) (by linarith)

theorem ap_stepAdd' (hA : ArrRounding A u) (hd : Stores A.toArith u dt) (c : Prop) [Decidable c] (hy : Approx u k b f p) (hx : Approx u k a e m) :
    Approx u (k + 2) (A.step dt c A.add a b) (ArrArith.exact.step .cplx c ArrArith.exact.add e f) (p + m) := ap_stepAdd hA hd c hy hx

theorem ap_stepSub' (hA : ArrRounding A u) (hd : Stores A.toArith u dt) (c : Prop) [Decidable c] (hy : Approx u k b f p) (hx : Approx u k a e m) :
    Approx u (k + 2) (A.step dt c A.sub a b) (ArrArith.exact.step .cplx c ArrArith.exact.sub e f) (p + m) := ap_stepSub hA hd c hy hx

theorem ap_start (hA : ArrRounding A u) (hd : Stores A.toArith u dt) (k : Nat) : Approx u k (A.cast dt A.zero) (ArrArith.exact.cast .cplx ArrArith.exact.zero : K) 0 := by
  have h := hd 0
  unfold Rounded at h
  have h0 : A.cast dt 0 = 0 := by simpa using h
  rw [hA.zero, h0]
  exact Approx.zero hA.nonneg k

theorem fdEntryAdj_approx (hA : ArrRounding A u) (hd : Stores A.toArith u dt) (kd : FDKind) (hs : s ≠ 0) (hv : ∀ i, ‖v i‖ ≤ M) :
    Approx u 24 (A.fdEntryAdj dt edge N s v q kd) (fdAdj kd edge N v q / s) (8 * M / ‖s‖) := by
  have hu := hA.nonneg
  have hM : 0 ≤ M := (norm_nonneg _).trans (hv 0)
  have hf : ∀ k i, Approx u k (v i) (v i) M := fun k i => Approx.leaf hu k (hv i)
  have hz : ∀ {k a e m} (c : Prop) [Decidable c], Approx u k a e m → Approx u k (A.orZero c a) (if c then e else 0) m := fun c _ h => ap_orZero hA c (fun _ => h) h.nonneg
  have hh : ∀ k i, Approx u (k + 1) (A.mul A.half (v i)) (1 / 2 * v i) (M / 2) := fun k i => ap_half hA (hf k i)
  have t : ∀ k i, Approx u (k + 2) (A.div (A.mul A.two (v i)) A.three) (2 * v i / 3) (2 * M / 3) := fun k i => ap_three hA (ap_two hA (hf k i))
  have w : ∀ k i, Approx u (k + 1) (A.div (v i) A.twelve) (v i / 12) (M / 12) := fun k i => ap_twelve hA (hf k i)
  have hd8 : ∀ {a e m}, Approx u 22 a e m → m ≤ 8 * M → Approx u 24 (A.step dt True A.div s a) (e / s) (8 * M / ‖s‖) := fun h hm =>
    (ap_stepDiv hA hd hs h).grow hu le_rfl (div_le_div_of_nonneg_right hm (norm_nonneg _))
  rw [← fdEntryAdj_cplx kd]
  cases kd with
  | forward =>
    refine hd8 (m := 0 + M + M) ?_ (by linarith)
    exact ap_stepAdd' hA hd _ (ap_stepSub' hA hd _ (ap_start hA hd 18) (hf _ _)) (hz _ (hf _ _))
  | backward =>
    refine hd8 (m := 0 + M + M) ?_ (by linarith)
    exact ap_stepAdd' hA hd _ (ap_stepSub' hA hd _ (ap_start hA hd 18) (hz _ (hf _ _))) (hf _ _)
  | centered3 =>
    refine hd8 (m := 0 + M / 2 + M / 2 + M + M + M + M) ?_ (by linarith)
    exact ap_stepAdd' hA hd _ (ap_stepSub' hA hd _ (ap_stepAdd' hA hd _ (ap_stepSub' hA hd _ (ap_stepAdd' hA hd _ (ap_stepSub' hA hd _ (ap_start hA hd 10) (hz _ (hh 9 _))) (hz _ (hh 11 _)))
      (hf _ _)) (hf _ _)) (hf _ _)) (hf _ _)
  | centered5 =>
    refine hd8 (m := 0 + M / 12 + 2 * M / 3 + 2 * M / 3 + M / 12 + (M + M / 2) + M + M / 2 + M / 2 + M + (M / 2 + M)) ?_ (by linarith)
    exact ap_stepAdd' hA hd _ (ap_stepSub' hA hd _ (ap_stepSub' hA hd _ (ap_stepAdd' hA hd _ (ap_stepAdd' hA hd _ (ap_stepSub' hA hd _ (ap_stepSub' hA hd _ (ap_stepAdd' hA hd _ (ap_stepSub' hA hd _
      (ap_stepAdd' hA hd _ (ap_start hA hd 2) (hz _ (w 1 _))) (hz _ (t 2 _))) (hz _ (t 4 _))) (hz _ (w 7 _))) (ap_add hA (hf 9 _) (hh 8 _))) (hf _ _)) (hh 13 _)) (hh 15 _)) (hf _ _))
      (ap_add hA (hh 18 _) (hf 19 _))

theorem sdEntryAdj_approx (hA : ArrRounding A u) (hd : Stores A.toArith u dt) (kd : SDKind) (hs : s ≠ 0) (hv : ∀ i, ‖v i‖ ≤ M) :
    Approx u 20 (A.sdEntryAdj dt edge N s v q kd) (sdAdj kd edge N v q / s) (12 * M / ‖s‖) := by
  have hu := hA.nonneg
  have hM : 0 ≤ M := (norm_nonneg _).trans (hv 0)
  have hf : ∀ k i, Approx u k (v i) (v i) M := fun k i => Approx.leaf hu k (hv i)
  have hz : ∀ {k a e m} (c : Prop) [Decidable c], Approx u k a e m → Approx u k (A.orZero c a) (if c then e else 0) m := fun c _ h => ap_orZero hA c (fun _ => h) h.nonneg
  have h2 : ∀ k i, Approx u (k + 1) (A.mul A.two (v i)) (2 * v i) (2 * M) := fun k i => ap_two hA (hf k i)
  have hd8 : ∀ {a e m}, Approx u 18 a e m → m ≤ 12 * M → Approx u 20 (A.step dt True A.div s a) (e / s) (12 * M / ‖s‖) := fun h hm =>
    (ap_stepDiv hA hd hs h).grow hu le_rfl (div_le_div_of_nonneg_right hm (norm_nonneg _))
  rw [← sdEntryAdj_cplx kd]
  cases kd with
  | forward =>
    refine hd8 (m := 0 + M + 2 * M + M) ?_ (by linarith)
    exact ap_stepAdd' hA hd _ (ap_stepSub' hA hd _ (ap_stepAdd' hA hd _ (ap_start hA hd 12) (hf _ _)) (ap_two hA (k := 13) (hz _ (hf _ _)))) (hz _ (hf _ _))
  | backward =>
    refine hd8 (m := 0 + M + 2 * M + M) ?_ (by linarith)
    exact ap_stepAdd' hA hd _ (ap_stepSub' hA hd _ (ap_stepAdd' hA hd _ (ap_start hA hd 12) (hz _ (hf _ _))) (hz _ (h2 13 _))) (hf _ _)
  | centered =>
    refine hd8 (m := 0 + M + 2 * M + M + M + 2 * M + M + M + 2 * M + M) ?_ (by linarith)
    exact ap_stepAdd' hA hd _ (ap_stepSub' hA hd _ (ap_stepAdd' hA hd _ (ap_stepAdd' hA hd _ (ap_stepSub' hA hd _ (ap_stepAdd' hA hd _ (ap_stepAdd' hA hd _ (ap_stepSub' hA hd _
      (ap_stepAdd' hA hd _ (ap_start hA hd 0) (hz _ (hf _ _))) (hz _ (h2 1 _))) (hz _ (hf _ _))) (hf _ _)) (h2 7 _)) (hf _ _)) (hf _ _)) (h2 13 _)) (hf _ _)

end

/-! ### sums of products -/

section
variable {A : OpArith K} {M : FOp K → Nat → Nat → K} {b : Bool} {t : DType} {k N j : Nat}

/-- results of the operators on consecutive slices, each with its exact terms -/
def pairUp (M : FOp K → Nat → Nat → K) (b : Bool) (t : DType) (j : Nat) : List (FOp K) → List K → List (List K × List K)
  | [], _ => []
  | o :: os, v => ((o.on t).fn b (v.take (o.inDim b)), rowTerms (M o) (o.inDim b) j (v.take (o.inDim b))) :: pairUp M b t j os (v.drop (o.inDim b))

theorem pairUp_fst (os : List (FOp K)) : ∀ v, (pairUp M b t j os v).map Prod.fst = slices b (os.map (·.on t)) v := by
  induction os with
  | nil => intro v; rfl
  | cons o os ih => intro v; simp only [pairUp, List.map_cons, slices, ih, inDim_on]

theorem pairUp_snd (os : List (FOp K)) : ∀ v, ((pairUp M b t j os v).map Prod.snd).flatten = sideTerms M b j os v := by
  induction os with
  | nil => intro v; rfl
  | cons o os ih => intro v; simp only [pairUp, List.map_cons, List.flatten_cons, sideTerms, ih]

theorem length_pairUp (os : List (FOp K)) : ∀ v, (pairUp M b t j os v).length = os.length := by
  induction os with
  | nil => intro v; rfl
  | cons o os ih => intro v; simp only [pairUp, List.length_cons, ih]

theorem norm_sum_terms (terms : List K) : ‖terms.sum‖ ≤ (terms.map (‖·‖)).sum := by
  induction terms with
  | nil => simp
  | cons x l ih =>
    rw [List.sum_cons, List.map_cons, List.sum_cons]
    exact (norm_add_le _ _).trans (by linarith)

theorem SumUpTo.approx {terms : List K} {a : K} (h : SumUpTo u k terms a) : Approx u k a terms.sum (terms.map (‖·‖)).sum := ⟨h, norm_sum_terms terms⟩

theorem pairUp_approx (os : List (FOp K)) : ∀ v : List K, fopIn b os ≤ v.length → (∀ o ∈ os, o.Multiplies u k b t (M o) ∧ o.inDim (!b) = N) → j < N → ∀ p ∈ pairUp M b t j os v,
    p.1.length = N ∧ Approx u k (p.1.getD j 0) p.2.sum (p.2.map (‖·‖)).sum := by
  induction os with
  | nil => intro v _ _ _ p hp; cases hp
  | cons o os ih =>
    intro v hv ho hj p hp
    have hv' : o.inDim b + fopIn b os ≤ v.length := by simpa [fopIn] using hv
    rcases List.mem_cons.1 hp with rfl | hp
    · obtain ⟨h1, h2⟩ := ho o (by simp)
      obtain ⟨h3, h4⟩ := h1 (v.take (o.inDim b)) (by rw [List.length_take]; omega)
      exact ⟨h3.trans h2, (h4 j (by omega)).approx⟩
    · exact ih (v.drop (o.inDim b)) (by rw [List.length_drop]; omega) (fun o h => ho o (by simp [h])) hj p hp

theorem sum_flat {α : Type} [AddCommMonoid α] (f : K → α) (ls : List (List K)) : (ls.map fun l => (l.map f).sum).sum = (ls.flatten.map f).sum := by
  rw [List.map_flatten, List.sum_flatten, List.map_map]; rfl

/-- the sum of the results of one group -/
theorem group_approx (hA : OpRounding A u) {g : List (FOp K)} {v : List K} {w : Nat} (hv : fopIn b g ≤ v.length) (hg : ∀ o ∈ g, o.Multiplies u k b t (M o) ∧ o.inDim (!b) = N) (hj : j < N)
    (hw : g.length ≤ w) : Approx u (k + (w - 1)) (A.sumRows (slices b (g.map (·.on t)) v) j) (sideTerms M b j g v).sum ((sideTerms M b j g v).map (‖·‖)).sum := by
  have hp := pairUp_approx (M := M) (t := t) g v hv hg hj
  have hr := hA.sumRows (slices b (g.map (·.on t)) v) j fun r hr => by
    rw [← pairUp_fst (M := M) (j := j)] at hr
    obtain ⟨p, h1, rfl⟩ := List.mem_map.1 hr
    rw [(hp p h1).1]
    exact hj
  rw [← pairUp_fst (M := M) (j := j), List.map_map] at hr
  have := hr.near hA.nonneg (T := pairUp M b t j g v) (a := fun p => p.1.getD j 0) (e := fun p => p.2.sum) (m := fun p => (p.2.map (‖·‖)).sum) rfl fun p h => (hp p h).2
  have s1 := sum_flat (fun z : K => z) ((pairUp M b t j g v).map Prod.snd)
  have s2 := sum_flat (fun z : K => ‖z‖) ((pairUp M b t j g v).map Prod.snd)
  rw [pairUp_snd, List.map_map] at s1 s2
  simp only [List.map_id', Function.comp_def] at s1 s2
  rw [s1, s2] at this
  rw [← pairUp_fst (M := M) (j := j)]
  refine this.weaken hA.nonneg ?_
  rw [List.length_map, length_pairUp]
  omega

theorem sideTerms_append (g os : List (FOp K)) : ∀ v : List K, sideTerms M b j (g ++ os) v = sideTerms M b j g v ++ sideTerms M b j os (v.drop (fopIn b g)) := by
  induction g with
  | nil => intro v; simp [sideTerms, fopIn]
  | cons o g ih =>
    intro v
    simp only [List.cons_append, sideTerms, ih, List.append_assoc, List.drop_drop]
    simp [fopIn]

/-- sums in the groups and their exact terms -/
def groupUp (A : OpArith K) (M : FOp K → Nat → Nat → K) (b : Bool) (t : DType) (N j : Nat) : List (List (FOp K)) → List K → List (List K × List K)
  | [], _ => []
  | g :: gs, v => ((List.range N).map (A.sumRows (slices b (g.map (·.on t)) v)), sideTerms M b j g v) :: groupUp A M b t N j gs (v.drop (fopIn b g))

theorem groupUp_fst (gs : List (List (FOp K))) : ∀ v, (groupUp A M b t N j gs v).map Prod.fst = (OpArith.groupSlices b t gs v).map fun rows => (List.range N).map (A.sumRows rows) := by
  induction gs with
  | nil => intro v; rfl
  | cons g gs ih => intro v; simp only [groupUp, List.map_cons, OpArith.groupSlices, ih]

theorem groupUp_snd (gs : List (List (FOp K))) : ∀ v, ((groupUp A M b t N j gs v).map Prod.snd).flatten = sideTerms M b j gs.flatten v := by
  induction gs with
  | nil => intro v; rfl
  | cons g gs ih => intro v; simp only [groupUp, List.map_cons, List.flatten_cons, sideTerms_append, ih]

theorem length_groupUp (gs : List (List (FOp K))) : ∀ v, (groupUp A M b t N j gs v).length = gs.length := by
  induction gs with
  | nil => intro v; rfl
  | cons g gs ih => intro v; simp only [groupUp, List.length_cons, ih]

theorem groupUp_approx (hA : OpRounding A u) {w : Nat} (gs : List (List (FOp K))) : ∀ v : List K, fopIn b gs.flatten ≤ v.length → (∀ g ∈ gs, g.length ≤ w) →
    (∀ g ∈ gs, ∀ o ∈ g, o.Multiplies u k b t (M o) ∧ o.inDim (!b) = N) → j < N → ∀ p ∈ groupUp A M b t N j gs v, p.1.length = N ∧ Approx u (k + (w - 1)) (p.1.getD j 0) p.2.sum (p.2.map (‖·‖)).sum := by
  induction gs with
  | nil => intro v _ _ _ _ p hp; cases hp
  | cons g gs ih =>
    intro v hv hw hg hj p hp
    have hv' : fopIn b g + fopIn b gs.flatten ≤ v.length := by simpa [fopIn] using hv
    rcases List.mem_cons.1 hp with rfl | hp
    · refine ⟨by simp, ?_⟩
      have := group_approx hA (v := v) (by omega) (hg g (by simp)) hj (hw g (by simp))
      simpa [List.getD_eq_getElem?_getD, hj] using this
    · exact ih _ (by rw [List.length_drop]; omega) (fun g h => hw g (by simp [h])) (fun g h => hg g (by simp [h])) hj p hp

/-- the sum over the groups -/
theorem sumArr_approx (hA : OpRounding A u) {gs : List (List (FOp K))} {v : List K} {w : Nat} (hv : fopIn b gs.flatten ≤ v.length) (hw : ∀ g ∈ gs, g.length ≤ w)
    (hg : ∀ g ∈ gs, ∀ o ∈ g, o.Multiplies u k b t (M o) ∧ o.inDim (!b) = N) (hj : j < N) :
    Approx u (k + (w - 1) + (gs.length - 1)) (A.sumArr ((OpArith.groupSlices b t gs v).map fun rows => (List.range N).map (A.sumRows rows)) j) (sideTerms M b j gs.flatten v).sum
      ((sideTerms M b j gs.flatten v).map (‖·‖)).sum := by
  have hp := groupUp_approx (M := M) hA gs v hv hw hg hj
  rw [← groupUp_fst (M := M) (j := j)]
  have hr := hA.sumArr ((groupUp A M b t N j gs v).map Prod.fst) j fun r hr => by
    obtain ⟨p, h1, rfl⟩ := List.mem_map.1 hr
    rw [(hp p h1).1]
    exact hj
  rw [List.map_map] at hr
  have := hr.near hA.nonneg (T := groupUp A M b t N j gs v) (a := fun p => p.1.getD j 0) (e := fun p => p.2.sum) (m := fun p => (p.2.map (‖·‖)).sum) rfl fun p h => (hp p h).2
  have s1 := sum_flat (fun z : K => z) ((groupUp A M b t N j gs v).map Prod.snd)
  have s2 := sum_flat (fun z : K => ‖z‖) ((groupUp A M b t N j gs v).map Prod.snd)
  rw [groupUp_snd, List.map_map] at s1 s2
  simp only [List.map_id', Function.comp_def] at s1 s2
  rw [s1, s2, List.length_map, length_groupUp] at this
  exact this

end

end Verif

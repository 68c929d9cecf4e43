/-
  Proofs about the gap between the updated residual and the true one.
-/
import Verif.Spec.Gap
import Verif.Proofs.Rounding
import Verif.Proofs.BlockSolvers
import Mathlib.Analysis.InnerProductSpace.PiL2

namespace Verif

variable {K : Type} [RCLike K] {u : ℝ} {A : Arith K}

theorem list_range_sum {α : Type} [AddCommMonoid α] (f : Nat → α) (c : Nat) : ((List.range c).map f).sum = ∑ i ∈ Finset.range c, f i := by
  induction c with
  | zero => simp
  | succ c ih => rw [List.range_succ, List.map_append, List.sum_append, Finset.sum_range_succ, ih]; simp

theorem row_sum (M : Nat → Nat → K) (c j : Nat) (v : List K) : (rowTerms M c j v).sum = ∑ i ∈ Finset.range c, M j i * v.getD i 0 := list_range_sum _ _

theorem row_abs (M : Nat → Nat → K) (c j : Nat) (v : List K) : ((rowTerms M c j v).map (‖·‖)).sum = ∑ i ∈ Finset.range c, ‖M j i‖ * ‖v.getD i 0‖ := by
  rw [rowTerms, List.map_map, list_range_sum]
  exact Finset.sum_congr rfl fun i _ => norm_mul _ _

theorem getD_vmap (f : K → K) (x : SVec K) {j : Nat} (hj : j < x.v.length) : (x.map A f).v.getD j 0 = A.cast x.dt (f (x.v.getD j 0)) := by
  have h : j < (x.map A f).v.length := by rwa [SVec.length_map]
  rw [List.getD_eq_getElem _ _ h, List.getD_eq_getElem _ _ hj]
  simp [SVec.map]

theorem getD_vzip (f : K → K → K) (x y : SVec K) {j : Nat} (hj : j < x.v.length) (hj' : j < y.v.length) : (x.zip A f y).v.getD j 0 = A.cast x.dt (f (x.v.getD j 0) (y.v.getD j 0)) := by
  have h : j < (x.zip A f y).v.length := by simp [SVec.zip, hj, hj']
  rw [List.getD_eq_getElem _ _ h, List.getD_eq_getElem _ _ hj, List.getD_eq_getElem _ _ hj']
  simp [SVec.zip]

namespace SolverRounding

variable (hA : SolverRounding A u)
include hA

theorem cast_ap {dt : DType} (hd : Stores A u dt) {k : Nat} {a e : K} {m : ℝ} (h : Approx u k a e m) : Approx u (k + 1) (A.cast dt a) e m := h.round hA.nonneg (hd a)

theorem scale_ap {dt : DType} (hd : Stores A u dt) {k : Nat} {q e : K} {m : ℝ} (h : Approx u k q e m) (a : K) : Approx u (k + 2) (A.cast dt (A.mul q a)) (e * a) (m * ‖a‖) :=
  hA.cast_ap hd ((h.times hA.nonneg (.exact a)).round hA.nonneg (hA.mul q a))

theorem neg_ap {dt : DType} (hd : Stores A u dt) {k : Nat} {q e : K} {m : ℝ} (h : Approx u k q e m) : Approx u (k + 1) (A.cast dt (A.neg q)) (-e) m := by
  refine hA.cast_ap hd ?_
  rw [hA.neg]
  exact ⟨by rw [← neg_sub', norm_neg]; exact h.err, by rw [norm_neg]; exact h.mag⟩

theorem add_ap {dt : DType} (hd : Stores A u dt) {k : Nat} {p e : K} {m : ℝ} (h : Approx u k p e m) (x : K) : Approx u (k + 2) (A.cast dt (A.add x p)) (x + e) (‖x‖ + m) :=
  hA.cast_ap hd (((Approx.exact x).weaken hA.nonneg (Nat.zero_le k) |>.plus h).round hA.nonneg (hA.add x p))

end SolverRounding

/-- one step changes the iterate and the residual as it should, up to rounding errors -/
theorem x_step (hA : SolverRounding A u) {N : Nat} {x c : SVec K} (hx : x.v.length = N) (hc : c.v.length = N) (dx : Stores A u x.dt) (dc : Stores A u c.dt) (a : K) {j : Nat} (hj : j < N) :
    ‖(x.add A (c.scale A a)).v.getD j 0 - (x.v.getD j 0 + c.v.getD j 0 * a)‖ ≤ errBound u 4 * (‖x.v.getD j 0‖ + ‖c.v.getD j 0‖ * ‖a‖) := by
  rw [SVec.add, getD_vzip _ _ _ (hx ▸ hj) (by rw [SVec.length_scale A a hc]; exact hj), SVec.scale, getD_vmap _ _ (hc ▸ hj)]
  exact (hA.add_ap dx (hA.scale_ap dc (.exact _) a) _).err

theorem r_step (hA : SolverRounding A u) {N cols k : Nat} {r q : SVec K} {M : Nat → Nat → K} {c : List K} (hr : r.v.length = N) (hq : q.v.length = N) (dr : Stores A u r.dt) (dq : Stores A u q.dt) (a : K) {j : Nat} (hj : j < N)
    (h : SumUpTo u k (rowTerms M cols j c) (q.v.getD j 0)) :
    ‖(r.sub A (q.scale A a)).v.getD j 0 - (r.v.getD j 0 - (rowTerms M cols j c).sum * a)‖ ≤ errBound u (k + 5) * (‖r.v.getD j 0‖ + ((rowTerms M cols j c).map (‖·‖)).sum * ‖a‖) := by
  rw [SVec.sub, SVec.add, getD_vzip _ _ _ (hr ▸ hj) (by rw [SVec.length_map, SVec.length_scale A a hq]; exact hj), getD_vmap _ _ (by rw [SVec.length_scale A a hq]; exact hj), SVec.scale, getD_vmap _ _ (hq ▸ hj),
    sub_eq_add_neg (r.v.getD j 0)]
  exact (hA.add_ap dr (hA.neg_ap (dt := q.dt) dq (hA.scale_ap dq h.approx a)) _).err

theorem r_start (hA : SolverRounding A u) {N cols k : Nat} {y q : SVec K} {M : Nat → Nat → K} {x : List K} (hy : y.v.length = N) (hq : q.v.length = N) (dy : Stores A u y.dt) (dq : Stores A u q.dt) {j : Nat} (hj : j < N)
    (h : SumUpTo u k (rowTerms M cols j x) (q.v.getD j 0)) :
    ‖(y.sub A q).v.getD j 0 - (y.v.getD j 0 - (rowTerms M cols j x).sum)‖ ≤ errBound u (k + 3) * (‖y.v.getD j 0‖ + ((rowTerms M cols j x).map (‖·‖)).sum) := by
  rw [SVec.sub, SVec.add, getD_vzip _ _ _ (hy ▸ hj) (by rw [SVec.length_map]; omega), getD_vmap _ _ (hq ▸ hj), sub_eq_add_neg (y.v.getD j 0)]
  exact (hA.add_ap dy (hA.neg_ap (dt := q.dt) dq h.approx) _).err

/-- what CG and CGLS have in common: the iterates, the residuals, the directions and the step lengths -/
structure Steps (A : Arith K) (F : SVec K → SVec K) (D : DType → Prop) (N N' : Nat) (y x0 : SVec K) (m : Nat) (x s c : Nat → SVec K) (a : Nat → K) : Prop where
  x_zero : x 0 = x0.copy A
  s_zero : s 0 = y.sub A (F (x 0))
  x_succ : ∀ i < m, x (i + 1) = (x i).add A ((c i).scale A (a i))
  s_succ : ∀ i < m, s (i + 1) = (s i).sub A ((F (c i)).scale A (a i))
  c_len : ∀ i < m, (c i).v.length = N
  c_dt : ∀ i < m, D (c i).dt

section
variable {F : SVec K → SVec K} {D D' : DType → Prop} {N N' k m : Nat} {y x0 : SVec K} {x s c : Nat → SVec K} {a : Nat → K} {M : Nat → Nat → K} {X : Nat → ℝ}

theorem Steps.facts (h : Steps A F D N N' y x0 m x s c a) (hF : ∀ v : SVec K, v.v.length = N → D v.dt → (F v).v.length = N') (hy : y.v.length = N') (hx : x0.v.length = N) (dx : D x0.dt) :
    ∀ i ≤ m, (x i).v.length = N ∧ (s i).v.length = N' ∧ (x i).dt = x0.dt ∧ (s i).dt = y.dt := by
  intro i
  induction i with
  | zero =>
    intro _
    have h1 : (x 0).v.length = N := by rw [h.x_zero]; exact SVec.length_copy A hx
    have h2 : (x 0).dt = x0.dt := by rw [h.x_zero]; rfl
    exact ⟨h1, by rw [h.s_zero]; exact SVec.length_sub A hy (hF _ h1 (h2 ▸ dx)), h2, by rw [h.s_zero]; rfl⟩
  | succ i ih =>
    intro hi
    obtain ⟨h1, h2, h3, h4⟩ := ih (by omega)
    have h5 := h.c_len i (by omega)
    exact ⟨by rw [h.x_succ i (by omega)]; exact SVec.length_add A h1 (SVec.length_scale A _ h5),
      by rw [h.s_succ i (by omega)]; exact SVec.length_sub A h2 (SVec.length_scale A _ (hF _ h5 (h.c_dt i (by omega)))), by rw [h.x_succ i (by omega)]; exact h3, by rw [h.s_succ i (by omega)]; exact h4⟩

/-- the updated residual is the true one up to rounding errors -/
theorem Steps.gap (h : Steps A F D N N' y x0 m x s c a) (hA : SolverRounding A u) (hu : errBound u 4 ≤ 1 / 2) (hD : ∀ dt, D dt → Stores A u dt) (hD' : ∀ dt, D' dt → Stores A u dt)
    (hF : ∀ v : SVec K, v.v.length = N → D v.dt → (F v).v.length = N') (hM : MulUpTo u k D D' F M N' N) (hy : y.v.length = N') (hx : x0.v.length = N) (dy : D' y.dt) (dx : D x0.dt)
    (hX : ∀ i ≤ m, ∀ j < N, ‖(x i).v.getD j 0‖ ≤ X j) {j : Nat} (hj : j < N') :
    ∀ i ≤ m, ‖(s i).v.getD j 0 - (y.v.getD j 0 - (rowTerms M N j (x i).v).sum)‖ ≤ 12 * errBound u ((k + 5) * (i + 1)) * (‖y.v.getD j 0‖ + ∑ l ∈ Finset.range N, ‖M j l‖ * X l) := by
  have hf := h.facts hF hy hx dx
  set B := ‖y.v.getD j 0‖ + ∑ l ∈ Finset.range N, ‖M j l‖ * X l with hB
  set E := errBound u (k + 5) with hE
  have hu0 := hA.nonneg
  have hE0 : 0 ≤ E := errBound_nonneg hu0 _
  have hX0 : ∀ i ≤ m, ((rowTerms M N j (x i).v).map (‖·‖)).sum ≤ ∑ l ∈ Finset.range N, ‖M j l‖ * X l := by
    intro i hi
    rw [row_abs]
    exact Finset.sum_le_sum fun l hl => mul_le_mul_of_nonneg_left (hX i hi l (Finset.mem_range.1 hl)) (norm_nonneg _)
  have hMX : 0 ≤ ∑ l ∈ Finset.range N, ‖M j l‖ * X l := (List.sum_nonneg (by simp)).trans (hX0 0 (Nat.zero_le _))
  have hB0 : 0 ≤ B := add_nonneg (norm_nonneg _) hMX
  have pw : ∀ i, 12 * errBound u ((k + 5) * (i + 1 + 1)) = (1 + E) * (12 * errBound u ((k + 5) * (i + 1))) + 12 * E := by
    intro i
    have e := errBound_add (u := u) (k + 5) ((k + 5) * (i + 1))
    rw [show (k + 5) * (i + 1 + 1) = k + 5 + (k + 5) * (i + 1) by ring]
    rw [← hE] at e
    linarith
  intro i
  induction i with
  | zero =>
    intro _
    obtain ⟨h1, h2, h3, h4⟩ := hf 0 (Nat.zero_le _)
    have hq := hM (x 0) h1 (h3 ▸ dx)
    have key := r_start hA (y := y) (q := F (x 0)) hy (hF _ h1 (h3 ▸ dx)) (hD' _ dy) (hD' _ hq.1) hj (hq.2 j hj)
    rw [h.s_zero]
    refine key.trans ?_
    have e1 : errBound u (k + 3) ≤ E := errBound_mono hu0 (by omega)
    have e2 : ‖y.v.getD j 0‖ + ((rowTerms M N j (x 0).v).map (‖·‖)).sum ≤ B := by linarith [hX0 0 (Nat.zero_le _)]
    have e3 : errBound u ((k + 5) * (0 + 1)) = E := by rw [hE]; congr 1; ring
    rw [e3]
    have e4 := mul_le_mul e1 e2 (add_nonneg (norm_nonneg _) (List.sum_nonneg (by simp))) hE0
    nlinarith
  | succ i ih =>
    intro hi
    have g := ih (by omega)
    obtain ⟨h1, h2, h3, h4⟩ := hf i (by omega)
    have h5 := h.c_len i (by omega)
    have h6 := h.c_dt i (by omega)
    have hq := hM (c i) h5 h6
    have k1 := r_step hA (r := s i) h2 (hF _ h5 h6) (h4 ▸ hD' _ dy) (hD' _ hq.1) (a i) hj (hq.2 j hj)
    rw [← h.s_succ i (by omega)] at k1
    have k2 : ∀ l < N, ‖(x (i + 1)).v.getD l 0 - ((x i).v.getD l 0 + (c i).v.getD l 0 * a i)‖ ≤ errBound u 4 * (‖(x i).v.getD l 0‖ + ‖(c i).v.getD l 0‖ * ‖a i‖) := by
      intro l hl
      rw [h.x_succ i (by omega)]
      exact x_step hA h1 h5 (h3 ▸ hD _ dx) (hD _ h6) (a i) hl
    -- the step is at most five times as long as the iterates
    have k3 : ∀ l < N, ‖(c i).v.getD l 0‖ * ‖a i‖ ≤ 5 * X l := by
      intro l hl
      have a1 := k2 l hl
      have a2 := hX i (by omega) l hl
      have a3 := hX (i + 1) hi l hl
      have a4 : ‖(c i).v.getD l 0‖ * ‖a i‖ ≤ ‖(x (i + 1)).v.getD l 0‖ + ‖(x i).v.getD l 0‖ + ‖(x (i + 1)).v.getD l 0 - ((x i).v.getD l 0 + (c i).v.getD l 0 * a i)‖ := by
        rw [← norm_mul]
        have : (c i).v.getD l 0 * a i = (x (i + 1)).v.getD l 0 - (x i).v.getD l 0 - ((x (i + 1)).v.getD l 0 - ((x i).v.getD l 0 + (c i).v.getD l 0 * a i)) := by ring
        exact (congrArg norm this).le.trans ((norm_sub_le _ _).trans (add_le_add (norm_sub_le _ _) le_rfl))
      have a5 : errBound u 4 * (‖(x i).v.getD l 0‖ + ‖(c i).v.getD l 0‖ * ‖a i‖) ≤ 1 / 2 * (‖(x i).v.getD l 0‖ + ‖(c i).v.getD l 0‖ * ‖a i‖) :=
        mul_le_mul_of_nonneg_right hu (by positivity)
      linarith
    have k4 : ((rowTerms M N j (c i).v).map (‖·‖)).sum * ‖a i‖ ≤ 5 * ∑ l ∈ Finset.range N, ‖M j l‖ * X l := by
      rw [row_abs, Finset.sum_mul, Finset.mul_sum]
      refine Finset.sum_le_sum fun l hl => ?_
      have := mul_le_mul_of_nonneg_left (k3 l (Finset.mem_range.1 hl)) (norm_nonneg (M j l))
      linarith
    have k5 : ‖(rowTerms M N j (x (i + 1)).v).sum - ((rowTerms M N j (x i).v).sum + (rowTerms M N j (c i).v).sum * a i)‖ ≤ E * (6 * ∑ l ∈ Finset.range N, ‖M j l‖ * X l) := by
      rw [row_sum, row_sum, row_sum, Finset.sum_mul, ← Finset.sum_add_distrib, ← Finset.sum_sub_distrib]
      refine (norm_sum_le _ _).trans ?_
      rw [Finset.mul_sum, Finset.mul_sum]
      refine Finset.sum_le_sum fun l hl => ?_
      have hl' := Finset.mem_range.1 hl
      rw [show M j l * (x (i + 1)).v.getD l 0 - (M j l * (x i).v.getD l 0 + M j l * (c i).v.getD l 0 * a i) = M j l * ((x (i + 1)).v.getD l 0 - ((x i).v.getD l 0 + (c i).v.getD l 0 * a i)) by ring, norm_mul]
      have b1 : ‖(x i).v.getD l 0‖ + ‖(c i).v.getD l 0‖ * ‖a i‖ ≤ 6 * X l := by linarith [k3 l hl', hX i (by omega) l hl']
      have b2 : errBound u 4 ≤ E := errBound_mono hu0 (by omega)
      have b3 := (k2 l hl').trans (mul_le_mul b2 b1 (by positivity) hE0)
      have b4 := mul_le_mul_of_nonneg_left b3 (norm_nonneg (M j l))
      linarith
    have k6 : ‖(s i).v.getD j 0‖ ≤ ‖(s i).v.getD j 0 - (y.v.getD j 0 - (rowTerms M N j (x i).v).sum)‖ + B := by
      have c1 : (s i).v.getD j 0 = ((s i).v.getD j 0 - (y.v.getD j 0 - (rowTerms M N j (x i).v).sum)) + (y.v.getD j 0 - (rowTerms M N j (x i).v).sum) := by ring
      have c2 := norm_sum_terms (rowTerms M N j (x i).v)
      have c3 := hX0 i (by omega)
      have c4 := norm_sub_le (y.v.getD j 0) (rowTerms M N j (x i).v).sum
      have c5 := (congrArg norm c1).le.trans (norm_add_le _ _)
      linarith
    set G := ‖(s i).v.getD j 0 - (y.v.getD j 0 - (rowTerms M N j (x i).v).sum)‖ with hG
    have k7 : ‖(s (i + 1)).v.getD j 0 - (y.v.getD j 0 - (rowTerms M N j (x (i + 1)).v).sum)‖ ≤ G + E * (‖(s i).v.getD j 0‖ + ((rowTerms M N j (c i).v).map (‖·‖)).sum * ‖a i‖) + E * (6 * ∑ l ∈ Finset.range N, ‖M j l‖ * X l) := by
      rw [show (s (i + 1)).v.getD j 0 - (y.v.getD j 0 - (rowTerms M N j (x (i + 1)).v).sum) = ((s i).v.getD j 0 - (y.v.getD j 0 - (rowTerms M N j (x i).v).sum)) + ((s (i + 1)).v.getD j 0 - ((s i).v.getD j 0 - (rowTerms M N j (c i).v).sum * a i)) + ((rowTerms M N j (x (i + 1)).v).sum - ((rowTerms M N j (x i).v).sum + (rowTerms M N j (c i).v).sum * a i)) by ring]
      exact (norm_add₃_le).trans (add_le_add (add_le_add le_rfl k1) k5)
    rw [pw i, add_mul, mul_assoc]
    have k8 : ‖(s i).v.getD j 0‖ + ((rowTerms M N j (c i).v).map (‖·‖)).sum * ‖a i‖ ≤ G + B + 5 * ∑ l ∈ Finset.range N, ‖M j l‖ * X l := by linarith
    have k9 := mul_le_mul_of_nonneg_left k8 hE0
    have k10 : ∑ l ∈ Finset.range N, ‖M j l‖ * X l ≤ B := by rw [hB]; linarith [norm_nonneg (y.v.getD j 0)]
    have k11 := mul_le_mul_of_nonneg_left k10 hE0
    have k12 := mul_le_mul_of_nonneg_left g (show 0 ≤ 1 + E by linarith)
    linarith

end

/-! ### norms -/

theorem l2_eq {E : Type} [RCLike E] {l : List E} {N : Nat} (h : l.length = N) : l2 l = ‖(WithLp.toLp 2 fun i : Fin N => l.getD i 0 : EuclideanSpace E (Fin N))‖ := by
  rw [EuclideanSpace.norm_eq, l2]
  congr 1
  subst h
  rw [← List.sum_ofFn]
  congr 1
  refine List.ext_getElem (by simp) fun i h1 h2 => ?_
  simp [List.getD_eq_getElem]

theorem l2_nonneg {E : Type} [Norm E] (l : List E) : 0 ≤ l2 l := Real.sqrt_nonneg _

/-- vectors whose entries are close have close norms -/
theorem l2_near {N : Nat} {r t : List K} {B : List ℝ} {g : ℝ} (hr : r.length = N) (ht : t.length = N) (hB : B.length = N) (hg : 0 ≤ g) (h : ∀ j < N, ‖r.getD j 0 - t.getD j 0‖ ≤ g * B.getD j 0) :
    |l2 r - l2 t| ≤ g * l2 B := by
  rw [l2_eq hr, l2_eq ht, l2_eq hB]
  refine (abs_norm_sub_norm_le _ _).trans ?_
  rw [← abs_of_nonneg hg, ← Real.norm_eq_abs, ← norm_smul, EuclideanSpace.norm_eq, EuclideanSpace.norm_eq]
  refine Real.sqrt_le_sqrt (Finset.sum_le_sum fun i _ => ?_)
  have := h i i.2
  simp only [PiLp.sub_apply, PiLp.smul_apply, smul_eq_mul]
  refine pow_le_pow_left₀ (norm_nonneg _) (this.trans (le_abs_self _)) 2

section
variable {n b : Nat} {L : Layout} {x y : SVec K}

theorem blockDot_near (hA : Rounding A u) (hL : L.WF n) (hn : 0 < n) (hx : x.v.length = L.gshape.prod) (hy : y.v.length = L.gshape.prod)
    (sx : L.part.isBroadcast = true → x.Stored A) (sy : L.part.isBroadcast = true → y.Stored A) (hb : ∀ q < n, (x.block A L n q).length ≤ b) :
    Approx u (b + (n - 1)) (x.blockDot A L n y) ((x.v.zip y.v).map fun p => p.1 * p.2).sum ((x.v.zip y.v).map fun p => ‖p.1 * p.2‖).sum := by
  obtain ⟨h1, h2, h3⟩ := blockLayout_wf hn hL
  have hl : ∀ q < n, (x.block A L n q).length = (y.block A L n q).length := fun q hq => (length_block A hL hx hq).trans (length_block A hL hy hq).symm
  have k := hA.sum_near (n := n) (m := b) (a := fun q => A.dot (x.block A L n q) (y.block A L n q)) fun q hq => hA.dot_near (hl q hq) (hb q hq)
  have e : ∀ q, ((blockLayout L n).piece x.v q).zip ((blockLayout L n).piece y.v q) = (blockLayout L n).piece (x.v.zip y.v) q := fun q => (a_piece_zip Prod.mk (hx.trans hy.symm) q).symm
  have hp : ((List.range n).flatMap fun q => (x.block A L n q).zip (y.block A L n q)).Perm (x.v.zip y.v) := by
    simp only [block_eq A x sx, block_eq A y sy, e]
    exact a_perm_pieces h1 h2 (by rw [h3, List.length_zip, hx, hy, min_self])
  have s1 : ∀ {M : Type} [AddCommMonoid M] (f : K × K → M), ((List.range n).map fun q => (((x.block A L n q).zip (y.block A L n q)).map f).sum).sum = ((x.v.zip y.v).map f).sum := by
    intro M _ f
    rw [← (hp.map f).sum_eq, List.map_flatMap, List.flatMap_def, List.sum_flatten, List.map_map]; rfl
  rwa [s1, s1] at k

theorem blockNorm_near (hA : Rounding A u) (hL : L.WF n) (hn : 0 < n) (hx : x.v.length = L.gshape.prod) (sx : L.part.isBroadcast = true → x.Stored A) (hb : ∀ q < n, (x.block A L n q).length ≤ b) :
    ‖x.blockNorm A L n - ((l2 x.v : ℝ) : K)‖ ≤ errBound u (b + n) * l2 x.v := by
  obtain ⟨h1, h2, h3⟩ := blockLayout_wf hn hL
  have k := hA.sum_near (n := n) (m := b) (a := fun q => A.sumSq (x.block A L n q)) fun q hq => hA.sumSq_near (hb q hq)
  have hp : ((List.range n).flatMap fun q => x.block A L n q).Perm x.v := by
    simp only [block_eq A x sx]
    exact a_perm_pieces h1 h2 (by rw [h3, hx])
  have s1 : ∀ {M : Type} [AddCommMonoid M] (f : K → M), ((List.range n).map fun q => ((x.block A L n q).map f).sum).sum = (x.v.map f).sum := by
    intro M _ f
    rw [← (hp.map f).sum_eq, List.map_flatMap, List.flatMap_def, List.sum_flatten, List.map_map]; rfl
  rw [s1, s1] at k
  have e : (x.v.map fun a => ((‖a‖ ^ 2 : ℝ) : K)).sum = (((x.v.map fun a => ‖a‖ ^ 2).sum : ℝ) : K) := by
    induction x.v with
    | nil => simp
    | cons a l ih => simp only [List.map_cons, List.sum_cons, ih]; push_cast; rfl
  rw [e] at k
  have := root_near hA k
  rwa [show b + (n - 1) + 1 = b + n by omega] at this

/-- the computed square of the norm -/
theorem absDot_near (hA : SolverRounding A u) (hL : L.WF n) (hn : 0 < n) (hx : x.v.length = L.gshape.prod) (sx : L.part.isBroadcast = true → x.Stored A) (sy : L.part.isBroadcast = true → (x.conj A).Stored A)
    (hb : ∀ q < n, (x.block A L n q).length ≤ b) (hd : Stores A u x.dt) :
    ∃ t : ℝ, 0 ≤ t ∧ A.abs (x.blockDot A L n (x.conj A)) = (t : K) ∧ |t - l2 x.v ^ 2| ≤ errBound u (b + n + 1) * l2 x.v ^ 2 := by
  obtain ⟨t, t0, te, ht⟩ := hA.abs (x.blockDot A L n (x.conj A))
  refine ⟨t, t0, te, ?_⟩
  have hc := SVec.length_conj A hx
  have k1 := blockDot_near hA.toRounding hL hn hx hc sx sy hb
  -- the products of the entries and their conjugates
  have hz : x.v.zip (x.conj A).v = x.v.map fun a => (a, A.cast x.dt (A.conj a)) := by
    refine List.ext_getElem (by simp [SVec.conj, SVec.map]) fun i h1 h2 => ?_
    simp [SVec.conj, SVec.map]
  have hs2 : l2 x.v ^ 2 = (x.v.map fun a => ‖a‖ ^ 2).sum := Real.sq_sqrt (List.sum_nonneg (by simp only [List.mem_map]; rintro _ ⟨a, -, rfl⟩; positivity))
  have hu0 := hA.nonneg
  have one : ∀ a : K, ‖a * A.cast x.dt (A.conj a) - ((‖a‖ ^ 2 : ℝ) : K)‖ ≤ u * ‖a‖ ^ 2 ∧ ‖a * A.cast x.dt (A.conj a)‖ ≤ (1 + u) * ‖a‖ ^ 2 := by
    intro a
    have h1 := hd (A.conj a)
    unfold Rounded at h1
    rw [hA.conj, norm_star] at h1
    rw [hA.conj]
    have h2 : ((‖a‖ ^ 2 : ℝ) : K) = a * star a := by rw [RCLike.star_def, RCLike.mul_conj]; push_cast; rfl
    have h3 : ‖a * A.cast x.dt (star a) - ((‖a‖ ^ 2 : ℝ) : K)‖ ≤ u * ‖a‖ ^ 2 := by
      rw [h2, ← mul_sub, norm_mul]
      have := mul_le_mul_of_nonneg_left h1 (norm_nonneg a)
      nlinarith
    refine ⟨h3, ?_⟩
    have h4 : ‖((‖a‖ ^ 2 : ℝ) : K)‖ = ‖a‖ ^ 2 := by rw [RCLike.norm_ofReal, abs_of_nonneg (by positivity)]
    have h5 := norm_le_norm_add_norm_sub' (a * A.cast x.dt (star a)) ((‖a‖ ^ 2 : ℝ) : K)
    rw [h4] at h5
    linarith
  rw [hz, List.map_map, List.map_map] at k1
  simp only [Function.comp_def] at k1
  have sums : ∀ l : List K, ‖(l.map fun a => a * A.cast x.dt (A.conj a)).sum - (((l.map fun a => ‖a‖ ^ 2).sum : ℝ) : K)‖ ≤ u * (l.map fun a => ‖a‖ ^ 2).sum ∧
      (l.map fun a => ‖a * A.cast x.dt (A.conj a)‖).sum ≤ (1 + u) * (l.map fun a => ‖a‖ ^ 2).sum := by
    intro l
    induction l with
    | nil => simp
    | cons a l ih =>
      simp only [List.map_cons, List.sum_cons]
      obtain ⟨i1, i2⟩ := ih
      obtain ⟨o1, o2⟩ := one a
      refine ⟨?_, by linarith⟩
      rw [RCLike.ofReal_add, add_sub_add_comm, mul_add]
      exact (norm_add_le _ _).trans (add_le_add o1 i1)
  obtain ⟨s1, s2⟩ := sums x.v
  rw [← hs2] at s1 s2
  set S := l2 x.v ^ 2 with hS
  have S0 : 0 ≤ S := by positivity
  set d := x.blockDot A L n (x.conj A)
  set e := errBound u (b + (n - 1)) with he
  have he0 : 0 ≤ e := errBound_nonneg hu0 _
  have h1 : ‖d - (S : K)‖ ≤ (e * (1 + u) + u) * S := by
    have := k1.err.trans (mul_le_mul_of_nonneg_left s2 he0)
    have t1 := norm_sub_le_norm_sub_add_norm_sub d (x.v.map fun a => a * A.cast x.dt (A.conj a)).sum (S : K)
    linarith
  have h2 : ‖(S : K)‖ = S := by rw [RCLike.norm_ofReal, abs_of_nonneg S0]
  have h3 : |‖d‖ - S| ≤ (e * (1 + u) + u) * S := by
    have := abs_norm_sub_norm_le d (S : K)
    rw [h2] at this
    exact this.trans h1
  have h4 : ‖d‖ ≤ (1 + (e * (1 + u) + u)) * S := by linarith [(abs_le.1 h3).2]
  have h5 : errBound u (b + n + 1) = (e * (1 + u) + u) + u * (1 + (e * (1 + u) + u)) := by
    rw [show b + n + 1 = b + (n - 1) + 1 + 1 by omega, errBound_succ, errBound_succ, ← he]
    ring
  have h6 : |t - S| ≤ |t - ‖d‖| + |‖d‖ - S| := abs_sub_le _ _ _
  have h7 := mul_le_mul_of_nonneg_left h4 hu0
  rw [h5]
  linarith

/-- the root of a number close to a square -/
theorem sqrt_near {t s e : ℝ} (ht : 0 ≤ t) (hs : 0 ≤ s) (h : |t - s ^ 2| ≤ e * s ^ 2) : |√t - s| ≤ e * s := by
  rcases hs.eq_or_lt with rfl | hs
  · have : t = 0 := by simpa using h
    simp [this]
  · have h1 : |√t - s| * (√t + s) = |t - s ^ 2| := by
      rw [← abs_of_nonneg (show 0 ≤ √t + s by positivity), ← abs_mul]
      congr 1
      have := Real.sq_sqrt ht
      nlinarith
    have h2 : |√t - s| * s ≤ |√t - s| * (√t + s) := mul_le_mul_of_nonneg_left (by linarith [Real.sqrt_nonneg t]) (abs_nonneg _)
    have h3 : |√t - s| * s ≤ (e * s) * s := by nlinarith
    exact le_of_mul_le_mul_right h3 hs

end

/-! ### the solvers -/

section
variable {F F' : SVec K → SVec K} {D D' : DType → Prop} {N N' m : Nat} {y x0 : SVec K} {dot dot' : SVec K → SVec K → K} {nrm : SVec K → K} {damp : K}

theorem scg_steps (hF : ∀ v : SVec K, v.v.length = N → D v.dt → (F v).v.length = N) (hy : y.v.length = N) (hx : x0.v.length = N) (dy : D y.dt) (dx : D x0.dt) {s : Nat → SCG K}
    (hs : ∀ i ≤ m, SCG.seq A dot F y x0 i = .ok (s i)) :
    (∃ a, Steps A F D N N y x0 m (fun i => (s i).x) (fun i => (s i).r) (fun i => (s i).c) a) ∧ ∀ i ≤ m, (s i).k = A.abs (dot (s i).r ((s i).r.conj A)) ∧ ∃ v w : SVec K, (s i).r = v.sub A w := by
  have h0 : s 0 = SCG.start A dot F y x0 := by
    have := hs 0 (Nat.zero_le _)
    injection this with this
    exact this.symm
  have hz : ∀ i ≤ m, (s i).Sized N D := fun i hi =>
    ((scg_seq_congr A (dot₁ := dot) (dot₂ := dot) hF (P := fun _ => True) (fun _ _ => trivial) (fun _ _ _ => trivial) (fun _ _ _ _ _ _ => rfl) hy hx dy dx i).2 _ (hs i hi)).1
  have hn : ∀ i < m, ∃ a b, s (i + 1) = ⟨(s i).x.add A ((s i).c.scale A a), (s i).r.sub A ((F (s i).c).scale A a), ((s i).r.sub A ((F (s i).c).scale A a)).add A ((s i).c.scale A b),
      A.abs (dot ((s i).r.sub A ((F (s i).c).scale A a)) (((s i).r.sub A ((F (s i).c).scale A a)).conj A))⟩ := by
    intro i hi
    have h1 := hs (i + 1) (by omega)
    rw [SCG.seq, hs i (by omega)] at h1
    simp only [Except.bind, SCG.next, bind] at h1
    split at h1
    · cases h1
    · rename_i a ha
      split at h1
      · cases h1
      · rename_i b hb
        injection h1 with h1
        exact ⟨a, b, h1.symm⟩
  choose! a b hab using hn
  refine ⟨⟨a, ?_, ?_, fun i hi => ?_, fun i hi => ?_, fun i hi => (hz i (by omega)).c, fun i hi => (hz i (by omega)).cd⟩, fun i hi => ?_⟩
  · show (s 0).x = _
    rw [h0]; rfl
  · show (s 0).r = _
    rw [h0]; rfl
  · show (s (i + 1)).x = _
    rw [hab i hi]
  · show (s (i + 1)).r = _
    rw [hab i hi]
  · cases i with
    | zero => rw [h0]; exact ⟨rfl, _, _, rfl⟩
    | succ i => rw [hab i (by omega)]; exact ⟨rfl, _, _, rfl⟩

theorem sls_steps (hF : ∀ v : SVec K, v.v.length = N → D v.dt → (F v).v.length = N') (hF' : ∀ v : SVec K, v.v.length = N' → D' v.dt → (F' v).v.length = N)
    (hD : ∀ s : SVec K, s.v.length = N' → D' s.dt → D (F' s).dt) (hy : y.v.length = N') (hx : x0.v.length = N) (dy : D' y.dt) (dx : D x0.dt) {t : Nat → SLS K}
    (hs : ∀ i ≤ m, SLS.seq A dot dot' nrm F F' damp y x0 i = .ok (t i)) :
    (∃ a, Steps A F D N N' y x0 m (fun i => (t i).x) (fun i => (t i).s) (fun i => (t i).c) a) ∧ ∀ i ≤ m, (t i).r1 = nrm (t i).s ∧ ∃ v w : SVec K, (t i).s = v.sub A w := by
  have hz : ∀ i ≤ m, (t i).Sized N N' D' := fun i hi =>
    ((sls_seq_congr A (dot₁ := dot) (dot₂ := dot) (dot₁' := dot') (dot₂' := dot') (nrm₁ := nrm) (nrm₂ := nrm) hF hF' hD (P := fun _ => True) (P' := fun _ => True) (fun _ _ => trivial)
      (fun _ _ _ => trivial) (fun _ _ => trivial) (fun _ _ _ => trivial) (fun _ _ _ _ _ _ => rfl) (fun _ _ _ _ _ _ => rfl) (fun _ _ _ => rfl) hy hx dy dx i).2 _ (hs i hi)).1
  have h0 : (t 0).x = x0.copy A ∧ (t 0).s = y.sub A (F (x0.copy A)) ∧ D (t 0).c.dt ∧ (t 0).q = F (t 0).c ∧ (t 0).r1 = nrm (t 0).s := by
    have h1 := hs 0 (Nat.zero_le _)
    have hl := SVec.length_copy A hx
    have hsl := SVec.length_sub A hy (hF _ hl dx)
    simp only [SLS.seq, SLS.start, bind, Except.bind] at h1
    split at h1
    · cases h1
    · split at h1
      · cases h1
      · injection h1 with h1
        rw [← h1]
        exact ⟨rfl, rfl, hD _ hsl dy, rfl, rfl⟩
  have hn : ∀ i < m, ∃ a, (t (i + 1)).x = (t i).x.add A ((t i).c.scale A a) ∧ (t (i + 1)).s = (t i).s.sub A ((t i).q.scale A a) ∧ D (t (i + 1)).c.dt ∧ (t (i + 1)).q = F (t (i + 1)).c ∧
      (t (i + 1)).r1 = nrm (t (i + 1)).s := by
    intro i hi
    have h1 := hs (i + 1) (by omega)
    have z := hz i (by omega)
    rw [SLS.seq] at h1
    cases hd : A.pySq damp with
    | error e => rw [hd] at h1; cases h1
    | ok d =>
      rw [hd] at h1
      simp only [bind, Except.bind] at h1
      rw [hs i (by omega)] at h1
      simp only [SLS.next, bind, Except.bind] at h1
      split at h1
      · cases h1
      · rename_i a ha
        split at h1
        · cases h1
        · split at h1
          · cases h1
          · injection h1 with h1
            rw [← h1]
            exact ⟨A.abs a, rfl, rfl, hD _ (SVec.length_sub A z.s (SVec.length_scale A _ z.q)) z.sd, rfl, rfl⟩
  have hq : ∀ i ≤ m, (t i).q = F (t i).c ∧ D (t i).c.dt := by
    intro i hi
    cases i with
    | zero => exact ⟨h0.2.2.2.1, h0.2.2.1⟩
    | succ i =>
      obtain ⟨a, -, -, h1, h2, -⟩ := hn i (by omega)
      exact ⟨h2, h1⟩
  choose! a ha using hn
  refine ⟨⟨a, h0.1, ?_, fun i hi => (ha i hi).1, fun i hi => ?_, fun i hi => (hz i (by omega)).c, fun i hi => (hq i (by omega)).2⟩, fun i hi => ?_⟩
  · show (t 0).s = y.sub A (F (t 0).x)
    rw [h0.1]; exact h0.2.1
  · show (t (i + 1)).s = _
    rw [(ha i hi).2.1, (hq i (by omega)).1]
  · cases i with
    | zero => exact ⟨h0.2.2.2.2, _, _, h0.2.1⟩
    | succ i => exact ⟨(ha i (by omega)).2.2.2.2, _, _, (ha i (by omega)).2.1⟩

end

end Verif

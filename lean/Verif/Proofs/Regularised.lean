/- Operators between lists with adjoints as linear maps; the stacked system and its normal equations. -/
import Verif.Model.Regularised
import Verif.Proofs.Laplacian
import Verif.Proofs.SolverExample
import Verif.Props.C37
import Verif.Props.C45

set_option linter.unusedSectionVars false

namespace Verif
open NDArray Serial

variable {K ι : Type} [RCLike K]

/-! ### Lists as vectors -/

/-- the vector with the given entries -/
def ofL (N : Nat) (d : List K) : Vec K N := WithLp.toLp 2 fun i : Fin N => d.getD i 0

theorem toL_ofL {N : Nat} {d : List K} (h : d.length = N) : toL (ofL N d) = d := by
  subst h
  refine List.ext_getElem (by simp) fun i h1 h2 => ?_
  simp [toL, ofL, List.getD_eq_getElem _ _ h2]

theorem toL_inj {N : Nat} {x y : Vec K N} (h : toL x = toL y) : x = y := by
  ext i
  exact congrFun (List.ofFn_inj.1 h) i

theorem ip_toL {N : Nat} (x y : Vec K N) : ip (toL x) (toL y) = inner K x y := by
  rw [← sum_toL, ip, List.zipWith_map_right, List.zipWith_comm]
  congr 2
  funext a b
  exact mul_comm _ _

theorem exists_linear {M N : Nat} {f g : List K → List K} (hf : ∀ x, x.length = M → (f x).length = N) (hg : ∀ y, y.length = N → (g y).length = M)
    (ha : ∀ u v, u.length = M → v.length = N → ip (f u) v = ip u (g v)) :
    ∃ (A : Vec K M →ₗ[K] Vec K N) (B : Vec K N →ₗ[K] Vec K M), (∀ x, toL (A x) = f (toL x)) ∧ (∀ y, toL (B y) = g (toL y)) ∧
      ∀ x y, inner K (A x) y = inner K x (B y) := by
  let A (x : Vec K M) : Vec K N := ofL N (f (toL x))
  let B (y : Vec K N) : Vec K M := ofL M (g (toL y))
  have hA : ∀ x, toL (A x) = f (toL x) := fun x => toL_ofL (hf _ (length_toL x))
  have hB : ∀ y, toL (B y) = g (toL y) := fun y => toL_ofL (hg _ (length_toL y))
  have had : ∀ x y, inner K (A x) y = inner K x (B y) := fun x y => by
    rw [← ip_toL, ← ip_toL, hA, hB]; exact ha _ _ (length_toL x) (length_toL y)
  have had' : ∀ x y, inner K (B y) x = inner K y (A x) := fun x y => by
    rw [← inner_conj_symm, ← had, inner_conj_symm]
  refine ⟨⟨⟨A, fun x x' => ?_⟩, fun c x => ?_⟩, ⟨⟨B, fun x x' => ?_⟩, fun c x => ?_⟩, hA, hB, had⟩
  · refine ext_inner_right K fun v => ?_
    rw [had, inner_add_left, inner_add_left, had, had]
  · refine ext_inner_right K fun v => ?_
    simp only [RingHom.id_apply]
    rw [had, inner_smul_left, inner_smul_left, had]
  · refine ext_inner_right K fun v => ?_
    rw [had', inner_add_left, inner_add_left, had', had']
  · refine ext_inner_right K fun v => ?_
    simp only [RingHom.id_apply]
    rw [had', inner_smul_left, inner_smul_left, had']

/-! ### Serial algorithms -/

section
variable {M N : Nat} {A : Vec K M →ₗ[K] Vec K N} {B : Vec K N →ₗ[K] Vec K M} (hAB : ∀ x z, inner K (A x) z = inner K x (B z))
include hAB

theorem reg_cg (y : Vec K N) (x0 : Vec K M) (j : Nat) :
    (CGLS.seq K A B 0 (0 ^ 2) y x0 j).x = (CG.seq K (CGLS.normal A B 0) (B y) x0 j).x ∧ (CGLS.seq K A B 0 (0 ^ 2) y x0 j).k = (CG.seq K (CGLS.normal A B 0) (B y) x0 j).k ∧
      (‖(CGLS.seq K A B 0 (0 ^ 2) y x0 j).q‖ ^ 2 + 0 ^ 2 * ‖(CGLS.seq K A B 0 (0 ^ 2) y x0 j).c‖ ^ 2 = 0 ↔
        inner K (CG.seq K (CGLS.normal A B 0) (B y) x0 j).c (CGLS.normal A B 0 (CG.seq K (CGLS.normal A B 0) (B y) x0 j).c) = 0) := by
  obtain ⟨h1, h2, h3, _⟩ := cgls_cg (damp := 0) (y := y) (x0 := x0) hAB (.inl rfl) j
  rw [show CGLS.normal A B ((0 : ℝ) ^ 2) = CGLS.normal A B 0 by norm_num] at h1 h2 h3
  refine ⟨h1, h3, ?_⟩
  rw [← h2, CGLS.inner_normal hAB, (CGLS.inv A B 0 (0 ^ 2) y x0 j).2]
  simp

end

/-! ### The two operators -/

/-- squared norm -/
noncomputable def sqN (u : List K) : ℝ := (u.map fun z => ‖z‖ ^ 2).sum

theorem sqN_toL {N : Nat} (x : Vec K N) : sqN (toL x) = ‖x‖ ^ 2 := by
  rw [← norm_toL, Real.sq_sqrt, sqN]
  exact List.sum_nonneg (by simp only [List.mem_map]; rintro _ ⟨z, _, rfl⟩; positivity)

theorem sqN_append (u v : List K) : sqN (u ++ v) = sqN u + sqN v := by simp [sqN]

theorem sqN_zero_sub (s : ℝ) (v : List K) (N : Nat) (h : v.length = N) : sqN (List.zipWith (· - ·) (List.replicate N 0) (vscale (s : K) v)) = s ^ 2 * sqN v := by
  subst h
  induction v with
  | nil => simp [sqN, vscale]
  | cons a v ih =>
    simp only [sqN, vscale, List.length_cons, List.replicate_succ, List.map_cons, List.zipWith_cons_cons, List.sum_cons] at ih ⊢
    rw [ih, zero_sub, norm_neg, norm_mul, RCLike.norm_ofReal, mul_pow, sq_abs]
    ring

variable {lv : Leaves K ι} {n : Nat} {J : Nat → Nat → K} {prim : ι → Nat → Prim K}

/-- hypotheses of the comparison: `G` and `R` are expressions of operators whose two directions are adjoint to each other, they map `V` to `W₁` and `W₂` and back, the weight is
    not negative, and the data `d` and the starting point `x0` are vectors of `W₁` and `V` -/
structure RegHyp (lv : Leaves K ι) (n : Nat) (J : Nat → Nat → K) (prim : ι → Nat → Prim K) (G R : MOp K ι) (V W₁ W₂ : VSpace) (eps : ℝ) (d x0 : List K) : Prop where
  sized : lv.Sized
  adjoint : lv.Adjoint
  shG : Shaped lv.sh G
  shR : Shaped lv.sh R
  sh : ∀ i, ∀ r < n, (prim i r).shape = lv.sh i
  tG : Typed lv n J prim false G V W₁
  tG' : Typed lv n J prim true G W₁ V
  tR : Typed lv n J prim false R V W₂
  tR' : Typed lv n J prim true R W₂ V
  mV : V.L.mask = none
  m1 : W₁.L.mask = none
  m2 : W₂.L.mask = none
  eps0 : 0 ≤ eps
  hd : W₁.Mem d
  hx : V.Mem x0

namespace RegHyp
variable {G R : MOp K ι} {V W₁ W₂ : VSpace} {eps : ℝ} {d x0 : List K}

/-- the zero vector of `W₂` -/
abbrev zeros (W : VSpace) : List K := List.replicate W.L.gshape.prod 0

/-- the stacked operator -/
noncomputable abbrev st (G R : MOp K ι) (eps : ℝ) : SOp K ι := .vstack [G, .scaled R ⟨.real, (Real.sqrt eps : K)⟩]

theorem dims (h : RegHyp lv n J prim G R V W₁ W₂ eps d x0) : V.L.gshape.prod = (G.shape lv.sh).2 ∧ W₁.L.gshape.prod = (G.shape lv.sh).1 ∧ W₂.L.gshape.prod = (R.shape lv.sh).1 ∧
    (R.shape lv.sh).2 = (G.shape lv.sh).2 := by
  obtain ⟨_, _, a1, a2, _⟩ := Typed.facts h.tG
  obtain ⟨_, _, b1, b2, _⟩ := Typed.facts h.tR
  rw [a1] at b1
  simp only [dimOf, Bool.not_false, if_true, Bool.false_eq_true, if_false] at a1 a2 b1 b2
  exact ⟨by simp [a1], by simp [a2], by simp [b2], by simpa using b1.symm⟩

theorem shaped (h : RegHyp lv n J prim G R V W₁ W₂ eps d x0) : SShaped lv.sh (st G R eps) := by
  refine ⟨by simp, fun o ho => ?_, fun o ho => ?_⟩
  · simp only [List.mem_cons, List.not_mem_nil, or_false] at ho
    rcases ho with rfl | rfl
    · exact h.shG
    · exact h.shR
  · simp only [List.mem_cons, List.not_mem_nil, or_false] at ho
    rcases ho with rfl | rfl
    · rfl
    · exact h.dims.2.2.2

theorem shape_st (h : RegHyp lv n J prim G R V W₁ W₂ eps d x0) : (st G R eps : SOp K ι).shape lv.sh = (W₁.L.gshape.prod + W₂.L.gshape.prod, V.L.gshape.prod) := by
  obtain ⟨e1, e2, e3, e4⟩ := h.dims
  simp [SOp.shape, SOp.vshape, MOp.shape, e1, e2, e3]

theorem sden_fwd (h : RegHyp lv n J prim G R V W₁ W₂ eps d x0) (x : List K) :
    sden lv false (st G R eps) x = den lv false G x ++ vscale (Real.sqrt eps : K) (den lv false R x) := by
  simp [sden, vcat, MOp.toLOp, LOp.fn, den]

theorem sden_adj (h : RegHyp lv n J prim G R V W₁ W₂ eps d x0) {u v : List K} (hu : u.length = W₁.L.gshape.prod) (hv : v.length = W₂.L.gshape.prod) :
    sden lv true (st G R eps) (u ++ v) = vadd (den lv true G u) (vscale (Real.sqrt eps : K) (den lv true R v)) := by
  obtain ⟨e1, e2, e3, e4⟩ := h.dims
  have l : (vscale (Real.sqrt eps : K) (den lv true R v)).length = (G.shape lv.sh).2 := by
    rw [vscale, List.length_map, length_den h.sized h.shR (b := true) (by simpa [dimOf, e3] using hv)]
    simpa [dimOf] using e4
  rw [e2] at hu
  rw [e3] at hv
  simp only [sden, hsum, slices, List.map_cons, List.map_nil, MOp.toLOp, LOp.fn, LOp.inDim, if_true, vsum, List.foldr_cons, List.foldr_nil, SOp.vshape, List.headD_cons, den,
    MOp.shape, ← hu, List.take_left', List.drop_left']
  rw [vadd_zero (by simpa [← hv] using l)]
  simp [← hv]

/-- the normal operator -/
theorem normalOp_eq (h : RegHyp lv n J prim G R V W₁ W₂ eps d x0) : ∃ gh rh : MOp K ι, G.H lv.sh = .ok gh ∧ R.H lv.sh = .ok rh ∧
    normalOp lv.sh G R ⟨.real, (eps : K)⟩ = .ok (.sum (.prod gh G) (.prod (.scaled rh ⟨.real, (eps : K)⟩) R)) ∧
    (∀ r < n, normalOp Prim.shape (G.map (prim · r)) (R.map (prim · r)) ⟨.real, (eps : K)⟩ =
      .ok ((MOp.sum (.prod gh G) (.prod (.scaled rh ⟨.real, (eps : K)⟩) R)).map (prim · r)) ∧ (G.map (prim · r)).H Prim.shape = .ok (gh.map (prim · r))) := by
  obtain ⟨gh, g1, g2, g3⟩ := H_shaped lv.sh h.shG
  obtain ⟨rh, r1, r2, r3⟩ := H_shaped lv.sh h.shR
  obtain ⟨e1, e2, e3, e4⟩ := h.dims
  refine ⟨gh, rh, g1, r1, ?_, fun r hr => ⟨?_, H_map (fun i => h.sh i r hr) g1⟩⟩
  · simp [normalOp, g1, r1, MOp.mul, MOp.add, MOp.shape, g3, r3, e4, bind, Except.bind]
  · have hm : ∀ q : MOp K ι, (q.map (prim · r)).shape Prim.shape = q.shape lv.sh := fun q => shape_map q fun i => h.sh i r hr
    have k1 := H_map (fun i => h.sh i r hr) g1
    have k2 := H_map (fun i => h.sh i r hr) r1
    simp [normalOp, k1, k2, MOp.mul, MOp.add, MOp.shape, hm, g3, r3, e4, bind, Except.bind, MOp.map]

theorem mkVStack_eq (h : RegHyp lv n J prim G R V W₁ W₂ eps d x0) (r : Nat) (hr : r < n) :
    SOp.mkVStack Prim.shape [G.map (prim · r), .scaled (R.map (prim · r)) ⟨.real, (Real.sqrt eps : K)⟩] = .ok ((st G R eps).map (prim · r)) := by
  have hm : ∀ q : MOp K ι, (q.map (prim · r)).shape Prim.shape = q.shape lv.sh := fun q => shape_map q fun i => h.sh i r hr
  obtain ⟨e1, e2, e3, e4⟩ := h.dims
  simp [SOp.mkVStack, MOp.shape, hm, e4, SOp.map, MOp.map]

/-- the serial operators -/
theorem serial (h : RegHyp lv n J prim G R V W₁ W₂ eps d x0) {gh rh : MOp K ι} (g1 : G.H lv.sh = .ok gh) (r1 : R.H lv.sh = .ok rh) :
    ∃ (A : Vec K V.L.gshape.prod →ₗ[K] Vec K (W₁.L.gshape.prod + W₂.L.gshape.prod)) (B : Vec K (W₁.L.gshape.prod + W₂.L.gshape.prod) →ₗ[K] Vec K V.L.gshape.prod),
      (∀ x, toL (A x) = sden lv false (st G R eps) (toL x)) ∧ (∀ y, toL (B y) = sden lv true (st G R eps) (toL y)) ∧ (∀ x y, inner K (A x) y = inner K x (B y)) ∧
      (∀ x, toL (CGLS.normal A B 0 x) = den lv false (.sum (.prod gh G) (.prod (.scaled rh ⟨.real, (eps : K)⟩) R)) (toL x)) ∧
      toL (B (ofL _ (d ++ zeros W₂))) = den lv true G d := by
  obtain ⟨e1, e2, e3, e4⟩ := h.dims
  have hsh := h.shape_st
  have dR : ∀ x : List K, x.length = V.L.gshape.prod → (den lv false R x).length = W₂.L.gshape.prod := fun x hx => by
    rw [length_den h.sized h.shR (b := false) (by simp [dimOf, hx, e1, e4])]; simp [dimOf, e3]
  have dR' : ∀ x : List K, x.length = W₂.L.gshape.prod → (den lv true R x).length = V.L.gshape.prod := fun x hx => by
    rw [length_den h.sized h.shR (b := true) (by simp [dimOf, hx, e3])]; simp [dimOf, e1, e4]
  have dG : ∀ x : List K, x.length = V.L.gshape.prod → (den lv false G x).length = W₁.L.gshape.prod := fun x hx => by
    rw [length_den h.sized h.shG (b := false) (by simp [dimOf, hx, e1])]; simp [dimOf, e2]
  have dG' : ∀ x : List K, x.length = W₁.L.gshape.prod → (den lv true G x).length = V.L.gshape.prod := fun x hx => by
    rw [length_den h.sized h.shG (b := true) (by simp [dimOf, hx, e2])]; simp [dimOf, e1]
  obtain ⟨A, B, hA, hB, hAB⟩ := exists_linear (M := V.L.gshape.prod) (N := W₁.L.gshape.prod + W₂.L.gshape.prod) (f := sden lv false (st G R eps)) (g := sden lv true (st G R eps))
    (fun x hx => by rw [length_sden h.sized h.shaped (b := false) (by simp [dimOf, hsh, hx])]; simp [dimOf, hsh])
    (fun x hx => by rw [length_sden h.sized h.shaped (b := true) (by simp [dimOf, hsh, hx])]; simp [dimOf, hsh])
    (fun u v hu hv => C37_adjoint h.sized h.adjoint h.shaped (by rw [hsh, hu]) (by rw [hsh, hv]))
  obtain ⟨P, Q, hP, hQ, _⟩ := exists_linear (M := V.L.gshape.prod) (N := W₂.L.gshape.prod) (f := den lv false R) (g := den lv true R) dR dR'
    (fun u v hu hv => C28_adjoint h.sized h.adjoint h.shR (by rw [hu, e1, e4]) (by rw [hv, e3]))
  have hsc : ∀ (s : K) (w : List K), w.length = W₂.L.gshape.prod → den lv true R (vscale s w) = vscale s (den lv true R w) := fun s w hw => by
    have := hQ (s • ofL _ w)
    rw [map_smul, toL_smul, toL_smul, hQ, toL_ofL hw] at this
    exact this.symm
  refine ⟨A, B, hA, hB, hAB, fun x => ?_, ?_⟩
  · have lx := length_toL x
    rw [CGLS.normal_apply, RCLike.ofReal_zero, zero_smul, add_zero, hB, hA, h.sden_fwd, h.sden_adj (dG _ lx) (by rw [vscale, List.length_map, dR _ lx]), hsc _ _ (dR _ lx)]
    simp only [den, den_H g1, den_H r1, Bool.not_false, Bool.false_eq_true, if_false]
    congr 1
    simp only [vscale, List.map_map]
    apply List.map_congr_left
    intro z _
    simp only [Function.comp_apply, mul_assoc]
    rw [← RCLike.ofReal_mul, Real.mul_self_sqrt h.eps0]
  · have hz : zeros W₂ = vscale (0 : K) (zeros W₂) := by simp [vscale]
    rw [hB, toL_ofL (by simp [h.hd.1]), h.sden_adj h.hd.1 (by simp), hz, hsc _ _ (by simp)]
    have : vscale (Real.sqrt eps : K) (vscale 0 (den lv true R (zeros W₂))) = List.replicate V.L.gshape.prod 0 := by
      rw [← dR' (zeros W₂) (by simp)]
      simp [vscale]
    rw [this, vadd_zero (dG' _ h.hd.1)]

end RegHyp
end Verif

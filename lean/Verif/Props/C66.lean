/- C66: CG when the data, the start vector and the operator have different dtypes. -/
import Verif.Proofs.MixedDtype
import Verif.Props.C42
import Mathlib.Analysis.Complex.Basic

set_option linter.unusedSectionVars false

namespace Verif
open NDArray Serial

section
variable {K : Type} [RCLike K] {n : Nat} {J : Nat → Nat → K} {L : Layout} {N : Nat} {op : Nat → XOp K} {y x0 : Vec K N} {tol : ℝ} {mx : Int} {m : Nat}
  {dx dy dA : DType}

/-- **C66** (what `cg` computes).  Data of dtype `dy`, start vector of dtype `dx`, an operator that gives vectors of dtype `dA`, any layout, any number of ranks, all executions:
    the iteration is serial CG for the operator `A` followed by storing in dtype `dy`, and each rank returns its part of the iterate stored in dtype `dx`, together with the
    residual norms of the iterate before it was stored. -/
theorem C66_cg {A : Vec K N → Vec K N} (h : CGMixed n J op L dx dy dA A y x0)
    (hst : Stops (fun i => (CG.seq K (fun v => storeAs dy (A v)) y x0 i).k) mx tol 0 m)
    (hb : ∀ i < m, ¬ CG.Breaks K (fun v => storeAs dy (A v)) (CG.seq K (fun v => storeAs dy (A v)) y x0 i)) :
    Always n (fun r => CGS.solve (env n J r) (op r) ((sp L dy).part n y r) ((sp L dx).part n x0 r) (some mx) tol)
      (fun r => .ok ((sp L dx).part n (storeAs dx (CG.seq K (fun v => storeAs dy (A v)) y x0 m).x) r, m,
        (List.range (m + 1)).map fun i => Real.sqrt (CG.seq K (fun v => storeAs dy (A v)) y x0 i).k,
        (List.range' 1 m).map fun i => (sp L dx).part n (storeAs dx (CG.seq K (fun v => storeAs dy (A v)) y x0 i).x) r)) :=
  (runs_cgm_solve h hst hb).always

theorem storeAs_inner (dt : DType) {A : Vec K N →ₗ[K] Vec K N} (hA : ∀ x z, inner K (A x) z = inner K x (A z)) {c : Vec K N} (hc : (sp L dt).Has c) :
    inner K c (storeAs dt (A c)) = inner K c (A c) := by
  cases dt with
  | cplx => rfl
  | real =>
    have hreal : ∀ i, (starRingEnd K) (c i) = c i := fun i => hc.2 rfl (c i) (by simp [toL, List.mem_ofFn])
    have h1 : ((RCLike.re (inner K c (A c)) : ℝ) : K) = inner K c (A c) := by
      rw [← RCLike.conj_eq_iff_re, inner_conj_symm, hA]
    rw [← h1]
    simp only [PiLp.inner_apply, RCLike.inner_apply, storeAs, hreal, map_sum]
    apply Finset.sum_congr rfl
    intro i _
    have := RCLike.conj_eq_iff_re.1 (hreal i)
    rw [← this]
    simp [RCLike.mul_re]

/-- The hypotheses hold for every self-adjoint operator. -/
theorem CGMixed.of_selfAdjoint {A : Vec K N →ₗ[K] Vec K N} (hL : L.WF n) (hm : L.mask = none) (hx : Acts n J (fun r => (op r).mv) (sp L dx) (sp L dA) A)
    (hy : Acts n J (fun r => (op r).mv) (sp L dy) (sp L dA) A) (hy0 : (sp L dy).Has y) (hx0 : (sp L dx).Has x0)
    (hA : ∀ x z, inner K (A x) z = inner K x (A z)) : CGMixed n J op L dx dy dA A y x0 :=
  ⟨hL, hm, hx, hy, hy0, hx0, fun _ hc => storeAs_inner dy hA hc⟩

/-- serial CG reaches the solution: number of steps, stopping test, no division by zero -/
theorem hpd_stops {A : Vec K N →ₗ[K] Vec K N} (hpd : HPD A) (y x0 : Vec K N) (hmx : (N : Int) ≤ mx) :
    ∃ m ≤ N, Stops (fun i => (CG.seq K A y x0 i).k) mx 0 0 m ∧ (∀ i < m, ¬ CG.Breaks K A (CG.seq K A y x0 i)) ∧ A (CG.seq K A y x0 m).x = y ∧ (CG.seq K A y x0 m).k = 0 := by
  have hr : ∃ z, y - A x0 = A z := hpd.range _
  have hsp := hpd.spsd
  have e : ∀ i, (CG.seq K A y x0 i).r = y - A (CG.seq K A y x0 i).x := fun i => (CG.inv A y x0 i).1
  obtain ⟨j, hj, hj0⟩ := CG.terminates hsp hr
  rw [finrank_euclideanSpace_fin] at hj
  classical
  have hex : ∃ j, (CG.seq K A y x0 j).r = 0 := ⟨j, hj0⟩
  have hm0 : (CG.seq K A y x0 (Nat.find hex)).r = 0 := Nat.find_spec hex
  have hmin : ∀ i < Nat.find hex, (CG.seq K A y x0 i).r ≠ 0 := fun i hi => Nat.find_min hex hi
  have hmN : Nat.find hex ≤ N := (Nat.find_min' hex hj0).trans hj
  have hk : (CG.seq K A y x0 (Nat.find hex)).k = 0 := by rw [(CG.inv A y x0 _).2, hm0]; simp
  refine ⟨Nat.find hex, hmN, ⟨by omega, fun i _ hi => ⟨by omega, ?_⟩, .inr hk.le⟩, fun i hi => CG.no_break hsp hr fun k hk => hmin k (by omega), ?_, hk⟩
  · show 0 < (CG.seq K A y x0 i).k
    rw [(CG.inv A y x0 i).2]
    have := hmin i hi
    positivity
  · have := e (Nat.find hex)
    rw [hm0] at this
    exact (sub_eq_zero.1 this.symm).symm

/-- **C66** (start vector of real dtype).  For a Hermitian positive definite operator, complex data and a start vector of real dtype, `cg` with tolerance 0 and limit at least `N`
    returns the real parts of the solution `x`, after at most `N` steps and with the residual norm 0 in the last place of `cost`. -/
theorem C66_real_start {A : Vec K N →ₗ[K] Vec K N} (h : CGMixed n J op L .real .cplx dA A y x0) (hpd : HPD A) (hmx : (N : Int) ≤ mx) :
    ∃ m ≤ N, ∃ (x : Vec K N) (costs : List ℝ) (tr : Nat → List (XArr K)), A x = y ∧ costs.length = m + 1 ∧ costs.getLast? = some 0 ∧
      Always n (fun r => CGS.solve (env n J r) (op r) ((sp L .cplx).part n y r) ((sp L .real).part n x0 r) (some mx) 0)
        (fun r => .ok ((sp L .real).part n (storeAs .real x) r, m, costs, tr r)) := by
  obtain ⟨m, hm, hst, hb, hsol, hk⟩ := hpd_stops hpd y x0 hmx
  refine ⟨m, hm, _, _, _, hsol, ?_, ?_, C66_cg h hst hb⟩
  · simp
  · rw [List.range_succ, List.map_append, List.map_singleton, List.getLast?_concat]
    show some (Real.sqrt (CG.seq K A y x0 m).k) = _
    rw [hk, Real.sqrt_zero]

/-- **C66** (no loss).  When the data and the start vector are complex, `cg` returns the solution. -/
theorem C66_cplx_partial {A : Vec K N →ₗ[K] Vec K N} (h : CGMixed n J op L .cplx .cplx dA A y x0) (hpd : HPD A) (hmx : (N : Int) ≤ mx) :
    ∃ m ≤ N, ∃ (x : Vec K N) (costs : List ℝ) (tr : Nat → List (XArr K)), A x = y ∧ costs.length = m + 1 ∧ costs.getLast? = some 0 ∧
      Always n (fun r => CGS.solve (env n J r) (op r) ((sp L .cplx).part n y r) ((sp L .cplx).part n x0 r) (some mx) 0)
        (fun r => .ok ((sp L .cplx).part n x r, m, costs, tr r)) := by
  obtain ⟨m, hm, hst, hb, hsol, hk⟩ := hpd_stops hpd y x0 hmx
  refine ⟨m, hm, _, _, _, hsol, ?_, ?_, C66_cg h hst hb⟩
  · simp
  · rw [List.range_succ, List.map_append, List.map_singleton, List.getLast?_concat]
    show some (Real.sqrt (CG.seq K A y x0 m).k) = _
    rw [hk, Real.sqrt_zero]

/-! ### Real data -/

theorem inner_ofRealVec (u v : Vec ℝ N) : inner K (ofRealVec u : Vec K N) (ofRealVec v) = ((inner ℝ u v : ℝ) : K) := by
  simp [PiLp.inner_apply, ofRealVec, RCLike.inner_apply]

theorem norm_ofRealVec (u : Vec ℝ N) : ‖(ofRealVec u : Vec K N)‖ = ‖u‖ := by
  simp [EuclideanSpace.norm_eq, ofRealVec]

theorem ofRealVec_add (u v : Vec ℝ N) : (ofRealVec (u + v) : Vec K N) = ofRealVec u + ofRealVec v := by ext i; simp [ofRealVec]
theorem ofRealVec_sub (u v : Vec ℝ N) : (ofRealVec (u - v) : Vec K N) = ofRealVec u - ofRealVec v := by ext i; simp [ofRealVec]
theorem ofRealVec_smul (a : ℝ) (v : Vec ℝ N) : (ofRealVec (a • v) : Vec K N) = (a : K) • ofRealVec v := by ext i; simp [ofRealVec]

theorem storeAs_ofRealVec (v : Vec ℝ N) : storeAs .real (ofRealVec v : Vec K N) = ofRealVec v := by ext i; simp [ofRealVec, storeAs]

/-- the real part of the operator, on real vectors -/
noncomputable def realPart (A : Vec K N →ₗ[K] Vec K N) : Vec ℝ N →ₗ[ℝ] Vec ℝ N where
  toFun v := WithLp.toLp 2 fun i => RCLike.re (A (ofRealVec v) i)
  map_add' u v := by ext i; simp [ofRealVec_add]
  map_smul' a v := by ext i; simp [ofRealVec_smul, RCLike.smul_re]

theorem storeAs_realPart (A : Vec K N →ₗ[K] Vec K N) (v : Vec ℝ N) : storeAs .real (A (ofRealVec v)) = ofRealVec (realPart A v) := by
  ext i; simp [ofRealVec, storeAs, realPart]

theorem inner_realPart (A : Vec K N →ₗ[K] Vec K N) (u v : Vec ℝ N) : inner ℝ u (realPart A v) = RCLike.re (inner K (ofRealVec u) (A (ofRealVec v))) := by
  simp [PiLp.inner_apply, realPart, RCLike.inner_apply, ofRealVec, map_sum, RCLike.mul_re]

theorem ofRealVec_eq_zero {v : Vec ℝ N} (h : (ofRealVec v : Vec K N) = 0) : v = 0 := by
  have := norm_ofRealVec (K := K) v
  rw [h, norm_zero] at this
  exact norm_eq_zero.1 this.symm

theorem hpd_realPart {A : Vec K N →ₗ[K] Vec K N} (h : HPD A) : HPD (realPart A) := by
  refine ⟨fun u v => ?_, fun u hu => ?_⟩
  · rw [← real_inner_comm, inner_realPart, inner_realPart, ← h.1, ← inner_conj_symm, RCLike.conj_re]
  · rw [inner_realPart]
    exact h.2 _ fun h0 => hu (ofRealVec_eq_zero h0)

theorem seq_ofReal (A : Vec K N →ₗ[K] Vec K N) (y x0 : Vec ℝ N) (j : Nat) :
    CG.seq K (fun v => storeAs .real (A v)) (ofRealVec y) (ofRealVec x0) j =
      ⟨ofRealVec (CG.seq ℝ (realPart A) y x0 j).x, ofRealVec (CG.seq ℝ (realPart A) y x0 j).r, ofRealVec (CG.seq ℝ (realPart A) y x0 j).c, (CG.seq ℝ (realPart A) y x0 j).k⟩ := by
  induction j with
  | zero =>
    simp only [CG.seq, Function.iterate_zero, id, CG.init, storeAs_realPart, ofRealVec_sub, norm_ofRealVec, ← ofRealVec_sub]
  | succ j ih =>
    rw [CG.seq_succ, ih, CG.seq_succ]
    have ha : ∀ s : CG (Vec ℝ N), CG.alpha K (fun v => storeAs .real (A v)) ⟨ofRealVec s.x, ofRealVec s.r, ofRealVec s.c, s.k⟩ = CG.alpha ℝ (realPart A) s := by
      intro s
      simp only [CG.alpha, storeAs_realPart, inner_ofRealVec, RCLike.norm_ofReal, Real.norm_eq_abs]
    have hr : ∀ s : CG (Vec ℝ N), CG.res K (fun v => storeAs .real (A v)) ⟨ofRealVec s.x, ofRealVec s.r, ofRealVec s.c, s.k⟩ = ofRealVec (CG.res ℝ (realPart A) s) := by
      intro s
      simp only [CG.res, ha, storeAs_realPart, ofRealVec_sub]
      rw [← ofRealVec_smul]
      rfl
    simp only [CG.next, ha, hr, norm_ofRealVec, ofRealVec_add]
    congr 1
    · rw [← ofRealVec_smul]; rfl
    · rw [← ofRealVec_smul]; rfl

/-- **C66** (data of real dtype).  For a Hermitian positive definite operator with complex entries, data and a start vector of real dtype, `cg` with tolerance 0 and limit at least `N`
    returns a vector `x` with Re (A x) = y, after at most `N` steps and with the residual norm 0 in the last place of `cost`. -/
theorem C66_real_data {A : Vec K N →ₗ[K] Vec K N} {y x0 : Vec ℝ N} (h : CGMixed n J op L .real .real dA A (ofRealVec y) (ofRealVec x0)) (hpd : HPD A) (hmx : (N : Int) ≤ mx) :
    ∃ m ≤ N, ∃ (x : Vec ℝ N) (costs : List ℝ) (tr : Nat → List (XArr K)), storeAs .real (A (ofRealVec x)) = ofRealVec y ∧ costs.length = m + 1 ∧ costs.getLast? = some 0 ∧
      Always n (fun r => CGS.solve (env n J r) (op r) ((sp L .real).part n (ofRealVec y : Vec K N) r) ((sp L .real).part n (ofRealVec x0 : Vec K N) r) (some mx) 0)
        (fun r => .ok ((sp L .real).part n (ofRealVec x : Vec K N) r, m, costs, tr r)) := by
  obtain ⟨m, hm, hst, hb, hsol, hk⟩ := hpd_stops (hpd_realPart hpd) y x0 hmx
  have hs := seq_ofReal A y x0
  have hst' : Stops (fun i => (CG.seq K (fun v => storeAs .real (A v)) (ofRealVec y) (ofRealVec x0) i).k) mx 0 0 m := by simp only [hs]; exact hst
  have hb' : ∀ i < m, ¬ CG.Breaks K (fun v => storeAs .real (A v)) (CG.seq K (fun v => storeAs .real (A v)) (ofRealVec y) (ofRealVec x0) i) := by
    intro i hi hbr
    apply hb i hi
    rw [hs] at hbr
    rcases hbr with h1 | h1
    · left
      dsimp only at h1
      rw [storeAs_realPart, inner_ofRealVec] at h1
      exact_mod_cast h1
    · exact .inr h1
  have hrun := C66_cg h hst' hb'
  refine ⟨m, hm, (CG.seq ℝ (realPart A) y x0 m).x, (List.range (m + 1)).map fun i => Real.sqrt (CG.seq ℝ (realPart A) y x0 i).k,
    fun r => (List.range' 1 m).map fun i => (sp L .real).part n (ofRealVec (CG.seq ℝ (realPart A) y x0 i).x : Vec K N) r, ?_, ?_, ?_, ?_⟩
  · rw [storeAs_realPart, hsol]
  · simp
  · rw [List.range_succ, List.map_append, List.map_singleton, List.getLast?_concat, hk, Real.sqrt_zero]
  · refine hrun.congr fun r _ => ?_
    simp only [hs, storeAs_ofRealVec]

end

/-! ### The matrix [[p, q i], [-q i, p]] on one rank -/

namespace Herm2

/-- the 2 × 2 matrix, which is its own adjoint -/
noncomputable def mul (p q : ℝ) (x : List ℂ) : List ℂ := [p * x.getD 0 0 + q * Complex.I * x.getD 1 0, -(q * Complex.I) * x.getD 0 0 + p * x.getD 1 0]
noncomputable def one (p q : ℝ) : LOp ℂ := ⟨2, 2, .cplx, mul p q, mul p q⟩
/-- two entries on one rank -/
def L : Layout := .lin 2 fun _ => 2
/-- `MPIBlockDiag` -/
noncomputable def op (p q : ℝ) (r : Nat) : XOp ℂ := MOp.toX (.leaf (bdPrim 1 (fun _ => [one p q]) none .cplx r))
noncomputable def A (p q : ℝ) : Vec ℂ 2 →ₗ[ℂ] Vec ℂ 2 where
  toFun x := !₂[p * x 0 + q * Complex.I * x 1, -(q * Complex.I) * x 0 + p * x 1]
  map_add' x y := by ext i; fin_cases i <;> simp <;> ring
  map_smul' c x := by ext i; fin_cases i <;> simp <;> ring

theorem wf : L.WF 1 := lin_wf (by simp [psum]) (by simp)

theorem acts (p q : ℝ) (dt : DType) (J : Nat → Nat → ℂ) : Acts 1 J (fun r => (op p q r).mv) (sp L dt) (sp L .cplx) (A p q) := by
  let lv : Leaves ℂ Unit := ⟨fun _ => (2, 2), fun _ d => blockDiag d (allOps 1 fun _ => [one p q])⟩
  have h := typed_blockDiag (lv := lv) (J := J) (n := 1) (prim := fun _ => bdPrim 1 (fun _ => [one p q]) none .cplx) (i := ()) (b := false) (dx := dt) (dt := .cplx)
      (ops := fun _ => [one p q]) (fun _ => rfl) (by simp [lv, inSum, LOp.inDim, one, allOps]) rfl
      (fun o ho => by
        obtain rfl : o = one p q := by simpa [allOps] using ho
        exact ⟨fun x _ => rfl, fun x _ _ h => by cases h⟩)
      (fun r _ => by simp)
  have e : ∀ d, inL d 1 (fun _ => [one p q]) = L := by
    intro d
    cases d <;> simp [inL, L, inSum, LOp.inDim, one, allOps]
  rw [e, e] at h
  refine typed_acts (e := .leaf ()) h fun x hx => ?_
  simp [den, lv, allOps, blockDiag, slices, one, mul, LOp.inDim, LOp.fn, toL, List.ofFn_succ, A]

theorem hpd {p q : ℝ} (hq : 0 ≤ q) (hp : q < p) : HPD (A p q) := by
  refine ⟨fun x z => ?_, fun x hx => ?_⟩
  · simp [A, PiLp.inner_apply, Fin.sum_univ_two]
    ring
  · have h0 : 0 < (x 0).re ^ 2 + (x 0).im ^ 2 + (x 1).re ^ 2 + (x 1).im ^ 2 := by
      by_contra h
      apply hx
      have h1 : (x 0).re = 0 := by nlinarith [sq_nonneg (x 0).re, sq_nonneg (x 0).im, sq_nonneg (x 1).re, sq_nonneg (x 1).im]
      have h2 : (x 0).im = 0 := by nlinarith [sq_nonneg (x 0).re, sq_nonneg (x 0).im, sq_nonneg (x 1).re, sq_nonneg (x 1).im]
      have h3 : (x 1).re = 0 := by nlinarith [sq_nonneg (x 0).re, sq_nonneg (x 0).im, sq_nonneg (x 1).re, sq_nonneg (x 1).im]
      have h4 : (x 1).im = 0 := by nlinarith [sq_nonneg (x 0).re, sq_nonneg (x 0).im, sq_nonneg (x 1).re, sq_nonneg (x 1).im]
      ext i
      fin_cases i
      · exact Complex.ext h1 h2
      · exact Complex.ext h3 h4
    have : RCLike.re (inner ℂ x (A p q x)) = (p - q) * ((x 0).re ^ 2 + (x 0).im ^ 2 + (x 1).re ^ 2 + (x 1).im ^ 2) +
        q * (((x 0).re - (x 1).im) ^ 2 + ((x 0).im + (x 1).re) ^ 2) := by
      simp [A, PiLp.inner_apply, Fin.sum_univ_two]
      ring
    rw [this]
    have := mul_pos (sub_pos.2 hp) h0
    positivity

theorem mixed {p q : ℝ} (hq : 0 ≤ q) (hp : q < p) {dx dy : DType} {y x0 : Vec ℂ 2} (hy : (sp L dy).Has y) (hx : (sp L dx).Has x0) :
    CGMixed 1 (fun _ _ => 0) (op p q) L dx dy .cplx (A p q) y x0 :=
  CGMixed.of_selfAdjoint wf rfl (acts p q dx _) (acts p q dy _) hy hx (hpd hq hp).1

theorem has_cplx (x : Vec ℂ 2) : (sp L .cplx).Has x := ⟨by simp [L, Layout.lin], fun h => by cases h⟩
theorem has_real (x : Vec ℝ 2) : (sp L .real).Has (ofRealVec x : Vec ℂ 2) := ⟨by simp [L, Layout.lin], fun _ z hz => by
  simp only [toL, List.mem_ofFn, ofRealVec] at hz
  obtain ⟨i, rfl⟩ := hz
  simp⟩

end Herm2

open Herm2

/-- the hypotheses of the theorems hold for this operator -/
example : CGMixed 1 (fun _ _ => 0) (op 2 1) L .real .cplx .cplx (A 2 1) !₂[Complex.I, Complex.I] (ofRealVec !₂[0, 0]) ∧
    CGMixed 1 (fun _ _ => 0) (op 2 1) L .cplx .cplx .cplx (A 2 1) !₂[Complex.I, Complex.I] (ofRealVec !₂[0, 0]) ∧
    CGMixed 1 (fun _ _ => 0) (op 2 1) L .real .real .cplx (A 2 1) (ofRealVec !₂[1, 0]) (ofRealVec !₂[0, 0]) ∧ HPD (A 2 1) :=
  ⟨mixed (by norm_num) (by norm_num) (has_cplx _) (has_real _), mixed (by norm_num) (by norm_num) (has_cplx _) (has_cplx _),
    mixed (by norm_num) (by norm_num) (has_real _) (has_real _), hpd (by norm_num) (by norm_num)⟩

/-- **C66** fails for complex data and a start vector of real dtype.  A is the identity matrix, y = (i, i), x0 = (0, 0) of real dtype: `cg` returns (0, 0) without an error and
    the last residual norm in `cost` is 0, though ‖y - A x‖ = √2. -/
theorem C66_violated_start : ∃ m ≤ 2, ∃ (costs : List ℝ) (tr : Nat → List (XArr ℂ)), costs.getLast? = some 0 ∧
    Always 1 (fun r => CGS.solve (env 1 (fun _ _ => 0) r) (op 1 0 r) ((sp L .cplx).part 1 (!₂[Complex.I, Complex.I] : Vec ℂ 2) r) ((sp L .real).part 1 (ofRealVec !₂[0, 0] : Vec ℂ 2) r) (some 2) 0)
      (fun r => .ok ((sp L .real).part 1 (0 : Vec ℂ 2) r, m, costs, tr r)) ∧ ‖(!₂[Complex.I, Complex.I] : Vec ℂ 2) - A 1 0 0‖ = Real.sqrt 2 := by
  obtain ⟨m, hm, x, costs, tr, hx, _, hc, hrun⟩ := C66_real_start (mx := 2) (mixed (p := 1) (q := 0) le_rfl one_pos (has_cplx !₂[Complex.I, Complex.I]) (has_real !₂[0, 0]))
    (hpd le_rfl one_pos) le_rfl
  have e : storeAs .real x = 0 := by
    ext i
    have h0 := congrArg (fun v => v.ofLp i) hx
    fin_cases i <;> simp [A] at h0 <;> simp [storeAs, h0]
  rw [e] at hrun
  refine ⟨m, hm, costs, tr, hc, hrun, ?_⟩
  simp [EuclideanSpace.norm_eq, Fin.sum_univ_two]
  norm_num

/-- **C66** fails for data of real dtype and an operator with complex entries.  A = [[2, i], [-i, 2]], y = (1, 0) and x0 = (0, 0) of real dtype: `cg` returns (1/2, 0) without an error and
    the last residual norm in `cost` is 0, though ‖y - A x‖ = 1/2. -/
theorem C66_violated_data : ∃ m ≤ 2, ∃ (costs : List ℝ) (tr : Nat → List (XArr ℂ)), costs.getLast? = some 0 ∧
    Always 1 (fun r => CGS.solve (env 1 (fun _ _ => 0) r) (op 2 1 r) ((sp L .real).part 1 (ofRealVec !₂[1, 0] : Vec ℂ 2) r) ((sp L .real).part 1 (ofRealVec !₂[0, 0] : Vec ℂ 2) r) (some 2) 0)
      (fun r => .ok ((sp L .real).part 1 (ofRealVec !₂[1 / 2, 0] : Vec ℂ 2) r, m, costs, tr r)) ∧
    ‖(ofRealVec !₂[1, 0] : Vec ℂ 2) - A 2 1 (ofRealVec !₂[1 / 2, 0])‖ = 1 / 2 := by
  obtain ⟨m, hm, x, costs, tr, hx, _, hc, hrun⟩ := C66_real_data (mx := 2) (mixed (p := 2) (q := 1) zero_le_one one_lt_two (has_real !₂[1, 0]) (has_real !₂[0, 0]))
    (hpd zero_le_one one_lt_two) le_rfl
  have e : x = !₂[1 / 2, 0] := by
    ext i
    have h0 := congrArg (fun v => (v.ofLp i).re) hx
    fin_cases i <;> simp [A, storeAs, ofRealVec] at h0 <;> simp <;> linarith
  rw [e] at hrun
  refine ⟨m, hm, costs, tr, hc, hrun, ?_⟩
  simp [EuclideanSpace.norm_eq, Fin.sum_univ_two, A, ofRealVec]

end Verif

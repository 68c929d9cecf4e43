/- C99: CGLS without damping on complex data, for start vectors of real and of complex dtype. -/
import Verif.Proofs.MixedCGLS
import Verif.Props.C45
import Verif.Props.C66

set_option linter.unusedSectionVars false

namespace Verif
open NDArray Serial

section
variable {K : Type} [RCLike K] {n : Nat} {J : Nat → Nat → K} {L L' : Layout} {M N : Nat} {op : Nat → XOp K} {y : Vec K N} {x0 : Vec K M} {tol : ℝ} {mx : Int} {m : Nat}
  {dx : DType}

/-- **C99** (what `cgls` computes).  Complex data, an operator whose two directions give complex vectors, a start vector of dtype `dx`, no damping, any layouts, any number of ranks,
    all executions: the iteration is serial CGLS, and each rank returns its part of the iterate stored in dtype `dx`, together with the residual norms of the iterates before they
    were stored. -/
theorem C99_cgls {A : Vec K M → Vec K N} {B : Vec K N → Vec K M} (h : CGLSMixed n J op L L' dx A B y x0)
    (hst : Stops (fun i => (CGLS.seq K A B 0 (0 ^ 2) y x0 i).k) mx tol 0 m) (hb : ∀ i < m, ¬ CGLS.Breaks (0 ^ 2) (CGLS.seq K A B 0 (0 ^ 2) y x0 i)) :
    ∃ res : Nat → CGLSS.Result K, (∀ r, (res r).x = (sp L dx).part n (storeAs dx (CGLS.seq K A B 0 (0 ^ 2) y x0 m).x) r ∧ (res r).iiter = m ∧
        (res r).r1norm = (CGLS.seq K A B 0 (0 ^ 2) y x0 m).k ∧
        (res r).cost = (List.range (m + 1)).map (fun i => ‖(CGLS.seq K A B 0 (0 ^ 2) y x0 i).s‖) ∧
        (res r).trace = (List.range' 1 m).map fun i => (sp L dx).part n (storeAs dx (CGLS.seq K A B 0 (0 ^ 2) y x0 i).x) r) ∧
      Always n (fun r => CGLSS.solve (env n J r) (op r) ((sp L' .cplx).part n y r) ((sp L dx).part n x0 r) (some mx) 0 tol) (fun r => .ok (res r)) :=
  ⟨_, fun _ => ⟨rfl, rfl, rfl, rfl, rfl⟩, (runs_cglsm_solve h hst hb).always⟩

/-- the squared misfit of any vector, from that of a solution of the normal equations -/
theorem misfit_add {A : Vec K M →ₗ[K] Vec K N} {B : Vec K N →ₗ[K] Vec K M} (hAB : ∀ x z, inner K (A x) z = inner K x (B z)) {x : Vec K M} (hx : B (y - A x) = 0) (z : Vec K M) :
    ‖y - A z‖ ^ 2 = ‖y - A x‖ ^ 2 + ‖A (x - z)‖ ^ 2 := by
  have e : y - A z = (y - A x) + A (x - z) := by rw [map_sub]; abel
  have h0 : inner K (y - A x) (A (x - z)) = 0 := by
    rw [← inner_conj_symm, hAB, hx, inner_zero_right, map_zero]
  rw [e, norm_add_sq (𝕜 := K), h0]
  simp

/-- **C99** (what is returned).  If `rmatvec` is adjoint to `matvec`, the tolerance is 0 and the limit is at least the number `M` of unknowns, `cgls` stops after at most `M` steps
    and there is a least-squares solution `x` such that
    * each rank returns its part of `x` stored in dtype `dx`: for real dtype that are the real parts;
    * the last entry of `cost` is the misfit of `x`, the smallest possible one;
    * the squared misfit of what is returned is larger than that by ‖A (x - stored x)‖². -/
theorem C99_returns {A : Vec K M →ₗ[K] Vec K N} {B : Vec K N →ₗ[K] Vec K M} (hAB : ∀ x z, inner K (A x) z = inner K x (B z)) (h : CGLSMixed n J op L L' dx A B y x0) (hmx : (M : Int) ≤ mx) :
    ∃ m ≤ M, ∃ (x : Vec K M) (res : Nat → CGLSS.Result K), B (A x) = B y ∧ (∀ z, ‖y - A x‖ ≤ ‖y - A z‖) ∧
      (∀ r, (res r).x = (sp L dx).part n (storeAs dx x) r ∧ (res r).iiter = m ∧ (res r).cost.length = m + 1 ∧ (res r).cost.getLast? = some ‖y - A x‖ ∧ (res r).r1norm = 0) ∧
      ‖y - A (storeAs dx x)‖ ^ 2 = ‖y - A x‖ ^ 2 + ‖A (x - storeAs dx x)‖ ^ 2 ∧
      Always n (fun r => CGLSS.solve (env n J r) (op r) ((sp L' .cplx).part n y r) ((sp L dx).part n x0 r) (some mx) 0 0) (fun r => .ok (res r)) := by
  have hd : (0 : ℝ) = 0 ∨ (0 : ℝ) = 1 ∨ x0 = 0 := .inl rfl
  obtain ⟨m, hm, hne, hz⟩ := cgls_terminates (damp := 0) (y := y) hAB hd
  have hk := cgls_k (damp := 0) (y := y) hAB hd
  have hkm : (CGLS.seq K A B 0 (0 ^ 2) y x0 m).k = 0 := by rw [hk, hz]; simp
  have hst : Stops (fun i => (CGLS.seq K A B 0 (0 ^ 2) y x0 i).k) mx 0 0 m := by
    refine ⟨Nat.zero_le _, fun i _ hi => ⟨by omega, ?_⟩, .inr hkm.le⟩
    show 0 < (CGLS.seq K A B 0 (0 ^ 2) y x0 i).k
    rw [hk]
    have := hne i hi
    positivity
  obtain ⟨res, h1, h2⟩ := C99_cgls h hst fun i hi => cgls_no_break hAB hd fun k hk => hne k (by omega)
  have hg : B (y - A (CGLS.seq K A B 0 (0 ^ 2) y x0 m).x) = 0 := by simpa [dgrad] using hz
  have hs : (CGLS.seq K A B 0 (0 ^ 2) y x0 m).s = y - A (CGLS.seq K A B 0 (0 ^ 2) y x0 m).x := (CGLS.inv A B 0 (0 ^ 2) y x0 m).1
  refine ⟨m, hm, _, res, ?_, fun z => ?_, fun r => ⟨(h1 r).1, (h1 r).2.1, ?_, ?_, (h1 r).2.2.1.trans hkm⟩, misfit_add hAB hg _, h2⟩
  · rw [map_sub, sub_eq_zero] at hg; exact hg.symm
  · have := misfit_add hAB hg z
    refine le_of_sq_le_sq ?_ (norm_nonneg _)
    rw [this]
    nlinarith [sq_nonneg ‖A ((CGLS.seq K A B 0 (0 ^ 2) y x0 m).x - z)‖]
  · rw [(h1 r).2.2.2.1]; simp
  · rw [(h1 r).2.2.2.1, List.range_succ, List.map_append, List.map_singleton, List.getLast?_concat, hs]

/-- **C99** (no loss).  With a complex start vector `cgls` returns a least-squares solution, and the last entry of `cost` is its misfit.
    Missing for the full claim: start vectors of real dtype, for which it is false (`C99_violated`). -/
theorem C99_cplx_partial {A : Vec K M →ₗ[K] Vec K N} {B : Vec K N →ₗ[K] Vec K M} (hAB : ∀ x z, inner K (A x) z = inner K x (B z)) (h : CGLSMixed n J op L L' .cplx A B y x0) (hmx : (M : Int) ≤ mx) :
    ∃ m ≤ M, ∃ (x : Vec K M) (res : Nat → CGLSS.Result K), (∀ z, ‖y - A x‖ ≤ ‖y - A z‖) ∧
      (∀ r, (res r).x = (sp L .cplx).part n x r ∧ (res r).iiter = m ∧ (res r).cost.getLast? = some ‖y - A x‖) ∧
      Always n (fun r => CGLSS.solve (env n J r) (op r) ((sp L' .cplx).part n y r) ((sp L .cplx).part n x0 r) (some mx) 0 0) (fun r => .ok (res r)) := by
  obtain ⟨m, hm, x, res, _, h2, h3, _, h5⟩ := C99_returns hAB h hmx
  exact ⟨m, hm, x, res, h2, fun r => ⟨(h3 r).1, (h3 r).2.1, (h3 r).2.2.2.1⟩, h5⟩

end

/-! ### The matrix [[p, q i], [-q i, p]] on one rank -/

namespace Herm2

theorem racts (p q : ℝ) (dt : DType) (J : Nat → Nat → ℂ) : Acts 1 J (fun r => (op p q r).rmv) (sp L dt) (sp L .cplx) (A p q) := by
  let lv : Leaves ℂ Unit := ⟨fun _ => (2, 2), fun _ d => blockDiag d (allOps 1 fun _ => [one p q])⟩
  have h := typed_blockDiag (lv := lv) (J := J) (n := 1) (prim := fun _ => bdPrim 1 (fun _ => [one p q]) none .cplx) (i := ()) (b := true) (dx := dt) (dt := .cplx)
      (ops := fun _ => [one p q]) (fun _ => rfl) (by simp [lv, inSum, LOp.inDim, one, allOps]) rfl
      (fun o ho => by
        obtain rfl : o = one p q := by simpa [allOps] using ho
        exact ⟨fun x _ => rfl, fun x _ _ h => by cases h⟩)
      (fun r _ => by simp)
  have e : ∀ d, inL d 1 (fun _ => [one p q]) = L := by
    intro d
    cases d <;> simp [inL, L, inSum, LOp.inDim, one, allOps]
  rw [e, e] at h
  refine typed_acts (e := .leaf ()) h fun x hx => ?_
  simp [den, lv, allOps, blockDiag, slices, one, mul, LOp.inDim, LOp.fn, toL, List.ofFn_succ, A]

theorem mixedLS {p q : ℝ} {dx : DType} {y x0 : Vec ℂ 2} (hx : (sp L dx).Has x0) : CGLSMixed 1 (fun _ _ => 0) (op p q) L L dx (A p q) (A p q) y x0 :=
  ⟨wf, wf, rfl, rfl, acts p q dx _, acts p q .cplx _, racts p q .cplx _, has_cplx y, hx⟩

theorem adj (p q : ℝ) (x z : Vec ℂ 2) : inner ℂ (A p q x) z = inner ℂ x (A p q z) := by
  simp [A, PiLp.inner_apply, Fin.sum_univ_two]
  ring

end Herm2

open Herm2

/-- the hypotheses of the theorems hold for this operator -/
example : CGLSMixed 1 (fun _ _ => 0) (op 2 1) L L .real (A 2 1) (A 2 1) !₂[Complex.I, 1] (ofRealVec !₂[3, 4]) ∧
    CGLSMixed 1 (fun _ _ => 0) (op 2 1) L L .cplx (A 2 1) (A 2 1) !₂[Complex.I, 1] !₂[Complex.I, 0] ∧ ∀ x z, inner ℂ (A 2 1 x) z = inner ℂ x (A 2 1 z) :=
  ⟨mixedLS (has_real _), mixedLS (has_cplx _), adj 2 1⟩

/-- **C99** fails for complex data and a start vector of real dtype.  A = [[2, i], [-i, 2]], y = (i, 0), x0 = (0, 0) of real dtype: the solution is (2 i / 3, -1 / 3), `cgls` returns its real
    parts (0, -1/3) without an error and the last residual norm in `cost` is 0, though ‖y - A x‖² = 20/9, more than ‖y‖². -/
theorem C99_violated : ∃ m ≤ 2, ∃ res : Nat → CGLSS.Result ℂ,
    (∀ r, (res r).x = (sp L .real).part 1 (ofRealVec !₂[0, -1 / 3] : Vec ℂ 2) r ∧ (res r).iiter = m ∧ (res r).cost.getLast? = some 0) ∧
    Always 1 (fun r => CGLSS.solve (env 1 (fun _ _ => 0) r) (op 2 1 r) ((sp L .cplx).part 1 (!₂[Complex.I, 0] : Vec ℂ 2) r) ((sp L .real).part 1 (ofRealVec !₂[0, 0] : Vec ℂ 2) r) (some 2) 0 0)
      (fun r => .ok (res r)) ∧ ‖(!₂[Complex.I, 0] : Vec ℂ 2) - A 2 1 (ofRealVec !₂[0, -1 / 3])‖ ^ 2 = 20 / 9 := by
  obtain ⟨m, hm, x, res, _, h2, h3, h4, h5⟩ := C99_returns (mx := 2) (adj 2 1) (mixedLS (dx := .real) (p := 2) (q := 1) (y := !₂[Complex.I, 0]) (has_real !₂[0, 0])) le_rfl
  have h0 : ‖(!₂[Complex.I, 0] : Vec ℂ 2) - A 2 1 x‖ = 0 := by
    refine le_antisymm ((h2 !₂[2 / 3 * Complex.I, -1 / 3]).trans (le_of_eq ?_)) (norm_nonneg _)
    rw [norm_eq_zero]
    ext i
    fin_cases i <;> simp [A] <;> ring_nf <;> simp
  have hx : x = !₂[2 / 3 * Complex.I, -1 / 3] := by
    have h6 := norm_eq_zero.1 h0
    have e0 := congrArg (fun v => v.ofLp 0) h6
    have e1 := congrArg (fun v => v.ofLp 1) h6
    simp [A] at e0 e1
    have f1 := congrArg Complex.re e0
    have f2 := congrArg Complex.im e0
    have f3 := congrArg Complex.re e1
    have f4 := congrArg Complex.im e1
    simp at f1 f2 f3 f4
    ext i
    fin_cases i <;> apply Complex.ext <;> simp <;> linarith
  have hs : storeAs .real x = ofRealVec !₂[0, -1 / 3] := by
    rw [hx]
    ext i
    fin_cases i <;> simp [storeAs, ofRealVec]
  rw [hs] at h3
  refine ⟨m, hm, res, fun r => ⟨(h3 r).1, (h3 r).2.1, (h3 r).2.2.2.1.trans (by rw [h0])⟩, h5, ?_⟩
  rw [EuclideanSpace.norm_sq_eq, Fin.sum_univ_two]
  simp only [← Complex.normSq_eq_norm_sq, Complex.normSq_apply]
  simp [A, ofRealVec]
  norm_num

end Verif

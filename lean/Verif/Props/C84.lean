/- C84: MPIFredholm1 and MPIMDC return the right result or raise; when MPIFredholm1 does which. -/
import Verif.Proofs.SafeMDC

set_option linter.unusedSectionVars false

namespace Verif
open NDArray

variable {K : Type} [Field K] [StarRing K] [CharZero K] {n : Nat} {sz : Nat → Nat} {J : Nat → Nat → K} {X : Layout} {dG dx : DType} {g : List K}

section
variable {nx ny nz : Nat} {sg um : Bool} {dt : DType}

/-- **C84** (MPIFredholm1).  Whatever the numbers of slices of the ranks (none, one or more), the sizes of the matrices, the flags and the layout of the input: in all executions
    all ranks end with the slice-wise products, or some rank raises. -/
theorem C84_fredholm (hg : g.length = psum sz n * (nx * ny)) (fg : FitsL dt g) (hdt : dt = .real → dx = .real) (b : Bool) (hXg : X.gshape = [psum sz n * (if b then nx else ny) * nz]) :
    ComputesOr n J (fun r => fredRun (kern sz nx ny dG g r) nz sg um dt b) ⟨X, dx⟩ ⟨.all (psum sz n * (if b then ny else nx) * nz), dt⟩
      (if b then fredholmAdj (psum sz n) nx ny nz g else fredholm (psum sz n) nx ny nz g) := fredRun_safe hg fg hdt b hXg

/-- **C84** (MPIFredholm1, when).  The right result is returned if and only if `FredGood` holds. -/
theorem C84_fredholm_iff (hn : 0 < n) (hg : g.length = psum sz n * (nx * ny)) (fg : FitsL dt g) (hdt : dt = .real → dx = .real) (b : Bool)
    (hXg : X.gshape = [psum sz n * (if b then nx else ny) * nz]) {d : List K} (hd : VSpace.Mem ⟨X, dx⟩ d) :
    Always n (fun r => fredRun (kern sz nx ny dG g r) nz sg um dt b (env n J r) (VSpace.vec ⟨X, dx⟩ n d r))
      (fun r => .ok (VSpace.vec ⟨.all (psum sz n * (if b then ny else nx) * nz), dt⟩ n ((if b then fredholmAdj (psum sz n) nx ny nz g else fredholm (psum sz n) nx ny nz g) d) r)) ↔
      FredGood n sz nx ny nz um b X := by
  have h := fredRun_cases (J := J) (sg := sg) (um := um) (dG := dG) hn hg fg hdt b hXg hd
  refine ⟨fun ha => ?_, fun hgd => (h.1 hgd).always⟩
  by_contra hgd
  obtain ⟨m, hm, e, he⟩ := h.2 hgd
  obtain ⟨qs, h1, h2⟩ := ha.runs
  obtain ⟨⟨s, hs, hs'⟩, -⟩ := RankEnds.of_steps h1 (h2 m hm) (St.init _) .refl
  cases (he s hs).2 _ hs'

end

section
variable {nt ns nr nv nfreq : Nat} {tw sg cj um ps : Bool} {fft : Nat → Nat → Nat → Bool → LOp K} {sqrt : Nat → K} {δt δr : K}

/-- **C84** (MPIMDC, forward; complex kernels).  Whatever the number of time samples, sources, receivers and virtual sources, the number of frequencies asked for, the number of slices of the kernel and
    their distribution, the flags and the layout of the input: all ranks end with the multi-dimensional convolution, or some rank raises. -/
theorem C84_mdc_matvec (hF : FFTOk (fft nt nr nv tw) nt (nt / 2 + 1) (nr * nv)) (hF1 : FFTOk (fft nt ns nv false) nt (nt / 2 + 1) (ns * nv)) (hd : dG = .cplx)
    (hg : g.length = psum sz n * (ns * nr)) (hnv : nv ≠ 0) (hXw : X.WF n) (hXg : X.gshape = [nt * nr * nv]) :
    ComputesOr n J (fun r => mdcRun fft sqrt (kern sz ns nr dG g r) nt nv nfreq δt δr tw sg cj um ps false) ⟨X, dx⟩ ⟨.all (nt * ns * nv), .cplx⟩
      (mdc (fft nt nr nv tw).fwd (fft nt ns nv false).adj (min nfreq (nt / 2 + 1)) (nt / 2 + 1) ns nr nv (mdcKernel ps cj (δr * δt * sqrt nt) g)) := mdcRun_safe hF hF1 hd hg hnv hXw hXg

/-- **C84** (MPIMDC, adjoint; complex kernels). -/
theorem C84_mdc_rmatvec (hF : FFTOk (fft nt nr nv tw) nt (nt / 2 + 1) (nr * nv)) (hF1 : FFTOk (fft nt ns nv false) nt (nt / 2 + 1) (ns * nv)) (hd : dG = .cplx)
    (hg : g.length = psum sz n * (ns * nr)) (hnv : nv ≠ 0) (hXw : X.WF n) (hXg : X.gshape = [nt * ns * nv]) :
    ComputesOr n J (fun r => mdcRun fft sqrt (kern sz ns nr dG g r) nt nv nfreq δt δr tw sg cj um ps true) ⟨X, dx⟩ ⟨.all (nt * nr * nv), .cplx⟩
      (mdcAdj (fft nt nr nv tw).adj (fft nt ns nv false).fwd (min nfreq (nt / 2 + 1)) (nt / 2 + 1) ns nr nv (mdcKernel ps cj (δr * δt * sqrt nt) g)) := mdcRun_safeAdj hF hF1 hd hg hnv hXw hXg

/-- Scattered inputs of MPIMDC always make some rank raise. -/
theorem C84_mdc_scatter (hn : 0 < n) (h : MDCOk fft n sz nt ns nr nv nfreq tw dG g) (b : Bool) (hX : X.part = .scatter) (hax : X.axis = 0) {a : Nat → List K} :
    Raises n (fun r => mdcRun fft sqrt (kern sz ns nr dG g r) nt nv nfreq δt δr tw sg cj um ps b (env n J r) (X.fam n dx a r)) := by
  unfold mdcRun
  simp only [Prog.bind_eq]
  obtain ⟨m, hm, e, he⟩ := mdc_scatter (J := J) (n := n) (sz := sz) (nfft := nt / 2 + 1) (ns := ns) (nr := nr) (nv := nv) (sg := sg) (um := um) (cj := cj) (dx := dx) (a := a)
    (g := scaledKernel ps (δr * δt * sqrt nt) g) hn h.fftF.dtype h.fftF1.dtype h.cplx b hX hax
  exact ⟨m, hm, e, rankEnds_bind_ok hm (mkMDC_runs h) he⟩

end

/-! ### Examples -/

/-- Non-vacuity: two slices of 1 × 2 matrices on rank 0, none on rank 1, three on rank 2. -/
example (b : Bool) : ComputesOr 3 (fun _ _ => (0 : ℚ)) (fun r => fredRun (kern (fun r => [2, 0, 3].getD r 0) 1 2 .real ((List.range 10).map fun i => (i : ℚ)) r) 2 true false .real b)
    ⟨.all (if b then 10 else 20), .real⟩ ⟨.all (if b then 20 else 10), .real⟩ (if b then fredholmAdj 5 1 2 2 ((List.range 10).map fun i => (i : ℚ)) else fredholm 5 1 2 2 ((List.range 10).map fun i => (i : ℚ))) := by
  have := C84_fredholm (n := 3) (J := fun _ _ => (0 : ℚ)) (sz := fun r => [2, 0, 3].getD r 0) (nx := 1) (ny := 2) (nz := 2) (sg := true) (um := false) (dG := .real) (dt := .real) (dx := .real)
    (g := (List.range 10).map fun i => (i : ℚ)) (X := .all (if b then 10 else 20)) rfl (fits_rat _ _) (fun _ => rfl) b (by cases b <;> rfl)
  cases b <;> exact this

/-- `matvec` returns, `rmatvec` raises. -/
example : FredGood 3 (fun r => [2, 0, 3].getD r 0) 1 2 2 false false (.all 20) ∧ ¬ FredGood 3 (fun r => [2, 0, 3].getD r 0) 1 2 2 false true (.all 10) := by
  unfold FredGood
  decide

/-- products of numbers, which are not affected by the removal of axes -/
example : FredGood 2 (fun _ => 3) 1 1 1 false true (.all 6) ∧ ¬ FredGood 2 (fun _ => 3) 1 1 1 true true (.all 6) := by
  unfold FredGood
  decide

/-- Non-vacuity for MPIMDC: the hypotheses allow a rank without frequencies, an even number of samples with `twosided`, one source and a scattered input. -/
example (ω : QI) (nfreq : Nat) (tw um : Bool) : ComputesOr 2 (fun _ _ => 0) (fun r => mdcRun (rfft ω) (fun _ => 1) (kern (fun r => 2 * r) 1 2 .cplx ((List.range 4).map fun i => (⟨i, 1⟩ : QI)) r) 4 1 nfreq 1 1 tw true false um true false)
    ⟨.lin 8 fun _ => 4, .real⟩ ⟨.all 4, .cplx⟩ (mdc (rfft ω 4 2 1 tw).fwd (rfft ω 4 1 1 false).adj (min nfreq 3) 3 1 2 1 ((List.range 4).map fun i => (⟨i, 1⟩ : QI))) :=
  C84_mdc_matvec (n := 2) (sz := fun r => 2 * r) (nt := 4) (ns := 1) (nr := 2) (nv := 1) (nfreq := nfreq) (tw := tw) (sg := true) (cj := false) (um := um) (ps := true) (fft := rfft ω) (X := .lin 8 fun _ => 4)
    (rfft_ok ..) (rfft_ok ..) rfl rfl (by decide) (lin_wf rfl (by simp)) rfl

end Verif

/- C39: MPIMDC is the chained operator and an adjoint pair. -/
import Verif.Proofs.MDC
import Verif.MPI.Sim
import Verif.Spec.Gauss
import Verif.Spec.Examples

namespace Verif
open NDArray
set_option linter.unusedSectionVars false

variable {K : Type} [Field K] [StarRing K] [CharZero K]

/-- build the operator and apply its `matvec` (`b = false`) or `rmatvec` (`b = true`) -/
def mdcRun (fft : Nat → Nat → Nat → Bool → LOp K) (sqrt : Nat → K) (G : NDArray K) (nt nv nfreq : Nat) (dt dr : K)
    (twosided saveGt conj usematmul prescaled : Bool) (b : Bool) (c : Ctx K) (x : DArr K) : P K (DArr K) := do
  let p ← mkMDC c fft sqrt G nt nv nfreq dt dr twosided saveGt conj usematmul prescaled
  MOp.run c b p.1 x

variable {n : Nat} {sz : Nat → Nat} {nt ns nr nv nfreq : Nat} {tw sg cj um ps : Bool} {dG dx : DType} {g : List K} {J : Nat → Nat → K} {X : Layout}
  {fft : Nat → Nat → Nat → Bool → LOp K} {sqrt : Nat → K} {δt δr : K}

/-- What is needed of the arguments: an odd number of samples if `twosided`; a complex kernel with at least two of its slices on each rank; as many slices as the
    requested number of frequencies, clamped to `⌈(nt + 1) / 2⌉`; and Fourier transforms with the right sizes and dtype. -/
structure MDCOk (fft : Nat → Nat → Nat → Bool → LOp K) (n : Nat) (sz : Nat → Nat) (nt ns nr nv nfreq : Nat) (tw : Bool) (dG : DType) (g : List K) : Prop where
  odd : tw = true → nt % 2 = 1
  cplx : dG = .cplx
  slices : ∀ r < n, 2 ≤ sz r
  dims : ns ≠ 0 ∧ nr ≠ 0
  length : g.length = psum sz n * (ns * nr)
  freq : psum sz n = min nfreq (nt / 2 + 1)
  fftF : FFTOk (fft nt nr nv tw) nt (nt / 2 + 1) (nr * nv)
  fftF1 : FFTOk (fft nt ns nv false) nt (nt / 2 + 1) (ns * nv)

/-- the kernel after scaling -/
def scaledKernel (ps : Bool) (s : K) (g : List K) : List K := if ps then g else g.map (s * ·)

theorem kernel_eq {s : K} : (if cj then vconj (scaledKernel ps s g) else scaledKernel ps s g) = mdcKernel ps cj s g := by
  cases cj <;> cases ps <;> simp [mdcKernel, scaledKernel, vconj]

theorem mkMDC_runs (h : MDCOk fft n sz nt ns nr nv nfreq tw dG g) :
    Runs n (fun r => mkMDC (env n J r) fft sqrt (kern sz ns nr dG g r) nt nv nfreq δt δr tw sg cj um ps)
      (fun r => .ok ((mdcExpr cj).map (mdcPrim (fft nt nr nv tw) (fft nt ns nv false) n sz (nt / 2 + 1) ns nr nv sg um dG (scaledKernel ps (δr * δt * sqrt nt) g) · r), .real)) := by
  unfold mkMDC
  have c1 : ¬ (tw = true ∧ nt % 2 = 0) := fun hc => by have := h.odd hc.1; omega
  have c2 : ∀ r < n, ¬ ((kern sz ns nr dG g r).shape.length < 3 ∨ 0 ∈ (kern sz ns nr dG g r).shape.take 3) := fun r hr => by
    have := h.slices r hr
    have := h.dims
    simp [kern]; omega
  have c3 : ∀ r, (if ps then kern sz ns nr dG g r else (kern sz ns nr dG g r).map (δr * δt * sqrt nt * ·)) = kern sz ns nr dG (scaledKernel ps (δr * δt * sqrt nt) g) r := fun r => by
    cases ps <;> simp [kern, scaledKernel, NDArray.map, slab, List.map_take, List.map_drop]
  have c4 : (if nfreq > nt / 2 + 1 then nt / 2 + 1 else nfreq) = psum sz n := by rw [h.freq]; split_ifs <;> omega
  simp only [if_neg c1, Prog.bind_eq]
  refine Runs.congr (ps := fun r => (mkFredholm (env n J r) (kern sz ns nr dG (scaledKernel ps (δr * δt * sqrt nt) g) r) nv sg um dG).bind fun fr =>
    (Prog.lift (mdcChain fft nt ns nr nv nfreq tw cj dG fr)).bind fun m => .ret (m, DType.real)) ?_ (fun r hr => ?_) fun _ _ => rfl
  · refine Runs.bind_ok (runs_mkFredholm fun r hr => by have := h.slices r hr; omega) ?_
    refine (Runs.ret _).congr (fun r hr => ?_) fun _ _ => rfl
    have e1 : (fft nt ns nv false).rows = (nt / 2 + 1) * ns * nv := by rw [h.fftF1.rows, Nat.mul_assoc]
    have e2 : (fft nt nr nv tw).rows = (nt / 2 + 1) * nr * nv := by rw [h.fftF.rows, Nat.mul_assoc]
    have e : mdcChain fft nt ns nr nv nfreq tw cj dG (fredPrim n sz ns nr nv sg um dG dG (scaledKernel ps (δr * δt * sqrt nt) g) r)
        = .ok ((mdcExpr cj).map (mdcPrim (fft nt nr nv tw) (fft nt ns nv false) n sz (nt / 2 + 1) ns nr nv sg um dG (scaledKernel ps (δr * δt * sqrt nt) g) · r)) := by
      unfold mdcChain
      simp only [c4]
      cases cj <;>
        simp [MOp.H, MOp.mul, MOp.shape, wrap, identityOp, fredPrim, bind, Except.bind, e1, e2, mdcExpr, MOp.map, mdcPrim]
    rw [e]
    rfl
  · rw [if_neg (c2 r hr), c3]
    rfl

/-- **C39** (forward; partial: complex kernel, at least two slices on each rank, more than one receiver, and — for the loop version with one source and `nv = 1` — as many slices
    on all ranks).  Whatever the number of ranks, the distribution of the frequencies and the flags, all ranks end up with the multi-dimensional convolution. -/
theorem C39_matvec_partial (h : MDCOk fft n sz nt ns nr nv nfreq tw dG g) (hnr : nr ≠ 1) (hu : um = true ∨ ns ≠ 1 ∨ nv ≠ 1 ∨ ∀ r < n, sz r = sz 0)
    (hXw : X.WF n) (hX : X.part.isBroadcast = true) (hXg : X.gshape = [nt * nr * nv]) :
    Computes n J (fun r => mdcRun fft sqrt (kern sz ns nr dG g r) nt nv nfreq δt δr tw sg cj um ps false) ⟨X, dx⟩ ⟨.all (nt * ns * nv), .cplx⟩
      (mdc (fft nt nr nv tw).fwd (fft nt ns nv false).adj (min nfreq (nt / 2 + 1)) (nt / 2 + 1) ns nr nv (mdcKernel ps cj (δr * δt * sqrt nt) g)) := by
  have ht := typed_computes (mdc_typed (J := J) (sg := sg) (dx := dx) (conj := cj) (g := scaledKernel ps (δr * δt * sqrt nt) g) h.fftF h.fftF1 (fun r hr => by have := h.slices r hr; omega)
    (by cases ps <;> simp [scaledKernel, h.length]) h.cplx hnr hu hXw hX hXg)
  refine Computes.intro fun d hd => ?_
  have hm := ht.mem hd
  have hr := ht.runs hd
  rw [den_mdc, kernel_eq, h.freq] at hm hr
  refine ⟨hm, ?_⟩
  unfold mdcRun
  simp only [Prog.bind_eq]
  exact Runs.bind_ok (mkMDC_runs h) hr

/-- **C39** (adjoint; partial likewise, with more than one source) -/
theorem C39_rmatvec_partial (h : MDCOk fft n sz nt ns nr nv nfreq tw dG g) (hns : ns ≠ 1) (hu : um = true ∨ nr ≠ 1 ∨ nv ≠ 1 ∨ ∀ r < n, sz r = sz 0)
    (hXw : X.WF n) (hX : X.part.isBroadcast = true) (hXg : X.gshape = [nt * ns * nv]) :
    Computes n J (fun r => mdcRun fft sqrt (kern sz ns nr dG g r) nt nv nfreq δt δr tw sg cj um ps true) ⟨X, dx⟩ ⟨.all (nt * nr * nv), .cplx⟩
      (mdcAdj (fft nt nr nv tw).adj (fft nt ns nv false).fwd (min nfreq (nt / 2 + 1)) (nt / 2 + 1) ns nr nv (mdcKernel ps cj (δr * δt * sqrt nt) g)) := by
  have ht := typed_computes (mdc_typedAdj (J := J) (sg := sg) (dx := dx) (conj := cj) (g := scaledKernel ps (δr * δt * sqrt nt) g) h.fftF h.fftF1 (fun r hr => by have := h.slices r hr; omega)
    (by cases ps <;> simp [scaledKernel, h.length]) h.cplx hns hu hXw hX hXg)
  refine Computes.intro fun d hd => ?_
  have hm := ht.mem hd
  have hr := ht.runs hd
  rw [den_mdcAdj, kernel_eq, h.freq] at hm hr
  refine ⟨hm, ?_⟩
  unfold mdcRun
  simp only [Prog.bind_eq]
  exact Runs.bind_ok (mkMDC_runs h) hr

theorem rip_of_ip {u v u' v' : List K} (h : ip u v = ip u' v') : rip u v = rip u' v' := by unfold rip; rw [h]
theorem rip_comm (u v : List K) : rip u v = rip v u := by unfold rip; rw [← ip_comm v u, star_star, add_comm]

/-- **C39** (adjoint identity).  If the Fourier transforms are adjoint pairs for the real part of the inner product and real inputs, then so is the whole chain. -/
theorem C39_adjoint {F F1 : LOp K} {T nfft : Nat} (hF : FFTOk F nt nfft (nr * nv)) (hF1 : FFTOk F1 nt nfft (ns * nv)) (aF : F.RealAdjoint) (aF1 : F1.RealAdjoint)
    {u v : List K} (hu : u.length = nt * nr * nv) (hv : v.length = nt * ns * nv) (ru : FitsL .real u) (rv : FitsL .real v) :
    rip (mdc F.fwd F1.adj T nfft ns nr nv g u) v = rip u (mdcAdj F.adj F1.fwd T nfft ns nr nv g v) := by
  have hu' : u.length = F.cols := by rw [hu, hF.cols, Nat.mul_assoc]
  have hv' : v.length = F1.cols := by rw [hv, hF1.cols, Nat.mul_assoc]
  have l1 : (F.fwd u).length = nfft * nr * nv := by rw [hF.len_fwd u hu', hF.rows, Nat.mul_assoc]
  have l2 : (F1.fwd v).length = nfft * ns * nv := by rw [hF1.len_fwd v hv', hF1.rows, Nat.mul_assoc]
  unfold mdc mdcAdj
  have e1 := aF1 v (toSize (nfft * ns * nv) (fredholm T ns nr nv g (toSize (T * nr * nv) (F.fwd u)))) hv' (by rw [length_toSize, hF1.rows, Nat.mul_assoc]) rv
  have e2 := aF u (toSize (nfft * nr * nv) (fredholmAdj T ns nr nv g (toSize (T * ns * nv) (F1.fwd v)))) hu' (by rw [length_toSize, hF.rows, Nat.mul_assoc]) ru
  rw [← e2, rip_comm, ← e1, rip_comm]
  refine rip_of_ip ?_
  rw [ip_toSize (M := T * ns * nv) (by rw [fredholm, length_tab3, Nat.mul_assoc]) l2, ip_fredholm (by rw [length_toSize, Nat.mul_assoc]) (by rw [length_toSize, Nat.mul_assoc]),
    ip_toSize l1 (by rw [fredholmAdj, length_tab3, Nat.mul_assoc])]

/-- If the Fourier transforms are adjoint pairs for the inner product itself, then so is the whole chain. -/
theorem C39_adjoint' {F F1 : LOp K} {T nfft : Nat} (hF : FFTOk F nt nfft (nr * nv)) (hF1 : FFTOk F1 nt nfft (ns * nv)) (aF : F.Adjoint) (aF1 : F1.Adjoint)
    {u v : List K} (hu : u.length = nt * nr * nv) (hv : v.length = nt * ns * nv) :
    ip (mdc F.fwd F1.adj T nfft ns nr nv g u) v = ip u (mdcAdj F.adj F1.fwd T nfft ns nr nv g v) := by
  have hu' : u.length = F.cols := by rw [hu, hF.cols, Nat.mul_assoc]
  have hv' : v.length = F1.cols := by rw [hv, hF1.cols, Nat.mul_assoc]
  have l1 : (F.fwd u).length = nfft * nr * nv := by rw [hF.len_fwd u hu', hF.rows, Nat.mul_assoc]
  have l2 : (F1.fwd v).length = nfft * ns * nv := by rw [hF1.len_fwd v hv', hF1.rows, Nat.mul_assoc]
  unfold mdc mdcAdj
  have e1 := aF1 v (toSize (nfft * ns * nv) (fredholm T ns nr nv g (toSize (T * nr * nv) (F.fwd u)))) hv' (by rw [length_toSize, hF1.rows, Nat.mul_assoc])
  have e2 := aF u (toSize (nfft * nr * nv) (fredholmAdj T ns nr nv g (toSize (T * ns * nv) (F1.fwd v)))) hu' (by rw [length_toSize, hF.rows, Nat.mul_assoc])
  rw [← e2, ip_swap e1]
  rw [ip_toSize (M := T * ns * nv) (by rw [fredholm, length_tab3, Nat.mul_assoc]) l2, ip_fredholm (by rw [length_toSize, Nat.mul_assoc]) (by rw [length_toSize, Nat.mul_assoc]),
    ip_toSize l1 (by rw [fredholmAdj, length_tab3, Nat.mul_assoc])]

/-- **C39** (rejection).  An even number of samples is rejected if `twosided`. -/
theorem C39_rejects (htw : tw = true) (hev : nt % 2 = 0) (c : Ctx K) (G : NDArray K) :
    mkMDC c fft sqrt G nt nv nfreq δt δr tw sg cj um ps = .throw .value := by
  unfold mkMDC
  rw [if_pos ⟨htw, hev⟩]

/-- A kernel with another number of slices than the (clamped) number of frequencies is rejected, on all ranks. -/
theorem C39_rejects_freq (h : ∀ r < n, 2 ≤ sz r) (hns : ns ≠ 0) (hnr : nr ≠ 0) (hnv : nv ≠ 0) (hodd : tw = true → nt % 2 = 1) (hF1 : (fft nt ns nv false).rows = (nt / 2 + 1) * ns * nv)
    (hT : psum sz n ≠ min nfreq (nt / 2 + 1)) :
    Always n (fun r => mkMDC (env n J r) fft sqrt (kern sz ns nr dG g r) nt nv nfreq δt δr tw sg cj um ps) fun _ => .error .value := by
  refine Runs.always ?_
  unfold mkMDC
  have c1 : ¬ (tw = true ∧ nt % 2 = 0) := fun hc => by have := hodd hc.1; omega
  have c2 : ∀ r < n, ¬ ((kern sz ns nr dG g r).shape.length < 3 ∨ 0 ∈ (kern sz ns nr dG g r).shape.take 3) := fun r hr => by
    have := h r hr
    simp [kern]; omega
  have c3 : ∀ r, (if ps then kern sz ns nr dG g r else (kern sz ns nr dG g r).map (δr * δt * sqrt nt * ·)) = kern sz ns nr dG (scaledKernel ps (δr * δt * sqrt nt) g) r := fun r => by
    cases ps <;> simp [kern, scaledKernel, NDArray.map, slab, List.map_take, List.map_drop]
  have c4 : (if nfreq > nt / 2 + 1 then nt / 2 + 1 else nfreq) = min nfreq (nt / 2 + 1) := by split_ifs <;> omega
  simp only [if_neg c1, Prog.bind_eq]
  refine Runs.congr (ps := fun r => (mkFredholm (env n J r) (kern sz ns nr dG (scaledKernel ps (δr * δt * sqrt nt) g) r) nv sg um dG).bind fun fr =>
    (Prog.lift (mdcChain fft nt ns nr nv nfreq tw cj dG fr)).bind fun m => .ret (m, DType.real)) ?_ (fun r hr => ?_) fun _ _ => rfl
  · refine Runs.bind_ok (runs_mkFredholm fun r hr => by have := h r hr; omega) ?_
    refine (Runs.throw fun _ => Err.value).congr (fun r hr => ?_) fun _ _ => rfl
    have hne : min nfreq (nt / 2 + 1) * ns * nv ≠ psum sz n * ns * nv := fun he => hT (by
      have := Nat.eq_of_mul_eq_mul_right (Nat.pos_of_ne_zero hnv) he
      exact (Nat.eq_of_mul_eq_mul_right (Nat.pos_of_ne_zero hns) this).symm)
    have e : mdcChain fft nt ns nr nv nfreq tw cj dG (fredPrim n sz ns nr nv sg um dG dG (scaledKernel ps (δr * δt * sqrt nt) g) r) = .error .value := by
      unfold mdcChain
      simp only [c4]
      cases cj <;>
        simp [MOp.H, MOp.mul, MOp.shape, wrap, identityOp, fredPrim, bind, Except.bind, hF1, hne]
    rw [e]
    rfl
  · rw [if_neg (c2 r hr), c3]
    rfl

/-! ### An example -/

/-- A Fourier transform of real data: `ω` is the root of unity; the adjoint takes the real part. -/
def rfft (ω : K) (nt n nv : Nat) (_ : Bool) : LOp K where
  rows := (nt / 2 + 1) * (n * nv)
  cols := nt * (n * nv)
  dtype := .cplx
  fwd x := (List.range (nt / 2 + 1)).flatMap fun f => (List.range (n * nv)).map fun k => ∑ t ∈ Finset.range nt, ω ^ (f * t) * x.getD (t * (n * nv) + k) 0
  adj y := (List.range nt).flatMap fun t => (List.range (n * nv)).map fun k =>
    (∑ f ∈ Finset.range (nt / 2 + 1), star (ω ^ (f * t)) * y.getD (f * (n * nv) + k) 0 + star (∑ f ∈ Finset.range (nt / 2 + 1), star (ω ^ (f * t)) * y.getD (f * (n * nv) + k) 0)) / 2

theorem rfft_ok (ω : K) (nt n nv : Nat) (s : Bool) : FFTOk (rfft ω nt n nv s) nt (nt / 2 + 1) (n * nv) :=
  ⟨rfl, rfl, rfl, fun _ _ => length_tab2 .., fun _ _ => length_tab2 ..⟩

theorem ip_tab2 {a b : Nat} {f : Nat → Nat → K} {v : List K} (hv : v.length = a * b) :
    ip ((List.range a).flatMap fun i => (List.range b).map fun z => f i z) v = ∑ i ∈ Finset.range a, ∑ z ∈ Finset.range b, star (f i z) * v.getD (i * b + z) 0 := by
  have h1 : (List.range a).flatMap (fun i => (List.range b).map fun z => f i z) = tab3 1 a b fun _ => f := by simp [tab3]
  have h2 := tab3_entry3 (a := 1) (b := a) (c := b) (d := v) (by rw [hv, one_mul])
  rw [h1]
  conv_lhs => rw [← h2]
  rw [ip_tab3]
  simp [entry3]

theorem rfft_adjoint (ω : K) (nt n nv : Nat) (s : Bool) : (rfft ω nt n nv s).RealAdjoint := by
  intro u v hu hv ru
  have h2 : (2 : K) ≠ 0 := two_ne_zero
  have e1 : ip ((rfft ω nt n nv s).fwd u) v
      = ∑ t ∈ Finset.range nt, ∑ k ∈ Finset.range (n * nv), u.getD (t * (n * nv) + k) 0 * ∑ f ∈ Finset.range (nt / 2 + 1), star (ω ^ (f * t)) * v.getD (f * (n * nv) + k) 0 := by
    rw [rfft, ip_tab2 hv]
    simp only [star_sum, star_mul', fits_getD ru rfl, Finset.sum_mul, Finset.mul_sum]
    rw [Finset.sum_comm' (t' := Finset.range (n * nv)) (s' := fun _ => Finset.range (nt / 2 + 1)) (by simp [and_comm])]
    rw [Finset.sum_comm' (s := Finset.range nt) (t' := Finset.range (n * nv)) (s' := fun _ => Finset.range nt) (by simp [and_comm])]
    refine Finset.sum_congr rfl fun k _ => ?_
    rw [Finset.sum_comm]
    exact Finset.sum_congr rfl fun t _ => Finset.sum_congr rfl fun f _ => by ring
  have e2 : ip u ((rfft ω nt n nv s).adj v)
      = ∑ t ∈ Finset.range nt, ∑ k ∈ Finset.range (n * nv), u.getD (t * (n * nv) + k) 0 * ((∑ f ∈ Finset.range (nt / 2 + 1), star (ω ^ (f * t)) * v.getD (f * (n * nv) + k) 0
        + star (∑ f ∈ Finset.range (nt / 2 + 1), star (ω ^ (f * t)) * v.getD (f * (n * nv) + k) 0)) / 2) := by
    rw [← ip_comm, rfft, ip_tab2 hu, star_sum]
    refine Finset.sum_congr rfl fun t _ => ?_
    rw [star_sum]
    refine Finset.sum_congr rfl fun k _ => ?_
    rw [star_mul', star_star, fits_getD ru rfl, mul_comm]
  unfold rip
  rw [e1, e2]
  have e3 : ∀ (c : Nat → Nat → K), star (∑ t ∈ Finset.range nt, ∑ k ∈ Finset.range (n * nv), c t k) = ∑ t ∈ Finset.range nt, ∑ k ∈ Finset.range (n * nv), star (c t k) :=
    fun c => by simp only [star_sum]
  rw [e3, e3]
  simp only [← Finset.sum_add_distrib]
  refine Finset.sum_congr rfl fun t _ => Finset.sum_congr rfl fun k _ => ?_
  generalize ∑ f ∈ Finset.range (nt / 2 + 1), star (ω ^ (f * t)) * v.getD (f * (n * nv) + k) 0 = S
  simp only [star_mul', star_div₀, star_add, star_star, fits_getD ru rfl, star_ofNat]
  ring

/-- Non-vacuity: four samples, three frequencies (seven requested, clamped to three), two sources and receivers. -/
example : MDCOk (rfft (star QI.I)) 1 (fun _ => 3) 4 2 2 1 7 false .cplx ((List.range 12).map fun i => (⟨i, 1⟩ : QI)) :=
  ⟨by simp, rfl, by simp, by decide, rfl, rfl, rfft_ok .., rfft_ok ..⟩
example (ω : QI) : MDCOk (rfft ω) 2 (fun r => r + 2) 9 2 2 1 5 true .cplx ((List.range 20).map fun i => (⟨i, 1⟩ : QI)) :=
  ⟨by simp, rfl, by simp, by decide, rfl, rfl, rfft_ok .., rfft_ok ..⟩

/-! ### Where the claim is false -/

/-- **C39 fails for a kernel of real dtype**: the frequency selection (`Identity` with the dtype of the kernel) drops the imaginary part of the spectrum.  One rank, four
    samples, all three frequencies, two sources and receivers, kernel of ones. -/
theorem C39_violated_real :
    Ends 1 (fun r => do
        let y ← mdcRun (rfft (star QI.I)) (fun _ => 1) (kern (fun _ => 3) 2 2 .real (List.replicate 12 (1 : QI)) r) 4 1 3 1 1 false true false true true false
          (env 1 (fun _ _ => 0) r) (VSpace.vec ⟨.all 8, .real⟩ 1 [0, 1, 1, 0, 0, 0, 2, 0] r)
        .ret y.larr.data)
      (fun r => [some (.ok [3, 3, 6, 6, 1, 1, 6, 6])].getD r none) ∧
    mdc (rfft (star QI.I) 4 2 1 false).fwd (rfft (star QI.I) 4 2 1 false).adj 3 3 2 2 1 (List.replicate 12 1) [0, 1, 1, 0, 0, 0, 2, 0] = [3, 3, 5, 5, 1, 1, 7, 7] :=
  ⟨ends_of_sim 200 (by decide +kernel), by decide +kernel⟩

/-- **C39 fails if some rank has no slice**: in all executions that rank raises IndexError and the others wait forever. -/
theorem C39_violated_empty (hodd : tw = true → nt % 2 = 1) (hns : ns ≠ 0) (hnr : nr ≠ 0) (h0 : ∃ r < n, sz r = 0) :
    Ends n (fun r => mkMDC (env n J r) fft sqrt (kern sz ns nr dG g r) nt nv nfreq δt δr tw sg cj um ps) fun r => if sz r = 0 then some (.error .index) else none := by
  obtain ⟨q, hq, hq0⟩ := h0
  have c1 : ¬ (tw = true ∧ nt % 2 = 0) := fun hc => by have := hodd hc.1; omega
  have c2 : ∀ r, ((kern sz ns nr dG g r).shape.length < 3 ∨ 0 ∈ (kern sz ns nr dG g r).shape.take 3) ↔ sz r = 0 := fun r => by
    simp [kern]; omega
  have c3 : ∀ r, (if ps then kern sz ns nr dG g r else (kern sz ns nr dG g r).map (δr * δt * sqrt nt * ·)) = kern sz ns nr dG (scaledKernel ps (δr * δt * sqrt nt) g) r := fun r => by
    cases ps <;> simp [kern, scaledKernel, NDArray.map, slab, List.map_take, List.map_drop]
  refine Ends.of_blocked .refl fun r hr => ?_
  by_cases h : sz r = 0
  · simp only [if_pos h]
    unfold mkMDC
    rw [if_neg c1, if_pos ((c2 r).2 h)]
    rfl
  · simp only [if_neg h]
    right
    refine ⟨.allgather, List.range n, Enc.enc (sz r), ?_⟩
    have e : ∀ r, sz r ≠ 0 → ∃ k, mkMDC (env n J r) fft sqrt (kern sz ns nr dG g r) nt nv nfreq δt δr tw sg cj um ps = .coll .allgather (List.range n) (Enc.enc (sz r)) k := fun r hr => by
      unfold mkMDC
      rw [if_neg c1, if_neg (mt (c2 r).1 hr), c3]
      exact ⟨_, rfl⟩
    obtain ⟨k, hk⟩ := e r h
    refine ⟨k, hk, q, by simpa using hq, fun v' k' => ?_⟩
    unfold mkMDC
    rw [if_neg c1, if_pos ((c2 q).2 hq0)]
    simp

end Verif

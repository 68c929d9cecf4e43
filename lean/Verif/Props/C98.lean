/- C98: the script of the gallery on multi-dimensional convolution. -/
import Verif.Model.GalleryMDC
import Verif.Props.C82
import Verif.Props.C84
import Verif.Proofs.SafeStacks

set_option linter.unusedSectionVars false

namespace Verif
open NDArray

variable {K : Type} [RCLike K]
variable {n : Nat} {J : Nat → Nat → K} {fft : Nat → Nat → Nat → Bool → LOp K} {sqrt : Nat → K} {nt ns nx nf : Nat} {δt : K} {g m : List K}

/-- the real part of a list of numbers, as an array -/
def realArr (x : List K) : NDArray K := ⟨[x.length], .real, x.map fun z => (z + star z) / 2⟩

theorem areal_eq {N : Nat} {x : List K} (hl : x.length = N) : areal (⟨[N], .cplx, x⟩ : NDArray K) = realArr x := by
  unfold areal realArr
  subst hl
  rfl

theorem realArr_real {x : List K} (h : FitsL .real x) : realArr x = ⟨[x.length], .real, x⟩ := by
  unfold realArr
  congr 1
  conv_rhs => rw [← List.map_id x]
  refine List.map_congr_left fun z hz => ?_
  rw [h rfl z hz]
  simp

/-- **C98** (plot_mdc.py).  Let `G` be the kernel with `nf` frequencies, `ns` sources and `nx` receivers, where every rank gets at least two of the frequencies and none is beyond the last one
    of the Fourier transform of `2 nt - 1` samples.  `A` is the multi-dimensional convolution with the kernel times `dt sqrt(2 nt - 1)` and `B` the correlation.  For every real model `m`, in
    every execution all ranks finish with the same two arrays: the real parts of `A m` and of `B (A m)`. -/
theorem C98_mdc (hnt : 1 ≤ nt) (hns : 2 ≤ ns) (hnx : 2 ≤ nx) (hnf : 2 * n ≤ nf) (hnf' : nf ≤ nt)
    (hg : g.length = nf * (ns * nx)) (hF : FFTOk (fft (2 * nt - 1) nx 1 true) (2 * nt - 1) nt (nx * 1)) (hF1 : FFTOk (fft (2 * nt - 1) ns 1 false) (2 * nt - 1) nt (ns * 1))
    (hm : m.length = (2 * nt - 1) * nx * 1) (hf : FitsL .real m) :
    let k := g.map (δt * sqrt (2 * nt - 1) * ·)
    let A := mdc (fft (2 * nt - 1) nx 1 true).fwd (fft (2 * nt - 1) ns 1 false).adj nf nt ns nx 1 k
    let B := mdcAdj (fft (2 * nt - 1) nx 1 true).adj (fft (2 * nt - 1) ns 1 false).fwd nf nt ns nx 1 k
    Always n (fun r => exMdc (env n J r) fft sqrt ⟨[nf, ns, nx], .cplx, g⟩ nt nx nf δt ⟨[(2 * nt - 1) * nx * 1], .real, m⟩) (fun _ => .ok (realArr (A m), realArr (B (A m)))) := by
  intro k A B
  set T := 2 * nt - 1 with hTd
  have hT : T / 2 + 1 = nt := by omega
  set F := fft T nx 1 true with hFd
  set F1 := fft T ns 1 false with hF1d
  have lA : ∀ x, (A x).length = T * ns * 1 := fun x => by
    have := hF1.len_adj (toSize (nt * ns * 1) (fredholm nf ns nx 1 k (toSize (nf * nx * 1) (F.fwd x)))) (by rw [length_toSize, hF1.rows, Nat.mul_assoc])
    rw [hF1.cols, ← Nat.mul_assoc] at this
    exact this
  have lB : ∀ y, (B y).length = T * nx * 1 := fun y => by
    have := hF.len_adj (toSize (nt * nx * 1) (fredholmAdj nf ns nx 1 k (toSize (nf * ns * 1) (F1.fwd y)))) (by rw [length_toSize, hF.rows, Nat.mul_assoc])
    rw [hF.cols, ← Nat.mul_assoc] at this
    exact this
  rcases Nat.eq_zero_or_pos n with hn | hn
  · subst hn; exact Runs.of_zero.always
  have hsl : ∀ r < n, 2 ≤ balanced nf n r := fun r hr => by
    have : 2 ≤ nf / n := (Nat.le_div_iff_mul_le hn).2 hnf
    unfold balanced; split_ifs <;> omega
  have htot := psum_balanced_total nf hn
  have ok : MDCOk fft n (balanced nf n) T ns nx 1 nf true .cplx g := by
    refine ⟨fun _ => by omega, rfl, hsl, by omega, by rw [htot, hg], by rw [htot, hT]; omega, ?_, ?_⟩
    · rw [hT]; exact hF
    · rw [hT]; exact hF1
  have hmk := mkMDC_runs (J := J) (sqrt := sqrt) (δt := δt) (δr := 1) (sg := true) (cj := false) (um := false) (ps := false) ok
  rw [hT, show scaledKernel false (1 * δt * sqrt T) g = k by simp only [scaledKernel, k, one_mul, Bool.false_eq_true, if_false, hTd]] at hmk
  set lv := mdcLeaves F F1 nt ns nx 1 k (psum (balanced nf n) n) with hlv
  set prim := mdcPrim F F1 n (balanced nf n) nt ns nx 1 true false .cplx k with hprim
  have hgl : k.length = psum (balanced nf n) n * (ns * nx) := by rw [List.length_map]; exact ok.length
  have t0 : Typed lv n J prim false (mdcExpr false) ⟨.all (T * nx * 1), .real⟩ ⟨.all (T * ns * 1), .cplx⟩ :=
    mdc_typed hF hF1 (fun r hr => by have := hsl r hr; omega) hgl rfl (by omega) (.inr (.inl (by omega))) (all_wf rfl) rfl rfl
  have t1 : Typed lv n J prim true (mdcExpr false) ⟨.all (T * ns * 1), .cplx⟩ ⟨.all (T * nx * 1), .cplx⟩ :=
    mdc_typedAdj hF hF1 (fun r hr => by have := hsl r hr; omega) hgl rfl (by omega) (.inr (.inl (by omega))) (all_wf rfl) rfl rfl
  have d0 : ∀ x, den lv false (mdcExpr false) x = A x := fun x => by rw [hlv, den_mdc, htot]; rfl
  have d1 : ∀ x, den lv true (mdcExpr false) x = B x := fun x => by rw [hlv, den_mdcAdj, htot]; rfl
  have hshp : Shaped lv.sh (mdcExpr false : MOp K MLeaf) := by
    simp [mdcExpr, Shaped, MOp.shape, hlv, mdcLeaves, hF.rows, hF1.rows]
  obtain ⟨eh, g1, g2, g3⟩ := H_shaped lv.sh hshp
  have hpsh : ∀ i, ∀ r < n, (prim i r).shape = lv.sh i := fun i r hr => by cases i <;> rfl
  have t2 := typed_H g1 (b := false) t1
  have cfits : ∀ {N : Nat} {x : List K}, x.length = N → VSpace.Mem ⟨.all N, .cplx⟩ x := fun h => ⟨by simp [Layout.all, h], fun h => by cases h⟩
  have wf0 : (Layout.all (T * nx * 1)).WF n := all_wf rfl
  have wf1 : (Layout.all (T * ns * 1)).WF n := all_wf rfl
  have mm : VSpace.Mem ⟨.all (T * nx * 1), .real⟩ m := ⟨by simp [Layout.all, hm], hf⟩
  have run0 := (typed_computes t0).runs mm
  have run1 := (typed_computes t2).runs (cfits (lA m))
  rw [d0] at run0
  rw [den_H g1, Bool.not_false, d1] at run1
  refine Runs.always ?_
  unfold exMdc
  simp only [Prog.bind_eq]
  refine Runs.bind_ok (runs_mddKernel hn hg) ?_
  refine Runs.bind_ok hmk ?_
  refine Runs.bind_ok (runs_bcastArr rfl mm) ?_
  refine Runs.bind_ok run0 ?_
  refine Runs.bind_ok (runs_asarray_vec wf1 (cfits (lA m))) ?_
  refine Runs.bind_ok (a := fun r => eh.map (prim · r)) ((Runs.ret _).congr (fun r hr => by rw [H_map (fun i => hpsh i r hr) g1]; rfl) fun _ _ => rfl) ?_
  refine Runs.bind_ok run1 ?_
  refine Runs.bind_ok (runs_asarray_vec wf0 (cfits (lB (A m)))) ?_
  refine (Runs.ret _).congr (fun r hr => ?_) fun _ _ => rfl
  rw [← areal_eq (lA m), ← areal_eq (lB (A m))]
  rfl

/-- **C98** (too many ranks).  If some rank gets fewer than two frequencies, then in every execution some rank raises. -/
theorem C98_raises (hn : 0 < n) (hnt : 1 ≤ nt) (hnf : nf < 2 * n)
    (hg : g.length = nf * (ns * nx)) (hF : FFTOk (fft (2 * nt - 1) nx 1 true) (2 * nt - 1) nt (nx * 1)) (hF1 : FFTOk (fft (2 * nt - 1) ns 1 false) (2 * nt - 1) nt (ns * 1)) (m : NDArray K) :
    Raises n (fun r => exMdc (env n J r) fft sqrt ⟨[nf, ns, nx], .cplx, g⟩ nt nx nf δt m) := by
  have hT : (2 * nt - 1) / 2 + 1 = nt := by omega
  have htot := psum_balanced_total nf hn
  unfold exMdc
  simp only [Prog.bind_eq]
  refine Raises.after (runs_mddKernel hn hg) (Raises.bind ?_ _)
  rcases mkMDC_cases (J := J) (n := n) (sz := balanced nf n) (nt := 2 * nt - 1) (ns := ns) (nr := nx) (nv := 1) (dG := .cplx) (g := g) (tw := true) (fft := fft) (nfreq := nf) (sg := true) (cj := false)
    (um := false) (ps := false) (sqrt := sqrt) (δt := δt) (δr := 1) hn (by rw [hT]; exact hF) (by rw [hT]; exact hF1) rfl (by rw [htot, hg]) one_ne_zero with h | h
  · exfalso
    have h2 : ∀ k ≤ n, 2 * k ≤ psum (balanced nf n) k := by
      intro k hk
      induction k with
      | zero => exact Nat.zero_le _
      | succ k ih =>
        have := h.slices k hk
        have := ih (by omega)
        show 2 * (k + 1) ≤ psum (balanced nf n) k + balanced nf n k
        omega
    have := h2 n le_rfl
    omega
  · exact h

/-- **C98** (more ranks than frequencies).  In every execution the ranks without a frequency end with an IndexError and the other ranks wait for ever. -/
theorem C98_waits (hnt : 1 ≤ nt) (hns : ns ≠ 0) (hnx : nx ≠ 0) (hnf : nf < n) (hg : g.length = nf * (ns * nx)) (m : NDArray K) :
    Ends n (fun r => exMdc (env n J r) fft sqrt ⟨[nf, ns, nx], .cplx, g⟩ nt nx nf δt m) fun r => if r < nf then none else some (.error .index) := by
  have hb : ∀ r, balanced nf n r = if r < nf then 1 else 0 := fun r => by
    unfold balanced
    rw [Nat.div_eq_of_lt hnf, Nat.mod_eq_of_lt hnf]
  have hn : 0 < n := by omega
  have c1 : ¬ (true = true ∧ (2 * nt - 1) % 2 = 0) := by omega
  have c2 : ∀ r, ((kern (balanced nf n) ns nx .cplx g r).shape.length < 3 ∨ 0 ∈ (kern (balanced nf n) ns nx .cplx g r).shape.take 3) ↔ ¬ r < nf := fun r => by
    have := hb r
    simp only [kern, List.length_cons, List.length_nil, List.take, List.mem_cons, List.not_mem_nil, or_false]
    split_ifs at this <;> omega
  unfold exMdc
  simp only [Prog.bind_eq]
  obtain ⟨qs, h3, h4⟩ := (runs_mddKernel (J := J) (ns := ns) (nx := nx) hn hg).bind_steps fun r G => (mkMDC (env n J r) fft sqrt G (2 * nt - 1) 1 nf δt 1 true true false false false).bind fun op =>
    (bcastArr (env n J r) ((2 * nt - 1) * nx * 1) .real m).bind fun md => (MOp.run (env n J r) false op.1 md).bind fun dd => (dd.asarray (env n J r)).bind fun d =>
      (Prog.lift (op.1.H Prim.shape)).bind fun oph => (MOp.run (env n J r) false oph dd).bind fun madjd => (madjd.asarray (env n J r)).bind fun madj => .ret (areal d, areal madj)
  refine Ends.of_blocked h3 fun r hr => ?_
  have e : ∀ r, ¬ r < nf → mkMDC (env n J r) fft sqrt (kern (balanced nf n) ns nx .cplx g r) (2 * nt - 1) 1 nf δt 1 true true false false false = .throw .index := fun r hr => by
    unfold mkMDC
    rw [if_neg c1, if_pos ((c2 r).2 hr)]
  have e' : ∀ r, r < nf → ∃ k, mkMDC (env n J r) fft sqrt (kern (balanced nf n) ns nx .cplx g r) (2 * nt - 1) 1 nf δt 1 true true false false false
      = .coll .allgather (List.range n) (Enc.enc (balanced nf n r)) k := fun r hr => by
    unfold mkMDC
    rw [if_neg c1, if_neg (mt (c2 r).1 (not_not.2 hr))]
    exact ⟨_, rfl⟩
  by_cases h : r < nf
  · simp only [if_pos h]
    right
    obtain ⟨k, hk⟩ := e' r h
    refine ⟨.allgather, List.range n, Enc.enc (balanced nf n r), ?_⟩
    have e1 := h4 r hr
    rw [hk] at e1
    refine ⟨_, e1, nf, by simpa using hnf, fun v' k' => ?_⟩
    rw [h4 nf hnf, e nf (lt_irrefl _)]
    simp [Prog.bind]
  · simp only [if_neg h]
    rw [h4 r hr, e r h]
    rfl

/-! ### Example -/

/-- Non-vacuity: four frequencies on two ranks, two sources and two receivers, seven samples; all results are real. -/
example (J : Nat → Nat → ℂ) (ω δt : ℂ) (g m : List ℂ) (hg : g.length = 16) (hm : m.length = 14) (hf : FitsL .real m) :
    ∃ d c : List ℂ, d = mdc (rfft ω 7 2 1 true).fwd (rfft ω 7 2 1 false).adj 4 4 2 2 1 (g.map (δt * 3 * ·)) m ∧
      c = mdcAdj (rfft ω 7 2 1 true).adj (rfft ω 7 2 1 false).fwd 4 4 2 2 1 (g.map (δt * 3 * ·)) d ∧
      Always 2 (fun r => exMdc (env 2 J r) (rfft ω) (fun _ => 3) ⟨[4, 2, 2], .cplx, g⟩ 4 2 4 δt ⟨[14], .real, m⟩) (fun _ => .ok (⟨[d.length], .real, d⟩, ⟨[c.length], .real, c⟩)) := by
  have hr : ∀ b y, FitsL .real ((rfft ω 7 2 1 b).adj y) := fun b y _ z hz => by
    simp only [rfft, List.mem_flatMap, List.mem_map] at hz
    obtain ⟨t, _, k, _, rfl⟩ := hz
    simp only [star_div₀, star_add, star_star, star_ofNat]
    rw [add_comm]
  refine ⟨_, _, rfl, rfl, ?_⟩
  have h := C98_mdc (n := 2) (J := J) (fft := rfft ω) (sqrt := fun _ => 3) (nt := 4) (ns := 2) (nx := 2) (nf := 4) (δt := δt) (by omega) (by omega) (by omega)
    (by omega) (by omega) (by simpa using hg) (rfft_ok ω 7 2 1 true) (rfft_ok ω 7 2 1 false) (by simpa using hm) hf
  have e1 := realArr_real (x := mdc (rfft ω 7 2 1 true).fwd (rfft ω 7 2 1 false).adj 4 4 2 2 1 (g.map (δt * 3 * ·)) m) (hr false _)
  have e2 := realArr_real (x := mdcAdj (rfft ω 7 2 1 true).adj (rfft ω 7 2 1 false).fwd 4 4 2 2 1 (g.map (δt * 3 * ·))
    (mdc (rfft ω 7 2 1 true).fwd (rfft ω 7 2 1 false).adj 4 4 2 2 1 (g.map (δt * 3 * ·)) m)) (hr true _)
  rw [← e1, ← e2]
  exact h

/-- Non-vacuity: four frequencies on three ranks, and on six. -/
example (J : Nat → Nat → ℂ) (ω δt : ℂ) (g : List ℂ) (hg : g.length = 16) (m : NDArray ℂ) :
    Raises 3 (fun r => exMdc (env 3 J r) (rfft ω) (fun _ => 3) ⟨[4, 2, 2], .cplx, g⟩ 4 2 4 δt m) :=
  C98_raises (by omega) (by omega) (by omega) (by simpa using hg) (rfft_ok ω 7 2 1 true) (rfft_ok ω 7 2 1 false) m

example (J : Nat → Nat → ℂ) (ω δt : ℂ) (g : List ℂ) (hg : g.length = 16) (m : NDArray ℂ) :
    Ends 6 (fun r => exMdc (env 6 J r) (rfft ω) (fun _ => 3) ⟨[4, 2, 2], .cplx, g⟩ 4 2 4 δt m) (fun r => if r < 4 then none else some (.error .index)) :=
  C98_waits (by omega) (by omega) (by omega) (by omega) (by simpa using hg) m

end Verif

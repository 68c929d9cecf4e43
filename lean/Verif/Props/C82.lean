/- C82: least-squares migration (tutorials/lsm.py) and multi-dimensional deconvolution (tutorials/mdd.py). -/
import Verif.Model.Tutorials
import Verif.Proofs.Descent
import Verif.Props.C24
import Verif.Props.C39
import Verif.Props.C46

set_option linter.unusedSectionVars false

namespace Verif
open NDArray Serial

variable {K : Type} [RCLike K] {n : Nat} {J : Nat → Nat → K} {ops : Nat → List (LOp K)} {N : Nat}

/-! ### Arrays held by all ranks -/

theorem runs_bcastArr {dt : DType} {v : NDArray K} (hs : v.shape = [N]) (hv : VSpace.Mem ⟨.all N, dt⟩ v.data) :
    Runs n (fun r => bcastArr (env n J r) N dt v) (fun r => .ok (VSpace.vec ⟨.all N, dt⟩ n v.data r)) := by
  unfold bcastArr
  simp only [Prog.bind_eq]
  refine Runs.bind_ok (runs_mkDArr_none (L := .all N) (all_wf rfl) (fun h => by cases h)) ?_
  exact runs_new_vec (S := ⟨.all N, dt⟩) (all_wf rfl) hv (fun r _ => by rw [hs]; rfl) (fun r _ => rfl) _ fun r _ => length_junk r

theorem runs_bcastArr_zero {dt : DType} :
    Runs n (fun r => bcastArr (env n J r) N dt (scalar .real 0)) (fun r => .ok (VSpace.vec ⟨.all N, dt⟩ n (List.replicate N 0) r)) := by
  unfold bcastArr
  simp only [Prog.bind_eq]
  refine Runs.bind_ok (runs_mkDArr_none (L := .all N) (all_wf rfl) (fun h => by cases h)) ?_
  have := runs_setAll_scalar (J := J) (L := .all N) (dt := dt) (t := .real) (x := 0) (n := n) (a := junkData J (.all N) dt) fun r _ => length_junk r
  simp only [castTo_zero] at this
  refine this.congr (fun _ _ => rfl) fun r _ => ?_
  simp [VSpace.vec, Layout.fam, Layout.piece, Layout.all, Layout.lshape, Partition.isBroadcast]

theorem runs_gatherX {V : VSpace} (hV : V.L.WF n) {x : Nat → XArr K} {d : List K} (hd : V.Mem d) (hx : ∀ r < n, x r = .one (V.vec n d r)) :
    Runs n (fun r => gatherX (env n J r) (x r)) (fun r => .ok (V.vec n d r, ⟨V.L.gshape, V.dt, d⟩)) := by
  refine Runs.congr (ps := fun r => gatherX (env n J r) (.one (V.vec n d r))) ?_ (fun r hr => by rw [hx r hr]) fun _ _ => rfl
  unfold gatherX
  simp only [Prog.bind_eq]
  exact Runs.bind_ok (runs_asarray_vec hV hd) (Runs.ret _)

/-! ### Least-squares migration -/

/-- the difference of two vectors -/
def vdiff (u v : List K) : List K := List.zipWith (· - ·) u v

theorem toL_vdiff {N : Nat} (x y : Vec K N) : toL (x - y) = vdiff (toL x) (toL y) := by
  refine List.ext_getElem (by simp [vdiff]) fun i h1 h2 => ?_
  simp [vdiff, toL]

/-- **C82** (lsm.py).  Let every rank have one or more modelling operators of real dtype, all with `N` columns, whose two directions are adjoint to each other, and let `refl` be a real
    reflectivity.  For every limit and every tolerance that is not negative, in every execution all ranks finish with the same five arrays:
    * `d`, the data of all operators one after the other;
    * the sum `madj` of the adjoints of all operators applied to their data, and the data of `madj`;
    * an image `minv` and its data, which differ from `d` at most as much as those of the image zero do.
    Either the limit is reached or the squared norm of the gradient at `minv` is at most the tolerance.  If the tolerance is zero and the limit is not less than the number of
    unknowns, then the data of `minv` are exactly `d`. -/
theorem C82_lsm (hdt : ∀ r < n, ∀ o ∈ ops r, o.dtype = .real) (hne : ∀ r < n, ops r ≠ []) (hok : ∀ o ∈ allOps n ops, (∀ b, o.Ok b .real .real) ∧ o.cols = N)
    (hadj : ∀ o ∈ allOps n ops, o.Adjoint) {refl : List K} (hr : refl.length = N) (hf : FitsL .real refl) (mx : Int) {tol : ℝ} (htol : 0 ≤ tol) :
    let A := vcat false (allOps n ops)
    let B := hsum true N (allOps n ops)
    let d := A refl
    let arr (x : List K) : NDArray K := ⟨[x.length], .real, x⟩
    ∃ (x : List K) (m : Nat), x.length = N ∧ FitsL .real x ∧ m ≤ N ∧ sqN (vdiff d (A x)) ≤ sqN d ∧ (mx ≤ m ∨ sqN (B (vdiff d (A x))) ≤ tol) ∧
      (tol = 0 → (N : Int) ≤ mx → A x = d) ∧
      Always n (fun r => lsm (env n J r) (ops r) N ⟨[N], .real, refl⟩ (some mx) tol) (fun _ => .ok ⟨arr d, arr (B d), arr (A (B d)), arr x, arr (A x)⟩) := by
  intro A B d arr
  have hl0 : ∀ x, x.length = N → (A x).length = inSum true (allOps n ops) := fun x hx => by
    rw [length_vcat false (dx := .real) (dt := .real) (N := N) (fun o ho => ⟨(hok o ho).1 false, (hok o ho).2⟩) hx]; rfl
  have hm0 : ∀ x, x.length = N → FitsL .real x → VSpace.Mem ⟨inL true n ops, .real⟩ (A x) := fun x hx hfx =>
    mem_vcat (b := false) (fun o ho => ⟨(hok o ho).1 false, (hok o ho).2⟩) hx hfx
  have hm1 : ∀ y, y.length = inSum true (allOps n ops) → FitsL .real y → VSpace.Mem ⟨.all N, .real⟩ (B y) := fun y hy hfy =>
    mem_hsum (b := true) (fun o ho => ⟨(hok o ho).1 true, (hok o ho).2⟩) hy hfy
  have hl1 : ∀ y, y.length = inSum true (allOps n ops) → (B y).length = N := fun y hy => by
    have := (mem_hsum (n := n) (N := N) (ops := ops) (b := true) (dx := .cplx) (dt := .cplx) (p := .broadcast) (fun o ho => ⟨⟨((hok o ho).1 true).length, fun _ _ _ h => by cases h⟩, (hok o ho).2⟩) hy (fun h => by cases h)).1
    simpa [Layout.all] using this
  obtain ⟨A', B', hA, hB, hAB⟩ := exists_linear hl0 hl1 fun u v hu hv =>
    ip_vcat hadj (fun o ho => (hok o ho).2) (fun o ho => ((hok o ho).1 false).length) (fun o ho => ((hok o ho).1 true).length) hu hv
  have hld : d.length = inSum true (allOps n ops) := hl0 _ hr
  let y : Vec K (inSum true (allOps n ops)) := ofL _ d
  have hy : toL y = d := toL_ofL hld
  have hz : toL (0 : Vec K N) = List.replicate N 0 := by simp [toL, List.ofFn_const]
  have hfz : FitsL .real (List.replicate N (0 : K)) := fun _ z hz => by rw [(List.mem_replicate.1 hz).2]; simp
  obtain ⟨m, h1, hst, hb, h4, h5, h6⟩ := cgls_stops hAB y 0 htol mx
  have hyp : CGLSHyp n J (fun r => MOp.toX (.leaf (vsPrim n ops N .real r))) (.one ⟨.all N, .real⟩) (.one ⟨inL true n ops, .real⟩) A' B' y 0 := by
    refine ⟨all_wf rfl, inL_wf (by simp), rfl, rfl, by simp, ?_, ?_, ?_, ?_⟩
    · refine XComputes.acts (S := .one ⟨.all N, .real⟩) (T := .one ⟨inL true n ops, .real⟩) (f := A) (fun x hx => ⟨hm0 x (by simpa [Layout.all] using hx.1) hx.2, Runs.always ?_⟩) fun x _ => hA x
      exact Runs.map_ok XArr.one (runs_vsRun_fwd (J := J) (all_wf rfl) rfl rfl (fun o ho => ⟨(hok o ho).1 false, (hok o ho).2⟩) hne hx)
    · refine XComputes.acts (S := .one ⟨inL true n ops, .real⟩) (T := .one ⟨.all N, .real⟩) (f := B) (fun x hx => ⟨hm1 x (by simpa [Layout.lin] using hx.1) hx.2, Runs.always ?_⟩) fun x _ => hB x
      exact Runs.map_ok XArr.one (runs_vsRun_adj (J := J) (inL_wf (by simp)) rfl rfl rfl (near_refl _ _) (fun o ho => ⟨(hok o ho).1 true, (hok o ho).2⟩) hne hx)
    · show VSpace.Mem _ (toL y)
      rw [hy]
      exact hm0 _ hr hf
    · show VSpace.Mem _ (toL (0 : Vec K N))
      rw [hz]
      exact ⟨by simp [Layout.all], hfz⟩
  set x := (CGLS.seq K A' B' 0 (0 ^ 2) y 0 m).x with hxd
  have hx : VSpace.Mem ⟨.all N, .real⟩ (toL x) := (cgls_has hyp 0 (0 ^ 2) m).1
  have e1 : vdiff d (A (toL x)) = toL (y - A' x) := by rw [toL_vdiff, hy, hA]
  refine ⟨toL x, m, length_toL x, hx.2, h1, ?_, ?_, fun ht hM => ?_, ?_⟩
  · rw [e1, sqN_toL, ← hy, sqN_toL]
    simpa using h4
  · rw [e1]
    show mx ≤ m ∨ sqN (B (toL (y - A' x))) ≤ tol
    rw [← hB, sqN_toL]
    exact h5
  · have h7 := h6 ht hM (ofL N refl)
    have e2 : A' (ofL N refl) = y := toL_inj (by rw [hA, toL_ofL hr, hy])
    rw [e2, sub_self, norm_zero] at h7
    have h8 : y - A' x = 0 := by
      have : ‖y - A' x‖ ^ 2 = 0 := le_antisymm (by simpa using h7) (sq_nonneg _)
      simpa using this
    rw [← hA, ← hy, sub_eq_zero.1 h8]
  rcases Nat.eq_zero_or_pos n with hn | hn
  · subst hn; exact Runs.of_zero.always
  have hdt' : ∀ r < n, opsDType (ops r) none = .ok .real := fun r hr => by
    have h0 := hne r hr
    have h1 := hdt r hr
    cases hl : ops r with
    | nil => exact absurd hl h0
    | cons o os =>
      rw [hl] at h1
      have : ∀ l : List (LOp K), (∀ o ∈ l, o.dtype = .real) → l.foldl (fun t o => t.promote o.dtype) DType.real = .real := by
        intro l
        induction l with
        | nil => simp
        | cons a l ih =>
          intro h
          rw [List.foldl_cons, h a (by simp)]
          exact ih fun o ho => h o (by simp [ho])
      simp only [opsDType, h1 o (by simp)]
      rw [this os fun o ho => h1 o (by simp [ho])]
  have wf0 : (Layout.all N).WF n := all_wf rfl
  have wf1 : (inL true n ops).WF n := inL_wf (by simp)
  have fwd : ∀ {x}, VSpace.Mem ⟨.all N, .real⟩ x → Runs n (fun r => MOp.run (env n J r) false (.leaf (vsPrim n ops N .real r)) (VSpace.vec ⟨.all N, .real⟩ n x r))
      (fun r => .ok (VSpace.vec ⟨inL true n ops, .real⟩ n (A x) r)) := fun hx => runs_vsRun_fwd wf0 rfl rfl (fun o ho => ⟨(hok o ho).1 false, (hok o ho).2⟩) hne hx
  have adj : ∀ {x}, VSpace.Mem ⟨inL true n ops, .real⟩ x → Runs n (fun r => MOp.run (env n J r) false (.adj (.leaf (vsPrim n ops N .real r))) (VSpace.vec ⟨inL true n ops, .real⟩ n x r))
      (fun r => .ok (VSpace.vec ⟨.all N, .real⟩ n (B x) r)) := fun {x} hx => by
    refine (runs_vsRun_adj (J := J) wf1 rfl rfl rfl (near_refl _ _) (fun o ho => ⟨(hok o ho).1 true, (hok o ho).2⟩) hne hx).congr (fun r hr => ?_) fun _ _ => rfl
    have hgs : (VSpace.vec ⟨inL true n ops, .real⟩ n x r : DArr K).gshape = [inSum true (allOps n ops)] := rfl
    conv_rhs => unfold MOp.run checkDim
    rw [if_neg (by rw [hgs]; simp [MOp.shape, Prim.shape, vsPrim, outSum])]
    rfl
  have mr : VSpace.Mem ⟨.all N, .real⟩ refl := ⟨by simp [Layout.all, hr], hf⟩
  have md := hm0 _ hr hf
  have mB := hm1 d hld md.2
  have lB := hl1 d hld
  have mAB := hm0 _ lB mB.2
  have mx' := hm0 _ (length_toL x) hx.2
  have arr0 : ∀ {x : List K}, x.length = N → arr x = ⟨[N], .real, x⟩ := fun h => by simp only [arr, h]
  have arr1 : ∀ {x : List K}, x.length = inSum true (allOps n ops) → arr x = ⟨[inSum true (allOps n ops)], .real, x⟩ := fun h => by simp only [arr, h]
  rw [arr1 hld, arr0 lB, arr1 (hl0 _ lB), arr0 (length_toL x), arr1 (hl0 _ (length_toL x))]
  refine Runs.always ?_
  unfold lsm
  simp only [Prog.bind_eq]
  refine Runs.bind_ok (runs_mkVStack (J := J) (N := N) hdt' (fun o ho => (hok o ho).2) (allOps_ne hn hne)) ?_
  refine Runs.bind_ok (runs_bcastArr rfl mr) ?_
  refine Runs.bind_ok (fwd mr) ?_
  refine Runs.bind_ok (runs_asarray_vec wf1 md) ?_
  refine Runs.bind_ok (a := fun r => .adj (.leaf (vsPrim n ops N .real r))) (Runs.ret _) ?_
  refine Runs.bind_ok (adj md) ?_
  refine Runs.bind_ok (runs_asarray_vec wf0 mB) ?_
  refine Runs.bind_ok (fwd mB) ?_
  refine Runs.bind_ok (runs_asarray_vec wf1 mAB) ?_
  refine Runs.bind_ok runs_bcastArr_zero ?_
  have hs := runs_cgls_solve hyp hst hb
  unfold XSpace.part at hs
  rw [hy, hz] at hs
  refine Runs.bind_ok hs ?_
  refine Runs.bind_ok (runs_gatherX wf0 hx fun r _ => rfl) ?_
  refine Runs.bind_ok (fwd hx) ?_
  refine Runs.bind_ok (runs_asarray_vec wf1 mx') ?_
  exact Runs.ret _

/-! ### Multi-dimensional deconvolution -/

theorem runs_mddKernel {nf ns nx : Nat} {g : List K} (hn : 0 < n) (hg : g.length = nf * (ns * nx)) :
    Runs n (fun r => mddKernel (env n J r) nf ⟨[nf, ns, nx], .cplx, g⟩) (fun r => .ok (kern (balanced nf n) ns nx .cplx g r)) := by
  unfold mddKernel
  simp only [Prog.bind_eq]
  refine Runs.congr (ps := fun r => (allgather (env n J r) [balanced nf n r]).bind fun l => Prog.lift (sliceRows (l.flatten.take r).sum (l.flatten.take (r + 1)).sum ⟨[nf, ns, nx], .cplx, g⟩)) ?_
    (fun r hr => ?_) fun _ _ => rfl
  · refine runs_allgather (J := J) (v := fun r => [balanced nf n r]) ?_
    refine (Runs.ret _).congr (fun r hr => ?_) fun _ _ => rfl
    have e : ((List.range n).map fun r => [balanced nf n r]).flatten = (List.range n).map (balanced nf n) := by
      rw [← List.flatMap_def]
      induction List.range n with
      | nil => rfl
      | cons a l ih => rw [List.flatMap_cons, ih]; rfl
    have hT := psum_balanced_total nf hn
    have hle : psum (balanced nf n) r + balanced nf n r ≤ nf := by
      have := psum_mono (balanced nf n) (r := r + 1) hr
      rw [hT] at this
      exact this
    have hs := sliceData_zero (T := nf) (s := [ns, nx]) (lo := psum (balanced nf n) r) (cnt := balanced nf n r) (d := g) (by simpa using hg)
    rw [e, take_sum_psum (Nat.le_of_lt hr), take_sum_psum (n := n) (r := r + 1) hr]
    have hps : psum (balanced nf n) (r + 1) = psum (balanced nf n) r + balanced nf n r := rfl
    unfold sliceRows kern slice
    simp only [hps, hs]
    have e1 : min (psum (balanced nf n) r + balanced nf n r) (len [nf, ns, nx] 0) - min (psum (balanced nf n) r) (len [nf, ns, nx] 0) = balanced nf n r := by
      simp only [len, List.getD_cons_zero]; omega
    rw [if_neg (by simp), e1]
    simp
  · rw [localSplit_eq]
    simp [Layout.lshape, len, Partition.isBroadcast]

/-- **C82** (mdd.py).  Let `G` be the kernel with `nf` frequencies, `ns` sources and `nx` receivers, where every rank gets at least two of the frequencies and none is beyond the last one of
    the Fourier transform, and let the two Fourier transforms be adjoint pairs for real data, with real results in the adjoint direction.  `A` is the multi-dimensional convolution with the scaled kernel
    and `B` the correlation.  For every real model `m`, every limit and every tolerance that is not negative, in every execution all ranks finish with the same three arrays: the data
    `A m`, the correlation of the kernel with them, and a real model `x` whose data differ from `A m` at most as much as those of the model zero do.  Either the limit is reached or the
    squared norm of the gradient at `x` is at most the tolerance.  If the tolerance is zero and the limit is not less than the number of unknowns, then the data of `x` are `A m`. -/
theorem C82_mdd {fft : Nat → Nat → Nat → Bool → LOp K} {sqrt : Nat → K} {nt ns nx nf : Nat} {s δt : K} {g m : List K} (hnt : 1 ≤ nt) (hns : 2 ≤ ns) (hnx : 2 ≤ nx) (hnf : 2 * n ≤ nf) (hnf' : nf ≤ nt)
    (hg : g.length = nf * (ns * nx)) (hF : FFTOk (fft (2 * nt - 1) nx 1 true) (2 * nt - 1) nt (nx * 1)) (hF1 : FFTOk (fft (2 * nt - 1) ns 1 false) (2 * nt - 1) nt (ns * 1))
    (aF : (fft (2 * nt - 1) nx 1 true).RealAdjoint) (aF1 : (fft (2 * nt - 1) ns 1 false).RealAdjoint)
    (rF : ∀ y, FitsL .real ((fft (2 * nt - 1) nx 1 true).adj y)) (rF1 : ∀ y, FitsL .real ((fft (2 * nt - 1) ns 1 false).adj y))
    (hm : m.length = (2 * nt - 1) * nx * 1) (hf : FitsL .real m) (mx : Int) {tol : ℝ} (htol : 0 ≤ tol) :
    let A := mdc (fft (2 * nt - 1) nx 1 true).fwd (fft (2 * nt - 1) ns 1 false).adj nf nt ns nx 1 (g.map (s * ·))
    let B := mdcAdj (fft (2 * nt - 1) nx 1 true).adj (fft (2 * nt - 1) ns 1 false).fwd nf nt ns nx 1 (g.map (s * ·))
    let d := A m
    let arr (x : List K) : NDArray K := ⟨[x.length], .real, x⟩
    ∃ (x : List K) (k : Nat), x.length = (2 * nt - 1) * nx ∧ FitsL .real x ∧ k ≤ (2 * nt - 1) * nx ∧ sqN (vdiff d (A x)) ≤ sqN d ∧ (mx ≤ k ∨ sqN (B (vdiff d (A x))) ≤ tol) ∧
      (tol = 0 → (((2 * nt - 1) * nx : Nat) : Int) ≤ mx → A x = d) ∧
      Always n (fun r => mdd (env n J r) fft sqrt ⟨[nf, ns, nx], .cplx, g⟩ s nt nx nf δt ⟨[(2 * nt - 1) * nx * 1], .real, m⟩ (some mx) tol) (fun _ => .ok (arr d, arr (B d), arr x)) := by
  intro A B d arr
  set T := 2 * nt - 1 with hTd
  have hT : T / 2 + 1 = nt := by omega
  set F := fft T nx 1 true with hFd
  set F1 := fft T ns 1 false with hF1d
  have lA : ∀ x, (A x).length = T * ns * 1 := fun x => by
    have := hF1.len_adj (toSize (nt * ns * 1) (fredholm nf ns nx 1 (g.map (s * ·)) (toSize (nf * nx * 1) (F.fwd x)))) (by rw [length_toSize, hF1.rows, Nat.mul_assoc])
    rw [hF1.cols, ← Nat.mul_assoc] at this
    exact this
  have lB : ∀ y, (B y).length = T * nx * 1 := fun y => by
    have := hF.len_adj (toSize (nt * nx * 1) (fredholmAdj nf ns nx 1 (g.map (s * ·)) (toSize (nf * ns * 1) (F1.fwd y)))) (by rw [length_toSize, hF.rows, Nat.mul_assoc])
    rw [hF.cols, ← Nat.mul_assoc] at this
    exact this
  have rA : ∀ x, FitsL .real (A x) := fun x => rF1 _
  have rB : ∀ y, FitsL .real (B y) := fun y => rF _
  obtain ⟨A', B', hA, hB, hAB⟩ := exists_linear_real (M := T * nx * 1) (N := T * ns * 1) (f := A) (g := B) (fun x _ => lA x) (fun y _ => lB y) fun u v hu hv ru rv =>
    ip_of_rip (rA u) rv ru (rB v) (C39_adjoint hF hF1 aF aF1 hu hv ru rv)
  let A0 (x : Vec K (T * nx * 1)) : Vec K (T * ns * 1) := ofL _ (A (toL x))
  let B0 (y : Vec K (T * ns * 1)) : Vec K (T * nx * 1) := ofL _ (B (toL y))
  have hA0 : ∀ x, toL (A0 x) = A (toL x) := fun x => toL_ofL (lA _)
  have hB0 : ∀ y, toL (B0 y) = B (toL y) := fun y => toL_ofL (lB _)
  let y : Vec K (T * ns * 1) := ofL _ d
  have hy : toL y = d := toL_ofL (lA _)
  have hz : toL (0 : Vec K (T * nx * 1)) = List.replicate (T * nx * 1) 0 := by simp only [toL, WithLp.ofLp_zero, Pi.zero_apply, List.ofFn_const]
  have hfz : FitsL .real (toL (0 : Vec K (T * nx * 1))) := fun _ z hz' => by
    rw [hz] at hz'
    rw [(List.mem_replicate.1 hz').2]; simp
  have hseq := cgls_seq_real (K := K) (A := A0) (A' := A') (B := B0) (B' := B') (fun x hx => ⟨toL_inj (by rw [hA0, hA x hx]), by rw [hA0]; exact rA _⟩)
    (fun y hy => ⟨toL_inj (by rw [hB0, hB y hy]), by rw [hB0]; exact rB _⟩) (y := y) (x0 := 0) (by rw [hy]; exact rA _) hfz 0 (0 ^ 2)
  obtain ⟨k, h1, hst, hb, h4, h5, h6⟩ := cgls_stops hAB y 0 htol mx
  have hfun : CGLS.seq K A' B' 0 (0 ^ 2) y 0 = CGLS.seq K A0 B0 0 (0 ^ 2) y 0 := funext fun j => (hseq j).1.symm
  rw [hfun] at hst hb h4 h5 h6
  set x := (CGLS.seq K A0 B0 0 (0 ^ 2) y 0 k).x with hxd
  have rx : FitsL .real (toL x) := (hseq k).2
  have e1 : vdiff d (A (toL x)) = toL (y - A' x) := by rw [toL_vdiff, hy, hA x rx]
  have rd : FitsL .real (toL (y - A' x)) := by
    intro _ z hz
    simp only [toL, List.mem_ofFn] at hz
    obtain ⟨i, rfl⟩ := hz
    have r1 : FitsL .real (toL y) := by rw [hy]; exact rA m
    have r2 : FitsL .real (toL (A' x)) := by rw [hA x rx]; exact rA _
    show star (y i - A' x i) = y i - A' x i
    rw [star_sub, r1 rfl (y i) (List.mem_ofFn.2 ⟨i, rfl⟩), r2 rfl (A' x i) (List.mem_ofFn.2 ⟨i, rfl⟩)]
  have e0 : T * nx * 1 = T * nx := Nat.mul_one _
  refine ⟨toL x, k, by rw [length_toL, e0], rx, by rw [← e0]; exact h1, ?_, ?_, fun ht hM => ?_, ?_⟩
  · rw [e1, sqN_toL, ← hy, sqN_toL]
    simpa using h4
  · rw [e1, ← hB _ rd, sqN_toL]
    exact h5
  · have h7 := h6 ht (by rw [e0]; exact hM) (ofL _ m)
    have e2 : A' (ofL _ m) = y := toL_inj (by rw [hA _ (by rw [toL_ofL hm]; exact hf), toL_ofL hm, hy])
    rw [e2, sub_self, norm_zero] at h7
    have h8 : y - A' x = 0 := by
      have : ‖y - A' x‖ ^ 2 = 0 := le_antisymm (by simpa using h7) (sq_nonneg _)
      simpa using this
    rw [← hA x rx, ← hy, sub_eq_zero.1 h8]
  rcases Nat.eq_zero_or_pos n with hn | hn
  · subst hn; exact Runs.of_zero.always
  have hsl : ∀ r < n, 2 ≤ balanced nf n r := fun r hr => by
    have : 2 ≤ nf / n := (Nat.le_div_iff_mul_le hn).2 hnf
    unfold balanced; split_ifs <;> omega
  have htot := psum_balanced_total nf hn
  have ok : MDCOk fft n (balanced nf n) T ns nx 1 nf true .cplx (g.map (s * ·)) := by
    refine ⟨fun _ => by omega, rfl, hsl, by omega, by rw [List.length_map, htot, hg], by rw [htot, hT]; omega, ?_, ?_⟩
    · rw [hT]; exact hF
    · rw [hT]; exact hF1
  have hmk := mkMDC_runs (J := J) (sqrt := sqrt) (δt := δt) (δr := 1) (sg := true) (cj := false) (um := false) (ps := true) ok
  rw [hT, show scaledKernel true (1 * δt * sqrt T) (g.map (s * ·)) = g.map (s * ·) from rfl] at hmk
  set lv := mdcLeaves F F1 nt ns nx 1 (g.map (s * ·)) (psum (balanced nf n) n) with hlv
  set prim := mdcPrim F F1 n (balanced nf n) nt ns nx 1 true false .cplx (g.map (s * ·)) with hprim
  have hgl : (g.map (s * ·)).length = psum (balanced nf n) n * (ns * nx) := ok.length
  have t0 : ∀ dx, Typed lv n J prim false (mdcExpr false) ⟨.all (T * nx * 1), dx⟩ ⟨.all (T * ns * 1), .cplx⟩ := fun dx =>
    mdc_typed hF hF1 (fun r hr => by have := hsl r hr; omega) hgl rfl (by omega) (.inr (.inl (by omega))) (all_wf rfl) rfl rfl
  have t1 : Typed lv n J prim true (mdcExpr false) ⟨.all (T * ns * 1), .cplx⟩ ⟨.all (T * nx * 1), .cplx⟩ :=
    mdc_typedAdj hF hF1 (fun r hr => by have := hsl r hr; omega) hgl rfl (by omega) (.inr (.inl (by omega))) (all_wf rfl) rfl rfl
  have d0 : ∀ x, den lv false (mdcExpr false) x = A x := fun x => by rw [hlv, den_mdc, htot]; rfl
  have d1 : ∀ x, den lv true (mdcExpr false) x = B x := fun x => by rw [hlv, den_mdcAdj, htot]; rfl
  have hshp : Shaped lv.sh (mdcExpr false : MOp K MLeaf) := by
    simp [mdcExpr, Shaped, MOp.shape, hlv, mdcLeaves, hF.rows, hF1.rows]
  obtain ⟨eh, g1, g2, g3⟩ := H_shaped lv.sh hshp
  have hpsh : ∀ i, ∀ r < n, (prim i r).shape = lv.sh i := fun i r hr => by cases i <;> rfl
  have t2 := typed_H g1 (b := false) t1
  have cfits : ∀ {N : Nat} {x : List K}, x.length = N → VSpace.Mem ⟨.all N, .cplx⟩ x := fun h => ⟨by simp [Layout.all, h], fun h => by cases h⟩
  have hyp : CGLSHyp n J (fun r => MOp.toX ((mdcExpr false).map (prim · r))) (.one ⟨.all (T * nx * 1), .cplx⟩) (.one ⟨.all (T * ns * 1), .cplx⟩) A0 B0 y 0 := by
    refine ⟨all_wf rfl, all_wf rfl, rfl, rfl, by simp, typed_acts (b := false) (t0 .cplx) fun x _ => by rw [hA0, d0], typed_acts (b := true) t1 fun x _ => by rw [hB0, d1], ?_, ?_⟩
    · exact cfits (length_toL y)
    · exact cfits (length_toL _)
  have wf0 : (Layout.all (T * nx * 1)).WF n := all_wf rfl
  have wf1 : (Layout.all (T * ns * 1)).WF n := all_wf rfl
  have mm : VSpace.Mem ⟨.all (T * nx * 1), .real⟩ m := ⟨by simp [Layout.all, hm], hf⟩
  have run0 := (typed_computes (t0 .real)).runs mm
  have run1 := (typed_computes t2).runs (cfits (lA m))
  rw [d0] at run0
  rw [den_H g1, Bool.not_false, d1] at run1
  have re : ∀ (N : Nat) {x : List K}, FitsL .real x → x.length = N → areal (⟨[N], .cplx, x⟩ : NDArray K) = arr x := fun N x h hl => by
    unfold areal
    simp only [arr, hl]
    congr 1
    conv_rhs => rw [← List.map_id x]
    refine List.map_congr_left fun z hz => ?_
    simp [castTo, h rfl z hz]
  refine Runs.always ?_
  unfold mdd
  simp only [Prog.bind_eq]
  refine Runs.bind_ok (runs_mddKernel hn hg) ?_
  have hk : ∀ r, (kern (balanced nf n) ns nx .cplx g r).map (s * ·) = kern (balanced nf n) ns nx .cplx (g.map (s * ·)) r := fun r => by
    simp [kern, NDArray.map, slab, List.map_take, List.map_drop]
  simp only [hk]
  refine Runs.bind_ok hmk ?_
  refine Runs.bind_ok (runs_bcastArr rfl mm) ?_
  refine Runs.bind_ok run0 ?_
  refine Runs.bind_ok (runs_asarray_vec wf1 (cfits (lA m))) ?_
  refine Runs.bind_ok (a := fun r => eh.map (prim · r)) ((Runs.ret _).congr (fun r hr => by rw [H_map (fun i => hpsh i r hr) g1]; rfl) fun _ _ => rfl) ?_
  refine Runs.bind_ok run1 ?_
  refine Runs.bind_ok (runs_asarray_vec wf0 (cfits (lB d))) ?_
  refine Runs.bind_ok runs_bcastArr_zero ?_
  have hs := runs_cgls_solve hyp hst hb
  unfold XSpace.part at hs
  rw [hy, hz] at hs
  refine Runs.bind_ok hs ?_
  refine Runs.bind_ok (runs_gatherX wf0 (cfits (length_toL x)) fun r _ => rfl) ?_
  refine (Runs.ret _).congr (fun r hr => ?_) fun _ _ => rfl
  rw [← re _ (rA m) (lA m), ← re _ (rB d) (lB d), ← re _ rx (length_toL x)]
  rfl

/-! ### Examples -/

/-- one row of a two column matrix -/
def lsmRow (a b : ℝ) : LOp ℝ where
  rows := 1
  cols := 2
  dtype := .real
  fwd x := [a * x.headD 0 + b * x.tail.headD 0]
  adj y := [a * y.headD 0, b * y.headD 0]

theorem lsmRow_adjoint (a b : ℝ) : (lsmRow a b).Adjoint := by
  intro u v hu hv
  obtain ⟨u0, u1, rfl⟩ := List.length_eq_two.1 hu
  obtain ⟨y, rfl⟩ := List.length_eq_one_iff.1 hv
  simp [lsmRow, ip]
  ring

/-- two ranks, each with one row of the matrix [[1, 2], [3, 4]] -/
def lsmOps (r : Nat) : List (LOp ℝ) := if r = 0 then [lsmRow 1 2] else [lsmRow 3 4]

theorem lsmOps_row {n : Nat} {o : LOp ℝ} (h : o ∈ allOps n lsmOps) : ∃ a b, o = lsmRow a b := by
  simp only [allOps, List.mem_flatMap, List.mem_range, lsmOps] at h
  obtain ⟨q, _, h⟩ := h
  split_ifs at h <;> exact ⟨_, _, by simpa using h⟩

/-- Non-vacuity: the reflectivity (5, 6) on two ranks. -/
example (J : Nat → Nat → ℝ) : ∃ x : List ℝ, x.length = 2 ∧ vcat false (allOps 2 lsmOps) x = [17, 39] ∧
    Always 2 (fun r => lsm (env 2 J r) (lsmOps r) 2 ⟨[2], .real, [5, 6]⟩ (some 100) 0)
      (fun _ => .ok ⟨⟨[2], .real, [17, 39]⟩, ⟨[2], .real, [134, 190]⟩, ⟨[2], .real, [514, 1162]⟩, ⟨[2], .real, x⟩, ⟨[2], .real, [17, 39]⟩⟩) := by
  obtain ⟨x, m, h1, _, _, _, _, h2, h3⟩ := C82_lsm (n := 2) (J := J) (ops := lsmOps) (N := 2) (fun r _ o ho => by
      unfold lsmOps at ho; split_ifs at ho <;> (rw [List.mem_singleton.1 ho]; rfl)) (fun r _ => by unfold lsmOps; split_ifs <;> simp)
    (fun o ho => by obtain ⟨a, b, rfl⟩ := lsmOps_row ho; exact ⟨fun b => ⟨fun d hd => by cases b <;> simp_all [lsmRow, LOp.fn, LOp.inDim, LOp.outDim], fun _ _ _ _ z _ => by simp⟩, rfl⟩)
    (fun o ho => by obtain ⟨a, b, rfl⟩ := lsmOps_row ho; exact lsmRow_adjoint _ _) (refl := [5, 6]) rfl (fun _ z _ => by simp) 100 le_rfl
  have e1 : vcat false (allOps 2 lsmOps) [5, 6] = [17, 39] := by
    norm_num [vcat, allOps, lsmOps, List.range_succ, lsmRow, LOp.fn]
  have e2 : hsum true 2 (allOps 2 lsmOps) [17, 39] = [134, 190] := by
    norm_num [hsum, slices, vsum, vadd, List.replicate_succ, allOps, lsmOps, List.range_succ, lsmRow, LOp.fn, LOp.inDim]
  have e3 : vcat false (allOps 2 lsmOps) [134, 190] = [514, 1162] := by
    norm_num [vcat, allOps, lsmOps, List.range_succ, lsmRow, LOp.fn]
  have h4 := h2 rfl (by norm_num)
  rw [e1] at h4
  simp only [e1, e2, e3, h4] at h3
  exact ⟨x, h1, h4, by simpa [h1] using h3⟩

/-- Non-vacuity: four frequencies on two ranks, two sources and two receivers, seven samples. -/
example (J : Nat → Nat → ℂ) (ω s δt : ℂ) (g m : List ℂ) (hg : g.length = 16) (hm : m.length = 14) (hf : FitsL .real m) :
    ∃ x d c : List ℂ, FitsL .real x ∧
      d = mdc (rfft ω 7 2 1 true).fwd (rfft ω 7 2 1 false).adj 4 4 2 2 1 (g.map (s * ·)) m ∧
      d = mdc (rfft ω 7 2 1 true).fwd (rfft ω 7 2 1 false).adj 4 4 2 2 1 (g.map (s * ·)) x ∧
      Always 2 (fun r => mdd (env 2 J r) (rfft ω) (fun _ => 1) ⟨[4, 2, 2], .cplx, g⟩ s 4 2 4 δt ⟨[14], .real, m⟩ (some 50) 0)
        (fun _ => .ok (⟨[d.length], .real, d⟩, ⟨[c.length], .real, c⟩, ⟨[x.length], .real, x⟩)) := by
  have hr : ∀ b y, FitsL .real ((rfft ω 7 2 1 b).adj y) := fun b y _ z hz => by
    simp only [rfft, List.mem_flatMap, List.mem_map] at hz
    obtain ⟨t, _, k, _, rfl⟩ := hz
    simp only [star_div₀, star_add, star_star, star_ofNat]
    rw [add_comm]
  obtain ⟨x, k, h1, h2, h3, h4, h5, h6, h7⟩ := C82_mdd (n := 2) (J := J) (fft := rfft ω) (sqrt := fun _ => 1) (nt := 4) (ns := 2) (nx := 2) (nf := 4) (s := s) (δt := δt) (by omega) (by omega) (by omega)
    (by omega) (by omega) (by simpa using hg) (rfft_ok ω 7 2 1 true) (rfft_ok ω 7 2 1 false) (rfft_adjoint ω 7 2 1 true) (rfft_adjoint ω 7 2 1 false) (hr true) (hr false) (by simpa using hm) hf 50 le_rfl
  exact ⟨x, _, _, h2, rfl, (h6 rfl (by norm_num)).symm, h7⟩

end Verif

/- MPIMDC with a complex kernel gives the right result or raises. -/
import Verif.Proofs.SafeFredholm
import Verif.Props.C39
import Verif.Proofs.History2

set_option linter.unusedSectionVars false

namespace Verif
open NDArray

variable {K : Type} [Field K] [StarRing K] [CharZero K] {F F1 : LOp K} {n : Nat} {sz : Nat → Nat} {nt nfft ns nr nv : Nat} {sg um cj : Bool} {dG dx : DType} {g : List K} {J : Nat → Nat → K} {X : Layout}

theorem Computes.safe {mv : Nat → Ctx K → DArr K → P K (DArr K)} {S T : VSpace} {f : List K → List K} (h : Computes n J mv S T f) : ComputesOr n J mv S T f :=
  fun d hd => ⟨(h d hd).1, .inl (h d hd).2⟩

theorem mdc_safe (hF : FFTOk F nt nfft (nr * nv)) (hF1 : FFTOk F1 nt nfft (ns * nv)) (h1 : ∀ r < n, sz r ≠ 1) (hg : g.length = psum sz n * (ns * nr)) (hd : dG = .cplx)
    (hXw : X.WF n) (hX : X.part.isBroadcast = true) (hXg : X.gshape = [nt * nr * nv]) :
    TypedOr (mdcLeaves F F1 nfft ns nr nv g (psum sz n)) n J (mdcPrim F F1 n sz nfft ns nr nv sg um dG g) false (mdcExpr cj) ⟨X, dx⟩ ⟨.all (nt * ns * nv), .cplx⟩ := by
  have hFr : TypedOr (mdcLeaves F F1 nfft ns nr nv g (psum sz n)) n J (mdcPrim F F1 n sz nfft ns nr nv sg um dG g) false (.leaf .Fr)
      ⟨.all (psum sz n * nr * nv) X.part, dG⟩ ⟨.all (psum sz n * ns * nv), dG⟩ :=
    ⟨fun _ _ => rfl, all_wf hX, all_wf rfl, rfl, rfl, fredMv_safe (X := .all (psum sz n * nr * nv) X.part) h1 hg (fits_cplx hd _) (fun h => by rw [hd] at h; cases h) false rfl⟩
  refine ⟨⟨.all (nfft * nr * nv) X.part, .cplx⟩, ⟨fun _ _ => rfl, hXw, all_wf hX, ?_, ?_, Computes.safe ?_⟩,
    ⟨.all (psum sz n * nr * nv) X.part, dG⟩, ⟨fun _ _ => rfl, all_wf hX, all_wf hX, rfl, rfl, Computes.safe ?_⟩,
    ⟨.all (psum sz n * ns * nv), dG⟩, ?_,
    ⟨.all (nfft * ns * nv), dG⟩, ⟨fun _ _ => rfl, all_wf rfl, all_wf rfl, rfl, rfl, Computes.safe ?_⟩,
    ⟨fun _ _ => rfl, all_wf rfl, all_wf rfl, ?_, ?_, Computes.safe ?_⟩⟩
  · show _ = [F.cols]; rw [hXg, hF.cols, Nat.mul_assoc]
  · show [_] = [F.rows]; rw [hF.rows, Nat.mul_assoc]
  · have := wrapMv_computes (J := J) (hF.ok false dx) hXw hX (by rw [hXg]; show _ = [F.cols]; rw [hF.cols, Nat.mul_assoc])
    rw [hF.dtype, show F.outDim false = nfft * nr * nv from hF.rows.trans (Nat.mul_assoc ..).symm] at this
    exact this
  · exact identity_typed hd false (.all (nfft * nr * nv) X.part) .cplx (all_wf hX) hX rfl
  · cases cj
    · exact hFr
    · exact hFr
  · exact identity_typed hd true (.all (psum sz n * ns * nv)) dG (all_wf rfl) rfl rfl
  · show [_] = [F1.rows]; rw [hF1.rows, Nat.mul_assoc]
  · show [_] = [F1.cols]; rw [hF1.cols, Nat.mul_assoc]
  · have := wrapMv_computes (n := n) (J := J) (X := .all (nfft * ns * nv)) (hF1.ok true dG) (all_wf rfl) rfl (by show [_] = [F1.rows]; rw [hF1.rows, Nat.mul_assoc])
    rw [hF1.dtype, show F1.outDim true = nt * ns * nv from hF1.cols.trans (Nat.mul_assoc ..).symm] at this
    exact this

theorem mdc_safeAdj (hF : FFTOk F nt nfft (nr * nv)) (hF1 : FFTOk F1 nt nfft (ns * nv)) (h1 : ∀ r < n, sz r ≠ 1) (hg : g.length = psum sz n * (ns * nr)) (hd : dG = .cplx)
    (hXw : X.WF n) (hX : X.part.isBroadcast = true) (hXg : X.gshape = [nt * ns * nv]) :
    TypedOr (mdcLeaves F F1 nfft ns nr nv g (psum sz n)) n J (mdcPrim F F1 n sz nfft ns nr nv sg um dG g) true (mdcExpr cj) ⟨X, dx⟩ ⟨.all (nt * nr * nv), .cplx⟩ := by
  have hFr : TypedOr (mdcLeaves F F1 nfft ns nr nv g (psum sz n)) n J (mdcPrim F F1 n sz nfft ns nr nv sg um dG g) true (.leaf .Fr)
      ⟨.all (psum sz n * ns * nv) X.part, dG⟩ ⟨.all (psum sz n * nr * nv), dG⟩ :=
    ⟨fun _ _ => rfl, all_wf hX, all_wf rfl, rfl, rfl, fredMv_safe (X := .all (psum sz n * ns * nv) X.part) h1 hg (fits_cplx hd _) (fun h => by rw [hd] at h; cases h) true rfl⟩
  refine ⟨⟨.all (nfft * nr * nv), dG⟩, ⟨⟨.all (psum sz n * nr * nv), dG⟩, ⟨⟨.all (psum sz n * ns * nv) X.part, dG⟩,
      ⟨⟨.all (nfft * ns * nv) X.part, .cplx⟩, ⟨fun _ _ => rfl, hXw, all_wf hX, ?_, ?_, Computes.safe ?_⟩, ⟨fun _ _ => rfl, all_wf hX, all_wf hX, rfl, rfl, Computes.safe ?_⟩⟩, ?_⟩,
    ⟨fun _ _ => rfl, all_wf rfl, all_wf rfl, rfl, rfl, Computes.safe ?_⟩⟩, ⟨fun _ _ => rfl, all_wf rfl, all_wf rfl, ?_, ?_, Computes.safe ?_⟩⟩
  · show _ = [F1.cols]; rw [hXg, hF1.cols, Nat.mul_assoc]
  · show [_] = [F1.rows]; rw [hF1.rows, Nat.mul_assoc]
  · have := wrapMv_computes (J := J) (hF1.ok false dx) hXw hX (by rw [hXg]; show _ = [F1.cols]; rw [hF1.cols, Nat.mul_assoc])
    rw [hF1.dtype, show F1.outDim false = nfft * ns * nv from hF1.rows.trans (Nat.mul_assoc ..).symm] at this
    exact this
  · exact identity_typed hd false (.all (nfft * ns * nv) X.part) .cplx (all_wf hX) hX rfl
  · cases cj
    · exact hFr
    · exact hFr
  · exact identity_typed hd true (.all (psum sz n * nr * nv)) dG (all_wf rfl) rfl rfl
  · show [_] = [F.rows]; rw [hF.rows, Nat.mul_assoc]
  · show [_] = [F.cols]; rw [hF.cols, Nat.mul_assoc]
  · have := wrapMv_computes (n := n) (J := J) (X := .all (nfft * nr * nv)) (hF.ok true dG) (all_wf rfl) rfl (by show [_] = [F.rows]; rw [hF.rows, Nat.mul_assoc])
    rw [hF.dtype, show F.outDim true = nt * nr * nv from hF.cols.trans (Nat.mul_assoc ..).symm] at this
    exact this

/-! ### Scattered inputs -/

theorem Raises.checkDim {sh : Nat → Nat × Nat} {b : Bool} {x : Nat → DArr K} {k : Nat → P K (DArr K)} (h : Raises n k) : Raises n (fun r => checkDim (sh r) b (x r) (k r)) := by
  by_cases hc : ∃ r < n, (x r).gshape ≠ [if b then (sh r).1 else (sh r).2]
  · obtain ⟨r, hr, hne⟩ := hc
    refine ⟨r, hr, .value, RankEnds.of_steps .refl ?_⟩
    simp only [Verif.checkDim, if_pos hne]
    rfl
  · refine h.congr fun r hr => ?_
    have : ¬ (x r).gshape ≠ [if b then (sh r).1 else (sh r).2] := fun hne => hc ⟨r, hr, hne⟩
    simp only [Verif.checkDim, if_neg this]

/-- the ranks return a scattered array of length `M` with the default layout, or some rank raises -/
def ScatOr (n : Nat) (ps : Nat → P K (DArr K)) (M : Nat) : Prop :=
  (∃ a, (Layout.lin M (balanced M n)).Good n .cplx a ∧ Runs n ps fun r => .ok ((Layout.lin M (balanced M n)).fam n .cplx a r)) ∨ Raises n ps

theorem ScatOr.checkDim {sh : Nat → Nat × Nat} {b : Bool} {x : Nat → DArr K} {k : Nat → P K (DArr K)} {M : Nat} (h : ScatOr n k M) : ScatOr n (fun r => checkDim (sh r) b (x r) (k r)) M := by
  rcases h with ⟨a, ha, h⟩ | h
  · by_cases hc : ∃ r < n, (x r).gshape ≠ [if b then (sh r).1 else (sh r).2]
    · obtain ⟨r, hr, hne⟩ := hc
      refine .inr ⟨r, hr, .value, RankEnds.of_steps .refl ?_⟩
      simp only [Verif.checkDim, if_pos hne]
      rfl
    · refine .inl ⟨a, ha, h.congr (fun r hr => ?_) fun _ _ => rfl⟩
      have : ¬ (x r).gshape ≠ [if b then (sh r).1 else (sh r).2] := fun hne => hc ⟨r, hr, hne⟩
      simp only [Verif.checkDim, if_neg this]
  · exact .inr h.checkDim

theorem ScatOr.bind {ps : Nat → P K (DArr K)} {k : Nat → DArr K → P K (DArr K)} {M M' : Nat} (h : ScatOr n ps M)
    (hk : ∀ a, (Layout.lin M (balanced M n)).Good n .cplx a → ScatOr n (fun r => k r ((Layout.lin M (balanced M n)).fam n .cplx a r)) M') : ScatOr n (fun r => (ps r).bind (k r)) M' := by
  rcases h with ⟨a, ha, h⟩ | h
  · rcases hk a ha with ⟨a', ha', h'⟩ | ⟨m, hm, e, h'⟩
    · exact .inl ⟨a', ha', Runs.bind_ok h h'⟩
    · exact .inr ⟨m, hm, e, rankEnds_bind_ok hm h h'⟩
  · exact .inr (h.bind k)

theorem ScatOr.bind_raises {ps : Nat → P K (DArr K)} {k : Nat → DArr K → P K (DArr K)} {M : Nat} (h : ScatOr n ps M)
    (hk : ∀ a, (Layout.lin M (balanced M n)).Good n .cplx a → Raises n (fun r => k r ((Layout.lin M (balanced M n)).fam n .cplx a r))) : Raises n (fun r => (ps r).bind (k r)) := by
  rcases h with ⟨a, ha, h⟩ | h
  · obtain ⟨m, hm, e, h'⟩ := hk a ha
    exact ⟨m, hm, e, rankEnds_bind_ok hm h h'⟩
  · exact h.bind k

/-- `MPILinearOperator(Op)` applied to a scattered array: the result is scattered too, unless some rank raises -/
theorem wrapMv_scatter (hn : 0 < n) {o : LOp K} (ho : o.dtype = .cplx) (b : Bool) {L : Layout} (hp : L.part = .scatter) (hax : L.axis = 0) {t : DType} {a : Nat → List K} :
    ScatOr n (fun r => wrapMv o b (env n J r) (L.fam n t a r)) (o.outDim b) := by
  have hW : (Layout.lin (o.outDim b) (balanced (o.outDim b) n)).WF n := lin_wf (psum_balanced_total _ hn) (by simp)
  have hmk := runs_mkDArr_none (J := J) (dt := .cplx) hW (fun _ => rfl)
  generalize hR : Layout.lin (o.outDim b) (balanced (o.outDim b) n) = R at hW hmk
  let y := fun r => R.fam n .cplx (junkData J R .cplx) r
  let loc := fun r => (o.apply b (L.fam n t a r).larr).bind fun v => setIndex Index.all (y r).larr v
  have hmk' : Runs n (fun r => mkDArr (env n J r) [o.outDim b] (L.fam n t a r).part (L.fam n t a r).axis none none o.dtype) fun r => .ok (y r) := by
    refine hmk.congr (fun r _ => ?_) fun _ _ => rfl
    show mkDArr _ _ _ _ _ _ _ = mkDArr _ _ L.part L.axis _ _ _
    rw [hp, hax, ho, ← hR]
    rfl
  have hk : ∀ r, ((Prog.lift (o.apply b (L.fam n t a r).larr)).bind fun v => (y r).setAll (env n J r) v) = (Prog.lift (loc r)).bind fun z => .ret { y r with larr := z } := fun r => by
    have hs : ¬ (y r).part = .broadcast := by
      show ¬ R.part = .broadcast
      rw [← hR]; simp [Layout.lin]
    show _ = (Prog.lift ((o.apply b (L.fam n t a r).larr).bind _)).bind _
    cases o.apply b (L.fam n t a r).larr with
    | error e => rfl
    | ok v =>
      simp only [Prog.lift_ok, Prog.ret_bind, Except.bind, DArr.setAll, DArr.setItem, if_neg hs, Prog.bind_eq]
  rw [ScatOr, hR]
  by_cases hc : ∃ r < n, ∃ e, loc r = .error e
  · obtain ⟨m, hm, e, he⟩ := hc
    refine .inr ⟨m, hm, e, RankEnds.congr_prog (rankEnds_bind_ok (k := fun r z => (Prog.lift (o.apply b (L.fam n t a r).larr)).bind fun v => z.setAll (env n J r) v) hm hmk' ?_) (fun _ _ => rfl) hm⟩
    refine RankEnds.of_steps .refl ?_
    rw [hk, he]
    rfl
  · have hz : ∀ r, ∃ z, r < n → loc r = .ok z := fun r => by
      cases h : loc r with
      | ok z => exact ⟨z, fun _ => rfl⟩
      | error e => exact ⟨⟨[], .real, []⟩, fun hr => absurd ⟨r, hr, e, h⟩ hc⟩
    choose z hz using hz
    have hsh : ∀ r < n, (z r).shape = R.lshape r ∧ (z r).dtype = .cplx ∧ (z r).data.length = (R.lshape r).prod := fun r hr => by
      have h := hz r hr
      simp only [loc] at h
      cases ha : o.apply b (L.fam n t a r).larr with
      | error e => rw [ha] at h; cases h
      | ok v =>
        rw [ha] at h
        obtain ⟨h1, h2, h3, -⟩ := setIndex_ok h
        exact ⟨h1, h2, h3.trans (length_junk r)⟩
    refine .inl ⟨fun r => (z r).data, ⟨fun r hr => (hsh r hr).2.2, fun r hr => fits_cplx rfl _, fun h => ?_⟩, Runs.bind_ok hmk' ?_⟩
    · rw [← hR] at h; simp [Layout.lin] at h
    · refine (Runs.ret fun r => ({ y r with larr := z r } : DArr K)).congr (fun r hr => ?_) fun r hr => ?_
      · refine Eq.symm ((hk r).trans ?_)
        rw [hz r hr]; rfl
      · obtain ⟨h1, h2, -⟩ := hsh r hr
        simp only [y, Layout.fam]
        congr 2
        cases hzr : z r
        rw [hzr] at h1 h2
        simp only at h1 h2
        rw [h1, h2]

theorem fredMv_scatter (hn : 0 < n) {o : Nat → Fred K} {b : Bool} {x : Nat → DArr K} (hx : (x 0).part = .scatter) : Raises n (fun r => fredMv (o r) b (env n J r) (x r)) := by
  refine ⟨0, hn, .value, RankEnds.of_steps .refl ?_⟩
  unfold fredMv
  rw [hx, if_pos (by decide)]
  rfl

/-- the Fredholm operator, conjugated or not -/
theorem fr_scatter (hn : 0 < n) {M : Nat} {a : Nat → List K} (b : Bool) (ha : (Layout.lin M (balanced M n)).Good n .cplx a) :
    Raises n (fun r => MOp.run (env n J r) b ((if cj then .conj (.leaf (MLeaf.Fr)) else .leaf .Fr : MOp K MLeaf).map (mdcPrim F F1 n sz nfft ns nr nv sg um dG g · r)) ((Layout.lin M (balanced M n)).fam n .cplx a r)) := by
  have h : ∀ a : Nat → List K, Raises n (fun r => MOp.run (env n J r) b (.leaf (fredPrim n sz ns nr nv sg um dG dG g r)) ((Layout.lin M (balanced M n)).fam n .cplx a r)) := fun a => by
    refine Raises.checkDim ?_
    cases b
    · exact fredMv_scatter (J := J) (b := false) (o := fredObj n sz ns nr nv sg um dG dG g) (x := fun r => (Layout.lin M (balanced M n)).fam n .cplx a r) hn rfl
    · exact fredMv_scatter (J := J) (b := true) (o := fredObj n sz ns nr nv sg um dG dG g) (x := fun r => (Layout.lin M (balanced M n)).fam n .cplx a r) hn rfl
  cases cj
  · exact h a
  · refine Raises.checkDim ?_
    obtain ⟨m, hm, e, h⟩ := (h fun r => (a r).map star).bind fun r y => y.conj (env n J r)
    have hW : (Layout.lin M (balanced M n)).WF n := lin_wf (psum_balanced_total _ hn) (by simp)
    exact ⟨m, hm, e, rankEnds_bind_ok hm (runs_conj hW ha) h⟩

/-- scattered inputs are rejected by some rank -/
theorem mdc_scatter (hn : 0 < n) (hF : F.dtype = .cplx) (hF1 : F1.dtype = .cplx) (hd : dG = .cplx) (b : Bool) (hX : X.part = .scatter) (hax : X.axis = 0) {a : Nat → List K} :
    Raises n (fun r => MOp.run (env n J r) b ((mdcExpr cj).map (mdcPrim F F1 n sz nfft ns nr nv sg um dG g · r)) (X.fam n dx a r)) := by
  cases b with
  | false =>
    refine Raises.checkDim (ScatOr.bind_raises (M := F.rows) (wrapMv_scatter hn hF false hX hax).checkDim fun a1 h1 => ?_)
    refine Raises.checkDim (ScatOr.bind_raises (M := psum sz n * nr * nv) (wrapMv_scatter hn (o := identityOp _ _ dG) hd false rfl rfl).checkDim fun a2 h2 => ?_)
    exact Raises.checkDim ((fr_scatter hn false h2).bind _)
  | true =>
    refine Raises.checkDim (Raises.bind (Raises.checkDim (Raises.bind (Raises.checkDim ?_) _)) _)
    refine ScatOr.bind_raises (M := psum sz n * ns * nv) (ScatOr.checkDim (ScatOr.bind (M := F1.rows) ?_ fun a1 h1 => ?_)) fun a2 h2 => fr_scatter hn true h2
    · exact (wrapMv_scatter hn hF1 false hX hax).checkDim.checkDim
    · exact (wrapMv_scatter hn (o := identityOp _ _ dG) hd false rfl rfl).checkDim.checkDim

/-! ### The constructor -/

variable {nfreq : Nat} {tw ps : Bool} {fft : Nat → Nat → Nat → Bool → LOp K} {sqrt : Nat → K} {δt δr : K}

theorem mkMDC_cases (hn : 0 < n) (hF : FFTOk (fft nt nr nv tw) nt (nt / 2 + 1) (nr * nv)) (hF1 : FFTOk (fft nt ns nv false) nt (nt / 2 + 1) (ns * nv)) (hd : dG = .cplx)
    (hg : g.length = psum sz n * (ns * nr)) (hnv : nv ≠ 0) :
    MDCOk fft n sz nt ns nr nv nfreq tw dG g ∨ Raises n (fun r => mkMDC (env n J r) fft sqrt (kern sz ns nr dG g r) nt nv nfreq δt δr tw sg cj um ps) := by
  by_cases hodd : tw = true → nt % 2 = 1
  swap
  · right
    obtain ⟨h1, h2⟩ : tw = true ∧ nt % 2 ≠ 1 := by simpa using hodd
    refine ⟨0, hn, .value, RankEnds.of_steps .refl ?_⟩
    rw [C39_rejects h1 (by omega)]
    rfl
  have c1 : ¬ (tw = true ∧ nt % 2 = 0) := fun hc => by have := hodd hc.1; omega
  by_cases h0 : ns ≠ 0 ∧ nr ≠ 0 ∧ ∀ r < n, sz r ≠ 0
  swap
  · right
    obtain ⟨q, hq, hz⟩ : ∃ q < n, ns = 0 ∨ nr = 0 ∨ sz q = 0 := by
      by_contra hc
      refine h0 ⟨fun h => hc ⟨0, hn, .inl h⟩, fun h => hc ⟨0, hn, .inr (.inl h)⟩, fun r hr h => hc ⟨r, hr, .inr (.inr h)⟩⟩
    refine ⟨q, hq, .index, RankEnds.of_steps .refl ?_⟩
    unfold mkMDC
    rw [if_neg c1, if_pos]
    · rfl
    · simp [kern]; omega
  obtain ⟨hns, hnr, hsz⟩ := h0
  have c2 : ∀ r < n, ¬ ((kern sz ns nr dG g r).shape.length < 3 ∨ 0 ∈ (kern sz ns nr dG g r).shape.take 3) := fun r hr => by
    have := hsz r hr
    simp [kern]; omega
  have c3 : ∀ r, (if ps then kern sz ns nr dG g r else (kern sz ns nr dG g r).map (δr * δt * sqrt nt * ·)) = kern sz ns nr dG (scaledKernel ps (δr * δt * sqrt nt) g) r := fun r => by
    cases ps <;> simp [kern, scaledKernel, NDArray.map, slab, List.map_take, List.map_drop]
  by_cases h1 : ∃ r < n, sz r = 1
  · right
    have h := mkFredholm_raises (J := J) (nx := ns) (ny := nr) (nz := nv) (sg := sg) (um := um) (dG := dG) (dt := dG) (g := scaledKernel ps (δr * δt * sqrt nt) g) hn h1
    refine (h.bind fun r fr => (Prog.lift (mdcChain fft nt ns nr nv nfreq tw cj dG fr)).bind fun m => .ret (m, DType.real)).congr fun r hr => ?_
    unfold mkMDC
    rw [if_neg c1, if_neg (c2 r hr), c3]
    rfl
  have h2 : ∀ r < n, 2 ≤ sz r := fun r hr => by
    have := hsz r hr
    have : sz r ≠ 1 := fun h => h1 ⟨r, hr, h⟩
    omega
  by_cases hT : psum sz n = min nfreq (nt / 2 + 1)
  · exact .inl ⟨hodd, hd, h2, ⟨hns, hnr⟩, hg, hT, hF, hF1⟩
  · right
    exact Raises.of_runs hn (C39_rejects_freq h2 hns hnr hnv hodd (by rw [hF1.rows, Nat.mul_assoc]) hT).runs

theorem mdcRun_safe (hF : FFTOk (fft nt nr nv tw) nt (nt / 2 + 1) (nr * nv)) (hF1 : FFTOk (fft nt ns nv false) nt (nt / 2 + 1) (ns * nv)) (hd : dG = .cplx)
    (hg : g.length = psum sz n * (ns * nr)) (hnv : nv ≠ 0) (hXw : X.WF n) (hXg : X.gshape = [nt * nr * nv]) :
    ComputesOr n J (fun r => mdcRun fft sqrt (kern sz ns nr dG g r) nt nv nfreq δt δr tw sg cj um ps false) ⟨X, dx⟩ ⟨.all (nt * ns * nv), .cplx⟩
      (mdc (fft nt nr nv tw).fwd (fft nt ns nv false).adj (min nfreq (nt / 2 + 1)) (nt / 2 + 1) ns nr nv (mdcKernel ps cj (δr * δt * sqrt nt) g)) := by
  refine ComputesOr.intro fun d hmem => ⟨⟨?_, fits_cplx rfl _⟩, ?_⟩
  · unfold mdc
    rw [hF1.len_adj _ (by rw [length_toSize, hF1.rows, Nat.mul_assoc]), hF1.cols]
    simp [Layout.all, Nat.mul_assoc]
  rcases Nat.eq_zero_or_pos n with rfl | hn
  · exact .inl Runs.of_zero
  unfold mdcRun
  simp only [Prog.bind_eq]
  rcases mkMDC_cases (J := J) (nfreq := nfreq) (sg := sg) (cj := cj) (um := um) (ps := ps) (sqrt := sqrt) (δt := δt) (δr := δr) hn hF hF1 hd hg hnv with h | h
  swap
  · exact .inr (h.bind _)
  refine RunsOr.bind_ok (mkMDC_runs h).or ?_
  rcases (show X.part = .scatter ∨ X.part.isBroadcast = true by cases X.part <;> simp [Partition.isBroadcast]) with hX | hX
  · have hax : X.axis = 0 := by have := hXw.axis_lt; rw [hXg] at this; simpa using this
    exact .inr (mdc_scatter hn hF.dtype hF1.dtype hd false hX hax)
  · have hr := (typedOr_safe (mdc_safe (J := J) (sz := sz) (sg := sg) (um := um) (dG := dG) (dx := dx) (cj := cj) (g := scaledKernel ps (δr * δt * sqrt nt) g) h.fftF h.fftF1 (fun r hr => by have := h.slices r hr; omega)
      (by cases ps <;> simp [scaledKernel, h.length]) h.cplx hXw hX hXg)).runs hmem
    rw [den_mdc, kernel_eq, h.freq] at hr
    exact hr

theorem mdcRun_safeAdj (hF : FFTOk (fft nt nr nv tw) nt (nt / 2 + 1) (nr * nv)) (hF1 : FFTOk (fft nt ns nv false) nt (nt / 2 + 1) (ns * nv)) (hd : dG = .cplx)
    (hg : g.length = psum sz n * (ns * nr)) (hnv : nv ≠ 0) (hXw : X.WF n) (hXg : X.gshape = [nt * ns * nv]) :
    ComputesOr n J (fun r => mdcRun fft sqrt (kern sz ns nr dG g r) nt nv nfreq δt δr tw sg cj um ps true) ⟨X, dx⟩ ⟨.all (nt * nr * nv), .cplx⟩
      (mdcAdj (fft nt nr nv tw).adj (fft nt ns nv false).fwd (min nfreq (nt / 2 + 1)) (nt / 2 + 1) ns nr nv (mdcKernel ps cj (δr * δt * sqrt nt) g)) := by
  refine ComputesOr.intro fun d hmem => ⟨⟨?_, fits_cplx rfl _⟩, ?_⟩
  · unfold mdcAdj
    rw [hF.len_adj _ (by rw [length_toSize, hF.rows, Nat.mul_assoc]), hF.cols]
    simp [Layout.all, Nat.mul_assoc]
  rcases Nat.eq_zero_or_pos n with rfl | hn
  · exact .inl Runs.of_zero
  unfold mdcRun
  simp only [Prog.bind_eq]
  rcases mkMDC_cases (J := J) (nfreq := nfreq) (sg := sg) (cj := cj) (um := um) (ps := ps) (sqrt := sqrt) (δt := δt) (δr := δr) hn hF hF1 hd hg hnv with h | h
  swap
  · exact .inr (h.bind _)
  refine RunsOr.bind_ok (mkMDC_runs h).or ?_
  rcases (show X.part = .scatter ∨ X.part.isBroadcast = true by cases X.part <;> simp [Partition.isBroadcast]) with hX | hX
  · have hax : X.axis = 0 := by have := hXw.axis_lt; rw [hXg] at this; simpa using this
    exact .inr (mdc_scatter hn hF.dtype hF1.dtype hd true hX hax)
  · have hr := (typedOr_safe (mdc_safeAdj (J := J) (sz := sz) (sg := sg) (um := um) (dG := dG) (dx := dx) (cj := cj) (g := scaledKernel ps (δr * δt * sqrt nt) g) h.fftF h.fftF1 (fun r hr => by have := h.slices r hr; omega)
      (by cases ps <;> simp [scaledKernel, h.length]) h.cplx hXw hX hXg)).runs hmem
    rw [den_mdcAdj, kernel_eq, h.freq] at hr
    exact hr

end Verif

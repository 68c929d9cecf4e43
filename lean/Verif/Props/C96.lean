/- C96: the scripts of the gallery on stacking and on wrapped operators. -/
import Verif.Model.GalleryStacking
import Verif.Props.C54
import Verif.Props.C94

set_option linter.unusedSectionVars false

namespace Verif
open NDArray

variable {K : Type} [RCLike K] {n : Nat} {J : Nat → Nat → K} {b : Bool}

/-! ### The multiples `(rank + 1) * Op` -/

/-- rank `r` holds the operators `l`, each multiplied by `r + 1` -/
def ranked (l : List (LOp K)) (r : Nat) : List (LOp K) := l.map (LOp.multiple (r + 1))

theorem multiple_inDim (a : Nat) (o : LOp K) (b : Bool) : (o.multiple a).inDim b = o.inDim b := by cases b <;> rfl
theorem multiple_fn (a : Nat) (o : LOp K) (b : Bool) (x : List K) : (o.multiple a).fn b x = (o.fn b x).map ((a : K) * ·) := by cases b <;> rfl

theorem fits_multiple (a : Nat) {x : List K} (h : FitsL .real x) : FitsL .real (x.map ((a : K) * ·)) := fun hd z hz => by
  obtain ⟨y, hy, rfl⟩ := List.mem_map.1 hz
  simp [h hd y hy]

theorem multiple_ok {o : LOp K} (h : o.Ok b .real .real) (a : Nat) : (o.multiple a).Ok b .real .real :=
  ⟨fun d hd => by
    rw [multiple_fn, List.length_map, LOp.outDim, multiple_inDim]
    exact h.length d (by rw [hd, multiple_inDim]),
   fun d hd hf => by
    rw [multiple_fn]
    exact fits_multiple a (h.fits d (by rw [hd, multiple_inDim]) hf)⟩

theorem inSum_ranked (b : Bool) (l : List (LOp K)) (r : Nat) : inSum b (ranked l r) = inSum b l := by
  unfold inSum ranked
  rw [List.map_map]
  exact congrArg List.sum (List.map_congr_left fun o _ => multiple_inDim _ o b)

theorem inSum_allRanked (b : Bool) (l : List (LOp K)) (n : Nat) : inSum b (allOps n (ranked l)) = n * inSum b l := by
  rw [inSum_allOps, ← psum_const]
  exact congrArg (psum · n) (funext fun r => inSum_ranked b l r)

theorem inL_ranked (b : Bool) (l : List (LOp K)) (n : Nat) : Layout.lin (inSum b (allOps n (ranked l))) (fun r => inSum b (ranked l r)) = .lin (n * inSum b l) fun _ => inSum b l := by
  rw [inSum_allRanked]
  exact congrArg (Layout.lin _ ·) (funext fun r => inSum_ranked b l r)

theorem mem_ranked {l : List (LOp K)} {q : LOp K} (hq : q ∈ allOps n (ranked l)) : ∃ r < n, ∃ o ∈ l, q = o.multiple (r + 1) := by
  simp only [allOps, List.mem_flatMap, List.mem_range, ranked, List.mem_map] at hq
  obtain ⟨r, hr, o, ho, rfl⟩ := hq
  exact ⟨r, hr, o, ho, rfl⟩

theorem vcat_ranked (b : Bool) (l : List (LOp K)) (n : Nat) (x : List K) :
    vcat b (allOps n (ranked l)) x = (List.range n).flatMap fun r => (vcat b l x).map (((r + 1 : Nat) : K) * ·) := by
  unfold vcat allOps
  rw [List.flatMap_assoc]
  refine congrArg (List.flatMap · _) (funext fun r => ?_)
  simp only [ranked, List.flatMap_map, List.map_flatMap, multiple_fn]

theorem slices_ranked (b : Bool) (l : List (LOp K)) (r : Nat) (x : List K) : slices b (ranked l r) x = (slices b l x).map (List.map (((r + 1 : Nat) : K) * ·)) := by
  induction l generalizing x with
  | nil => rfl
  | cons o os ih =>
    have h := ih (x.drop (o.inDim b))
    simp only [ranked, List.map_cons, slices, multiple_fn, multiple_inDim] at h ⊢
    rw [h]

theorem rep_succ_right (n : Nat) (v : List K) : rep (n + 1) v = rep n v ++ v := by simp [rep, List.replicate_succ']

theorem slices_allRanked (b : Bool) {l : List (LOp K)} (n : Nat) {x : List K} (hx : x.length = inSum b l) :
    slices b (allOps n (ranked l)) (rep n x) = (List.range n).flatMap fun r => (slices b l x).map (List.map (((r + 1 : Nat) : K) * ·)) := by
  induction n with
  | zero => rfl
  | succ n ih =>
    have hl : (rep n x).length = inSum b (allOps n (ranked l)) := by rw [length_rep, hx, inSum_allRanked]
    have e : allOps (n + 1) (ranked l) = allOps n (ranked l) ++ ranked l n := by simp [allOps, List.range_succ]
    rw [e, rep_succ_right, slices_append, ← slices_take b (allOps n (ranked l)) _ (le_refl _), ← hl, List.take_left, List.drop_left, ih, slices_ranked, List.range_succ, List.flatMap_append]
    simp

theorem blockDiag_ranked (b : Bool) {l : List (LOp K)} (n : Nat) {x : List K} (hx : x.length = inSum b l) :
    blockDiag b (allOps n (ranked l)) (rep n x) = (List.range n).flatMap fun r => (blockDiag b l x).map (((r + 1 : Nat) : K) * ·) := by
  unfold blockDiag
  rw [slices_allRanked b n hx]
  simp only [List.flatMap_def, List.flatten_flatten, List.map_map]
  refine congrArg List.flatten (List.map_congr_left fun r _ => ?_)
  simp [List.map_flatten]

theorem vadd_map (a c : K) (x : List K) : vadd (x.map (a * ·)) (x.map (c * ·)) = x.map ((a + c) * ·) := by
  induction x with
  | nil => rfl
  | cons z x ih => simp [vadd, add_mul]

theorem vsum_map (N : Nat) (a : K) (l : List (List K)) : vsum N (l.map (List.map (a * ·))) = (vsum N l).map (a * ·) := by
  induction l with
  | nil => simp [vsum]
  | cons y l ih =>
    rw [List.map_cons, vsum_cons, vsum_cons, ih]
    unfold vadd
    rw [List.zipWith_map, List.map_zipWith]
    exact congrArg (List.zipWith · y _) (funext fun p => funext fun q => (mul_add a p q).symm)

/-- the sum over the ranks of the multiples `1, 2, …, n` -/
theorem hsum_ranked {N : Nat} {l : List (LOp K)} (n : Nat) {x : List K} (hx : x.length = inSum b l) (hl : ∀ o ∈ l, o.Ok b .real .real ∧ o.outDim b = N) :
    hsum b N (allOps n (ranked l)) (rep n x) = (hsum b N l x).map ((n * (n + 1) / 2 : K) * ·) := by
  unfold hsum
  rw [slices_allRanked b n hx]
  have hlen : ∀ y ∈ slices b l x, y.length = N := slices_len_N hl hx.ge
  induction n with
  | zero =>
    have : (vsum N (slices b l x)).length = N := length_vsum hlen
    simp only [List.range_zero, List.flatMap_nil, vsum, List.foldr_nil]
    symm
    rw [List.eq_replicate_iff]
    refine ⟨by rw [List.length_map]; exact this, fun z hz => ?_⟩
    obtain ⟨w, _, rfl⟩ := List.mem_map.1 hz
    simp
  | succ n ih =>
    rw [List.range_succ, List.flatMap_append, vsum_append, ih, List.flatMap_singleton, vsum_map, vadd_map]
    · refine congrArg (List.map · _) (funext fun z => ?_)
      push_cast
      ring
    · intro y hy
      rw [List.flatMap_singleton] at hy
      obtain ⟨w, hw, rfl⟩ := List.mem_map.1 hy
      rw [List.length_map]
      exact hlen w hw

theorem opsDType_ranked {l : List (LOp K)} (hne : l ≠ []) (h : ∀ o ∈ l, o.dtype = .real) (r : Nat) : opsDType (ranked l r) none = .ok .real := by
  cases l with
  | nil => exact absurd rfl hne
  | cons o os =>
    have : ∀ os : List (LOp K), (∀ o ∈ os, o.dtype = .real) → (os.map (LOp.multiple (r + 1))).foldl (fun t o => t.promote o.dtype) DType.real = .real := by
      intro os
      induction os with
      | nil => intro _; rfl
      | cons p ps ih =>
        intro hp
        rw [List.map_cons, List.foldl_cons]
        have : (LOp.multiple (r + 1) p).dtype = .real := hp p (by simp)
        rw [this]
        exact ih fun o ho => hp o (by simp [ho])
    have h0 : (LOp.multiple (r + 1) o).dtype = .real := h o (by simp)
    simp only [ranked, List.map_cons, opsDType, h0]
    exact congrArg Except.ok (this os fun o ho => h o (by simp [ho]))

/-! ### Replicated vectors -/

theorem runs_replicatedArr {N : Nat} {v : NDArray K} (hs : v.shape = [N]) (hv : v.data.length = N) (hf : FitsL .real v.data) :
    Runs n (fun r => replicatedArr (env n J r) N v) (fun r => .ok (VSpace.vec ⟨.all N, .real⟩ n v.data r)) := by
  have wf : (Layout.all N).WF n := all_wf rfl
  unfold replicatedArr
  simp only [Prog.bind_eq]
  refine Runs.bind_ok (runs_mkDArr_none (L := .all N) wf fun h => by simp [Layout.all] at h) ?_
  exact runs_new_vec (S := ⟨.all N, .real⟩) wf ⟨by simp [Layout.all, hv], hf⟩ (fun r _ => by rw [hs]; rfl) (fun r hr => rfl) _ fun r _ => length_junk r

theorem runs_replicatedArr_scalar {N : Nat} {z : K} (hz : FitsL .real [z]) :
    Runs n (fun r => replicatedArr (env n J r) N (scalar .real z)) (fun r => .ok (VSpace.vec ⟨.all N, .real⟩ n (List.replicate N z) r)) := by
  have wf : (Layout.all N).WF n := all_wf rfl
  unfold replicatedArr
  simp only [Prog.bind_eq]
  refine Runs.bind_ok (runs_mkDArr_none (L := .all N) wf fun h => by simp [Layout.all] at h) ?_
  have := runs_setAll_scalar (J := J) (L := .all N) (dt := .real) (t := .real) (x := z) (n := n) (a := junkData J (.all N) .real) fun r _ => length_junk r
  refine this.congr (fun _ _ => rfl) fun r hr => ?_
  have h1 : castTo .real z = z := castTo_fit fun _ => hz rfl z (by simp)
  have h2 : (Layout.all N).lshape r = [N] := rfl
  have h3 : (Layout.all N).piece (List.replicate N z) r = List.replicate N z := rfl
  simp only [VSpace.vec, Layout.fam, h1, h2, h3]
  simp

/-! ### plot_stacking.py -/

/-- **C96** (plot_stacking.py).  Let `dv` and `dh` be real operators with `N` columns and `M` rows, the same on all of the `n > 0` ranks, `u` a real vector with `N` entries, `w₁` and `w₂` the two halves of
    the vector that each rank assigns to its part of the second `x`.  In every execution all ranks finish with the same three arrays:
    * from MPIVStack, for each rank `r` in turn, `r + 1` times `dv u` followed by `r + 1` times `dh u`;
    * from MPIHStack, `n (n + 1) / 2` times `dv w₁ + dh w₂`;
    * from MPIBlockDiag, for each rank `r` in turn, `r + 1` times `dv w₁` followed by `r + 1` times `dh w₂`. -/
theorem C96_stacking (hn : 0 < n) {M N : Nat} {dv dh : LOp K} (hcv : dv.cols = N) (hch : dh.cols = N) (hrv : dv.rows = M) (hrh : dh.rows = M) (htv : dv.dtype = .real) (hth : dh.dtype = .real)
    (hkv : dv.Ok false .real .real) (hkh : dh.Ok false .real .real) {u w₁ w₂ : List K} (hu : u.length = N) (h1 : w₁.length = N) (h2 : w₂.length = N)
    (fu : FitsL .real u) (f1 : FitsL .real w₁) (f2 : FitsL .real w₂) :
    Always n (fun r => exStacking (env n J r) dv dh ⟨[N], .real, u⟩ ⟨[N + N], .real, w₁ ++ w₂⟩) (fun _ => .ok
      (⟨[n * (M + M)], .real, (List.range n).flatMap fun r => (dv.fwd u).map (((r + 1 : Nat) : K) * ·) ++ (dh.fwd u).map (((r + 1 : Nat) : K) * ·)⟩,
       ⟨[M], .real, (List.zipWith (· + ·) (dv.fwd w₁) (dh.fwd w₂)).map ((n * (n + 1) / 2 : K) * ·)⟩,
       ⟨[n * (M + M)], .real, (List.range n).flatMap fun r => (dv.fwd w₁).map (((r + 1 : Nat) : K) * ·) ++ (dh.fwd w₂).map (((r + 1 : Nat) : K) * ·)⟩)) := by
  let l := [dv, dh]
  have hne : ∀ r < n, ranked l r ≠ [] := fun r _ => by simp [ranked, l]
  have hdt : ∀ r < n, opsDType (ranked l r) none = .ok .real := fun r _ => opsDType_ranked (by simp [l]) (by simp [l, htv, hth]) r
  have hok : ∀ q ∈ allOps n (ranked l), q.Ok false .real .real := fun q hq => by
    obtain ⟨r, _, o, ho, rfl⟩ := mem_ranked hq
    simp only [l, List.mem_cons, List.not_mem_nil, or_false] at ho
    rcases ho with rfl | rfl
    · exact multiple_ok hkv _
    · exact multiple_ok hkh _
  have hcols : ∀ q ∈ allOps n (ranked l), q.cols = N := fun q hq => by
    obtain ⟨r, _, o, ho, rfl⟩ := mem_ranked hq
    simp only [l, List.mem_cons, List.not_mem_nil, or_false] at ho
    rcases ho with rfl | rfl
    · exact hcv
    · exact hch
  have hrows : ∀ q ∈ allOps n (ranked l), q.rows = M := fun q hq => by
    obtain ⟨r, _, o, ho, rfl⟩ := mem_ranked hq
    simp only [l, List.mem_cons, List.not_mem_nil, or_false] at ho
    rcases ho with rfl | rfl
    · exact hrv
    · exact hrh
  have hin : inSum false l = N + N := by simp [l, inSum, LOp.inDim, hcv, hch]
  have hout : inSum true l = M + M := by simp [l, inSum, LOp.inDim, hrv, hrh]
  have all := allOps_ne hn hne
  let w := w₁ ++ w₂
  have hw : w.length = N + N := by simp [w, h1, h2]
  have fw : FitsL .real w := fun hd z hz => by
    rcases List.mem_append.1 hz with h | h
    · exact f1 hd z h
    · exact f2 hd z h
  have mu : VSpace.Mem ⟨.all N, .real⟩ u := ⟨by simp [Layout.all, hu], fu⟩
  have mw : VSpace.Mem ⟨.lin (n * (N + N)) fun _ => N + N, .real⟩ (rep n w) := mem_rep hw fw
  have lin_eq : (Layout.lin (inSum false (allOps n (ranked l))) fun r => inSum false (ranked l r)) = .lin (n * (N + N)) fun _ => N + N := by rw [inL_ranked, hin]
  have lout_eq : (Layout.lin (outSum false (allOps n (ranked l))) fun r => outSum false (ranked l r)) = .lin (n * (M + M)) fun _ => M + M := by
    have := inL_ranked true l n
    rw [hout] at this
    exact this
  have win : (Layout.lin (n * (N + N)) fun _ => N + N).WF n := lin_wf (psum_const _ n) (by simp)
  have wout : (Layout.lin (n * (M + M)) fun _ => M + M).WF n := lin_wf (psum_const _ n) (by simp)
  have gin : (Layout.lin (n * (N + N)) fun _ => N + N).gshape = [inSum false (allOps n (ranked l))] := by rw [inSum_allRanked, hin]; rfl
  have near : Near n (.lin (n * (N + N)) fun _ => N + N) (.lin (inSum false (allOps n (ranked l))) fun r => inSum false (ranked l r)) := by rw [lin_eq]; exact near_refl _ _
  -- the three products
  have rv := runs_vsRun_fwd (J := J) (X := .all N) (N := N) (ops := ranked l) (dx := .real) (dt := .real) (all_wf rfl) rfl rfl (fun q hq => ⟨hok q hq, hcols q hq⟩) hne mu
  have mv : VSpace.Mem ⟨_, .real⟩ (vcat false (allOps n (ranked l)) u) := mem_vcat (mask := none) (dx := .real) (dt := .real) (N := N) (fun q hq => ⟨hok q hq, hcols q hq⟩) hu fu
  have rh := runs_hsRun_fwd (J := J) (M := M) (ops := ranked l) (dt := .real) win gin rfl rfl near (fun q hq => ⟨hok q hq, hrows q hq⟩) hne mw
  have mh : VSpace.Mem ⟨.all M, .real⟩ (hsum false M (allOps n (ranked l)) (rep n w)) :=
    mem_hsum (dx := .real) (dt := .real) (N := M) (fun q hq => ⟨hok q hq, hrows q hq⟩) (by rw [length_rep, hw, inSum_allRanked, hin]) (fits_rep fw)
  have rb := runs_bdRun (J := J) (mask := none) (b := false) (ops := ranked l) (dt := .real) win gin rfl rfl near hok hne (by simp) mw
  have mb : VSpace.Mem ⟨_, .real⟩ (blockDiag false (allOps n (ranked l)) (rep n w)) := mem_blockDiag (dx := .real) (dt := .real) (mask := none) hok (by rw [length_rep, hw, inSum_allRanked, hin]) (fits_rep fw)
  have ev : vcat false (allOps n (ranked l)) u = (List.range n).flatMap fun r => (dv.fwd u).map (((r + 1 : Nat) : K) * ·) ++ (dh.fwd u).map (((r + 1 : Nat) : K) * ·) := by
    rw [vcat_ranked]
    simp [vcat, l, LOp.fn]
  have es : slices false l w = [dv.fwd w₁, dh.fwd w₂] := by
    simp [slices, l, w, LOp.inDim, LOp.fn, hcv, hch, List.take_left' h1, List.drop_left' h1, List.take_of_length_le h2.le]
  have eh : hsum false M (allOps n (ranked l)) (rep n w) = (List.zipWith (· + ·) (dv.fwd w₁) (dh.fwd w₂)).map ((n * (n + 1) / 2 : K) * ·) := by
    rw [hsum_ranked n (hw.trans hin.symm)]
    · unfold hsum
      rw [es, vsum_cons, vsum_cons]
      have : (dh.fwd w₂).length = M := (hkh.length w₂ (h2.trans hch.symm)).trans hrh
      rw [show vsum M ([] : List (List K)) = List.replicate M 0 from rfl, vadd_zero this]
      rfl
    · intro o ho
      simp only [l, List.mem_cons, List.not_mem_nil, or_false] at ho
      rcases ho with rfl | rfl
      · exact ⟨hkv, hrv⟩
      · exact ⟨hkh, hrh⟩
  have eb : blockDiag false (allOps n (ranked l)) (rep n w) = (List.range n).flatMap fun r => (dv.fwd w₁).map (((r + 1 : Nat) : K) * ·) ++ (dh.fwd w₂).map (((r + 1 : Nat) : K) * ·) := by
    rw [blockDiag_ranked false n (hw.trans hin.symm)]
    unfold blockDiag
    rw [es]
    simp
  simp only [outSum, Bool.not_false] at lout_eq
  simp only [inL, outSum, Bool.not_false, lout_eq] at rv mv rb mb
  rw [ev] at rv mv
  rw [eh] at rh mh
  rw [eb] at rb mb
  refine Runs.always ?_
  unfold exStacking
  simp only [Prog.bind_eq]
  refine Runs.bind_ok ((runs_replicatedArr (N := N) (v := ⟨[N], .real, u⟩) rfl hu fu).congr (fun r _ => by rw [hcv]) fun _ _ => rfl) ?_
  refine Runs.bind_ok (runs_mkVStack (J := J) (ops := ranked l) (N := N) hdt hcols all) ?_
  refine Runs.bind_ok rv ?_
  refine Runs.bind_ok (runs_asarray_vec (S := ⟨_, .real⟩) wout mv) ?_
  refine Runs.bind_ok ((runs_repeatedArr (M := N + N) hn (v := ⟨[N + N], .real, w⟩) rfl hw fw).congr (fun r _ => by rw [hcv, hch]; rfl) fun _ _ => rfl) ?_
  refine Runs.bind_ok (runs_mkHStack (J := J) (ops := ranked l) (M := M) hdt hrows all) ?_
  refine Runs.bind_ok rh ?_
  refine Runs.bind_ok (runs_asarray_vec (S := ⟨_, .real⟩) (all_wf rfl) mh) ?_
  refine Runs.bind_ok (runs_mkBlockDiag (J := J) (ops := ranked l) (mask := none) hdt) ?_
  refine Runs.bind_ok rb ?_
  refine Runs.bind_ok (runs_asarray_vec (S := ⟨_, .real⟩) wout mb) ?_
  exact (Runs.ret _).congr (fun _ _ => rfl) fun _ _ => rfl

/-! ### plot_mpilinop.py -/

theorem runs_prod {A B : Nat → MOp K (Prim K)} {b : Bool} {x y z : Nat → DArr K} (hg : ∀ r < n, (x r).gshape = [(if b then ((A r).shape Prim.shape).1 else ((B r).shape Prim.shape).2)])
    (h1 : Runs n (fun r => (if b then A r else B r).run (env n J r) b (x r)) (fun r => .ok (y r))) (h2 : Runs n (fun r => (if b then B r else A r).run (env n J r) b (y r)) (fun r => .ok (z r))) :
    Runs n (fun r => (MOp.prod (A r) (B r)).run (env n J r) b (x r)) (fun r => .ok (z r)) := by
  refine (Runs.bind_ok h1 h2).congr (fun r hr => ?_) fun _ _ => rfl
  have := hg r hr
  cases b <;> simp_all [MOp.run, checkDim, MOp.shape, Prog.bind_eq]

/-- **C96** (plot_mpilinop.py).  Let `f` and `s` be real operators, the same on all of the `n > 0` ranks, such that `s` applies to the results of `f` and both vectors of the script fit, `u` being a real vector.
    In every execution, on all ranks: `Mop @ x` for the vector of ones is `f` of the vector of ones; `FullOp @ x` is, for each rank `r` in turn, `r + 1` times `s (f u)`; `FullOp.H @ x`, where every rank has
    `u` as its part of `x`, is the adjoint of `f` applied to `n (n + 1) / 2` times the adjoint of `s` applied to `u`. -/
theorem C96_mpilinop (hn : 0 < n) {f s : LOp K} (hfs : s.cols = f.rows) (hsf : s.rows = f.cols) (htf : f.dtype = .real) (hts : s.dtype = .real) (hkf : ∀ b, f.Ok b .real .real) (hks : ∀ b, s.Ok b .real .real)
    {u : List K} (hu : u.length = f.cols) (fu : FitsL .real u) :
    Always n (fun r => exMpilinop (env n J r) f s ⟨[f.cols], .real, u⟩) (fun _ => .ok
      (⟨[f.rows], .real, f.fwd (List.replicate f.cols 1)⟩,
       ⟨[n * s.rows], .real, (List.range n).flatMap fun r => (s.fwd (f.fwd u)).map (((r + 1 : Nat) : K) * ·)⟩,
       ⟨[f.cols], .real, f.adj ((s.adj u).map ((n * (n + 1) / 2 : K) * ·))⟩)) := by
  let l := [s]
  have hne : ∀ r < n, ranked l r ≠ [] := fun r _ => by simp [ranked, l]
  have hdt : ∀ r < n, opsDType (ranked l r) none = .ok .real := fun r _ => opsDType_ranked (by simp [l]) (by simp [l, hts]) r
  have hok : ∀ b, ∀ q ∈ allOps n (ranked l), q.Ok b .real .real ∧ q.cols = f.rows := fun b q hq => by
    obtain ⟨r, _, o, ho, rfl⟩ := mem_ranked hq
    obtain rfl : o = s := by simpa [l] using ho
    exact ⟨multiple_ok (hks b) _, hfs⟩
  have hin : inSum true l = s.rows := by simp [l, inSum, LOp.inDim]
  have all := allOps_ne hn hne
  have mu : VSpace.Mem ⟨.all f.cols, .real⟩ u := ⟨by simp [Layout.all, hu], fu⟩
  have one : FitsL .real [(1 : K)] := fun _ z hz => by simp_all
  have mone : VSpace.Mem ⟨.all f.cols, .real⟩ (List.replicate f.cols (1 : K)) := ⟨by simp [Layout.all], fun _ z hz => by rw [(List.mem_replicate.1 hz).2]; simp⟩
  -- the wrapped operator
  have rf : ∀ d, VSpace.Mem ⟨.all f.cols, .real⟩ d → VSpace.Mem ⟨.all f.rows, .real⟩ (f.fwd d) ∧
      Runs n (fun r => MOp.run (env n J r) false (asMPI (.serial f)) (VSpace.vec ⟨.all f.cols, .real⟩ n d r)) (fun r => .ok (VSpace.vec ⟨.all f.rows, .real⟩ n (f.fwd d) r)) := fun d hd => by
    have h := wrapMv_computes (n := n) (J := J) (o := f) (b := false) (X := .all f.cols) (dx := .real) (by rw [htf]; exact hkf false) (all_wf rfl) rfl rfl
    rw [htf] at h
    refine ⟨h.mem hd, (h.runs hd).congr (fun r _ => ?_) fun _ _ => rfl⟩
    simp [asMPI, MOp.run, checkDim, wrap, VSpace.vec, Layout.fam, Layout.all]
  have rfa : ∀ d, VSpace.Mem ⟨.all f.rows, .real⟩ d → VSpace.Mem ⟨.all f.cols, .real⟩ (f.adj d) ∧
      Runs n (fun r => MOp.run (env n J r) false (.adj (asMPI (.serial f))) (VSpace.vec ⟨.all f.rows, .real⟩ n d r)) (fun r => .ok (VSpace.vec ⟨.all f.cols, .real⟩ n (f.adj d) r)) := fun d hd => by
    have h := wrapMv_computes (n := n) (J := J) (o := f) (b := true) (X := .all f.rows) (dx := .real) (by rw [htf]; exact hkf true) (all_wf rfl) rfl rfl
    rw [htf] at h
    refine ⟨h.mem hd, (h.runs hd).congr (fun r _ => ?_) fun _ _ => rfl⟩
    simp [asMPI, MOp.run, MOp.shape, checkDim, wrap, Prim.shape, VSpace.vec, Layout.fam, Layout.all]
  -- forward
  obtain ⟨mfu, rfu⟩ := rf u mu
  have rv := runs_vsRun_fwd (J := J) (X := .all f.rows) (N := f.rows) (ops := ranked l) (dx := .real) (dt := .real) (all_wf rfl) rfl rfl (hok false) hne mfu
  have lfu : (f.fwd u).length = f.rows := (hkf false).length u hu
  have mv : VSpace.Mem ⟨_, .real⟩ (vcat false (allOps n (ranked l)) (f.fwd u)) := mem_vcat (mask := none) (dx := .real) (dt := .real) (N := f.rows) (hok false) lfu mfu.2
  have lout_eq := inL_ranked true l n
  rw [hin] at lout_eq
  simp only [inL, outSum, Bool.not_false, lout_eq] at rv mv
  have ev : vcat false (allOps n (ranked l)) (f.fwd u) = (List.range n).flatMap fun r => (s.fwd (f.fwd u)).map (((r + 1 : Nat) : K) * ·) := by
    rw [vcat_ranked]
    simp [vcat, l, LOp.fn]
  rw [ev] at rv mv
  have wout : (Layout.lin (n * s.rows) fun _ => s.rows).WF n := lin_wf (psum_const _ n) (by simp)
  -- adjoint
  have hus : u.length = s.rows := hu.trans hsf.symm
  have mw : VSpace.Mem ⟨.lin (n * s.rows) fun _ => s.rows, .real⟩ (rep n u) := mem_rep hus fu
  have gout : (Layout.lin (n * s.rows) fun _ => s.rows).gshape = [inSum true (allOps n (ranked l))] := by rw [inSum_allRanked, hin]; rfl
  have near : Near n (.lin (n * s.rows) fun _ => s.rows) (.lin (inSum true (allOps n (ranked l))) fun r => inSum true (ranked l r)) := by rw [lout_eq]; exact near_refl _ _
  have ra := runs_vsRun_adj (J := J) (N := f.rows) (ops := ranked l) (dt := .real) wout gout rfl rfl near (hok true) hne mw
  have ma : VSpace.Mem ⟨.all f.rows, .real⟩ (hsum true f.rows (allOps n (ranked l)) (rep n u)) :=
    mem_hsum (dx := .real) (dt := .real) (N := f.rows) (hok true) (by rw [length_rep, hus, inSum_allRanked, hin]) (fits_rep fu)
  have ea : hsum true f.rows (allOps n (ranked l)) (rep n u) = (s.adj u).map ((n * (n + 1) / 2 : K) * ·) := by
    rw [hsum_ranked n (hus.trans hin.symm)]
    · have : (s.adj u).length = f.rows := ((hks true).length u hus).trans hfs
      simp only [hsum, l, slices, vsum_cons, LOp.fn, LOp.inDim, List.take_of_length_le hus.le]
      rw [show vsum f.rows ([] : List (List K)) = List.replicate f.rows 0 from rfl, vadd_zero this]
    · intro o ho
      obtain rfl : o = s := by simpa [l] using ho
      exact ⟨hks true, hfs⟩
  rw [ea] at ra ma
  obtain ⟨mfa, rfa⟩ := rfa _ ma
  refine Runs.always ?_
  unfold exMpilinop
  simp only [Prog.bind_eq]
  refine Runs.bind_ok (runs_replicatedArr_scalar one) ?_
  refine Runs.bind_ok (rf _ mone).2 ?_
  refine Runs.bind_ok (runs_mkVStack (J := J) (ops := ranked l) (N := f.rows) hdt (fun q hq => (hok true q hq).2) all) ?_
  refine Runs.bind_ok (a := fun r => MOp.prod (.leaf (vsPrim n (ranked l) f.rows .real r)) (asMPI (.serial f))) ((Runs.ret _).congr (fun r _ => ?_) fun _ _ => rfl) ?_
  · simp [MOp.mul, MOp.shape, Prim.shape, vsPrim, asMPI, wrap, Prog.lift]
  refine Runs.bind_ok (runs_replicatedArr (N := f.cols) (v := ⟨[f.cols], .real, u⟩) rfl hu fu) ?_
  refine Runs.bind_ok (runs_prod (b := false) (fun _ _ => rfl) rfu rv) ?_
  refine Runs.bind_ok (runs_asarray_vec (S := ⟨_, .real⟩) wout mv) ?_
  refine Runs.bind_ok (runs_repeatedArr (M := s.rows) hn (v := ⟨[f.cols], .real, u⟩) (by rw [hsf]) hus fu) ?_
  refine Runs.bind_ok (a := fun r => MOp.prod (.adj (asMPI (.serial f))) (.adj (.leaf (vsPrim n (ranked l) f.rows .real r)))) ((Runs.ret _).congr (fun r _ => ?_) fun _ _ => rfl) ?_
  · simp [MOp.H, MOp.mul, MOp.shape, Prim.shape, vsPrim, asMPI, wrap, Prog.lift, bind, Except.bind]
  have ra' : Runs n (fun r => MOp.run (env n J r) false (.adj (.leaf (vsPrim n (ranked l) f.rows .real r))) (VSpace.vec ⟨.lin (n * s.rows) fun _ => s.rows, .real⟩ n (rep n u) r))
      (fun r => .ok (VSpace.vec ⟨.all f.rows, .real⟩ n ((s.adj u).map ((n * (n + 1) / 2 : K) * ·)) r)) := by
    refine ra.congr (fun r _ => ?_) fun _ _ => rfl
    simp [MOp.run, MOp.shape, checkDim, vsPrim, Prim.shape, VSpace.vec, Layout.fam, Layout.lin, outSum, inSum_allRanked, hin]
  refine Runs.bind_ok (runs_prod (b := false) (fun r _ => ?_) ra' rfa) ?_
  · simp [MOp.shape, Prim.shape, vsPrim, VSpace.vec, Layout.fam, Layout.lin, outSum, inSum_allRanked, hin]
  refine Runs.bind_ok (runs_asarray_vec (S := ⟨_, .real⟩) (all_wf rfl) mfa) ?_
  exact (Runs.ret _).congr (fun _ _ => rfl) fun _ _ => rfl

/-- Non-vacuity: plot_stacking.py on three ranks with the matrices [[1, 2], [3, 4]] and [[1, 1], [1, 1]]. -/
example (J : Nat → Nat → ℝ) : Always 3 (fun r => exStacking (env 3 J r) galOp (flatOp 1 2 2) ⟨[2], .real, [1, 0]⟩ ⟨[4], .real, [1, 0, 0, 2]⟩) (fun _ => .ok
    (⟨[12], .real, [1, 3, 1, 1, 2, 6, 2, 2, 3, 9, 3, 3]⟩, ⟨[2], .real, [18, 30]⟩, ⟨[12], .real, [1, 3, 2, 2, 2, 6, 4, 4, 3, 9, 6, 6]⟩)) := by
  have h := C96_stacking (n := 3) (J := J) (M := 2) (N := 2) (dv := galOp) (dh := flatOp 1 2 2) (by norm_num) rfl rfl rfl rfl rfl rfl
    ⟨fun d hd => by simp [galOp, LOp.fn, LOp.inDim, LOp.outDim], fun _ _ _ _ z _ => by simp⟩ (flatOp_ok _ _ _ _) (u := [1, 0]) (w₁ := [1, 0]) (w₂ := [0, 2]) rfl rfl rfl
    (fun _ z _ => by simp) (fun _ z _ => by simp) (fun _ z _ => by simp)
  exact (h.runs.congr (fun _ _ => rfl) fun _ _ => by norm_num [galOp, flatOp, List.range_succ, List.replicate_succ]).always

/-- Non-vacuity: plot_mpilinop.py on two ranks with a 3 × 2 matrix of ones and a 2 × 3 matrix of twos. -/
example (J : Nat → Nat → ℝ) : Always 2 (fun r => exMpilinop (env 2 J r) (flatOp 1 3 2) (flatOp 2 2 3) ⟨[2], .real, [1, 0]⟩) (fun _ => .ok
    (⟨[3], .real, [2, 2, 2]⟩, ⟨[4], .real, [6, 6, 12, 12]⟩, ⟨[2], .real, [18, 18]⟩)) := by
  have h := C96_mpilinop (n := 2) (J := J) (f := flatOp 1 3 2) (s := flatOp 2 2 3) (by norm_num) rfl rfl rfl rfl (flatOp_ok _ _ _) (flatOp_ok _ _ _) (u := [1, 0]) rfl (fun _ z _ => by simp)
  exact (h.runs.congr (fun _ _ => rfl) fun _ _ => by norm_num [flatOp, List.range_succ, List.replicate_succ]).always

end Verif

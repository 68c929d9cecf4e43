/- C94: scripts of the gallery. -/
import Verif.Model.Gallery
import Verif.Proofs.Repeat
import Verif.Props.C82

set_option linter.unusedSectionVars false

namespace Verif
open NDArray Serial

variable {K : Type} [RCLike K] {n : Nat} {J : Nat → Nat → K} {o : LOp K}

/-! ### One block per rank -/

theorem inL_const (b : Bool) (n : Nat) (o : LOp K) : inL b n (fun _ => [o]) = .lin (n * o.inDim b) fun _ => o.inDim b := by
  unfold inL
  rw [inSum_const]
  simp [inSum]

theorem psum_const (M n : Nat) : psum (fun _ => M) n = n * M := by
  induction n with
  | zero => simp [psum]
  | succ n ih => rw [psum, ih]; ring

theorem balanced_const (M : Nat) (hn : 0 < n) : balanced (n * M) n = fun _ => M := by
  funext r
  simp [balanced, Nat.mul_mod_right, Nat.mul_div_cancel_left _ hn]

theorem slab_rep {M : Nat} {v : List K} (hv : v.length = M) {r : Nat} (hr : r < n) : ((rep n v).drop (r * M)).take M = v := by
  induction n generalizing r with
  | zero => omega
  | succ n ih =>
    rw [rep_succ]
    cases r with
    | zero => simp [hv, List.take_append_of_le_length]
    | succ r =>
      rw [show (r + 1) * M = v.length + r * M by rw [hv]; ring, ← List.drop_drop, List.drop_left]
      exact ih (by omega)

theorem piece_rep {M : Nat} {v : List K} (hv : v.length = M) {r : Nat} (hr : r < n) : (Layout.lin (n * M) fun _ => M).piece (rep n v) r = v := by
  rw [piece_lin (n := n) (psum_const M n) (by rw [length_rep, hv]) r, psum_const]
  exact slab_rep hv hr

theorem fits_rep {v : List K} (h : FitsL .real v) : FitsL .real (rep n v) := fun hd z hz => by
  simp only [rep, List.mem_flatten, List.mem_replicate] at hz
  obtain ⟨l, ⟨_, rfl⟩, hz⟩ := hz
  exact h hd z hz

theorem mem_rep {M : Nat} {v : List K} (hv : v.length = M) (h : FitsL .real v) : VSpace.Mem ⟨.lin (n * M) fun _ => M, .real⟩ (rep n v) :=
  ⟨by rw [length_rep, hv]; simp [Layout.lin], fits_rep h⟩

theorem runs_repeatedArr {M : Nat} (hn : 0 < n) {v : NDArray K} (hs : v.shape = [M]) (hv : v.data.length = M) (hf : FitsL .real v.data) :
    Runs n (fun r => repeatedArr (env n J r) (n * M) v) (fun r => .ok (VSpace.vec ⟨.lin (n * M) fun _ => M, .real⟩ n (rep n v.data) r)) := by
  have wf : (Layout.lin (n * M) fun _ => M).WF n := lin_wf (psum_const M n) (by simp)
  unfold repeatedArr
  simp only [Prog.bind_eq]
  refine Runs.bind_ok (runs_mkDArr_none (L := .lin (n * M) fun _ => M) wf fun _ => by simp [Layout.lin, len, balanced_const M hn]) ?_
  exact runs_new_vec (S := ⟨.lin (n * M) fun _ => M, .real⟩) wf (mem_rep hv hf) (fun r _ => by rw [hs, lshape_lin]) (fun r hr => (piece_rep hv hr).symm) _ fun r _ => length_junk r

theorem runs_repeatedArr_scalar {M : Nat} (hn : 0 < n) {z : K} (hz : FitsL .real [z]) :
    Runs n (fun r => repeatedArr (env n J r) (n * M) (scalar .real z)) (fun r => .ok (VSpace.vec ⟨.lin (n * M) fun _ => M, .real⟩ n (rep n (List.replicate M z)) r)) := by
  have wf : (Layout.lin (n * M) fun _ => M).WF n := lin_wf (psum_const M n) (by simp)
  unfold repeatedArr
  simp only [Prog.bind_eq]
  refine Runs.bind_ok (runs_mkDArr_none (L := .lin (n * M) fun _ => M) wf fun _ => by simp [Layout.lin, len, balanced_const M hn]) ?_
  have := runs_setAll_scalar (J := J) (L := .lin (n * M) fun _ => M) (dt := .real) (t := .real) (x := z) (n := n) (a := junkData J (.lin (n * M) fun _ => M) .real) fun r _ => length_junk r
  refine this.congr (fun _ _ => rfl) fun r hr => ?_
  have h1 : castTo .real z = z := by
    have := hz rfl z (by simp)
    exact castTo_fit fun _ => this
  simp only [VSpace.vec, Layout.fam, piece_rep (List.length_replicate) hr, lshape_lin, h1]
  simp

/-! ### plot_cgls.py -/

/-- where `cgls` stops when its tolerance is `tol` and the squared residuals are `ν` times those of the smaller problem -/
theorem cgls_stops_scaled {M N : Nat} {A : Vec K M →ₗ[K] Vec K N} {B : Vec K N →ₗ[K] Vec K M} (hAB : ∀ x z, inner K (A x) z = inner K x (B z)) (y : Vec K N) {tol ν : ℝ} (hν : 0 < ν) (htol : 0 ≤ tol) (mx : Int) :
    ∃ m ≤ M, Stops (fun i => ν * (CGLS.seq K A B 0 (0 ^ 2) y 0 i).k) mx tol 0 m ∧ (∀ i < m, ¬ CGLS.Breaks (0 ^ 2) (CGLS.seq K A B 0 (0 ^ 2) y 0 i)) ∧
      ‖y - A (CGLS.seq K A B 0 (0 ^ 2) y 0 m).x‖ ^ 2 ≤ ‖y‖ ^ 2 ∧ (mx ≤ m ∨ ν * ‖B (y - A (CGLS.seq K A B 0 (0 ^ 2) y 0 m).x)‖ ^ 2 ≤ tol) ∧
      ((M : Int) ≤ mx → ν * ‖B (y - A (CGLS.seq K A B 0 (0 ^ 2) y 0 m).x)‖ ^ 2 ≤ tol) ∧
      (tol = 0 → (M : Int) ≤ mx → ∀ z, ‖y - A (CGLS.seq K A B 0 (0 ^ 2) y 0 m).x‖ ^ 2 ≤ ‖y - A z‖ ^ 2) := by
  have h0 : 0 ≤ tol / ν := div_nonneg htol hν.le
  obtain ⟨m, h1, ⟨hst0, hst, hst'⟩, hb, h4, h5, h6⟩ := cgls_stops hAB y 0 h0 mx
  have hsc : ∀ k : ℝ, k ≤ tol / ν ↔ ν * k ≤ tol := fun k => by rw [le_div_iff₀ hν, mul_comm]
  have hsc' : ∀ k : ℝ, k > tol / ν ↔ ν * k > tol := fun k => by rw [gt_iff_lt, gt_iff_lt, div_lt_iff₀ hν, mul_comm]
  have h5' : mx ≤ m ∨ ν * ‖B (y - A (CGLS.seq K A B 0 (0 ^ 2) y 0 m).x)‖ ^ 2 ≤ tol := h5.imp_right (hsc _).1
  refine ⟨m, h1, ⟨hst0, fun i hi hm => ⟨(hst i hi hm).1, (hsc' _).1 (hst i hi hm).2⟩, hst'.imp_right (hsc _).1⟩, hb, by simpa using h4, h5', fun hM => ?_,
    fun ht hM z => h6 (by rw [ht, zero_div]) hM z⟩
  rcases h5' with h7 | h7
  · obtain ⟨m0, hm0, hne, hz⟩ := cgls_terminates (damp := 0) (y := y) (x0 := 0) hAB (.inl rfl)
    have hk := cgls_k (damp := 0) (y := y) (x0 := 0) hAB (.inl rfl) m0
    rw [hz, norm_zero] at hk
    have hge : m ≤ m0 := by
      by_contra hlt
      have : (CGLS.seq K A B 0 (0 ^ 2) y 0 m0).k > tol / ν := (hst m0 (Nat.zero_le _) (by omega)).2
      rw [hk] at this
      simp at this
      linarith
    have he : m0 = m := by omega
    rw [he] at hz
    have : B (y - A (CGLS.seq K A B 0 (0 ^ 2) y 0 m).x) = 0 := by simpa [dgrad] using hz
    rw [this]
    simpa using htol
  · exact h7

set_option maxHeartbeats 800000 in
/-- **C94** (plot_cgls.py).  Let all of the `n > 0` ranks have the same real operator `o`, whose two directions are adjoint to each other, and let `v` be a real vector of the size of one
    block.  For every limit and every tolerance that is not negative, in every execution all ranks finish with the same array, the same number `m` of iterations and the same costs:
    * the array is one vector `x` of the size of one block, repeated `n` times, and `m` is at most the number of columns of one block, for any number of ranks;
    * there are `m + 1` costs, the first is the norm of the data, the last the norm of the misfit, which is not larger;
    * either the limit is reached or the squared norm of the gradient is at most the tolerance; the latter holds whenever the limit is at least the number of columns of one block (in the
      script both are 15);
    * with tolerance zero and such a limit, `o x = o v`. -/
theorem C94_cgls (hn : 0 < n) (hok : ∀ b, o.Ok b .real .real) (hadj : o.Adjoint) {v : List K} (hv : v.length = o.cols) (hf : FitsL .real v) (mx : Int) {tol : ℝ} (htol : 0 ≤ tol) :
    ∃ (x : List K) (m : Nat) (cost : List ℝ), x.length = o.cols ∧ FitsL .real x ∧ m ≤ o.cols ∧
      cost.length = m + 1 ∧ cost[0]? = some (Real.sqrt (n * sqN (o.fwd v))) ∧ cost[m]? = some (Real.sqrt (n * sqN (vdiff (o.fwd v) (o.fwd x)))) ∧
      sqN (vdiff (o.fwd v) (o.fwd x)) ≤ sqN (o.fwd v) ∧
      (mx ≤ m ∨ n * sqN (o.adj (vdiff (o.fwd v) (o.fwd x))) ≤ tol) ∧ ((o.cols : Int) ≤ mx → n * sqN (o.adj (vdiff (o.fwd v) (o.fwd x))) ≤ tol) ∧
      (tol = 0 → (o.cols : Int) ≤ mx → o.fwd x = o.fwd v) ∧
      Always n (fun r => exCgls (env n J r) o ⟨[o.cols], .real, v⟩ (some mx) tol) (fun _ => .ok (⟨[n * o.cols], .real, (List.replicate n x).flatten⟩, m, cost)) := by
  have hl0 : ∀ x : List K, x.length = o.cols → (o.fwd x).length = o.rows := (hok false).length
  have hl1 : ∀ x : List K, x.length = o.rows → (o.adj x).length = o.cols := (hok true).length
  have hν : (0 : ℝ) < n := by exact_mod_cast hn
  obtain ⟨A, B, hA, hB, hAB⟩ := exists_linear hl0 hl1 hadj
  have hok' : ∀ b, ∀ p ∈ allOps n fun _ => [o], p.Ok b .real .real := fun b p hp => by
    rw [allOps_const] at hp
    rw [(List.mem_replicate.1 hp).2]
    exact hok b
  have hadj' : ∀ p ∈ allOps n fun _ => [o], p.Adjoint := fun p hp => by
    rw [allOps_const] at hp
    rw [(List.mem_replicate.1 hp).2]
    exact hadj
  have s0 : inSum false (allOps n fun _ => [o]) = n * o.cols := inSum_const false n o
  have s1 : inSum true (allOps n fun _ => [o]) = n * o.rows := inSum_const true n o
  obtain ⟨A', B', hA', hB', -⟩ := exists_linear (M := n * o.cols) (N := n * o.rows) (f := blockDiag false (allOps n fun _ => [o])) (g := blockDiag true (allOps n fun _ => [o]))
    (fun x hx => by rw [length_blockDiag (hok' false) (by omega)]; exact s1) (fun x hx => by rw [length_blockDiag (hok' true) (by omega)]; exact s0)
    (fun u w hu hw => ip_blockDiag hadj' (fun p hp => (hok' false p hp).length) (fun p hp => (hok' true p hp).length) (by omega) (by omega))
  have eA : ∀ x, A' (repV K n o.cols x) = repV K n o.rows (A x) := fun x => toL_inj (by rw [hA', toL_repV, toL_repV, hA]; exact blockDiag_rep (b := false) (length_toL x) n)
  have eB : ∀ y, B' (repV K n o.rows y) = repV K n o.cols (B y) := fun y => toL_inj (by rw [hB', toL_repV, toL_repV, hB]; exact blockDiag_rep (b := true) (length_toL y) n)
  let y : Vec K o.rows := ofL _ (o.fwd v)
  have hy : toL y = o.fwd v := toL_ofL (hl0 _ hv)
  have hz : toL (0 : Vec K o.cols) = List.replicate o.cols 0 := by simp [toL, List.ofFn_const]
  have hemb := seq_embed (I := repV K n o.cols) (G := repV K n o.rows) hν.ne' norm_repV norm_repV eA eB 0 (0 ^ 2) y 0
  obtain ⟨m, h1, hst, hb, h4, h5, h5', h6⟩ := cgls_stops_scaled hAB y hν htol mx
  set x := (CGLS.seq K A B 0 (0 ^ 2) y 0 m).x with hxd
  let Lx : Layout := .lin (n * o.cols) fun _ => o.cols
  let Ly : Layout := .lin (n * o.rows) fun _ => o.rows
  have wx : Lx.WF n := lin_wf (psum_const _ n) (by simp)
  have wy : Ly.WF n := lin_wf (psum_const _ n) (by simp)
  have ex : inL false n (fun _ => [o]) = Lx := inL_const false n o
  have ey : inL true n (fun _ => [o]) = Ly := inL_const true n o
  have fwd : ∀ {x}, VSpace.Mem ⟨Lx, .real⟩ x → VSpace.Mem ⟨Ly, .real⟩ (blockDiag false (allOps n fun _ => [o]) x) ∧
      Runs n (fun r => MOp.run (env n J r) false (.leaf (bdPrim n (fun _ => [o]) none .real r)) (VSpace.vec ⟨Lx, .real⟩ n x r))
        (fun r => .ok (VSpace.vec ⟨Ly, .real⟩ n (blockDiag false (allOps n fun _ => [o]) x) r)) := fun {x} hx => by
    rw [← ex] at hx
    have h := runs_bdRun (J := J) (mask := none) (dt := .real) (inL_wf (by simp)) rfl rfl rfl (near_refl _ _) (hok' false) (fun _ _ => by simp) (by simp) hx
    have h2 := mem_blockDiag (mask := none) (hok' false) (by simpa [Layout.lin] using hx.1) hx.2
    rw [← ex, ← ey]
    exact ⟨h2, h⟩
  have adj : ∀ {x}, VSpace.Mem ⟨Ly, .real⟩ x → VSpace.Mem ⟨Lx, .real⟩ (blockDiag true (allOps n fun _ => [o]) x) ∧
      Runs n (fun r => MOp.run (env n J r) true (.leaf (bdPrim n (fun _ => [o]) none .real r)) (VSpace.vec ⟨Ly, .real⟩ n x r))
        (fun r => .ok (VSpace.vec ⟨Lx, .real⟩ n (blockDiag true (allOps n fun _ => [o]) x) r)) := fun {x} hx => by
    rw [← ey] at hx
    have h := runs_bdRun (J := J) (mask := none) (dt := .real) (inL_wf (by simp)) rfl rfl rfl (near_refl _ _) (hok' true) (fun _ _ => by simp) (by simp) hx
    have h2 := mem_blockDiag (mask := none) (hok' true) (by simpa [Layout.lin] using hx.1) hx.2
    rw [← ex, ← ey]
    exact ⟨h2, h⟩
  have mv : VSpace.Mem ⟨Lx, .real⟩ (rep n v) := mem_rep hv hf
  have my : VSpace.Mem ⟨Ly, .real⟩ (rep n (o.fwd v)) := mem_rep (hl0 _ hv) ((hok false).fits _ hv hf)
  have hfz : FitsL .real (List.replicate o.cols (0 : K)) := fun _ z hz => by rw [(List.mem_replicate.1 hz).2]; simp
  have hyp : CGLSHyp n J (fun r => MOp.toX (.leaf (bdPrim n (fun _ => [o]) none .real r))) (.one ⟨Lx, .real⟩) (.one ⟨Ly, .real⟩) A' B' (repV K n o.rows y) (repV K n o.cols 0) := by
    refine ⟨wx, wy, rfl, rfl, by simp, ?_, ?_, ?_, ?_⟩
    · exact XComputes.acts (S := .one ⟨Lx, .real⟩) (T := .one ⟨Ly, .real⟩) (f := blockDiag false (allOps n fun _ => [o]))
        (fun x hx => ⟨(fwd hx).1, Runs.always (Runs.map_ok XArr.one (fwd hx).2)⟩) fun x _ => hA' x
    · exact XComputes.acts (S := .one ⟨Ly, .real⟩) (T := .one ⟨Lx, .real⟩) (f := blockDiag true (allOps n fun _ => [o]))
        (fun x hx => ⟨(adj hx).1, Runs.always (Runs.map_ok XArr.one (adj hx).2)⟩) fun x _ => hB' x
    · show VSpace.Mem _ (toL _)
      rw [toL_repV, hy]
      exact my
    · show VSpace.Mem _ (toL _)
      rw [toL_repV, hz]
      exact mem_rep (by simp) hfz
  have hmx := (cgls_has hyp 0 (0 ^ 2) m).1
  rw [hemb m] at hmx
  have hmx : VSpace.Mem ⟨Lx, .real⟩ (toL (repV K n o.cols x)) := hmx
  rw [toL_repV] at hmx
  have hfx : FitsL .real (toL x) := fun hd z hz => hmx.2 hd z (by
    simp only [rep, List.mem_flatten, List.mem_replicate]
    exact ⟨_, ⟨hn.ne', rfl⟩, hz⟩)
  have e1 : vdiff (o.fwd v) (o.fwd (toL x)) = toL (y - A x) := by rw [toL_vdiff, hy, hA]
  have hsN : ∀ w : Vec K o.rows, ‖repV K n o.rows w‖ = Real.sqrt (n * sqN (toL w)) := fun w => by
    rw [sqN_toL, ← norm_repV, Real.sqrt_sq (norm_nonneg _)]
  have hinv : (CGLS.seq K A B 0 (0 ^ 2) y 0 m).s = y - A x := (CGLS.inv A B 0 (0 ^ 2) y 0 m).1
  refine ⟨toL x, m, (List.range (m + 1)).map fun i => ‖(CGLS.seq K A' B' 0 (0 ^ 2) (repV K n o.rows y) (repV K n o.cols 0) i).s‖, length_toL x, hfx, h1, by simp, ?_, ?_, ?_, ?_, ?_, fun ht hM => ?_, ?_⟩
  · have e2 : (CGLS.seq K A B 0 (0 ^ 2) y 0 0).s = y := by simp [CGLS.seq, CGLS.init]
    simp only [List.getElem?_map, List.getElem?_range (Nat.succ_pos m), Option.map_some]
    rw [hemb 0]
    simp only [e2]
    rw [hsN, hy]
  · simp only [List.getElem?_map, List.getElem?_range (Nat.lt_succ_self m), Option.map_some]
    rw [hemb m]
    simp only [hinv]
    rw [hsN, e1]
  · rw [e1, sqN_toL, ← hy, sqN_toL]
    exact h4
  · rw [e1, ← hB, sqN_toL]
    exact h5
  · rw [e1, ← hB, sqN_toL]
    exact h5'
  · have h7 := h6 ht hM (ofL _ v)
    have e2 : A (ofL _ v) = y := toL_inj (by rw [hA, toL_ofL hv, hy])
    rw [e2, sub_self, norm_zero] at h7
    have h8 : y - A x = 0 := by
      have : ‖y - A x‖ ^ 2 = 0 := le_antisymm (by simpa using h7) (sq_nonneg _)
      simpa using this
    rw [← hA, ← hy, sub_eq_zero.1 h8]
  have hst' : Stops (fun i => (CGLS.seq K A' B' 0 (0 ^ 2) (repV K n o.rows y) (repV K n o.cols 0) i).k) mx tol 0 m := by
    simp only [hemb]
    exact hst
  have hb' : ∀ i < m, ¬ CGLS.Breaks (0 ^ 2) (CGLS.seq K A' B' 0 (0 ^ 2) (repV K n o.rows y) (repV K n o.cols 0) i) := fun i hi => by
    rw [hemb i]
    exact fun h => hb i hi ((breaks_embed (I := repV K n o.cols) (G := repV K n o.rows) hν.ne' norm_repV norm_repV (t := CGLS.seq K A B 0 (0 ^ 2) y 0 i)).1 h)
  refine Runs.always ?_
  unfold exCgls
  simp only [Prog.bind_eq]
  refine Runs.bind_ok (runs_mkBlockDiag (J := J) (n := n) (ops := fun _ => [o]) (dt := .real) fun _ _ => rfl) ?_
  refine Runs.bind_ok (runs_repeatedArr (J := J) (M := o.cols) hn (v := ⟨[o.cols], .real, v⟩) rfl hv hf) ?_
  refine Runs.bind_ok (fwd mv).2 ?_
  rw [blockDiag_rep (b := false) hv n]
  refine Runs.bind_ok ((runs_repeatedArr_scalar (J := J) (M := o.cols) (z := 0) hn (fun _ z hz => by simp at hz; simp [hz])).congr (fun r _ => by simp only [bdPrim, s0]) fun _ _ => rfl) ?_
  have hs := runs_cgls_solve hyp hst' hb'
  unfold XSpace.part at hs
  rw [toL_repV, toL_repV, hy, hz] at hs
  refine Runs.bind_ok hs ?_
  refine Runs.bind_ok (runs_gatherX (J := J) wx hmx fun r _ => ?_) (Runs.ret _)
  rw [hemb m, toL_repV]
  rfl

/-- **C94** (plot_cgls.py, exact recovery).  With tolerance zero, a limit of at least the number of columns of one block and an operator that maps different real vectors to different ones,
    the script ends with `v` repeated `n` times, after at most as many iterations as one block has columns. -/
theorem C94_cgls_recovers (hn : 0 < n) (hok : ∀ b, o.Ok b .real .real) (hadj : o.Adjoint) {v : List K} (hv : v.length = o.cols) (hf : FitsL .real v) {mx : Int} (hmx : (o.cols : Int) ≤ mx)
    (hinj : ∀ u w : List K, u.length = o.cols → w.length = o.cols → o.fwd u = o.fwd w → u = w) :
    ∃ (m : Nat) (cost : List ℝ), m ≤ o.cols ∧
      Always n (fun r => exCgls (env n J r) o ⟨[o.cols], .real, v⟩ (some mx) 0) (fun _ => .ok (⟨[n * o.cols], .real, (List.replicate n v).flatten⟩, m, cost)) := by
  obtain ⟨x, m, cost, h1, -, h3, -, -, -, -, -, -, h10, h11⟩ := C94_cgls (J := J) hn hok hadj hv hf mx le_rfl
  rw [hinj x v h1 hv (h10 rfl hmx)] at h11
  exact ⟨m, cost, h3, h11⟩

/-! ### plot_stacked_array.py -/

/-- if the wanted solution is an eigenvector of the normal equations, one step finds it -/
theorem seq_one {M N : Nat} {A : Vec K M →ₗ[K] Vec K N} {B : Vec K N →ₗ[K] Vec K M} (hAB : ∀ x z, inner K (A x) z = inner K x (B z)) {y : Vec K N} {u : Vec K M} (hy : A u = y) {t : ℝ} (ht : 0 < t)
    (hB : B y = (t : K) • u) (hu : u ≠ 0) :
    (CGLS.seq K A B 0 (0 ^ 2) y 0 0).k = t ^ 2 * ‖u‖ ^ 2 ∧ ¬ CGLS.Breaks (0 ^ 2) (CGLS.seq K A B 0 (0 ^ 2) y 0 0) ∧
      (CGLS.seq K A B 0 (0 ^ 2) y 0 1).x = u ∧ (CGLS.seq K A B 0 (0 ^ 2) y 0 1).k = 0 := by
  have hu' : ‖u‖ ^ 2 ≠ 0 := by simpa using hu
  have hyn : ‖y‖ ^ 2 = t * ‖u‖ ^ 2 := by
    have h := hAB u y
    rw [hy, hB, inner_smul_right, inner_self_eq_norm_sq_to_K, inner_self_eq_norm_sq_to_K] at h
    exact_mod_cast h
  have nt : ‖(t : K)‖ = t := by rw [RCLike.norm_ofReal, abs_of_pos ht]
  have e0 : CGLS.seq K A B 0 (0 ^ 2) y 0 0 = ⟨0, y, (t : K) • u, (t : K) • y, t ^ 2 * ‖u‖ ^ 2⟩ := by
    simp [CGLS.seq, CGLS.init, hB, hy, norm_smul, nt, mul_pow]
  have e1 : CGLS.seq K A B 0 (0 ^ 2) y 0 1 = CGLS.next K A B (0 ^ 2) ⟨0, y, (t : K) • u, (t : K) • y, t ^ 2 * ‖u‖ ^ 2⟩ := by
    rw [← e0]; rfl
  have ha : CGLS.alpha (0 ^ 2) (⟨0, y, (t : K) • u, (t : K) • y, t ^ 2 * ‖u‖ ^ 2⟩ : CGLS (Vec K M) (Vec K N)) = t⁻¹ := by
    simp only [CGLS.alpha, norm_smul, nt, mul_pow, hyn]
    rw [abs_of_nonneg (by positivity)]
    field_simp
    ring
  have tn : (t : K) ≠ 0 := by exact_mod_cast ht.ne'
  have hm : ((t⁻¹ : ℝ) : K) * (t : K) = 1 := by rw [RCLike.ofReal_inv, inv_mul_cancel₀ tn]
  refine ⟨by rw [e0], ?_, ?_, ?_⟩
  · rw [e0]
    rintro (h | h)
    · simp only [norm_smul, nt, mul_pow, hyn] at h
      have : 0 < ‖u‖ ^ 2 := lt_of_le_of_ne (sq_nonneg _) hu'.symm
      have : 0 < t ^ 2 * (t * ‖u‖ ^ 2) + 0 ^ 2 * (t ^ 2 * ‖u‖ ^ 2) := by positivity
      linarith
    · exact mul_ne_zero (by positivity) hu' h
  · rw [e1]
    simp only [CGLS.next, ha, smul_smul, hm, one_smul, zero_add]
  · rw [e1]
    simp only [CGLS.next, CGLS.grad, ha, smul_smul, hm, one_smul, sub_self, map_zero]
    simp

section
variable (n) (J) (p : Bool → LOp K)

/-- the two block-diagonal operators -/
def galLeaves : Leaves K Bool := ⟨fun i => (n * (p i).rows, n * (p i).cols), fun i b => blockDiag b (allOps n fun _ => [p i])⟩
/-- what the ranks have built -/
def galPrim (i : Bool) (r : Nat) : Prim K := bdPrim n (fun _ => [p i]) none .real r
/-- `MPIStackedVStack([mop1, mop2])` -/
def galStack : SOp K Bool := .vstack [.leaf false, .leaf true]

variable {n J p}

theorem typed_gal (hok : ∀ i b, (p i).Ok b .real .real) (i b : Bool) :
    Typed (galLeaves n p) n J (galPrim n p) b (.leaf i) ⟨.lin (n * (p i).inDim b) fun _ => (p i).inDim b, .real⟩ ⟨.lin (n * (p i).inDim (!b)) fun _ => (p i).inDim (!b), .real⟩ := by
  rw [← inL_const, ← inL_const]
  refine typed_blockDiag (ops := fun _ => [p i]) (fun _ => rfl) ?_ rfl (fun q hq => ?_) fun _ _ => by simp
  · rw [inSum_const, inSum_const]; rfl
  · rw [allOps_const] at hq
    rw [(List.mem_replicate.1 hq).2]
    exact hok i b

theorem gal_fwd (u : List K) (hc : ∀ i, (p i).cols = u.length) : sden (galLeaves n p) false galStack (rep n u) = rep n ((p false).fwd u) ++ rep n ((p true).fwd u) := by
  have h := fun i => blockDiag_rep (b := false) (o := p i) (x := u) (hc i).symm n
  simp only [galStack, sden, vcat, List.map_cons, List.map_nil, List.flatMap_cons, List.flatMap_nil, List.append_nil, MOp.toLOp, LOp.fn, den, galLeaves]
  rw [h false, h true]
  rfl

theorem vadd_rep {u w : List K} (h : u.length = w.length) (n : Nat) : vadd (rep n u) (rep n w) = rep n (vadd u w) := by
  induction n with
  | zero => rfl
  | succ n ih =>
    rw [rep_succ, rep_succ, rep_succ, ← ih]
    exact List.zipWith_append h

theorem gal_adj {M : Nat} (hc : ∀ i, (p i).cols = M) (hl : ∀ i y, y.length = (p i).rows → ((p i).adj y).length = M) {y z : List K} (hy : y.length = (p false).rows) (hz : z.length = (p true).rows) :
    sden (galLeaves n p) true galStack (rep n y ++ rep n z) = rep n (vadd ((p false).adj y) ((p true).adj z)) := by
  have h0 := blockDiag_rep (b := true) (o := p false) (x := y) hy n
  have h1 := blockDiag_rep (b := true) (o := p true) (x := z) hz n
  have ly : (rep n y).length = n * (p false).rows := by rw [length_rep, hy]
  have lz : (rep n z).length = n * (p true).rows := by rw [length_rep, hz]
  have hs : (SOp.vshape (fun i => (n * (p i).rows, n * (p i).cols)) ([.leaf false, .leaf true] : List (MOp K Bool))).2 = n * M := by simp [SOp.vshape, MOp.shape, hc]
  simp only [galStack, sden, hsum, List.map_cons, List.map_nil, slices, MOp.toLOp, LOp.fn, LOp.inDim, den, galLeaves, MOp.shape]
  rw [hs, List.take_left' ly, List.drop_left' ly, List.take_of_length_le (by rw [lz]), h0, h1]
  simp only [LOp.fn]
  have l1 : (rep n ((p true).adj z)).length = n * M := by rw [length_rep, hl true z hz]
  rw [vsum_cons, vsum_cons, show vsum (n * M) ([] : List (List K)) = List.replicate (n * M) 0 from rfl, vadd_zero l1,
    vadd_rep (by rw [hl false y hy, hl true z hz]) n]

end

set_option maxHeartbeats 800000 in
/-- **C94** (plot_stacked_array.py).  Let all of the `n > 0` ranks have the same two real operators with `M > 0` columns, whose two directions are adjoint to each other, and let the vector of ones be
    an eigenvector, for the eigenvalue `t > 0`, of the sum of the two products of adjoint and operator.  If the tolerance is not negative and less than `n M t²` and the limit is positive, then in every
    execution all ranks finish with the same arrays: the data of both operators for every rank's ones, `n M` times the number `t`, and exactly `n M` ones, found in one iteration. -/
theorem C94_stacked (hn : 0 < n) {M : Nat} (hM : 0 < M) {o₁ o₂ : LOp K} (hc₁ : o₁.cols = M) (hc₂ : o₂.cols = M) (hd₁ : o₁.dtype = .real) (hd₂ : o₂.dtype = .real)
    (hok₁ : ∀ b, o₁.Ok b .real .real) (hok₂ : ∀ b, o₂.Ok b .real .real) (ha₁ : o₁.Adjoint) (ha₂ : o₂.Adjoint) {t : ℝ} (ht : 0 < t)
    (heig : vadd (o₁.adj (o₁.fwd (List.replicate M 1))) (o₂.adj (o₂.fwd (List.replicate M 1))) = List.replicate M (t : K)) {mx : Int} (hmx : 1 ≤ mx) {tol : ℝ} (h0 : 0 ≤ tol) (htol : tol < n * M * t ^ 2) :
    Always n (fun r => exStacked (env n J r) o₁ o₂ (some mx) tol) (fun _ => .ok
      (⟨[n * o₁.rows + n * o₂.rows], .real, (List.replicate n (o₁.fwd (List.replicate M 1))).flatten ++ (List.replicate n (o₂.fwd (List.replicate M 1))).flatten⟩,
       ⟨[n * M], .real, List.replicate (n * M) (t : K)⟩, ⟨[n * M], .real, List.replicate (n * M) 1⟩, 1)) := by
  let p : Bool → LOp K := fun i => if i then o₂ else o₁
  have hok : ∀ i b, (p i).Ok b .real .real := fun i b => by cases i <;> [exact hok₁ b; exact hok₂ b]
  have hc : ∀ i, (p i).cols = M := fun i => by cases i <;> [exact hc₁; exact hc₂]
  have hl0 : ∀ i y, y.length = M → ((p i).fwd y).length = (p i).rows := fun i y hy => (hok i false).length y (by rw [hy]; exact (hc i).symm)
  have hl1 : ∀ i y, y.length = (p i).rows → ((p i).adj y).length = M := fun i y hy => ((hok i true).length y hy).trans (hc i)
  let one : List K := List.replicate M 1
  have lone : one.length = M := by simp [one]
  have fone : FitsL .real one := fun _ z hz => by rw [(List.mem_replicate.1 hz).2]; simp
  let Lx : Layout := .lin (n * M) fun _ => M
  let Ly (i : Bool) : Layout := .lin (n * (p i).rows) fun _ => (p i).rows
  have wx : Lx.WF n := lin_wf (psum_const _ n) (by simp)
  have wy : ∀ i, (Ly i).WF n := fun i => lin_wf (psum_const _ n) (by simp)
  let S : XSpace := .one ⟨Lx, .real⟩
  let T : XSpace := .stack [⟨Ly false, .real⟩, ⟨Ly true, .real⟩]
  have ty0 : ∀ i, Typed (galLeaves n p) n J (galPrim n p) false (.leaf i) ⟨Lx, .real⟩ ⟨Ly i, .real⟩ := fun i => by
    have h := typed_gal (n := n) (J := J) hok i false
    simp only [LOp.inDim, hc i, Bool.not_false] at h
    exact h
  have ty1 : ∀ i, Typed (galLeaves n p) n J (galPrim n p) true (.leaf i) ⟨Ly i, .real⟩ ⟨Lx, .real⟩ := fun i => by
    have h := typed_gal (n := n) (J := J) hok i true
    simp only [LOp.inDim, hc i, Bool.not_true] at h
    exact h
  have st0 : STyped (galLeaves n p) n J (galPrim n p) false galStack S T := ⟨by simp, .cons (ty0 false) (.cons (ty0 true) .nil)⟩
  have st1 : STyped (galLeaves n p) n J (galPrim n p) true galStack T S := ⟨by simp, .cons (ty1 false) (.cons (ty1 true) .nil)⟩
  have c0 := styped_computes st0
  have c1 := styped_computes st1
  let y : List K := rep n ((p false).fwd one) ++ rep n ((p true).fwd one)
  have ey : sden (galLeaves n p) false galStack (rep n one) = y := gal_fwd one fun i => by rw [hc i, lone]
  have eadj : sden (galLeaves n p) true galStack y = List.replicate (n * M) (t : K) := by
    rw [gal_adj hc hl1 (hl0 false one lone) (hl0 true one lone)]
    show rep n (vadd (o₁.adj (o₁.fwd one)) (o₂.adj (o₂.fwd one))) = _
    rw [heig, rep_replicate]
  have mone : VSpace.Mem ⟨Lx, .real⟩ (rep n one) := mem_rep lone fone
  have my : T.Mem y := ey ▸ (c0 (rep n one) mone).1
  have madj : VSpace.Mem ⟨Lx, .real⟩ (List.replicate (n * M) (t : K)) := eadj ▸ (c1 y my).1
  have rfwd := Always.runs (c0 (rep n one) mone).2
  have radj := Always.runs (c1 y my).2
  rw [ey] at rfwd
  rw [eadj] at radj
  have hok' : ∀ i b, ∀ q ∈ allOps n fun _ => [p i], q.Ok b .real .real := fun i b q hq => by
    rw [allOps_const] at hq
    rw [(List.mem_replicate.1 hq).2]
    exact hok i b
  have hdim : ∀ i b, dimOf ((galLeaves n p).sh i) b = inSum b (allOps n fun _ => [p i]) := fun i b => by rw [inSum_const]; cases b <;> rfl
  have hsz : (galLeaves n p).Sized := fun i b x hx => by
    rw [hdim] at hx ⊢
    exact length_blockDiag (hok' i b) hx.ge
  have had : (galLeaves n p).Adjoint := fun i u v hu hv => by
    refine ip_blockDiag (fun q hq => ?_) (fun q hq => (hok' i false q hq).length) (fun q hq => (hok' i true q hq).length) (hu.trans (hdim i false)) (hv.trans (hdim i true))
    rw [allOps_const] at hq
    rw [(List.mem_replicate.1 hq).2]
    cases i <;> [exact ha₁; exact ha₂]
  have hshape : (galStack : SOp K Bool).shape (galLeaves n p).sh = (n * (p false).rows + n * (p true).rows, n * M) := by
    simp [galStack, SOp.shape, SOp.vshape, MOp.shape, galLeaves, hc]
  have hsp : SShaped (galLeaves n p).sh (galStack : SOp K Bool) := by
    simp [galStack, SShaped, Shaped, SOp.vshape, MOp.shape, galLeaves, hc]
  obtain ⟨A, B, hA, hB, hAB⟩ := exists_linear (M := n * M) (N := n * (p false).rows + n * (p true).rows) (f := sden (galLeaves n p) false galStack) (g := sden (galLeaves n p) true galStack)
    (fun x hx => by rw [length_sden hsz hsp (b := false) (by simp [dimOf, hshape, hx])]; simp [dimOf, hshape])
    (fun x hx => by rw [length_sden hsz hsp (b := true) (by simp [dimOf, hshape, hx])]; simp [dimOf, hshape])
    (fun u v hu hv => C37_adjoint hsz had hsp (by rw [hshape, hu]) (by rw [hshape, hv]))
  have ly : y.length = n * (p false).rows + n * (p true).rows := by rw [List.length_append, length_rep, length_rep, hl0 false one lone, hl0 true one lone]
  have lo : (rep n one).length = n * M := by rw [length_rep, lone]
  let u : Vec K (n * M) := ofL _ (rep n one)
  have hu : toL u = rep n one := toL_ofL lo
  let yv : Vec K (n * (p false).rows + n * (p true).rows) := ofL _ y
  have hyv : toL yv = y := toL_ofL ly
  have h1 : A u = yv := toL_inj (by rw [hA, hu, ey, hyv])
  have ro : rep n one = List.replicate (n * M) 1 := rep_replicate n M 1
  have h2 : B yv = (t : K) • u := toL_inj (by rw [hB, hyv, eadj, toL_smul, hu, ro]; simp)
  have hun : ‖u‖ ^ 2 = n * M := by rw [← sqN_toL, hu, ro]; simp [sqN]
  have hnM : (0 : ℝ) < n * M := by positivity
  have hu0 : u ≠ 0 := fun h => by rw [h] at hun; simp at hun; omega
  obtain ⟨k0, hb, hx1, k1⟩ := seq_one hAB h1 ht h2 hu0
  have hst : Stops (fun i => (CGLS.seq K A B 0 (0 ^ 2) yv 0 i).k) mx tol 0 1 := by
    refine ⟨by omega, fun i _ hi => ?_, .inr ?_⟩
    · have : i = 0 := by omega
      subst this
      refine ⟨by exact_mod_cast hmx, ?_⟩
      show (CGLS.seq K A B 0 (0 ^ 2) yv 0 0).k > tol
      rw [k0, hun]
      linarith
    · show (CGLS.seq K A B 0 (0 ^ 2) yv 0 1).k ≤ tol
      rw [k1]
      exact h0
  have hz : toL (0 : Vec K (n * M)) = rep n (List.replicate M 0) := by rw [rep_replicate]; simp [toL, List.ofFn_const]
  have mz : VSpace.Mem ⟨Lx, .real⟩ (rep n (List.replicate M (0 : K))) := mem_rep (by simp) fun _ z hz => by rw [(List.mem_replicate.1 hz).2]; simp
  have hyp : CGLSHyp n J (fun r => SOp.toX (galStack.map (galPrim n p · r))) S T A B yv 0 := by
    refine ⟨wx, fun V hV => ?_, rfl, fun V hV => ?_, by simp [T], XComputes.acts (f := sden (galLeaves n p) false galStack) c0 fun x _ => hA x,
      XComputes.acts (f := sden (galLeaves n p) true galStack) c1 fun x _ => hB x, ?_, ?_⟩
    · simp at hV; rcases hV with rfl | rfl <;> exact wy _
    · simp at hV; rcases hV with rfl | rfl <;> rfl
    · show T.Mem (toL yv)
      rw [hyv]; exact my
    · show VSpace.Mem _ (toL (0 : Vec K (n * M)))
      rw [hz]; exact mz
  have hs := runs_cgls_solve hyp hst fun i hi => by
    have : i = 0 := by omega
    subst this
    exact hb
  unfold XSpace.part at hs
  rw [hyv, hz, hx1, hu] at hs
  refine Runs.always ?_
  unfold exStacked
  simp only [Prog.bind_eq]
  refine Runs.bind_ok ((runs_repeatedArr_scalar (J := J) (M := M) (z := 1) hn (fun _ z hz => by simp at hz; simp [hz])).congr (fun r _ => by rw [hc₁]; rfl) fun _ _ => rfl) ?_
  refine Runs.bind_ok (runs_mkBlockDiag (J := J) (n := n) (ops := fun _ => [o₁]) (dt := .real) fun _ _ => by simp [opsDType, hd₁]) ?_
  refine Runs.bind_ok (runs_mkBlockDiag (J := J) (n := n) (ops := fun _ => [o₂]) (dt := .real) fun _ _ => by simp [opsDType, hd₂]) ?_
  refine Runs.bind_ok (a := fun r => galStack.map (galPrim n p · r)) ((Runs.ret _).congr (fun r _ => ?_) fun _ _ => rfl) ?_
  · have hc' : ∀ i, (bdPrim n (fun _ => [p i]) none .real r).cols = n * M := fun i => by rw [← hc i]; exact inSum_const false n (p i)
    have hq : ((MOp.leaf (bdPrim n (fun _ => [o₂]) none .real r) : MOp K (Prim K)).shape Prim.shape).2 = ((MOp.leaf (bdPrim n (fun _ => [o₁]) none .real r) : MOp K (Prim K)).shape Prim.shape).2 :=
      (hc' true).trans (hc' false).symm
    have hv : SOp.mkVStack Prim.shape [.leaf (bdPrim n (fun _ => [o₁]) none .real r), .leaf (bdPrim n (fun _ => [o₂]) none .real r)] = .ok ((galStack (K := K)).map (galPrim n p · r)) := by
      unfold SOp.mkVStack
      simp only [List.any_cons, List.any_nil, hq]
      simp
      rfl
    rw [hv]
    rfl
  refine Runs.bind_ok rfwd ?_
  have hTd : SSpace.dtype [⟨Ly false, .real⟩, ⟨Ly true, .real⟩] = .real := rfl
  have hTn : SSpace.dim [⟨Ly false, .real⟩, ⟨Ly true, .real⟩] = n * o₁.rows + n * o₂.rows := by simp [SSpace.dim, Ly, Layout.lin, p]
  have hw : SSpace.WF [⟨Ly false, .real⟩, ⟨Ly true, .real⟩] n := fun V hV => by simp at hV; rcases hV with rfl | rfl <;> exact wy _
  have ga := runs_asarray_svec (J := J) (S := [⟨Ly false, .real⟩, ⟨Ly true, .real⟩]) hw (by simp) my
  rw [hTd, hTn] at ga
  refine Runs.bind_ok ga ?_
  refine Runs.bind_ok radj ?_
  refine Runs.bind_ok (runs_asarray_vec (J := J) (S := ⟨Lx, .real⟩) wx madj) ?_
  refine Runs.bind_ok (runs_copy_vec (J := J) (S := ⟨Lx, .real⟩) wx mone) ?_
  have hset := runs_setAll_scalar (J := J) (L := Lx) (dt := .real) (t := .real) (x := (0 : K)) (n := n) (a := fun r => Lx.piece (rep n one) r) fun r hr => by
    rw [piece_rep lone hr, lone, lshape_lin]; simp
  refine Runs.bind_ok (a := fun r => VSpace.vec ⟨Lx, .real⟩ n (rep n (List.replicate M 0)) r) (hset.congr (fun _ _ => rfl) fun r hr => ?_) ?_
  · simp only [VSpace.vec, Layout.fam, piece_rep (n := n) (List.length_replicate (n := M) (a := (0 : K))) hr, lshape_lin, castTo_zero, Lx]
    simp
  refine Runs.bind_ok hs ?_
  refine Runs.bind_ok (runs_asarray_vec (J := J) (S := ⟨Lx, .real⟩) wx mone) ?_
  rw [ro]
  exact Runs.ret _

/-- the `P × M` matrix whose entries are all `a`: `MatrixMult(a * np.ones((P, M)))` -/
def flatOp (a : ℝ) (P M : Nat) : LOp ℝ := ⟨P, M, .real, fun x => List.replicate P (a * x.sum), fun y => List.replicate M (a * y.sum)⟩

theorem ip_replicate_left (s : ℝ) : ∀ (v : List ℝ), ip (List.replicate v.length s) v = s * v.sum
  | [] => by simp [ip]
  | z :: v => by
    have := ip_replicate_left s v
    simp only [ip, star_trivial] at this ⊢
    simp only [List.length_cons, List.replicate_succ, List.zipWith_cons_cons, List.sum_cons, this]
    ring

theorem ip_comm_real (u v : List ℝ) : ip u v = ip v u := by
  unfold ip
  rw [List.zipWith_comm]
  simp [mul_comm]

theorem flatOp_adjoint (a : ℝ) (P M : Nat) : (flatOp a P M).Adjoint := by
  rintro u v rfl rfl
  simp only [flatOp]
  rw [ip_replicate_left, ip_comm_real, ip_replicate_left]
  ring

theorem flatOp_ok (a : ℝ) (P M : Nat) (b : Bool) : (flatOp a P M).Ok b .real .real :=
  ⟨fun d _ => by cases b <;> simp [flatOp, LOp.fn, LOp.inDim, LOp.outDim], fun _ _ _ _ z _ => by simp⟩

/-- **C94** (plot_stacked_array.py, with its numbers).  On any number of ranks, in every execution, the script ends with `y_arr` = 5 tens per rank followed by 8 twenties per rank, `xadj_arr` = 370 in all
    10 entries per rank, and `xinv_array` = exactly one in all entries, after one of the 15 iterations allowed. -/
theorem C94_stacked_script (hn : 0 < n) {J : Nat → Nat → ℝ} :
    Always n (fun r => exStacked (env n J r) (flatOp 1 5 10) (flatOp 2 8 10) (some 15) (1 / 10 ^ 10)) (fun _ => .ok
      (⟨[n * 5 + n * 8], .real, List.replicate (n * 5) 10 ++ List.replicate (n * 8) 20⟩, ⟨[n * 10], .real, List.replicate (n * 10) 370⟩, ⟨[n * 10], .real, List.replicate (n * 10) 1⟩, 1)) := by
  have h1 : (1 : ℝ) ≤ n := by exact_mod_cast hn
  have e1 : (flatOp 1 5 10).fwd (List.replicate 10 1) = List.replicate 5 10 := by norm_num [flatOp]
  have e2 : (flatOp 2 8 10).fwd (List.replicate 10 1) = List.replicate 8 20 := by norm_num [flatOp]
  have h := C94_stacked (n := n) (J := J) hn (M := 10) (by norm_num) (o₁ := flatOp 1 5 10) (o₂ := flatOp 2 8 10) rfl rfl rfl rfl (flatOp_ok _ _ _) (flatOp_ok _ _ _) (flatOp_adjoint _ _ _) (flatOp_adjoint _ _ _)
    (t := 370) (by norm_num) (by rw [e1, e2]; norm_num [flatOp, vadd]) (mx := 15) (by norm_num) (tol := 1 / 10 ^ 10) (by norm_num) (by push_cast; nlinarith)
  have f1 : (List.replicate n (List.replicate 5 (10 : ℝ))).flatten = List.replicate (n * 5) 10 := rep_replicate n 5 10
  have f2 : (List.replicate n (List.replicate 8 (20 : ℝ))).flatten = List.replicate (n * 8) 20 := rep_replicate n 8 20
  rw [e1, e2, f1, f2] at h
  exact h

/-- the matrix [[1, 2], [3, 4]] -/
def galOp : LOp ℝ where
  rows := 2
  cols := 2
  dtype := .real
  fwd x := [1 * x.headD 0 + 2 * x.tail.headD 0, 3 * x.headD 0 + 4 * x.tail.headD 0]
  adj y := [1 * y.headD 0 + 3 * y.tail.headD 0, 2 * y.headD 0 + 4 * y.tail.headD 0]

/-- Non-vacuity: plot_cgls.py with this matrix and ones on seven ranks: at most two iterations (there are 14 unknowns) and exactly ones. -/
example (J : Nat → Nat → ℝ) : ∃ (m : Nat) (cost : List ℝ), m ≤ 2 ∧
    Always 7 (fun r => exCgls (env 7 J r) galOp ⟨[2], .real, [1, 1]⟩ (some 2) 0) (fun _ => .ok (⟨[14], .real, List.replicate 14 1⟩, m, cost)) :=
  C94_cgls_recovers (n := 7) (J := J) (o := galOp) (by norm_num) (fun b => ⟨fun d hd => by cases b <;> simp [galOp, LOp.fn, LOp.inDim, LOp.outDim], fun _ _ _ _ z _ => by simp⟩)
    (fun u v hu hv => by
      obtain ⟨a, b, rfl⟩ := List.length_eq_two.1 hu
      obtain ⟨c, d, rfl⟩ := List.length_eq_two.1 hv
      simp [galOp, ip]
      ring) (v := [1, 1]) rfl (fun _ z _ => by simp) (mx := 2) (by simp [galOp])
    (fun u w hu hw h => by
      obtain ⟨a, b, rfl⟩ := List.length_eq_two.1 hu
      obtain ⟨c, d, rfl⟩ := List.length_eq_two.1 hw
      simp [galOp] at h ⊢
      constructor <;> linarith [h.1, h.2])

/-- Non-vacuity: with a singular matrix (all entries 1) and the tolerance of the script, on any number of ranks. -/
example (hn : 0 < n) (J : Nat → Nat → ℝ) : ∃ (x : List ℝ) (m : Nat) (cost : List ℝ), x.length = 15 ∧ m ≤ 15 ∧
    n * sqN ((flatOp 1 20 15).adj (vdiff (List.replicate 20 15) ((flatOp 1 20 15).fwd x))) ≤ 1 / 10 ^ 10 ∧
    Always n (fun r => exCgls (env n J r) (flatOp 1 20 15) ⟨[15], .real, List.replicate 15 1⟩ (some 15) (1 / 10 ^ 10)) (fun _ => .ok (⟨[n * 15], .real, (List.replicate n x).flatten⟩, m, cost)) := by
  obtain ⟨x, m, cost, h1, -, h3, -, -, -, -, -, h9, -, h11⟩ := C94_cgls (n := n) (J := J) (o := flatOp 1 20 15) hn (flatOp_ok _ _ _) (flatOp_adjoint _ _ _) (v := List.replicate 15 1) rfl
    (fun _ z _ => by simp) 15 (tol := 1 / 10 ^ 10) (by norm_num)
  have e : (flatOp 1 20 15).fwd (List.replicate 15 1) = List.replicate 20 15 := by norm_num [flatOp]
  rw [e] at h9
  exact ⟨x, m, cost, h1, h3, h9 (by simp [flatOp]), h11⟩

end Verif

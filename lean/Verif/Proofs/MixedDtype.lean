/- Operations on arrays of the same layout but different dtypes. -/
import Verif.Proofs.Solvers
import Verif.Props.C49
import Verif.Spec.MixedDtype

set_option linter.unusedSectionVars false

namespace Verif
open NDArray

section
variable {K : Type} [Field K] [StarRing K] [CharZero K] {n : Nat} {J : Nat → Nat → K}

theorem mixed_iadd (L : Layout) (dt dt' : DType) (a b : Nat → List K) (ha : L.Good n dt a) (hb : L.Good n dt' b) :
    Runs n (fun r => (L.fam n dt a r).iadd (env n J r) (L.fam n dt' b r))
      (fun r => .ok (L.fam n dt (fun r => (List.zipWith (· + ·) (a r) (b r)).map (castTo dt)) r)) := by
  have hz : ∀ r, NDArray.zip (· + ·) (L.fam n dt a r).larr (L.fam n dt' b r).larr
      = .ok ⟨L.lshape r, dt.promote dt', List.zipWith (· + ·) (a r) (b r)⟩ := by
    intro r; simp [NDArray.zip, Layout.fam]
  unfold DArr.iadd
  simp only [Prog.bind_eq, hz, Prog.lift_ok, Prog.ret_bind]
  refine Runs.bind_ok runs_checkCompat ((runs_setAll (J := J)
    (v := fun r => ⟨L.lshape r, dt.promote dt', List.zipWith (· + ·) (a r) (b r)⟩) ha.length (fun _ _ => rfl)
    (fun r hr => by simp [ha.length r hr, hb.length r hr])).congr (fun _ _ => rfl) fun r hr => ?_)
  congr 1
  apply fam_congr
  rw [sync_eq (n := n) (fun h r hr => by simp only [ha.consistent h r hr, hb.consistent h r hr]) hr]

variable {L : Layout} {dt dt' : DType}

theorem piece_add_cast {d e : List K} (h : d.length = e.length) (r : Nat) :
    (List.zipWith (· + ·) (L.piece d r) (L.piece e r)).map (castTo dt) = L.piece ((List.zipWith (· + ·) d e).map (castTo dt)) r := by
  rw [piece_map, piece_zip _ h]

theorem runs_add_mixed (hL : L.WF n) {d e : List K} (hd : VSpace.Mem ⟨L, dt⟩ d) (he : VSpace.Mem ⟨L, dt'⟩ e) :
    Runs n (fun r => (VSpace.vec ⟨L, dt⟩ n d r).add (env n J r) (VSpace.vec ⟨L, dt'⟩ n e r))
      (fun r => .ok (VSpace.vec ⟨L, dt⟩ n ((List.zipWith (· + ·) d e).map (castTo dt)) r)) :=
  (mixed_add L dt dt' _ _ hL (good_vec (S := ⟨L, dt⟩) hL hd) (good_vec (S := ⟨L, dt'⟩) hL he)).runs.congr (fun _ _ => rfl) fun r _ =>
    congrArg Except.ok (fam_congr (piece_add_cast (hd.1.trans he.1.symm) r))

theorem runs_iadd_mixed (hL : L.WF n) {d e : List K} (hd : VSpace.Mem ⟨L, dt⟩ d) (he : VSpace.Mem ⟨L, dt'⟩ e) :
    Runs n (fun r => (VSpace.vec ⟨L, dt⟩ n d r).iadd (env n J r) (VSpace.vec ⟨L, dt'⟩ n e r))
      (fun r => .ok (VSpace.vec ⟨L, dt⟩ n ((List.zipWith (· + ·) d e).map (castTo dt)) r)) :=
  (mixed_iadd L dt dt' _ _ (good_vec (S := ⟨L, dt⟩) hL hd) (good_vec (S := ⟨L, dt'⟩) hL he)).congr (fun _ _ => rfl) fun r _ =>
    congrArg Except.ok (fam_congr (piece_add_cast (hd.1.trans he.1.symm) r))

theorem runs_sub_mixed (hL : L.WF n) {d e : List K} (hd : VSpace.Mem ⟨L, dt⟩ d) (he : VSpace.Mem ⟨L, dt'⟩ e) :
    Runs n (fun r => (VSpace.vec ⟨L, dt⟩ n d r).sub' (env n J r) (VSpace.vec ⟨L, dt'⟩ n e r))
      (fun r => .ok (VSpace.vec ⟨L, dt⟩ n ((List.zipWith (· - ·) d e).map (castTo dt)) r)) := by
  rw [zipWith_sub]
  exact Runs.bind_ok (runs_neg_vec (S := ⟨L, dt'⟩) hL he) (runs_add_mixed hL hd (mem_neg he))

theorem runs_isub_mixed (hL : L.WF n) {d e : List K} (hd : VSpace.Mem ⟨L, dt⟩ d) (he : VSpace.Mem ⟨L, dt'⟩ e) :
    Runs n (fun r => (VSpace.vec ⟨L, dt⟩ n d r).isub (env n J r) (VSpace.vec ⟨L, dt'⟩ n e r))
      (fun r => .ok (VSpace.vec ⟨L, dt⟩ n ((List.zipWith (· - ·) d e).map (castTo dt)) r)) := by
  rw [zipWith_sub]
  exact Runs.bind_ok (runs_neg_vec (S := ⟨L, dt'⟩) hL he) (runs_iadd_mixed hL hd (mem_neg he))

theorem runs_dot_mixed (hL : L.WF n) (hm : L.mask = none) {d e : List K} (hd : VSpace.Mem ⟨L, dt⟩ d) (he : VSpace.Mem ⟨L, dt'⟩ e) :
    Runs n (fun r => (VSpace.vec ⟨L, dt⟩ n d r).dot (env n J r) (VSpace.vec ⟨L, dt'⟩ n e r)) (fun _ => .ok (List.zipWith (· * ·) d e).sum) := by
  rcases Nat.eq_zero_or_pos n with rfl | hn
  · exact Runs.of_zero
  have hga : ∀ (d : List K), L.part.isBroadcast = true → ∀ r < n, L.piece d r = L.piece d 0 := by
    intro d hb r _; simp [Layout.piece, hb]
  have h1 := good_vec (S := ⟨L, dt⟩) hL hd
  have h2 := good_vec (S := ⟨L, dt'⟩) hL he
  refine (runs_dot (J := J) hn hL h1 h2 (hga d) (hga e)).congr (fun _ _ => rfl) fun r hr => ?_
  simp only [Layout.members, hm]
  rw [sum_dot_global hn hL h1.length h2.length, global_piece hL hd.1, global_piece hL he.1]

end

section
variable {K : Type} [RCLike K] {n : Nat} {J : Nat → Nat → K} {L : Layout} {dt dt' : DType} {N : Nat}

theorem castTo_re (z : K) : castTo .real z = (RCLike.re z : K) := by
  show (z + star z) / 2 = _
  rw [RCLike.re_eq_add_conj]
  rfl

theorem toL_storeAs (x : Vec K N) : toL (storeAs dt x) = (toL x).map (castTo dt) := by
  cases dt with
  | real => exact toL_map _ fun i => (castTo_re _).symm
  | cplx => exact ((List.map_congr_left (fun _ _ => rfl)).trans (List.map_id (toL x))).symm

theorem storeAs_add (x y : Vec K N) : storeAs dt (x + y) = storeAs dt x + storeAs dt y := by
  cases dt with
  | real => ext i; simp [storeAs]
  | cplx => rfl

theorem storeAs_smul (a : ℝ) (x : Vec K N) : storeAs dt ((a : K) • x) = (a : K) • storeAs dt x := by
  cases dt with
  | real => ext i; simp [storeAs, RCLike.smul_re]
  | cplx => rfl

theorem storeAs_sub (x y : Vec K N) : storeAs dt (x - y) = storeAs dt x - storeAs dt y := by
  cases dt with
  | real => ext i; simp [storeAs]
  | cplx => rfl

theorem storeAs_of_has {x : Vec K N} (hx : (sp L dt).Has x) : storeAs dt x = x := by
  cases dt with
  | cplx => rfl
  | real =>
    ext i
    have := hx.2 rfl (x i) (by simp [toL, List.mem_ofFn])
    exact RCLike.conj_eq_iff_re.1 this

theorem has_storeAs {x : Vec K N} (hx : (sp L dt').Has x) : (sp L dt).Has (storeAs dt x) := by
  refine ⟨?_, ?_⟩
  · rw [length_toL]; exact (length_toL x).symm.trans hx.1
  · rw [toL_storeAs]; exact fitsL_castTo _

theorem runs_iadd_sp (hL : L.WF n) {x y : Vec K N} (hx : (sp L dt).Has x) (hy : (sp L dt').Has y) :
    Runs n (fun r => ((sp L dt).part n x r).iadd (env n J r) ((sp L dt').part n y r)) (fun r => .ok ((sp L dt).part n (storeAs dt (x + y)) r)) := by
  unfold XSpace.part; rw [toL_storeAs, toL_add]; exact Runs.map_ok _ (runs_iadd_mixed hL hx hy)

theorem runs_sub_sp (hL : L.WF n) {x y : Vec K N} (hx : (sp L dt).Has x) (hy : (sp L dt').Has y) :
    Runs n (fun r => ((sp L dt).part n x r).sub' (env n J r) ((sp L dt').part n y r)) (fun r => .ok ((sp L dt).part n (storeAs dt (x - y)) r)) := by
  unfold XSpace.part; rw [toL_storeAs, toL_sub]; exact Runs.map_ok _ (runs_sub_mixed hL hx hy)

theorem runs_isub_sp (hL : L.WF n) {x y : Vec K N} (hx : (sp L dt).Has x) (hy : (sp L dt').Has y) :
    Runs n (fun r => ((sp L dt).part n x r).isub (env n J r) ((sp L dt').part n y r)) (fun r => .ok ((sp L dt).part n (storeAs dt (x - y)) r)) := by
  unfold XSpace.part; rw [toL_storeAs, toL_sub]; exact Runs.map_ok _ (runs_isub_mixed hL hx hy)

theorem runs_absDot_sp (hL : L.WF n) (hm : L.mask = none) {x y : Vec K N} (hx : (sp L dt).Has x) (hy : (sp L dt').Has y) :
    Runs n (fun r => absDot (env n J r) ((sp L dt).part n x r) ((sp L dt').part n y r)) (fun _ => .ok ‖inner K y x‖) := by
  simp only [absDot, Prog.bind_eq]
  refine Runs.bind_ok (runs_conj_part (S := sp L dt') hL hy) ?_
  have h : Runs n (fun r => ((sp L dt).part n x r).dot (env n J r) ((sp L dt').vec n ((toL y).map star) r)) (fun _ => .ok (inner K y x)) := by
    have := runs_dot_mixed (J := J) hL hm hx (mem_conj hy)
    rw [sum_toL] at this
    exact this
  exact Runs.bind_ok h (Runs.ret _)

/-! ### CG -/

open Serial

variable {op : Nat → XOp K} {A : Vec K N → Vec K N} {y x0 : Vec K N} {niter : Option Int} {tol : ℝ} {dx dy dA : DType}

theorem sp_cplx {x : Vec K N} (hx : (sp L dt).Has x) : (sp L .cplx).Has x := ⟨hx.1, fun h => by cases h⟩

theorem cgm_has (h : CGMixed n J op L dx dy dA A y x0) (j : Nat) :
    (sp L .cplx).Has (CG.seq K (fun v => storeAs dy (A v)) y x0 j).x ∧ (sp L dy).Has (CG.seq K (fun v => storeAs dy (A v)) y x0 j).r ∧
      (sp L dy).Has (CG.seq K (fun v => storeAs dy (A v)) y x0 j).c := by
  induction j with
  | zero =>
    have := has_sub h.y (has_storeAs (dt := dy) (h.actsx.has h.x0))
    exact ⟨sp_cplx h.x0, this, this⟩
  | succ j ih =>
    obtain ⟨h1, h2, h3⟩ := ih
    rw [CG.seq_succ]
    have hr : (sp L dy).Has (CG.res K (fun v => storeAs dy (A v)) (CG.seq K (fun v => storeAs dy (A v)) y x0 j)) :=
      has_sub h2 (has_smul _ (has_storeAs (h.actsy.has h3)))
    exact ⟨has_add h1 (has_smul _ (sp_cplx h3)), hr, has_add hr (has_smul _ h3)⟩

theorem runs_cgm_setup (h : CGMixed n J op L dx dy dA A y x0) :
    Runs n (fun r => CGS.setup (env n J r) (op r) ((sp L dy).part n y r) ((sp L dx).part n x0 r) niter tol)
      (fun r => .ok (cgState (sp L dy) n y x0 niter tol (fun v => storeAs dy (A v)) 0 r,
        (sp L dx).part n (storeAs dx (CG.seq K (fun v => storeAs dy (A v)) y x0 0).x) r)) := by
  have hS : (sp L dy).WF n := h.wf
  have hS' : (sp L dx).WF n := h.wf
  have hm : (sp L dy).NoMask := h.mask
  have e : storeAs dy (y - A x0) = y - storeAs dy (A x0) := by rw [storeAs_sub, storeAs_of_has h.y]
  have h0 : (sp L dy).Has (y - storeAs dy (A x0)) := has_sub h.y (has_storeAs (h.actsx.has h.x0))
  simp only [CGS.setup, Prog.bind_eq]
  refine Runs.bind_ok (runs_copy_part hS' h.x0) ?_
  refine Runs.bind_ok (h.actsx.runs h.x0) ?_
  refine Runs.bind_ok (runs_sub_sp h.wf h.y (h.actsx.has h.x0)) ?_
  rw [e]
  refine Runs.bind_ok (runs_copy_part hS h0) ?_
  refine Runs.bind_ok (runs_absSelf_part hS hm h0) ?_
  refine (Runs.ret _).congr (fun _ _ => rfl) fun r _ => ?_
  show Except.ok (_, _) = Except.ok (_, (sp L dx).part n (storeAs dx x0) r)
  rw [storeAs_of_has h.x0]
  rfl

theorem cgm_step_ok (h : CGMixed n J op L dx dy dA A y x0) (j : Nat)
    (hb : ¬ CG.Breaks K (fun v => storeAs dy (A v)) (CG.seq K (fun v => storeAs dy (A v)) y x0 j)) :
    Runs n (fun r => CGS.step (env n J r) (op r) (cgState (sp L dy) n y x0 niter tol (fun v => storeAs dy (A v)) j r)
        ((sp L dx).part n (storeAs dx (CG.seq K (fun v => storeAs dy (A v)) y x0 j).x) r))
      (fun r => .ok (cgState (sp L dy) n y x0 niter tol (fun v => storeAs dy (A v)) (j + 1) r,
        (sp L dx).part n (storeAs dx (CG.seq K (fun v => storeAs dy (A v)) y x0 (j + 1)).x) r)) := by
  have hS : (sp L dy).WF n := h.wf
  have hSA : (sp L dA).WF n := h.wf
  have hm : (sp L dy).NoMask := h.mask
  obtain ⟨h1, h2, h3⟩ := cgm_has h j
  have en : CG.seq K (fun v => storeAs dy (A v)) y x0 (j + 1) = CG.next K (fun v => storeAs dy (A v)) (CG.seq K (fun v => storeAs dy (A v)) y x0 j) := CG.seq_succ ..
  have hf := h.form _ h3
  have hr : (sp L dy).Has (CG.res K (fun v => storeAs dy (A v)) (CG.seq K (fun v => storeAs dy (A v)) y x0 j)) :=
    has_sub h2 (has_smul _ (has_storeAs (h.actsy.has h3)))
  have hb1 : ¬ ‖inner K (A (CG.seq K (fun v => storeAs dy (A v)) y x0 j).c) (CG.seq K (fun v => storeAs dy (A v)) y x0 j).c‖ = 0 := by
    rw [norm_inner_symm, norm_eq_zero, ← hf]; exact fun h => hb (.inl h)
  have hb2 : ¬ (CG.seq K (fun v => storeAs dy (A v)) y x0 j).k = 0 := fun h => hb (.inr h)
  have ea : (CG.seq K (fun v => storeAs dy (A v)) y x0 j).k /
      ‖inner K (A (CG.seq K (fun v => storeAs dy (A v)) y x0 j).c) (CG.seq K (fun v => storeAs dy (A v)) y x0 j).c‖
      = CG.alpha K (fun v => storeAs dy (A v)) (CG.seq K (fun v => storeAs dy (A v)) y x0 j) := by
    unfold CG.alpha; rw [norm_inner_symm, ← hf]
  rw [en]
  simp only [CGS.step, cgState, Prog.bind_eq]
  generalize hs : CG.seq K (fun v => storeAs dy (A v)) y x0 j = s at *
  refine Runs.bind_ok (h.actsy.runs h3) ?_
  refine Runs.bind_ok (runs_absDot_sp h.wf h.mask h3 (h.actsy.has h3)) ?_
  simp only [if_neg hb1, Prog.ret_bind, ea, pyDiv, if_neg hb2]
  refine Runs.bind_ok (runs_fmul_part hS _ h3) ?_
  refine Runs.bind_ok (runs_iadd_sp h.wf (has_storeAs h1) (has_smul _ h3)) ?_
  refine Runs.bind_ok (runs_fmul_part hSA _ (h.actsy.has h3)) ?_
  refine Runs.bind_ok (runs_isub_sp h.wf h2 (has_smul _ (h.actsy.has h3))) ?_
  have er : storeAs dy (s.r - ((CG.alpha K (fun v => storeAs dy (A v)) s : ℝ) : K) • A s.c) = CG.res K (fun v => storeAs dy (A v)) s := by
    rw [storeAs_sub, storeAs_smul, storeAs_of_has h2]; rfl
  rw [er]
  refine Runs.bind_ok (runs_absSelf_part hS hm hr) ?_
  refine Runs.bind_ok (runs_fmul_part hS _ h3) ?_
  refine Runs.bind_ok (runs_add_part hS hr (has_smul _ h3)) ?_
  refine (Runs.ret _).congr (fun r _ => rfl) fun r _ => ?_
  have ex : storeAs dx (storeAs dx s.x + ((CG.alpha K (fun v => storeAs dy (A v)) s : ℝ) : K) • s.c) = storeAs dx (CG.next K (fun v => storeAs dy (A v)) s).x := by
    have : storeAs dx (storeAs dx s.x) = storeAs dx s.x := storeAs_of_has (has_storeAs (dt := dx) h1)
    show _ = storeAs dx (s.x + ((CG.alpha K (fun v => storeAs dy (A v)) s : ℝ) : K) • s.c)
    rw [storeAs_add, storeAs_add, this]
  rw [ex, List.range_succ (n := j + 1), List.map_append, List.map_singleton, CG.seq_succ, hs]
  rfl

theorem cgm_step_break (h : CGMixed n J op L dx dy dA A y x0) (j : Nat)
    (hb : CG.Breaks K (fun v => storeAs dy (A v)) (CG.seq K (fun v => storeAs dy (A v)) y x0 j)) :
    ∃ e : Err, (e = .nonfinite ∨ e = .zeroDiv) ∧
    Runs n (fun r => CGS.step (env n J r) (op r) (cgState (sp L dy) n y x0 niter tol (fun v => storeAs dy (A v)) j r)
        ((sp L dx).part n (storeAs dx (CG.seq K (fun v => storeAs dy (A v)) y x0 j).x) r)) (fun _ => .error e) := by
  have hS : (sp L dy).WF n := h.wf
  have hSA : (sp L dA).WF n := h.wf
  have hm : (sp L dy).NoMask := h.mask
  obtain ⟨h1, h2, h3⟩ := cgm_has h j
  have hf := h.form _ h3
  simp only [CGS.step, cgState, Prog.bind_eq]
  generalize hs : CG.seq K (fun v => storeAs dy (A v)) y x0 j = s at *
  by_cases hb1 : inner K s.c (A s.c) = 0
  · refine ⟨.nonfinite, .inl rfl, ?_⟩
    refine Runs.bind_ok (h.actsy.runs h3) ?_
    refine Runs.bind_ok (runs_absDot_sp h.wf h.mask h3 (h.actsy.has h3)) ?_
    have : ‖inner K (A s.c) s.c‖ = 0 := by rw [norm_inner_symm, norm_eq_zero]; exact hb1
    simp only [if_pos this, Prog.throw_bind]
    exact Runs.throw _
  · refine ⟨.zeroDiv, .inr rfl, ?_⟩
    refine Runs.bind_ok (h.actsy.runs h3) ?_
    refine Runs.bind_ok (runs_absDot_sp h.wf h.mask h3 (h.actsy.has h3)) ?_
    have : ¬ ‖inner K (A s.c) s.c‖ = 0 := by rw [norm_inner_symm, norm_eq_zero]; exact hb1
    have hb2 : s.k = 0 := hb.resolve_left (by rw [hf]; exact hb1)
    simp only [if_neg this, Prog.ret_bind, pyDiv, if_pos hb2, Prog.throw_bind]
    refine Runs.bind_ok (runs_fmul_part hS _ h3) ?_
    refine Runs.bind_ok (runs_iadd_sp h.wf (has_storeAs h1) (has_smul _ h3)) ?_
    refine Runs.bind_ok (runs_fmul_part hSA _ (h.actsy.has h3)) ?_
    refine Runs.bind_ok (runs_isub_sp h.wf h2 (has_smul _ (h.actsy.has h3))) ?_
    refine Runs.bind_ok (runs_absSelf_part hS hm (has_storeAs (has_sub (sp_cplx h2) (has_smul _ (sp_cplx (h.actsy.has h3)))))) ?_
    exact Runs.throw _

/-- the loop from step `j`, when it ends after `m` steps -/
theorem runs_cgm_loop (h : CGMixed n J op L dx dy dA A y x0) {mx : Int} {m : Nat}
    {j₀ : Nat} (hst : Stops (fun i => (CG.seq K (fun v => storeAs dy (A v)) y x0 i).k) mx tol j₀ m)
    (hb : ∀ i < m, ¬ CG.Breaks K (fun v => storeAs dy (A v)) (CG.seq K (fun v => storeAs dy (A v)) y x0 i)) :
    ∀ (f j : Nat) (tr : Nat → List (XArr K)), j₀ ≤ j → j ≤ m → (f : Int) = max (mx - j) 0 →
    Runs n (fun r => CGS.loop (env n J r) (op r) mx f (cgState (sp L dy) n y x0 niter tol (fun v => storeAs dy (A v)) j r)
        ((sp L dx).part n (storeAs dx (CG.seq K (fun v => storeAs dy (A v)) y x0 j).x) r) (tr r))
      (fun r => .ok (cgState (sp L dy) n y x0 niter tol (fun v => storeAs dy (A v)) m r,
        (sp L dx).part n (storeAs dx (CG.seq K (fun v => storeAs dy (A v)) y x0 m).x) r,
        tr r ++ (List.range' (j + 1) (m - j)).map fun i => (sp L dx).part n (storeAs dx (CG.seq K (fun v => storeAs dy (A v)) y x0 i).x) r)) := by
  intro f
  induction f with
  | zero =>
    intro j tr hj₀ hj hf
    have hmj : m = j := by
      by_contra hne
      have := (hst.2.1 j hj₀ (by omega)).1
      omega
    subst hmj
    refine (Runs.ret _).congr (fun r _ => rfl) fun r _ => ?_
    simp
  | succ f ih =>
    intro j tr hj₀ hj hf
    rcases Nat.lt_or_eq_of_le hj with hlt | rfl
    · have hc := hst.2.1 j hj₀ hlt
      have := Runs.bind_ok (k := fun r p => CGS.loop (env n J r) (op r) mx f p.1 p.2 (tr r ++ [p.2])) (cgm_step_ok (J := J) (niter := niter) (tol := tol) h j (hb j hlt))
        (ih (j + 1) (fun r => tr r ++ [(sp L dx).part n (storeAs dx (CG.seq K (fun v => storeAs dy (A v)) y x0 (j + 1)).x) r]) (by omega) hlt (by omega))
      refine this.congr (fun r _ => ?_) fun r _ => ?_
      · simp only [CGS.loop, Prog.bind_eq]
        rw [if_pos]
        exact hc
      · have e : m - j = (m - (j + 1)) + 1 := by omega
        rw [e, List.range'_succ]
        simp
    · refine (Runs.ret _).congr (fun r _ => ?_) fun r _ => by simp; rfl
      simp only [CGS.loop]
      rw [if_neg]
      rintro ⟨h1, h2⟩
      rcases hst.2.2 with h3 | h3
      · exact absurd h1 (by simp only [cgState]; omega)
      · exact absurd h2 (not_lt.2 h3)

theorem runs_cgm_solve (h : CGMixed n J op L dx dy dA A y x0) {mx : Int} {m : Nat}
    (hst : Stops (fun i => (CG.seq K (fun v => storeAs dy (A v)) y x0 i).k) mx tol 0 m)
    (hb : ∀ i < m, ¬ CG.Breaks K (fun v => storeAs dy (A v)) (CG.seq K (fun v => storeAs dy (A v)) y x0 i)) :
    Runs n (fun r => CGS.solve (env n J r) (op r) ((sp L dy).part n y r) ((sp L dx).part n x0 r) (some mx) tol)
      (fun r => .ok ((sp L dx).part n (storeAs dx (CG.seq K (fun v => storeAs dy (A v)) y x0 m).x) r, m,
        (List.range (m + 1)).map fun i => Real.sqrt (CG.seq K (fun v => storeAs dy (A v)) y x0 i).k,
        (List.range' 1 m).map fun i => (sp L dx).part n (storeAs dx (CG.seq K (fun v => storeAs dy (A v)) y x0 i).x) r)) := by
  have h1 := runs_cgm_loop (niter := some mx) h hst hb (mx - 0).toNat 0 (fun _ => []) le_rfl hst.1 (by omega)
  have h2 := Runs.bind_ok (k := fun r (p : CGS K × XArr K) => (CGS.run (env n J r) (op r) p.1 p.2 (some mx)).bind fun q => .ret (q.2.1, q.1.iiter, q.1.cost, q.2.2))
    (runs_cgm_setup (niter := some mx) (tol := tol) h) (Runs.bind_ok h1 (Runs.ret _))
  refine h2.congr (fun r _ => rfl) fun r _ => ?_
  simp [cgState]

end
end Verif

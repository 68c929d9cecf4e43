/- CGLS without damping on complex data, when the start vector has another dtype than the data and the operator. -/
import Verif.Proofs.MixedDtype

set_option linter.unusedSectionVars false

namespace Verif
open NDArray Serial

section
variable {K : Type} [RCLike K] {n : Nat} {J : Nat → Nat → K} {L L' : Layout} {M N : Nat} {op : Nat → XOp K} {A : Vec K M → Vec K N} {B : Vec K N → Vec K M}
  {y : Vec K N} {x0 : Vec K M} {niter : Option Int} {tol : ℝ} {dx : DType}

theorem CGLSMixed.hyp (h : CGLSMixed n J op L L' dx A B y x0) : CGLSHyp n J op (sp L .cplx) (sp L' .cplx) A B y x0 :=
  ⟨h.wf, h.wf', h.mask, h.mask', by simp [sp], h.acts, h.ractsy, h.y, sp_cplx h.x0⟩

theorem storeAs_storeAs {dt : DType} (x : Vec K N) : storeAs dt (storeAs dt x) = storeAs dt x := by
  cases dt with
  | real => ext i; simp [storeAs]
  | cplx => rfl

theorem runs_cglsm_setup (h : CGLSMixed n J op L L' dx A B y x0) :
    Runs n (fun r => CGLSS.setup (env n J r) (op r) ((sp L' .cplx).part n y r) ((sp L dx).part n x0 r) niter 0 tol)
      (fun r => .ok (cglsState (sp L .cplx) (sp L' .cplx) n y x0 niter 0 tol A B 0 r, (sp L dx).part n (storeAs dx (CGLS.seq K A B 0 (0 ^ 2) y x0 0).x) r)) := by
  have hp := h.hyp
  have hSx : (sp L dx).WF n := h.wf
  have hmx : (sp L dx).NoMask := h.mask
  have h1 := has_sub hp.hy (hp.mv.has hp.hx)
  have h2 : (sp L .cplx).Has (B (y - A x0) - ((0 : ℝ) : K) • x0) := has_sub (hp.rmv.has h1) (has_smul _ hp.hx)
  simp only [CGLSS.setup, Prog.bind_eq]
  refine Runs.bind_ok (runs_copy_part hSx h.x0) ?_
  refine Runs.bind_ok (h.actsx.runs h.x0) ?_
  refine Runs.bind_ok (runs_sub_part hp.wfT hp.hy (hp.mv.has hp.hx)) ?_
  refine Runs.bind_ok (runs_fmul_part hSx _ h.x0) ?_
  refine Runs.bind_ok (hp.rmv.runs h1) ?_
  refine Runs.bind_ok (runs_sub_sp (dt := .cplx) h.wf (hp.rmv.has h1) (has_smul _ h.x0)) ?_
  refine Runs.bind_ok (runs_copy_part hp.wfS h2) ?_
  refine Runs.bind_ok (hp.mv.runs h2) ?_
  refine Runs.bind_ok (runs_absSelf_part hp.wfS hp.maskS h2) ?_
  refine Runs.bind_ok (runs_norm_part hp.wfT hp.maskT hp.ne h1) ?_
  simp only [FNum.toFloat, Prog.ret_bind]
  refine Runs.bind_ok (runs_absSelf_part hSx hmx h.x0) ?_
  refine (Runs.ret _).congr (fun _ _ => rfl) fun r _ => ?_
  show Except.ok (_, _) = Except.ok (_, (sp L dx).part n (storeAs dx x0) r)
  rw [storeAs_of_has h.x0]
  rfl

theorem cglsm_step_ok (h : CGLSMixed n J op L L' dx A B y x0) (j : Nat) (hb : ¬ CGLS.Breaks (0 ^ 2) (CGLS.seq K A B 0 (0 ^ 2) y x0 j)) :
    Runs n (fun r => CGLSS.step (env n J r) (op r) (cglsState (sp L .cplx) (sp L' .cplx) n y x0 niter 0 tol A B j r)
        ((sp L dx).part n (storeAs dx (CGLS.seq K A B 0 (0 ^ 2) y x0 j).x) r))
      (fun r => .ok (cglsState (sp L .cplx) (sp L' .cplx) n y x0 niter 0 tol A B (j + 1) r, (sp L dx).part n (storeAs dx (CGLS.seq K A B 0 (0 ^ 2) y x0 (j + 1)).x) r)) := by
  have hp := h.hyp
  have hSx : (sp L dx).WF n := h.wf
  have hmx : (sp L dx).NoMask := h.mask
  obtain ⟨h1, h2, h3, h4⟩ := cgls_has hp 0 (0 ^ 2) j
  have en : CGLS.seq K A B 0 (0 ^ 2) y x0 (j + 1) = CGLS.next K A B (0 ^ 2) (CGLS.seq K A B 0 (0 ^ 2) y x0 j) := CGLS.seq_succ ..
  simp only [CGLSS.step, cglsState, Prog.bind_eq]
  set s := CGLS.seq K A B 0 (0 ^ 2) y x0 with hs
  have hden : inner K (s j).q (s j).q + ((0 ^ 2 : ℝ) : K) * inner K (s j).c (s j).c = ((‖(s j).q‖ ^ 2 + 0 ^ 2 * ‖(s j).c‖ ^ 2 : ℝ) : K) := by
    rw [inner_self_eq_norm_sq_to_K, inner_self_eq_norm_sq_to_K]; push_cast; rfl
  have hb1 : ¬ ((‖(s j).q‖ ^ 2 + 0 ^ 2 * ‖(s j).c‖ ^ 2 : ℝ) : K) = 0 := by
    intro h0; exact hb (.inl (by exact_mod_cast h0))
  have hb2 : ¬ (s j).k = 0 := fun h => hb (.inr h)
  have ea : ‖((s j).k : K) / ((‖(s j).q‖ ^ 2 + 0 ^ 2 * ‖(s j).c‖ ^ 2 : ℝ) : K)‖ = CGLS.alpha (0 ^ 2) (s j) := by
    unfold CGLS.alpha; rw [← RCLike.ofReal_div, RCLike.norm_ofReal]
  refine Runs.bind_ok (runs_conj_part hp.wfT h4) ?_
  refine Runs.bind_ok (runs_dotc_part hp.wfT hp.maskT h4 h4) ?_
  refine Runs.bind_ok (runs_conj_part hp.wfS h3) ?_
  refine Runs.bind_ok (runs_dotc_part hp.wfS hp.maskS h3 h3) ?_
  simp only [hden, npDiv, if_neg hb1, Prog.ret_bind, ea, pyDiv, if_neg hb2]
  have hx' : (sp L .cplx).Has ((s j).x + (CGLS.alpha (0 ^ 2) (s j) : K) • (s j).c) := has_add h1 (has_smul _ h3)
  have hs' : (sp L' .cplx).Has ((s j).s - (CGLS.alpha (0 ^ 2) (s j) : K) • (s j).q) := has_sub h2 (has_smul _ h4)
  have hg : (sp L .cplx).Has (CGLS.grad K B (0 ^ 2) (s j)) := has_sub (hp.rmv.has hs') (has_smul _ hx')
  have hc : (sp L .cplx).Has (CGLS.grad K B (0 ^ 2) (s j) + ((‖CGLS.grad K B (0 ^ 2) (s j)‖ ^ 2 / (s j).k : ℝ) : K) • (s j).c) := has_add hg (has_smul _ h3)
  have e1 : storeAs dx (storeAs dx (s j).x + (CGLS.alpha (0 ^ 2) (s j) : K) • (s j).c) = storeAs dx ((s j).x + (CGLS.alpha (0 ^ 2) (s j) : K) • (s j).c) := by
    rw [storeAs_add, storeAs_storeAs, ← storeAs_add]
  have hxs : (sp L dx).Has (storeAs dx ((s j).x + (CGLS.alpha (0 ^ 2) (s j) : K) • (s j).c)) := has_storeAs hx'
  have e2 : storeAs .cplx (B ((s j).s - (CGLS.alpha (0 ^ 2) (s j) : K) • (s j).q) - ((0 ^ 2 : ℝ) : K) • storeAs dx ((s j).x + (CGLS.alpha (0 ^ 2) (s j) : K) • (s j).c))
      = CGLS.grad K B (0 ^ 2) (s j) := by
    simp [storeAs, CGLS.grad]
  refine Runs.bind_ok (runs_fmul_part hp.wfS _ h3) ?_
  refine Runs.bind_ok (runs_iadd_sp h.wf (has_storeAs h1) (has_smul _ h3)) ?_
  rw [e1]
  refine Runs.bind_ok (runs_fmul_part hp.wfT _ h4) ?_
  refine Runs.bind_ok (runs_isub_part hp.wfT h2 (has_smul _ h4)) ?_
  refine Runs.bind_ok (runs_fmul_part hSx _ hxs) ?_
  refine Runs.bind_ok (hp.rmv.runs hs') ?_
  refine Runs.bind_ok (runs_sub_sp (dt := .cplx) h.wf (hp.rmv.has hs') (has_smul _ hxs)) ?_
  rw [e2]
  refine Runs.bind_ok (runs_absSelf_part hp.wfS hp.maskS hg) ?_
  refine Runs.bind_ok (runs_fmul_part hp.wfS _ h3) ?_
  refine Runs.bind_ok (runs_add_part hp.wfS hg (has_smul _ h3)) ?_
  refine Runs.bind_ok (hp.mv.runs hc) ?_
  refine Runs.bind_ok (runs_norm_part hp.wfT hp.maskT hp.ne hs') ?_
  simp only [FNum.toFloat, Prog.ret_bind]
  refine Runs.bind_ok (runs_absSelf_part hSx hmx hxs) ?_
  refine (Runs.ret _).congr (fun r _ => rfl) fun r _ => ?_
  have ec : cglsCost1 A B 0 y x0 (j + 1) = FNum.sqrt (‖(s (j + 1)).s‖ ^ 2 + 0 ^ 2 * ‖storeAs dx (s (j + 1)).x‖ ^ 2) := by
    unfold cglsCost1; simp [hs]
  rw [List.range_succ (n := j + 1), List.map_append, List.map_append, List.map_singleton, List.map_singleton, ec, en]
  rfl

theorem runs_cglsm_loop (h : CGLSMixed n J op L L' dx A B y x0) {mx : Int} {m : Nat}
    (hst : Stops (fun i => (CGLS.seq K A B 0 (0 ^ 2) y x0 i).k) mx tol 0 m) (hb : ∀ i < m, ¬ CGLS.Breaks (0 ^ 2) (CGLS.seq K A B 0 (0 ^ 2) y x0 i)) :
    ∀ (f j : Nat) (tr : Nat → List (XArr K)), j ≤ m → (f : Int) = max (mx - j) 0 →
    Runs n (fun r => CGLSS.loop (env n J r) (op r) mx f (cglsState (sp L .cplx) (sp L' .cplx) n y x0 niter 0 tol A B j r) ((sp L dx).part n (storeAs dx (CGLS.seq K A B 0 (0 ^ 2) y x0 j).x) r) (tr r))
      (fun r => .ok (cglsState (sp L .cplx) (sp L' .cplx) n y x0 niter 0 tol A B m r, (sp L dx).part n (storeAs dx (CGLS.seq K A B 0 (0 ^ 2) y x0 m).x) r,
        tr r ++ (List.range' (j + 1) (m - j)).map fun i => (sp L dx).part n (storeAs dx (CGLS.seq K A B 0 (0 ^ 2) y x0 i).x) r)) := by
  intro f
  induction f with
  | zero =>
    intro j tr hj hf
    have hmj : m = j := by
      by_contra hne
      have := (hst.2.1 j (Nat.zero_le _) (by omega)).1
      omega
    subst hmj
    refine (Runs.ret _).congr (fun r _ => rfl) fun r _ => ?_
    simp
  | succ f ih =>
    intro j tr hj hf
    rcases Nat.lt_or_eq_of_le hj with hlt | rfl
    · have hc := hst.2.1 j (Nat.zero_le _) hlt
      have := Runs.bind_ok (k := fun r p => CGLSS.loop (env n J r) (op r) mx f p.1 p.2 (tr r ++ [p.2])) (cglsm_step_ok (J := J) (niter := niter) (tol := tol) h j (hb j hlt))
        (ih (j + 1) (fun r => tr r ++ [(sp L dx).part n (storeAs dx (CGLS.seq K A B 0 (0 ^ 2) y x0 (j + 1)).x) r]) hlt (by omega))
      refine this.congr (fun r _ => ?_) fun r _ => ?_
      · simp only [CGLSS.loop, Prog.bind_eq]
        rw [if_pos]
        exact hc
      · have e : m - j = (m - (j + 1)) + 1 := by omega
        rw [e, List.range'_succ]
        simp
    · refine (Runs.ret _).congr (fun r _ => ?_) fun r _ => by rw [Nat.sub_self, List.range'_zero, List.map_nil, List.append_nil]
      simp only [CGLSS.loop]
      rw [if_neg]
      rintro ⟨h1, h2⟩
      rcases hst.2.2 with h3 | h3
      · exact absurd h1 (by simp only [cglsState]; omega)
      · exact absurd h2 (not_lt.2 h3)

theorem runs_cglsm_solve (h : CGLSMixed n J op L L' dx A B y x0) {mx : Int} {m : Nat}
    (hst : Stops (fun i => (CGLS.seq K A B 0 (0 ^ 2) y x0 i).k) mx tol 0 m) (hb : ∀ i < m, ¬ CGLS.Breaks (0 ^ 2) (CGLS.seq K A B 0 (0 ^ 2) y x0 i)) :
    Runs n (fun r => CGLSS.solve (env n J r) (op r) ((sp L' .cplx).part n y r) ((sp L dx).part n x0 r) (some mx) 0 tol)
      (fun r => .ok ⟨(sp L dx).part n (storeAs dx (CGLS.seq K A B 0 (0 ^ 2) y x0 m).x) r, if (CGLS.seq K A B 0 (0 ^ 2) y x0 m).k < tol then 1 else 2, m,
        (CGLS.seq K A B 0 (0 ^ 2) y x0 m).k, cglsCost1 A B 0 y x0 m, (List.range (m + 1)).map fun i => ‖(CGLS.seq K A B 0 (0 ^ 2) y x0 i).s‖,
        (List.range' 1 m).map fun i => (sp L dx).part n (storeAs dx (CGLS.seq K A B 0 (0 ^ 2) y x0 i).x) r⟩) := by
  have h0 : Runs n (fun r => (CGLSS.setup (env n J r) (op r) ((sp L' .cplx).part n y r) ((sp L dx).part n x0 r) (some mx) 0 tol).bind fun p => CGLSS.run (env n J r) (op r) p.1 p.2 (some mx))
      (fun r => .ok (cglsState (sp L .cplx) (sp L' .cplx) n y x0 (some mx) 0 tol A B m r, (sp L dx).part n (storeAs dx (CGLS.seq K A B 0 (0 ^ 2) y x0 m).x) r,
        (List.range' 1 m).map fun i => (sp L dx).part n (storeAs dx (CGLS.seq K A B 0 (0 ^ 2) y x0 i).x) r)) := by
    refine Runs.bind_ok (runs_cglsm_setup h) ?_
    have := runs_cglsm_loop (niter := some mx) h hst hb (mx - (0 : Nat)).toNat 0 (fun _ => []) (Nat.zero_le _) (by omega)
    refine this.congr (fun r _ => ?_) fun r _ => by simp
    rfl
  have h2 := Runs.bind_ok (k := fun r q => CGLSS.finalize q.1 q.2.1 q.2.2) h0 (σ := fun r => .ok ⟨(sp L dx).part n (storeAs dx (CGLS.seq K A B 0 (0 ^ 2) y x0 m).x) r,
        if (CGLS.seq K A B 0 (0 ^ 2) y x0 m).k < tol then 1 else 2, m,
        (CGLS.seq K A B 0 (0 ^ 2) y x0 m).k, cglsCost1 A B 0 y x0 m, (List.range (m + 1)).map fun i => ‖(CGLS.seq K A B 0 (0 ^ 2) y x0 i).s‖,
        (List.range' 1 m).map fun i => (sp L dx).part n (storeAs dx (CGLS.seq K A B 0 (0 ^ 2) y x0 i).x) r⟩) (by
    refine (Runs.ret _).congr (fun r _ => ?_) fun r _ => rfl
    have e : (cglsState (sp L .cplx) (sp L' .cplx) n y x0 (some mx) 0 tol A B m r).cost1[m]? = some (cglsCost1 A B 0 y x0 m) := by
      simp [cglsState]
    unfold CGLSS.finalize
    have e' : (cglsState (sp L .cplx) (sp L' .cplx) n y x0 (some mx) 0 tol A B m r).iiter = m := rfl
    rw [e', e]
    simp only [cglsState]
    simp)
  refine h2.congr (fun r _ => ?_) fun r _ => rfl
  simp only [CGLSS.solve, Prog.bind_eq, Prog.bind_assoc]

end
end Verif

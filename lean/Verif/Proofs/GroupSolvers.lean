/- CG and CGLS on arrays with a mask: each group of ranks runs the serial algorithm on its own vectors. -/
import Verif.Proofs.Groups
import Verif.Proofs.Solvers

set_option linter.unusedSectionVars false

namespace Verif
open NDArray Serial

variable {K : Type} [RCLike K] {n : Nat} {J : Nat → Nat → K} {V W : VSpace} {M N : Nat → Nat}

/-! ### CG -/

section
variable {op : Nat → XOp K} {A : ∀ γ, Vec K (N γ) → Vec K (N γ)} {y x0 : ∀ γ, Vec K (N γ)} {niter : Option Int} {tol : ℝ}

structure GCGHyp (n : Nat) (J : Nat → Nat → K) (op : Nat → XOp K) (V : VSpace) (A : ∀ γ, Vec K (N γ) → Vec K (N γ)) (y x0 : ∀ γ, Vec K (N γ)) : Prop where
  wf : V.L.WF n
  part : V.L.part = .scatter
  mv : GActs n J (fun r => (op r).mv) V V A
  hy : V.GHas n y
  hx : V.GHas n x0

/-- the attributes of the solver on rank `r` after `j` steps -/
noncomputable def gcgState (V : VSpace) (n : Nat) (y x0 : ∀ γ, Vec K (N γ)) (niter : Option Int) (tol : ℝ) (A : ∀ γ, Vec K (N γ) → Vec K (N γ)) (j r : Nat) : CGS K :=
  ⟨V.gpart n y r, niter, tol, V.gpart n (fun γ => (CG.seq K (A γ) (y γ) (x0 γ) j).r) r, V.gpart n (fun γ => (CG.seq K (A γ) (y γ) (x0 γ) j).c) r,
    (CG.seq K (A (V.L.color r)) (y (V.L.color r)) (x0 (V.L.color r)) j).k,
    (List.range (j + 1)).map fun i => Real.sqrt (CG.seq K (A (V.L.color r)) (y (V.L.color r)) (x0 (V.L.color r)) i).k, j⟩

theorem gcg_has (h : GCGHyp n J op V A y x0) (j : Nat) :
    V.GHas n (fun γ => (CG.seq K (A γ) (y γ) (x0 γ) j).x) ∧ V.GHas n (fun γ => (CG.seq K (A γ) (y γ) (x0 γ) j).r) ∧ V.GHas n (fun γ => (CG.seq K (A γ) (y γ) (x0 γ) j).c) := by
  induction j with
  | zero => exact ⟨h.hx, ghas_sub h.hy (h.mv.has h.hx), ghas_sub h.hy (h.mv.has h.hx)⟩
  | succ j ih =>
    obtain ⟨h1, h2, h3⟩ := ih
    simp only [CG.seq_succ]
    have hr : V.GHas n (fun γ => CG.res K (A γ) (CG.seq K (A γ) (y γ) (x0 γ) j)) :=
      ghas_sub h2 (ghas_smul (fun γ => CG.alpha K (A γ) (CG.seq K (A γ) (y γ) (x0 γ) j)) (h.mv.has h3))
    exact ⟨ghas_add h1 (ghas_smul (fun γ => CG.alpha K (A γ) (CG.seq K (A γ) (y γ) (x0 γ) j)) h3), hr, ghas_add hr (ghas_smul _ h3)⟩

theorem runs_gcg_setup (h : GCGHyp n J op V A y x0) :
    Runs n (fun r => CGS.setup (env n J r) (op r) (V.gpart n y r) (V.gpart n x0 r) niter tol)
      (fun r => .ok (gcgState V n y x0 niter tol A 0 r, V.gpart n (fun γ => (CG.seq K (A γ) (y γ) (x0 γ) 0).x) r)) := by
  have h0 := ghas_sub h.hy (h.mv.has h.hx)
  simp only [CGS.setup, Prog.bind_eq]
  refine Runs.bind_ok (runs_copy_gpart h.wf h.part h.hx) ?_
  refine Runs.bind_ok (h.mv.runs h.hx) ?_
  refine Runs.bind_ok (runs_sub_gpart h.wf h.part h.hy (h.mv.has h.hx)) ?_
  refine Runs.bind_ok (runs_copy_gpart h.wf h.part h0) ?_
  refine Runs.bind_ok (runs_absSelf_gpart h.wf h.part h0) ?_
  exact Runs.ret _

theorem gcg_step_ok (h : GCGHyp n J op V A y x0) (j : Nat)
    (hb : ∀ r < n, ¬ CG.Breaks K (A (V.L.color r)) (CG.seq K (A (V.L.color r)) (y (V.L.color r)) (x0 (V.L.color r)) j)) :
    Runs n (fun r => CGS.step (env n J r) (op r) (gcgState V n y x0 niter tol A j r) (V.gpart n (fun γ => (CG.seq K (A γ) (y γ) (x0 γ) j).x) r))
      (fun r => .ok (gcgState V n y x0 niter tol A (j + 1) r, V.gpart n (fun γ => (CG.seq K (A γ) (y γ) (x0 γ) (j + 1)).x) r)) := by
  obtain ⟨h1, h2, h3⟩ := gcg_has h j
  set s := fun γ => CG.seq K (A γ) (y γ) (x0 γ) j with hs
  have hr : V.GHas n (fun γ => CG.res K (A γ) (s γ)) := ghas_sub h2 (ghas_smul (fun γ => CG.alpha K (A γ) (s γ)) (h.mv.has h3))
  simp only [CGS.step, gcgState, Prog.bind_eq]
  refine Runs.bind_ok (h.mv.runs h3) ?_
  refine Runs.bind_ok (runs_absDot_gpart h.wf h.part h3 (h.mv.has h3)) ?_
  refine Runs.bind_ok (a := fun r => CG.alpha K (A (V.L.color r)) (s (V.L.color r))) ((Runs.ret _).congr (fun r hr => ?_) fun _ _ => rfl) ?_
  · rw [if_neg]
    · unfold CG.alpha; rw [norm_inner_symm]
    · rw [norm_inner_symm, norm_eq_zero]; exact fun h0 => hb r hr (.inl h0)
  refine Runs.bind_ok (runs_fmul_gpart h.wf h.part (fun γ => CG.alpha K (A γ) (s γ)) h3) ?_
  refine Runs.bind_ok (runs_iadd_gpart h.part h1 (ghas_smul _ h3)) ?_
  refine Runs.bind_ok (runs_fmul_gpart h.wf h.part (fun γ => CG.alpha K (A γ) (s γ)) (h.mv.has h3)) ?_
  refine Runs.bind_ok (runs_isub_gpart h.wf h.part h2 (ghas_smul _ (h.mv.has h3))) ?_
  refine Runs.bind_ok (runs_absSelf_gpart h.wf h.part hr) ?_
  refine Runs.bind_ok (a := fun r => ‖CG.res K (A (V.L.color r)) (s (V.L.color r))‖ ^ 2 / (s (V.L.color r)).k) ((Runs.ret _).congr (fun r hr => ?_) fun _ _ => rfl) ?_
  · unfold pyDiv
    rw [if_neg fun h0 => hb r hr (.inr h0)]
    rfl
  refine Runs.bind_ok (runs_fmul_gpart h.wf h.part (fun γ => ‖CG.res K (A γ) (s γ)‖ ^ 2 / (s γ).k) h3) ?_
  refine Runs.bind_ok (runs_add_gpart h.wf h.part hr (ghas_smul _ h3)) ?_
  refine (Runs.ret _).congr (fun r _ => rfl) fun r _ => ?_
  simp only [List.range_succ (n := j + 1), List.map_append, List.map_singleton, CG.seq_succ]
  rfl

theorem runs_gcg_steps (h : GCGHyp n J op V A y x0) (j : Nat)
    (hb : ∀ r < n, ∀ i < j, ¬ CG.Breaks K (A (V.L.color r)) (CG.seq K (A (V.L.color r)) (y (V.L.color r)) (x0 (V.L.color r)) i)) :
    Runs n (fun r => CGS.steps (env n J r) (op r) (V.gpart n y r) (V.gpart n x0 r) niter tol j)
      (fun r => .ok (gcgState V n y x0 niter tol A j r, V.gpart n (fun γ => (CG.seq K (A γ) (y γ) (x0 γ) j).x) r)) := by
  induction j with
  | zero => exact runs_gcg_setup h
  | succ j ih =>
    simp only [CGS.steps, Prog.bind_eq]
    exact Runs.bind_ok (ih fun r hr i hi => hb r hr i (by omega)) (gcg_step_ok h j fun r hr => hb r hr j (by omega))

theorem runs_gcg_loop (h : GCGHyp n J op V A y x0) {mx : Int} {m : Nat}
    (hst : ∀ r < n, Stops (fun i => (CG.seq K (A (V.L.color r)) (y (V.L.color r)) (x0 (V.L.color r)) i).k) mx tol 0 m)
    (hb : ∀ r < n, ∀ i < m, ¬ CG.Breaks K (A (V.L.color r)) (CG.seq K (A (V.L.color r)) (y (V.L.color r)) (x0 (V.L.color r)) i)) :
    ∀ (f j : Nat) (tr : Nat → List (XArr K)), j ≤ m → (f : Int) = max (mx - j) 0 →
    Runs n (fun r => CGS.loop (env n J r) (op r) mx f (gcgState V n y x0 niter tol A j r) (V.gpart n (fun γ => (CG.seq K (A γ) (y γ) (x0 γ) j).x) r) (tr r))
      (fun r => .ok (gcgState V n y x0 niter tol A m r, V.gpart n (fun γ => (CG.seq K (A γ) (y γ) (x0 γ) m).x) r,
        tr r ++ (List.range' (j + 1) (m - j)).map fun i => V.gpart n (fun γ => (CG.seq K (A γ) (y γ) (x0 γ) i).x) r)) := by
  rcases Nat.eq_zero_or_pos n with rfl | hn
  · exact fun _ _ _ _ _ => Runs.of_zero
  intro f
  induction f with
  | zero =>
    intro j tr hj hf
    have hmj : m = j := by
      by_contra hne
      have := ((hst 0 hn).2.1 j (by omega) (by omega)).1
      omega
    subst hmj
    refine (Runs.ret _).congr (fun r _ => rfl) fun r _ => ?_
    simp
  | succ f ih =>
    intro j tr hj hf
    rcases Nat.lt_or_eq_of_le hj with hlt | rfl
    · have := Runs.bind_ok (k := fun r p => CGS.loop (env n J r) (op r) mx f p.1 p.2 (tr r ++ [p.2])) (gcg_step_ok (J := J) (niter := niter) (tol := tol) h j fun r hr => hb r hr j hlt)
        (ih (j + 1) (fun r => tr r ++ [V.gpart n (fun γ => (CG.seq K (A γ) (y γ) (x0 γ) (j + 1)).x) r]) hlt (by omega))
      refine this.congr (fun r hr => ?_) fun r _ => ?_
      · simp only [CGS.loop, Prog.bind_eq]
        rw [if_pos]
        exact (hst r hr).2.1 j (by omega) hlt
      · have e : m - j = (m - (j + 1)) + 1 := by omega
        rw [e, List.range'_succ]
        simp
    · refine (Runs.ret _).congr (fun r hr => ?_) fun r _ => by simp; rfl
      simp only [CGS.loop]
      rw [if_neg]
      rintro ⟨h1, h2⟩
      rcases (hst r hr).2.2 with h3 | h3
      · exact absurd h1 (by simp only [gcgState]; omega)
      · exact absurd h2 (not_lt.2 h3)

theorem runs_gcg_solve (h : GCGHyp n J op V A y x0) {mx : Int} {m : Nat}
    (hst : ∀ r < n, Stops (fun i => (CG.seq K (A (V.L.color r)) (y (V.L.color r)) (x0 (V.L.color r)) i).k) mx tol 0 m)
    (hb : ∀ r < n, ∀ i < m, ¬ CG.Breaks K (A (V.L.color r)) (CG.seq K (A (V.L.color r)) (y (V.L.color r)) (x0 (V.L.color r)) i)) :
    Runs n (fun r => CGS.solve (env n J r) (op r) (V.gpart n y r) (V.gpart n x0 r) (some mx) tol)
      (fun r => .ok (V.gpart n (fun γ => (CG.seq K (A γ) (y γ) (x0 γ) m).x) r, m,
        (List.range (m + 1)).map fun i => Real.sqrt (CG.seq K (A (V.L.color r)) (y (V.L.color r)) (x0 (V.L.color r)) i).k,
        (List.range' 1 m).map fun i => V.gpart n (fun γ => (CG.seq K (A γ) (y γ) (x0 γ) i).x) r)) := by
  have h1 := runs_gcg_loop (niter := some mx) h hst hb (mx - (0 : Nat)).toNat 0 (fun _ => []) (by omega) (by omega)
  have h2 := Runs.bind_ok (k := fun r q => .ret (q.2.1, q.1.iiter, q.1.cost, q.2.2)) h1 (Runs.ret _)
  simp only [CGS.solve, Prog.bind_eq]
  refine Runs.bind_ok (runs_gcg_setup (niter := some mx) (tol := tol) h) (h2.congr (fun r _ => rfl) fun r _ => ?_)
  simp [gcgState]

end

/-! ### CGLS -/

section
variable {op : Nat → XOp K} {A : ∀ γ, Vec K (M γ) → Vec K (N γ)} {B : ∀ γ, Vec K (N γ) → Vec K (M γ)} {y : ∀ γ, Vec K (N γ)} {x0 : ∀ γ, Vec K (M γ)} {niter : Option Int} {damp tol : ℝ}

structure GCGLSHyp (n : Nat) (J : Nat → Nat → K) (op : Nat → XOp K) (V W : VSpace) (A : ∀ γ, Vec K (M γ) → Vec K (N γ)) (B : ∀ γ, Vec K (N γ) → Vec K (M γ))
    (y : ∀ γ, Vec K (N γ)) (x0 : ∀ γ, Vec K (M γ)) : Prop where
  wfV : V.L.WF n
  wfW : W.L.WF n
  partV : V.L.part = .scatter
  partW : W.L.part = .scatter
  mask : W.L.mask = V.L.mask
  mv : GActs n J (fun r => (op r).mv) V W A
  rmv : GActs n J (fun r => (op r).rmv) W V B
  hy : W.GHas n y
  hx : V.GHas n x0

theorem color_congr {L L' : Layout} (h : L'.mask = L.mask) (r : Nat) : L'.color r = L.color r := by unfold Layout.color; rw [h]

/-- the serial iterates of group `γ` -/
noncomputable def gcgls (A : ∀ γ, Vec K (M γ) → Vec K (N γ)) (B : ∀ γ, Vec K (N γ) → Vec K (M γ)) (damp : ℝ) (y : ∀ γ, Vec K (N γ)) (x0 : ∀ γ, Vec K (M γ)) (j γ : Nat) :
    CGLS (Vec K (M γ)) (Vec K (N γ)) := CGLS.seq K (A γ) (B γ) damp (damp ^ 2) (y γ) (x0 γ) j

noncomputable def gcglsState (V W : VSpace) (n : Nat) (y : ∀ γ, Vec K (N γ)) (x0 : ∀ γ, Vec K (M γ)) (niter : Option Int) (damp tol : ℝ) (A : ∀ γ, Vec K (M γ) → Vec K (N γ))
    (B : ∀ γ, Vec K (N γ) → Vec K (M γ)) (j r : Nat) : CGLSS K :=
  let s := gcgls A B damp y x0
  ⟨W.gpart n y r, damp ^ 2, niter, tol, W.gpart n (fun γ => (s j γ).s) r, V.gpart n (fun γ => (s j γ).c) r, W.gpart n (fun γ => (s j γ).q) r, (s j (V.L.color r)).k,
    (List.range (j + 1)).map fun i => ‖(s i (V.L.color r)).s‖,
    (List.range (j + 1)).map (cglsCost1 (A (V.L.color r)) (B (V.L.color r)) damp (y (V.L.color r)) (x0 (V.L.color r))), j⟩

theorem gcgls_has (h : GCGLSHyp n J op V W A B y x0) (j : Nat) :
    V.GHas n (fun γ => (gcgls A B damp y x0 j γ).x) ∧ W.GHas n (fun γ => (gcgls A B damp y x0 j γ).s) ∧ V.GHas n (fun γ => (gcgls A B damp y x0 j γ).c) ∧
      W.GHas n (fun γ => (gcgls A B damp y x0 j γ).q) := by
  induction j with
  | zero =>
    have h1 := ghas_sub h.hy (h.mv.has h.hx)
    have h2 : V.GHas n (fun γ => B γ (y γ - A γ (x0 γ)) - (damp : K) • x0 γ) := ghas_sub (h.rmv.has h1) (ghas_smul (fun _ => damp) h.hx)
    exact ⟨h.hx, h1, h2, h.mv.has h2⟩
  | succ j ih =>
    obtain ⟨h1, h2, h3, h4⟩ := ih
    have e : ∀ γ, gcgls A B damp y x0 (j + 1) γ = CGLS.next K (A γ) (B γ) (damp ^ 2) (gcgls A B damp y x0 j γ) := fun γ => CGLS.seq_succ ..
    simp only [e]
    have hx : V.GHas n (fun γ => (CGLS.next K (A γ) (B γ) (damp ^ 2) (gcgls A B damp y x0 j γ)).x) := ghas_add h1 (ghas_smul (fun γ => CGLS.alpha (damp ^ 2) (gcgls A B damp y x0 j γ)) h3)
    have hs : W.GHas n (fun γ => (CGLS.next K (A γ) (B γ) (damp ^ 2) (gcgls A B damp y x0 j γ)).s) := ghas_sub h2 (ghas_smul (fun γ => CGLS.alpha (damp ^ 2) (gcgls A B damp y x0 j γ)) h4)
    have hg : V.GHas n (fun γ => CGLS.grad K (B γ) (damp ^ 2) (gcgls A B damp y x0 j γ)) := ghas_sub (h.rmv.has hs) (ghas_smul (fun _ => damp ^ 2) hx)
    have hc : V.GHas n (fun γ => (CGLS.next K (A γ) (B γ) (damp ^ 2) (gcgls A B damp y x0 j γ)).c) := ghas_add hg (ghas_smul _ h3)
    exact ⟨hx, hs, hc, h.mv.has hc⟩

theorem runs_gcgls_setup (h : GCGLSHyp n J op V W A B y x0) :
    Runs n (fun r => CGLSS.setup (env n J r) (op r) (W.gpart n y r) (V.gpart n x0 r) niter damp tol)
      (fun r => .ok (gcglsState V W n y x0 niter damp tol A B 0 r, V.gpart n (fun γ => (gcgls A B damp y x0 0 γ).x) r)) := by
  have h1 := ghas_sub h.hy (h.mv.has h.hx)
  have h2 : V.GHas n (fun γ => B γ (y γ - A γ (x0 γ)) - (damp : K) • x0 γ) := ghas_sub (h.rmv.has h1) (ghas_smul (fun _ => damp) h.hx)
  have hc : W.L.color = V.L.color := funext (color_congr h.mask)
  simp only [CGLSS.setup, Prog.bind_eq]
  refine Runs.bind_ok (runs_copy_gpart h.wfV h.partV h.hx) ?_
  refine Runs.bind_ok (h.mv.runs h.hx) ?_
  refine Runs.bind_ok (runs_sub_gpart h.wfW h.partW h.hy (h.mv.has h.hx)) ?_
  refine Runs.bind_ok (runs_fmul_gpart h.wfV h.partV (fun _ => damp) h.hx) ?_
  refine Runs.bind_ok (h.rmv.runs h1) ?_
  refine Runs.bind_ok (runs_sub_gpart h.wfV h.partV (h.rmv.has h1) (ghas_smul _ h.hx)) ?_
  refine Runs.bind_ok (runs_copy_gpart h.wfV h.partV h2) ?_
  refine Runs.bind_ok (h.mv.runs h2) ?_
  refine Runs.bind_ok (runs_absSelf_gpart h.wfV h.partV h2) ?_
  refine Runs.bind_ok (runs_norm_gpart h.wfW h.partW h1) ?_
  simp only [FNum.toFloat, Prog.ret_bind]
  refine Runs.bind_ok (runs_absSelf_gpart h.wfV h.partV h.hx) ?_
  rw [hc]
  exact Runs.ret _

theorem gcgls_step_ok (h : GCGLSHyp n J op V W A B y x0) (j : Nat) (hb : ∀ r < n, ¬ CGLS.Breaks (damp ^ 2) (gcgls A B damp y x0 j (V.L.color r))) :
    Runs n (fun r => CGLSS.step (env n J r) (op r) (gcglsState V W n y x0 niter damp tol A B j r) (V.gpart n (fun γ => (gcgls A B damp y x0 j γ).x) r))
      (fun r => .ok (gcglsState V W n y x0 niter damp tol A B (j + 1) r, V.gpart n (fun γ => (gcgls A B damp y x0 (j + 1) γ).x) r)) := by
  obtain ⟨h1, h2, h3, h4⟩ := gcgls_has (damp := damp) h j
  have en : ∀ γ, gcgls A B damp y x0 (j + 1) γ = CGLS.next K (A γ) (B γ) (damp ^ 2) (gcgls A B damp y x0 j γ) := fun γ => CGLS.seq_succ ..
  have hcol : W.L.color = V.L.color := funext (color_congr h.mask)
  simp only [CGLSS.step, gcglsState, Prog.bind_eq]
  set s := gcgls A B damp y x0 with hs
  have hx' : V.GHas n (fun γ => (s j γ).x + (CGLS.alpha (damp ^ 2) (s j γ) : K) • (s j γ).c) := ghas_add h1 (ghas_smul (fun γ => CGLS.alpha (damp ^ 2) (s j γ)) h3)
  have hs' : W.GHas n (fun γ => (s j γ).s - (CGLS.alpha (damp ^ 2) (s j γ) : K) • (s j γ).q) := ghas_sub h2 (ghas_smul (fun γ => CGLS.alpha (damp ^ 2) (s j γ)) h4)
  have hg : V.GHas n (fun γ => CGLS.grad K (B γ) (damp ^ 2) (s j γ)) := ghas_sub (h.rmv.has hs') (ghas_smul (fun _ => damp ^ 2) hx')
  have hc : V.GHas n (fun γ => CGLS.grad K (B γ) (damp ^ 2) (s j γ) + ((‖CGLS.grad K (B γ) (damp ^ 2) (s j γ)‖ ^ 2 / (s j γ).k : ℝ) : K) • (s j γ).c) :=
    ghas_add hg (ghas_smul (fun γ => ‖CGLS.grad K (B γ) (damp ^ 2) (s j γ)‖ ^ 2 / (s j γ).k) h3)
  refine Runs.bind_ok (runs_conj_gpart h.wfW h.partW h4) ?_
  refine Runs.bind_ok (runs_dotc_gpart h.wfW h.partW h4 h4) ?_
  refine Runs.bind_ok (runs_conj_gpart h.wfV h.partV h3) ?_
  refine Runs.bind_ok (runs_dotc_gpart h.wfV h.partV h3 h3) ?_
  rw [hcol]
  refine Runs.bind_ok (a := fun r => ((s j (V.L.color r)).k : K) / ((‖(s j (V.L.color r)).q‖ ^ 2 + damp ^ 2 * ‖(s j (V.L.color r)).c‖ ^ 2 : ℝ) : K)) ((Runs.ret _).congr (fun r hr => ?_) fun _ _ => rfl) ?_
  · have hden : inner K (s j (V.L.color r)).q (s j (V.L.color r)).q + ((damp ^ 2 : ℝ) : K) * inner K (s j (V.L.color r)).c (s j (V.L.color r)).c
        = ((‖(s j (V.L.color r)).q‖ ^ 2 + damp ^ 2 * ‖(s j (V.L.color r)).c‖ ^ 2 : ℝ) : K) := by
      rw [inner_self_eq_norm_sq_to_K, inner_self_eq_norm_sq_to_K]; push_cast; rfl
    rw [hden, npDiv, if_neg fun h0 => hb r hr (.inl (by exact_mod_cast h0))]
  have ea : ∀ γ, ‖((s j γ).k : K) / ((‖(s j γ).q‖ ^ 2 + damp ^ 2 * ‖(s j γ).c‖ ^ 2 : ℝ) : K)‖ = CGLS.alpha (damp ^ 2) (s j γ) := fun γ => by
    unfold CGLS.alpha; rw [← RCLike.ofReal_div, RCLike.norm_ofReal]
  simp only [ea]
  have fw : ∀ (a : Nat → ℝ) {z : ∀ γ, Vec K (N γ)}, W.GHas n z →
      Runs n (fun r => XArr.fmul (env n J r) (a (V.L.color r)) (W.gpart n z r)) (fun r => .ok (W.gpart n (fun γ => (a γ : K) • z γ) r)) := fun a z hz => by
    have := runs_fmul_gpart (J := J) h.wfW h.partW a hz
    rwa [hcol] at this
  refine Runs.bind_ok (runs_fmul_gpart h.wfV h.partV (fun γ => CGLS.alpha (damp ^ 2) (s j γ)) h3) ?_
  refine Runs.bind_ok (runs_iadd_gpart h.partV h1 (ghas_smul _ h3)) ?_
  refine Runs.bind_ok (fw (fun γ => CGLS.alpha (damp ^ 2) (s j γ)) h4) ?_
  refine Runs.bind_ok (runs_isub_gpart h.wfW h.partW h2 (ghas_smul _ h4)) ?_
  refine Runs.bind_ok (runs_fmul_gpart h.wfV h.partV (fun _ => damp ^ 2) hx') ?_
  refine Runs.bind_ok (h.rmv.runs hs') ?_
  refine Runs.bind_ok (runs_sub_gpart h.wfV h.partV (h.rmv.has hs') (ghas_smul _ hx')) ?_
  refine Runs.bind_ok (runs_absSelf_gpart h.wfV h.partV hg) ?_
  refine Runs.bind_ok (a := fun r => ‖CGLS.grad K (B (V.L.color r)) (damp ^ 2) (s j (V.L.color r))‖ ^ 2 / (s j (V.L.color r)).k) ((Runs.ret _).congr (fun r hr => ?_) fun _ _ => rfl) ?_
  · unfold pyDiv
    rw [if_neg fun h0 => hb r hr (.inr h0)]
    rfl
  refine Runs.bind_ok (runs_fmul_gpart h.wfV h.partV (fun γ => ‖CGLS.grad K (B γ) (damp ^ 2) (s j γ)‖ ^ 2 / (s j γ).k) h3) ?_
  refine Runs.bind_ok (runs_add_gpart h.wfV h.partV hg (ghas_smul _ h3)) ?_
  refine Runs.bind_ok (h.mv.runs hc) ?_
  refine Runs.bind_ok (runs_norm_gpart h.wfW h.partW hs') ?_
  simp only [FNum.toFloat, Prog.ret_bind]
  refine Runs.bind_ok (runs_absSelf_gpart h.wfV h.partV hx') ?_
  rw [hcol]
  refine (Runs.ret _).congr (fun r _ => rfl) fun r _ => ?_
  have ec : cglsCost1 (A (V.L.color r)) (B (V.L.color r)) damp (y (V.L.color r)) (x0 (V.L.color r)) (j + 1)
      = FNum.sqrt (‖(s (j + 1) (V.L.color r)).s‖ ^ 2 + damp ^ 2 * ‖(s (j + 1) (V.L.color r)).x‖ ^ 2) := by
    unfold cglsCost1; simp [hs, gcgls]
  simp only [List.range_succ (n := j + 1), List.map_append, List.map_singleton, ec, en]
  rfl

theorem runs_gcgls_loop (h : GCGLSHyp n J op V W A B y x0) {mx : Int} {m : Nat}
    (hst : ∀ r < n, Stops (fun i => (gcgls A B damp y x0 i (V.L.color r)).k) mx tol 0 m)
    (hb : ∀ r < n, ∀ i < m, ¬ CGLS.Breaks (damp ^ 2) (gcgls A B damp y x0 i (V.L.color r))) :
    ∀ (f j : Nat) (tr : Nat → List (XArr K)), j ≤ m → (f : Int) = max (mx - j) 0 →
    Runs n (fun r => CGLSS.loop (env n J r) (op r) mx f (gcglsState V W n y x0 niter damp tol A B j r) (V.gpart n (fun γ => (gcgls A B damp y x0 j γ).x) r) (tr r))
      (fun r => .ok (gcglsState V W n y x0 niter damp tol A B m r, V.gpart n (fun γ => (gcgls A B damp y x0 m γ).x) r,
        tr r ++ (List.range' (j + 1) (m - j)).map fun i => V.gpart n (fun γ => (gcgls A B damp y x0 i γ).x) r)) := by
  rcases Nat.eq_zero_or_pos n with rfl | hn
  · exact fun _ _ _ _ _ => Runs.of_zero
  intro f
  induction f with
  | zero =>
    intro j tr hj hf
    have hmj : m = j := by
      by_contra hne
      have := ((hst 0 hn).2.1 j (by omega) (by omega)).1
      omega
    subst hmj
    refine (Runs.ret _).congr (fun r _ => rfl) fun r _ => ?_
    simp
  | succ f ih =>
    intro j tr hj hf
    rcases Nat.lt_or_eq_of_le hj with hlt | rfl
    · have := Runs.bind_ok (k := fun r p => CGLSS.loop (env n J r) (op r) mx f p.1 p.2 (tr r ++ [p.2])) (gcgls_step_ok (J := J) (niter := niter) (tol := tol) h j fun r hr => hb r hr j hlt)
        (ih (j + 1) (fun r => tr r ++ [V.gpart n (fun γ => (gcgls A B damp y x0 (j + 1) γ).x) r]) hlt (by omega))
      refine this.congr (fun r hr => ?_) fun r _ => ?_
      · simp only [CGLSS.loop, Prog.bind_eq]
        rw [if_pos]
        exact (hst r hr).2.1 j (by omega) hlt
      · have e : m - j = (m - (j + 1)) + 1 := by omega
        rw [e, List.range'_succ]
        simp
    · refine (Runs.ret _).congr (fun r hr => ?_) fun r _ => by simp; rfl
      simp only [CGLSS.loop]
      rw [if_neg]
      rintro ⟨h1, h2⟩
      rcases (hst r hr).2.2 with h3 | h3
      · exact absurd h1 (by simp only [gcglsState]; omega)
      · exact absurd h2 (not_lt.2 h3)

theorem runs_gcgls_solve (h : GCGLSHyp n J op V W A B y x0) {mx : Int} {m : Nat}
    (hst : ∀ r < n, Stops (fun i => (gcgls A B damp y x0 i (V.L.color r)).k) mx tol 0 m)
    (hb : ∀ r < n, ∀ i < m, ¬ CGLS.Breaks (damp ^ 2) (gcgls A B damp y x0 i (V.L.color r))) :
    Runs n (fun r => CGLSS.solve (env n J r) (op r) (W.gpart n y r) (V.gpart n x0 r) (some mx) damp tol)
      (fun r => .ok ⟨V.gpart n (fun γ => (gcgls A B damp y x0 m γ).x) r, if (gcgls A B damp y x0 m (V.L.color r)).k < tol then 1 else 2, m, (gcgls A B damp y x0 m (V.L.color r)).k,
        cglsCost1 (A (V.L.color r)) (B (V.L.color r)) damp (y (V.L.color r)) (x0 (V.L.color r)) m,
        (List.range (m + 1)).map fun i => ‖(gcgls A B damp y x0 i (V.L.color r)).s‖, (List.range' 1 m).map fun i => V.gpart n (fun γ => (gcgls A B damp y x0 i γ).x) r⟩) := by
  have h1 := runs_gcgls_loop (niter := some mx) h hst hb (mx - (0 : Nat)).toNat 0 (fun _ => []) (by omega) (by omega)
  have h2 := Runs.bind_ok (k := fun r q => CGLSS.finalize q.1 q.2.1 q.2.2) h1 (σ := fun r => .ok ⟨V.gpart n (fun γ => (gcgls A B damp y x0 m γ).x) r,
        if (gcgls A B damp y x0 m (V.L.color r)).k < tol then 1 else 2, m, (gcgls A B damp y x0 m (V.L.color r)).k,
        cglsCost1 (A (V.L.color r)) (B (V.L.color r)) damp (y (V.L.color r)) (x0 (V.L.color r)) m,
        (List.range (m + 1)).map fun i => ‖(gcgls A B damp y x0 i (V.L.color r)).s‖, (List.range' 1 m).map fun i => V.gpart n (fun γ => (gcgls A B damp y x0 i γ).x) r⟩) (by
    refine (Runs.ret _).congr (fun r _ => ?_) fun r _ => rfl
    have e : (gcglsState V W n y x0 (some mx) damp tol A B m r).cost1[m]? = some (cglsCost1 (A (V.L.color r)) (B (V.L.color r)) damp (y (V.L.color r)) (x0 (V.L.color r)) m) := by
      simp [gcglsState]
    unfold CGLSS.finalize
    have e' : (gcglsState V W n y x0 (some mx) damp tol A B m r).iiter = m := rfl
    rw [e', e]
    simp only [gcglsState]
    simp
    congr)
  simp only [CGLSS.solve, Prog.bind_eq]
  exact Runs.bind_ok (runs_gcgls_setup (niter := some mx) (tol := tol) h) (h2.congr (fun r _ => rfl) fun r _ => rfl)

end
end Verif

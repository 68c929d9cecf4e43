/- The distributed solvers make the steps of the serial ones. -/
import Verif.Proofs.Part
import Verif.Proofs.CGLSTheory

set_option linter.unusedSectionVars false

namespace Verif
open NDArray Serial

variable {K : Type} [RCLike K] {n : Nat} {J : Nat → Nat → K} {S T : XSpace} {M N : Nat}

theorem stops_or_hits (k : Nat → ℝ) (breaks : Nat → Prop) (niter : Int) (tol : ℝ) :
    ∀ (f j : Nat), niter - j ≤ f → (∀ i < j, ¬ breaks i) →
      ∃ m, (∀ i < m, ¬ breaks i) ∧ (Stops k niter tol j m ∨ Hits k breaks niter tol j m) := by
  intro f
  induction f with
  | zero => intro j hf hb; exact ⟨j, hb, .inl ⟨le_rfl, fun i h1 h2 => by omega, .inl (by omega)⟩⟩
  | succ f ih =>
    intro j hf hb
    by_cases hc : (j : Int) < niter ∧ k j > tol
    · by_cases hbj : breaks j
      · refine ⟨j, hb, .inr ⟨le_rfl, fun i h1 h2 => ?_, hbj⟩⟩
        obtain rfl : i = j := by omega
        exact hc
      · obtain ⟨m, h1, h2⟩ := ih (j + 1) (by omega) (fun i hi => by
          rcases Nat.lt_or_eq_of_le (Nat.le_of_lt_succ hi) with h | rfl
          · exact hb i h
          · exact hbj)
        refine ⟨m, h1, h2.imp ?_ ?_⟩
        · rintro ⟨h3, h4, h5⟩
          refine ⟨by omega, fun i hi1 hi2 => ?_, h5⟩
          rcases Nat.lt_or_eq_of_le hi1 with h | rfl
          · exact h4 i h hi2
          · exact hc
        · rintro ⟨h3, h4, h5⟩
          refine ⟨by omega, fun i hi1 hi2 => ?_, h5⟩
          rcases Nat.lt_or_eq_of_le hi1 with h | rfl
          · exact h4 i h hi2
          · exact hc
    · refine ⟨j, hb, .inl ⟨le_rfl, fun i h1 h2 => by omega, ?_⟩⟩
      by_contra hn
      push Not at hn
      exact hc hn

/-! ### CG -/

section
variable {op : Nat → XOp K} {A : Vec K N → Vec K N} {y x0 : Vec K N} {niter : Option Int} {tol : ℝ}

/-- the attributes of the solver on rank `r` after `j` steps -/
noncomputable def cgState (S : XSpace) (n : Nat) (y x0 : Vec K N) (niter : Option Int) (tol : ℝ) (A : Vec K N → Vec K N) (j r : Nat) : CGS K :=
  ⟨S.part n y r, niter, tol, S.part n (CG.seq K A y x0 j).r r, S.part n (CG.seq K A y x0 j).c r, (CG.seq K A y x0 j).k,
    (List.range (j + 1)).map fun i => Real.sqrt (CG.seq K A y x0 i).k, j⟩

theorem cg_has (hA : Acts n J (fun r => (op r).mv) S S A) (hy : S.Has y) (hx : S.Has x0) (j : Nat) :
    S.Has (CG.seq K A y x0 j).x ∧ S.Has (CG.seq K A y x0 j).r ∧ S.Has (CG.seq K A y x0 j).c := by
  induction j with
  | zero => exact ⟨hx, has_sub hy (hA.has hx), has_sub hy (hA.has hx)⟩
  | succ j ih =>
    obtain ⟨h1, h2, h3⟩ := ih
    rw [CG.seq_succ]
    have hr : S.Has (CG.res K A (CG.seq K A y x0 j)) := has_sub h2 (has_smul _ (hA.has h3))
    exact ⟨has_add h1 (has_smul _ h3), hr, has_add hr (has_smul _ h3)⟩

theorem runs_cg_setup (hS : S.WF n) (hm : S.NoMask) (hA : Acts n J (fun r => (op r).mv) S S A) (hy : S.Has y) (hx : S.Has x0) :
    Runs n (fun r => CGS.setup (env n J r) (op r) (S.part n y r) (S.part n x0 r) niter tol)
      (fun r => .ok (cgState S n y x0 niter tol A 0 r, S.part n (CG.seq K A y x0 0).x r)) := by
  have h0 := has_sub hy (hA.has hx)
  simp only [CGS.setup, Prog.bind_eq]
  refine Runs.bind_ok (runs_copy_part hS hx) ?_
  refine Runs.bind_ok (hA.runs hx) ?_
  refine Runs.bind_ok (runs_sub_part hS hy (hA.has hx)) ?_
  refine Runs.bind_ok (runs_copy_part hS h0) ?_
  refine Runs.bind_ok (runs_absSelf_part hS hm h0) ?_
  exact Runs.ret _

theorem cg_step_ok (hS : S.WF n) (hm : S.NoMask) (hA : Acts n J (fun r => (op r).mv) S S A) (hy : S.Has y) (hx : S.Has x0) (j : Nat)
    (hb : ¬ CG.Breaks K A (CG.seq K A y x0 j)) :
    Runs n (fun r => CGS.step (env n J r) (op r) (cgState S n y x0 niter tol A j r) (S.part n (CG.seq K A y x0 j).x r))
      (fun r => .ok (cgState S n y x0 niter tol A (j + 1) r, S.part n (CG.seq K A y x0 (j + 1)).x r)) := by
  obtain ⟨h1, h2, h3⟩ := cg_has hA hy hx j
  have hb1 : ¬ ‖inner K (A (CG.seq K A y x0 j).c) (CG.seq K A y x0 j).c‖ = 0 := by
    rw [norm_inner_symm, norm_eq_zero]; exact fun h => hb (.inl h)
  have hb2 : ¬ (CG.seq K A y x0 j).k = 0 := fun h => hb (.inr h)
  have ea : (CG.seq K A y x0 j).k / ‖inner K (A (CG.seq K A y x0 j).c) (CG.seq K A y x0 j).c‖ = CG.alpha K A (CG.seq K A y x0 j) := by
    unfold CG.alpha; rw [norm_inner_symm]
  have hr : S.Has (CG.res K A (CG.seq K A y x0 j)) := has_sub h2 (has_smul _ (hA.has h3))
  have en : CG.seq K A y x0 (j + 1) = CG.next K A (CG.seq K A y x0 j) := CG.seq_succ ..
  simp only [CGS.step, cgState, Prog.bind_eq]
  refine Runs.bind_ok (hA.runs h3) ?_
  refine Runs.bind_ok (runs_absDot_part hS hm h3 (hA.has h3)) ?_
  simp only [if_neg hb1, Prog.ret_bind, ea, pyDiv, if_neg hb2]
  refine Runs.bind_ok (runs_fmul_part hS _ h3) ?_
  refine Runs.bind_ok (runs_iadd_part hS h1 (has_smul _ h3)) ?_
  refine Runs.bind_ok (runs_fmul_part hS _ (hA.has h3)) ?_
  refine Runs.bind_ok (runs_isub_part hS h2 (has_smul _ (hA.has h3))) ?_
  refine Runs.bind_ok (runs_absSelf_part hS hm hr) ?_
  refine Runs.bind_ok (runs_fmul_part hS _ h3) ?_
  refine Runs.bind_ok (runs_add_part hS hr (has_smul _ h3)) ?_
  refine (Runs.ret _).congr (fun r _ => rfl) fun r _ => ?_
  rw [List.range_succ (n := j + 1), List.map_append, List.map_singleton, en]
  rfl

theorem cg_step_break (hS : S.WF n) (hm : S.NoMask) (hA : Acts n J (fun r => (op r).mv) S S A) (hy : S.Has y) (hx : S.Has x0) (j : Nat)
    (hb : CG.Breaks K A (CG.seq K A y x0 j)) :
    Runs n (fun r => CGS.step (env n J r) (op r) (cgState S n y x0 niter tol A j r) (S.part n (CG.seq K A y x0 j).x r))
      (fun _ => .error (if inner K (CG.seq K A y x0 j).c (A (CG.seq K A y x0 j).c) = 0 then .nonfinite else .zeroDiv)) := by
  obtain ⟨h1, h2, h3⟩ := cg_has hA hy hx j
  simp only [CGS.step, cgState, Prog.bind_eq]
  refine Runs.bind_ok (hA.runs h3) ?_
  refine Runs.bind_ok (runs_absDot_part hS hm h3 (hA.has h3)) ?_
  by_cases hb1 : inner K (CG.seq K A y x0 j).c (A (CG.seq K A y x0 j).c) = 0
  · have : ‖inner K (A (CG.seq K A y x0 j).c) (CG.seq K A y x0 j).c‖ = 0 := by rw [norm_inner_symm, norm_eq_zero]; exact hb1
    simp only [if_pos this, if_pos hb1, Prog.throw_bind]
    exact Runs.throw _
  · have : ¬ ‖inner K (A (CG.seq K A y x0 j).c) (CG.seq K A y x0 j).c‖ = 0 := by rw [norm_inner_symm, norm_eq_zero]; exact hb1
    have hb2 : (CG.seq K A y x0 j).k = 0 := hb.resolve_left hb1
    simp only [if_neg this, if_neg hb1, Prog.ret_bind, pyDiv, if_pos hb2, Prog.throw_bind]
    have hr : ∀ a : ℝ, S.Has ((CG.seq K A y x0 j).r - (a : K) • A (CG.seq K A y x0 j).c) := fun a => has_sub h2 (has_smul _ (hA.has h3))
    refine Runs.bind_ok (runs_fmul_part hS _ h3) ?_
    refine Runs.bind_ok (runs_iadd_part hS h1 (has_smul _ h3)) ?_
    refine Runs.bind_ok (runs_fmul_part hS _ (hA.has h3)) ?_
    refine Runs.bind_ok (runs_isub_part hS h2 (has_smul _ (hA.has h3))) ?_
    refine Runs.bind_ok (runs_absSelf_part hS hm (hr _)) ?_
    exact Runs.throw _

theorem runs_cg_steps (hS : S.WF n) (hm : S.NoMask) (hA : Acts n J (fun r => (op r).mv) S S A) (hy : S.Has y) (hx : S.Has x0) (j : Nat)
    (hb : ∀ i < j, ¬ CG.Breaks K A (CG.seq K A y x0 i)) :
    Runs n (fun r => CGS.steps (env n J r) (op r) (S.part n y r) (S.part n x0 r) niter tol j)
      (fun r => .ok (cgState S n y x0 niter tol A j r, S.part n (CG.seq K A y x0 j).x r)) := by
  induction j with
  | zero => exact runs_cg_setup hS hm hA hy hx
  | succ j ih =>
    simp only [CGS.steps, Prog.bind_eq]
    exact Runs.bind_ok (ih fun i hi => hb i (by omega)) (cg_step_ok hS hm hA hy hx j (hb j (by omega)))

/-- the loop from step `j`, when it ends after `m` steps -/
theorem runs_cg_loop (hS : S.WF n) (hm : S.NoMask) (hA : Acts n J (fun r => (op r).mv) S S A) (hy : S.Has y) (hx : S.Has x0) {mx : Int} {m : Nat}
    {j₀ : Nat} (hst : Stops (fun i => (CG.seq K A y x0 i).k) mx tol j₀ m) (hb : ∀ i < m, ¬ CG.Breaks K A (CG.seq K A y x0 i)) :
    ∀ (f j : Nat) (tr : Nat → List (XArr K)), j₀ ≤ j → j ≤ m → (f : Int) = max (mx - j) 0 →
    Runs n (fun r => CGS.loop (env n J r) (op r) mx f (cgState S n y x0 niter tol A j r) (S.part n (CG.seq K A y x0 j).x r) (tr r))
      (fun r => .ok (cgState S n y x0 niter tol A m r, S.part n (CG.seq K A y x0 m).x r,
        tr r ++ (List.range' (j + 1) (m - j)).map fun i => S.part n (CG.seq K A y x0 i).x r)) := by
  intro f
  induction f with
  | zero =>
    intro j tr hj₀ hj hf
    have hmj : m = j := by
      by_contra hne
      have := (hst.2.1 j hj₀ (by omega)).1
      omega
    subst hmj
    refine (Runs.ret _).congr (fun r _ => rfl) fun r _ => ?_
    simp
  | succ f ih =>
    intro j tr hj₀ hj hf
    rcases Nat.lt_or_eq_of_le hj with hlt | rfl
    · have hc := hst.2.1 j hj₀ hlt
      have := Runs.bind_ok (k := fun r p => CGS.loop (env n J r) (op r) mx f p.1 p.2 (tr r ++ [p.2])) (cg_step_ok (J := J) (niter := niter) (tol := tol) hS hm hA hy hx j (hb j hlt))
        (ih (j + 1) (fun r => tr r ++ [S.part n (CG.seq K A y x0 (j + 1)).x r]) (by omega) hlt (by omega))
      refine this.congr (fun r _ => ?_) fun r _ => ?_
      · simp only [CGS.loop, Prog.bind_eq]
        rw [if_pos]
        exact hc
      · have e : m - j = (m - (j + 1)) + 1 := by omega
        rw [e, List.range'_succ]
        simp
    · refine (Runs.ret _).congr (fun r _ => ?_) fun r _ => by simp; rfl
      simp only [CGS.loop]
      rw [if_neg]
      rintro ⟨h1, h2⟩
      rcases hst.2.2 with h3 | h3
      · exact absurd h1 (by simp only [cgState]; omega)
      · exact absurd h2 (not_lt.2 h3)

/-- the loop when step `m` divides by zero -/
theorem runs_cg_loop_break (hS : S.WF n) (hm : S.NoMask) (hA : Acts n J (fun r => (op r).mv) S S A) (hy : S.Has y) (hx : S.Has x0) {mx : Int} {m : Nat}
    {j₀ : Nat} (hst : ∀ j, j₀ ≤ j → j ≤ m → (j : Int) < mx ∧ (CG.seq K A y x0 j).k > tol) (hb : ∀ i < m, ¬ CG.Breaks K A (CG.seq K A y x0 i)) (hbm : CG.Breaks K A (CG.seq K A y x0 m)) :
    ∀ (f j : Nat) (tr : Nat → List (XArr K)), j₀ ≤ j → j ≤ m → (f : Int) = max (mx - j) 0 →
    Runs n (fun r => CGS.loop (env n J r) (op r) mx f (cgState S n y x0 niter tol A j r) (S.part n (CG.seq K A y x0 j).x r) (tr r))
      (fun _ => .error (if inner K (CG.seq K A y x0 m).c (A (CG.seq K A y x0 m).c) = 0 then .nonfinite else .zeroDiv)) := by
  intro f
  induction f with
  | zero =>
    intro j tr hj₀ hj hf
    have := (hst j hj₀ hj).1
    omega
  | succ f ih =>
    intro j tr hj₀ hj hf
    have hc := hst j hj₀ hj
    have hcond : ∀ r, (((cgState S n y x0 niter tol A j r).iiter : Int) < mx ∧ (cgState S n y x0 niter tol A j r).kold > (cgState S n y x0 niter tol A j r).tol) := fun r => hc
    simp only [CGS.loop, Prog.bind_eq, if_pos (hcond _)]
    rcases Nat.lt_or_eq_of_le hj with hlt | rfl
    · exact Runs.bind_ok (cg_step_ok hS hm hA hy hx j (hb j hlt))
        (ih (j + 1) (fun r => tr r ++ [S.part n (CG.seq K A y x0 (j + 1)).x r]) (by omega) hlt (by omega))
    · refine Runs.bind (cg_step_break hS hm hA hy hx j hbm) ?_
      exact Runs.throw _

theorem runs_cg_run (hS : S.WF n) (hm : S.NoMask) (hA : Acts n J (fun r => (op r).mv) S S A) (hy : S.Has y) (hx : S.Has x0) {mx : Int} {niter1 : Option Int}
    (hn : niter1.or niter = some mx) {j m : Nat}
    (hst : Stops (fun i => (CG.seq K A y x0 i).k) mx tol j m) (hb : ∀ i < m, ¬ CG.Breaks K A (CG.seq K A y x0 i)) :
    Runs n (fun r => (CGS.steps (env n J r) (op r) (S.part n y r) (S.part n x0 r) niter tol j).bind fun p => CGS.run (env n J r) (op r) p.1 p.2 niter1)
      (fun r => .ok (cgState S n y x0 niter tol A m r, S.part n (CG.seq K A y x0 m).x r,
        (List.range' (j + 1) (m - j)).map fun i => S.part n (CG.seq K A y x0 i).x r)) := by
  refine Runs.bind_ok (runs_cg_steps hS hm hA hy hx j fun i hi => hb i (by have := hst.1; omega)) ?_
  have := runs_cg_loop (niter := niter) hS hm hA hy hx hst hb (mx - j).toNat j (fun _ => []) le_rfl hst.1 (by omega)
  refine this.congr (fun r _ => ?_) fun r _ => by simp
  cases niter1 with
  | none =>
    simp only [Option.none_or] at hn
    subst hn
    rfl
  | some v =>
    simp only [Option.some_or, Option.some.injEq] at hn
    subst hn
    rfl

theorem runs_cg_run_break (hS : S.WF n) (hm : S.NoMask) (hA : Acts n J (fun r => (op r).mv) S S A) (hy : S.Has y) (hx : S.Has x0) {mx : Int} {niter1 : Option Int}
    (hn : niter1.or niter = some mx) {j m : Nat}
    (hst : Hits (fun i => (CG.seq K A y x0 i).k) (fun i => CG.Breaks K A (CG.seq K A y x0 i)) mx tol j m) (hb : ∀ i < m, ¬ CG.Breaks K A (CG.seq K A y x0 i)) :
    Runs n (fun r => (CGS.steps (env n J r) (op r) (S.part n y r) (S.part n x0 r) niter tol j).bind fun p => CGS.run (env n J r) (op r) p.1 p.2 niter1)
      (fun _ => .error (if inner K (CG.seq K A y x0 m).c (A (CG.seq K A y x0 m).c) = 0 then .nonfinite else .zeroDiv)) := by
  refine Runs.bind_ok (runs_cg_steps hS hm hA hy hx j fun i hi => hb i (by have := hst.1; omega)) ?_
  have := runs_cg_loop_break (niter := niter) hS hm hA hy hx hst.2.1 hb hst.2.2 (mx - j).toNat j (fun _ => []) le_rfl hst.1 (by omega)
  refine this.congr (fun r _ => ?_) fun r _ => rfl
  cases niter1 with
  | none =>
    simp only [Option.none_or] at hn
    subst hn
    rfl
  | some v =>
    simp only [Option.some_or, Option.some.injEq] at hn
    subst hn
    rfl

end

/-! ### CGLS -/

section
variable {op : Nat → XOp K} {A : Vec K M → Vec K N} {B : Vec K N → Vec K M} {y : Vec K N} {x0 : Vec K M} {niter : Option Int} {damp tol : ℝ}

/-- the history of the damped objective's square root -/
noncomputable def cglsCost1 (A : Vec K M → Vec K N) (B : Vec K N → Vec K M) (damp : ℝ) (y : Vec K N) (x0 : Vec K M) (i : Nat) : FNum :=
  let s := CGLS.seq K A B damp (damp ^ 2) y x0 i
  FNum.sqrt (‖s.s‖ ^ 2 + (if i = 0 then damp else damp ^ 2) * ‖s.x‖ ^ 2)

/-- the attributes of the solver on rank `r` after `j` steps -/
noncomputable def cglsState (S T : XSpace) (n : Nat) (y : Vec K N) (x0 : Vec K M) (niter : Option Int) (damp tol : ℝ) (A : Vec K M → Vec K N) (B : Vec K N → Vec K M) (j r : Nat) : CGLSS K :=
  let s := CGLS.seq K A B damp (damp ^ 2) y x0
  ⟨T.part n y r, damp ^ 2, niter, tol, T.part n (s j).s r, S.part n (s j).c r, T.part n (s j).q r, (s j).k,
    (List.range (j + 1)).map fun i => ‖(s i).s‖, (List.range (j + 1)).map (cglsCost1 A B damp y x0), j⟩

structure CGLSHyp (n : Nat) (J : Nat → Nat → K) (op : Nat → XOp K) (S T : XSpace) (A : Vec K M → Vec K N) (B : Vec K N → Vec K M) (y : Vec K N) (x0 : Vec K M) : Prop where
  wfS : S.WF n
  wfT : T.WF n
  maskS : S.NoMask
  maskT : T.NoMask
  ne : T ≠ .stack []
  mv : Acts n J (fun r => (op r).mv) S T A
  rmv : Acts n J (fun r => (op r).rmv) T S B
  hy : T.Has y
  hx : S.Has x0

theorem cgls_has (h : CGLSHyp n J op S T A B y x0) (δ₀ δ : ℝ) (j : Nat) :
    let s := CGLS.seq K A B δ₀ δ y x0 j
    S.Has s.x ∧ T.Has s.s ∧ S.Has s.c ∧ T.Has s.q := by
  induction j with
  | zero =>
    have h1 := has_sub h.hy (h.mv.has h.hx)
    have h2 : S.Has (B (y - A x0) - (δ₀ : K) • x0) := has_sub (h.rmv.has h1) (has_smul _ h.hx)
    exact ⟨h.hx, h1, h2, h.mv.has h2⟩
  | succ j ih =>
    obtain ⟨h1, h2, h3, h4⟩ := ih
    rw [CGLS.seq_succ]
    have hx : S.Has (CGLS.next K A B δ (CGLS.seq K A B δ₀ δ y x0 j)).x := has_add h1 (has_smul _ h3)
    have hs : T.Has (CGLS.next K A B δ (CGLS.seq K A B δ₀ δ y x0 j)).s := has_sub h2 (has_smul _ h4)
    have hg : S.Has (CGLS.grad K B δ (CGLS.seq K A B δ₀ δ y x0 j)) := has_sub (h.rmv.has hs) (has_smul _ hx)
    have hc : S.Has (CGLS.next K A B δ (CGLS.seq K A B δ₀ δ y x0 j)).c := has_add hg (has_smul _ h3)
    exact ⟨hx, hs, hc, h.mv.has hc⟩

theorem runs_cgls_setup (h : CGLSHyp n J op S T A B y x0) :
    Runs n (fun r => CGLSS.setup (env n J r) (op r) (T.part n y r) (S.part n x0 r) niter damp tol)
      (fun r => .ok (cglsState S T n y x0 niter damp tol A B 0 r, S.part n (CGLS.seq K A B damp (damp ^ 2) y x0 0).x r)) := by
  have h1 := has_sub h.hy (h.mv.has h.hx)
  have h2 : S.Has (B (y - A x0) - (damp : K) • x0) := has_sub (h.rmv.has h1) (has_smul _ h.hx)
  simp only [CGLSS.setup, Prog.bind_eq]
  refine Runs.bind_ok (runs_copy_part h.wfS h.hx) ?_
  refine Runs.bind_ok (h.mv.runs h.hx) ?_
  refine Runs.bind_ok (runs_sub_part h.wfT h.hy (h.mv.has h.hx)) ?_
  refine Runs.bind_ok (runs_fmul_part h.wfS _ h.hx) ?_
  refine Runs.bind_ok (h.rmv.runs h1) ?_
  refine Runs.bind_ok (runs_sub_part h.wfS (h.rmv.has h1) (has_smul _ h.hx)) ?_
  refine Runs.bind_ok (runs_copy_part h.wfS h2) ?_
  refine Runs.bind_ok (h.mv.runs h2) ?_
  refine Runs.bind_ok (runs_absSelf_part h.wfS h.maskS h2) ?_
  refine Runs.bind_ok (runs_norm_part h.wfT h.maskT h.ne h1) ?_
  simp only [FNum.toFloat, Prog.ret_bind]
  refine Runs.bind_ok (runs_absSelf_part h.wfS h.maskS h.hx) ?_
  exact Runs.ret _

theorem cgls_step_ok (h : CGLSHyp n J op S T A B y x0) (j : Nat) (hb : ¬ CGLS.Breaks (damp ^ 2) (CGLS.seq K A B damp (damp ^ 2) y x0 j)) :
    Runs n (fun r => CGLSS.step (env n J r) (op r) (cglsState S T n y x0 niter damp tol A B j r) (S.part n (CGLS.seq K A B damp (damp ^ 2) y x0 j).x r))
      (fun r => .ok (cglsState S T n y x0 niter damp tol A B (j + 1) r, S.part n (CGLS.seq K A B damp (damp ^ 2) y x0 (j + 1)).x r)) := by
  obtain ⟨h1, h2, h3, h4⟩ := cgls_has h damp (damp ^ 2) j
  have en : CGLS.seq K A B damp (damp ^ 2) y x0 (j + 1) = CGLS.next K A B (damp ^ 2) (CGLS.seq K A B damp (damp ^ 2) y x0 j) := CGLS.seq_succ ..
  simp only [CGLSS.step, cglsState, Prog.bind_eq]
  set s := CGLS.seq K A B damp (damp ^ 2) y x0 with hs
  have hden : inner K (s j).q (s j).q + ((damp ^ 2 : ℝ) : K) * inner K (s j).c (s j).c = ((‖(s j).q‖ ^ 2 + damp ^ 2 * ‖(s j).c‖ ^ 2 : ℝ) : K) := by
    rw [inner_self_eq_norm_sq_to_K, inner_self_eq_norm_sq_to_K]; push_cast; rfl
  have hb1 : ¬ ((‖(s j).q‖ ^ 2 + damp ^ 2 * ‖(s j).c‖ ^ 2 : ℝ) : K) = 0 := by
    intro h0; exact hb (.inl (by exact_mod_cast h0))
  have hb2 : ¬ (s j).k = 0 := fun h => hb (.inr h)
  have ea : ‖((s j).k : K) / ((‖(s j).q‖ ^ 2 + damp ^ 2 * ‖(s j).c‖ ^ 2 : ℝ) : K)‖ = CGLS.alpha (damp ^ 2) (s j) := by
    unfold CGLS.alpha; rw [← RCLike.ofReal_div, RCLike.norm_ofReal]
  refine Runs.bind_ok (runs_conj_part h.wfT h4) ?_
  refine Runs.bind_ok (runs_dotc_part h.wfT h.maskT h4 h4) ?_
  refine Runs.bind_ok (runs_conj_part h.wfS h3) ?_
  refine Runs.bind_ok (runs_dotc_part h.wfS h.maskS h3 h3) ?_
  simp only [hden, npDiv, if_neg hb1, Prog.ret_bind, ea, pyDiv, if_neg hb2]
  have hx' : S.Has ((s j).x + (CGLS.alpha (damp ^ 2) (s j) : K) • (s j).c) := has_add h1 (has_smul _ h3)
  have hs' : T.Has ((s j).s - (CGLS.alpha (damp ^ 2) (s j) : K) • (s j).q) := has_sub h2 (has_smul _ h4)
  have hg : S.Has (CGLS.grad K B (damp ^ 2) (s j)) := has_sub (h.rmv.has hs') (has_smul _ hx')
  have hc : S.Has (CGLS.grad K B (damp ^ 2) (s j) + ((‖CGLS.grad K B (damp ^ 2) (s j)‖ ^ 2 / (s j).k : ℝ) : K) • (s j).c) := has_add hg (has_smul _ h3)
  refine Runs.bind_ok (runs_fmul_part h.wfS _ h3) ?_
  refine Runs.bind_ok (runs_iadd_part h.wfS h1 (has_smul _ h3)) ?_
  refine Runs.bind_ok (runs_fmul_part h.wfT _ h4) ?_
  refine Runs.bind_ok (runs_isub_part h.wfT h2 (has_smul _ h4)) ?_
  refine Runs.bind_ok (runs_fmul_part h.wfS _ hx') ?_
  refine Runs.bind_ok (h.rmv.runs hs') ?_
  refine Runs.bind_ok (runs_sub_part h.wfS (h.rmv.has hs') (has_smul _ hx')) ?_
  refine Runs.bind_ok (runs_absSelf_part h.wfS h.maskS hg) ?_
  refine Runs.bind_ok (runs_fmul_part h.wfS _ h3) ?_
  refine Runs.bind_ok (runs_add_part h.wfS hg (has_smul _ h3)) ?_
  refine Runs.bind_ok (h.mv.runs hc) ?_
  refine Runs.bind_ok (runs_norm_part h.wfT h.maskT h.ne hs') ?_
  simp only [FNum.toFloat, Prog.ret_bind]
  refine Runs.bind_ok (runs_absSelf_part h.wfS h.maskS hx') ?_
  refine (Runs.ret _).congr (fun r _ => rfl) fun r _ => ?_
  have ec : cglsCost1 A B damp y x0 (j + 1) = FNum.sqrt (‖(s (j + 1)).s‖ ^ 2 + damp ^ 2 * ‖(s (j + 1)).x‖ ^ 2) := by
    unfold cglsCost1; simp [hs]
  rw [List.range_succ (n := j + 1), List.map_append, List.map_append, List.map_singleton, List.map_singleton, ec, en]
  rfl

theorem cgls_step_break (h : CGLSHyp n J op S T A B y x0) (j : Nat) (hb : CGLS.Breaks (damp ^ 2) (CGLS.seq K A B damp (damp ^ 2) y x0 j)) :
    Runs n (fun r => CGLSS.step (env n J r) (op r) (cglsState S T n y x0 niter damp tol A B j r) (S.part n (CGLS.seq K A B damp (damp ^ 2) y x0 j).x r))
      (fun _ => .error (if ‖(CGLS.seq K A B damp (damp ^ 2) y x0 j).q‖ ^ 2 + damp ^ 2 * ‖(CGLS.seq K A B damp (damp ^ 2) y x0 j).c‖ ^ 2 = 0 then .nonfinite else .zeroDiv)) := by
  obtain ⟨h1, h2, h3, h4⟩ := cgls_has h damp (damp ^ 2) j
  simp only [CGLSS.step, cglsState, Prog.bind_eq]
  set s := CGLS.seq K A B damp (damp ^ 2) y x0 with hs
  have hden : inner K (s j).q (s j).q + ((damp ^ 2 : ℝ) : K) * inner K (s j).c (s j).c = ((‖(s j).q‖ ^ 2 + damp ^ 2 * ‖(s j).c‖ ^ 2 : ℝ) : K) := by
    rw [inner_self_eq_norm_sq_to_K, inner_self_eq_norm_sq_to_K]; push_cast; rfl
  refine Runs.bind_ok (runs_conj_part h.wfT h4) ?_
  refine Runs.bind_ok (runs_dotc_part h.wfT h.maskT h4 h4) ?_
  refine Runs.bind_ok (runs_conj_part h.wfS h3) ?_
  refine Runs.bind_ok (runs_dotc_part h.wfS h.maskS h3 h3) ?_
  by_cases h0 : ‖(s j).q‖ ^ 2 + damp ^ 2 * ‖(s j).c‖ ^ 2 = 0
  · have : ((‖(s j).q‖ ^ 2 + damp ^ 2 * ‖(s j).c‖ ^ 2 : ℝ) : K) = 0 := by rw [h0]; simp
    simp only [hden, npDiv, if_pos this, if_pos h0, Prog.throw_bind]
    exact Runs.throw _
  · have hb1 : ¬ ((‖(s j).q‖ ^ 2 + damp ^ 2 * ‖(s j).c‖ ^ 2 : ℝ) : K) = 0 := by
      intro h1; exact h0 (by exact_mod_cast h1)
    have hb2 : (s j).k = 0 := hb.resolve_left h0
    simp only [hden, npDiv, if_neg hb1, if_neg h0, Prog.ret_bind, pyDiv, if_pos hb2, Prog.throw_bind]
    have hx' : ∀ a : ℝ, S.Has ((s j).x + (a : K) • (s j).c) := fun a => has_add h1 (has_smul _ h3)
    have hs' : ∀ a : ℝ, T.Has ((s j).s - (a : K) • (s j).q) := fun a => has_sub h2 (has_smul _ h4)
    refine Runs.bind_ok (runs_fmul_part h.wfS _ h3) ?_
    refine Runs.bind_ok (runs_iadd_part h.wfS h1 (has_smul _ h3)) ?_
    refine Runs.bind_ok (runs_fmul_part h.wfT _ h4) ?_
    refine Runs.bind_ok (runs_isub_part h.wfT h2 (has_smul _ h4)) ?_
    refine Runs.bind_ok (runs_fmul_part h.wfS _ (hx' _)) ?_
    refine Runs.bind_ok (h.rmv.runs (hs' _)) ?_
    refine Runs.bind_ok (runs_sub_part h.wfS (h.rmv.has (hs' _)) (has_smul _ (hx' _))) ?_
    refine Runs.bind_ok (runs_absSelf_part h.wfS h.maskS (has_sub (h.rmv.has (hs' _)) (has_smul _ (hx' _)))) ?_
    exact Runs.throw _

theorem runs_cgls_steps (h : CGLSHyp n J op S T A B y x0) (j : Nat)
    (hb : ∀ i < j, ¬ CGLS.Breaks (damp ^ 2) (CGLS.seq K A B damp (damp ^ 2) y x0 i)) :
    Runs n (fun r => CGLSS.steps (env n J r) (op r) (T.part n y r) (S.part n x0 r) niter damp tol j)
      (fun r => .ok (cglsState S T n y x0 niter damp tol A B j r, S.part n (CGLS.seq K A B damp (damp ^ 2) y x0 j).x r)) := by
  induction j with
  | zero => exact runs_cgls_setup h
  | succ j ih =>
    simp only [CGLSS.steps, Prog.bind_eq]
    exact Runs.bind_ok (ih fun i hi => hb i (by omega)) (cgls_step_ok h j (hb j (by omega)))

theorem runs_cgls_loop (h : CGLSHyp n J op S T A B y x0) {mx : Int} {m : Nat}
    {j₀ : Nat} (hst : Stops (fun i => (CGLS.seq K A B damp (damp ^ 2) y x0 i).k) mx tol j₀ m) (hb : ∀ i < m, ¬ CGLS.Breaks (damp ^ 2) (CGLS.seq K A B damp (damp ^ 2) y x0 i)) :
    ∀ (f j : Nat) (tr : Nat → List (XArr K)), j₀ ≤ j → j ≤ m → (f : Int) = max (mx - j) 0 →
    Runs n (fun r => CGLSS.loop (env n J r) (op r) mx f (cglsState S T n y x0 niter damp tol A B j r) (S.part n (CGLS.seq K A B damp (damp ^ 2) y x0 j).x r) (tr r))
      (fun r => .ok (cglsState S T n y x0 niter damp tol A B m r, S.part n (CGLS.seq K A B damp (damp ^ 2) y x0 m).x r,
        tr r ++ (List.range' (j + 1) (m - j)).map fun i => S.part n (CGLS.seq K A B damp (damp ^ 2) y x0 i).x r)) := by
  intro f
  induction f with
  | zero =>
    intro j tr hj₀ hj hf
    have hmj : m = j := by
      by_contra hne
      have := (hst.2.1 j hj₀ (by omega)).1
      omega
    subst hmj
    refine (Runs.ret _).congr (fun r _ => rfl) fun r _ => ?_
    simp
  | succ f ih =>
    intro j tr hj₀ hj hf
    rcases Nat.lt_or_eq_of_le hj with hlt | rfl
    · have hc := hst.2.1 j hj₀ hlt
      have := Runs.bind_ok (k := fun r p => CGLSS.loop (env n J r) (op r) mx f p.1 p.2 (tr r ++ [p.2])) (cgls_step_ok (J := J) (niter := niter) (tol := tol) h j (hb j hlt))
        (ih (j + 1) (fun r => tr r ++ [S.part n (CGLS.seq K A B damp (damp ^ 2) y x0 (j + 1)).x r]) (by omega) hlt (by omega))
      refine this.congr (fun r _ => ?_) fun r _ => ?_
      · simp only [CGLSS.loop, Prog.bind_eq]
        rw [if_pos]
        exact hc
      · have e : m - j = (m - (j + 1)) + 1 := by omega
        rw [e, List.range'_succ]
        simp
    · refine (Runs.ret _).congr (fun r _ => ?_) fun r _ => by simp; rfl
      simp only [CGLSS.loop]
      rw [if_neg]
      rintro ⟨h1, h2⟩
      rcases hst.2.2 with h3 | h3
      · exact absurd h1 (by simp only [cglsState]; omega)
      · exact absurd h2 (not_lt.2 h3)

theorem runs_cgls_loop_break (h : CGLSHyp n J op S T A B y x0) {mx : Int} {m : Nat}
    {j₀ : Nat} (hst : ∀ j, j₀ ≤ j → j ≤ m → (j : Int) < mx ∧ (CGLS.seq K A B damp (damp ^ 2) y x0 j).k > tol) (hb : ∀ i < m, ¬ CGLS.Breaks (damp ^ 2) (CGLS.seq K A B damp (damp ^ 2) y x0 i))
    (hbm : CGLS.Breaks (damp ^ 2) (CGLS.seq K A B damp (damp ^ 2) y x0 m)) :
    ∀ (f j : Nat) (tr : Nat → List (XArr K)), j₀ ≤ j → j ≤ m → (f : Int) = max (mx - j) 0 →
    Runs n (fun r => CGLSS.loop (env n J r) (op r) mx f (cglsState S T n y x0 niter damp tol A B j r) (S.part n (CGLS.seq K A B damp (damp ^ 2) y x0 j).x r) (tr r))
      (fun _ => .error (if ‖(CGLS.seq K A B damp (damp ^ 2) y x0 m).q‖ ^ 2 + damp ^ 2 * ‖(CGLS.seq K A B damp (damp ^ 2) y x0 m).c‖ ^ 2 = 0 then .nonfinite else .zeroDiv)) := by
  intro f
  induction f with
  | zero =>
    intro j tr hj₀ hj hf
    have := (hst j hj₀ hj).1
    omega
  | succ f ih =>
    intro j tr hj₀ hj hf
    have hc := hst j hj₀ hj
    have hcond : ∀ r, (((cglsState S T n y x0 niter damp tol A B j r).iiter : Int) < mx ∧ (cglsState S T n y x0 niter damp tol A B j r).kold > (cglsState S T n y x0 niter damp tol A B j r).tol) := fun r => hc
    simp only [CGLSS.loop, Prog.bind_eq, if_pos (hcond _)]
    rcases Nat.lt_or_eq_of_le hj with hlt | rfl
    · exact Runs.bind_ok (cgls_step_ok h j (hb j hlt))
        (ih (j + 1) (fun r => tr r ++ [S.part n (CGLS.seq K A B damp (damp ^ 2) y x0 (j + 1)).x r]) (by omega) hlt (by omega))
    · refine Runs.bind (cgls_step_break h j hbm) ?_
      exact Runs.throw _

theorem runs_cgls_run (h : CGLSHyp n J op S T A B y x0) {mx : Int} {niter1 : Option Int} (hn : niter1.or niter = some mx) {j m : Nat}
    (hst : Stops (fun i => (CGLS.seq K A B damp (damp ^ 2) y x0 i).k) mx tol j m) (hb : ∀ i < m, ¬ CGLS.Breaks (damp ^ 2) (CGLS.seq K A B damp (damp ^ 2) y x0 i)) :
    Runs n (fun r => (CGLSS.steps (env n J r) (op r) (T.part n y r) (S.part n x0 r) niter damp tol j).bind fun p => CGLSS.run (env n J r) (op r) p.1 p.2 niter1)
      (fun r => .ok (cglsState S T n y x0 niter damp tol A B m r, S.part n (CGLS.seq K A B damp (damp ^ 2) y x0 m).x r,
        (List.range' (j + 1) (m - j)).map fun i => S.part n (CGLS.seq K A B damp (damp ^ 2) y x0 i).x r)) := by
  refine Runs.bind_ok (runs_cgls_steps h j fun i hi => hb i (by have := hst.1; omega)) ?_
  have := runs_cgls_loop (niter := niter) h hst hb (mx - j).toNat j (fun _ => []) le_rfl hst.1 (by omega)
  refine this.congr (fun r _ => ?_) fun r _ => by simp
  cases niter1 with
  | none =>
    simp only [Option.none_or] at hn
    subst hn
    rfl
  | some v =>
    simp only [Option.some_or, Option.some.injEq] at hn
    subst hn
    rfl

theorem runs_cgls_run_break (h : CGLSHyp n J op S T A B y x0) {mx : Int} {niter1 : Option Int} (hn : niter1.or niter = some mx) {j m : Nat}
    (hst : Hits (fun i => (CGLS.seq K A B damp (damp ^ 2) y x0 i).k) (fun i => CGLS.Breaks (damp ^ 2) (CGLS.seq K A B damp (damp ^ 2) y x0 i)) mx tol j m)
    (hb : ∀ i < m, ¬ CGLS.Breaks (damp ^ 2) (CGLS.seq K A B damp (damp ^ 2) y x0 i)) :
    Runs n (fun r => (CGLSS.steps (env n J r) (op r) (T.part n y r) (S.part n x0 r) niter damp tol j).bind fun p => CGLSS.run (env n J r) (op r) p.1 p.2 niter1)
      (fun _ => .error (if ‖(CGLS.seq K A B damp (damp ^ 2) y x0 m).q‖ ^ 2 + damp ^ 2 * ‖(CGLS.seq K A B damp (damp ^ 2) y x0 m).c‖ ^ 2 = 0 then .nonfinite else .zeroDiv)) := by
  refine Runs.bind_ok (runs_cgls_steps h j fun i hi => hb i (by have := hst.1; omega)) ?_
  have := runs_cgls_loop_break (niter := niter) h hst.2.1 hb hst.2.2 (mx - j).toNat j (fun _ => []) le_rfl hst.1 (by omega)
  refine this.congr (fun r _ => ?_) fun r _ => rfl
  cases niter1 with
  | none =>
    simp only [Option.none_or] at hn
    subst hn
    rfl
  | some v =>
    simp only [Option.some_or, Option.some.injEq] at hn
    subst hn
    rfl

/-- the whole of `cgls` -/
theorem runs_cgls_solve (h : CGLSHyp n J op S T A B y x0) {mx : Int} {m : Nat}
    (hst : Stops (fun i => (CGLS.seq K A B damp (damp ^ 2) y x0 i).k) mx tol 0 m) (hb : ∀ i < m, ¬ CGLS.Breaks (damp ^ 2) (CGLS.seq K A B damp (damp ^ 2) y x0 i)) :
    Runs n (fun r => CGLSS.solve (env n J r) (op r) (T.part n y r) (S.part n x0 r) (some mx) damp tol)
      (fun r => .ok ⟨S.part n (CGLS.seq K A B damp (damp ^ 2) y x0 m).x r, if (CGLS.seq K A B damp (damp ^ 2) y x0 m).k < tol then 1 else 2, m,
        (CGLS.seq K A B damp (damp ^ 2) y x0 m).k, cglsCost1 A B damp y x0 m, (List.range (m + 1)).map fun i => ‖(CGLS.seq K A B damp (damp ^ 2) y x0 i).s‖,
        (List.range' 1 m).map fun i => S.part n (CGLS.seq K A B damp (damp ^ 2) y x0 i).x r⟩) := by
  have h1 := runs_cgls_run (niter := some mx) (niter1 := some mx) h rfl hst hb
  have h2 := Runs.bind_ok (k := fun r q => CGLSS.finalize q.1 q.2.1 q.2.2) h1 (σ := fun r => .ok ⟨S.part n (CGLS.seq K A B damp (damp ^ 2) y x0 m).x r,
        if (CGLS.seq K A B damp (damp ^ 2) y x0 m).k < tol then 1 else 2, m,
        (CGLS.seq K A B damp (damp ^ 2) y x0 m).k, cglsCost1 A B damp y x0 m, (List.range (m + 1)).map fun i => ‖(CGLS.seq K A B damp (damp ^ 2) y x0 i).s‖,
        (List.range' 1 m).map fun i => S.part n (CGLS.seq K A B damp (damp ^ 2) y x0 i).x r⟩) (by
    refine (Runs.ret _).congr (fun r _ => ?_) fun r _ => rfl
    have e : (cglsState S T n y x0 (some mx) damp tol A B m r).cost1[m]? = some (cglsCost1 A B damp y x0 m) := by
      simp [cglsState]
    unfold CGLSS.finalize
    have e' : (cglsState S T n y x0 (some mx) damp tol A B m r).iiter = m := rfl
    rw [e', e]
    simp only [cglsState]
    simp
    congr)
  refine h2.congr (fun r _ => ?_) fun r _ => rfl
  simp only [CGLSS.solve, CGLSS.steps, Prog.bind_eq, Prog.bind_assoc]

theorem runs_cgls_solve_break (h : CGLSHyp n J op S T A B y x0) {mx : Int} {m : Nat}
    (hst : Hits (fun i => (CGLS.seq K A B damp (damp ^ 2) y x0 i).k) (fun i => CGLS.Breaks (damp ^ 2) (CGLS.seq K A B damp (damp ^ 2) y x0 i)) mx tol 0 m)
    (hb : ∀ i < m, ¬ CGLS.Breaks (damp ^ 2) (CGLS.seq K A B damp (damp ^ 2) y x0 i)) :
    Runs n (fun r => CGLSS.solve (env n J r) (op r) (T.part n y r) (S.part n x0 r) (some mx) damp tol)
      (fun _ => .error (if ‖(CGLS.seq K A B damp (damp ^ 2) y x0 m).q‖ ^ 2 + damp ^ 2 * ‖(CGLS.seq K A B damp (damp ^ 2) y x0 m).c‖ ^ 2 = 0 then .nonfinite else .zeroDiv)) := by
  have h1 := runs_cgls_run_break (niter := some mx) (niter1 := some mx) h rfl hst hb
  have h2 := Runs.bind (k := fun r q => CGLSS.finalize q.1 q.2.1 q.2.2) h1 (Runs.throw _)
  refine h2.congr (fun r _ => ?_) fun r _ => rfl
  simp only [CGLSS.solve, CGLSS.steps, Prog.bind_eq, Prog.bind_assoc]

end
end Verif

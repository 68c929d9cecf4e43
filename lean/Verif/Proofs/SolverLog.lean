/- The solvers with `show` make the MPI calls of the solvers without. -/
import Verif.MPI.Follow
import Verif.Spec.SolverLog
import Verif.Proofs.GroupDeadlock

namespace Verif
open NDArray

variable {K : Type}

theorem first_ok {x : XArr K} {v : K} (h : x.Starts v) : x.first = .ok v := by
  obtain ⟨d, hd, k, l, h1, h2⟩ := h
  have : d.first = .ok v := by simp [DArr.first, h1, h2]
  match x, hd with
  | .one _, hd => cases hd; exact this
  | .stack (_ :: _), hd => cases hd; exact this

theorem starts_of_first {x : XArr K} {v : K} (h : x.first = .ok v) : x.Starts v := by
  have key : ∀ d : DArr K, d.first = .ok v → ∃ k l, d.larr.shape = [k + 1] ∧ d.larr.data = v :: l := fun d h => by
    unfold DArr.first at h
    split at h
    · cases h
    · cases h
    · rename_i k h0 e
      split at h
      · rename_i w hw
        cases h
        obtain ⟨l, hl⟩ : ∃ l, d.larr.data = v :: l := by
          cases hd : d.larr.data with
          | nil => rw [hd] at hw; cases hw
          | cons a l => rw [hd] at hw; cases hw; exact ⟨l, rfl⟩
        cases k with
        | zero => exact absurd rfl h0
        | succ k => exact ⟨k, l, e, hl⟩
      · cases h
    · cases h
  match x, h with
  | .one d, h => exact ⟨d, rfl, key d h⟩
  | .stack (d :: l), h => exact ⟨d, rfl, key d h⟩

theorem printSetup_ok {x : XArr K} (h : x.SameShapes) : x.printSetup = .ok () := by
  match x, h with
  | .one _, _ => rfl
  | .stack [], _ => rfl
  | .stack (d :: l), h =>
    have : (l.all fun e => decide (e.larr.shape = d.larr.shape)) = true := by
      rw [List.all_eq_true]
      intro e he
      simp [h e (by simp [he]) d (by simp)]
    simp only [XArr.printSetup]
    rw [if_pos this]

theorem printSetup_error {x : XArr K} (h : ¬ x.SameShapes) : x.printSetup = .error .value := by
  match x, h with
  | .one _, h => exact absurd trivial h
  | .stack [], h => exact absurd (by intro d hd; cases hd) h
  | .stack (d :: l), h =>
    have : ¬ (l.all fun e => decide (e.larr.shape = d.larr.shape)) = true := by
      intro ha
      rw [List.all_eq_true] at ha
      have : ∀ e ∈ d :: l, e.larr.shape = d.larr.shape := fun e he => by
        rcases List.mem_cons.1 he with rfl | he
        · rfl
        · simpa using ha e he
      exact h fun a ha b hb => (this a ha).trans (this b hb).symm
    simp only [XArr.printSetup]
    rw [if_neg this]

theorem showStep_ok {it : IterShow} {mx : Int} {i : Nat} (he : it.Decided mx i) : showStep true it mx i = .ok (decide (Shown it mx i)) := by
  unfold showStep Shown
  rw [if_neg (by simp)]
  split_ifs with h1 h2 h3
  · simp [h1]
  · simp [h2]
  · exact absurd he (by simp [IterShow.Decided, h1, h2, h3])
  · congr 1
    refine decide_eq_decide.2 ?_
    rw [← Int.dvd_iff_fmod_eq_zero]
    exact ⟨fun h => .inr (.inr h), fun h => h.resolve_left h1 |>.resolve_left h2⟩

theorem showStep_error {it : IterShow} {mx : Int} {i : Nat} (he : ¬ it.Decided mx i) : showStep true it mx i = .error .zeroDiv := by
  unfold IterShow.Decided at he
  push Not at he
  unfold showStep
  rw [if_neg (by simp), if_neg (by omega), if_neg (by omega), if_pos he.1]

theorem forall₂_imp_mem {α β : Type} {R S : α → β → Prop} {l : List α} {m : List β} (h : List.Forall₂ R l m) (hi : ∀ a ∈ l, ∀ b, R a b → S a b) : List.Forall₂ S l m := by
  induction h with
  | nil => exact .nil
  | cons h _ ih => exact .cons (hi _ (by simp) _ h) (ih fun a ha => hi a (by simp [ha]))

/-- the log after one more iteration -/
theorem IsLog.snoc {it : IterShow} {mx : Int} {tr : List (XArr K)} {cost : List ℝ} {cost1 : Option (List FNum)} {log : List (LogLine K)} (h : IsLog it mx tr cost cost1 log)
    {x : XArr K} {k : List ℝ} {k1 : List FNum} {l : List (LogLine K)}
    (hl : List.Forall₂ (fun (i : Nat) (l : LogLine K) => l.iiter = i + 1 ∧ x.Starts l.x0 ∧ (cost ++ k)[i + 1]? = some l.cost ∧ ((cost1.map (· ++ k1)).bind fun c => c[i + 1]?) = l.cost1)
      (if Shown it mx tr.length then [tr.length] else []) l) (hc1 : ∀ c ∈ cost1, c.length = tr.length + 1) :
    IsLog it mx (tr ++ [x]) (cost ++ k) (cost1.map (· ++ k1)) (log ++ l) := by
  unfold IsLog
  rw [List.length_append, List.length_singleton, List.range_succ, List.filter_append]
  refine List.rel_append (forall₂_imp_mem h fun i hi l hl => ?_) ?_
  · have hi : i < tr.length := by simpa using (List.mem_filter.1 hi).1
    obtain ⟨h1, ⟨y, h2, h3⟩, h4, h5⟩ := hl
    refine ⟨h1, ⟨y, ?_, h3⟩, ?_, ?_⟩
    · rw [List.getElem?_append_left hi, h2]
    · rw [List.getElem?_append_left (List.getElem?_eq_some_iff.1 h4).1, h4]
    · cases cost1 with
      | none => exact h5
      | some c =>
        have := hc1 c rfl
        show (c ++ k1)[i + 1]? = _
        rw [List.getElem?_append_left (by omega)]
        exact h5
  · have e : (List.filter (fun i => decide (Shown it mx i)) [tr.length]) = if Shown it mx tr.length then [tr.length] else [] := by
      by_cases h : Shown it mx tr.length <;> simp [h]
    rw [e]
    refine forall₂_imp_mem hl fun i hi l h => ?_
    have : i = tr.length := by
      by_cases hs : Shown it mx tr.length <;> simp [hs] at hi
      exact hi
    subst this
    exact ⟨h.1, ⟨x, by simp, h.2.1⟩, h.2.2⟩

/-! ### programs -/

section
variable {M α β : Type}

theorem Always.bind_inv {n : Nat} {ps : Nat → Prog M α} {a : Nat → α} {k : Nat → α → Prog M β} {ρ : Nat → Except Err β} (h : Always n ps (fun r => .ok (a r)))
    (h2 : Always n (fun r => (ps r).bind (k r)) ρ) : Always n (fun r => k r (a r)) ρ := by
  obtain ⟨fs, hs, he⟩ := h.runs
  exact (Always.after (steps_bind hs k) h2).congr_prog fun r hr => by rw [he r hr]; rfl

end

variable [RCLike K]

theorem cg_setup_yields (c : Ctx K) (op : XOp K) (y x0 : XArr K) (niter : Option Int) (tol : ℝ) :
    Yields (fun p => p.1.iiter = 0 ∧ p.1.cost.length = 1) (CGS.setup c op y x0 niter tol) := by
  unfold CGS.setup
  simp only [Prog.bind_eq]
  repeat refine Yields.after fun _ => ?_
  exact .ret ⟨rfl, rfl⟩

theorem cg_step_yields (c : Ctx K) (op : XOp K) (s : CGS K) (x : XArr K) :
    Yields (fun p => p.1.iiter = s.iiter + 1 ∧ ∃ v, p.1.cost = s.cost ++ [v]) (CGS.step c op s x) := by
  unfold CGS.step
  simp only [Prog.bind_eq]
  repeat refine Yields.after fun _ => ?_
  exact .ret ⟨rfl, _, rfl⟩

theorem cg_loop_yields (c : Ctx K) (op : XOp K) (mx : Int) : ∀ (f : Nat) (s : CGS K) (x : XArr K) (tr : List (XArr K)),
    Yields (fun p => tr <+: p.2.2) (CGS.loop c op mx f s x tr)
  | 0, s, x, tr => .ret (List.prefix_refl _)
  | f + 1, s, x, tr => by
    unfold CGS.loop
    split
    · simp only [Prog.bind_eq]
      exact Yields.after fun p => (cg_loop_yields c op mx f p.1 p.2 _).mono fun _ h => (List.prefix_append _ _).trans h
    · exact .ret (List.prefix_refl _)

/-- the shown iterates can be found out and printed -/
def CanShow (c : Ctx K) (it : IterShow) (mx : Int) (tr : List (XArr K)) : Prop :=
  (∀ i < tr.length, it.Decided mx i) ∧ (c.rank = 0 → ∀ i, Shown it mx i → ∀ x, tr[i]? = some x → ∃ v, x.Starts v)

theorem first_not {x : XArr K} (h : ¬ ∃ v, x.Starts v) : ∃ e, x.first = .error e := by
  cases hx : x.first with
  | error e => exact ⟨e, rfl⟩
  | ok v => exact absurd ⟨v, starts_of_first hx⟩ h

theorem cannot_show {c : Ctx K} {it : IterShow} {mx : Int} {tr l : List (XArr K)} {x : XArr K} (hr : c.rank = 0) (hs : Shown it mx tr.length) (hx : ¬ ∃ v, x.Starts v)
    (hl : tr ++ [x] <+: l) : ¬ CanShow c it mx l := fun h => by
  obtain ⟨l', rfl⟩ := hl
  exact hx (h.2 hr tr.length hs x (by simp))

theorem cannot_decide {c : Ctx K} {it : IterShow} {mx : Int} {tr l : List (XArr K)} {x : XArr K} (hs : ¬ it.Decided mx tr.length)
    (hl : tr ++ [x] <+: l) : ¬ CanShow c it mx l := fun h => by
  obtain ⟨l', rfl⟩ := hl
  exact hs (h.1 tr.length (by simp))

theorem cg_loop_follows (c : Ctx K) (it : IterShow) (op : XOp K) (mx : Int) : ∀ (f : Nat) (s : CGS K) (x : XArr K) (tr : List (XArr K)) (log : List (LogLine K)),
    s.iiter = tr.length → s.cost.length = tr.length + 1 → (if c.rank = 0 then IsLog it mx tr s.cost none log else log = []) →
    Follows (fun p => CanShow c it mx p.2.2) (fun p q => q.1 = p ∧ if c.rank = 0 then IsLog it mx p.2.2 p.1.cost none q.2 else q.2 = [])
      (CGS.loop c op mx f s x tr) (CGS.loopShow c true it op mx f s x tr log)
  | 0, s, x, tr, log, h1, h2, h3 => .ret fun _ => ⟨_, rfl, rfl, h3⟩
  | f + 1, s, x, tr, log, h1, h2, h3 => by
    unfold CGS.loop CGS.loopShow
    by_cases hc : (s.iiter : Int) < mx ∧ s.kold > s.tol
    · by_cases he : it.Decided mx s.iiter
      swap
      · rw [if_pos hc]
        simp only [Prog.bind_eq]
        rw [h1] at he
        exact .dead (Yields.after fun p => (cg_loop_yields c op mx f p.1 p.2 _).mono fun q hq => cannot_decide he hq)
      rw [if_pos hc, if_pos hc, showStep_ok he]
      simp only [Prog.bind_eq, Prog.lift_ok, Prog.ret_bind, CGS.stepShow, Prog.bind_assoc]
      refine Follows.bind (cg_step_yields c op s x) fun p ⟨hp1, v, hp2⟩ => ?_
      have hlen : p.1.iiter = (tr ++ [p.2]).length := by simp [hp1, h1]
      have hlen2 : p.1.cost.length = (tr ++ [p.2]).length + 1 := by simp [hp2, h2]
      have hcost : p.1.cost[p.1.iiter]? = some v := by
        rw [hp2, hp1, h1, ← h2]; simp
      by_cases hr : c.rank = 0
      · rw [if_pos hr] at h3
        by_cases hs : Shown it mx s.iiter
        · rw [if_pos ⟨by simpa using hs, hr⟩]
          rw [h1] at hs
          by_cases hx : ∃ v, p.2.Starts v
          · obtain ⟨w, hw⟩ := hx
            simp only [CGS.printStep, first_ok hw, hcost, Prog.lift_ok, Prog.ret_bind]
            refine cg_loop_follows c it op mx f p.1 p.2 _ _ hlen hlen2 ?_
            rw [if_pos hr, hp2]
            refine IsLog.snoc (cost1 := none) (k1 := []) h3 ?_ (by simp)
            rw [if_pos hs]
            refine .cons ⟨hlen.trans (by simp), hw, ?_, rfl⟩ .nil
            rw [← h2]; simp
          · obtain ⟨e, he⟩ := first_not hx
            simp only [CGS.printStep, he, Prog.lift_error, Prog.throw_bind]
            exact .dead ((cg_loop_yields c op mx f p.1 p.2 _).mono fun q hq => cannot_show hr hs hx hq)
        · rw [if_neg (fun h => hs (by simpa using h.1))]
          rw [h1] at hs
          simp only [Prog.ret_bind]
          refine cg_loop_follows c it op mx f p.1 p.2 _ _ hlen hlen2 ?_
          rw [if_pos hr, hp2]
          refine IsLog.snoc (cost1 := none) (k1 := []) h3 ?_ (by simp)
          rw [if_neg hs]
          exact .nil
      · rw [if_neg hr] at h3
        rw [if_neg (fun h => hr h.2)]
        simp only [Prog.ret_bind]
        refine cg_loop_follows c it op mx f p.1 p.2 _ _ hlen hlen2 ?_
        rw [if_neg hr, h3]; rfl
    · rw [if_neg hc, if_neg hc]
      exact .ret fun _ => ⟨_, rfl, rfl, h3⟩

/-! ### CGLS -/

theorem cgls_setup_yields (c : Ctx K) (op : XOp K) (y x0 : XArr K) (niter : Option Int) (damp tol : ℝ) :
    Yields (fun p => p.1.iiter = 0 ∧ p.1.cost.length = 1 ∧ p.1.cost1.length = 1) (CGLSS.setup c op y x0 niter damp tol) := by
  unfold CGLSS.setup
  simp only [Prog.bind_eq]
  repeat refine Yields.after fun _ => ?_
  exact .ret ⟨rfl, rfl, rfl⟩

theorem cgls_step_yields (c : Ctx K) (op : XOp K) (s : CGLSS K) (x : XArr K) :
    Yields (fun p => p.1.iiter = s.iiter + 1 ∧ ∃ v v1, p.1.cost = s.cost ++ [v] ∧ p.1.cost1 = s.cost1 ++ [v1]) (CGLSS.step c op s x) := by
  unfold CGLSS.step
  simp only [Prog.bind_eq]
  repeat refine Yields.after fun _ => ?_
  exact .ret ⟨rfl, _, _, rfl, rfl⟩

theorem cgls_loop_yields (c : Ctx K) (op : XOp K) (mx : Int) : ∀ (f : Nat) (s : CGLSS K) (x : XArr K) (tr : List (XArr K)),
    Yields (fun p => tr <+: p.2.2) (CGLSS.loop c op mx f s x tr)
  | 0, s, x, tr => .ret (List.prefix_refl _)
  | f + 1, s, x, tr => by
    unfold CGLSS.loop
    split
    · simp only [Prog.bind_eq]
      exact Yields.after fun p => (cgls_loop_yields c op mx f p.1 p.2 _).mono fun _ h => (List.prefix_append _ _).trans h
    · exact .ret (List.prefix_refl _)

theorem cgls_loop_follows (c : Ctx K) (it : IterShow) (op : XOp K) (mx : Int) : ∀ (f : Nat) (s : CGLSS K) (x : XArr K) (tr : List (XArr K)) (log : List (LogLine K)),
    s.iiter = tr.length → s.cost.length = tr.length + 1 → s.cost1.length = tr.length + 1 → (if c.rank = 0 then IsLog it mx tr s.cost (some s.cost1) log else log = []) →
    Follows (fun p => CanShow c it mx p.2.2) (fun p q => q.1 = p ∧ if c.rank = 0 then IsLog it mx p.2.2 p.1.cost (some p.1.cost1) q.2 else q.2 = [])
      (CGLSS.loop c op mx f s x tr) (CGLSS.loopShow c true it op mx f s x tr log)
  | 0, s, x, tr, log, h1, h2, h2', h3 => .ret fun _ => ⟨_, rfl, rfl, h3⟩
  | f + 1, s, x, tr, log, h1, h2, h2', h3 => by
    unfold CGLSS.loop CGLSS.loopShow
    by_cases hc : (s.iiter : Int) < mx ∧ s.kold > s.tol
    · by_cases he : it.Decided mx s.iiter
      swap
      · rw [if_pos hc]
        simp only [Prog.bind_eq]
        rw [h1] at he
        exact .dead (Yields.after fun p => (cgls_loop_yields c op mx f p.1 p.2 _).mono fun q hq => cannot_decide he hq)
      rw [if_pos hc, if_pos hc, showStep_ok he]
      simp only [Prog.bind_eq, Prog.lift_ok, Prog.ret_bind, CGLSS.stepShow, Prog.bind_assoc]
      refine Follows.bind (cgls_step_yields c op s x) fun p ⟨hp1, v, v1, hp2, hp2'⟩ => ?_
      have hlen : p.1.iiter = (tr ++ [p.2]).length := by simp [hp1, h1]
      have hlen2 : p.1.cost.length = (tr ++ [p.2]).length + 1 := by simp [hp2, h2]
      have hlen2' : p.1.cost1.length = (tr ++ [p.2]).length + 1 := by simp [hp2', h2']
      have hcost : p.1.cost[p.1.iiter]? = some v := by
        rw [hp2, hp1, h1, ← h2]; simp
      have hcost1 : p.1.cost1[p.1.iiter]? = some v1 := by
        rw [hp2', hp1, h1, ← h2']; simp
      by_cases hr : c.rank = 0
      · rw [if_pos hr] at h3
        by_cases hs : Shown it mx s.iiter
        · rw [if_pos ⟨by simpa using hs, hr⟩]
          rw [h1] at hs
          by_cases hx : ∃ v, p.2.Starts v
          · obtain ⟨w, hw⟩ := hx
            simp only [CGLSS.printStep, first_ok hw, hcost, hcost1, Prog.lift_ok, Prog.ret_bind]
            refine cgls_loop_follows c it op mx f p.1 p.2 _ _ hlen hlen2 hlen2' ?_
            rw [if_pos hr, hp2, hp2']
            refine IsLog.snoc (cost1 := some s.cost1) (k1 := [v1]) h3 ?_ (by simp [h2'])
            rw [if_pos hs]
            refine .cons ⟨hlen.trans (by simp), hw, ?_, ?_⟩ .nil
            · rw [← h2]; simp
            · show (s.cost1 ++ [v1])[tr.length + 1]? = some v1
              rw [← h2']; simp
          · obtain ⟨e, he⟩ := first_not hx
            simp only [CGLSS.printStep, he, Prog.lift_error, Prog.throw_bind]
            exact .dead ((cgls_loop_yields c op mx f p.1 p.2 _).mono fun q hq => cannot_show hr hs hx hq)
        · rw [if_neg (fun h => hs (by simpa using h.1))]
          rw [h1] at hs
          simp only [Prog.ret_bind]
          refine cgls_loop_follows c it op mx f p.1 p.2 _ _ hlen hlen2 hlen2' ?_
          rw [if_pos hr, hp2, hp2']
          refine IsLog.snoc (cost1 := some s.cost1) (k1 := [v1]) h3 ?_ (by simp [h2'])
          rw [if_neg hs]
          exact .nil
      · rw [if_neg hr] at h3
        rw [if_neg (fun h => hr h.2)]
        simp only [Prog.ret_bind]
        refine cgls_loop_follows c it op mx f p.1 p.2 _ _ hlen hlen2 hlen2' ?_
        rw [if_neg hr, h3]; rfl
    · rw [if_neg hc, if_neg hc]
      exact .ret fun _ => ⟨_, rfl, rfl, h3⟩

end Verif

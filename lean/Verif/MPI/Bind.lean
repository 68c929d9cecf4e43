/- Sequencing of executions: `Always` is closed under running a prefix, and failures of a prefix are failures of the whole. -/
import Verif.MPI.Partial

namespace Verif
open Function Relation

variable {M α β : Type}

theorem RunN.trans {n k m} {s s' s'' : St M α} (h : RunN n k s s') (h2 : RunN n m s' s'') : RunN n (k + m) s s'' := by
  induction h2 with
  | zero => exact h
  | succ _ h3 ih => exact .succ (ih h) h3

/-- Without buffered messages the only steps that do not buffer are those of `SStep`. -/
theorem NBStep.sstep {n} {ps : Nat → Prog M α} {s'} (h : NBStep n (St.init ps) s') : ∃ qs, s' = St.init qs ∧ SStep n ps qs := by
  obtain ⟨l, h, hl⟩ := h
  cases h with
  | snd hi hj hp => exact absurd rfl (hl _)
  | rcv hj hp hc => exact absurd hc (by simp [St.init])
  | rdv hi hj hp hq hc => exact ⟨_, rfl, .rdv hi hj hp hq⟩
  | col hne hlt hp => exact ⟨_, rfl, .col hne hlt hp⟩

/-- `Always` is equivalent to the existence of a single terminating execution without buffering. -/
theorem Always.runs {n} {ps : Nat → Prog M α} {ρ} (h : Always n ps ρ) : Runs n ps ρ := by
  obtain ⟨B, hB⟩ := h.terminates
  have key : ∀ m k qs, m + k = B + 1 → RunN n k (St.init ps) (St.init qs) → ReflTransGen (SStep n) ps qs → Runs n ps ρ := by
    intro m
    induction m with
    | zero =>
      intro k qs hk h1 _
      have := hB k _ h1
      omega
    | succ m ih =>
      intro k qs hk h1 h2
      rcases h.progress _ h1.run with h3 | ⟨s', h3⟩
      · exact ⟨qs, h2, h3⟩
      · obtain ⟨qs', rfl, h4⟩ := h3.sstep
        exact ih (k + 1) qs' (by omega) (.succ h1 ⟨_, h4.nb.choose_spec.1⟩) (h2.tail h4)
  exact key (B + 1) 0 ps (by omega) .zero .refl

theorem Always.of_steps {n} {ps qs : Nat → Prog M α} {ρ} (h : ReflTransGen (SStep n) ps qs) (h2 : Always n qs ρ) : Always n ps ρ :=
  (Runs.of_steps h h2.runs).always

theorem Always.after {n} {ps qs : Nat → Prog M α} {ρ} (h : ReflTransGen (SStep n) ps qs) (h2 : Always n ps ρ) : Always n qs ρ := by
  have hr := (SStep.nbRun h).run
  obtain ⟨k, hk⟩ := Run.runN hr
  obtain ⟨B, hB⟩ := h2.terminates
  exact ⟨⟨B, fun m s hm => Nat.le_trans (Nat.le_add_left m k) (hB _ _ (hk.trans hm))⟩,
    fun s h3 h4 => h2.outcome s (hr.trans h3) h4, fun s h3 => h2.progress s (hr.trans h3)⟩

/-- replace equal programs -/
theorem Always.congr_prog {n} {ps qs : Nat → Prog M α} {ρ} (h : Always n ps ρ) (e : ∀ r < n, ps r = qs r) : Always n qs ρ :=
  (h.runs.congr e fun _ _ => rfl).always

def St.bind (s : St M α) (k : Nat → α → Prog M β) : St M β := ⟨fun r => (s.prog r).bind (k r), s.chan⟩

theorem Step.bind {n} {s s' : St M α} (k : Nat → α → Prog M β) (h : Step n s s') : Step n (s.bind k) (s'.bind k) := by
  obtain ⟨l, h⟩ := h
  have e : ∀ (f : Nat → Prog M α) (i : Nat) (p : Prog M α),
      (fun r => (update f i p r).bind (k r)) = update (fun r => (f r).bind (k r)) i (p.bind (k i)) := by
    intro f i p
    funext r
    by_cases hr : r = i
    · subst hr; simp
    · simp [update_of_ne hr]
  cases h with
  | @snd i j t v c hi hj hp =>
    have := LStep.snd (n := n) (s := s.bind k) (i := i) (j := j) (t := t) (v := v) (k := c.bind (k i)) hi hj (by simp [St.bind, hp, Prog.bind])
    exact ⟨_, by simpa only [St.bind, e] using this⟩
  | @rcv i j t v vs c hj hp hc =>
    have := LStep.rcv (n := n) (s := s.bind k) (i := i) (j := j) (t := t) (v := v) (vs := vs) (k := fun m => (c m).bind (k j)) hj
      (by simp [St.bind, hp, Prog.bind]) hc
    exact ⟨_, by simpa only [St.bind, e] using this⟩
  | @rdv i j t v c c' hi hj hp hq hc =>
    have := LStep.rdv (n := n) (s := s.bind k) (i := i) (j := j) (t := t) (v := v) (k := c.bind (k i)) (k' := fun m => (c' m).bind (k j)) hi hj
      (by simp [St.bind, hp, Prog.bind]) (by simp [St.bind, hq, Prog.bind]) hc
    exact ⟨_, by simpa only [St.bind, e] using this⟩
  | @col c kind v kk hne hlt hp =>
    have := LStep.col (n := n) (s := s.bind k) (c := c) (kind := kind) (v := v) (kk := fun r m => (kk r m).bind (k r)) hne hlt
      (fun r hr => by simp [St.bind, hp r hr, Prog.bind])
    refine ⟨.col c, ?_⟩
    convert this using 2
    · funext r
      dsimp only [St.bind]
      split_ifs <;> rfl
    · rfl

theorem Run.bind {n} {s s' : St M α} (k : Nat → α → Prog M β) (h : Run n s s') : Run n (s.bind k) (s'.bind k) := by
  induction h with
  | refl => exact .refl
  | tail _ h2 ih => exact ReflTransGen.tail ih (h2.bind k)

theorem RankEnds.bind_error {n} {ps : Nat → Prog M α} {r e} (h : RankEnds n ps r (.error e)) (k : Nat → α → Prog M β) :
    RankEnds n (fun r => (ps r).bind (k r)) r (.error e) := by
  obtain ⟨⟨s', h1, h2⟩, _⟩ := h _ .refl
  have h3 := h1.bind k
  refine RankEnds.of_run (f := s'.bind k) h3 ?_
  simp only [St.bind, h2]
  rfl

theorem RankEnds.before {n} {ps qs : Nat → Prog M α} {r o} (h : ReflTransGen (SStep n) ps qs) (h2 : RankEnds n qs r o) : RankEnds n ps r o := by
  obtain ⟨⟨s', h1, h3⟩, _⟩ := h2 _ .refl
  exact RankEnds.of_run ((SStep.nbRun h).run.trans h1) h3

theorem RankEnds.congr_prog {n} {ps qs : Nat → Prog M α} {r o} (h : RankEnds n ps r o) (e : ∀ r < n, ps r = qs r)
    (hr : r < n) : RankEnds n qs r o := by
  obtain ⟨⟨s', h1, h3⟩, _⟩ := h _ .refl
  have key : ∀ {s t : St M α}, Run n s t → ∀ s0 : St M α, (∀ r < n, s.prog r = s0.prog r) → s.chan = s0.chan →
      ∃ t0 : St M α, Run n s0 t0 ∧ (∀ r < n, t.prog r = t0.prog r) ∧ t.chan = t0.chan := by
    intro s t hst
    induction hst with
    | refl => exact fun s0 h1 h2 => ⟨s0, .refl, h1, h2⟩
    | tail _ h4 ih =>
      intro s0 h1 h2
      obtain ⟨t0, h5, h6, h7⟩ := ih s0 h1 h2
      obtain ⟨l, h4⟩ := h4
      have hu : ∀ {f g : Nat → Prog M α} (i : Nat) (p : Prog M α), (∀ r < n, f r = g r) → ∀ r < n, update f i p r = update g i p r := by
        intro f g i p h r hr
        simp only [update_apply, h r hr]
      cases h4 with
      | snd hi hj hp =>
        exact ⟨_, h5.tail ⟨_, .snd hi hj (by rw [← h6 _ hi]; exact hp)⟩, hu _ _ h6, by simp [h7]⟩
      | rcv hj hp hc =>
        exact ⟨_, h5.tail ⟨_, .rcv hj (by rw [← h6 _ hj]; exact hp) (by rw [← h7]; exact hc)⟩, hu _ _ h6, by simp [h7]⟩
      | rdv hi hj hp hq hc =>
        exact ⟨_, h5.tail ⟨_, .rdv hi hj (by rw [← h6 _ hi]; exact hp) (by rw [← h6 _ hj]; exact hq) (by rw [← h7]; exact hc)⟩,
          hu _ _ (hu _ _ h6), h7⟩
      | col hne hlt hp =>
        exact ⟨_, h5.tail ⟨_, .col hne hlt (fun r hr => by rw [← h6 _ (hlt r hr)]; exact hp r hr)⟩,
          fun r hr => by dsimp only; rw [h6 r hr], h7⟩
  obtain ⟨t0, h5, h6, _⟩ := key h1 (St.init qs) e rfl
  exact RankEnds.of_run h5 (by rw [← h6 r hr]; exact h3)

end Verif

/-
  Executions that need not succeed: what can be said when some ranks raise an exception or wait
  forever.
-/
import Verif.MPI.Runs

namespace Verif
open Function Relation

variable {M α β : Type}

/-- A rank has terminated. -/
def Prog.Term (p : Prog M α) : Prop := ∃ o, p = Prog.lift o

theorem Prog.lift_injective {o o' : Except Err α} (h : (Prog.lift o : Prog M α) = Prog.lift o') : o = o' := by
  cases o <;> cases o' <;> simp [Prog.lift] at h <;> simp [h]

theorem Step.term {n} {s s' : St M α} (h : Step n s s') {r : Nat} {o} (hr : s.prog r = Prog.lift o) :
    s'.prog r = Prog.lift o := by
  have ne : ∀ {p : Prog M α}, s.prog r = p → p = Prog.lift o := fun h => by rw [← h, hr]
  obtain ⟨l, h⟩ := h
  cases h with
  | @snd i j t v k hi hj hp =>
    by_cases e : r = i
    · subst e; have := ne hp; cases o <;> simp [Prog.lift] at this
    · simpa [update_of_ne e] using hr
  | @rcv i j t v vs k hj hp hc =>
    by_cases e : r = j
    · subst e; have := ne hp; cases o <;> simp [Prog.lift] at this
    · simpa [update_of_ne e] using hr
  | @rdv i j t v k k' hi hj hp hq hc =>
    by_cases e : r = j
    · subst e; have := ne hq; cases o <;> simp [Prog.lift] at this
    · by_cases e' : r = i
      · subst e'; have := ne hp; cases o <;> simp [Prog.lift] at this
      · simpa [update_of_ne e, update_of_ne e'] using hr
  | @col c kind v kk hne hlt hp =>
    by_cases e : r ∈ c
    · have := ne (hp r e); cases o <;> simp [Prog.lift] at this
    · simpa [e] using hr

/-- Terminated ranks stay terminated. -/
theorem Run.term {n} {s s' : St M α} (h : Run n s s') {r : Nat} {o} (hr : s.prog r = Prog.lift o) :
    s'.prog r = Prog.lift o := by
  induction h with
  | refl => exact hr
  | tail _ h2 ih => exact h2.term ih

/-- `RankEnds n ps r o`: whatever happened so far, rank `r` can still only terminate with outcome
    `o`, and there is a continuation in which it does. -/
def RankEnds (n : Nat) (ps : Nat → Prog M α) (r : Nat) (o : Except Err α) : Prop :=
  ∀ s, Run n (St.init ps) s →
    (∃ s', Run n s s' ∧ s'.prog r = Prog.lift o) ∧ ∀ o', s.prog r = Prog.lift o' → o' = o

theorem RankEnds.of_run {n} {ps : Nat → Prog M α} {r o} {f : St M α} (h : Run n (St.init ps) f)
    (hr : f.prog r = Prog.lift o) : RankEnds n ps r o := by
  intro s hs
  obtain ⟨d, h1, h2⟩ := h.confluent hs
  refine ⟨⟨d, h2, h1.term hr⟩, fun o' ho' => ?_⟩
  have e1 := h1.term hr
  have e2 := h2.term ho'
  rw [e1] at e2
  exact (Prog.lift_injective e2).symm

theorem RankEnds.of_steps {n} {ps qs : Nat → Prog M α} {r o} (h : ReflTransGen (SStep n) ps qs)
    (hr : qs r = Prog.lift o) : RankEnds n ps r o :=
  RankEnds.of_run (SStep.nbRun h).run hr

/-- A run in which all ranks return values. -/
def Completes (n : Nat) (ps : Nat → Prog M α) (σ : Nat → α) : Prop :=
  ∃ s, Run n (St.init ps) s ∧ ∀ r < n, s.prog r = .ret (σ r)

/-- Some rank raises an exception. -/
def Fails (n : Nat) (ps : Nat → Prog M α) : Prop :=
  ∃ qs, ReflTransGen (SStep n) ps qs ∧ ∃ r < n, ∃ e, qs r = .throw e

theorem Fails.not_completes {n} {ps : Nat → Prog M α} {σ} (h : Fails n ps) : ¬ Completes n ps σ := by
  obtain ⟨qs, h, r, hr, e, he⟩ := h
  rintro ⟨s, h1, h2⟩
  have := (RankEnds.of_steps (o := .error e) h he s h1).2 (.ok (σ r)) (h2 r hr)
  simp at this

theorem Runs.completes {n} {ps : Nat → Prog M α} {a σ : Nat → α} (h : Runs n ps fun r => .ok (a r))
    (h2 : Completes n ps σ) : ∀ r < n, σ r = a r := by
  obtain ⟨s, h1, h2⟩ := h2
  intro r hr
  obtain ⟨qs, h, hf⟩ := h
  have := (RankEnds.of_steps h (hf r hr) s h1).2 (.ok (σ r)) (h2 r hr)
  simpa using this

theorem Runs.to_completes {n} {ps : Nat → Prog M α} {a : Nat → α} (h : Runs n ps fun r => .ok (a r)) :
    Completes n ps a := by
  obtain ⟨qs, h, hf⟩ := h
  exact ⟨_, (SStep.nbRun h).run, fun r hr => hf r hr⟩

theorem Fails.of_throw {n} {ps : Nat → Prog M α} {r e} (hr : r < n) (h : ps r = .throw e) : Fails n ps :=
  ⟨ps, .refl, r, hr, e, h⟩

theorem Fails.bind {n} {ps : Nat → Prog M α} (k : Nat → α → Prog M β) (h : Fails n ps) :
    Fails n (fun r => (ps r).bind (k r)) := by
  obtain ⟨qs, h, r, hr, e, he⟩ := h
  refine ⟨fun r => (qs r).bind (k r), ?_, r, hr, e, by dsimp only; rw [he]; rfl⟩
  clear he
  induction h with
  | refl => exact .refl
  | tail _ h2 ih => exact ih.tail (h2.bind k)

theorem Runs.bind_steps {n} {ps : Nat → Prog M α} {a : Nat → α} (h : Runs n ps fun r => .ok (a r))
    (k : Nat → α → Prog M β) : ∃ qs, ReflTransGen (SStep n) (fun r => (ps r).bind (k r)) qs ∧
      ∀ r < n, qs r = k r (a r) := by
  obtain ⟨qs, h, hf⟩ := h
  refine ⟨fun r => (qs r).bind (k r), ?_, fun r hr => by dsimp only; rw [hf r hr]; rfl⟩
  clear hf
  induction h with
  | refl => exact .refl
  | tail _ h2 ih => exact ih.tail (h2.bind k)

theorem steps_congr {n} {ps ps' qs : Nat → Prog M α} (h : ReflTransGen (SStep n) ps qs)
    (he : ∀ r < n, ps r = ps' r) : ∃ qs', ReflTransGen (SStep n) ps' qs' ∧ ∀ r < n, qs r = qs' r := by
  induction h with
  | refl => exact ⟨ps', .refl, he⟩
  | tail _ h2 ih =>
    obtain ⟨q1, h3, h4⟩ := ih
    obtain ⟨q2, h5, h6⟩ := h2.congr h4
    exact ⟨q2, h3.tail h5, h6⟩

theorem Fails.congr {n} {ps ps' : Nat → Prog M α} (h : Fails n ps) (he : ∀ r < n, ps r = ps' r) :
    Fails n ps' := by
  obtain ⟨qs, h, r, hr, e, h1⟩ := h
  obtain ⟨qs', h2, h3⟩ := steps_congr h he
  exact ⟨qs', h2, r, hr, e, by rw [← h3 r hr, h1]⟩

theorem Fails.of_steps {n} {ps qs : Nat → Prog M α} (h : ReflTransGen (SStep n) ps qs)
    (h2 : Fails n qs) : Fails n ps := by
  obtain ⟨q, h3, h4⟩ := h2
  exact ⟨q, h.trans h3, h4⟩

theorem Fails.bind_ok {n} {ps : Nat → Prog M α} {a : Nat → α} {k : Nat → α → Prog M β}
    (h : Runs n ps fun r => .ok (a r)) (h2 : Fails n fun r => k r (a r)) :
    Fails n (fun r => (ps r).bind (k r)) := by
  obtain ⟨qs, h3, h4⟩ := h.bind_steps k
  exact (h2.congr fun r hr => (h4 r hr).symm).of_steps h3

/-! ### Deadlock -/

/-- `Ends n ps out`: every execution is finite, and when nothing more can happen rank `r` has
    terminated with outcome `o` if `out r = some o`, and waits forever if `out r = none`. -/
structure Ends (n : Nat) (ps : Nat → Prog M α) (out : Nat → Option (Except Err α)) : Prop where
  terminates : ∃ B, ∀ k s, RunN n k (St.init ps) s → k ≤ B
  outcome : ∀ s, Run n (St.init ps) s → Stuck n s → ∀ r < n,
    match out r with
    | some o => s.prog r = Prog.lift o
    | none => ¬ (s.prog r).Term

/-- a rank that cannot move -/
def Blocked (ps : Nat → Prog M α) (r : Nat) : Prop :=
  (ps r).Term ∨ (∃ i t k, ps r = .recv i t k) ∨
  ∃ kind c v k, ps r = .coll kind c v k ∧ ∃ q ∈ c, ∀ v' k', ps q ≠ .coll kind c v' k'

theorem stuck_of_blocked {n} {ps : Nat → Prog M α} (h : ∀ r < n, Blocked ps r) :
    Stuck n (St.init ps) := by
  have nosend : ∀ r < n, ∀ j t v k, ps r ≠ .send j t v k := by
    intro r hr j t v k he
    rcases h r hr with ⟨o, h⟩ | ⟨i, t', k', h⟩ | ⟨kind, c, v', k', h, _⟩
    · rw [he] at h; cases o <;> simp [Prog.lift] at h
    · rw [he] at h; cases h
    · rw [he] at h; cases h
  rintro s' ⟨l, hl⟩
  cases hl with
  | snd hi hj hp => exact nosend _ hi _ _ _ _ hp
  | rcv hj hp hc => simp [St.init] at hc
  | rdv hi hj hp hq hc => exact nosend _ hi _ _ _ _ hp
  | @col c kind v kk hne hlt hp =>
    obtain ⟨r, hr⟩ := List.exists_mem_of_ne_nil c hne
    rcases h r (hlt r hr) with ⟨o, h⟩ | ⟨i, t', k', h⟩ | ⟨kind', c', v', k', h, q, hq, hno⟩
    · have := hp r hr; simp only [St.init] at this; rw [this] at h; cases o <;> simp [Prog.lift] at h
    · have := hp r hr; simp only [St.init] at this; rw [this] at h; cases h
    · have := hp r hr; simp only [St.init] at this; rw [this] at h
      injection h with e1 e2 e3 e4
      subst e1 e2
      exact hno _ _ (hp q hq)

theorem Ends.of_blocked {n} {ps qs : Nat → Prog M α} {out} (h : ReflTransGen (SStep n) ps qs)
    (hb : ∀ r < n, match out r with
      | some o => qs r = Prog.lift o
      | none => (∃ i t k, qs r = .recv i t k) ∨
          ∃ kind c v k, qs r = .coll kind c v k ∧ ∃ q ∈ c, ∀ v' k', qs q ≠ .coll kind c v' k') :
    Ends n ps out := by
  have hst : Stuck n (St.init qs) := by
    apply stuck_of_blocked
    intro r hr
    have := hb r hr
    cases ho : out r with
    | some o => rw [ho] at this; exact .inl ⟨o, this⟩
    | none => rw [ho] at this; exact .inr this
  have hnb := SStep.nbRun h
  refine ⟨hnb.bounded hst, fun s hr hs r hrn => ?_⟩
  rw [← Run.stuck_eq hs (hnb.to_stuck hst hr).run]
  have := hb r hrn
  cases ho : out r with
  | some o => rw [ho] at this; exact this
  | none =>
    rw [ho] at this
    rintro ⟨o, h⟩
    simp only [St.init] at h
    rcases this with ⟨i, t', k', h'⟩ | ⟨kind, c, v', k', h', _⟩ <;> rw [h'] at h <;>
      cases o <;> simp [Prog.lift] at h

end Verif

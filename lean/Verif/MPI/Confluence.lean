/-
  Confluence of the interleaving semantics: the outcome of an SPMD program does not depend
  on the schedule nor on which sends are buffered.
-/
import Verif.MPI.Semantics

namespace Verif
open Function Relation

variable {M α β : Type}

/-- Two different enabled steps either commute, or are the two ways (buffered/rendezvous)
    of performing the same send, in which case the buffered one can catch up by a receive. -/
theorem LStep.local {n} {s s1 s2 : St M α} {l1 l2} (h1 : LStep n s l1 s1) (h2 : LStep n s l2 s2) :
    (l1 = l2 ∧ s1 = s2) ∨ (∃ s3, LStep n s1 l2 s3 ∧ LStep n s2 l1 s3)
    ∨ (∃ i j, l1 = .rdv i j ∧ l2 = .snd i ∧ LStep n s2 (.rcv j) s1)
    ∨ (∃ i j, l2 = .rdv i j ∧ l1 = .snd i ∧ LStep n s1 (.rcv j) s2) := by
  by_cases hl : l1 = l2
  · subst hl; exact .inl ⟨rfl, h1.det h2⟩
  by_cases hd : ∀ r, ¬ (l1.touches r ∧ l2.touches r)
  · exact .inr (.inl (h1.comm h2 hd))
  push Not at hd
  obtain ⟨r, t1, t2⟩ := hd
  have key : ∀ {i j t v} {k : Prog M α} {k'} (hi : i < n) (hj : j < n)
      (hp : s.prog i = .send j t v k) (hq : s.prog j = .recv i t k') (hc : s.chan (i, j, t) = []),
      LStep n ⟨update s.prog i k, update s.chan (i, j, t) (s.chan (i, j, t) ++ [v])⟩ (.rcv j)
        ⟨update (update s.prog i k) j (k' v), s.chan⟩ := by
    intro i j t v k k' hi hj hp hq hc
    have hij : j ≠ i := by rintro rfl; rw [hp] at hq; cases hq
    have := LStep.rcv (n := n) (s := ⟨update s.prog i k, update s.chan (i, j, t) (s.chan (i, j, t) ++ [v])⟩)
      (i := i) (t := t) (v := v) (vs := []) (k := k') hj (by simpa [update_of_ne hij] using hq) (by simp [hc])
    convert this using 2
    funext q
    by_cases hq : q = (i, j, t)
    · subst hq; simp [hc]
    · simp [update_of_ne hq]
  cases h1 with
  | @snd i j t v k hi hj hp =>
    simp only [Lab.touches] at t1; subst t1
    cases h2 with
    | snd hi' hj' hp' => simp only [Lab.touches] at t2; subst t2; exact absurd rfl hl
    | rcv hj' hp' hc' => simp only [Lab.touches] at t2; subst t2; rw [hp] at hp'; cases hp'
    | rdv hi' hj' hp' hq' hc' =>
      rcases t2 with rfl | rfl
      · right; right; right
        rw [hp] at hp'; injection hp' with e1 e2 e3 e4; subst e1 e2 e3 e4
        exact ⟨_, _, rfl, rfl, key hi hj hp hq' hc'⟩
      · rw [hp] at hq'; cases hq'
    | col hne hlt hp' => rw [hp' _ t2] at hp; cases hp
  | @rcv i j t v vs k hj hp hc =>
    simp only [Lab.touches] at t1; subst t1
    cases h2 with
    | snd hi' hj' hp' => simp only [Lab.touches] at t2; subst t2; rw [hp] at hp'; cases hp'
    | rcv hj' hp' hc' => simp only [Lab.touches] at t2; subst t2; exact absurd rfl hl
    | rdv hi' hj' hp' hq' hc' =>
      rcases t2 with rfl | rfl
      · rw [hp] at hp'; cases hp'
      · rw [hp] at hq'; injection hq' with e1 e2 e3; subst e1 e2; rw [hc] at hc'; cases hc'
    | col hne hlt hp' => rw [hp' _ t2] at hp; cases hp
  | @rdv i j t v k k' hi hj hp hq hc =>
    cases h2 with
    | snd hi' hj' hp' =>
      simp only [Lab.touches] at t2; subst t2
      rcases t1 with rfl | rfl
      · right; right; left
        rw [hp] at hp'; injection hp' with e1 e2 e3 e4; subst e1 e2 e3 e4
        exact ⟨_, _, rfl, rfl, key hi hj hp hq hc⟩
      · rw [hp'] at hq; cases hq
    | rcv hj' hp' hc' =>
      simp only [Lab.touches] at t2; subst t2
      rcases t1 with rfl | rfl
      · rw [hp] at hp'; cases hp'
      · rw [hq] at hp'; injection hp' with e1 e2 e3; subst e1 e2; rw [hc] at hc'; cases hc'
    | rdv hi' hj' hp' hq' hc' =>
      rcases t1 with rfl | rfl <;> rcases t2 with rfl | rfl
      · rw [hp] at hp'; injection hp' with e1; subst e1; exact absurd rfl hl
      · rw [hp] at hq'; cases hq'
      · rw [hq] at hp'; cases hp'
      · rw [hq] at hq'; injection hq' with e1; subst e1; exact absurd rfl hl
    | col hne hlt hp' =>
      rcases t1 with rfl | rfl
      · rw [hp' _ t2] at hp; cases hp
      · rw [hp' _ t2] at hq; cases hq
  | @col c kind v kk hne hlt hp =>
    have hpr := hp r t1
    cases h2 with
    | snd hi' hj' hp' => simp only [Lab.touches] at t2; subst t2; rw [hpr] at hp'; cases hp'
    | rcv hj' hp' hc' => simp only [Lab.touches] at t2; subst t2; rw [hpr] at hp'; cases hp'
    | rdv hi' hj' hp' hq' hc' =>
      rcases t2 with rfl | rfl
      · rw [hpr] at hp'; cases hp'
      · rw [hpr] at hq'; cases hq'
    | col hne' hlt' hp' =>
      have := hp' r t2; rw [hpr] at this; injection this with e1 e2; subst e2
      exact absurd rfl hl

theorem NBStep.step {n} {s s' : St M α} (h : NBStep n s s') : Step n s s' := by
  obtain ⟨l, h, _⟩ := h; exact ⟨l, h⟩
theorem NBRun.run {n} {s s' : St M α} (h : NBRun n s s') : Run n s s' := by
  induction h with
  | refl => exact .refl
  | tail _ h2 ih => exact ReflTransGen.tail ih h2.step

/-- Full confluence. -/
theorem Run.confluent {n} {a b c : St M α} (h1 : Run n a b) (h2 : Run n a c) :
    ∃ d, Run n b d ∧ Run n c d := by
  have := church_rosser (r := Step (M := M) (α := α) n) (a := a) (b := b) (c := c) ?_ h1 h2
  · exact this
  · rintro a b c ⟨l1, h1⟩ ⟨l2, h2⟩
    rcases h1.local h2 with ⟨-, e⟩ | ⟨d, h3, h4⟩ | ⟨i, j, -, -, h⟩ | ⟨i, j, -, -, h⟩
    · subst e; exact ⟨b, .refl, .refl⟩
    · exact ⟨d, .single ⟨_, h3⟩, .single ⟨_, h4⟩⟩
    · exact ⟨b, .refl, .single ⟨_, h⟩⟩
    · exact ⟨c, .single ⟨_, h⟩, .refl⟩

theorem Run.stuck_eq {n} {f d : St M α} (hs : Stuck n f) (h : Run n f d) : d = f := by
  rcases ReflTransGen.cases_head h with e | ⟨c, h1, _⟩
  · exact e.symm
  · exact absurd h1 (hs c)

/-- If one run ends in a stuck state, every run can be continued to that same state. -/
theorem Run.to_stuck {n} {t f s : St M α} (h : Run n t f) (hs : Stuck n f) (h2 : Run n t s) :
    Run n s f := by
  obtain ⟨d, h3, h4⟩ := h.confluent h2
  rw [Run.stuck_eq hs h3] at h4; exact h4

private theorem nb_strip {n} {a b c : St M α} (h1 : NBStep n a b) (h2 : Run n a c) :
    ∃ d, Run n b d ∧ ReflGen (NBStep n) c d := by
  induction h2 with
  | refl => exact ⟨b, .refl, .single h1⟩
  | tail h2 h3 ih =>
    obtain ⟨d, h4, h5⟩ := ih
    obtain ⟨l2, h3⟩ := h3
    cases h5 with
    | refl => exact ⟨_, h4.tail ⟨_, h3⟩, .refl⟩
    | single h5 =>
      obtain ⟨l1, h5, hnb⟩ := h5
      rcases h5.local h3 with ⟨-, e⟩ | ⟨e, h6, h7⟩ | ⟨i, j, -, -, h⟩ | ⟨i, j, -, e, h⟩
      · subst e; exact ⟨_, h4, .refl⟩
      · exact ⟨e, h4.tail ⟨_, h6⟩, .single ⟨_, h7, hnb⟩⟩
      · exact ⟨_, h4, .single ⟨_, h, by simp⟩⟩
      · exact absurd e (hnb i)

/-- If some run without buffering ends in a stuck state, then from every state reachable by
    any run, that same state is reached without buffering any further message. -/
theorem NBRun.to_stuck {n} {t f s : St M α} (h : NBRun n t f) (hs : Stuck n f)
    (h2 : Run n t s) : NBRun n s f := by
  have aux : ∀ {t f s : St M α}, NBRun n t f → Run n t s → ∃ d, Run n f d ∧ NBRun n s d := by
    intro t f s h
    induction h using ReflTransGen.head_induction_on generalizing s with
    | refl => exact fun h2 => ⟨s, h2, .refl⟩
    | head h1 _ ih =>
      intro h2
      obtain ⟨d, h3, h4⟩ := nb_strip h1 h2
      obtain ⟨e, h5, h6⟩ := ih h3
      exact ⟨e, h5, (ReflGen.to_reflTransGen h4).trans h6⟩
  obtain ⟨d, h3, h4⟩ := aux h h2
  rw [Run.stuck_eq hs h3] at h4; exact h4

/-- weight of a non-buffering step: a rendezvous can be split in two. -/
private def Lab.weight : Lab → Nat
  | .rdv _ _ => 2
  | _ => 1

private def Pend (n : Nat) (c d : St M α) (w : Nat) : Prop :=
  (c = d ∧ w = 0) ∨ ∃ l, LStep n c l d ∧ (∀ i, l ≠ .snd i) ∧ w = l.weight

private theorem pend_step {n} {c d c' : St M α} {w} (h : Pend n c d w) (hs : Step n c c') :
    ∃ d' w', Pend n c' d' w' ∧ ((Step n d d' ∧ w' = w) ∨ (d' = d ∧ w' < w)) := by
  obtain ⟨l2, hs⟩ := hs
  rcases h with ⟨e, rfl⟩ | ⟨l, h1, hnb, rfl⟩
  · subst e; exact ⟨c', 0, .inl ⟨rfl, rfl⟩, .inl ⟨⟨_, hs⟩, rfl⟩⟩
  · rcases h1.local hs with ⟨-, e⟩ | ⟨e, h6, h7⟩ | ⟨i, j, e1, -, h⟩ | ⟨i, j, -, e, h⟩
    · subst e; exact ⟨d, 0, .inl ⟨rfl, rfl⟩, .inr ⟨rfl, by cases l <;> simp [Lab.weight]⟩⟩
    · exact ⟨e, _, .inr ⟨l, h7, hnb, rfl⟩, .inl ⟨⟨_, h6⟩, rfl⟩⟩
    · subst e1
      exact ⟨d, 1, .inr ⟨_, h, by simp, rfl⟩, .inr ⟨rfl, by simp [Lab.weight]⟩⟩
    · exact absurd e (hnb i)

private theorem strip_len {n k} {a b c : St M α} (h1 : NBStep n a b) (h2 : RunN n k a c) :
    ∃ d k', RunN n k' b d ∧ k ≤ k' + 2 := by
  have : ∀ {k c}, RunN n k a c → ∃ d k' w, RunN n k' b d ∧ Pend n c d w ∧ k + w ≤ k' + 2 := by
    clear h2
    intro k c h2
    induction h2 with
    | zero =>
      obtain ⟨l, h, hnb⟩ := h1
      exact ⟨b, 0, _, .zero, .inr ⟨l, h, hnb, rfl⟩, by cases l <;> simp [Lab.weight]⟩
    | succ _ hs ih =>
      obtain ⟨d, k', w, h3, h4, h5⟩ := ih h1
      obtain ⟨d', w', h6, h7⟩ := pend_step h4 hs
      rcases h7 with ⟨h8, rfl⟩ | ⟨rfl, h8⟩
      · exact ⟨d', k' + 1, _, h3.succ h8, h6, by omega⟩
      · exact ⟨_, k', w', h3, h6, by omega⟩
  obtain ⟨d, k', w, h3, -, h5⟩ := this h2
  exact ⟨d, k', h3, by omega⟩

theorem RunN.head {n k} {s s' : St M α} (h : RunN n (k + 1) s s') :
    ∃ c, Step n s c ∧ RunN n k c s' := by
  induction k generalizing s' with
  | zero => cases h with | succ h1 h2 => cases h1; exact ⟨_, h2, .zero⟩
  | succ k ih =>
    cases h with
    | succ h1 h2 => obtain ⟨c, h3, h4⟩ := ih h1; exact ⟨c, h3, h4.succ h2⟩

theorem RunN.run {n k} {s s' : St M α} (h : RunN n k s s') : Run n s s' := by
  induction h with
  | zero => exact .refl
  | succ _ h2 ih => exact ih.tail h2

theorem Run.runN {n} {s s' : St M α} (h : Run n s s') : ∃ k, RunN n k s s' := by
  induction h with
  | refl => exact ⟨0, .zero⟩
  | tail _ h2 ih => obtain ⟨k, hk⟩ := ih; exact ⟨k + 1, hk.succ h2⟩

/-- If a run without buffering ends in a stuck state then all runs are finite, with a common
    bound on their length. -/
theorem NBRun.bounded {n} {t f : St M α} (h : NBRun n t f) (hs : Stuck n f) :
    ∃ B, ∀ k s, RunN n k t s → k ≤ B := by
  induction h using ReflTransGen.head_induction_on with
  | refl =>
    refine ⟨0, fun k s hr => ?_⟩
    cases k with
    | zero => exact Nat.le_refl _
    | succ k => obtain ⟨c, h, _⟩ := hr.head; exact absurd h (hs c)
  | head h1 _ ih =>
    obtain ⟨B, ih⟩ := ih
    refine ⟨B + 2, fun k s hr => ?_⟩
    obtain ⟨d, k', h2, h3⟩ := strip_len h1 hr
    have := ih _ _ h2
    omega

end Verif

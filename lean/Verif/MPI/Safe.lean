/-
  A proof rule for partial correctness of the ranks: if every rank, receiving only good messages,
  sends only good messages and returns only good results, then this is so in every execution —
  also in those that deadlock or in which some rank raises an exception.
-/
import Verif.MPI.Partial
import Verif.MPI.Wf

namespace Verif
open Function Relation

variable {M α β : Type}

/-- `G i j t v`: `v` is a good message from `i` to `j` with tag `t`; `H kind c r v`: `v` is a good
    contribution of rank `r` to a collective; `R r o`: `o` is a good outcome of rank `r`. -/
def Safe (G : Nat → Nat → Nat → M → Prop) (H : CollKind → List Nat → Nat → M → Prop)
    (R : Nat → Except Err α → Prop) (r : Nat) : Prog M α → Prop
  | .ret a => R r (.ok a)
  | .throw e => R r (.error e)
  | .send j t v k => G r j t v ∧ Safe G H R r k
  | .recv i t k => ∀ v, G i r t v → Safe G H R r (k v)
  | .coll kind c v k => H kind c r v ∧ ∀ w : Nat → M, (∀ q ∈ c, H kind c q (w q)) → Safe G H R r (k (c.map w))

variable {G : Nat → Nat → Nat → M → Prop} {H : CollKind → List Nat → Nat → M → Prop} {R : Nat → Except Err α → Prop}

theorem Safe.mono {R' : Nat → Except Err α → Prop} {r : Nat} {p : Prog M α} (h : Safe G H R r p) (hR : ∀ o, R r o → R' r o) :
    Safe G H R' r p := by
  induction p with
  | ret a => exact hR _ h
  | throw e => exact hR _ h
  | send j t v k ih => exact ⟨h.1, ih h.2⟩
  | recv i t k ih => exact fun v hv => ih v (h v hv)
  | coll kind c v k ih => exact ⟨h.1, fun w hw => ih _ (h.2 w hw)⟩

theorem Safe.trivial {r : Nat} {p : Prog M α} (hG : ∀ j t v, G r j t v) (hH : ∀ kind c v, H kind c r v) (hR : ∀ o, R r o) :
    Safe G H R r p := by
  induction p with
  | ret a => exact hR _
  | throw e => exact hR _
  | send j t v k ih => exact ⟨hG _ _ _, ih⟩
  | recv i t k ih => exact fun v _ => ih v
  | coll kind c v k ih => exact ⟨hH _ _ _, fun w _ => ih _⟩

theorem Safe.bind {R' : Nat → Except Err β → Prop} {r : Nat} {p : Prog M α} {k : α → Prog M β}
    (h : Safe G H (fun r o => match o with
      | .ok a => Safe G H R' r (k a)
      | .error e => R' r (.error e)) r p) : Safe G H R' r (p.bind k) := by
  induction p with
  | ret a => exact h
  | throw e => exact h
  | send j t v k ih => exact ⟨h.1, ih h.2⟩
  | recv i t k ih => exact fun v hv => ih v (h v hv)
  | coll kind c v k ih => exact ⟨h.1, fun w hw => ih _ (h.2 w hw)⟩

theorem Safe.lift {r : Nat} {o : Except Err α} : Safe G H R r (Prog.lift o : Prog M α) ↔ R r o := by
  cases o <;> rfl

/-- invariant of executions -/
structure SafeSt (n : Nat) (G : Nat → Nat → Nat → M → Prop) (H : CollKind → List Nat → Nat → M → Prop)
    (R : Nat → Except Err α → Prop) (s : St M α) : Prop where
  prog : ∀ r < n, Safe G H R r (s.prog r)
  chan : ∀ i j t, ∀ v ∈ s.chan (i, j, t), G i j t v

theorem SafeSt.step {n} {s s' : St M α} (h : SafeSt n G H R s) (hs : Step n s s') : SafeSt n G H R s' := by
  obtain ⟨l, hs⟩ := hs
  cases hs with
  | @snd i j t v k hi hj hp =>
    have h1 := h.prog i hi
    rw [hp] at h1
    refine ⟨fun r hr => ?_, fun i' j' t' v' hv => ?_⟩
    · by_cases e : r = i
      · subst e; simpa using h1.2
      · simpa [update_of_ne e] using h.prog r hr
    · dsimp only at hv
      by_cases e : (i', j', t') = (i, j, t)
      · rw [e, update_self] at hv
        obtain ⟨rfl, rfl, rfl⟩ : i' = i ∧ j' = j ∧ t' = t := by simpa using e
        rcases List.mem_append.1 hv with hv | hv
        · exact h.chan _ _ _ _ hv
        · rw [List.mem_singleton.1 hv]; exact h1.1
      · rw [update_of_ne e] at hv; exact h.chan _ _ _ _ hv
  | @rcv i j t v vs k hj hp hc =>
    have h1 := h.prog j hj
    rw [hp] at h1
    refine ⟨fun r hr => ?_, fun i' j' t' v' hv => ?_⟩
    · by_cases e : r = j
      · subst e; simpa using h1 v (h.chan i r t v (by simp [hc]))
      · simpa [update_of_ne e] using h.prog r hr
    · dsimp only at hv
      by_cases e : (i', j', t') = (i, j, t)
      · rw [e, update_self] at hv
        obtain ⟨rfl, rfl, rfl⟩ : i' = i ∧ j' = j ∧ t' = t := by simpa using e
        exact h.chan _ _ _ _ (by rw [hc]; exact List.mem_cons_of_mem _ hv)
      · rw [update_of_ne e] at hv; exact h.chan _ _ _ _ hv
  | @rdv i j t v k k' hi hj hp hq hc =>
    have h1 := h.prog i hi
    rw [hp] at h1
    have h2 := h.prog j hj
    rw [hq] at h2
    refine ⟨fun r hr => ?_, h.chan⟩
    by_cases e : r = j
    · subst e; simpa using h2 v h1.1
    · by_cases e' : r = i
      · subst e'; simpa [update_of_ne e] using h1.2
      · simpa [update_of_ne e, update_of_ne e'] using h.prog r hr
  | @col c kind v kk hne hlt hp =>
    refine ⟨fun r hr => ?_, h.chan⟩
    by_cases e : r ∈ c
    · have h1 := h.prog r hr
      rw [hp r e] at h1
      simp only [e, if_true]
      refine h1.2 v fun q hq => ?_
      have h2 := h.prog q (hlt q hq)
      rw [hp q hq] at h2
      exact h2.1
    · simpa [e] using h.prog r hr

theorem SafeSt.run {n} {s s' : St M α} (h : SafeSt n G H R s) (hs : Run n s s') : SafeSt n G H R s' := by
  induction hs with
  | refl => exact h
  | tail _ h2 ih => exact ih.step h2

/-- outcomes of safe programs are good, in every execution -/
theorem Safe.sound {n} {ps : Nat → Prog M α} (h : ∀ r < n, Safe G H R r (ps r)) {s : St M α} (hs : Run n (St.init ps) s)
    {r : Nat} (hr : r < n) {o : Except Err α} (ho : s.prog r = Prog.lift o) : R r o := by
  have := (SafeSt.run (s := St.init ps) ⟨h, by simp [St.init]⟩ hs).prog r hr
  rw [ho] at this
  exact Safe.lift.1 this

/-- the same for programs that first run deterministically to `qs` -/
theorem Safe.sound_steps {n} {ps qs : Nat → Prog M α} (h1 : ReflTransGen (SStep n) ps qs) (h : ∀ r < n, Safe G H R r (qs r))
    {s : St M α} (hs : Run n (St.init ps) s) {r : Nat} (hr : r < n) {o : Except Err α} (ho : s.prog r = Prog.lift o) : R r o := by
  obtain ⟨d, h2, h3⟩ := (SStep.nbRun h1).run.confluent hs
  exact Safe.sound h h2 hr (h3.term ho)

end Verif

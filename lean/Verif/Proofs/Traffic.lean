/-
  Counting calls: rules for the constructs of the model, and what they say about executions.
-/
import Verif.Spec.Traffic
import Verif.Model.DistributedArray

namespace Verif

variable {K α β : Type} {w : Msg K → Nat} {rep : CollKind → List Nat → Msg K → Prop} {ok : CommCall (Msg K) → Prop}

theorem CallsW.mono {k v k' v' : Nat} {p : P K α} {Q Q' : α → Prop} (h : CallsW w rep ok k v p Q) (hk : k ≤ k') (hv : v ≤ v')
    (hQ : ∀ a, Q a → Q' a) : CallsW w rep ok k' v' p Q' := by
  induction h generalizing k' v' with
  | ret h => exact .ret (hQ _ h)
  | throw => exact .throw
  | @send k v d t m p Q h _ ih =>
    obtain ⟨k', rfl⟩ := Nat.exists_eq_add_of_lt (Nat.lt_of_lt_of_le (Nat.lt_succ_self k) hk)
    have := ih (k' := k + k') (v' := v' - w m) (by omega) (by omega) hQ
    have e : v' = v' - w m + w m := by omega
    rw [e]
    exact .send h this
  | @recv k v s t f Q h _ ih =>
    obtain ⟨k', rfl⟩ := Nat.exists_eq_add_of_lt (Nat.lt_of_lt_of_le (Nat.lt_succ_self k) hk)
    exact .recv h fun m => ih m (k' := k + k') (by omega) hv hQ
  | @coll k v kd c m f Q h _ ih =>
    obtain ⟨k', rfl⟩ := Nat.exists_eq_add_of_lt (Nat.lt_of_lt_of_le (Nat.lt_succ_self k) hk)
    have e : v' = v' - w m + w m := by omega
    rw [e]
    exact .coll h fun ms hms => ih ms hms (k' := k + k') (by omega) (by omega) hQ

theorem CallsW.imp {k v : Nat} {p : P K α} {Q Q' : α → Prop} (h : CallsW w rep ok k v p Q) (hQ : ∀ a, Q a → Q' a) : CallsW w rep ok k v p Q' :=
  h.mono le_rfl le_rfl hQ

/-- fewer assumptions on the answers, more on the calls -/
theorem CallsW.weaken {rep' : CollKind → List Nat → Msg K → Prop} {ok' : CommCall (Msg K) → Prop} {k v : Nat} {p : P K α} {Q : α → Prop}
    (h : CallsW w rep ok k v p Q) (hr : ∀ kd c m, rep' kd c m → rep kd c m) (ho : ∀ c, ok c → ok' c) : CallsW w rep' ok' k v p Q := by
  induction h with
  | ret h => exact .ret h
  | throw => exact .throw
  | send h _ ih => exact .send (ho _ h) ih
  | recv h _ ih => exact .recv (ho _ h) ih
  | coll h _ ih => exact .coll (ho _ h) fun ms hms => ih ms fun x hx => hr _ _ _ (hms x hx)

theorem CallsW.bind {k v k' v' : Nat} {p : P K α} {f : α → P K β} {Q : α → Prop} {R : β → Prop} (h : CallsW w rep ok k v p Q)
    (hf : ∀ a, Q a → CallsW w rep ok k' v' (f a) R) : CallsW w rep ok (k + k') (v + v') (p.bind f) R := by
  induction h with
  | ret h => exact (hf _ h).mono (by omega) (by omega) fun _ => id
  | throw => exact .throw
  | @send k v d t m p Q h _ ih =>
    have := CallsW.send (rep := rep) h (ih hf)
    rw [show k + 1 + k' = k + k' + 1 by omega, show v + w m + v' = v + v' + w m by omega]
    exact this
  | @recv k v s t g Q h _ ih =>
    rw [show k + 1 + k' = k + k' + 1 by omega]
    exact CallsW.recv h fun m => ih m hf
  | @coll k v kd c m g Q h _ ih =>
    rw [show k + 1 + k' = k + k' + 1 by omega, show v + w m + v' = v + v' + w m by omega]
    exact CallsW.coll h fun ms hms => ih ms hms hf

theorem CallsW.lift {o : Except Err α} {Q : α → Prop} (h : ∀ a, o = .ok a → Q a) : CallsW w rep ok 0 0 (Prog.lift o : P K α) Q := by
  cases o with
  | ok a => exact .ret (h a rfl)
  | error e => exact .throw

theorem CallsW.call_ok {k v : Nat} {p : P K α} {Q : α → Prop} (h : CallsW w rep ok k v p Q) :
    ∀ c ∈ p.call.toList, ok c ∧ 1 ≤ k ∧ c.weight w ≤ v := by
  cases h with
  | ret h => simp [Prog.call]
  | throw => simp [Prog.call]
  | send h _ => simpa [Prog.call, CommCall.weight] using h
  | recv h _ => simpa [Prog.call, CommCall.weight] using h
  | coll h _ => simpa [Prog.call, CommCall.weight] using h

/-- what a rank has left to do -/
structure Left (w : Msg K → Nat) (ok : Nat → CommCall (Msg K) → Prop) (Q : Nat → α → Prop) (k v : Nat) (L : List (CommCall (Msg K))) (r : Nat) (p : P K α) : Prop where
  left : ∃ k' v', L.length + k' ≤ k ∧ (L.map (CommCall.weight w)).sum + v' ≤ v ∧
    CallsW w (fun kd c m => ∃ q, ok q (.coll kd c m)) (ok r) k' v' p (Q r)
  done : ∀ c ∈ L, ok r c

theorem Logged.left {n : Nat} {ps : Nat → P K α} {ok : Nat → CommCall (Msg K) → Prop} {Q : Nat → α → Prop} {k v : Nat → Nat}
    (h : ∀ r < n, CallsW w (fun kd c m => ∃ q, ok q (.coll kd c m)) (ok r) (k r) (v r) (ps r) (Q r)) {s : St (Msg K) α}
    {L : Nat → List (CommCall (Msg K))} (hs : Logged n (St.init ps) s L) : ∀ r < n, Left w ok Q (k r) (v r) (L r) r (s.prog r) := by
  induction hs with
  | nil => exact fun r hr => ⟨⟨k r, v r, by simp, by simp, h r hr⟩, by simp⟩
  | @step s' l s'' L hL hl ih =>
    intro r hr
    obtain ⟨⟨k', v', h1, h2, h3⟩, h4⟩ := ih r hr
    have okOf : ∀ q < n, ∀ c ∈ (s'.prog q).call.toList, ok q c := fun q hq c hc => by
      obtain ⟨⟨_, _, _, _, h5⟩, _⟩ := ih q hq
      exact (h5.call_ok c hc).1
    by_cases ht : l.touches r
    · simp only [ht, if_true]
      -- the rank made the call it was in
      have key : ∀ {p : P K α}, (∃ k'' v'', k'' + 1 ≤ k' ∧ v'' + ((s'.prog r).call.toList.map (CommCall.weight w)).sum ≤ v' ∧
          CallsW w (fun kd c m => ∃ q, ok q (.coll kd c m)) (ok r) k'' v'' p (Q r)) →
          Left w ok Q (k r) (v r) (L r ++ (s'.prog r).call.toList) r p := by
        rintro p ⟨k'', v'', e1, e2, e3⟩
        refine ⟨⟨k'', v'', ?_, ?_, e3⟩, fun c hc => ?_⟩
        · have : (s'.prog r).call.toList.length ≤ 1 := by cases (s'.prog r).call <;> simp
          rw [List.length_append]; omega
        · rw [List.map_append, List.sum_append]; omega
        · rcases List.mem_append.mp hc with hc | hc
          · exact h4 c hc
          · exact okOf r hr c hc
      cases hl with
      | @snd i j t z p hi hj hp =>
        obtain rfl : r = i := ht
        simp only [Function.update_self]
        refine key ?_
        rw [hp] at h3 ⊢
        cases h3 with
        | send ho h5 => exact ⟨_, _, le_rfl, by simp [Prog.call, CommCall.weight], h5⟩
      | @rcv i j t z zs p hj hp hc =>
        obtain rfl : r = j := ht
        simp only [Function.update_self]
        refine key ?_
        rw [hp] at h3 ⊢
        cases h3 with
        | recv ho h5 => exact ⟨_, _, le_rfl, by simp [Prog.call, CommCall.weight], h5 _⟩
      | @rdv i j t z p p' hi hj hp hq hc =>
        by_cases hrj : r = j
        · subst hrj
          simp only [Function.update_self]
          refine key ?_
          rw [hq] at h3 ⊢
          cases h3 with
          | recv ho h5 => exact ⟨_, _, le_rfl, by simp [Prog.call, CommCall.weight], h5 _⟩
        · obtain rfl : r = i := ht.resolve_right hrj
          simp only [Function.update_of_ne hrj, Function.update_self]
          refine key ?_
          rw [hp] at h3 ⊢
          cases h3 with
          | send ho h5 => exact ⟨_, _, le_rfl, by simp [Prog.call, CommCall.weight], h5⟩
      | @col c kind z kk hne hlt hp =>
        have hrc : r ∈ c := ht
        simp only [hrc, if_true]
        refine key ?_
        have e := hp r hrc
        rw [e] at h3 ⊢
        cases h3 with
        | coll ho h5 =>
          refine ⟨_, _, le_rfl, by simp [Prog.call, CommCall.weight], h5 _ fun x hx => ?_⟩
          obtain ⟨q, hq, rfl⟩ := List.mem_map.mp hx
          exact ⟨q, okOf q (hlt q hq) _ (by rw [hp q hq]; simp [Prog.call])⟩
    · simp only [ht, if_false]
      have : s''.prog r = s'.prog r := by
        cases hl with
        | @snd i j t z p hi hj hp => exact Function.update_of_ne (fun e => ht e) _ _
        | @rcv i j t z zs p hj hp hc => exact Function.update_of_ne (fun e => ht e) _ _
        | @rdv i j t z p p' hi hj hp hq hc =>
          show Function.update (Function.update s'.prog i p) j _ r = _
          rw [Function.update_of_ne (fun e => ht (.inr e)), Function.update_of_ne (fun e => ht (.inl e))]
        | @col c kind z kk hne hlt hp => exact if_neg fun e => ht e
      rw [this]
      exact ⟨⟨k', v', h1, h2, h3⟩, h4⟩

/-- from single ranks to executions -/
theorem CallsW.log {n : Nat} {ps : Nat → P K α} {ok : Nat → CommCall (Msg K) → Prop} {Q : Nat → α → Prop} {k v : Nat → Nat}
    (h : ∀ r < n, CallsW w (fun kd c m => ∃ q, ok q (.coll kd c m)) (ok r) (k r) (v r) (ps r) (Q r)) {s : St (Msg K) α}
    {L : Nat → List (CommCall (Msg K))} (hL : Logged n (St.init ps) s L) {r : Nat} (hr : r < n) :
    (callsOf L s r).length ≤ k r ∧ ((callsOf L s r).map (CommCall.weight w)).sum ≤ v r ∧ ∀ c ∈ callsOf L s r, ok r c := by
  obtain ⟨⟨k', v', h1, h2, h3⟩, h4⟩ := Logged.left h hL r hr
  have h5 := h3.call_ok
  unfold callsOf
  refine ⟨?_, ?_, fun c hc => ?_⟩
  · cases hp : (s.prog r).call with
    | none => simp; omega
    | some c => have := (h5 c (by simp [hp])).2.1; simp; omega
  · cases hp : (s.prog r).call with
    | none => simp; omega
    | some c => have := (h5 c (by simp [hp])).2.2; simp; omega
  · rcases List.mem_append.mp hc with hc | hc
    · exact h4 c hc
    · exact (h5 c hc).1

theorem Calls.talks {n : Nat} {ps : Nat → P K α} {ok : Nat → CommCall (Msg K) → Prop} {Q : Nat → α → Prop} {k v : Nat → Nat}
    (h : ∀ r < n, Calls (fun kd c m => ∃ q, ok q (.coll kd c m)) (ok r) (k r) (v r) (ps r) (Q r)) : Talks n ps ok k v :=
  fun _ _ hL _ hr => CallsW.log h hL hr

theorem Counts.talksTo {n : Nat} {ps : Nat → P K α} {ok : Nat → CommCall (Msg K) → Prop} {Q : Nat → α → Prop} {k : Nat}
    (h : ∀ r < n, Counts (ok r) k (ps r) (Q r)) : TalksTo n ps ok k := fun s L hL r hr => by
  have h' : ∀ r < n, CallsW (fun _ => 0) (fun kd c m => ∃ q, ok q (.coll kd c m)) (ok r) k 0 (ps r) (Q r) := fun r hr =>
    (h r hr).weaken (fun _ _ _ _ => trivial) fun _ => id
  have := CallsW.log (k := fun _ => k) (v := fun _ => 0) h' hL hr
  exact ⟨this.1, this.2.2⟩

/-- forget the amount of data -/
theorem Calls.counts {k v : Nat} {p : P K α} {Q : α → Prop} (h : Calls (fun _ _ _ => True) ok k v p Q) : Counts ok k p Q := by
  induction h with
  | ret h => exact .ret h
  | throw => exact .throw
  | send h _ ih => exact .send (v := 0) h ih
  | recv h _ ih => exact .recv h ih
  | coll h _ ih => exact .coll (v := 0) h ih

/-- every execution has a log -/
theorem Run.logged {M : Type} {n : Nat} {s s' : St M α} (h : Run n s s') : ∃ L, Logged n s s' L := by
  induction h with
  | refl => exact ⟨_, .nil⟩
  | tail _ h ih =>
    obtain ⟨L, hL⟩ := ih
    obtain ⟨l, hl⟩ := h
    exact ⟨_, .step hL hl⟩

end Verif

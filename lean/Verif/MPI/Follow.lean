/-
  Programs that make the same MPI calls as another program but may end differently.
-/
import Verif.MPI.Bind

namespace Verif
open Function Relation

variable {M α β γ : Type}

/-- all values the program can return, whatever it receives, satisfy `Q` -/
inductive Yields (Q : α → Prop) : Prog M α → Prop
  | ret {a} : Q a → Yields Q (.ret a)
  | throw {e} : Yields Q (.throw e)
  | send {d t v k} : Yields Q k → Yields Q (.send d t v k)
  | recv {s t k} : (∀ m, Yields Q (k m)) → Yields Q (.recv s t k)
  | coll {kd c v k} : (∀ ms, Yields Q (k ms)) → Yields Q (.coll kd c v k)

theorem Yields.trivial {Q : α → Prop} (h : ∀ a, Q a) (p : Prog M α) : Yields Q p := by
  induction p with
  | ret a => exact .ret (h a)
  | throw e => exact .throw
  | send d t v k ih => exact .send ih
  | recv s t k ih => exact .recv ih
  | coll kd c v k ih => exact .coll ih

theorem Yields.bind {P : α → Prop} {Q : β → Prop} {p : Prog M α} {k : α → Prog M β} (h : Yields P p) (hk : ∀ a, P a → Yields Q (k a)) : Yields Q (p.bind k) := by
  induction h with
  | ret h => exact hk _ h
  | throw => exact .throw
  | send _ ih => exact .send ih
  | recv _ ih => exact .recv ih
  | coll _ ih => exact .coll ih

theorem Yields.after {Q : β → Prop} {p : Prog M α} {k : α → Prog M β} (hk : ∀ a, Yields Q (k a)) : Yields Q (p.bind k) :=
  (Yields.trivial (Q := fun _ => True) (fun _ => True.intro) p).bind fun a _ => hk a

theorem Yields.mono {P Q : α → Prop} {p : Prog M α} (h : Yields P p) (hk : ∀ a, P a → Q a) : Yields Q p := by
  induction h with
  | ret h => exact .ret (hk _ h)
  | throw => exact .throw
  | send _ ih => exact .send ih
  | recv _ ih => exact .recv ih
  | coll _ ih => exact .coll ih

/-- `q` makes the MPI calls of `p`, and where `p` returns a good value `a`, `q` returns a related value; where `p` can no longer return a good value, `q` is arbitrary -/
inductive Follows (G : α → Prop) (R : α → β → Prop) : Prog M α → Prog M β → Prop
  | ret {a q} : (G a → ∃ b, q = .ret b ∧ R a b) → Follows G R (.ret a) q
  | throw {e q} : Follows G R (.throw e) q
  | dead {p q} : Yields (fun a => ¬ G a) p → Follows G R p q
  | send {d t v k k'} : Follows G R k k' → Follows G R (.send d t v k) (.send d t v k')
  | recv {s t k k'} : (∀ m, Follows G R (k m) (k' m)) → Follows G R (.recv s t k) (.recv s t k')
  | coll {kd c v k k'} : (∀ ms, Follows G R (k ms) (k' ms)) → Follows G R (.coll kd c v k) (.coll kd c v k')

/-- the same computation first -/
theorem Follows.bind {G : α → Prop} {R : α → β → Prop} {Q : γ → Prop} {p : Prog M γ} {k : γ → Prog M α} {k' : γ → Prog M β} (hp : Yields Q p) (h : ∀ c, Q c → Follows G R (k c) (k' c)) :
    Follows G R (p.bind k) (p.bind k') := by
  induction hp with
  | ret hq => exact h _ hq
  | throw => exact .throw
  | send _ ih => exact .send ih
  | recv _ ih => exact .recv ih
  | coll _ ih => exact .coll ih

/-- something local afterwards -/
theorem Follows.then {δ ε : Type} {G : α → Prop} {R : α → β → Prop} {p : Prog M α} {q : Prog M β} {k : α → Prog M δ} {k' : β → Prog M ε} {G' : δ → Prop} {R' : δ → ε → Prop}
    (h : Follows G R p q) (hd : ∀ a, ¬ G a → Yields (fun d => ¬ G' d) (k a)) (hk : ∀ a b, G a → R a b → Follows G' R' (k a) (k' b)) : Follows G' R' (p.bind k) (q.bind k') := by
  induction h with
  | @ret a q h =>
    by_cases hG : G a
    · obtain ⟨b, rfl, hb⟩ := h hG; exact hk a b hG hb
    · exact .dead (hd a hG)
  | throw => exact .throw
  | dead h => exact .dead (h.bind hd)
  | send _ ih => exact .send ih
  | recv _ ih => exact .recv ih
  | coll _ ih => exact .coll ih

theorem SStep.yields {n} {ps qs : Nat → Prog M α} (h : SStep n ps qs) {Q : α → Prop} {r : Nat} (hl : Yields Q (ps r)) : Yields Q (qs r) := by
  cases h with
  | @rdv i j t v k k' hi hj hp hq =>
    have h2 : Yields Q (update ps i k r) := by
      by_cases hr : r = i
      · subst hr
        rw [hp] at hl
        cases hl with | send h => simpa using h
      · simpa [update_of_ne hr] using hl
    by_cases hr : r = j
    · subst hr
      rw [hq] at hl
      cases hl with | recv h => simpa using h v
    · rw [update_of_ne hr]; exact h2
  | @col c kind v kk hne hlt hp =>
    show Yields Q (if r ∈ c then kk r (c.map v) else ps r)
    by_cases hr : r ∈ c
    · rw [hp r hr] at hl
      cases hl with | coll h => rw [if_pos hr]; exact h _
    · rw [if_neg hr]; exact hl

theorem steps_yields {n} {ps qs : Nat → Prog M α} (h : ReflTransGen (SStep n) ps qs) {Q : α → Prop} {r : Nat} (hl : Yields Q (ps r)) : Yields Q (qs r) := by
  induction h with
  | refl => exact hl
  | tail _ h2 ih => exact h2.yields ih

/-- If all ranks running `ps` return good values, the ranks running `qs` return the corresponding ones. -/
theorem Runs.follows {n} {ps : Nat → Prog M α} {qs : Nat → Prog M β} {G : Nat → α → Prop} {R : Nat → α → β → Prop} {a : Nat → α} (hn : 0 < n) (h : Runs n ps (fun r => .ok (a r)))
    (hG : ∀ r < n, G r (a r)) (hf : ∀ r < n, Follows (G r) (R r) (ps r) (qs r)) : ∃ b : Nat → β, (∀ r < n, R r (a r) (b r)) ∧ Runs n qs (fun r => .ok (b r)) := by
  obtain ⟨fs, hs, he⟩ := h
  induction hs using ReflTransGen.head_induction_on generalizing qs with
  | refl =>
    have : ∀ r < n, ∃ b, qs r = .ret b ∧ R r (a r) b := fun r hr => by
      have h1 := hf r hr
      rw [he r hr] at h1
      generalize qs r = q at h1
      change Follows (G r) (R r) (.ret (a r)) q at h1
      cases h1 with
      | ret h => exact h (hG r hr)
      | dead h => cases h with | ret h => exact absurd (hG r hr) h
    classical
    let b : Nat → β := fun r => if hr : r < n then (this r hr).choose else (this 0 hn).choose
    have hb : ∀ r < n, qs r = .ret (b r) ∧ R r (a r) (b r) := fun r hr => by
      have := (this r hr).choose_spec
      simpa only [b, dif_pos hr] using this
    exact ⟨b, fun r hr => (hb r hr).2, (Runs.ret b).congr (fun r hr => (hb r hr).1.symm) fun _ _ => rfl⟩
  | @head ps ps' h1 h2 ih =>
    have nd : ∀ r < n, ¬ Yields (fun a => ¬ G r a) (ps r) := fun r hr hl => by
      have := steps_yields (ReflTransGen.head h1 h2) hl
      rw [he r hr] at this
      cases this with | ret h => exact h (hG r hr)
    cases h1 with
    | @rdv i j t v k k' hi hj hp hq =>
      have hfi := hf i hi
      have hfj := hf j hj
      have hij : i ≠ j := fun e => by subst e; rw [hp] at hq; cases hq
      rw [hp] at hfi
      rw [hq] at hfj
      have ndi := nd i hi
      have ndj := nd j hj
      rw [hp] at ndi
      rw [hq] at ndj
      generalize hqi : qs i = qi at hfi
      generalize hqj : qs j = qj at hfj
      cases hfi with
      | dead h => exact absurd h ndi
      | @send _ _ _ _ k1 fi =>
        cases hfj with
        | dead h => exact absurd h ndj
        | @recv _ _ _ k2 fj =>
          suffices h : _ from (ih (qs := update (update qs i k1) j (k2 v)) h).imp fun b hb => ⟨hb.1, Runs.of_steps (.single (SStep.rdv hi hj hqi hqj)) hb.2⟩
          intro r hr
          by_cases hrj : r = j
          · subst hrj; simpa using fj v
          · by_cases hri : r = i
            · subst hri; rw [update_of_ne hrj, update_of_ne hrj]; simpa using fi
            · rw [update_of_ne hrj, update_of_ne hrj, update_of_ne hri, update_of_ne hri]; exact hf r hr
    | @col c kind v kk hne hlt hp =>
      have : ∀ r ∈ c, ∃ k2, qs r = .coll kind c (v r) k2 ∧ ∀ ms, Follows (G r) (R r) (kk r ms) (k2 ms) := fun r hr => by
        have hfr := hf r (hlt r hr)
        have ndr := nd r (hlt r hr)
        rw [hp r hr] at hfr ndr
        generalize qs r = q at hfr
        cases hfr with
        | dead h => exact absurd h ndr
        | @coll _ _ _ _ k2 h => exact ⟨k2, rfl, h⟩
      classical
      let k2 : Nat → List M → Prog M β := fun r => if hr : r ∈ c then (this r hr).choose else fun _ => qs r
      have hk2 : ∀ r ∈ c, qs r = .coll kind c (v r) (k2 r) ∧ ∀ ms, Follows (G r) (R r) (kk r ms) (k2 r ms) := fun r hr => by
        have := (this r hr).choose_spec
        simpa only [k2, dif_pos hr] using this
      suffices h : _ from (ih (qs := fun r => if r ∈ c then k2 r (c.map v) else qs r) h).imp fun b hb => ⟨hb.1, Runs.of_steps (.single (SStep.col hne hlt fun r hr => (hk2 r hr).1)) hb.2⟩
      intro r hr
      by_cases hrc : r ∈ c
      · simpa only [if_pos hrc] using (hk2 r hrc).2 _
      · simpa only [if_neg hrc] using hf r hr

end Verif

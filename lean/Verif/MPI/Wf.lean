/- Every execution is finite: the program of a rank is a well-founded tree. -/
import Verif.MPI.Partial
import Mathlib.Data.DFinsupp.WellFounded
import Mathlib.Data.Fintype.Basic

namespace Verif
open Function Relation

variable {M α : Type}

/-- immediate continuation -/
inductive Prog.Sub : Prog M α → Prog M α → Prop
  | send {d t v k} : Sub k (.send d t v k)
  | recv {s t k} (m : M) : Sub (k m) (.recv s t k)
  | coll {kind c v k} (ms : List M) : Sub (k ms) (.coll kind c v k)

theorem Prog.sub_wf : WellFounded (Prog.Sub (M := M) (α := α)) := by
  constructor
  intro p
  induction p with
  | ret a => exact ⟨_, fun q h => by cases h⟩
  | throw e => exact ⟨_, fun q h => by cases h⟩
  | send d t v k ih => exact ⟨_, fun q h => by cases h; exact ih⟩
  | recv s t k ih => exact ⟨_, fun q h => by cases h; exact ih _⟩
  | coll kind c v k ih => exact ⟨_, fun q h => by cases h; exact ih _⟩

instance : Preorder (Prog M α) where
  le := ReflTransGen Prog.Sub
  lt := TransGen Prog.Sub
  le_refl _ := .refl
  le_trans _ _ _ h1 h2 := h1.trans h2
  lt_iff_le_not_ge a b := by
    constructor
    · intro h
      refine ⟨h.to_reflTransGen, fun h2 => ?_⟩
      have : TransGen Prog.Sub a a := TransGen.trans_left h h2
      exact (Prog.sub_wf.transGen.irrefl).irrefl a this
    · rintro ⟨h1, h2⟩
      rcases reflTransGen_iff_eq_or_transGen.1 h1 with h | h
      · subst h; exact absurd .refl h2
      · exact h

instance : WellFoundedLT (Prog M α) := ⟨Prog.sub_wf.transGen⟩

theorem Step.lt {n} {s s' : St M α} (h : Step n s s') :
    (fun i : Fin n => s'.prog i) < (fun i : Fin n => s.prog i) := by
  obtain ⟨l, h⟩ := h
  rw [Pi.lt_def]
  have sub_lt : ∀ {p q : Prog M α}, Prog.Sub p q → p < q := fun h => TransGen.single h
  have sub_le : ∀ {p q : Prog M α}, Prog.Sub p q → p ≤ q := fun h => ReflTransGen.single h
  cases h with
  | @snd i j t v k hi hj hp =>
    have hs : k < s.prog i := by rw [hp]; exact sub_lt .send
    refine ⟨fun r => ?_, ⟨i, hi⟩, by simpa using hs⟩
    by_cases e : r.val = i
    · simp only [e, update_self]; exact hs.le
    · simp [update_of_ne e]
  | @rcv i j t v vs k hj hp hc =>
    have hs : k v < s.prog j := by rw [hp]; exact sub_lt (.recv v)
    refine ⟨fun r => ?_, ⟨j, hj⟩, by simpa using hs⟩
    by_cases e : r.val = j
    · simp only [e, update_self]; exact hs.le
    · simp [update_of_ne e]
  | @rdv i j t v k k' hi hj hp hq hc =>
    have hs : k < s.prog i := by rw [hp]; exact sub_lt .send
    have hs' : k' v < s.prog j := by rw [hq]; exact sub_lt (.recv v)
    refine ⟨fun r => ?_, ⟨j, hj⟩, by simpa using hs'⟩
    by_cases e : r.val = j
    · simp only [e, update_self]; exact hs'.le
    · by_cases e' : r.val = i
      · simp only [e', update_of_ne (e' ▸ e), update_self]; exact hs.le
      · simp [update_of_ne e, update_of_ne e']
  | @col c kind v kk hne hlt hp =>
    have hs : ∀ r ∈ c, kk r (c.map v) < s.prog r := by
      intro r hr; rw [hp r hr]; exact sub_lt (.coll _)
    obtain ⟨q, hq⟩ := List.exists_mem_of_ne_nil c hne
    refine ⟨fun r => ?_, ⟨q, hlt q hq⟩, by simpa [hq] using hs q hq⟩
    by_cases e : r.val ∈ c
    · simp only [e, if_true]; exact (hs _ e).le
    · simp [e]

/-- There is no infinite execution. -/
theorem step_wf (n : Nat) : WellFounded fun s' s : St M α => Step n s s' := by
  have : WellFoundedLT (Fin n → Prog M α) := inferInstance
  exact Subrelation.wf (fun {_ _} h => Step.lt h)
    (InvImage.wf (fun (s : St M α) (i : Fin n) => s.prog i) this.wf)

theorem exists_stuck {n} (s : St M α) : ∃ f, Run n s f ∧ Stuck n f := by
  induction s using (step_wf n).induction with
  | _ s ih =>
    by_cases h : Stuck n s
    · exact ⟨s, .refl, h⟩
    · unfold Stuck at h
      push Not at h
      obtain ⟨s', h⟩ := h
      obtain ⟨f, h1, h2⟩ := ih s' h
      exact ⟨f, .head h h1, h2⟩

end Verif

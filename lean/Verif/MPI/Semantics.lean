/-
  Interleaving semantics of `n` ranks, each running a `Prog`, and its confluence.

  * `LStep` allows a send to complete by buffering (`snd`) or by rendezvous with the matching
    receive (`rdv`): MPI leaves the choice to the implementation for every single message.
  * messages between the same pair of ranks with the same tag do not overtake each other.
  * `SStep` is the restriction to rendezvous + collectives (no buffering at all).
-/
import Mathlib.Logic.Function.Basic
import Mathlib.Logic.Relation
import Mathlib.Data.List.Basic
import Verif.MPI.Prog

namespace Verif
open Function

variable {M α β : Type}

/-- Global state: the remaining program of every rank and the FIFO channels
    indexed by (source, destination, tag). -/
structure St (M α : Type) where
  prog : Nat → Prog M α
  chan : Nat × Nat × Nat → List M

inductive Lab
  | snd (i : Nat) | rcv (j : Nat) | rdv (i j : Nat) | col (c : List Nat)
  deriving DecidableEq

/-- One step of the machine with `n` ranks. -/
inductive LStep (n : Nat) : St M α → Lab → St M α → Prop
  | snd {s : St M α} {i j t v k} (hi : i < n) (hj : j < n) (hp : s.prog i = .send j t v k) :
      LStep n s (.snd i) ⟨update s.prog i k, update s.chan (i, j, t) (s.chan (i, j, t) ++ [v])⟩
  | rcv {s : St M α} {i j t v vs k} (hj : j < n) (hp : s.prog j = .recv i t k)
      (hc : s.chan (i, j, t) = v :: vs) :
      LStep n s (.rcv j) ⟨update s.prog j (k v), update s.chan (i, j, t) vs⟩
  | rdv {s : St M α} {i j t v k k'} (hi : i < n) (hj : j < n) (hp : s.prog i = .send j t v k)
      (hq : s.prog j = .recv i t k') (hc : s.chan (i, j, t) = []) :
      LStep n s (.rdv i j) ⟨update (update s.prog i k) j (k' v), s.chan⟩
  | col {s : St M α} {c kind} {v : Nat → M} {kk : Nat → List M → Prog M α} (hne : c ≠ [])
      (hlt : ∀ r ∈ c, r < n) (hp : ∀ r ∈ c, s.prog r = .coll kind c (v r) (kk r)) :
      LStep n s (.col c) ⟨fun r => if r ∈ c then kk r (c.map v) else s.prog r, s.chan⟩

/-- A step of any kind. -/
def Step (n : Nat) (s s' : St M α) : Prop := ∃ l, LStep n s l s'

/-- A step that does not rely on buffering a new message. -/
def NBStep (n : Nat) (s s' : St M α) : Prop := ∃ l, LStep n s l s' ∧ ∀ i, l ≠ .snd i

/-- Nothing can happen any more. -/
def Stuck (n : Nat) (s : St M α) : Prop := ∀ s', ¬ Step n s s'

/-- runs of a given length -/
inductive RunN (n : Nat) : Nat → St M α → St M α → Prop
  | zero {s} : RunN n 0 s s
  | succ {k s s' s''} : RunN n k s s' → Step n s' s'' → RunN n (k + 1) s s''

def Run (n : Nat) (s s' : St M α) : Prop := Relation.ReflTransGen (Step n) s s'
def NBRun (n : Nat) (s s' : St M α) : Prop := Relation.ReflTransGen (NBStep n) s s'

/-- the ranks taking part in a step -/
def Lab.touches : Lab → Nat → Prop
  | .snd i, r => r = i
  | .rcv j, r => r = j
  | .rdv i j, r => r = i ∨ r = j
  | .col c, r => r ∈ c

theorem LStep.det {n} {s s1 s2 : St M α} {l} (h1 : LStep n s l s1) (h2 : LStep n s l s2) :
    s1 = s2 := by
  cases h1 with
  | snd hi hj hp =>
    cases h2 with
    | snd hi' hj' hp' =>
      rw [hp] at hp'; injection hp' with e1 e2 e3 e4; subst e1 e2 e3 e4; rfl
  | rcv hj hp hc =>
    cases h2 with
    | rcv hj' hp' hc' =>
      rw [hp] at hp'; injection hp' with e1 e2 e3; subst e1 e2 e3
      rw [hc] at hc'; injection hc' with e1 e2; subst e1 e2; rfl
  | rdv hi hj hp hq hc =>
    cases h2 with
    | rdv hi' hj' hp' hq' hc' =>
      rw [hp] at hp'; injection hp' with e1 e2 e3 e4; subst e2 e3 e4
      rw [hq] at hq'; injection hq' with e1 e2 e3; subst e3; rfl
  | @col c kind v kk hne hlt hp =>
    cases h2 with
    | @col _ kind' v' kk' hne' hlt' hp' =>
      have hv : ∀ r ∈ c, v r = v' r ∧ kk r = kk' r := by
        intro r hr
        have := hp r hr
        rw [hp' r hr] at this
        injection this with e1 e2 e3 e4
        exact ⟨e3.symm, e4.symm⟩
      have hm : c.map v = c.map v' := List.map_congr_left (fun r hr => (hv r hr).1)
      congr 1
      funext r
      by_cases hr : r ∈ c
      · simp [hr, hm, (hv r hr).2]
      · simp [hr]

local macro "upd" : tactic =>
  `(tactic| (dsimp only; funext q; simp only [update_apply]; split_ifs <;> simp_all))

/-- Steps of disjoint sets of ranks commute. -/
theorem LStep.comm {n} {s s1 s2 : St M α} {l1 l2} (h1 : LStep n s l1 s1) (h2 : LStep n s l2 s2)
    (hd : ∀ r, ¬ (l1.touches r ∧ l2.touches r)) :
    ∃ s3, LStep n s1 l2 s3 ∧ LStep n s2 l1 s3 := by
  cases h1 with
  | @snd i j t v k hi hj hp =>
    cases h2 with
    | @snd i' j' t' v' k' hi' hj' hp' =>
      have hne : i ≠ i' := fun e => hd i ⟨rfl, e⟩
      refine ⟨_, .snd hi' hj' (by simpa [update_of_ne hne.symm] using hp'), ?_⟩
      have := LStep.snd (n := n) (s := ⟨update s.prog i' k', update s.chan (i', j', t') (s.chan (i', j', t') ++ [v'])⟩)
        hi hj (by simpa [update_of_ne hne] using hp)
      convert this using 2
      · upd
      · have e1 : (i, j, t) ≠ (i', j', t') := by simp [hne]
        dsimp only
        rw [update_of_ne e1.symm, update_of_ne e1, update_comm e1.symm]
    | @rcv i' j' t' v' vs' k' hj' hp' hc' =>
      have hne : i ≠ j' := fun e => hd i ⟨rfl, e⟩
      by_cases hk : (i, j, t) = (i', j', t')
      · obtain ⟨rfl, rfl, rfl⟩ : i = i' ∧ j = j' ∧ t = t' := by simpa using hk
        refine ⟨_, .rcv (v := v') (vs := vs' ++ [v]) hj' (by simpa [update_of_ne hne.symm] using hp') (by simp [hc']), ?_⟩
        have := LStep.snd (n := n) (s := ⟨update s.prog j (k' v'), update s.chan (i, j, t) vs'⟩)
          hi hj (by simpa [update_of_ne hne] using hp)
        convert this using 2
        all_goals upd
      · refine ⟨_, .rcv (v := v') (vs := vs') hj' (by simpa [update_of_ne hne.symm] using hp')
          (by simpa [update_of_ne (Ne.symm hk)] using hc'), ?_⟩
        have := LStep.snd (n := n) (s := ⟨update s.prog j' (k' v'), update s.chan (i', j', t') vs'⟩)
          hi hj (by simpa [update_of_ne hne] using hp)
        convert this using 2
        all_goals upd
    | @rdv i' j' t' v' k' kk' hi' hj' hp' hq' hc' =>
      have hne : i ≠ i' := fun e => hd i ⟨rfl, .inl e⟩
      have hne2 : i ≠ j' := fun e => hd i ⟨rfl, .inr e⟩
      refine ⟨_, .rdv hi' hj' (by simpa [update_of_ne hne.symm] using hp')
        (by simpa [update_of_ne hne2.symm] using hq') (by
          dsimp only; rw [update_of_ne (by simp [hne.symm])]; exact hc'), ?_⟩
      have := LStep.snd (n := n) (s := ⟨update (update s.prog i' k') j' (kk' v'), s.chan⟩)
          hi hj (by simpa [update_of_ne hne, update_of_ne hne2] using hp)
      convert this using 2
      all_goals upd
    | @col c kind v' kk' hne' hlt' hp' =>
      have hnc : i ∉ c := fun e => hd i ⟨rfl, e⟩
      refine ⟨_, .col (v := v') (kk := kk') hne' hlt' (fun r hr => by
        have : r ≠ i := fun e => hnc (e ▸ hr)
        simpa [update_of_ne this] using hp' r hr), ?_⟩
      have := LStep.snd (n := n) (s := ⟨fun r => if r ∈ c then kk' r (c.map v') else s.prog r, s.chan⟩)
          hi hj (by simpa [hnc] using hp)
      convert this using 2
      all_goals upd
  | @rcv i j t v vs k hj hp hc =>
    cases h2 with
    | @snd i' j' t' v' k' hi' hj' hp' =>
      have hne : j ≠ i' := fun e => hd j ⟨rfl, e⟩
      by_cases hk : (i, j, t) = (i', j', t')
      · obtain ⟨rfl, rfl, rfl⟩ : i = i' ∧ j = j' ∧ t = t' := by simpa using hk
        refine ⟨⟨update (update s.prog j (k v)) i k', update s.chan (i, j, t) (vs ++ [v'])⟩, ?_, ?_⟩
        · have := LStep.snd (n := n) (s := ⟨update s.prog j (k v), update s.chan (i, j, t) vs⟩)
            hi' hj' (by simpa [update_of_ne hne.symm] using hp')
          convert this using 2
          all_goals upd
        · have := LStep.rcv (n := n) (s := ⟨update s.prog i k', update s.chan (i, j, t) (s.chan (i, j, t) ++ [v'])⟩)
            (v := v) (vs := vs ++ [v']) hj (by simpa [update_of_ne hne] using hp) (by simp [hc])
          convert this using 2
          all_goals upd
      · refine ⟨_, .snd hi' hj' (by simpa [update_of_ne hne.symm] using hp'), ?_⟩
        have := LStep.rcv (n := n) (s := ⟨update s.prog i' k', update s.chan (i', j', t') (s.chan (i', j', t') ++ [v'])⟩)
            (v := v) (vs := vs) hj (by simpa [update_of_ne hne] using hp)
            (by simpa [update_of_ne hk] using hc)
        convert this using 2
        all_goals upd
    | @rcv i' j' t' v' vs' k' hj' hp' hc' =>
      have hne : j ≠ j' := fun e => hd j ⟨rfl, e⟩
      have hk : (i, j, t) ≠ (i', j', t') := by simp [hne]
      refine ⟨_, .rcv (v := v') (vs := vs') hj' (by simpa [update_of_ne hne.symm] using hp')
        (by simpa [update_of_ne (Ne.symm hk)] using hc'), ?_⟩
      have := LStep.rcv (n := n) (s := ⟨update s.prog j' (k' v'), update s.chan (i', j', t') vs'⟩)
            (v := v) (vs := vs) hj (by simpa [update_of_ne hne] using hp)
            (by simpa [update_of_ne hk] using hc)
      convert this using 2
      all_goals upd
    | @rdv i' j' t' v' k' kk' hi' hj' hp' hq' hc' =>
      have hne : j ≠ i' := fun e => hd j ⟨rfl, .inl e⟩
      have hne2 : j ≠ j' := fun e => hd j ⟨rfl, .inr e⟩
      refine ⟨_, .rdv hi' hj' (by simpa [update_of_ne hne.symm] using hp')
        (by simpa [update_of_ne hne2.symm] using hq') (by
          dsimp only; rw [update_of_ne (by simp [hne2.symm])]; exact hc'), ?_⟩
      have := LStep.rcv (n := n) (s := ⟨update (update s.prog i' k') j' (kk' v'), s.chan⟩)
          hj (by simpa [update_of_ne hne, update_of_ne hne2] using hp) hc
      convert this using 2
      all_goals upd
    | @col c kind v' kk' hne' hlt' hp' =>
      have hnc : j ∉ c := fun e => hd j ⟨rfl, e⟩
      refine ⟨_, .col (v := v') (kk := kk') hne' hlt' (fun r hr => by
        have : r ≠ j := fun e => hnc (e ▸ hr)
        simpa [update_of_ne this] using hp' r hr), ?_⟩
      have := LStep.rcv (n := n) (s := ⟨fun r => if r ∈ c then kk' r (c.map v') else s.prog r, s.chan⟩)
          hj (by simpa [hnc] using hp) hc
      convert this using 2
      all_goals upd
  | @rdv i j t v k kk hi hj hp hq hc =>
    cases h2 with
    | @snd i' j' t' v' k' hi' hj' hp' =>
      have hne : i ≠ i' := fun e => hd i ⟨.inl rfl, e⟩
      have hne2 : j ≠ i' := fun e => hd j ⟨.inr rfl, e⟩
      refine ⟨_, .snd hi' hj' (by simpa [update_of_ne hne.symm, update_of_ne hne2.symm] using hp'), ?_⟩
      have := LStep.rdv (n := n) (s := ⟨update s.prog i' k', update s.chan (i', j', t') (s.chan (i', j', t') ++ [v'])⟩)
        hi hj (by simpa [update_of_ne hne] using hp) (by simpa [update_of_ne hne2] using hq)
        (by dsimp only; rw [update_of_ne (by simp [hne])]; exact hc)
      convert this using 2
      all_goals upd
    | @rcv i' j' t' v' vs' k' hj' hp' hc' =>
      have hne : i ≠ j' := fun e => hd i ⟨.inl rfl, e⟩
      have hne2 : j ≠ j' := fun e => hd j ⟨.inr rfl, e⟩
      refine ⟨_, .rcv (v := v') (vs := vs') hj' (by simpa [update_of_ne hne.symm, update_of_ne hne2.symm] using hp') hc', ?_⟩
      have := LStep.rdv (n := n) (s := ⟨update s.prog j' (k' v'), update s.chan (i', j', t') vs'⟩)
        hi hj (by simpa [update_of_ne hne] using hp) (by simpa [update_of_ne hne2] using hq)
        (by dsimp only; rw [update_of_ne (by simp [hne2])]; exact hc)
      convert this using 2
      all_goals upd
    | @rdv i' j' t' v' k' kk' hi' hj' hp' hq' hc' =>
      have h1 : i ≠ i' := fun e => hd i ⟨.inl rfl, .inl e⟩
      have h2 : i ≠ j' := fun e => hd i ⟨.inl rfl, .inr e⟩
      have h3 : j ≠ i' := fun e => hd j ⟨.inr rfl, .inl e⟩
      have h4 : j ≠ j' := fun e => hd j ⟨.inr rfl, .inr e⟩
      refine ⟨_, .rdv hi' hj' (by simpa [update_of_ne h1.symm, update_of_ne h3.symm] using hp')
        (by simpa [update_of_ne h2.symm, update_of_ne h4.symm] using hq') hc', ?_⟩
      have := LStep.rdv (n := n) (s := ⟨update (update s.prog i' k') j' (kk' v'), s.chan⟩)
        hi hj (by simpa [update_of_ne h1, update_of_ne h2] using hp)
        (by simpa [update_of_ne h3, update_of_ne h4] using hq) hc
      convert this using 2
      all_goals upd
    | @col c kind v' kk' hne' hlt' hp' =>
      have hnc : i ∉ c := fun e => hd i ⟨.inl rfl, e⟩
      have hnc2 : j ∉ c := fun e => hd j ⟨.inr rfl, e⟩
      refine ⟨_, .col (v := v') (kk := kk') hne' hlt' (fun r hr => by
        have h1 : r ≠ i := fun e => hnc (e ▸ hr)
        have h2 : r ≠ j := fun e => hnc2 (e ▸ hr)
        simpa [update_of_ne h1, update_of_ne h2] using hp' r hr), ?_⟩
      have := LStep.rdv (n := n) (s := ⟨fun r => if r ∈ c then kk' r (c.map v') else s.prog r, s.chan⟩)
          hi hj (by simpa [hnc] using hp) (by simpa [hnc2] using hq) hc
      convert this using 2
      all_goals upd
  | @col c kind v kk hne hlt hp =>
    cases h2 with
    | @snd i' j' t' v' k' hi' hj' hp' =>
      have hnc : i' ∉ c := fun e => hd i' ⟨e, rfl⟩
      refine ⟨_, .snd hi' hj' (by simpa [hnc] using hp'), ?_⟩
      have := LStep.col (n := n) (s := ⟨update s.prog i' k', update s.chan (i', j', t') (s.chan (i', j', t') ++ [v'])⟩)
        (v := v) (kk := kk) hne hlt (fun r hr => by
          have h1 : r ≠ i' := fun e => hnc (e ▸ hr)
          simpa [update_of_ne h1] using hp r hr)
      convert this using 2
      all_goals upd
    | @rcv i' j' t' v' vs' k' hj' hp' hc' =>
      have hnc : j' ∉ c := fun e => hd j' ⟨e, rfl⟩
      refine ⟨_, .rcv (v := v') (vs := vs') hj' (by simpa [hnc] using hp') hc', ?_⟩
      have := LStep.col (n := n) (s := ⟨update s.prog j' (k' v'), update s.chan (i', j', t') vs'⟩)
        (v := v) (kk := kk) hne hlt (fun r hr => by
          have h1 : r ≠ j' := fun e => hnc (e ▸ hr)
          simpa [update_of_ne h1] using hp r hr)
      convert this using 2
      all_goals upd
    | @rdv i' j' t' v' k' kk' hi' hj' hp' hq' hc' =>
      have hnc : i' ∉ c := fun e => hd i' ⟨e, .inl rfl⟩
      have hnc2 : j' ∉ c := fun e => hd j' ⟨e, .inr rfl⟩
      refine ⟨_, .rdv hi' hj' (by simpa [hnc] using hp') (by simpa [hnc2] using hq') hc', ?_⟩
      have := LStep.col (n := n) (s := ⟨update (update s.prog i' k') j' (kk' v'), s.chan⟩)
        (v := v) (kk := kk) hne hlt (fun r hr => by
          have h1 : r ≠ i' := fun e => hnc (e ▸ hr)
          have h2 : r ≠ j' := fun e => hnc2 (e ▸ hr)
          simpa [update_of_ne h1, update_of_ne h2] using hp r hr)
      convert this using 2
      all_goals upd
    | @col c' kind' v' kk' hne' hlt' hp' =>
      have hdis : ∀ r, r ∈ c → r ∉ c' := fun r h1 h2 => hd r ⟨h1, h2⟩
      refine ⟨_, .col (v := v') (kk := kk') hne' hlt' (fun r hr => by
        have : r ∉ c := fun e => hdis r e hr
        simpa [this] using hp' r hr), ?_⟩
      have := LStep.col (n := n) (s := ⟨fun r => if r ∈ c' then kk' r (c'.map v') else s.prog r, s.chan⟩)
        (v := v) (kk := kk) hne hlt (fun r hr => by
          simpa [hdis r hr] using hp r hr)
      convert this using 2
      funext q
      by_cases h1 : q ∈ c
      · simp [h1, hdis q h1]
      · simp [h1]

end Verif

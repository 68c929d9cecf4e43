/-
  An executable scheduler, used only for concrete examples and counterexamples: the outcome it
  computes is the outcome of all executions.
-/
import Verif.MPI.Partial

namespace Verif
open Function Relation

variable {M α : Type}

/-- the program of each rank from a list -/
def toFun (ps : List (Prog M α)) : Nat → Prog M α := fun r => ps.getD r (.throw .protocol)

/-- the pending collective of a rank, if any -/
def collOf : Prog M α → Option (CollKind × List Nat × M × (List M → Prog M α))
  | .coll kind c v k => some (kind, c, v, k)
  | _ => none

/-- rank `r` can take part in a collective of kind `kind` on `c` -/
def readyColl (ps : List (Prog M α)) (kind : CollKind) (c : List Nat) (q : Nat) : Bool :=
  match collOf (toFun ps q) with
  | some (kind', c', _, _) => decide (q < ps.length) && decide (kind' = kind) && decide (c' = c)
  | none => false

/-- try to make a step involving rank `r` as a sender or a member of a collective -/
def tryStep (ps : List (Prog M α)) (r : Nat) : Option (List (Prog M α)) :=
  match toFun ps r with
  | .send j t v k =>
    match toFun ps j with
    | .recv i t' k' =>
      if i = r ∧ t' = t ∧ j < ps.length ∧ r < ps.length then some ((ps.set r k).set j (k' v)) else none
    | _ => none
  | .coll kind c _ _ =>
    if c ≠ [] ∧ c.all (readyColl ps kind c) then
      let vs := c.filterMap fun q => (collOf (toFun ps q)).map (·.2.2.1)
      some (ps.mapIdx fun q p => if q ∈ c then
        (match collOf p with
          | some (_, _, _, k) => k vs
          | none => p) else p)
    else none
  | _ => none

/-- run until nothing more is possible (or the fuel is exhausted) -/
def sim : Nat → List (Prog M α) → List (Prog M α)
  | 0, ps => ps
  | f + 1, ps =>
    match (List.range ps.length).findSome? (tryStep ps) with
    | some qs => sim f qs
    | none => ps

theorem collOf_some {p : Prog M α} {kind c v k} (h : collOf p = some (kind, c, v, k)) :
    p = .coll kind c v k := by
  cases p <;> simp [collOf] at h
  obtain ⟨rfl, rfl, rfl, rfl⟩ := h; rfl

theorem tryStep_sound {ps qs : List (Prog M α)} {r : Nat} (h : tryStep ps r = some qs) :
    qs.length = ps.length ∧ ∃ q', SStep ps.length (toFun ps) q' ∧ ∀ q < ps.length, q' q = toFun qs q := by
  unfold tryStep at h
  split at h
  · rename_i j t v k hr
    split at h
    · rename_i i t' k' hj
      split_ifs at h with hc
      obtain ⟨rfl, rfl, h1, h2⟩ := hc
      injection h with h
      subst h
      refine ⟨by simp, _, SStep.rdv h2 h1 hr hj, fun q hq => ?_⟩
      simp only [update_apply, toFun, List.getD_eq_getElem?_getD, List.getElem?_set, List.length_set]
      by_cases e1 : q = j
      · subst e1; simp [hq]
      · by_cases e2 : q = i
        · subst e2; simp [e1, Ne.symm e1, hq]
        · simp [e1, e2, Ne.symm e1, Ne.symm e2]
    · cases h
  · rename_i kind c v0 k0 hr
    split_ifs at h with hc
    obtain ⟨hne, hall⟩ := hc
    injection h with h
    subst h
    have hq : ∀ q ∈ c, q < ps.length ∧ ∃ v k, toFun ps q = .coll kind c v k := by
      intro q hq
      have := List.all_eq_true.1 hall q hq
      unfold readyColl at this
      split at this
      · rename_i kind' c' v k hk
        simp only [Bool.and_eq_true, decide_eq_true_eq] at this
        obtain ⟨⟨h1, rfl⟩, rfl⟩ := this
        exact ⟨h1, v, k, collOf_some hk⟩
      · simp at this
    have hq' : ∀ q, ∃ vk : M × (List M → Prog M α), q ∈ c → toFun ps q = .coll kind c vk.1 vk.2 := by
      intro q
      by_cases hqc : q ∈ c
      · obtain ⟨_, v, k, h⟩ := hq q hqc; exact ⟨(v, k), fun _ => h⟩
      · exact ⟨(v0, k0), fun h => absurd h hqc⟩
    obtain ⟨vk, hvk⟩ := Classical.axiomOfChoice hq'
    refine ⟨by simp, _, SStep.col (v := fun q => (vk q).1) (kk := fun q => (vk q).2) hne
      (fun q h => (hq q h).1) (fun q h => hvk q h), fun q hqn => ?_⟩
    have hvs : (c.filterMap fun q => (collOf (toFun ps q)).map (·.2.2.1)) = c.map fun q => (vk q).1 := by
      rw [List.filterMap_congr (g := fun q => some ((vk q).1)) (fun q hq => by rw [hvk q hq]; rfl)]
      simp
    rw [hvs]
    have hg : toFun (ps.mapIdx fun q p => if q ∈ c then
        (match collOf p with
          | some (_, _, _, k) => k (c.map fun q => (vk q).1)
          | none => p) else p) q = if q ∈ c then
        (match collOf (toFun ps q) with
          | some (_, _, _, k) => k (c.map fun q => (vk q).1)
          | none => toFun ps q) else toFun ps q := by
      simp [toFun, List.getD_eq_getElem?_getD, List.getElem?_mapIdx, hqn]
    rw [hg]
    by_cases hqc : q ∈ c
    · simp only [hqc, if_true]; rw [hvk q hqc]; rfl
    · simp only [hqc, if_false]
  · cases h

theorem sim_sound (f : Nat) (ps : List (Prog M α)) : (sim f ps).length = ps.length ∧
    ∃ q', ReflTransGen (SStep ps.length) (toFun ps) q' ∧ ∀ q < ps.length, q' q = toFun (sim f ps) q := by
  induction f generalizing ps with
  | zero => exact ⟨rfl, _, .refl, fun _ _ => rfl⟩
  | succ f ih =>
    rw [sim]
    split
    · rename_i qs hqs
      obtain ⟨r, _, h⟩ := List.exists_of_findSome?_eq_some hqs
      obtain ⟨hl, q1, h1, h2⟩ := tryStep_sound h
      obtain ⟨hl2, q2, h3, h4⟩ := ih qs
      rw [hl] at h3 h4
      obtain ⟨q3, h5, h6⟩ := steps_congr h3 (fun r hr => (h2 r hr).symm)
      exact ⟨hl2.trans hl, q3, .head h1 h5, fun q hq => by rw [← h6 q hq, h4 q hq]⟩
    · exact ⟨rfl, _, .refl, fun _ _ => rfl⟩

/-- outcome of a rank that cannot continue (`none` inside: it waits forever) -/
def outOf (ps : List (Prog M α)) (p : Prog M α) : Option (Option (Except Err α)) :=
  match p with
  | .ret a => some (some (.ok a))
  | .throw e => some (some (.error e))
  | .recv _ _ _ => some none
  | .coll kind c _ _ => if c.any fun q => !readyColl ps kind c q && decide (q < ps.length) then some none else none
  | .send _ _ _ _ => none

/-- the outcomes of all ranks, if the simulation came to an end -/
def simOut (f : Nat) (n : Nat) (ps : Nat → Prog M α) : Option (List (Option (Except Err α))) :=
  let s := sim f ((List.range n).map ps)
  s.mapM (outOf s)

theorem mapM_option_getElem {β γ : Type} {f : β → Option γ} {l : List β} {out : List γ} (h : l.mapM f = some out) :
    out.length = l.length ∧ ∀ i (hi : i < l.length), ∃ hi' : i < out.length, f l[i] = some out[i] := by
  induction l generalizing out with
  | nil => simp at h; subst h; simp
  | cons x l ih =>
    rw [List.mapM_cons] at h
    cases hx : f x with
    | none => simp [hx] at h
    | some y =>
      cases hl : l.mapM f with
      | none => simp [hx, hl] at h
      | some ys =>
        simp [hx, hl] at h
        subst h
        obtain ⟨h1, h2⟩ := ih hl
        refine ⟨by simp [h1], fun i hi => ?_⟩
        cases i with
        | zero => exact ⟨by simp, by simpa using hx⟩
        | succ i =>
          obtain ⟨h3, h4⟩ := h2 i (by simpa using hi)
          exact ⟨by simpa using h3, by simpa using h4⟩

/-- The computed outcome is the outcome of every execution. -/
theorem ends_of_sim (f : Nat) {n : Nat} {ps : Nat → Prog M α} {out : List (Option (Except Err α))}
    (h : simOut f n ps = some out) : Ends n ps (fun r => out.getD r none) := by
  obtain ⟨hl, q, h1, h2⟩ := sim_sound f ((List.range n).map ps)
  simp only [List.length_map, List.length_range] at hl h1 h2
  obtain ⟨q', h3, h4⟩ := steps_congr h1 (ps' := ps) (fun r hr => by
    simp [toFun, List.getD_eq_getElem?_getD, hr])
  obtain ⟨hlen, hget⟩ := mapM_option_getElem h
  refine Ends.of_blocked h3 (fun r hr => ?_)
  have hr' : r < (sim f ((List.range n).map ps)).length := by omega
  obtain ⟨hi, ho⟩ := hget r hr'
  have hq : ∀ r < n, q' r = toFun (sim f ((List.range n).map ps)) r := fun r hr => by rw [← h4 r hr, h2 r hr]
  have hqr := hq r hr
  have e : toFun (sim f ((List.range n).map ps)) r = (sim f ((List.range n).map ps))[r] := by
    simp [toFun, List.getD_eq_getElem?_getD, hr']
  rw [e] at hqr
  have e2 : out.getD r none = out[r] := by simp [List.getD_eq_getElem?_getD, hi]
  rw [e2]
  unfold outOf at ho
  split at ho
  · rename_i a ha
    injection ho with ho; rw [← ho]; dsimp only; rw [hqr, ha]; rfl
  · rename_i a ha
    injection ho with ho; rw [← ho]; dsimp only; rw [hqr, ha]; rfl
  · rename_i i t k ha
    injection ho with ho; rw [← ho]; exact .inl ⟨i, t, k, by rw [hqr, ha]⟩
  · rename_i kind c v k ha
    split_ifs at ho with hc
    injection ho with ho; rw [← ho]
    refine .inr ⟨kind, c, v, k, by rw [hqr, ha], ?_⟩
    obtain ⟨q0, hq0, hb⟩ := List.any_eq_true.1 hc
    simp only [Bool.and_eq_true, Bool.not_eq_true', decide_eq_true_eq, hl] at hb
    refine ⟨q0, hq0, fun v' k' hh => ?_⟩
    rw [hq q0 hb.2] at hh
    have := hb.1
    simp [readyColl, hh, collOf, hl, hb.2] at this
  · cases ho

/-- Simulation in which all ranks terminate. -/
theorem runs_of_sim (f : Nat) {n : Nat} {ps : Nat → Prog M α} {out : List (Except Err α)}
    (h : simOut f n ps = some (out.map some)) (hn : out.length = n) :
    Runs n ps (fun r => out.getD r (.error .protocol)) := by
  obtain ⟨hl, q, h1, h2⟩ := sim_sound f ((List.range n).map ps)
  simp only [List.length_map, List.length_range] at hl h1 h2
  obtain ⟨q', h3, h4⟩ := steps_congr h1 (ps' := ps) (fun r hr => by
    simp [toFun, List.getD_eq_getElem?_getD, hr])
  obtain ⟨hlen, hget⟩ := mapM_option_getElem h
  refine ⟨q', h3, fun r hr => ?_⟩
  have hr' : r < (sim f ((List.range n).map ps)).length := by omega
  obtain ⟨hi, ho⟩ := hget r hr'
  have hqr : q' r = toFun (sim f ((List.range n).map ps)) r := by rw [← h4 r hr, h2 r hr]
  have e : toFun (sim f ((List.range n).map ps)) r = (sim f ((List.range n).map ps))[r] := by
    simp [toFun, List.getD_eq_getElem?_getD, hr']
  rw [e] at hqr
  have e2 : out.getD r (.error .protocol) = out[r]'(by omega) := by
    simp [List.getD_eq_getElem?_getD, show r < out.length by omega]
  dsimp only
  rw [e2]
  simp only [List.getElem_map] at ho
  unfold outOf at ho
  split at ho
  · rename_i a ha
    injection ho with ho; injection ho with ho; rw [← ho, hqr, ha]; rfl
  · rename_i a ha
    injection ho with ho; injection ho with ho; rw [← ho, hqr, ha]; rfl
  · injection ho with ho; cases ho
  · split_ifs at ho; injection ho with ho; cases ho
  · cases ho

/-- results of all ranks, if all succeed -/
def simOk (f : Nat) (n : Nat) (ps : Nat → Prog M α) : Option (List α) :=
  (simOut f n ps).bind fun out => out.mapM fun
    | some (.ok a) => some a
    | _ => none

theorem runs_of_simOk (f : Nat) {n : Nat} {ps : Nat → Prog M α} {β : Type} {g : α → β} {outs : List β}
    (hn0 : 0 < n) (h : (simOk f n ps).map (List.map g) = some outs) :
    ∃ σ : Nat → α, Runs n ps (fun r => .ok (σ r)) ∧ ∀ r < n, outs[r]? = some (g (σ r)) := by
  obtain ⟨l, hl, rfl⟩ := Option.map_eq_some_iff.1 h
  unfold simOk at hl
  obtain ⟨out, ho, hm⟩ := Option.bind_eq_some_iff.1 hl
  obtain ⟨h1, h2⟩ := mapM_option_getElem hm
  have hn : out.length = n := by
    have := (mapM_option_getElem (show _ = some out from ho)).1
    rw [this, (sim_sound f ((List.range n).map ps)).1]; simp
  have hout : ∀ i (hi : i < out.length), out[i] = some (.ok (l[i]'(by omega))) := by
    intro i hi
    obtain ⟨hi', he⟩ := h2 i hi
    split at he
    · rename_i a ha; rw [ha]; injection he with he; rw [he]
    · cases he
  have hmap : out = (l.map fun a => (Except.ok a : Except Err α)).map some := by
    apply List.ext_getElem (by simp [h1])
    intro i hi hi'
    rw [hout i hi]; simp
  rw [hmap] at ho
  have hr := runs_of_sim f ho (by simp [h1, hn])
  refine ⟨fun r => l.getD r (l[0]'(by omega)), hr.congr (fun _ _ => rfl) (fun r hrn => ?_), fun r hrn => ?_⟩
  · have : r < l.length := by omega
    simp [List.getD_eq_getElem?_getD, this]
  · have : r < l.length := by omega
    simp [List.getD_eq_getElem?_getD, this]

end Verif

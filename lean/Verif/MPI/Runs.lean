/-
  `Always n ps ρ`: the meaning of "the SPMD program `ps` on `n` ranks returns `ρ`" used in all
  the property statements, and `Runs`, a compositional way of establishing it.
-/
import Verif.MPI.Confluence

namespace Verif
open Function Relation

variable {M α β : Type}

/-- Initial state: all channels empty. -/
def St.init (ps : Nat → Prog M α) : St M α := ⟨ps, fun _ => []⟩

/-- All of the ranks `0 .. n-1` have terminated, rank `r` with result (or exception) `ρ r`. -/
def Final (n : Nat) (s : St M α) (ρ : Nat → Except Err α) : Prop :=
  ∀ r < n, s.prog r = Prog.lift (ρ r)

/-- Whatever the scheduler does and whichever sends are buffered, the ranks `0 .. n-1` running
    `ps` terminate, rank `r` with result `ρ r`.  Moreover no buffering is ever needed. -/
structure Always (n : Nat) (ps : Nat → Prog M α) (ρ : Nat → Except Err α) : Prop where
  /-- all executions are finite -/
  terminates : ∃ B, ∀ k s, RunN n k (St.init ps) s → k ≤ B
  /-- an execution that cannot continue has terminated on all ranks, with outcome `ρ` -/
  outcome : ∀ s, Run n (St.init ps) s → Stuck n s → Final n s ρ
  /-- an execution can always continue without buffering, unless terminated -/
  progress : ∀ s, Run n (St.init ps) s → Final n s ρ ∨ ∃ s', NBStep n s s'

/-- Unbuffered steps on programs alone (channels stay empty). -/
inductive SStep (n : Nat) : (Nat → Prog M α) → (Nat → Prog M α) → Prop
  | rdv {ps : Nat → Prog M α} {i j t v k k'} (hi : i < n) (hj : j < n) (hp : ps i = .send j t v k)
      (hq : ps j = .recv i t k') : SStep n ps (update (update ps i k) j (k' v))
  | col {ps : Nat → Prog M α} {c kind} {v : Nat → M} {kk : Nat → List M → Prog M α} (hne : c ≠ [])
      (hlt : ∀ r ∈ c, r < n) (hp : ∀ r ∈ c, ps r = .coll kind c (v r) (kk r)) :
      SStep n ps (fun r => if r ∈ c then kk r (c.map v) else ps r)

/-- There is an unbuffered execution of `ps` in which all ranks terminate with `ρ`. -/
def Runs (n : Nat) (ps : Nat → Prog M α) (ρ : Nat → Except Err α) : Prop :=
  ∃ qs, ReflTransGen (SStep n) ps qs ∧ ∀ r < n, qs r = Prog.lift (ρ r)

theorem SStep.nb {n} {ps qs : Nat → Prog M α} (h : SStep n ps qs) :
    NBStep n (St.init ps) (St.init qs) := by
  cases h with
  | rdv hi hj hp hq => exact ⟨_, LStep.rdv (s := St.init ps) hi hj hp hq rfl, by simp⟩
  | col hne hlt hp => exact ⟨_, LStep.col (s := St.init ps) hne hlt hp, by simp⟩

theorem Final.stuck {n} {s : St M α} {ρ} (h : Final n s ρ) : Stuck n s := by
  rintro s' ⟨l, hl⟩
  have aux : ∀ r, r < n → (∃ a, s.prog r = .ret a) ∨ ∃ e, s.prog r = .throw e := by
    intro r hr
    have := h r hr
    cases he : ρ r with
    | ok a => exact .inl ⟨a, by rw [this, he]; rfl⟩
    | error e => exact .inr ⟨e, by rw [this, he]; rfl⟩
  cases hl with
  | snd hi hj hp => rcases aux _ hi with ⟨a, e⟩ | ⟨a, e⟩ <;> rw [e] at hp <;> cases hp
  | rcv hj hp hc => rcases aux _ hj with ⟨a, e⟩ | ⟨a, e⟩ <;> rw [e] at hp <;> cases hp
  | rdv hi hj hp hq hc => rcases aux _ hi with ⟨a, e⟩ | ⟨a, e⟩ <;> rw [e] at hp <;> cases hp
  | @col c kind v kk hne hlt hp =>
    obtain ⟨r, hr⟩ := List.exists_mem_of_ne_nil c hne
    have hp := hp r hr
    rcases aux r (hlt r hr) with ⟨a, e⟩ | ⟨a, e⟩ <;> rw [e] at hp <;> cases hp

theorem SStep.nbRun {n} {ps qs : Nat → Prog M α} (h : ReflTransGen (SStep n) ps qs) :
    NBRun n (St.init ps) (St.init qs) := by
  induction h with
  | refl => exact .refl
  | tail _ h2 ih => exact ReflTransGen.tail ih h2.nb

/-- One unbuffered terminating execution is enough: all executions terminate, with the same
    outcome. -/
theorem Runs.always {n} {ps : Nat → Prog M α} {ρ} (h : Runs n ps ρ) : Always n ps ρ := by
  obtain ⟨qs, h, hf⟩ := h
  have hnb := SStep.nbRun h
  have hfin : Final n (St.init qs) ρ := hf
  have hst := hfin.stuck
  refine ⟨hnb.bounded hst, fun s hr hs => ?_, fun s hr => ?_⟩
  · have := hnb.to_stuck hst hr
    rw [← Run.stuck_eq hs this.run]; exact hfin
  · have := hnb.to_stuck hst hr
    rcases ReflTransGen.cases_head this with e | ⟨c, h1, _⟩
    · left; rw [e]; exact hfin
    · exact .inr ⟨c, h1⟩

/-- The outcome of an SPMD program is unique. -/
theorem Always.congr {n} {ps : Nat → Prog M α} {ρ σ} (h : Always n ps ρ) (e : ∀ r < n, ρ r = σ r) : Always n ps σ :=
  have hf : ∀ s, Final n s ρ → Final n s σ := fun _ hs r hr => by rw [hs r hr, e r hr]
  ⟨h.terminates, fun s h1 h2 => hf s (h.outcome s h1 h2), fun s hs => (h.progress s hs).imp (hf s) id⟩

theorem Always.unique {n} {ps : Nat → Prog M α} {ρ σ} (h : Always n ps ρ) (h' : Always n ps σ) :
    ∀ r < n, ρ r = σ r := by
  obtain ⟨B, hB⟩ := h.terminates
  have : ∃ s, Run n (St.init ps) s ∧ Stuck n s := by
    by_contra hcon
    push Not at hcon
    have grow : ∀ k, ∃ s, RunN n k (St.init ps) s := by
      intro k
      induction k with
      | zero => exact ⟨_, .zero⟩
      | succ k ih =>
        obtain ⟨s, hs⟩ := ih
        have := hcon s hs.run
        unfold Stuck at this
        push Not at this
        obtain ⟨s', h'⟩ := this
        exact ⟨s', hs.succ h'⟩
    obtain ⟨s, hs⟩ := grow (B + 1)
    have := hB _ _ hs
    omega
  obtain ⟨s, h1, h2⟩ := this
  intro r hr
  have e1 := h.outcome s h1 h2 r hr
  have e2 := h'.outcome s h1 h2 r hr
  rw [e1] at e2
  cases h3 : ρ r <;> cases h4 : σ r <;> simp [h3, h4, Prog.lift] at e2 <;> simp [e2]

/-! ### Composition -/

theorem SStep.congr {n} {ps qs ps' : Nat → Prog M α} (h : SStep n ps qs)
    (he : ∀ r < n, ps r = ps' r) : ∃ qs', SStep n ps' qs' ∧ ∀ r < n, qs r = qs' r := by
  cases h with
  | @rdv i j t v k k' hi hj hp hq =>
    refine ⟨_, .rdv hi hj (by rw [← he i hi]; exact hp) (by rw [← he j hj]; exact hq), ?_⟩
    intro r hr
    simp only [update_apply, he r hr]
  | @col c kind v kk hne hlt hp =>
    refine ⟨_, .col (v := v) (kk := kk) hne hlt (fun r hr => by rw [← he r (hlt r hr)]; exact hp r hr), ?_⟩
    intro r hr
    simp only [he r hr]

theorem Runs.congr {n} {ps ps' : Nat → Prog M α} {ρ ρ'} (h : Runs n ps ρ)
    (he : ∀ r < n, ps r = ps' r) (hρ : ∀ r < n, ρ r = ρ' r) : Runs n ps' ρ' := by
  obtain ⟨qs, h, hf⟩ := h
  have : ∃ qs', ReflTransGen (SStep n) ps' qs' ∧ ∀ r < n, qs r = qs' r := by
    clear hf
    induction h with
    | refl => exact ⟨ps', .refl, he⟩
    | tail _ h2 ih =>
      obtain ⟨q1, h3, h4⟩ := ih
      obtain ⟨q2, h5, h6⟩ := h2.congr h4
      exact ⟨q2, h3.tail h5, h6⟩
  obtain ⟨qs', h1, h2⟩ := this
  exact ⟨qs', h1, fun r hr => by rw [← h2 r hr, hf r hr, hρ r hr]⟩

theorem Runs.of_steps {n} {ps qs : Nat → Prog M α} {ρ} (h : ReflTransGen (SStep n) ps qs)
    (h2 : Runs n qs ρ) : Runs n ps ρ := by
  obtain ⟨q, h3, h4⟩ := h2
  exact ⟨q, h.trans h3, h4⟩

theorem SStep.bind {n} {ps qs : Nat → Prog M α} (k : Nat → α → Prog M β) (h : SStep n ps qs) :
    SStep n (fun r => (ps r).bind (k r)) (fun r => (qs r).bind (k r)) := by
  cases h with
  | @rdv i j t v kc k' hi hj hp hq =>
    have := SStep.rdv (n := n) (ps := fun r => (ps r).bind (k r)) (t := t) (v := v) (k := kc.bind (k i))
      (k' := fun m => (k' m).bind (k j)) hi hj (by simp [hp, Prog.bind]) (by simp [hq, Prog.bind])
    convert this using 1
    funext r
    simp only [update_apply]
    split_ifs with h1 h2
    · subst h1; rfl
    · subst h2; rfl
    · rfl
  | @col c kind v kk hne hlt hp =>
    have := SStep.col (n := n) (ps := fun r => (ps r).bind (k r)) (kind := kind) (v := v)
      (kk := fun r ms => (kk r ms).bind (k r)) hne hlt
      (fun r hr => by simp only [hp r hr, Prog.bind])
    convert this using 1
    funext r
    dsimp only
    split_ifs <;> rfl

theorem Runs.bind {n} {ps : Nat → Prog M α} {ρ : Nat → Except Err α} {k : Nat → α → Prog M β}
    {σ : Nat → Except Err β} (h1 : Runs n ps ρ)
    (h2 : Runs n (fun r => (Prog.lift (ρ r)).bind (k r)) σ) :
    Runs n (fun r => (ps r).bind (k r)) σ := by
  obtain ⟨qs, h, hf⟩ := h1
  refine Runs.of_steps (qs := fun r => (qs r).bind (k r)) ?_ ?_
  · clear hf h2
    induction h with
    | refl => exact .refl
    | tail _ h2 ih => exact ih.tail (h2.bind k)
  · exact h2.congr (fun r hr => by rw [hf r hr]) (fun _ _ => rfl)

/-- Sequencing after a computation that succeeds on all ranks. -/
theorem Runs.bind_ok {n} {ps : Nat → Prog M α} {a : Nat → α} {k : Nat → α → Prog M β}
    {σ : Nat → Except Err β} (h1 : Runs n ps (fun r => .ok (a r)))
    (h2 : Runs n (fun r => k r (a r)) σ) :
    Runs n (fun r => (ps r).bind (k r)) σ := h1.bind h2

theorem Runs.lift {n} (ρ : Nat → Except Err α) : Runs (M := M) n (fun r => Prog.lift (ρ r)) ρ :=
  ⟨_, .refl, fun _ _ => rfl⟩

theorem Runs.ret {n} (a : Nat → α) : Runs (M := M) n (fun r => .ret (a r)) (fun r => .ok (a r)) :=
  ⟨_, .refl, fun _ _ => rfl⟩

theorem Runs.throw {n} (e : Nat → Err) :
    Runs (M := M) (α := α) n (fun r => .throw (e r)) (fun r => .error (e r)) :=
  ⟨_, .refl, fun _ _ => rfl⟩

/-- All ranks take part in the same collective on the world communicator. -/
theorem Runs.coll_world {n kind} {v : Nat → M} {k : Nat → List M → Prog M α} {ρ}
    (h : Runs n (fun r => k r ((List.range n).map v)) ρ) :
    Runs n (fun r => .coll kind (List.range n) (v r) (k r)) ρ := by
  rcases Nat.eq_zero_or_pos n with rfl | hn
  · exact ⟨_, .refl, by simp⟩
  · refine Runs.of_steps (.single (SStep.col (v := v) (kk := k) ?_ ?_ (fun r _ => rfl))) ?_
    · simp; omega
    · simp
    · refine h.congr (fun r hr => ?_) (fun _ _ => rfl)
      simp [hr]

/-- Collectives on the members of a partition of the ranks (sub-communicators). -/
theorem Runs.coll_sub {n kind} {c : Nat → List Nat} {v : Nat → M} {k : Nat → List M → Prog M α} {ρ}
    (hself : ∀ r < n, r ∈ c r) (hlt : ∀ r < n, ∀ q ∈ c r, q < n)
    (hpart : ∀ r < n, ∀ q ∈ c r, c q = c r)
    (h : Runs n (fun r => k r ((c r).map v)) ρ) :
    Runs n (fun r => .coll kind (c r) (v r) (k r)) ρ := by
  classical
  have main : ∀ m ≤ n, ∃ qs : Nat → Prog M α,
      ReflTransGen (SStep n) (fun r => .coll kind (c r) (v r) (k r)) qs ∧
      ∀ r < n, qs r = if ∃ q < m, r ∈ c q then k r ((c r).map v)
        else .coll kind (c r) (v r) (k r) := by
    intro m
    induction m with
    | zero => intro _; exact ⟨_, .refl, by simp⟩
    | succ m ih =>
      intro hm
      obtain ⟨qs, h1, h2⟩ := ih (by omega)
      by_cases hq : ∃ q < m, m ∈ c q
      · refine ⟨qs, h1, fun r hr => ?_⟩
        rw [h2 r hr]
        have : (∃ q < m, r ∈ c q) ↔ ∃ q < m + 1, r ∈ c q := by
          constructor
          · rintro ⟨q, h3, h4⟩; exact ⟨q, by omega, h4⟩
          · rintro ⟨q, h3, h4⟩
            by_cases hqm : q < m
            · exact ⟨q, hqm, h4⟩
            · have : q = m := by omega
              subst this
              obtain ⟨q', h5, h6⟩ := hq
              exact ⟨q', h5, by rw [← hpart q' (by omega) _ h6]; exact h4⟩
        simp only [this]
      · have hmn : m < n := by omega
        have hnot : ∀ r ∈ c m, ¬ ∃ q < m, r ∈ c q := by
          rintro r hr ⟨q, h3, h4⟩
          apply hq
          refine ⟨q, h3, ?_⟩
          rw [← hpart q (by omega) r h4, hpart m hmn r hr]
          exact hself m hmn
        refine ⟨_, h1.tail (SStep.col (c := c m) (kind := kind) (v := v) (kk := k)
          (List.ne_nil_of_mem (hself m hmn)) (hlt m hmn) ?_), ?_⟩
        · intro r hr
          rw [h2 r (hlt m hmn r hr), if_neg (hnot r hr), hpart m hmn r hr]
        · intro r hr
          by_cases hrm : r ∈ c m
          · rw [if_pos hrm, if_pos ⟨m, by omega, hrm⟩, hpart m hmn r hrm]
          · rw [if_neg hrm, h2 r hr]
            have : (∃ q < m, r ∈ c q) ↔ ∃ q < m + 1, r ∈ c q := by
              constructor
              · rintro ⟨q, h3, h4⟩; exact ⟨q, by omega, h4⟩
              · rintro ⟨q, h3, h4⟩
                by_cases hqm : q < m
                · exact ⟨q, hqm, h4⟩
                · have : q = m := by omega
                  subst this; exact absurd h4 hrm
            simp only [this]
  obtain ⟨qs, h1, h2⟩ := main n (Nat.le_refl _)
  refine Runs.of_steps h1 (h.congr (fun r hr => ?_) (fun _ _ => rfl))
  rw [h2 r hr, if_pos ⟨r, hr, hself r hr⟩]

/-- First `m` messages of a shift up: every rank but the first receives from its predecessor and
    continues with `c r`; ranks below `m`, given the message they expect, send to their successor. -/
theorem shift_up_steps {n t} {v : Nat → M} {c : Nat → Option M → Prog M α} {k : Nat → Prog M α} {m : Nat} (hm : m < n)
    (hc : ∀ r < m, c r (if r = 0 then none else some (v (r - 1))) = .send (r + 1) t (v r) (k r)) :
    ∃ qs : Nat → Prog M α, ReflTransGen (SStep n)
        (fun r => if r = 0 then c r none else .recv (r - 1) t (fun x => c r (some x))) qs ∧
      ∀ r < n, qs r = if r < m then k r
        else if r = m then c r (if r = 0 then none else some (v (r - 1)))
        else .recv (r - 1) t (fun x => c r (some x)) := by
  induction m with
  | zero =>
    refine ⟨_, .refl, fun r hr => ?_⟩
    by_cases h0 : r = 0
    · subst h0; simp
    · simp [h0]
  | succ m ih =>
    obtain ⟨qs, h1, h2⟩ := ih (by omega) (fun r hr => hc r (by omega))
    refine ⟨_, h1.tail (SStep.rdv (i := m) (j := m + 1) (t := t) (v := v m)
      (k := k m) (k' := fun x => c (m + 1) (some x)) (by omega) hm ?_ ?_), ?_⟩
    · rw [h2 m (by omega), if_neg (by omega), if_pos rfl, hc m (by omega)]
    · rw [h2 (m + 1) hm, if_neg (by omega), if_neg (by omega)]; rfl
    · intro r hr
      simp only [update_apply]
      by_cases h3 : r = m + 1
      · subst h3; simp
      · by_cases h4 : r = m
        · subst h4; simp
        · have e1 : (r < m + 1) = (r < m) := by simp; omega
          simp [h3, h4, h2 r hr, e1]

/-- Shift up: every rank but the first receives from its predecessor, then every rank but the
    last sends to its successor (`add_ghost_cells`, front phase). -/
theorem Runs.shift_up {n t} {v : Nat → M} {c : Nat → Option M → Prog M α} {k : Nat → Prog M α} {ρ}
    (hc : ∀ r < n, c r (if r = 0 then none else some (v (r - 1))) = if r = n - 1 then k r else .send (r + 1) t (v r) (k r))
    (h : Runs n k ρ) :
    Runs n (fun r => if r = 0 then c r none else .recv (r - 1) t (fun x => c r (some x))) ρ := by
  rcases Nat.eq_zero_or_pos n with rfl | hn
  · exact ⟨_, .refl, by simp⟩
  obtain ⟨qs, h1, h2⟩ := shift_up_steps (n := n) (m := n - 1) (by omega) (c := c) (k := k) (t := t) (v := v)
    (fun r hr => by rw [hc r (by omega), if_neg (by omega)])
  refine Runs.of_steps h1 (h.congr (fun r hr => ?_) (fun _ _ => rfl))
  rw [h2 r hr]
  by_cases h3 : r < n - 1
  · simp [h3]
  · have : r = n - 1 := by omega
    rw [if_neg h3, if_pos this, hc r hr, if_pos this]

/-- Shift down: every rank but the first sends to its predecessor, then every rank but the last
    receives from its successor (`add_ghost_cells`, back phase). -/
theorem Runs.shift_down {n t} {v : Nat → M} {k : Nat → Option M → Prog M α} {ρ}
    (h : Runs n (fun r => k r (if r = n - 1 then none else some (v (r + 1)))) ρ) :
    Runs n (fun r =>
      if r = 0 then (if r = n - 1 then k r none else .recv (r + 1) t (fun m => k r (some m)))
      else .send (r - 1) t (v r) (if r = n - 1 then k r none
        else .recv (r + 1) t (fun m => k r (some m)))) ρ := by
  set ps : Nat → Prog M α := fun r =>
      if r = 0 then (if r = n - 1 then k r none else .recv (r + 1) t (fun m => k r (some m)))
      else .send (r - 1) t (v r) (if r = n - 1 then k r none
        else .recv (r + 1) t (fun m => k r (some m))) with hps
  have main : ∀ m, m < n → ∃ qs : Nat → Prog M α, ReflTransGen (SStep n) ps qs ∧
      ∀ r < n, qs r = if r < m then k r (some (v (r + 1)))
        else if r = m then (if r = n - 1 then k r none
          else .recv (r + 1) t (fun m => k r (some m)))
        else ps r := by
    intro m
    induction m with
    | zero =>
      intro hn
      refine ⟨ps, .refl, fun r hr => ?_⟩
      by_cases h0 : r = 0
      · subst h0; simp [hps]
      · simp [h0]
    | succ m ih =>
      intro hm
      obtain ⟨qs, h1, h2⟩ := ih (by omega)
      refine ⟨_, h1.tail (SStep.rdv (i := m + 1) (j := m) (t := t) (v := v (m + 1))
        (k := if m + 1 = n - 1 then k (m + 1) none
          else .recv (m + 1 + 1) t (fun x => k (m + 1) (some x)))
        (k' := fun x => k m (some x)) hm (by omega) ?_ ?_), ?_⟩
      · rw [h2 (m + 1) hm, if_neg (by omega), if_neg (by omega)]; simp [hps]
      · rw [h2 m (by omega)]
        have : m ≠ n - 1 := by omega
        simp [this]
      · intro r hr
        simp only [update_apply]
        by_cases h3 : r = m + 1
        · subst h3; simp
        · by_cases h4 : r = m
          · subst h4; simp
          · have e1 : (r < m + 1) = (r < m) := by simp; omega
            simp [h3, h4, h2 r hr, e1]
  rcases Nat.eq_zero_or_pos n with rfl | hn
  · exact ⟨_, .refl, by simp⟩
  obtain ⟨qs, h1, h2⟩ := main (n - 1) (by omega)
  refine Runs.of_steps h1 (h.congr (fun r hr => ?_) (fun _ _ => rfl))
  rw [h2 r hr]
  by_cases h3 : r < n - 1
  · have : r ≠ n - 1 := by omega
    simp [h3, this]
  · have : r = n - 1 := by omega
    simp [this]

end Verif

/-
  Communicators other than COMM_WORLD: the ranks of the world are divided among communicators, and on
  each communicator a program runs that numbers its ranks 0, 1, … in the order of the communicator.
-/
import Verif.MPI.Bind

namespace Verif
open Function Relation

variable {M α β : Type}

/-- the same program, with other rank numbers in its MPI calls -/
def Prog.rename (f : Nat → Nat) : Prog M α → Prog M α
  | .ret a => .ret a
  | .throw e => .throw e
  | .send d t v k => .send (f d) t v (k.rename f)
  | .recv s t k => .recv (f s) t fun m => (k m).rename f
  | .coll kind c v k => .coll kind (c.map f) v fun ms => (k ms).rename f

theorem Prog.rename_bind (f : Nat → Nat) (p : Prog M α) (k : α → Prog M β) : (p.bind k).rename f = (p.rename f).bind fun a => (k a).rename f := by
  induction p with
  | ret a => rfl
  | throw e => rfl
  | send d t v p ih => simp only [Prog.bind, Prog.rename, ih]
  | recv s t p ih => simp only [Prog.bind, Prog.rename, ih]
  | coll kind c v p ih => simp only [Prog.bind, Prog.rename, ih]

@[simp] theorem Prog.rename_lift (f : Nat → Nat) (o : Except Err α) : (Prog.lift o : Prog M α).rename f = Prog.lift o := by
  cases o <;> rfl

/-- The ranks `0 … n-1` of the world divided among communicators: `grp r` is the communicator of rank `r` (any number), `mem g` its members in the order of
    the communicator. -/
structure Comms (n : Nat) where
  grp : Nat → Nat
  mem : Nat → List Nat
  nodup : ∀ g, (mem g).Nodup
  lt : ∀ g, ∀ q ∈ mem g, q < n
  iff : ∀ r < n, ∀ g, r ∈ mem g ↔ g = grp r

namespace Comms
variable {n : Nat} (C : Comms n)

/-- the size of a communicator -/
def size (g : Nat) : Nat := (C.mem g).length

/-- the rank in its communicator of rank `r` of the world -/
def idx (r : Nat) : Nat := (C.mem (C.grp r)).idxOf r

/-- the rank in the world of rank `i` of communicator `g` -/
def glob (g i : Nat) : Nat := (C.mem g).getD i 0

variable {C}

theorem glob_get {g i : Nat} (hi : i < C.size g) : C.glob g i = (C.mem g)[i]'hi := by
  unfold glob
  rw [List.getD_eq_getElem?_getD, List.getElem?_eq_getElem hi, Option.getD_some]

theorem mem_grp {r : Nat} (hr : r < n) : r ∈ C.mem (C.grp r) := (C.iff r hr _).2 rfl

theorem idx_lt {r : Nat} (hr : r < n) : C.idx r < C.size (C.grp r) := List.idxOf_lt_length_of_mem (mem_grp hr)

theorem glob_mem {g i : Nat} (hi : i < C.size g) : C.glob g i ∈ C.mem g := by
  rw [glob_get hi]
  exact List.getElem_mem _

theorem glob_lt {g i : Nat} (hi : i < C.size g) : C.glob g i < n := C.lt g _ (glob_mem hi)

theorem grp_glob {g i : Nat} (hi : i < C.size g) : C.grp (C.glob g i) = g := ((C.iff _ (glob_lt hi) g).1 (glob_mem hi)).symm

theorem idx_glob {g i : Nat} (hi : i < C.size g) : C.idx (C.glob g i) = i := by
  unfold idx
  rw [grp_glob hi]
  rw [glob_get hi]
  exact (C.nodup g).idxOf_getElem i hi

theorem glob_idx {r : Nat} (hr : r < n) : C.glob (C.grp r) (C.idx r) = r := by
  rw [glob_get (idx_lt hr)]
  exact List.getElem_idxOf _

theorem glob_eq {g i r : Nat} (hi : i < C.size g) (hr : r < n) : r = C.glob g i ↔ C.grp r = g ∧ C.idx r = i := by
  constructor
  · rintro rfl
    exact ⟨grp_glob hi, idx_glob hi⟩
  · rintro ⟨rfl, rfl⟩
    exact (glob_idx hr).symm

/-- each communicator runs its own programs -/
def world (C : Comms n) (qs : Nat → Nat → Prog M α) (r : Nat) : Prog M α := (qs (C.grp r) (C.idx r)).rename (C.glob (C.grp r))

theorem mem_map {g : Nat} {c : List Nat} (hc : ∀ i ∈ c, i < C.size g) {r : Nat} (hr : r < n) : r ∈ c.map (C.glob g) ↔ C.grp r = g ∧ C.idx r ∈ c := by
  rw [List.mem_map]
  constructor
  · rintro ⟨i, hi, rfl⟩
    rw [grp_glob (hc i hi), idx_glob (hc i hi)]
    exact ⟨rfl, hi⟩
  · rintro ⟨rfl, h⟩
    exact ⟨_, h, glob_idx hr⟩

theorem world_step {qs : Nat → Nat → Prog M α} {g : Nat} {q' : Nat → Prog M α} {ρ} (h : SStep (C.size g) (qs g) q') (h2 : Runs n (C.world (update qs g q')) ρ) :
    Runs n (C.world qs) ρ := by
  cases h with
  | @rdv i j t v k k' hi hj hp hq =>
    refine Runs.of_steps (.single (SStep.rdv (i := C.glob g i) (j := C.glob g j) (t := t) (v := v) (k := k.rename (C.glob g)) (k' := fun m => (k' m).rename (C.glob g))
      (glob_lt hi) (glob_lt hj) ?_ ?_)) (h2.congr (fun r hr => ?_) fun _ _ => rfl)
    · simp only [world, grp_glob hi, idx_glob hi, hp, Prog.rename]
    · simp only [world, grp_glob hj, idx_glob hj, hq, Prog.rename]
    · simp only [world, update_apply]
      by_cases e : C.grp r = g
      · rw [if_pos e, update_apply, update_apply]
        by_cases e1 : C.idx r = j
        · rw [if_pos e1, if_pos ((glob_eq hj hr).2 ⟨e, e1⟩), e]
        · rw [if_neg e1, if_neg fun h => e1 ((glob_eq hj hr).1 h).2]
          by_cases e2 : C.idx r = i
          · rw [if_pos e2, if_pos ((glob_eq hi hr).2 ⟨e, e2⟩), e]
          · rw [if_neg e2, if_neg fun h => e2 ((glob_eq hi hr).1 h).2, e]
      · rw [if_neg e, if_neg fun h => e ((glob_eq hj hr).1 h).1, if_neg fun h => e ((glob_eq hi hr).1 h).1]
  | @col c kind v kk hne hlt hp =>
    have hin : ∀ r ∈ c.map (C.glob g), r < n := fun r hr => by
      obtain ⟨i, hi, rfl⟩ := List.mem_map.1 hr
      exact glob_lt (hlt i hi)
    refine Runs.of_steps (.single (SStep.col (c := c.map (C.glob g)) (kind := kind) (v := fun r => v (C.idx r)) (kk := fun r ms => (kk (C.idx r) ms).rename (C.glob g))
      (by simpa using hne) hin fun r hr => ?_)) (h2.congr (fun r hr => ?_) fun _ _ => rfl)
    · obtain ⟨e, h3⟩ := (mem_map hlt (hin r hr)).1 hr
      simp only [world, e, hp _ h3, Prog.rename]
    · have e1 : (c.map (C.glob g)).map (fun r => v (C.idx r)) = c.map v := by
        rw [List.map_map]
        exact List.map_congr_left fun i hi => by simp only [comp_apply, idx_glob (hlt i hi)]
      simp only [world, update_apply, e1]
      by_cases e : C.grp r = g
      · rw [if_pos e]
        by_cases e2 : C.idx r ∈ c
        · rw [if_pos e2, if_pos ((mem_map hlt hr).2 ⟨e, e2⟩), e]
        · rw [if_neg e2, if_neg fun h => e2 ((mem_map hlt hr).1 h).2, e]
      · rw [if_neg e, if_neg fun h => e ((mem_map hlt hr).1 h).1]

theorem world_steps {qs : Nat → Nat → Prog M α} {g : Nat} {q q' : Nat → Prog M α} {ρ} (h : ReflTransGen (SStep (C.size g)) q q') (h2 : Runs n (C.world (update qs g q')) ρ) :
    Runs n (C.world (update qs g q)) ρ := by
  induction h with
  | refl => exact h2
  | tail _ h3 ih => exact ih (world_step (qs := update qs g _) (by rw [update_self]; exact h3) (by rw [update_idem]; exact h2))

end Comms

/-- Programs on disjoint communicators do not interfere: on each communicator the outcome is the one the programs have when its ranks are all ranks. -/
theorem Runs.comms {n : Nat} (C : Comms n) {ps : Nat → Nat → Prog M α} {ρ : Nat → Nat → Except Err α} (h : ∀ r < n, Runs (C.size (C.grp r)) (ps (C.grp r)) (ρ (C.grp r))) :
    Runs n (C.world ps) (fun r => ρ (C.grp r) (C.idx r)) := by
  classical
  have h' : ∀ g, ∃ qs, (∃ r < n, C.grp r = g) → ReflTransGen (SStep (C.size g)) (ps g) qs ∧ ∀ i < C.size g, qs i = Prog.lift (ρ g i) := by
    intro g
    by_cases hg : ∃ r < n, C.grp r = g
    · obtain ⟨r, hr, rfl⟩ := hg
      obtain ⟨qs, h1, h2⟩ := h r hr
      exact ⟨qs, fun _ => ⟨h1, h2⟩⟩
    · exact ⟨ps g, fun h => absurd h hg⟩
  choose fin hfin using h'
  have main : ∀ j m, m + j = n → Runs n (C.world fun g => if ∃ r < m, C.grp r = g then fin g else ps g) (fun r => ρ (C.grp r) (C.idx r)) := by
    intro j
    induction j with
    | zero =>
      intro m hm
      refine ⟨_, .refl, fun r hr => ?_⟩
      simp only [Comms.world]
      rw [if_pos ⟨r, by omega, rfl⟩, (hfin _ ⟨r, hr, rfl⟩).2 _ (Comms.idx_lt hr), Prog.rename_lift]
    | succ j ih =>
      intro m hm
      have h1 := ih (m + 1) (by omega)
      have hmn : m < n := by omega
      set f : Nat → Nat → Prog M α := fun g => if ∃ r < m, C.grp r = g then fin g else ps g with hf
      have e1 : (fun g => if ∃ r < m + 1, C.grp r = g then fin g else ps g) = update f (C.grp m) (fin (C.grp m)) := by
        funext g
        rw [update_apply]
        by_cases e : g = C.grp m
        · rw [if_pos e, if_pos ⟨m, by omega, e.symm⟩, e]
        · rw [if_neg e, hf]
          dsimp only
          by_cases e2 : ∃ r < m, C.grp r = g
          · obtain ⟨r, h3, h4⟩ := e2
            rw [if_pos ⟨r, by omega, h4⟩, if_pos ⟨r, h3, h4⟩]
          · rw [if_neg e2, if_neg]
            rintro ⟨r, h3, h4⟩
            rcases Nat.lt_succ_iff_lt_or_eq.1 h3 with h5 | h5
            · exact e2 ⟨r, h5, h4⟩
            · subst h5; exact e h4.symm
      rw [e1] at h1
      have e2 : ReflTransGen (SStep (C.size (C.grp m))) (f (C.grp m)) (fin (C.grp m)) := by
        rw [hf]
        dsimp only
        by_cases e2 : ∃ r < m, C.grp r = C.grp m
        · rw [if_pos e2]
        · rw [if_neg e2]
          exact (hfin _ ⟨m, hmn, rfl⟩).1
      have h2 := Comms.world_steps e2 h1
      rwa [update_eq_self] at h2
  have := main n 0 (by omega)
  simpa using this

theorem Always.comms {n : Nat} (C : Comms n) {ps : Nat → Nat → Prog M α} {ρ : Nat → Nat → Except Err α}
    (h : ∀ r < n, Always (C.size (C.grp r)) (ps (C.grp r)) (ρ (C.grp r))) : Always n (C.world ps) (fun r => ρ (C.grp r) (C.idx r)) :=
  (Runs.comms C fun r hr => (h r hr).runs).always

end Verif

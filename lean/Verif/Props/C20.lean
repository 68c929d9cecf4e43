/- C20 (layout invariant), C03 (consistency of broadcast arrays), C51 (no dependence on
   uninitialised memory): theorems about all histories of API calls. -/
import Verif.Proofs.History2
import Verif.MPI.Sim
import Mathlib.Data.Rat.Star

namespace Verif
open NDArray

variable {K : Type} [Field K] [StarRing K] [CharZero K]

/-- The objects `d r` (`r < n`) make up one distributed array. -/
structure WellLaidOut (n : Nat) (d : Nat → DArr K) : Prop where
  same : ∀ r < n, (d r).gshape = (d 0).gshape ∧ (d r).part = (d 0).part ∧
    (d r).axis = (d 0).axis ∧ (d r).mask = (d 0).mask ∧ (d r).dtype = (d 0).dtype
  local_shape : ∀ r < n, (d r).larr.shape = (d r).lshape ∧ (d r).larr.WF
  broadcast : (d 0).part ≠ .scatter → ∀ r < n, (d r).lshape = (d 0).gshape
  scatter : (d 0).part = .scatter → (∀ r < n, (d r).lshape.length = (d 0).gshape.length ∧
      ∀ i ≠ (d 0).axis, (d r).lshape[i]? = (d 0).gshape[i]?) ∧
    ((List.range n).map fun r => (d r).lshape.getD (d 0).axis 0).sum = (d 0).gshape.getD (d 0).axis 0

theorem Entry.Ok.wellLaidOut {c : Prop} {n : Nat} {e : Entry K} (h : e.Ok c n) : WellLaidOut n (e.fam n) := by
  refine ⟨fun r _ => ⟨rfl, rfl, rfl, rfl, rfl⟩, fun r hr => ⟨rfl, h.length r hr⟩, fun hp r _ => ?_, fun hp => ?_⟩
  · have hb : e.L.part.isBroadcast = true := by
      have : e.L.part ≠ .scatter := hp
      cases h' : e.L.part <;> simp_all [Partition.isBroadcast]
    exact lshape_bcast hb r
  · have hp' : e.L.part = .scatter := hp
    have hl : ∀ r, (e.fam n r).lshape = e.L.gshape.set e.L.axis (e.L.sizes r) := fun r => lshape_scatter hp' r
    refine ⟨fun r _ => ⟨?_, fun i hi => ?_⟩, ?_⟩
    · rw [hl]; simp [Entry.fam, Layout.fam]
    · rw [hl, List.getElem?_set_ne]; · rfl
      exact fun h => hi h.symm
    · have := h.wf.sum hp'
      show _ = len e.L.gshape e.L.axis
      rw [← this, psum_eq_sum]
      congr 1
      apply List.map_congr_left
      intro r _
      rw [hl]
      exact len_set h.wf.axis_lt

/-- **C20**.  In every execution, on any number of ranks, of any sequence of API calls
    (constructor with arbitrary arguments, `to_dist`, assignments with arbitrary index expressions
    and rank-dependent values, arithmetic, in-place arithmetic, `copy`, `conj`, `zeros_like`,
    `ravel`) that completes on all ranks, the ranks hold equally many arrays, and the `k`-th
    objects of all ranks make up one well laid out distributed array. -/
theorem C20_layout (n : Nat) (hn : 0 < n) (J : Nat → Nat → K) (h : List (Cmd K))
    (σ : Nat → List (DArr K)) (hσ : Completes n (fun r => runHistory (env n J r) h []) σ) :
    (∀ r < n, (σ r).length = (σ 0).length) ∧
    ∀ k < (σ 0).length, ∃ d : Nat → DArr K, (∀ r < n, (σ r)[k]? = some (d r)) ∧ WellLaidOut n d := by
  have h0 : Inv False n (fun _ => ([] : List (DArr K))) := ⟨[], by simp, by simp⟩
  rcases outcome_history (S := {J}) hn h h0 (.inr ⟨by simp, J, rfl⟩) with ⟨a, ⟨es, h1, h2⟩, h3⟩ | h3
  · have hs := (h3 J rfl).completes hσ
    have hs' : ∀ r < n, σ r = es.map fun e => e.fam n r := fun r hr => by rw [hs r hr, h2 r hr]
    refine ⟨fun r hr => by rw [hs' r hr, hs' 0 hn]; simp, fun k hk => ?_⟩
    rw [hs' 0 hn, List.length_map] at hk
    refine ⟨es[k].fam n, fun r hr => by rw [hs' r hr]; simp [hk], (h1 _ (List.getElem_mem hk)).wellLaidOut⟩
  · exact absurd hσ (h3 J rfl).not_completes

/-- **C03** (consistency).  After any history in which every array is assigned when created, all
    ranks hold the same content of each BROADCAST array. -/
theorem C03_consistent (n : Nat) (hn : 0 < n) (J : Nat → Nat → K) (h : List (Cmd K))
    (hinit : ∀ cmd ∈ h, cmd.Init) (σ : Nat → List (DArr K))
    (hσ : Completes n (fun r => runHistory (env n J r) h []) σ) (k r : Nat) (hr : r < n)
    (d d0 : DArr K) (hd : (σ r)[k]? = some d) (hd0 : (σ 0)[k]? = some d0)
    (hb : d0.part = .broadcast) : d.larr = d0.larr := by
  have h0 : Inv True n (fun _ => ([] : List (DArr K))) := ⟨[], by simp, by simp⟩
  rcases outcome_history (S := {J}) hn h h0 (.inl hinit) with ⟨a, ⟨es, h1, h2⟩, h3⟩ | h3
  · have hs := (h3 J rfl).completes hσ
    have hs' : ∀ r < n, σ r = es.map fun e => e.fam n r := fun r hr => by rw [hs r hr, h2 r hr]
    rw [hs' r hr, List.getElem?_map] at hd
    rw [hs' 0 hn, List.getElem?_map] at hd0
    obtain ⟨e, he, rfl⟩ := Option.map_eq_some_iff.1 hd
    obtain ⟨e', he', rfl⟩ := Option.map_eq_some_iff.1 hd0
    rw [he] at he'
    injection he' with he'
    subst he'
    have hok := h1 e (List.mem_of_getElem? he)
    have hp : e.L.part = .broadcast := hb
    have hb' : e.L.part.isBroadcast = true := by simp [hp, Partition.isBroadcast]
    simp only [Entry.fam, Layout.fam, lshape_bcast hb', hok.consistent trivial hp r hr]
  · exact absurd hσ (h3 J rfl).not_completes

/-- **C03** (assignment).  Assigning rank-dependent values `v r` to a BROADCAST array leaves on
    every rank the result of assigning rank 0's value. -/
theorem C03_assignment (n : Nat) (J : Nat → Nat → K) (L : Layout) (dt : DType) (a : List K)
    (hp : L.part = .broadcast) (ix : Index) (v : Nat → NDArray K) :
    Always n (fun r => do
        let d ← (L.fam n dt (fun _ => a) r).setItem (env n J r) ix (v r)
        .ret d.larr)
      (fun _ => setIndex ix ⟨L.gshape, dt, a⟩ (v 0)) := by
  have hb' : L.part.isBroadcast = true := by simp [hp, Partition.isBroadcast]
  refine (setItem_eq (J := J) (Runs.congr (Runs.lift fun _ => setIndex ix ⟨L.gshape, dt, a⟩ (v 0)) (fun r _ => ?_)
    (fun _ _ => rfl))).always
  have e : (L.fam n dt (fun _ => a) r).larr = ⟨L.gshape, dt, a⟩ := by
    simp [Layout.fam, lshape_bcast hb']
  rw [e]
  simp only [Layout.sync, hp, if_true]
  cases setIndex ix ⟨L.gshape, dt, a⟩ (v 0) <;> rfl

/-- **C51**.  The arrays produced by any history in which every array is assigned when created do
    not depend on the contents `J`, `J'` of uninitialised memory. -/
theorem C51_no_junk (n : Nat) (hn : 0 < n) (J J' : Nat → Nat → K) (h : List (Cmd K))
    (hinit : ∀ cmd ∈ h, cmd.Init) (σ σ' : Nat → List (DArr K))
    (hσ : Completes n (fun r => runHistory (env n J r) h []) σ)
    (hσ' : Completes n (fun r => runHistory (env n J' r) h []) σ') : ∀ r < n, σ r = σ' r := by
  have h0 : Inv True n (fun _ => ([] : List (DArr K))) := ⟨[], by simp, by simp⟩
  rcases outcome_history (S := Set.univ) hn h h0 (.inl hinit) with ⟨a, _, h3⟩ | h3
  · intro r hr
    rw [(h3 J trivial).completes hσ r hr, (h3 J' trivial).completes hσ' r hr]
  · exact absurd hσ (h3 J trivial).not_completes

/-- A history that completes for one memory content completes for all. -/
theorem C51_success (n : Nat) (hn : 0 < n) (J J' : Nat → Nat → K) (h : List (Cmd K))
    (hinit : ∀ cmd ∈ h, cmd.Init) (σ : Nat → List (DArr K))
    (hσ : Completes n (fun r => runHistory (env n J r) h []) σ) :
    Always n (fun r => runHistory (env n J' r) h []) (fun r => .ok (σ r)) := by
  have h0 : Inv True n (fun _ => ([] : List (DArr K))) := ⟨[], by simp, by simp⟩
  rcases outcome_history (S := Set.univ) hn h h0 (.inl hinit) with ⟨a, _, h3⟩ | h3
  · refine ((h3 J' trivial).congr (fun _ _ => rfl) fun r hr => ?_).always
    rw [(h3 J trivial).completes hσ r hr]
  · exact absurd hσ (h3 J trivial).not_completes

/-- a concrete history: each of two ranks supplies a different value to a BROADCAST array, a second
    array is scattered with a mask; indexed assignment, arithmetic, in-place update -/
def exampleHistory : List (Cmd ℚ) :=
  [.newSet [2] .broadcast 0 none none .real ⟨[2], .real, fun r i => r + i⟩,
   .toDist ⟨[3], .real, fun _ i => i⟩ .scatter 0 (some [[1], [2]]) (some [0, 1]),
   .set 0 (fun _ => .ok ([], [1])) ⟨[], .real, fun r _ => 5 + r⟩,
   .sub 1 1, .copy 0, .iadd 0 3]

/-- Non-vacuity: the history completes. -/
example : ∃ σ : Nat → List (DArr ℚ),
    Completes 2 (fun r => runHistory (env 2 (fun _ _ => (7 : ℚ)) r) exampleHistory []) σ ∧
    (σ 0).map (·.larr.data) = [[0, 10], [0], [0], [0, 5]] ∧
    (σ 1).map (·.larr.data) = [[0, 10], [1, 2], [0, 0], [0, 5]] ∧ ∀ cmd ∈ exampleHistory, cmd.Init := by
  obtain ⟨σ, h1, h2⟩ := runs_of_simOk 100
    (ps := fun r => runHistory (env 2 (fun _ _ => (7 : ℚ)) r) exampleHistory [])
    (g := fun l : List (DArr ℚ) => l.map (·.larr.data)) (n := 2)
    (outs := [[[0, 10], [0], [0], [0, 5]], [[0, 10], [1, 2], [0, 0], [0, 5]]]) (by decide) (by decide +kernel)
  have e0 := h2 0 (by decide)
  have e1 := h2 1 (by decide)
  refine ⟨σ, h1.to_completes, by simpa using e0.symm, by simpa using e1.symm, ?_⟩
  intro cmd hc
  simp only [exampleHistory, List.mem_cons, List.not_mem_nil, or_false] at hc
  rcases hc with rfl | rfl | rfl | rfl | rfl | rfl <;> trivial

end Verif

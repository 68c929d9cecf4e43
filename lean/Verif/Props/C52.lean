/- C52: the array returned by asarray is a private copy. -/
import Verif.Props.C06

set_option linter.unusedSectionVars false

namespace Verif
open NDArray

section
variable {K : Type} [Field K] [StarRing K] {h : Heap K} {c : Ctx K} {n r : Nat}

/-- **C52**, partial.  For a scattered array in any reachable memory and any execution: whatever the user writes into the NumPy array returned by `asarray`, all distributed
    arrays keep their values.  Missing for the full statement: broadcast arrays, for which it is false (`C52_violated`). -/
theorem C52_partial (hh : Reachable h) {x : Nat} {d : DArr K} (hx : h.get? x = some d) (hb : d.part.isBroadcast = false) (hr : r < n)
    {ps : Nat → P K (Except Err Nat × Heap K)} (hp : ps r = HArr.asarray c x h) {s : St (Msg K) (Except Err Nat × Heap K)} (hs : Run n (St.init ps) s) {m : Nat} {h' : Heap K}
    (ho : s.prog r = .ret (.ok m, h')) (v : NDArray K) : ∀ y e, h.get? y = some e → (h'.poke m v).get? y = some e := by
  intro y e hy
  have hw := C06_no_sharing hh
  obtain ⟨z, hz, hw', hf, hq⟩ := (asarray_post (c := c) hw (Heap.lt_of_get? hx)).sound hr hp hs (o := .ok (.ok m, h')) ho
  cases hz
  have h1 : m = h.bufs.length := (hq m rfl d hx).2 hb
  have h2 := hf.get hw (by simp) hy
  obtain ⟨o, a, ho', ha, rfl⟩ := Heap.get?_some h2
  obtain ⟨o1, a1, ho1, ha1, -⟩ := Heap.get?_some hy
  have h3 := hf.objs y o1 ho1
  dsimp only at h3 ho'
  rw [h3] at ho'
  obtain rfl : o1 = o := Option.some.inj ho'
  have h4 := (List.getElem?_eq_some_iff.1 ha1).1
  have h5 : m ≠ o1.buf := by omega
  simp only [Heap.get?, Heap.poke]
  dsimp only at h3 ha
  rw [h3, Option.bind_some, List.getElem?_set_ne h5, ha]
  rfl

/-- **C52 is false** for broadcast arrays, in any reachable memory and any execution: the result of `asarray` is the local array itself, so writing `v` into it changes
    the distributed array — on this rank only. -/
theorem C52_violated (hh : Reachable h) {x : Nat} {d : DArr K} (hx : h.get? x = some d) (hb : d.part.isBroadcast = true) (hr : r < n)
    {ps : Nat → P K (Except Err Nat × Heap K)} (hp : ps r = HArr.asarray c x h) {s : St (Msg K) (Except Err Nat × Heap K)} (hs : Run n (St.init ps) s) {m : Nat} {h' : Heap K}
    (ho : s.prog r = .ret (.ok m, h')) (v : NDArray K) : (h'.poke m v).get? x = some { d with larr := v } := by
  obtain ⟨h1, rfl⟩ := (C06_asarray hh hx hr hp hs ho).1 hb
  have := Heap.write_get hx v
  rw [Heap.write, h1] at this
  exact this

end

/-- the memory of a rank of two, holding the broadcast vector [1, 2] -/
def exBcast : Heap ℚ := ⟨[⟨[2], .broadcast, 0, none, [0], [2], .real, 0⟩], [⟨[2], .real, [1, 2]⟩]⟩

/-- Non-vacuity: the memory with the broadcast vector [1, 2] is reachable (constructor and assignment on one rank), and `asarray` ends. -/
example : Reachable exBcast ∧ (exBcast.get? 0).isSome ∧ ∃ σ : Nat → Except Err Nat × Heap ℚ, Always 1 (fun r => HArr.asarray (env 1 (fun _ _ => 0) r) 0 exBcast) (fun r => .ok (σ r)) := by
  refine ⟨?_, by decide, ?_⟩
  · have h1 := Reachable.of_sim (h' := ⟨[⟨[2], .broadcast, 0, none, [0], [2], .real, 0⟩], [⟨[2], .real, [0, 0]⟩]⟩) (.new [2] .broadcast 0 none none .real) (.start [])
      (by simp [Live, Call.refs]) (by decide +kernel)
    exact Reachable.of_sim (.setItem 0 Index.all ⟨[2], .real, [1, 2]⟩) h1 (by simp [Live, Call.refs]) (by decide +kernel)
  · obtain ⟨σ, h1, -⟩ := runs_of_simOk 20 (ps := fun r => HArr.asarray (env 1 (fun _ _ => 0) r) 0 exBcast) (g := fun p => p.2.bufs.length) (n := 1) (outs := [1]) (by decide) (by decide +kernel)
    exact ⟨σ, h1.always⟩

/-- Non-vacuity for scattered arrays: the memory of C06. -/
example : ∃ d, (exHeap [[1, 2], [5, 7]]).get? 0 = some d ∧ d.part.isBroadcast = false := ⟨_, rfl, rfl⟩

end Verif

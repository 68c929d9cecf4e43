/- C16: flattening a distributed array. -/
import Verif.Props.C20
import Verif.Props.C05

namespace Verif
open NDArray

variable {K : Type} [Field K] [StarRing K] [CharZero K] {n : Nat} {J : Nat → Nat → K}

/-- flat data of 1-D pieces -/
theorem concatData_flat {K : Type} (l : List Nat) (sz : Nat → Nat) (a : Nat → List K) (h : ∀ r ∈ l, (a r).length = sz r) :
    concatData 1 1 (l.map fun r => (sz r, a r)) = l.flatMap a := by
  unfold concatData
  simp only [List.range_one, List.flatMap_cons, List.flatMap_nil, List.append_nil, List.flatMap_map]
  apply List.flatMap_congr
  intro r hr
  simp [chunk, ← h r hr]

theorem concatData_outer_one {K : Type} (inn : Nat) (l : List Nat) (sz : Nat → Nat) (a : Nat → List K)
    (h : ∀ r ∈ l, (a r).length = sz r * inn) :
    concatData 1 inn (l.map fun r => (sz r, a r)) = l.flatMap a := by
  unfold concatData
  simp only [List.range_one, List.flatMap_cons, List.flatMap_nil, List.append_nil, List.flatMap_map]
  apply List.flatMap_congr
  intro r hr
  simp [chunk, ← h r hr]

/-- **C16**, partial: gathering `x.ravel()` gives the flattened gathered array, for arrays with a
    broadcast partition and for arrays scattered along axis 0 (or along an axis preceded only by
    dimensions of length 1).  For other axes the claim is false: `C16_violated`. -/
theorem C16_ravel_partial (L : Layout) (dt : DType) (a : Nat → List K) (hL : L.WF n) (ha : L.Good n dt a)
    (hp : L.part = .scatter → (L.gshape.take L.axis).prod = 1) :
    ∃ g : Nat → NDArray K,
      Always n (fun r => (L.fam n dt a r).asarray (env n J r)) (fun r => .ok (g r)) ∧
      Always n (fun r => do
          let z ← (L.fam n dt a r).ravel (env n J r)
          z.asarray (env n J r))
        (fun r => .ok ⟨[L.gshape.prod], dt, (g r).data⟩) := by
  refine ⟨_, (runs_asarray_any hL).always, ?_⟩
  simp only [Prog.bind_eq]
  refine (Runs.bind_ok (runs_ravel (J := J) hL ha.length) ((runs_asarray_any (ravel_wf hL)).congr (fun _ _ => rfl)
    fun r hr => ?_)).always
  have hsync : ∀ r < n, (L.sync a r).map (castTo dt) = a r := fun r hr => by
    rw [sync_eq ha.consistent hr, castTo_of_fits (ha.fits r hr)]
  by_cases hb : L.part.isBroadcast = true
  · have hb' : L.ravel.part.isBroadcast = true := hb
    simp only [hb', hb, if_true, hsync r hr]; rfl
  · have hb' : ¬ L.ravel.part.isBroadcast = true := hb
    have hsc := isBroadcast_false hb
    simp only [hb', hb]
    have e1 : L.ravel.globalData n (fun r => (L.sync a r).map (castTo dt)) = (List.range n).flatMap a := by
      unfold Layout.globalData
      rw [if_neg hb']
      have : outer L.ravel.gshape L.ravel.axis = 1 ∧ inner L.ravel.gshape L.ravel.axis = 1 := ⟨rfl, rfl⟩
      rw [this.1, this.2]
      have e : ((List.range n).map fun r => (L.ravel.sizes r, (L.sync a r).map (castTo dt)))
          = (List.range n).map fun r => ((L.lshape r).prod, a r) := by
        apply List.map_congr_left
        intro q hq
        rw [hsync q (by simpa using hq)]; rfl
      rw [e]
      exact concatData_flat _ _ _ fun q hq => ha.length q (by simpa using hq)
    have e2 : L.globalData n a = (List.range n).flatMap a := by
      unfold Layout.globalData
      rw [if_neg hb]
      have : outer L.gshape L.axis = 1 := hp hsc
      rw [this]
      refine concatData_outer_one _ _ _ _ fun q hq => ?_
      rw [ha.length q (by simpa using hq), length_lshape_prod hL hsc, this, one_mul]
    rw [e1, e2]; rfl

/-- **C16 is false** for other axes: the 2 x 2 array [[1, 2], [3, 4]] scattered along axis 1 over two
    ranks flattens to [1, 2, 3, 4], but the flattened distributed array gathers to [1, 3, 2, 4]. -/
theorem C16_violated :
    let L : Layout := ⟨[2, 2], .scatter, 1, fun _ => 1, none⟩
    let a : Nat → List ℚ := fun r => if r = 0 then [1, 3] else [2, 4]
    L.WF 2 ∧ L.Good 2 .real a ∧
    (∃ σ : Nat → NDArray ℚ, Always 2 (fun r => (L.fam 2 .real a r).asarray (env 2 (fun _ _ => 0) r)) (fun r => .ok (σ r)) ∧
      ∀ r < 2, (σ r).data = [1, 2, 3, 4]) ∧
    (∃ σ : Nat → NDArray ℚ, Always 2 (fun r => do
        let z ← (L.fam 2 .real a r).ravel (env 2 (fun _ _ => 0) r)
        z.asarray (env 2 (fun _ _ => 0) r)) (fun r => .ok (σ r)) ∧
      ∀ r < 2, (σ r).data = [1, 3, 2, 4]) := by
  refine ⟨⟨by decide, fun _ => rfl, by simp⟩, ⟨fun r hr => ?_, fun _ _ _ _ _ => rfl, by simp⟩, ?_, ?_⟩
  · match r, hr with
    | 0, _ => rfl
    | 1, _ => rfl
  · obtain ⟨σ, h1, h2⟩ := runs_of_simOk 20
      (ps := fun r => ((Layout.mk [2, 2] .scatter 1 (fun _ => 1) none).fam 2 .real
        (fun r => if r = 0 then [1, 3] else [2, (4 : ℚ)]) r).asarray (env 2 (fun _ _ => 0) r))
      (g := fun x : NDArray ℚ => x.data) (n := 2) (outs := [[1, 2, 3, 4], [1, 2, 3, 4]]) (by decide) (by decide +kernel)
    refine ⟨σ, h1.always, fun r hr => ?_⟩
    have := h2 r hr
    match r, hr with
    | 0, _ => simpa using this.symm
    | 1, _ => simpa using this.symm
  · obtain ⟨σ, h1, h2⟩ := runs_of_simOk 20
      (ps := fun r => (((Layout.mk [2, 2] .scatter 1 (fun _ => 1) none).fam 2 .real
        (fun r => if r = 0 then [1, 3] else [2, (4 : ℚ)]) r).ravel (env 2 (fun _ _ => 0) r)).bind
          fun z => z.asarray (env 2 (fun _ _ => 0) r))
      (g := fun x : NDArray ℚ => x.data) (n := 2) (outs := [[1, 3, 2, 4], [1, 3, 2, 4]]) (by decide) (by decide +kernel)
    refine ⟨σ, h1.always, fun r hr => ?_⟩
    have := h2 r hr
    match r, hr with
    | 0, _ => simpa using this.symm
    | 1, _ => simpa using this.symm

/-- Non-vacuity: a 3 x 2 array scattered along axis 0 over two ranks. -/
example : (Layout.mk [3, 2] .scatter 0 (fun r => 2 - r) none).WF 2 ∧
    (Layout.mk [3, 2] .scatter 0 (fun r => 2 - r) none).Good 2 .real
      (fun r => if r = 0 then [1, 2, 3, 4] else [5, (6 : ℚ)]) ∧ (([3, 2] : List Nat).take 0).prod = 1 := by
  refine ⟨⟨by decide, fun _ => rfl, by simp⟩, ⟨fun r hr => ?_, fun _ _ _ _ _ => rfl, by simp⟩, rfl⟩
  match r, hr with
  | 0, _ => rfl
  | 1, _ => rfl

end Verif

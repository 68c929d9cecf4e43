/- C60: what the plotting functions show. -/
import Verif.Model.Plotting
import Verif.Props.C05

namespace Verif
open NDArray

variable {K : Type} [Field K] [StarRing K] [CharZero K] {n : Nat} {J : Nat → Nat → K} {L : Layout} {dt : DType}

/-- the flat array in which each entry is the rank that holds it: each of the `outer` slabs consists of `sizes q` rows of `inner` entries for each rank `q` -/
def owners (L : Layout) (n : Nat) : List Nat :=
  (List.range (outer L.gshape L.axis)).flatMap fun _ => (List.range n).flatMap fun q => List.replicate (L.sizes q * inner L.gshape L.axis) q

theorem getElem?_flatMap_const {α : Type} (l : List α) (k p : Nat) (h : p < k * l.length) : ((List.range k).flatMap fun _ => l)[p]? = l[p % l.length]? := by
  induction k generalizing p with
  | zero => simp at h
  | succ k ih =>
    rw [List.range_succ_eq_map, List.flatMap_cons, List.flatMap_map]
    by_cases hp : p < l.length
    · rw [List.getElem?_append_left hp, Nat.mod_eq_of_lt hp]
    · rw [List.getElem?_append_right (by omega), ih (p - l.length) (by rw [Nat.succ_mul] at h; omega), ← Nat.mod_eq_sub_mod (by omega)]

theorem getElem?_blocks (s : Nat → Nat) (n t : Nat) {r : Nat} (hr : r < n) (h1 : psum s r ≤ t) (h2 : t < psum s (r + 1)) :
    ((List.range n).flatMap fun q => List.replicate (s q) q)[t]? = some r := by
  obtain ⟨k, rfl⟩ : ∃ k, n = r + (1 + k) := ⟨n - r - 1, by omega⟩
  have hl : ∀ m, ((List.range m).flatMap fun q => List.replicate (s q) q).length = psum s m := fun m => by
    induction m with
    | zero => simp [psum]
    | succ m ih => rw [List.range_succ, List.flatMap_append, List.length_append, ih, psum]; simp
  rw [List.range_add, List.flatMap_append, List.getElem?_append_right (by rw [hl]; exact h1), hl, Nat.add_comm 1 k, List.range_succ_eq_map]
  simp only [List.map_cons, List.flatMap_cons, Nat.add_zero]
  rw [psum] at h2
  rw [List.getElem?_append_left (by simp; omega), List.getElem?_replicate, if_pos (by omega)]

theorem psum_mul (s : Nat → Nat) (k n : Nat) : psum (fun q => s q * k) n = psum s n * k := by
  induction n with
  | zero => simp [psum]
  | succ n ih => rw [psum, psum, ih, Nat.add_mul]

theorem castTo_natCast (dt : DType) (q : Nat) : castTo dt (q : K) = q := by
  cases dt <;> simp [castTo]

theorem exists_block (s : Nat → Nat) (n t : Nat) (h : t < psum s n) : ∃ q < n, psum s q ≤ t ∧ t < psum s (q + 1) := by
  induction n with
  | zero => simp [psum] at h
  | succ n ih =>
    by_cases ht : t < psum s n
    · obtain ⟨q, hq, h⟩ := ih ht; exact ⟨q, by omega, h⟩
    · exact ⟨n, by omega, by omega, h⟩

/-- **C60** (which entry is labelled with which rank): the flat index `p` has coordinate `(p / inner) % len` along the axis; it is labelled `r` exactly when this coordinate is one of those of rank `r`. -/
theorem C60_owners (hL : L.WF n) (hp : L.part = .scatter) {p r : Nat} (hpl : p < L.gshape.prod) (hr : r < n) :
    (owners L n)[p]? = some r ↔ psum L.sizes r ≤ p / inner L.gshape L.axis % len L.gshape L.axis ∧ p / inner L.gshape L.axis % len L.gshape L.axis < psum L.sizes (r + 1) := by
  have hlen : psum L.sizes n = len L.gshape L.axis := hL.sum hp
  have hprod : L.gshape.prod = outer L.gshape L.axis * (len L.gshape L.axis * inner L.gshape L.axis) := prod_split hL.axis_lt
  have hll : ((List.range n).flatMap fun q => List.replicate (L.sizes q * inner L.gshape L.axis) q).length = len L.gshape L.axis * inner L.gshape L.axis := by
    rw [← hlen, ← psum_mul, psum_eq_sum]; simp [List.length_flatMap]
  have hi : 0 < inner L.gshape L.axis := Nat.pos_of_ne_zero fun h => by rw [hprod, h] at hpl; simp at hpl
  have hl0 : 0 < len L.gshape L.axis := Nat.pos_of_ne_zero fun h => by rw [hprod, h] at hpl; simp at hpl
  rw [owners, getElem?_flatMap_const _ _ _ (by rw [hll, ← hprod]; exact hpl), hll]
  have hc : p % (len L.gshape L.axis * inner L.gshape L.axis) / inner L.gshape L.axis = p / inner L.gshape L.axis % len L.gshape L.axis := by
    rw [Nat.mul_comm, Nat.mod_mul_right_div_self]
  have key : ∀ q < n, psum L.sizes q ≤ p / inner L.gshape L.axis % len L.gshape L.axis → p / inner L.gshape L.axis % len L.gshape L.axis < psum L.sizes (q + 1) →
      ((List.range n).flatMap fun q => List.replicate (L.sizes q * inner L.gshape L.axis) q)[p % (len L.gshape L.axis * inner L.gshape L.axis)]? = some q := by
    intro q hq h1 h2
    rw [← hc] at h1 h2
    refine getElem?_blocks (fun q => L.sizes q * inner L.gshape L.axis) n _ hq ?_ ?_
    · rw [psum_mul]; exact (Nat.le_div_iff_mul_le hi).1 h1
    · rw [psum_mul]; exact (Nat.div_lt_iff_lt_mul hi).1 h2
  refine ⟨fun h => ?_, fun h => key r hr h.1 h.2⟩
  obtain ⟨q, hq, h1, h2⟩ := exists_block L.sizes n _ (by rw [hlen]; exact Nat.mod_lt (p / inner L.gshape L.axis) hl0)
  rw [key q hq h1 h2] at h
  cases h
  exact ⟨h1, h2⟩

/-- **C60** (`plot_distributed_array`).  For all layouts of scattered arrays (with or without mask), numbers of ranks and contents: rank 0 shows the global array and, beside it, the array of the same
    shape in which every entry is the rank that holds it; the other ranks show nothing. -/
theorem C60_distribution {a : Nat → List K} (hL : L.WF n) (hp : L.part = .scatter) :
    Always n (fun r => plotDistributedArray (env n J r) (L.fam n dt a r))
      (fun r => .ok (if r = 0 then some (L.global n dt a, ⟨L.gshape, dt, (owners L n).map fun q : Nat => (q : K)⟩) else none)) := by
  unfold plotDistributedArray DArr.likeMask
  have hpart : ∀ r, (L.fam n dt a r).part = L.part := fun _ => rfl
  have hnb : ¬ L.part = .broadcast := by rw [hp]; decide
  simp only [hpart, if_neg hnb, Prog.bind_eq, Prog.bind_assoc]
  refine (runs_localShapes ?_).always
  have hU : L.unmask.WF n := unmask_wf hL
  refine Runs.bind_ok (runs_mkDArr (J := J) (dt := dt) hU) ?_
  refine Runs.bind_ok (runs_setAll (L := L.unmask) (J := J) (dt := dt) (a := junkData J L.unmask dt)
    (v := fun r => ⟨L.lshape r, .real, List.replicate (L.lshape r).prod (r : K)⟩) (fun r _ => length_junk r) (fun _ _ => rfl) (fun _ _ => List.length_replicate)) ?_
  refine Runs.bind_ok (runs_asarray hU hp) ?_
  refine Runs.bind_ok (runs_asarray hL hp) ?_
  refine (Runs.ret _).congr (fun _ _ => rfl) (fun r _ => ?_)
  have hsync : L.unmask.sync (fun q => List.replicate (L.lshape q).prod (q : K)) = fun q => List.replicate (L.lshape q).prod (q : K) := by
    rw [Layout.sync, if_neg (by rw [show L.unmask.part = L.part from rfl, hp]; decide)]
  have hdata : L.globalData n (fun q => (List.replicate (L.lshape q).prod (q : K)).map (castTo dt)) = (owners L n).map fun q : Nat => (q : K) := by
    rw [Layout.globalData, if_neg (by rw [hp]; decide), concatData, owners, List.map_flatMap]
    refine List.flatMap_congr fun o ho => ?_
    rw [List.flatMap_map, List.map_flatMap]
    refine List.flatMap_congr fun q hq => ?_
    have hw : (o + 1) * (L.sizes q * inner L.gshape L.axis) ≤ (L.lshape q).prod := by
      rw [length_lshape_prod hL hp]
      exact Nat.mul_le_mul_right _ (List.mem_range.1 ho)
    rw [Nat.add_mul, Nat.one_mul] at hw
    show chunk (L.sizes q * inner L.gshape L.axis) _ o = _
    rw [chunk, List.map_replicate, List.drop_replicate, List.take_replicate, List.map_replicate, castTo_natCast, Nat.min_eq_left (by omega)]
  simp only [hsync]
  show Except.ok _ = Except.ok _
  congr 1
  refine if_congr (Iff.rfl) ?_ rfl
  rw [← hdata]; rfl

omit [CharZero K] in
/-- **C60** (replicated arrays are refused on all ranks before anything is sent). -/
theorem C60_broadcast {a : Nat → List K} (hp : L.part = .broadcast) :
    Always n (fun r => plotDistributedArray (env n J r) (L.fam n dt a r)) (fun _ => .error .notImplemented) := by
  refine (Runs.throw fun _ => .notImplemented).congr (fun r _ => ?_) (fun _ _ => rfl) |>.always
  simp [plotDistributedArray, Layout.fam, hp]

/-- **C60** (`UNSAFE_BROADCAST` arrays, which are not refused): rank 0 shows its own copy, and beside it an array of zeros, as if rank 0 held everything. -/
theorem C60_unsafe {a : Nat → List K} (hL : L.WF n) (hp : L.part = .unsafeBroadcast) :
    Always n (fun r => plotDistributedArray (env n J r) (L.fam n dt a r))
      (fun r => .ok (if r = 0 then some (⟨L.gshape, dt, a 0⟩, ⟨L.gshape, dt, List.replicate L.gshape.prod 0⟩) else none)) := by
  unfold plotDistributedArray DArr.likeMask
  have hpart : ∀ r, (L.fam n dt a r).part = L.part := fun _ => rfl
  have hnb : ¬ L.part = .broadcast := by rw [hp]; decide
  have hb : L.part.isBroadcast = true := by rw [hp]; decide
  simp only [hpart, if_neg hnb, Prog.bind_eq, Prog.bind_assoc]
  refine (runs_localShapes ?_).always
  have hU : L.unmask.WF n := unmask_wf hL
  refine Runs.bind_ok (runs_mkDArr (J := J) (dt := dt) hU) ?_
  refine Runs.bind_ok (runs_setAll (L := L.unmask) (J := J) (dt := dt) (a := junkData J L.unmask dt)
    (v := fun r => ⟨L.lshape r, .real, List.replicate (L.lshape r).prod (r : K)⟩) (fun r _ => length_junk r) (fun _ _ => rfl) (fun _ _ => List.length_replicate)) ?_
  refine Runs.bind_ok (runs_asarray_any hU) ?_
  refine Runs.bind_ok (runs_asarray_any hL) ?_
  refine (Runs.ret _).congr (fun _ _ => rfl) (fun r _ => ?_)
  show Except.ok (if r = 0 then _ else _) = Except.ok _
  congr 1
  refine if_ctx_congr Iff.rfl (fun h => ?_) (fun _ => rfl)
  subst h
  have h0 : castTo dt (0 : K) = 0 := castTo_zero dt
  simp [Layout.unmask, Layout.sync, hnb, hb, Layout.lshape, h0]

omit [Field K] [StarRing K] [CharZero K] in
/-- **C60** (`plot_local_arrays`).  Rank 0 shows the local arrays of all ranks, in rank order. -/
theorem C60_local (d : Nat → DArr K) :
    Always n (fun r => plotLocalArrays (env n J r) (d r)) (fun r => .ok (if r = 0 then some ((List.range n).map fun q => (d q).larr) else none)) := by
  unfold plotLocalArrays
  simp only [Prog.bind_eq]
  exact (runs_gather (K := K) (v := fun r => (d r).larr) (k := fun r l => .ret (if r = 0 then some l else none)) (Runs.ret _)).always

/-! A masked 2 × 3 array on two ranks, split along the second axis: the second column belongs to rank 0, the third to rank 1. -/

example : (⟨[2, 3], .scatter, 1, fun r => if r = 0 then 2 else 1, some [0, 1]⟩ : Layout).WF 2 := ⟨by decide, fun _ => by decide, by rintro m ⟨⟩; decide⟩

example : owners ⟨[2, 3], .scatter, 1, fun r => if r = 0 then 2 else 1, some [0, 1]⟩ 2 = [0, 0, 1, 0, 0, 1] := by decide

end Verif

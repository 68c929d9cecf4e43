/- Norms along the distributed axis of arrays with a mask, and parts of gathered arrays. -/
import Verif.Proofs.Norm

set_option linter.unusedSectionVars false

namespace Verif
open NDArray

section
variable {K : Type}

/-- the part of a concatenation that comes from some of the pieces -/
theorem sliceData_concatData {s : List Nat} {ax : Nat} (l₁ l₂ l₃ : List Nat) (sz : Nat → Nat) (a : Nat → List K)
    (h : ∀ r ∈ l₁ ++ l₂ ++ l₃, (a r).length = outer s ax * (sz r * inner s ax)) (hs : ((l₁ ++ l₂ ++ l₃).map sz).sum = len s ax) :
    sliceData s ax (l₁.map sz).sum ((l₁.map sz).sum + (l₂.map sz).sum) (concatData (outer s ax) (inner s ax) ((l₁ ++ l₂ ++ l₃).map fun r => (sz r, a r)))
      = concatData (outer s ax) (inner s ax) (l₂.map fun r => (sz r, a r)) := by
  have hl : ∀ l : List Nat, (∀ r ∈ l, r ∈ l₁ ++ l₂ ++ l₃) → ∀ o < outer s ax, (l.flatMap fun r => chunk (sz r * inner s ax) (a r) o).length = (l.map sz).sum * inner s ax := by
    intro l hm o ho
    rw [List.length_flatMap, ← List.sum_map_mul_right]
    congr 1
    apply List.map_congr_left
    intro r hr
    rw [length_chunk (h r (hm r hr)) ho]
  unfold sliceData concatData
  apply List.flatMap_congr
  intro o ho
  have ho : o < outer s ax := by simpa using ho
  simp only [List.flatMap_map]
  rw [chunk_flatMap (fun o ho => by rw [hl _ (fun _ h => h) o ho, hs]) ho, Nat.add_sub_cancel_left, List.flatMap_append, List.flatMap_append, List.append_assoc,
    List.drop_append_of_le_length (by rw [hl l₁ (fun r hr => by simp [hr]) o ho]), List.drop_of_length_le (by rw [hl l₁ (fun r hr => by simp [hr]) o ho]), List.nil_append,
    List.take_append_of_le_length (by rw [hl l₂ (fun r hr => by simp [hr]) o ho]), List.take_of_length_le (by rw [hl l₂ (fun r hr => by simp [hr]) o ho])]

/-- the entries of a concatenation are those of the pieces -/
theorem perm_concatData {out inn : Nat} (l : List Nat) (sz : Nat → Nat) (a : Nat → List K) (h : ∀ r ∈ l, (a r).length = out * (sz r * inn)) :
    (concatData out inn (l.map fun r => (sz r, a r))).Perm (l.flatMap a) := by
  classical
  rw [List.perm_iff_count]
  intro x
  rw [concatData]
  simp only [List.count_flatMap, List.flatMap_map]
  simp only [Function.comp_def, List.count_flatMap]
  rw [sum_map_flatMap_comm]
  congr 1
  apply List.map_congr_left
  intro r hr
  have h3 := flatMap_chunk (h r hr)
  conv_rhs => rw [← h3, List.count_flatMap]
  rfl

end

variable {K : Type} [RCLike K] {n : Nat} {J : Nat → Nat → K} {L : Layout} {dt : DType} {a : Nat → List K}

/-- norm along the distribution axis, with or without a mask: of the array that the ranks of the group hold together -/
theorem runs_norm_axis_group {o : NormOrd} (hL : L.WF n) (hp : L.part = .scatter) (ha : L.Good n dt a)
    (hok : ∀ q < n, ∀ x ∈ a q, OrdOk o dt x) (hne : o.extremal → ∀ q < n, L.sizes q ≠ 0)
    (hfro : o ≠ .fro ∧ o ≠ .nuc) :
    Runs n (fun r => (L.fam n dt a r).norm (env n J r) o (some L.axis))
      (fun r => .ok ⟨L.gshape.eraseIdx L.axis, .real,
        (List.range (outer L.gshape L.axis * inner L.gshape L.axis)).map fun j => vecNorm o
          (column ((L.members n r).map L.sizes).sum (inner L.gshape L.axis)
            (concatData (outer L.gshape L.axis) (inner L.gshape L.axis) ((L.members n r).map fun q => (L.sizes q, a q))) (j / inner L.gshape L.axis) (j % inner L.gshape L.axis))⟩) := by
  have hb : ¬ L.part.isBroadcast = true := by rw [hp]; simp [Partition.isBroadcast]
  have hlen : ∀ q < n, (a q).length = outer L.gshape L.axis * (L.sizes q * inner L.gshape L.axis) := fun q hq => by
    rw [ha.length q hq, length_lshape_prod hL hp]
  unfold DArr.norm
  simp only [Prog.bind_eq]
  have h0 : Runs n (fun r => (L.fam n dt a r).toScatter (env n J r) (L.fam n dt a r).part) (fun r => .ok (L.fam n dt a r)) := by
    refine Runs.congr (Runs.ret _) (fun r _ => ?_) (fun _ _ => rfl)
    unfold DArr.toScatter
    exact (if_neg hb).symm
  refine Runs.bind_ok h0 ?_
  have hax : ∀ r, (L.fam n dt a r).axis = L.axis := fun _ => rfl
  simp only [hax, ne_eq, not_true_eq_false, if_false]
  have es : ∀ q, (L.fam n dt a q).larr.shape = L.gshape.set L.axis (L.sizes q) := fun q => lshape_scatter hp q
  have e1 : ∀ q, outer (L.fam n dt a q).larr.shape L.axis = outer L.gshape L.axis := fun q => by rw [es]; simp
  have e2 : ∀ q, inner (L.fam n dt a q).larr.shape L.axis = inner L.gshape L.axis := fun q => by rw [es]; simp
  have e3 : ∀ q, len (L.fam n dt a q).larr.shape L.axis = L.sizes q := fun q => by rw [es]; exact len_set hL.axis_lt
  have hcol : ∀ q < n, ∀ j < outer L.gshape L.axis * inner L.gshape L.axis, ∀ x ∈ column (L.sizes q) (inner L.gshape L.axis) (a q)
      (j / inner L.gshape L.axis) (j % inner L.gshape L.axis), x ∈ a q := by
    intro q hq j hj x hx
    have hi : 0 < inner L.gshape L.axis := Nat.pos_of_mul_pos_left (Nat.lt_of_le_of_lt (Nat.zero_le _) hj)
    have ho : j / inner L.gshape L.axis < outer L.gshape L.axis := Nat.div_lt_of_lt_mul (by rw [Nat.mul_comm]; exact hj)
    rw [column_eq_col (hlen q hq) (Nat.mod_lt _ hi) ho] at hx
    simp only [col, List.mem_map, List.mem_range] at hx
    obtain ⟨i, hi', rfl⟩ := hx
    have hk := Nat.mod_lt j hi
    have hb : i * inner L.gshape L.axis + j % inner L.gshape L.axis < (chunk (L.sizes q * inner L.gshape L.axis) (a q) (j / inner L.gshape L.axis)).length := by
      rw [length_chunk (hlen q hq) ho]
      calc _ < i * inner L.gshape L.axis + inner L.gshape L.axis := by omega
        _ = (i + 1) * inner L.gshape L.axis := by ring
        _ ≤ _ := Nat.mul_le_mul_right _ hi'
    rw [List.getD_eq_getElem _ _ hb]
    exact List.mem_of_mem_drop (List.mem_of_mem_take (List.getElem_mem hb))
  refine runs_vectorNorm (L := L) (larr := fun r => (L.fam n dt a r).larr) (N := outer L.gshape L.axis * inner L.gshape L.axis)
    (sh := L.gshape.eraseIdx L.axis) (cols := fun q j => column (L.sizes q) (inner L.gshape L.axis) (a q)
      (j / inner L.gshape L.axis) (j % inner L.gshape L.axis)) (dt := dt) (fun _ _ => rfl) ?_ ?_ ?_ hfro |>.congr (fun _ _ => rfl) ?_
  · intro q hq γ f g h
    have := reduceAxis_ok (f := f) (g := g) (ax := L.axis) (x := (L.fam n dt a q).larr) (by
      simp only [e1, e2, e3]; exact h)
    rw [this]
    simp only [e1, e2, e3]
    rw [es, List.eraseIdx_set_eq]
    rfl
  · intro q hq j hj x hx
    have := hcol q hq j hj x hx
    exact ⟨hok q hq x this, fun hdt => ha.fits q hq hdt x this⟩
  · intro h q hq j hj e
    have := congrArg List.length e
    simp [column] at this
    exact hne h q hq this
  · intro r hr
    congr 2
    apply List.map_congr_left
    intro j hj
    have hj : j < outer L.gshape L.axis * inner L.gshape L.axis := by simpa using hj
    have hi : 0 < inner L.gshape L.axis := Nat.pos_of_mul_pos_left (Nat.lt_of_le_of_lt (Nat.zero_le _) hj)
    have ho : j / inner L.gshape L.axis < outer L.gshape L.axis := Nat.div_lt_of_lt_mul (by rw [Nat.mul_comm]; exact hj)
    rw [column_concatData (L.members n r) L.sizes a (fun q hq => hlen q (mem_members hr hq)) (Nat.mod_lt _ hi) ho]

end Verif

/- Execution lemmas for `norm`. -/
import Verif.Proofs.Reduce
import Verif.NumPy.Column

namespace Verif
open NDArray

variable {K : Type} [RCLike K] {n : Nat} {J : Nat → Nat → K} {L : Layout} {dt : DType} {a : Nat → List K}

theorem reduceAxis_ok {γ : Type} {f : List K → Except Err γ} {g : List K → γ} {ax : Nat} {x : NDArray K}
    (h : ∀ j < outer x.shape ax * inner x.shape ax, f (column (len x.shape ax) (inner x.shape ax) x.data (j / inner x.shape ax)
      (j % inner x.shape ax)) = .ok (g (column (len x.shape ax) (inner x.shape ax) x.data (j / inner x.shape ax)
      (j % inner x.shape ax)))) :
    reduceAxis f ax x = .ok ⟨x.shape.eraseIdx ax, .real, (List.range (outer x.shape ax * inner x.shape ax)).map fun j =>
      g (column (len x.shape ax) (inner x.shape ax) x.data (j / inner x.shape ax) (j % inner x.shape ax))⟩ := by
  unfold reduceAxis
  rw [mapM_congr_ok (g := fun j => g (column (len x.shape ax) (inner x.shape ax) x.data (j / inner x.shape ax)
      (j % inner x.shape ax))) (fun j hj => h j (by simpa using hj))]
  rfl

/-- entries of the shards are entries of the arrays -/
theorem mem_shard {q : Nat} (hn : 0 < n) (hq : q < n) {x : K} (h : x ∈ L.shard n a q) : ∃ q' < n, x ∈ a q' := by
  unfold Layout.shard at h
  split_ifs at h
  · refine ⟨0, hn, ?_⟩
    have hs : ¬ (L.scattered n).part.isBroadcast = true := by simp [Layout.scattered, Partition.isBroadcast]
    unfold Layout.piece at h
    rw [if_neg hs] at h
    exact mem_sliceData h
  · exact ⟨q, hq, h⟩

/-- flattened norm -/
theorem runs_norm_flat {o : NormOrd} (hn : 0 < n) (hL : L.WF n) (ha : L.Good n dt a) (hg : L.Agree n a)
    (hok : ∀ q < n, ∀ x ∈ a q, OrdOk o dt x) (hne : o.extremal → ∀ q < n, L.shard n a q ≠ [])
    (hfro : o ≠ .fro ∧ o ≠ .nuc) :
    Runs n (fun r => (L.fam n dt a r).norm (env n J r) o none)
      (fun r => .ok ⟨[], .real, [vecNorm o (((L.red n).members n r).flatMap (L.shard n a))]⟩) := by
  unfold DArr.norm
  simp only [Prog.bind_eq]
  refine Runs.bind_ok (runs_toScatter (J := J) hn hL ha hg) ?_
  refine runs_vectorNorm (L := L.red n) (larr := fun r => ((L.red n).fam n dt (L.shard n a) r).larr.flatten) (N := 1)
    (sh := []) (cols := fun q _ => L.shard n a q) (dt := dt) (fun _ _ => rfl) ?_ ?_ ?_ hfro |>.congr (fun _ _ => rfl) (fun _ _ => rfl)
  · intro q hq γ f g h
    have hi : inner ((L.red n).fam n dt (L.shard n a) q).larr.flatten.shape 0 = 1 := rfl
    have ho : outer ((L.red n).fam n dt (L.shard n a) q).larr.flatten.shape 0 = 1 := rfl
    have e : column (len ((L.red n).fam n dt (L.shard n a) q).larr.flatten.shape 0) 1
        ((L.red n).fam n dt (L.shard n a) q).larr.flatten.data 0 0 = L.shard n a q := column_flat _
    have := reduceAxis_ok (f := f) (g := g) (ax := 0) (x := ((L.red n).fam n dt (L.shard n a) q).larr.flatten) (by
      simp only [hi, ho]
      intro j hj
      have : j = 0 := by omega
      subst this
      simp only [Nat.zero_div, Nat.zero_mod, e]
      exact h 0 (by omega))
    rw [this]
    simp only [hi, ho, Nat.mul_one, List.range_one, List.map_cons, List.map_nil, Nat.zero_div, Nat.zero_mod, e]
    rfl
  · intro q hq j _ x hx
    obtain ⟨q', hq', h⟩ := mem_shard hn hq hx
    exact ⟨hok q' hq' x h, fun hdt => ha.fits q' hq' hdt x h⟩
  · intro h q hq j _; exact hne h q hq

/-! ### permutation invariance of the specification -/

theorem max?_perm {l l' : List ℝ} (h : l.Perm l') : l.max? = l'.max? := by
  cases hm : l'.max? with
  | none => rw [List.max?_eq_none_iff] at hm ⊢; subst hm; exact h.eq_nil
  | some m =>
    rw [List.max?_eq_some_iff] at hm ⊢
    exact ⟨h.mem_iff.2 hm.1, fun b hb => hm.2 b (h.mem_iff.1 hb)⟩

theorem min?_perm {l l' : List ℝ} (h : l.Perm l') : l.min? = l'.min? := by
  cases hm : l'.min? with
  | none => rw [List.min?_eq_none_iff] at hm ⊢; subst hm; exact h.eq_nil
  | some m =>
    rw [List.min?_eq_some_iff] at hm ⊢
    exact ⟨h.mem_iff.2 hm.1, fun b hb => hm.2 b (h.mem_iff.1 hb)⟩

theorem vecNorm_perm {o : NormOrd} {l l' : List K} (h : l.Perm l') : vecNorm o l = vecNorm o l' := by
  cases o with
  | none => simp only [vecNorm, (h.map _).sum_eq]
  | num p => simp only [vecNorm, (h.map _).sum_eq, h.countP_eq]
  | inf => simp only [vecNorm, max?_perm (h.map _)]
  | ninf => simp only [vecNorm, min?_perm (h.map _)]
  | fro => rfl
  | nuc => rfl

theorem perm_shard (hn : 0 < n) (hL : L.WF n) (ha : ∀ r < n, (a r).length = (L.lshape r).prod) :
    ((List.range n).flatMap (L.shard n a)).Perm (L.globalData n a) := by
  rw [← global_shard hn hL ha]
  exact (perm_global (red_wf hn hL) red_part fun r hr => length_shard hn hL ha hr).symm

/-- norm along the distribution axis -/
theorem runs_norm_axis {o : NormOrd} (hn : 0 < n) (hL : L.WF n) (hp : L.part = .scatter) (ha : L.Good n dt a)
    (hok : ∀ q < n, ∀ x ∈ a q, OrdOk o dt x) (hne : o.extremal → ∀ q < n, L.sizes q ≠ 0)
    (hfro : o ≠ .fro ∧ o ≠ .nuc) (hm : L.mask = none) :
    Runs n (fun r => (L.fam n dt a r).norm (env n J r) o (some L.axis))
      (fun _ => .ok ⟨L.gshape.eraseIdx L.axis, .real,
        (List.range (outer L.gshape L.axis * inner L.gshape L.axis)).map fun j => vecNorm o
          (column (len L.gshape L.axis) (inner L.gshape L.axis) (L.globalData n a) (j / inner L.gshape L.axis) (j % inner L.gshape L.axis))⟩) := by
  have hb : ¬ L.part.isBroadcast = true := by rw [hp]; simp [Partition.isBroadcast]
  have hlen : ∀ q < n, (a q).length = outer L.gshape L.axis * (L.sizes q * inner L.gshape L.axis) := fun q hq => by
    rw [ha.length q hq, length_lshape_prod hL hp]
  unfold DArr.norm
  simp only [Prog.bind_eq]
  have h0 : Runs n (fun r => (L.fam n dt a r).toScatter (env n J r) (L.fam n dt a r).part) (fun r => .ok (L.fam n dt a r)) := by
    refine Runs.congr (Runs.ret _) (fun r _ => ?_) (fun _ _ => rfl)
    unfold DArr.toScatter
    exact (if_neg hb).symm
  refine Runs.bind_ok h0 ?_
  have hax : ∀ r, (L.fam n dt a r).axis = L.axis := fun _ => rfl
  simp only [hax, ne_eq, not_true_eq_false, if_false]
  have es : ∀ q, (L.fam n dt a q).larr.shape = L.gshape.set L.axis (L.sizes q) := fun q => lshape_scatter hp q
  have e1 : ∀ q, outer (L.fam n dt a q).larr.shape L.axis = outer L.gshape L.axis := fun q => by rw [es]; simp
  have e2 : ∀ q, inner (L.fam n dt a q).larr.shape L.axis = inner L.gshape L.axis := fun q => by rw [es]; simp
  have e3 : ∀ q, len (L.fam n dt a q).larr.shape L.axis = L.sizes q := fun q => by rw [es]; exact len_set hL.axis_lt
  have hcol : ∀ q < n, ∀ j < outer L.gshape L.axis * inner L.gshape L.axis, ∀ x ∈ column (L.sizes q) (inner L.gshape L.axis) (a q)
      (j / inner L.gshape L.axis) (j % inner L.gshape L.axis), x ∈ a q := by
    intro q hq j hj x hx
    have hi : 0 < inner L.gshape L.axis := Nat.pos_of_mul_pos_left (Nat.lt_of_le_of_lt (Nat.zero_le _) hj)
    have ho : j / inner L.gshape L.axis < outer L.gshape L.axis := Nat.div_lt_of_lt_mul (by rw [Nat.mul_comm]; exact hj)
    rw [column_eq_col (hlen q hq) (Nat.mod_lt _ hi) ho] at hx
    simp only [col, List.mem_map, List.mem_range] at hx
    obtain ⟨i, hi', rfl⟩ := hx
    have hk := Nat.mod_lt j hi
    have hb : i * inner L.gshape L.axis + j % inner L.gshape L.axis < (chunk (L.sizes q * inner L.gshape L.axis) (a q) (j / inner L.gshape L.axis)).length := by
      rw [length_chunk (hlen q hq) ho]
      calc _ < i * inner L.gshape L.axis + inner L.gshape L.axis := by omega
        _ = (i + 1) * inner L.gshape L.axis := by ring
        _ ≤ _ := Nat.mul_le_mul_right _ hi'
    rw [List.getD_eq_getElem _ _ hb]
    exact List.mem_of_mem_drop (List.mem_of_mem_take (List.getElem_mem hb))
  refine runs_vectorNorm (L := L) (larr := fun r => (L.fam n dt a r).larr) (N := outer L.gshape L.axis * inner L.gshape L.axis)
    (sh := L.gshape.eraseIdx L.axis) (cols := fun q j => column (L.sizes q) (inner L.gshape L.axis) (a q)
      (j / inner L.gshape L.axis) (j % inner L.gshape L.axis)) (dt := dt) (fun _ _ => rfl) ?_ ?_ ?_ hfro |>.congr (fun _ _ => rfl) ?_
  · intro q hq γ f g h
    have := reduceAxis_ok (f := f) (g := g) (ax := L.axis) (x := (L.fam n dt a q).larr) (by
      simp only [e1, e2, e3]; exact h)
    rw [this]
    simp only [e1, e2, e3]
    rw [es, List.eraseIdx_set_eq]
    rfl
  · intro q hq j hj x hx
    have := hcol q hq j hj x hx
    exact ⟨hok q hq x this, fun hdt => ha.fits q hq hdt x this⟩
  · intro h q hq j hj e
    have := congrArg List.length e
    simp [column] at this
    exact hne h q hq this
  · intro r hr
    congr 2
    apply List.map_congr_left
    intro j hj
    have hj : j < outer L.gshape L.axis * inner L.gshape L.axis := by simpa using hj
    have hi : 0 < inner L.gshape L.axis := Nat.pos_of_mul_pos_left (Nat.lt_of_le_of_lt (Nat.zero_le _) hj)
    have ho : j / inner L.gshape L.axis < outer L.gshape L.axis := Nat.div_lt_of_lt_mul (by rw [Nat.mul_comm]; exact hj)
    have hs : ((List.range n).map L.sizes).sum = len L.gshape L.axis := by
      rw [← psum_eq_sum]; exact hL.sum hp
    unfold Layout.globalData
    rw [if_neg hb, ← hs, column_concatData (List.range n) L.sizes a (fun r hr => hlen r (by simpa using hr)) (Nat.mod_lt _ hi) ho]
    simp only [Layout.members, hm]

end Verif

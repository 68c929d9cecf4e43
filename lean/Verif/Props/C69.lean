/- C69: `ravel` with the orders C, F, A, K. -/
import Verif.Model.RavelOrder
import Verif.Spec.RavelOrder
import Verif.Props.C12
import Verif.Props.C16

namespace Verif
open NDArray

/-! ### Fortran order -/

theorem fPlace_lt {s ix : List Nat} (h : ValidIdx s ix) : fPlace s ix < s.prod := by
  induction s generalizing ix with
  | nil => cases ix with
    | nil => simp [fPlace]
    | cons => exact h.elim
  | cons m s ih => cases ix with
    | nil => exact h.elim
    | cons i ix =>
      have := ih h.2
      rw [List.prod_cons, fPlace]
      calc i + m * fPlace s ix < m + m * fPlace s ix := by have := h.1; omega
        _ = m * (fPlace s ix + 1) := by ring
        _ ≤ m * s.prod := Nat.mul_le_mul_left _ this

theorem cOfF_fPlace {s ix : List Nat} (h : ValidIdx s ix) : cOfF s (fPlace s ix) = cPlace s ix := by
  induction s generalizing ix with
  | nil => cases ix with
    | nil => rfl
    | cons => exact h.elim
  | cons m s ih => cases ix with
    | nil => exact h.elim
    | cons i ix =>
      have h1 := h.1
      have hm : 0 < m := by omega
      rw [fPlace, cOfF, cPlace, Nat.add_mul_mod_self_left, Nat.mod_eq_of_lt h1, Nat.add_mul_div_left _ _ hm, Nat.div_eq_of_lt h1, Nat.zero_add, ih h.2]

theorem exists_fPlace {s : List Nat} {p : Nat} (h : p < s.prod) : ∃ ix, ValidIdx s ix ∧ fPlace s ix = p := by
  induction s generalizing p with
  | nil =>
    refine ⟨[], trivial, ?_⟩
    have : p < 1 := by simpa using h
    show 0 = p
    omega
  | cons m s ih =>
    rw [List.prod_cons] at h
    have hm : 0 < m := by
      rcases Nat.eq_zero_or_pos m with rfl | hm
      · simp at h
      · exact hm
    obtain ⟨ix, h1, h2⟩ := ih (p := p / m) (Nat.div_lt_of_lt_mul h)
    exact ⟨p % m :: ix, ⟨Nat.mod_lt _ hm, h1⟩, by rw [fPlace, h2]; exact Nat.mod_add_div p m⟩

section
variable {K : Type} [Field K] [StarRing K]

/-- The model of `numpy.ravel`: the entry with multi-index `ix` goes to its place in the order asked for, and these are all the places. -/
theorem C69_ravel_spec {a : NDArray K} (ha : a.WF) :
    (∀ o, (a.ravel o).shape = [a.shape.prod] ∧ (a.ravel o).data.length = a.shape.prod) ∧
    (∀ ix, ValidIdx a.shape ix → (a.ravel .F).data[fPlace a.shape ix]? = a.data[cPlace a.shape ix]?) ∧
    (∀ p < a.shape.prod, ∃ ix, ValidIdx a.shape ix ∧ fPlace a.shape ix = p) ∧
    ∀ o, o ≠ .F → (a.ravel o).data = a.data := by
  refine ⟨fun o => ?_, fun ix h => ?_, fun p hp => exists_fPlace hp, fun o ho => ?_⟩
  · cases o <;> simp [NDArray.ravel] <;> exact ha
  · have h1 := fPlace_lt h
    have h2 : cPlace a.shape ix < a.data.length := by
      rw [show a.data.length = a.shape.prod from ha]
      clear h1 ha
      generalize a.shape = s at h
      induction s generalizing ix with
      | nil => cases ix with
        | nil => simp [cPlace]
        | cons => exact h.elim
      | cons m s ih => cases ix with
        | nil => exact h.elim
        | cons i ix =>
          have := ih ix h.2
          rw [List.prod_cons, cPlace]
          calc i * s.prod + cPlace s ix < i * s.prod + s.prod := by omega
            _ = (i + 1) * s.prod := by ring
            _ ≤ m * s.prod := Nat.mul_le_mul_right _ h.1
    simp only [NDArray.ravel, List.getElem?_map, List.getElem?_range h1, Option.map_some, cOfF_fPlace h]
    rw [List.getD_eq_getElem?_getD, List.getElem?_eq_getElem h2]; rfl
  · cases o <;> first | rfl | exact absurd rfl ho

end

theorem cOfF_append (s u : List Nat) (p : Nat) : cOfF (s ++ u) p = cOfF s (p % s.prod) * u.prod + cOfF u (p / s.prod) := by
  induction s generalizing p with
  | nil => simp [cOfF]
  | cons m s ih =>
    rw [List.cons_append, cOfF, ih, cOfF, List.prod_append, List.prod_cons, Nat.div_div_eq_div_mul, Nat.mod_mul_right_mod, Nat.mod_mul_right_div_self]
    ring

theorem cOfF_zero (s : List Nat) : cOfF s 0 = 0 := by
  induction s with
  | nil => rfl
  | cons m s ih => rw [cOfF, Nat.zero_mod, Nat.zero_div, ih]; simp

theorem cOfF_lt {s : List Nat} {p : Nat} (h : p < s.prod) : cOfF s p < s.prod := by
  induction s generalizing p with
  | nil => simp [cOfF]
  | cons m s ih =>
    rw [List.prod_cons] at h ⊢
    have hm : 0 < m := by
      rcases Nat.eq_zero_or_pos m with rfl | hm
      · simp at h
      · exact hm
    have h1 := ih (p := p / m) (Nat.div_lt_of_lt_mul h)
    rw [cOfF]
    calc p % m * s.prod + cOfF s (p / m) < p % m * s.prod + s.prod := by omega
      _ = (p % m + 1) * s.prod := by ring
      _ ≤ m * s.prod := Nat.mul_le_mul_right _ (Nat.mod_lt _ hm)

/-- Fortran order when the dimensions after an axis are all 1: the axis runs slowest -/
theorem cOfF_last {s : List Nat} {ax p : Nat} (hax : ax < s.length) (hi : inner s ax = 1) (hp : p < s.prod) :
    cOfF s p = cOfF (s.take ax) (p % outer s ax) * len s ax + p / outer s ax := by
  have hs : s = s.take ax ++ (len s ax :: s.drop (ax + 1)) := by
    conv_lhs => rw [← List.take_append_drop ax s, List.drop_eq_getElem_cons hax]
    simp [len, List.getD_eq_getElem?_getD, hax]
  have hpr : s.prod = outer s ax * len s ax := by
    have := prod_split hax
    rw [hi, mul_one] at this
    exact this
  have ho : 0 < outer s ax := Nat.pos_of_mul_pos_right (Nat.lt_of_le_of_lt (Nat.zero_le _) (hpr ▸ hp))
  have hq : p / outer s ax < len s ax := Nat.div_lt_of_lt_mul (hpr ▸ hp)
  conv_lhs => rw [hs]
  rw [cOfF_append, cOfF, List.prod_cons, show (s.drop (ax + 1)).prod = 1 from hi, show (s.take ax).prod = outer s ax from rfl, Nat.mod_eq_of_lt hq,
    Nat.div_eq_of_lt hq, cOfF_zero]
  ring

section
variable {K : Type} [Field K] [StarRing K] [CharZero K] {n : Nat} {J : Nat → Nat → K} {L : Layout} {dt : DType} {a : Nat → List K}

theorem map_range_add {β : Type} (f : Nat → β) (m k : Nat) : (List.range (m + k)).map f = (List.range m).map f ++ (List.range k).map fun i => f (m + i) := by
  rw [List.range_add, List.map_append, List.map_map]; rfl

theorem map_range_psum {β : Type} (f : Nat → β) (sz : Nat → Nat) (n : Nat) :
    (List.range (psum sz n)).map f = (List.range n).flatMap fun r => (List.range (sz r)).map fun i => f (psum sz r + i) := by
  induction n with
  | zero => rfl
  | succ n ih => rw [psum, map_range_add, ih, List.range_succ, List.flatMap_append]; simp

/-- the entries of the global array that rank `r` holds -/
theorem global_entry (hL : L.WF n) (hp : L.part = .scatter) (ha : ∀ r < n, (a r).length = (L.lshape r).prod) {r o k i : Nat} (hr : r < n)
    (ho : o < outer L.gshape L.axis) (hk : k < L.sizes r) (hi : i < inner L.gshape L.axis) :
    (a r)[(o * L.sizes r + k) * inner L.gshape L.axis + i]?
      = (L.globalData n a)[(o * len L.gshape L.axis + (psum L.sizes r + k)) * inner L.gshape L.axis + i]? := by
  have hb : ¬ L.part.isBroadcast = true := by rw [hp]; simp [Partition.isBroadcast]
  have hG : (L.global n .real a).WF := by
    show (L.globalData n a).length = L.gshape.prod
    unfold Layout.globalData
    rw [if_neg hb]
    rw [prod_split hL.axis_lt, ← hL.sum hp]
    refine length_flatMap_range fun o ho => ?_
    rw [psum_mul]
    clear hk hi hr
    have key : ∀ m ≤ n, (((List.range m).map fun r => (L.sizes r, a r)).flatMap fun p => chunk (p.1 * inner L.gshape L.axis) p.2 o).length
        = psum (fun r => L.sizes r * inner L.gshape L.axis) m := by
      intro m hm
      induction m with
      | zero => rfl
      | succ m ih =>
        rw [List.range_succ, List.map_append, List.flatMap_append, List.length_append, ih (by omega), psum]
        simp only [List.map_cons, List.map_nil, List.flatMap_cons, List.flatMap_nil, List.append_nil]
        rw [length_chunk (out := outer L.gshape L.axis) (by rw [ha m hm, length_lshape_prod hL hp]) ho]
    exact key n le_rfl
  have h2 : psum L.sizes (r + 1) ≤ len L.gshape L.axis := hL.sum hp ▸ psum_mono _ hr
  have h := slice_entries (G := L.global n .real a) hG (ax := L.axis) (lo := psum L.sizes r) (hi := psum L.sizes (r + 1)) hL.axis_lt
    (psum_mono _ (Nat.le_succ r)) h2 ho (k := k) (by simp [psum]; exact hk) hi
  have e : ((L.global n .real a).slice L.axis (psum L.sizes r) (psum L.sizes (r + 1))).data = a r := by
    rw [← piece_global hL hp ha hr]
    unfold Layout.piece
    rw [if_neg hb]; rfl
  rw [e] at h
  rw [show psum L.sizes (r + 1) - psum L.sizes r = L.sizes r by simp [psum]] at h
  exact h

/-- flattening the parts in Fortran order and chaining them flattens the whole, when the axis is the last one with more than one entry -/
theorem ravel_F_parts (hL : L.WF n) (hp : L.part = .scatter) (ha : ∀ r < n, (a r).length = (L.lshape r).prod) (hi : inner L.gshape L.axis = 1) :
    ((List.range n).flatMap fun r => ((NDArray.mk (L.lshape r) dt (a r)).ravel .F).data) = ((L.global n dt a).ravel .F).data := by
  have hg : L.gshape.prod = psum (fun r => (L.lshape r).prod) n := by
    have := (ravel_wf hL).sum hp
    exact this.symm
  show _ = (List.range L.gshape.prod).map _
  rw [hg, map_range_psum]
  apply List.flatMap_congr
  intro r hr
  have hr : r < n := by simpa using hr
  have hlp : ∀ q, (L.lshape q).prod = outer L.gshape L.axis * L.sizes q := fun q => by rw [length_lshape_prod hL hp, hi, mul_one]
  show (List.range (L.lshape r).prod).map _ = _
  apply List.map_congr_left
  intro p hpr
  have hpr : p < outer L.gshape L.axis * L.sizes r := by rw [← hlp]; simpa using hpr
  have ho : 0 < outer L.gshape L.axis := Nat.pos_of_mul_pos_right (Nat.lt_of_le_of_lt (Nat.zero_le _) hpr)
  have hoff : psum (fun r => (L.lshape r).prod) r = outer L.gshape L.axis * psum L.sizes r := by
    rw [mul_comm, psum_mul]
    congr 1
    funext q
    rw [hlp, mul_comm]
  have hk : p / outer L.gshape L.axis < L.sizes r := Nat.div_lt_of_lt_mul hpr
  have hoo : cOfF (L.gshape.take L.axis) (p % outer L.gshape L.axis) < outer L.gshape L.axis := cOfF_lt (Nat.mod_lt _ ho)
  have hge := global_entry hL hp ha hr hoo hk (show 0 < inner L.gshape L.axis by omega)
  simp only [hi, mul_one, add_zero] at hge
  have h2 : psum L.sizes (r + 1) ≤ len L.gshape L.axis := hL.sum hp ▸ psum_mono _ hr
  have hlt : psum (fun r => (L.lshape r).prod) r + p < L.gshape.prod := by
    rw [hoff, prod_split hL.axis_lt, hi, mul_one]
    calc _ < outer L.gshape L.axis * psum L.sizes r + outer L.gshape L.axis * L.sizes r := by omega
      _ = outer L.gshape L.axis * psum L.sizes (r + 1) := by rw [psum]; ring
      _ ≤ _ := Nat.mul_le_mul_left _ h2
  show (a r).getD (cOfF (L.lshape r) p) 0 = (L.globalData n a).getD (cOfF L.gshape _) 0
  rw [cOfF_last hL.axis_lt hi hlt, lshape_scatter hp, cOfF_last (s := L.gshape.set L.axis (L.sizes r)) (ax := L.axis) (by simpa using hL.axis_lt) (by simpa using hi)
    (by rw [← lshape_scatter hp, hlp]; exact hpr)]
  rw [outer_set, len_set hL.axis_lt, hoff, Nat.mul_add_mod, Nat.mul_add_div ho]
  have ht : (L.gshape.set L.axis (L.sizes r)).take L.axis = L.gshape.take L.axis := by
    rw [List.take_set, List.set_eq_of_length_le (by simp)]
  rw [ht, List.getD_eq_getElem?_getD, List.getD_eq_getElem?_getD, hge]

theorem good_ravel {o : Order} (ha : L.Good n dt a) : L.ravel.Good n dt fun r => ((NDArray.mk (L.lshape r) dt (a r)).ravel o).data := by
  have hw : ∀ r < n, (NDArray.mk (L.lshape r) dt (a r)).WF := fun r hr => ha.length r hr
  refine ⟨fun r hr => ?_, fun r hr hd x hx => ?_, fun hb r hr => ?_⟩
  · rw [ravel_lshape, ((C69_ravel_spec (hw r hr)).1 o).2]; simp
  · cases o with
    | F =>
      obtain ⟨p, _, rfl⟩ := List.mem_map.mp hx
      rw [List.getD_eq_getElem?_getD]
      cases h : (a r)[cOfF (L.lshape r) p]? with
      | none => simp [h]
      | some y => simp only [h, Option.getD_some]; exact ha.fits r hr hd y (List.mem_of_getElem? h)
    | C => exact ha.fits r hr hd x hx
    | A => exact ha.fits r hr hd x hx
    | K => exact ha.fits r hr hd x hx
  · have hb' : L.part.isBroadcast = true := by rw [show L.part = .broadcast from hb]; rfl
    rw [ha.consistent hb r hr, lshape_bcast hb', lshape_bcast hb']

theorem runs_ravelO {o : Order} (hL : L.WF n) (ha : L.Good n dt a) :
    Runs n (fun r => (L.fam n dt a r).ravelO (env n J r) o)
      (fun r => .ok (L.ravel.fam n dt (fun r => ((NDArray.mk (L.lshape r) dt (a r)).ravel o).data) r)) := by
  unfold DArr.ravelO
  simp only [Prog.bind_eq]
  refine runs_localShapes ?_
  have e : ((List.range n).map L.lshape).map (fun s => [s.prod]) = (List.range n).map L.ravel.lshape := by
    rw [List.map_map]; apply List.map_congr_left; intro r _; exact (ravel_lshape r).symm
  rw [e]
  refine Runs.bind_ok (runs_mkDArr (ravel_wf hL)) ?_
  refine runs_setAll_good (L := L.ravel) (dt := dt) (J := J) (a := junkData J L.ravel dt) (v := fun r => (NDArray.mk (L.lshape r) dt (a r)).ravel o)
    (fun r _ => length_junk r) (fun r hr => ?_) (good_ravel ha)
  rw [ravel_lshape]
  exact ((C69_ravel_spec (a := NDArray.mk (L.lshape r) dt (a r)) (ha.length r hr)).1 o).1

/-- The model without the argument is the model with order "C". -/
theorem C69_default {r : Nat} (ha : L.Good n dt a) (hr : r < n) : (L.fam n dt a r).ravelO (env n J r) .C = (L.fam n dt a r).ravel (env n J r) := by
  unfold DArr.ravelO DArr.ravel
  have : ((L.fam n dt a r).larr.ravel .C) = (L.fam n dt a r).larr.flatten := by
    show NDArray.mk [(L.lshape r).prod] dt (a r) = ⟨[(a r).length], dt, a r⟩
    rw [ha.length r hr]
  rw [this]

/-- **C69**, partial: gathering `x.ravel(order)` gives the gathered array flattened in that order, for broadcast arrays, for orders C, A, K if the dimensions before the axis are all 1, and for order F if those after it are.  For other axes the claim is false: `C16_violated`, `C69_violated`. -/
theorem C69_ravel_partial (o : Order) (hL : L.WF n) (ha : L.Good n dt a)
    (hC : L.part = .scatter → o ≠ .F → (L.gshape.take L.axis).prod = 1) (hF : L.part = .scatter → o = .F → (L.gshape.drop (L.axis + 1)).prod = 1) :
    ∃ g : Nat → NDArray K,
      Always n (fun r => (L.fam n dt a r).asarray (env n J r)) (fun r => .ok (g r)) ∧
      Always n (fun r => do
          let z ← (L.fam n dt a r).ravelO (env n J r) o
          z.asarray (env n J r))
        (fun r => .ok ((g r).ravel o)) := by
  refine ⟨_, (runs_asarray_any hL).always, ?_⟩
  simp only [Prog.bind_eq]
  refine (Runs.bind_ok (runs_ravelO (J := J) hL ha) ((runs_asarray_any (ravel_wf hL)).congr (fun _ _ => rfl) fun r hr => ?_)).always
  by_cases hb : L.part.isBroadcast = true
  · have hb' : L.ravel.part.isBroadcast = true := hb
    simp only [hb', hb, if_true, lshape_bcast hb]
    cases o <;> rfl
  · have hb' : ¬ L.ravel.part.isBroadcast = true := hb
    have hsc := isBroadcast_false hb
    simp only [hb', hb]
    have e1 : L.ravel.globalData n (fun r => ((NDArray.mk (L.lshape r) dt (a r)).ravel o).data)
        = (List.range n).flatMap fun r => ((NDArray.mk (L.lshape r) dt (a r)).ravel o).data := by
      unfold Layout.globalData
      rw [if_neg hb']
      exact concatData_flat _ _ _ fun q hq => by
        have := (good_ravel (o := o) ha).length q (by simpa using hq)
        rw [ravel_lshape] at this
        exact this.trans (by simp [Layout.ravel])
    by_cases ho : o = .F
    · subst ho
      rw [e1, ravel_F_parts hL hsc ha.length (hF hsc rfl)]
      rfl
    · have e2 : L.globalData n a = (List.range n).flatMap a := by
        unfold Layout.globalData
        rw [if_neg hb]
        have : outer L.gshape L.axis = 1 := hC hsc ho
        rw [this]
        refine concatData_outer_one _ _ _ _ fun q hq => ?_
        rw [ha.length q (by simpa using hq), length_lshape_prod hL hsc, this, one_mul]
      rw [e1]
      cases o with
      | F => exact absurd rfl ho
      | C => show Except.ok (NDArray.mk _ dt _) = .ok ⟨_, dt, L.globalData n a⟩; rw [e2]; rfl
      | A => show Except.ok (NDArray.mk _ dt _) = .ok ⟨_, dt, L.globalData n a⟩; rw [e2]; rfl
      | K => show Except.ok (NDArray.mk _ dt _) = .ok ⟨_, dt, L.globalData n a⟩; rw [e2]; rfl

end

/-! ### the conditions are needed -/

/-- number `p` in Fortran order is the entry with index 0 before the axis, `j` along it and the `q`-th after it -/
theorem cOfF_axis {s : List Nat} {ax j q : Nat} (hax : ax < s.length) (ho : 0 < outer s ax) (hj : j < len s ax) :
    cOfF s (outer s ax * (j + len s ax * q)) = j * inner s ax + cOfF (s.drop (ax + 1)) q := by
  have hs : s = s.take ax ++ (len s ax :: s.drop (ax + 1)) := by
    conv_lhs => rw [← List.take_append_drop ax s, List.drop_eq_getElem_cons hax]
    simp [len, List.getD_eq_getElem?_getD, hax]
  conv_lhs => rw [hs]
  rw [cOfF_append, cOfF, List.prod_cons, show (s.take ax).prod = outer s ax from rfl, show (s.drop (ax + 1)).prod = inner s ax from rfl, ← hs,
    Nat.mul_mod_right, cOfF_zero, Nat.mul_div_cancel_left _ ho, Nat.add_mul_mod_self_left, Nat.mod_eq_of_lt hj, Nat.add_mul_div_left _ _ (by omega),
    Nat.div_eq_of_lt hj]
  ring

section
variable {K : Type} [Field K] [StarRing K] [CharZero K] {n : Nat} {J : Nat → Nat → K} {L : Layout} {dt : DType} {a : Nat → List K}

/-- gathering the flattened array chains the flattened parts -/
theorem runs_ravelO_asarray {o : Order} (hL : L.WF n) (hp : L.part = .scatter) (ha : L.Good n dt a) :
    Runs n (fun r => ((L.fam n dt a r).ravelO (env n J r) o).bind fun z => z.asarray (env n J r))
      (fun _ => .ok ⟨[L.gshape.prod], dt, (List.range n).flatMap fun r => ((NDArray.mk (L.lshape r) dt (a r)).ravel o).data⟩) := by
  have hb' : ¬ L.ravel.part.isBroadcast = true := by
    have : L.ravel.part = .scatter := hp
    rw [this]; simp [Partition.isBroadcast]
  refine Runs.bind_ok (runs_ravelO (J := J) hL ha) ((runs_asarray_any (ravel_wf hL)).congr (fun _ _ => rfl) fun r hr => ?_)
  have e1 : L.ravel.globalData n (fun r => ((NDArray.mk (L.lshape r) dt (a r)).ravel o).data)
      = (List.range n).flatMap fun r => ((NDArray.mk (L.lshape r) dt (a r)).ravel o).data := by
    unfold Layout.globalData
    rw [if_neg hb']
    exact concatData_flat _ _ _ fun q hq => by
      have := (good_ravel (o := o) ha).length q (by simpa using hq)
      rw [ravel_lshape] at this
      exact this.trans (by simp [Layout.ravel])
  simp only [hb', e1]
  rfl

theorem ravel_const {o : Order} {s : List Nat} {x y : K} (h : y ∈ ((NDArray.mk s dt (List.replicate s.prod x)).ravel o).data) : y = x := by
  cases o with
  | F =>
    obtain ⟨p, hp, rfl⟩ := List.mem_map.mp h
    have := cOfF_lt (s := s) (by simpa using hp)
    simp [List.getD_eq_getElem?_getD, this]
  | C => exact List.eq_of_mem_replicate h
  | A => exact List.eq_of_mem_replicate h
  | K => exact List.eq_of_mem_replicate h

/-- **C69 is false** whenever two ranks hold entries of an array scattered along another axis than the slowest one of the order: then some array flattens wrongly.  Together with `C69_ravel_partial` this says exactly for which layouts the claim holds. -/
theorem C69_violated_general (o : Order) (hL : L.WF n) (hp : L.part = .scatter) {q r : Nat} (hqr : q < r) (hr : r < n) (hq0 : L.sizes q ≠ 0) (hr0 : L.sizes r ≠ 0)
    (hC : o ≠ .F → 2 ≤ (L.gshape.take L.axis).prod ∧ 1 ≤ (L.gshape.drop (L.axis + 1)).prod)
    (hF : o = .F → 1 ≤ (L.gshape.take L.axis).prod ∧ 2 ≤ (L.gshape.drop (L.axis + 1)).prod) :
    ∃ a : Nat → List K, L.Good n .real a ∧
      ¬ Always n (fun r => do
          let z ← (L.fam n .real a r).ravelO (env n J r) o
          z.asarray (env n J r))
        (fun _ => .ok ((L.global n .real a).ravel o)) := by
  let a : Nat → List K := fun r => List.replicate (L.lshape r).prod (r : K)
  have ha : L.Good n .real a := ⟨fun r _ => by simp [a], fun r _ _ x hx => by rw [List.eq_of_mem_replicate hx]; simp, by simp [hp]⟩
  refine ⟨a, ha, fun h => ?_⟩
  simp only [Prog.bind_eq] at h
  have hu := h.unique (runs_ravelO_asarray (J := J) hL hp ha).always r hr
  injection hu with hu
  have hd : ((L.global n .real a).ravel o).data = (List.range n).flatMap fun r => ((NDArray.mk (L.lshape r) .real (a r)).ravel o).data := by rw [hu]
  -- the parts come in the order of the ranks
  have hpw : (((L.global n .real a).ravel o).data).Pairwise fun x y : K => ∃ i j : Nat, i ≤ j ∧ x = (i : K) ∧ y = (j : K) := by
    rw [hd, List.pairwise_flatMap]
    constructor
    · intro i _
      refine List.Pairwise.imp_of_mem (R := fun _ _ => True) (fun hx hy _ => ⟨i, i, le_rfl, ravel_const hx, ravel_const hy⟩) ?_
      exact List.pairwise_of_forall (fun _ _ => trivial)
    · refine List.Pairwise.imp (R := (· < ·)) (fun {i j} hij x hx y hy => ⟨i, j, hij.le, ravel_const hx, ravel_const hy⟩) ?_
      exact List.pairwise_lt_range
  -- but an entry of the later rank precedes one of the earlier rank
  have hlen : ∀ r < n, L.sizes r ≠ 0 → psum L.sizes r < len L.gshape L.axis := fun r hr h0 => by
    have h2 : psum L.sizes (r + 1) ≤ len L.gshape L.axis := hL.sum hp ▸ psum_mono _ hr
    have : psum L.sizes (r + 1) = psum L.sizes r + L.sizes r := rfl
    omega
  have hval : ∀ {i o k m : Nat}, i < n → o < outer L.gshape L.axis → k < L.sizes i → m < inner L.gshape L.axis →
      (L.globalData n a)[(o * len L.gshape L.axis + (psum L.sizes i + k)) * inner L.gshape L.axis + m]? = some (i : K) := by
    intro i o k m hi ho hk hm
    rw [← global_entry hL hp ha.length hi ho hk hm]
    have hlt : (o * L.sizes i + k) * inner L.gshape L.axis + m < (L.lshape i).prod := by
      rw [length_lshape_prod hL hp]
      calc _ < (o * L.sizes i + k) * inner L.gshape L.axis + inner L.gshape L.axis := by omega
        _ = (o * L.sizes i + (k + 1)) * inner L.gshape L.axis := by ring
        _ ≤ (o * L.sizes i + L.sizes i) * inner L.gshape L.axis := Nat.mul_le_mul_right _ (by omega)
        _ = (o + 1) * (L.sizes i * inner L.gshape L.axis) := by ring
        _ ≤ _ := Nat.mul_le_mul_right _ ho
    show (List.replicate _ _)[_]? = _
    rw [List.getElem?_replicate, if_pos hlt]
  have hq : q < n := by omega
  have hlr := hlen r hr hr0
  have hlq := hlen q hq hq0
  suffices ∃ p p' : Nat, p < p' ∧ (((L.global n .real a).ravel o).data)[p]? = some (r : K) ∧ (((L.global n .real a).ravel o).data)[p']? = some (q : K) by
    obtain ⟨p, p', h1, h2, h3⟩ := this
    obtain ⟨e2, h2⟩ := List.getElem?_eq_some_iff.mp h2
    obtain ⟨e3, h3⟩ := List.getElem?_eq_some_iff.mp h3
    obtain ⟨i, j, hij, h4, h5⟩ := List.pairwise_iff_getElem.mp hpw p p' e2 e3 h1
    rw [h2] at h4
    rw [h3] at h5
    have h4 : r = i := by exact_mod_cast h4
    have h5 : q = j := by exact_mod_cast h5
    omega
  by_cases hoF : o = .F
  · subst hoF
    obtain ⟨hS, hI⟩ := hF rfl
    have hS : 0 < outer L.gshape L.axis := hS
    have hI : 2 ≤ inner L.gshape L.axis := hI
    have hone : cOfF (L.gshape.drop (L.axis + 1)) 1 < inner L.gshape L.axis := cOfF_lt (show 1 < inner L.gshape L.axis by omega)
    have hp1 : ∀ (j q' : Nat), j < len L.gshape L.axis → q' < 2 → outer L.gshape L.axis * (j + len L.gshape L.axis * q') < L.gshape.prod := by
      intro j q' hj hq'
      rw [prod_split hL.axis_lt]
      refine Nat.mul_lt_mul_of_pos_left ?_ hS
      calc j + len L.gshape L.axis * q' < len L.gshape L.axis + len L.gshape L.axis * q' := by omega
        _ = len L.gshape L.axis * (q' + 1) := by ring
        _ ≤ _ := Nat.mul_le_mul_left _ (by omega)
    have hget : ∀ p < L.gshape.prod, ∀ x, (L.globalData n a)[cOfF L.gshape p]? = some x → (((L.global n .real a).ravel .F).data)[p]? = some x := by
      intro p hp x hx
      show ((List.range L.gshape.prod).map fun p => (L.globalData n a).getD (cOfF L.gshape p) 0)[p]? = some x
      rw [List.getElem?_map, List.getElem?_range hp, Option.map_some, List.getD_eq_getElem?_getD, hx]; rfl
    refine ⟨outer L.gshape L.axis * (psum L.sizes r + len L.gshape L.axis * 0), outer L.gshape L.axis * (psum L.sizes q + len L.gshape L.axis * 1), ?_, ?_, ?_⟩
    · exact Nat.mul_lt_mul_of_pos_left (by omega) hS
    · refine hget _ (hp1 _ _ hlr (by omega)) _ ?_
      rw [cOfF_axis hL.axis_lt hS hlr, cOfF_zero]
      have := hval (i := r) (o := 0) (k := 0) (m := 0) hr hS (by omega) (by omega)
      simpa using this
    · refine hget _ (hp1 _ _ hlq (by omega)) _ ?_
      rw [cOfF_axis hL.axis_lt hS hlq]
      have := hval (i := q) (o := 0) (k := 0) hq hS (by omega) hone
      simpa using this
  · obtain ⟨hS, hI⟩ := hC hoF
    have hS : 2 ≤ outer L.gshape L.axis := hS
    have hI : 1 ≤ inner L.gshape L.axis := hI
    have hdat : ((L.global n .real a).ravel o).data = L.globalData n a := by cases o <;> first | rfl | exact absurd rfl hoF
    rw [hdat]
    refine ⟨_, _, ?_, hval (i := r) (o := 0) (k := 0) (m := 0) hr (by omega) (by omega) (by omega), hval (i := q) (o := 1) (k := 0) (m := 0) hq (by omega) (by omega) (by omega)⟩
    have : (0 * len L.gshape L.axis + (psum L.sizes r + 0)) < (1 * len L.gshape L.axis + (psum L.sizes q + 0)) := by omega
    simpa using Nat.mul_lt_mul_of_pos_right this (show 0 < inner L.gshape L.axis by omega)

end

/-- **C69 is false** for order F along the first axis: the 2 x 2 array [[1, 2], [3, 4]] scattered by rows over two ranks flattens in Fortran order to [1, 3, 2, 4], but the flattened distributed array gathers to [1, 2, 3, 4]. -/
theorem C69_violated :
    let L : Layout := ⟨[2, 2], .scatter, 0, fun _ => 1, none⟩
    let a : Nat → List ℚ := fun r => [2 * r + 1, 2 * r + 2]
    L.WF 2 ∧ L.Good 2 .real a ∧ (L.global 2 .real a).data = [1, 2, 3, 4] ∧ ((L.global 2 .real a).ravel .F).data = [1, 3, 2, 4] ∧
    Always 2 (fun r => do
        let z ← (L.fam 2 .real a r).ravelO (env 2 (fun _ _ => 0) r) .F
        z.asarray (env 2 (fun _ _ => 0) r))
      (fun _ => .ok ⟨[4], .real, [1, 2, 3, 4]⟩) := by
  intro L a
  have hL : L.WF 2 := ⟨by simp [L], fun _ => rfl, by simp [L]⟩
  have ha : L.Good 2 .real a := ⟨fun r hr => rfl, fun _ _ _ _ _ => rfl, by simp [L]⟩
  refine ⟨hL, ha, by decide +kernel, by decide +kernel, ?_⟩
  simp only [Prog.bind_eq]
  refine (Runs.bind_ok (runs_ravelO (J := fun _ _ => 0) hL ha) ((runs_asarray_any (ravel_wf hL)).congr (fun _ _ => rfl) fun r hr => ?_)).always
  have : L.ravel.globalData 2 (fun r => ((NDArray.mk (L.lshape r) .real (a r)).ravel .F).data) = [1, 2, 3, 4] := by decide +kernel
  simp only [this]
  rfl

/-- Non-vacuity: a 2×3 array scattered along its last axis over two ranks meets the condition for order F; its Fortran order. -/
example : (Layout.mk [2, 3] .scatter 1 (fun r => if r = 0 then 2 else 1) none).WF 2 ∧ ([2, 3].drop 2).prod = 1 ∧
    ((NDArray.mk [2, 3] .real [(1 : ℚ), 2, 3, 4, 5, 6]).ravel .F).data = [1, 4, 2, 5, 3, 6] :=
  ⟨⟨by decide, fun _ => rfl, by simp⟩, rfl, by decide +kernel⟩

end Verif

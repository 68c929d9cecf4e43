/- Arrays given by their rows. -/
import Verif.Spec.Derivatives
import Verif.Proofs.Ghost
import Verif.Proofs.History2

namespace Verif
open NDArray

set_option linter.unusedSectionVars false

variable {K : Type}

/-! ### `tab` -/

@[simp] theorem length_tab (m w : Nat) (f : Nat → Nat → K) : (tab m w f).length = m * w := by simp [tab]

theorem getElem?_tab (m w : Nat) (f : Nat → Nat → K) (p : Nat) : (tab m w f)[p]? = if p < m * w then some (f (p / w) (p % w)) else none := by
  unfold tab
  rw [List.getElem?_map]
  split_ifs with h <;> simp [h]

theorem tab_congr {m w : Nat} {f g : Nat → Nat → K} (h : ∀ i < m, ∀ j < w, f i j = g i j) : tab m w f = tab m w g := by
  unfold tab
  apply List.map_congr_left
  intro p hp
  have hp : p < m * w := by simpa using hp
  have hw : 0 < w := Nat.pos_of_ne_zero (by rintro rfl; simp at hp)
  exact h _ ((Nat.div_lt_iff_lt_mul hw).2 hp) _ (Nat.mod_lt _ hw)

theorem tab_ext {m w : Nat} {f : Nat → Nat → K} {l : List K} (hl : l.length = m * w)
    (h : ∀ i < m, ∀ j < w, l[i * w + j]? = some (f i j)) : l = tab m w f := by
  apply List.ext_getElem?
  intro p
  rw [getElem?_tab]
  split_ifs with hp
  · have hw : 0 < w := Nat.pos_of_ne_zero (by rintro rfl; simp at hp)
    have := h (p / w) ((Nat.div_lt_iff_lt_mul hw).2 hp) (p % w) (Nat.mod_lt _ hw)
    rwa [show p / w * w + p % w = p from Nat.div_add_mod' p w] at this
  · rw [List.getElem?_eq_none (by omega)]

theorem getElem?_tab' {m w : Nat} {f : Nat → Nat → K} {i j : Nat} (hi : i < m) (hj : j < w) : (tab m w f)[i * w + j]? = some (f i j) := by
  have hw : 0 < w := by omega
  have h : i * w + j < m * w := by
    calc _ < (i + 1) * w := by rw [Nat.add_mul]; omega
      _ ≤ _ := Nat.mul_le_mul_right _ hi
  rw [getElem?_tab, if_pos h, Nat.mul_comm, Nat.mul_add_div hw, Nat.div_eq_of_lt hj, Nat.mul_add_mod, Nat.mod_eq_of_lt hj]
  rfl

theorem entry_tab [Zero K] {m w : Nat} {f : Nat → Nat → K} {i j : Nat} (hi : i < m) (hj : j < w) : entry w (tab m w f) i j = f i j := by
  rw [entry, List.getD_eq_getElem?_getD, getElem?_tab' hi hj]; rfl

theorem tab_entry [Zero K] {m w : Nat} {d : List K} (hd : d.length = m * w) : tab m w (entry w d) = d := by
  refine (tab_ext hd fun i hi j hj => ?_).symm
  have h : i * w + j < m * w := by
    calc _ < (i + 1) * w := by rw [Nat.add_mul]; omega
      _ ≤ _ := Nat.mul_le_mul_right _ hi
  rw [entry, List.getD_eq_getElem?_getD, List.getElem?_eq_getElem (by omega)]; rfl

theorem tab_map (m w : Nat) (f : Nat → Nat → K) (h : K → K) : (tab m w f).map h = tab m w fun i j => h (f i j) := by
  simp [tab, List.map_map, Function.comp_def]

theorem tab_zip (m w : Nat) (f g : Nat → Nat → K) (h : K → K → K) :
    List.zipWith h (tab m w f) (tab m w g) = tab m w fun i j => h (f i j) (g i j) := by
  simp [tab, List.zipWith_map]

theorem tab_const (m w : Nat) (x : K) : tab m w (fun _ _ => x) = List.replicate (m * w) x := by
  unfold tab
  rw [List.map_const', List.length_range]

theorem tab_append (a b w : Nat) (f g : Nat → Nat → K) :
    tab a w f ++ tab b w g = tab (a + b) w fun i j => if i < a then f i j else g (i - a) j := by
  refine tab_ext (by simp [Nat.add_mul]) fun i hi j hj => ?_
  rcases Nat.lt_or_ge i a with h | h
  · have h2 : i * w + j < a * w := by
      calc _ < (i + 1) * w := by rw [Nat.add_mul]; omega
        _ ≤ _ := Nat.mul_le_mul_right _ h
    rw [List.getElem?_append_left (by simpa using h2), getElem?_tab' h hj, if_pos h]
  · have h2 : a * w ≤ i * w + j := le_trans (Nat.mul_le_mul_right _ h) (Nat.le_add_right _ _)
    rw [List.getElem?_append_right (by simpa using h2), length_tab, if_neg (by omega)]
    have : i * w + j - a * w = (i - a) * w + j := by rw [Nat.sub_mul]; have := Nat.mul_le_mul_right w h; omega
    rw [this, getElem?_tab' (by omega) hj]

theorem tab_mem {m w : Nat} {f : Nat → Nat → K} {x : K} (h : x ∈ tab m w f) : ∃ i < m, ∃ j < w, x = f i j := by
  unfold tab at h
  obtain ⟨p, hp, rfl⟩ := List.mem_map.1 h
  have hp : p < m * w := by simpa using hp
  have hw : 0 < w := Nat.pos_of_ne_zero (by rintro rfl; simp at hp)
  exact ⟨_, (Nat.div_lt_iff_lt_mul hw).2 hp, _, Nat.mod_lt _ hw, rfl⟩

/-! ### arrays -/

/-- array with `m` rows -/
def rowsArr (m : Nat) (rest : List Nat) (dt : DType) (f : Nat → Nat → K) : NDArray K := ⟨m :: rest, dt, tab m rest.prod f⟩

/-- one row -/
def rowArr (rest : List Nat) (dt : DType) (v : Nat → K) : NDArray K := ⟨rest, dt, (List.range rest.prod).map v⟩

variable {m : Nat} {rest : List Nat} {dt dt' : DType} {f g : Nat → Nat → K}

theorem rowsArr_wf : (rowsArr m rest dt f).WF := by simp [rowsArr, NDArray.WF]

theorem rowsArr_congr {m' : Nat} (hm : m = m') (h : ∀ i < m, ∀ j < rest.prod, f i j = g i j) : rowsArr m rest dt f = rowsArr m' rest dt g := by
  subst hm; rw [rowsArr, rowsArr, tab_congr h]

theorem pyBound_le (m : Nat) (i : Int) (h : i < m) : pyBound m i ≤ m := by
  unfold pyBound; split_ifs <;> omega

theorem pyUpper_le (m : Nat) (hi : Option Int) : pyUpper m hi ≤ m := by
  cases hi with
  | none => exact le_refl _
  | some i => show pyBound m i ≤ m; unfold pyBound; split_ifs <;> omega

theorem get_rows [Zero K] (lo : Int) (hi : Option Int) : (rowsArr m rest dt f).get (Index.rows lo hi)
    = .ok (rowsArr (pyUpper m hi - pyBound m lo) rest dt fun i => f (pyBound m lo + i)) := by
  have hu := pyUpper_le m hi
  show Except.ok _ = Except.ok _
  congr 1
  unfold rowsArr
  congr 1
  show List.map _ (List.map _ (List.range ((pyUpper m hi - pyBound m lo) * rest.prod))) = _
  refine tab_ext (by simp) fun i hi' j hj => ?_
  have h : i * rest.prod + j < (pyUpper m hi - pyBound m lo) * rest.prod := by
    calc _ < (i + 1) * rest.prod := by rw [Nat.add_mul]; omega
      _ ≤ _ := Nat.mul_le_mul_right _ hi'
  simp only [List.map_map, List.getElem?_map, List.getElem?_range h, Option.map_some, Function.comp]
  have e : pyBound (len (m :: rest) 0) lo * inner (m :: rest) 0 + (i * rest.prod + j) = (pyBound m lo + i) * rest.prod + j := by
    show pyBound m lo * rest.prod + _ = _
    rw [Nat.add_mul, Nat.add_assoc]
  rw [e, List.getD_eq_getElem?_getD, getElem?_tab' (by omega) hj]; rfl

theorem get_row [Zero K] {i : Int} (h1 : -(m : Int) ≤ i) (h2 : i < m) : (rowsArr m rest dt f).get (Index.row i)
    = .ok (rowArr rest dt (f (pyBound m i))) := by
  have hb : pyBound m i < m := by unfold pyBound; split_ifs <;> omega
  unfold NDArray.get Index.row
  have : -(len (rowsArr m rest dt f).shape 0 : Int) ≤ i ∧ i < len (rowsArr m rest dt f).shape 0 := ⟨h1, h2⟩
  simp only [if_pos this]
  show Except.ok _ = Except.ok _
  congr 1
  unfold rowArr
  congr 1
  show List.map _ (List.map _ (List.range rest.prod)) = _
  rw [List.map_map]
  apply List.map_congr_left
  intro j hj
  have hj : j < rest.prod := by simpa using hj
  show (tab m rest.prod f).getD (pyBound m i * rest.prod + j) 0 = _
  rw [List.getD_eq_getElem?_getD, getElem?_tab' hb hj]; rfl

@[simp] theorem map_rows (h : K → K) : (rowsArr m rest dt f).map h = rowsArr m rest dt fun i j => h (f i j) := by
  simp [rowsArr, NDArray.map, tab_map]

@[simp] theorem map_row (h : K → K) {v : Nat → K} : (rowArr rest dt v).map h = rowArr rest dt fun j => h (v j) := by
  simp [rowArr, NDArray.map]

theorem zip_rows (h : K → K → K) {m' : Nat} (hm : m = m') : (rowsArr m rest dt f).zip h (rowsArr m' rest dt' g)
    = .ok (rowsArr m rest (dt.promote dt') fun i j => h (f i j) (g i j)) := by
  subst hm
  simp [rowsArr, NDArray.zip, tab_zip]

theorem zip_row (h : K → K → K) {v u : Nat → K} : (rowArr rest dt v).zip h (rowArr rest dt' u)
    = .ok (rowArr rest (dt.promote dt') fun j => h (v j) (u j)) := by
  simp [rowArr, NDArray.zip, List.zipWith_map]

theorem concat_rows {a b : Nat} : concat 0 [rowsArr a rest dt f, rowsArr b rest dt' g]
    = .ok (rowsArr (a + b) rest (dt.promote dt') fun i j => if i < a then f i j else g (i - a) j) := by
  show (if _ then _ else _) = _
  rw [if_pos (by simp [rowsArr])]
  simp only [rowsArr]
  congr 1
  have h1 : List.foldl (fun t (b : NDArray K) => t.promote b.dtype) dt [⟨a :: rest, dt, tab a rest.prod f⟩, ⟨b :: rest, dt', tab b rest.prod g⟩]
      = dt.promote dt' := by cases dt <;> cases dt' <;> rfl
  rw [h1]
  congr 1
  · show concatData 1 rest.prod [(a, tab a rest.prod f), (b, tab b rest.prod g)] = _
    simp [concatData, chunk]
    rw [← tab_append, ← length_tab a rest.prod f, List.take_length, ← length_tab b rest.prod g, List.take_length]

theorem slice_rows {lo hi : Nat} (h1 : lo ≤ hi) (h2 : hi ≤ m) : (rowsArr m rest dt f).slice 0 lo hi
    = rowsArr (hi - lo) rest dt fun i => f (lo + i) := by
  unfold NDArray.slice rowsArr
  dsimp only
  congr 1
  · simp only [len, List.getD_cons_zero, List.set_cons_zero]; congr 1; omega
  · refine tab_ext ?_ fun i hi' j hj => ?_
    · rw [length_sliceData (by simp) (by simp) h1 (by simpa [len] using h2)]
      simp [outer, inner]
    · simp only [sliceData, outer, List.take_zero, List.prod_nil, List.range_one, List.flatMap_cons, List.flatMap_nil, List.append_nil, chunk,
        Nat.zero_mul, List.drop_zero, len, List.getD_cons_zero, inner, Nat.zero_add, List.drop_one, List.tail_cons]
      have h : i * rest.prod + j < (hi - lo) * rest.prod := by
        calc _ < (i + 1) * rest.prod := by rw [Nat.add_mul]; omega
          _ ≤ _ := Nat.mul_le_mul_right _ hi'
      have h' : lo * rest.prod + (i * rest.prod + j) = (lo + i) * rest.prod + j := by rw [Nat.add_mul, Nat.add_assoc]
      have h3 : (lo + i) * rest.prod + j < m * rest.prod := by
        calc _ < (lo + i + 1) * rest.prod := by rw [Nat.add_mul _ 1]; omega
          _ ≤ _ := Nat.mul_le_mul_right _ (by omega)
      rw [List.getElem?_take, if_pos h, List.getElem?_drop, h', List.getElem?_take, if_pos h3, getElem?_tab' (by omega) hj]

theorem zeroRows_rows [Zero K] {k : Int} (hk : 0 ≤ k) : zeroRows k rest = .ok (rowsArr k.toNat rest .real fun _ _ => (0 : K)) := by
  unfold zeroRows rowsArr
  rw [if_neg (by omega), tab_const]

theorem getElem?_writeAt (b k : Nat) (d vs : List K) (hb : b + k ≤ d.length) (hv : vs.length = k) (p : Nat) :
    (writeAt d ((List.range k).map (b + ·)) vs)[p]? = if b ≤ p ∧ p < b + k then vs[p - b]? else d[p]? := by
  rw [show (List.range k).map (b + ·) = List.range' b k by rw [List.range'_eq_map_range]]
  induction k generalizing b d vs with
  | zero =>
    have : ¬ (b ≤ p ∧ p < b + 0) := by omega
    rw [if_neg this, List.range'_zero]
    cases vs <;> rfl
  | succ k ih =>
    obtain ⟨v, vs, rfl⟩ : ∃ v vs', vs = v :: vs' := by
      cases vs with
      | nil => simp at hv
      | cons v vs => exact ⟨_, _, rfl⟩
    rw [List.range'_succ, writeAt, ih (b + 1) (d.set b v) vs (by simpa using (by omega : b + 1 + k ≤ d.length)) (by simpa using hv)]
    rw [List.getElem?_set]
    rcases Nat.lt_trichotomy p b with h | h | h
    · rw [if_neg (by omega), if_neg (by omega), if_neg (by omega)]
    · subst h
      rw [if_neg (by omega), if_pos rfl, if_pos (by omega), if_pos (by omega)]
      simp
    · by_cases h2 : p < b + (k + 1)
      · rw [if_pos (by omega), if_pos (by omega)]
        rw [show p - b = (p - (b + 1)) + 1 by omega, List.getElem?_cons_succ]
      · rw [if_neg (by omega), if_neg (by omega), if_neg (by omega)]

theorem inplace_ok {a v : NDArray K} {h : K → K → K} (ht : dt = .real → dt' = .real) (ha : a.dtype = dt) (hv : v.dtype = dt') {d : List K}
    (hd : bcastTo a.shape v = .ok d) : a.inplace h v = .ok { a with data := List.zipWith h a.data d } := by
  unfold NDArray.inplace
  have : ¬ (a.dtype = .real ∧ v.dtype = .cplx) := by
    rw [ha, hv]; rintro ⟨h1, h2⟩; rw [ht h1] at h2; cases h2
  rw [if_neg this, hd]; rfl

theorem get_all [Zero K] : (rowsArr m rest dt f).get Index.all = .ok (rowsArr m rest dt f) := by
  unfold NDArray.get Index.all
  show Except.ok _ = Except.ok _
  congr 1
  unfold rowsArr
  congr 1
  refine tab_ext (by simp) fun i hi j hj => ?_
  have h : i * rest.prod + j < m * rest.prod := by
    calc _ < (i + 1) * rest.prod := by rw [Nat.add_mul]; omega
      _ ≤ _ := Nat.mul_le_mul_right _ hi
  have h' : i * rest.prod + j < (m :: rest).prod := by simpa using h
  simp only [List.getElem?_map, List.getElem?_range h', Option.map_some]
  rw [List.getD_eq_getElem?_getD, getElem?_tab' hi hj]; rfl

theorem bcast_rows : bcastTo (rowsArr m rest dt f).shape (rowsArr m rest dt' g) = .ok (tab m rest.prod g) :=
  bcastTo_self rfl (by simp [rowsArr])

theorem bcast_row {u v : Nat → K} : bcastTo (rowArr rest dt u).shape (rowArr rest dt' v) = .ok ((List.range rest.prod).map v) :=
  bcastTo_self rfl (by simp [rowArr])

/-- writing rows `b, …, b + k - 1` -/
theorem write_rows {b k : Nat} (hbk : k = 0 ∨ b + k ≤ m) :
    writeAt (tab m rest.prod f) ((List.range (k * rest.prod)).map (b * rest.prod + ·)) (tab k rest.prod g)
      = tab m rest.prod fun i j => if b ≤ i ∧ i < b + k then g (i - b) j else f i j := by
  rcases Nat.eq_zero_or_pos k with h0 | hpos
  · subst h0
    rw [Nat.zero_mul, List.range_zero, List.map_nil]
    have : writeAt (tab m rest.prod f) [] (tab 0 rest.prod g) = tab m rest.prod f := by cases tab 0 rest.prod g <;> rfl
    rw [this]
    exact tab_congr fun i _ j _ => by rw [if_neg (by omega)]
  have hle : b * rest.prod + k * rest.prod ≤ m * rest.prod := by
    rw [← Nat.add_mul]; exact Nat.mul_le_mul_right _ (by omega)
  refine tab_ext ?_ fun i hi' j hj => ?_
  · rw [length_writeAt, length_tab]
  rw [getElem?_writeAt _ _ _ _ (by simpa using hle) (by simp)]
  by_cases h : b ≤ i ∧ i < b + k
  · have h1 : b * rest.prod ≤ i * rest.prod + j := le_trans (Nat.mul_le_mul_right _ h.1) (Nat.le_add_right _ _)
    have h2 : i * rest.prod + j < b * rest.prod + k * rest.prod := by
      rw [← Nat.add_mul]
      calc _ < (i + 1) * rest.prod := by rw [Nat.add_mul]; omega
        _ ≤ _ := Nat.mul_le_mul_right _ h.2
    rw [if_pos ⟨h1, h2⟩, if_pos h]
    have h3 : i * rest.prod + j - b * rest.prod = (i - b) * rest.prod + j := by
      rw [Nat.sub_mul]; have := Nat.mul_le_mul_right rest.prod h.1; omega
    rw [h3, getElem?_tab' (by omega) hj]
  · have : ¬ (b * rest.prod ≤ i * rest.prod + j ∧ i * rest.prod + j < b * rest.prod + k * rest.prod) := by
      rintro ⟨h1, h2⟩
      apply h
      constructor
      · by_contra hlt
        have : i * rest.prod + j < b * rest.prod := by
          calc _ < (i + 1) * rest.prod := by rw [Nat.add_mul]; omega
            _ ≤ _ := Nat.mul_le_mul_right _ (by omega)
        omega
      · by_contra hlt
        have := Nat.mul_le_mul_right rest.prod (show b + k ≤ i by omega)
        rw [Nat.add_mul] at this
        omega
    rw [if_neg this, if_neg h, getElem?_tab' hi' hj]

/-- writing row `b` -/
theorem write_row {b : Nat} (hb : b < m) {v : Nat → K} :
    writeAt (tab m rest.prod f) ((List.range rest.prod).map (b * rest.prod + ·)) ((List.range rest.prod).map v)
      = tab m rest.prod fun p j => if p = b then v j else f p j := by
  have hle : b * rest.prod + rest.prod ≤ m * rest.prod := by
    calc _ = (b + 1) * rest.prod := by rw [Nat.add_mul]; omega
      _ ≤ _ := Nat.mul_le_mul_right _ hb
  refine tab_ext ?_ fun p hp j hj => ?_
  · rw [length_writeAt, length_tab]
  rw [getElem?_writeAt _ _ _ _ (by simpa using hle) (by simp)]
  by_cases h : p = b
  · subst h
    rw [if_pos (by omega), if_pos rfl, Nat.add_sub_cancel_left]
    simp [hj]
  · have : ¬ (b * rest.prod ≤ p * rest.prod + j ∧ p * rest.prod + j < b * rest.prod + rest.prod) := by
      rintro ⟨h1, h2⟩
      apply h
      apply le_antisymm
      · by_contra hlt
        have := Nat.mul_le_mul_right rest.prod (show b + 1 ≤ p by omega)
        rw [Nat.add_mul] at this
        omega
      · by_contra hlt
        have : p * rest.prod + j < b * rest.prod := by
          calc _ < (p + 1) * rest.prod := by rw [Nat.add_mul]; omega
            _ ≤ _ := Nat.mul_le_mul_right _ (by omega)
        omega
    rw [if_neg this, if_neg h, getElem?_tab' hp hj]

section
variable [Field K] [StarRing K] [CharZero K]

/-- all values representable in the dtype -/
def Fit (dt : DType) (f : Nat → Nat → K) : Prop := dt = .real → ∀ i j, star (f i j) = f i j

theorem castTo_fit {x : K} (h : dt = .real → star x = x) : castTo dt x = x := by
  have := castTo_of_fits (t := dt) (d := [x]) (fun hd y hy => by simp at hy; subst hy; exact h hd)
  simpa using this

theorem tab_cast (hf : Fit dt f) (m w : Nat) : (tab m w f).map (castTo dt) = tab m w f := by
  rw [tab_map]
  exact tab_congr fun i _ j _ => castTo_fit fun h => hf h i j

theorem set_all (hg : Fit dt g) : setIndex Index.all (rowsArr m rest dt f) (rowsArr m rest dt' g) = .ok (rowsArr m rest dt g) := by
  rw [setIndex_all (a := rowsArr m rest dt f) (v := rowsArr m rest dt' g) rowsArr_wf rfl rowsArr_wf]
  show Except.ok _ = _
  congr 1
  show NDArray.mk _ _ (List.map (castTo dt) (tab m rest.prod g)) = _
  rw [tab_cast hg]; rfl

/-- writing rows `b, …, b + k - 1` -/
theorem set_rows {lo : Int} {hi : Option Int} {k b : Nat} (hb : pyBound m lo = b) (hk : pyUpper m hi - pyBound m lo = k) (hg : Fit dt g) :
    setIndex (Index.rows lo hi) (rowsArr m rest dt f) (rowsArr k rest dt' g)
      = .ok (rowsArr m rest dt fun i j => if b ≤ i ∧ i < b + k then g (i - b) j else f i j) := by
  have hu := pyUpper_le m hi
  unfold setIndex Index.rows
  have hsh : (rowsArr m rest dt f).shape.set 0 (pyUpper (len (rowsArr m rest dt f).shape 0) hi - pyBound (len (rowsArr m rest dt f).shape 0) lo)
      = (rowsArr k rest dt g).shape := by
    show (pyUpper m hi - pyBound m lo) :: rest = k :: rest
    rw [hk]
  simp only [bind, Except.bind]
  rw [hsh, bcast_rows]
  show Except.ok _ = Except.ok _
  congr 1
  unfold rowsArr
  congr 1
  show writeAt (tab m rest.prod f) ((List.range ((pyUpper m hi - pyBound m lo) * rest.prod)).map (pyBound m lo * rest.prod + ·))
    ((tab k rest.prod g).map (castTo dt)) = _
  rw [tab_cast hg, hb] at *
  rw [hk]
  exact write_rows (by omega)

theorem set_row {i : Int} (h1 : -(m : Int) ≤ i) (h2 : i < m) {v : Nat → K} (hv : dt = .real → ∀ j, star (v j) = v j) :
    setIndex (Index.row i) (rowsArr m rest dt f) (rowArr rest dt' v)
      = .ok (rowsArr m rest dt fun p j => if p = pyBound m i then v j else f p j) := by
  have hb : pyBound m i < m := by unfold pyBound; split_ifs <;> omega
  unfold setIndex Index.row
  have hc : -(len (rowsArr m rest dt f).shape 0 : Int) ≤ i ∧ i < len (rowsArr m rest dt f).shape 0 := ⟨h1, h2⟩
  simp only [bind, Except.bind, if_pos hc]
  have : bcastTo (rowsArr m rest dt f).shape.tail (rowArr rest dt' v) = .ok ((List.range rest.prod).map v) := bcast_row (dt := dt) (u := v)
  rw [this]
  show Except.ok _ = Except.ok _
  congr 1
  unfold rowsArr
  congr 1
  show writeAt (tab m rest.prod f) ((List.range rest.prod).map (pyBound m i * rest.prod + ·)) (((List.range rest.prod).map v).map (castTo dt)) = _
  have hcast : ((List.range rest.prod).map v).map (castTo dt) = (List.range rest.prod).map v := by
    rw [List.map_map]
    exact List.map_congr_left fun j _ => castTo_fit fun h => hv h j
  rw [hcast]
  exact write_row hb

end
end Verif

/- C101: the gallery script on distributed arrays, sections without masks. -/
import Verif.Model.GalleryOps
import Verif.Props.C60
import Verif.Proofs.Stacked
import Verif.Proofs.SafeStacks

set_option linter.unusedSectionVars false

namespace Verif
open NDArray

variable {K : Type} [RCLike K] {n : Nat} {J : Nat → Nat → K}

/-- the layout of an array of shape `g` split evenly along the axis `ax` -/
def evenL (n : Nat) (g : List Nat) (ax : Nat) : Layout := ⟨g, .scatter, ax, balanced (len g ax) n, none⟩

theorem evenL_wf {g : List Nat} {ax : Nat} (hn : 0 < n) (hax : ax < g.length) : (evenL n g ax).WF n :=
  ⟨hax, fun _ => psum_balanced_total _ hn, by simp [evenL]⟩

/-! ### the operations -/

/-- what `plot_local_arrays` shows on rank `r` of an array with entries `d`: on rank 0 the parts `x[..., lo:hi, ...]` of all ranks in order, where rank `q` has `balanced (len g ax) n q` rows -/
def shown (n : Nat) (g : List Nat) (ax : Nat) (d : List K) (r : Nat) : Option (List (NDArray K)) :=
  if r = 0 then some ((List.range n).map fun q => (⟨g, .real, d⟩ : NDArray K).slice ax (psum (balanced (len g ax) n) q) (psum (balanced (len g ax) n) (q + 1))) else none

theorem runs_plotLocal {g : List Nat} {ax : Nat} (hn : 0 < n) (d : List K) :
    Runs n (fun r => plotLocalArrays (env n J r) (VSpace.vec ⟨evenL n g ax, .real⟩ n d r)) (fun r => .ok (shown n g ax d r)) := by
  unfold plotLocalArrays
  simp only [Prog.bind_eq]
  refine (runs_gather (K := K) (v := fun r => (VSpace.vec ⟨evenL n g ax, .real⟩ n d r).larr) (k := fun r l => .ret (if r = 0 then some l else none)) (Runs.ret _)).congr (fun _ _ => rfl) fun r _ => ?_
  unfold shown
  congr 2
  congr 1
  refine List.map_congr_left fun q hq => ?_
  have ht : psum (balanced (len g ax) n) n = len g ax := psum_balanced_total _ hn
  have h1 : psum (balanced (len g ax) n) (q + 1) ≤ len g ax := (psum_mono _ (List.mem_range.1 hq)).trans ht.le
  have h2 : psum (balanced (len g ax) n) (q + 1) = psum (balanced (len g ax) n) q + balanced (len g ax) n q := rfl
  show (⟨(evenL n g ax).lshape q, .real, (evenL n g ax).piece d q⟩ : NDArray K) = ⟨_, _, _⟩
  simp only [Layout.lshape, Layout.piece, evenL, Partition.isBroadcast]
  rw [Nat.min_eq_left h1, Nat.min_eq_left (by omega), h2, Nat.add_sub_cancel_left]
  simp

/-- **C101** (operations).  For all arrays `x₁` and `x₂` of the same shape and real dtype, axes, numbers of ranks and real factors, in every execution all ranks end, and rank 0 shows, in rank order,
    the parts of `x₁`, `x₂`, `s x₁`, `x₁ + x₂`, `x₁ + 2 x₂`, `x₁ - x₂` and `x₁ x₂` along the axis: the in-place addition changes the sum and neither of the two arrays. -/
theorem C101_ops (hn : 0 < n) {g : List Nat} {ax : Nat} (hax : ax < g.length) {d e : List K} (hd : d.length = g.prod) (he : e.length = g.prod) (fd : ∀ x ∈ d, star x = x) (fe : ∀ x ∈ e, star x = x)
    {s : K} (hs : star s = s) :
    Always n (fun r => exOps (env n J r) ax ⟨g, .real, d⟩ ⟨g, .real, e⟩ s) (fun r => .ok
      { arr1 := shown n g ax d r
        arr2 := shown n g ax e r
        scaled := shown n g ax (d.map fun x => s * x) r
        sum := shown n g ax (List.zipWith (· + ·) d e) r
        isum := shown n g ax (List.zipWith (fun x y => x + 2 * y) d e) r
        diff := shown n g ax (List.zipWith (· - ·) d e) r
        mult := shown n g ax (List.zipWith (· * ·) d e) r }) := by
  have hw : (evenL n g ax).WF n := evenL_wf hn hax
  have md : VSpace.Mem ⟨evenL n g ax, .real⟩ d := ⟨hd, fun _ => fd⟩
  have me : VSpace.Mem ⟨evenL n g ax, .real⟩ e := ⟨he, fun _ => fe⟩
  have e1 : (d.map fun x => s * x) = d.map (· * s) := List.map_congr_left fun x _ => mul_comm s x
  have e2 : List.zipWith (fun x y => x + 2 * y) d e = List.zipWith (· + ·) (List.zipWith (· + ·) d e) e := by
    refine List.ext_getElem (by simp) fun i h1 h2 => ?_
    simp only [List.getElem_zipWith]
    ring
  rw [e1, e2]
  refine Runs.always ?_
  unfold exOps
  simp only [Prog.bind_eq]
  refine Runs.bind_ok (runs_toDist_none (L := evenL n g ax) (x := ⟨g, .real, d⟩) hw (fun _ => rfl) rfl hd (fun _ => fd)) ?_
  refine Runs.bind_ok (runs_toDist_none (L := evenL n g ax) (x := ⟨g, .real, e⟩) hw (fun _ => rfl) rfl he (fun _ => fe)) ?_
  refine Runs.bind_ok (runs_plotLocal hn d) ?_
  refine Runs.bind_ok (runs_plotLocal hn e) ?_
  refine Runs.bind_ok (runs_smul_vec hw (fun _ => hs) md) ?_
  refine Runs.bind_ok (runs_plotLocal hn _) ?_
  refine Runs.bind_ok (runs_add_vec hw md me) ?_
  refine Runs.bind_ok (runs_plotLocal hn _) ?_
  refine Runs.bind_ok (runs_iadd_vec hw (mem_add md me) me) ?_
  refine Runs.bind_ok (runs_plotLocal hn _) ?_
  refine Runs.bind_ok (runs_sub_vec hw md me) ?_
  refine Runs.bind_ok (runs_plotLocal hn _) ?_
  refine Runs.bind_ok (runs_mul_vec hw md me) ?_
  exact Runs.bind_ok (runs_plotLocal hn _) (Runs.ret _)

/-- The parts shown are a partition of the array: put together along the axis they give it back. -/
theorem C101_parts (hn : 0 < n) {g : List Nat} {ax : Nat} (hax : ax < g.length) {d : List K} (hd : d.length = g.prod) :
    (evenL n g ax).globalData n (fun q => ((⟨g, .real, d⟩ : NDArray K).slice ax (psum (balanced (len g ax) n) q) (psum (balanced (len g ax) n) (q + 1))).data) = d := by
  have := global_piece (evenL_wf (n := n) hn hax) (d := d) hd
  exact this

/-! ### the arrays filled with numbers -/

/-- the numbers `lo, lo + 1, ..., lo + k - 1` -/
def arangeL (lo k : Nat) : List K := (List.range k).map fun i => ((lo + i : Nat) : K)

theorem runs_filled_tail {g : List Nat} {ax : Nat} (hn : 0 < n) (hax : ax < g.length) {a : Nat → List K} (ha : ∀ r < n, (a r).length = ((evenL n g ax).lshape r).prod) :
    Runs n (fun r => (((evenL n g ax).fam n .real a r).setAll (env n J r) (exLocalRange r ((evenL n g ax).lshape r))).bind fun arr => plotDistributedArray (env n J r) arr)
      (fun r => .ok (if r = 0 then some ((evenL n g ax).global n .real (fun q => arangeL (((evenL n g ax).lshape q).prod * q) ((evenL n g ax).lshape q).prod),
        ⟨g, .real, (owners (evenL n g ax) n).map fun q : Nat => (q : K)⟩) else none)) := by
  have h := runs_setAll (L := evenL n g ax) (J := J) (dt := .real) (a := a) (v := fun r => exLocalRange r ((evenL n g ax).lshape r)) ha (fun _ _ => rfl) (fun r _ => by simp [exLocalRange])
  refine Runs.bind_ok h ?_
  have hs : ∀ r, ((evenL n g ax).sync (fun r => (exLocalRange r ((evenL n g ax).lshape r) : NDArray K).data) r).map (castTo .real)
      = arangeL (((evenL n g ax).lshape r).prod * r) ((evenL n g ax).lshape r).prod := fun r => by
    rw [Layout.sync, if_neg (by simp [evenL])]
    simp only [exLocalRange, arangeL, List.map_map, Function.comp_def, castTo_natCast]
  simp only [hs]
  exact (C60_distribution (L := evenL n g ax) (dt := .real) (evenL_wf hn hax) rfl).runs

/-- **C101** (the first two sections, `plot_distributed_array` of an array filled on each rank with consecutive numbers).  For all shapes, axes and numbers of ranks, in every execution rank 0 shows the
    array whose part on rank `q` holds `m q, ..., m q + m - 1` with `m` the number of its entries, and beside it the ranks that hold the entries. -/
theorem C101_filled (hn : 0 < n) {g : List Nat} {ax : Nat} (hax : ax < g.length) :
    Always n (fun r => exFilled (env n J r) g ax)
      (fun r => .ok (if r = 0 then some ((evenL n g ax).global n .real (fun q => arangeL (((evenL n g ax).lshape q).prod * q) ((evenL n g ax).lshape q).prod),
        ⟨g, .real, (owners (evenL n g ax) n).map fun q : Nat => (q : K)⟩) else none)) := by
  refine Runs.always ?_
  unfold exFilled
  simp only [Prog.bind_eq]
  refine Runs.bind_ok (runs_mkDArr_none (L := evenL n g ax) (J := J) (dt := .real) (evenL_wf hn hax) fun _ => rfl) ?_
  exact runs_filled_tail hn hax fun r _ => length_junk r

/-- **C101** (the third section): giving the shapes of `local_split` shows the same. -/
theorem C101_shapes (hn : 0 < n) {g : List Nat} {ax : Nat} (hax : ax < g.length) :
    Always n (fun r => exFilledShapes (env n J r) g ax)
      (fun r => .ok (if r = 0 then some ((evenL n g ax).global n .real (fun q => arangeL (((evenL n g ax).lshape q).prod * q) ((evenL n g ax).lshape q).prod),
        ⟨g, .real, (owners (evenL n g ax) n).map fun q : Nat => (q : K)⟩) else none)) := by
  refine Runs.always ?_
  unfold exFilledShapes
  simp only [Prog.bind_eq]
  have hsplit : ∀ r, localSplit (env n J r) g .scatter ax = (evenL n g ax).lshape r := fun r => by
    rw [localSplit_eq]; simp [Layout.lshape, evenL, Partition.isBroadcast]
  simp only [hsplit]
  refine runs_allgather (v := (evenL n g ax).lshape) ?_
  refine Runs.bind_ok (runs_mkDArr (L := evenL n g ax) (J := J) (dt := .real) (evenL_wf hn hax)) ?_
  exact runs_filled_tail hn hax fun r _ => length_junk r

theorem arangeL_inj {k lo lo' : Nat} (hk : 0 < k) (h : (arangeL lo k : List K) = arangeL lo' k) : lo = lo' := by
  have h0 : (arangeL lo k : List K)[0]? = (arangeL lo' k)[0]? := by rw [h]
  simp only [arangeL, List.getElem?_map, List.getElem?_range hk, Option.map_some, Nat.add_zero, Option.some.injEq, Nat.cast_inj] at h0
  exact h0

theorem arangeL_drop_take {N lo k : Nat} (h : lo + k ≤ N) : ((arangeL 0 N : List K).drop lo).take k = arangeL lo k := by
  refine List.ext_getElem ?_ fun i h1 h2 => ?_
  · simp [arangeL]; omega
  · simp [arangeL]

/-- **C101** (what the numbers are).  For an array of `a` rows and `b > 0` columns split along the rows, the numbers shown are 0, 1, 2, ... in order exactly when the number of ranks divides the number
    of rows or is at least as large. -/
theorem C101_consecutive (hn : 0 < n) {a b : Nat} (hb : 0 < b) :
    (evenL n [a, b] 0).globalData n (fun q => (arangeL (((evenL n [a, b] 0).lshape q).prod * q) ((evenL n [a, b] 0).lshape q).prod : List K)) = arangeL 0 (a * b) ↔ n ∣ a ∨ a ≤ n := by
  have hw : (evenL n [a, b] 0).WF n := evenL_wf hn (by simp)
  have hl : ∀ q, ((evenL n [a, b] 0).lshape q).prod = balanced a n q * b := fun q => by
    simp [Layout.lshape, evenL, Partition.isBroadcast, len]
  have hlen : (arangeL 0 (a * b) : List K).length = (evenL n [a, b] 0).gshape.prod := by simp [arangeL, evenL]
  have ht : psum (balanced a n) n = a := psum_balanced_total _ hn
  have hpc : ∀ q < n, (evenL n [a, b] 0).piece (arangeL 0 (a * b) : List K) q = arangeL (psum (balanced a n) q * b) (balanced a n q * b) := fun q hq => by
    have h1 : psum (balanced a n) q + balanced a n q ≤ a := (psum_mono (balanced a n) hq).trans ht.le
    rw [piece_axis0 hw rfl rfl hlen]
    have : NDArray.inner (evenL n [a, b] 0).gshape 0 = b := by simp [NDArray.inner, evenL]
    rw [this]
    exact arangeL_drop_take (by rw [← Nat.add_mul]; exact Nat.mul_le_mul_right b h1)
  have key : (evenL n [a, b] 0).globalData n (fun q => (arangeL (((evenL n [a, b] 0).lshape q).prod * q) ((evenL n [a, b] 0).lshape q).prod : List K)) = arangeL 0 (a * b) ↔
      ∀ q < n, balanced a n q = 0 ∨ balanced a n q * q = psum (balanced a n) q := by
    constructor
    · intro h q hq
      have h1 := piece_global hw rfl (a := fun q => (arangeL (((evenL n [a, b] 0).lshape q).prod * q) ((evenL n [a, b] 0).lshape q).prod : List K)) (fun r _ => by simp [arangeL]) hq
      rw [h, hpc q hq, hl] at h1
      rcases Nat.eq_zero_or_pos (balanced a n q) with h0 | h0
      · exact .inl h0
      · have h2 := arangeL_inj (Nat.mul_pos h0 hb) h1
        refine .inr (Nat.eq_of_mul_eq_mul_right hb ?_)
        rw [h2]; ring
    · intro h
      rw [← global_piece hw hlen]
      unfold Layout.globalData
      rw [if_neg (by simp [evenL, Partition.isBroadcast]), if_neg (by simp [evenL, Partition.isBroadcast])]
      congr 1
      refine List.map_congr_left fun q hq => ?_
      rw [hpc q (List.mem_range.1 hq)]
      dsimp only
      rw [hl]
      rcases h q (List.mem_range.1 hq) with h0 | h0
      · rw [h0]; simp [arangeL]
      · rw [← h0, Nat.mul_right_comm]
  rw [key]
  constructor
  · intro h
    by_contra hc
    rw [not_or, Nat.dvd_iff_mod_eq_zero] at hc
    have hr : a % n < n := Nat.mod_lt _ hn
    have hq := h (a % n) hr
    rw [psum_balanced, balanced, if_neg (by omega), Nat.min_self] at hq
    have : 0 < a / n := Nat.div_pos (by omega) hn
    rcases hq with h0 | h0
    · omega
    · rw [Nat.mul_comm] at h0; omega
  · rintro (h | h) q hq
    · have h0 := Nat.dvd_iff_mod_eq_zero.1 h
      right
      rw [psum_balanced, balanced, h0]; simp [Nat.mul_comm]
    · rcases Nat.lt_or_ge a n with h1 | h1
      · rw [psum_balanced, balanced, Nat.mod_eq_of_lt h1, Nat.div_eq_of_lt h1]
        split_ifs with h2
        · right; simp; omega
        · left; rfl
      · obtain rfl : a = n := by omega
        right
        rw [psum_balanced, balanced, Nat.mod_self, Nat.div_self hn]; simp

/-- **C101** (the first section on numbers of ranks that suit the rows): rank 0 shows `arange(a * b).reshape(a, b)`. -/
theorem C101_rows (hn : 0 < n) {a b : Nat} (hb : 0 < b) (h : n ∣ a ∨ a ≤ n) :
    Always n (fun r => exFilled (env n J r) [a, b] 0)
      (fun r => .ok (if r = 0 then some (⟨[a, b], .real, arangeL 0 (a * b)⟩, ⟨[a, b], .real, (owners (evenL n [a, b] 0) n).map fun q : Nat => (q : K)⟩) else none)) := by
  have h1 := C101_filled (J := J) hn (g := [a, b]) (ax := 0) (by simp)
  rw [Layout.global, (C101_consecutive hn hb).2 h] at h1
  exact h1

/-! ### the numbers of the script -/

/-- **C101** (the script): shape (10, 5), axis 1, arange(50)/50, half of it and the factor 1/2. -/
theorem C101_script (hn : 0 < n) {J : Nat → Nat → ℝ} :
    Always n (fun r => exOps (env n J r) 1 ⟨[10, 5], .real, (List.range 50).map fun i => (i : ℝ) / 50⟩ ⟨[10, 5], .real, (List.range 50).map fun i => (i : ℝ) / 50 / 2⟩ (1 / 2)) (fun r => .ok
      { arr1 := shown n [10, 5] 1 ((List.range 50).map fun i => (i : ℝ) / 50) r
        arr2 := shown n [10, 5] 1 ((List.range 50).map fun i => (i : ℝ) / 100) r
        scaled := shown n [10, 5] 1 ((List.range 50).map fun i => (i : ℝ) / 100) r
        sum := shown n [10, 5] 1 ((List.range 50).map fun i => 3 * (i : ℝ) / 100) r
        isum := shown n [10, 5] 1 ((List.range 50).map fun i => (i : ℝ) / 25) r
        diff := shown n [10, 5] 1 ((List.range 50).map fun i => (i : ℝ) / 100) r
        mult := shown n [10, 5] 1 ((List.range 50).map fun i => (i : ℝ) ^ 2 / 5000) r }) := by
  refine (C101_ops (J := J) hn (g := [10, 5]) (ax := 1) (by simp) (d := (List.range 50).map fun i => (i : ℝ) / 50) (e := (List.range 50).map fun i => (i : ℝ) / 50 / 2) (by simp) (by simp)
    (by simp) (by simp) (s := 1 / 2) (by simp)).congr fun r _ => ?_
  simp only [List.zipWith_map, List.zipWith_self, List.map_map, Function.comp_def]
  congr 2
  all_goals
    congr 1
    refine List.map_congr_left fun i _ => ?_
    ring

/-- Non-vacuity: a 2 × 3 array on two ranks; rank 0 shows two columns and then the last one of the sum. -/
example : shown (K := ℝ) 2 [2, 3] 1 (List.zipWith (· + ·) [1, 2, 3, 4, 5, 6] [10, 20, 30, 40, 50, 60]) 0 = some [⟨[2, 2], .real, [11, 22, 44, 55]⟩, ⟨[2, 1], .real, [33, 66]⟩] := by
  norm_num [shown, List.range_succ, NDArray.slice, sliceData, chunk, psum, balanced, len, outer, NDArray.inner]

/-- the script (10 rows): on three ranks the numbers are not consecutive, on two and on twelve they are -/
example : ¬ (3 ∣ 10 ∨ 10 ≤ 3) ∧ (2 ∣ 10 ∨ 10 ≤ 2) ∧ (12 ∣ 10 ∨ 10 ≤ 12) := by decide

end Verif

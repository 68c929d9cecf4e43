/- C95: the sections of the gallery script on arrays with a mask. -/
import Verif.Model.GalleryArrays
import Verif.Proofs.GroupNorm
import Verif.Proofs.Groups
import Verif.MPI.Sim

set_option linter.unusedSectionVars false

namespace Verif
open NDArray

/-! ### the specification -/

section
variable {K : Type} [RCLike K]

/-- the part of the gathered array along axis `ax` that belongs to the group of rank `r`, `s` ranks with `m` entries each: `xloc[..., m*s*(r//s) : m*s*(r//s + 1), ...]` -/
def groupPart (ax m s r : Nat) (X : NDArray K) : NDArray K := X.slice ax (m * s * (r / s)) (m * s * (r / s + 1))

/-- `np.dot(a.ravel(), a.ravel())` -/
def selfDot (a : NDArray K) : K := (List.zipWith (· * ·) a.data a.data).sum

/-- `np.linalg.norm(a, ord=2, axis=ax)` -/
noncomputable def normsAlong (ax : Nat) (a : NDArray K) : NDArray FNum :=
  ⟨a.shape.eraseIdx ax, .real, (List.range (a.shape.take ax).prod).flatMap fun i => (List.range (a.shape.drop (ax + 1)).prod).map fun k =>
    vecNorm (.num 2) ((List.range (a.shape.getD ax 0)).map fun j => a.data.getD ((i * a.shape.getD ax 0 + j) * (a.shape.drop (ax + 1)).prod + k) 0)⟩

end

/-! ### the mask -/

theorem exMask_getD_aux (s k q : Nat) (hq : q < k * s) : ((List.range k).flatMap fun g => List.replicate s g).getD q 0 = q / s := by
  induction k with
  | zero => simp at hq
  | succ k ih =>
    have hl : ((List.range k).flatMap fun g => List.replicate s g).length = k * s := by simp [List.length_flatMap]
    rw [List.range_succ, List.flatMap_append, List.flatMap_singleton]
    by_cases h : q < k * s
    · rw [List.getD_append _ _ _ _ (by rw [hl]; exact h), ih h]
    · rw [List.getD_append_right _ _ _ _ (by rw [hl]; omega), hl]
      have hs : 0 < s := by
        rcases Nat.eq_zero_or_pos s with rfl | h; · simp at hq
        exact h
      rw [Nat.succ_mul] at hq
      rw [List.getD_eq_getElem _ _ (by simp; omega), List.getElem_replicate]
      symm
      rw [Nat.div_eq_iff hs]
      omega

theorem exSubsize_pos (n : Nat) : 0 < exSubsize n := by unfold exSubsize; omega

theorem exMask_getD {n q : Nat} (h : exSubsize n ∣ n) (hq : q < n) : (exMask n).getD q 0 = q / exSubsize n :=
  exMask_getD_aux _ _ _ (by rw [Nat.div_mul_cancel h]; exact hq)

theorem exMask_length (n : Nat) : (exMask n).length = n / exSubsize n * exSubsize n := by simp [exMask, List.length_flatMap]

/-- for which numbers of ranks the mask has an entry for each rank -/
theorem C95_sizes {n : Nat} (hn : 0 < n) : exSubsize n ∣ n ↔ 2 ∣ n ∨ n = 1 ∨ n = 3 := by
  unfold exSubsize
  constructor
  · rintro ⟨k, hk⟩
    by_cases h2 : 2 ∣ n
    · exact .inl h2
    · by_cases h : n = 1
      · exact .inr (.inl h)
      · have h1 : max 1 (n / 2) = n / 2 := by omega
        rw [h1] at hk
        have hk2 : 2 ≤ k := by
          by_contra hc
          have : k = 0 ∨ k = 1 := by omega
          rcases this with rfl | rfl <;> omega
        by_cases hk3 : k = 2
        · subst hk3; omega
        · have : n / 2 * 3 ≤ n / 2 * k := Nat.mul_le_mul_left _ (by omega)
          omega
  · rintro (⟨k, rfl⟩ | rfl | rfl)
    · exact ⟨2, by have : max 1 (2 * k / 2) = k := by omega
                   rw [this]; ring⟩
    · decide
    · decide

variable {K : Type} [RCLike K] {n : Nat} {J : Nat → Nat → K} {g : List Nat} {ax m : Nat} {v : Nat → NDArray K}

/-- the layout of the arrays of the script -/
def galLayout (n : Nat) (g : List Nat) (ax m : Nat) : Layout := ⟨g, .scatter, ax, fun _ => m, some (exMask n)⟩

theorem galLayout_wf (hd : exSubsize n ∣ n) (hax : ax < g.length) (hg : g.getD ax 0 = m * n) : (galLayout n g ax m).WF n := by
  refine ⟨hax, fun _ => ?_, ?_⟩
  · show psum (fun _ => m) n = g.getD ax 0
    rw [psum_eq_sum, hg]
    simp [Nat.mul_comm]
  · rintro _ ⟨⟩
    rw [exMask_length, Nat.div_mul_cancel hd]

theorem exRange {r s : Nat} (hd : s ∣ n) (hr : r < n) :
    ∃ t, List.range n = List.range (s * (r / s)) ++ (List.range s).map (s * (r / s) + ·) ++ (List.range t).map (s * (r / s) + s + ·) := by
  obtain ⟨k, rfl⟩ := hd
  have hs : 0 < s := by
    rcases Nat.eq_zero_or_pos s with rfl | h; · simp at hr
    exact h
  have : r / s < k := Nat.div_lt_of_lt_mul hr
  have h1 : s * (r / s) + s ≤ s * k := by rw [← Nat.mul_succ]; exact Nat.mul_le_mul_left _ this
  refine ⟨s * k - (s * (r / s) + s), ?_⟩
  rw [← List.range_add, ← List.range_add, Nat.add_sub_of_le h1]

theorem exMembers {r : Nat} (hd : exSubsize n ∣ n) (hr : r < n) :
    (galLayout n g ax m).members n r = (List.range (exSubsize n)).map (exSubsize n * (r / exSubsize n) + ·) := by
  have hs := exSubsize_pos n
  rw [members_color]
  have hc : ∀ q ∈ List.range n, (decide ((galLayout n g ax m).color q = (galLayout n g ax m).color r)) = decide (q / exSubsize n = r / exSubsize n) := fun q hq => by
    have hq : q < n := by simpa using hq
    show decide ((exMask n).getD q 0 = (exMask n).getD r 0) = _
    rw [exMask_getD hd hq, exMask_getD hd hr]
  rw [List.filter_congr hc]
  obtain ⟨t, e⟩ := exRange hd hr
  rw [e, List.filter_append, List.filter_append]
  have f1 : (List.range (exSubsize n * (r / exSubsize n))).filter (fun q => decide (q / exSubsize n = r / exSubsize n)) = [] := by
    rw [List.filter_eq_nil_iff]
    intro q hq
    have hq : q < exSubsize n * (r / exSubsize n) := by simpa using hq
    have := Nat.div_lt_of_lt_mul hq
    simp; omega
  have f2 : ((List.range (exSubsize n)).map (exSubsize n * (r / exSubsize n) + ·)).filter (fun q => decide (q / exSubsize n = r / exSubsize n))
      = (List.range (exSubsize n)).map (exSubsize n * (r / exSubsize n) + ·) := by
    rw [List.filter_eq_self]
    intro q hq
    obtain ⟨i, hi, rfl⟩ := List.mem_map.1 hq
    have hi : i < exSubsize n := by simpa using hi
    simp only [decide_eq_true_eq]
    rw [Nat.mul_add_div hs, Nat.div_eq_of_lt hi, Nat.add_zero]
  have f3 : ((List.range t).map (exSubsize n * (r / exSubsize n) + exSubsize n + ·)).filter (fun q => decide (q / exSubsize n = r / exSubsize n)) = [] := by
    rw [List.filter_eq_nil_iff]
    intro q hq
    obtain ⟨i, -, rfl⟩ := List.mem_map.1 hq
    have : exSubsize n * (r / exSubsize n) + exSubsize n + i = exSubsize n * (r / exSubsize n + 1) + i := by ring
    simp only [decide_eq_true_eq]
    rw [this, Nat.mul_add_div hs]
    generalize r / exSubsize n = γ
    generalize i / exSubsize n = δ
    omega
  rw [f1, f2, f3]
  simp

theorem exGood (hv : ∀ r < n, (v r).data.length = (g.set ax m).prod) (hr : ∀ r < n, FitsL .real (v r).data) :
    (galLayout n g ax m).Good n .real fun r => (v r).data :=
  ⟨fun r h => by rw [hv r h, lshape_scatter rfl]; rfl, hr, fun h => by cases h⟩

/-- the gathered array of the group -/
theorem exPart (hd : exSubsize n ∣ n) (hax : ax < g.length) (hg : g.getD ax 0 = m * n) (hv : ∀ r < n, (v r).data.length = (g.set ax m).prod) {r : Nat} (hr : r < n) :
    (groupPart ax m (exSubsize n) r ((galLayout n g ax m).global n .real fun r => (v r).data)).data
      = concatData (outer g ax) (NDArray.inner g ax) (((galLayout n g ax m).members n r).map fun q => ((galLayout n g ax m).sizes q, (v q).data)) := by
  have hL := galLayout_wf hd hax hg
  obtain ⟨t, e⟩ := exRange hd hr
  have hlen : ∀ q < n, (v q).data.length = outer g ax * (m * NDArray.inner g ax) := fun q hq => by
    rw [hv q hq, prod_set hax]
  rw [exMembers hd hr]
  have h := sliceData_concatData (s := g) (ax := ax) (List.range (exSubsize n * (r / exSubsize n))) ((List.range (exSubsize n)).map (exSubsize n * (r / exSubsize n) + ·))
    ((List.range t).map (exSubsize n * (r / exSubsize n) + exSubsize n + ·)) (fun _ => m) (fun r => (v r).data) (by
      rw [← e]
      exact fun q hq => hlen q (by simpa using hq)) (by
      rw [← e]
      show _ = g.getD ax 0
      rw [hg]
      simp [Nat.mul_comm])
  rw [← e] at h
  unfold groupPart NDArray.slice
  show sliceData g ax _ _ ((galLayout n g ax m).globalData n fun r => (v r).data) = _
  unfold Layout.globalData
  rw [if_neg (by simp [galLayout, Partition.isBroadcast])]
  refine Eq.trans ?_ h
  have c1 : ((List.range (exSubsize n * (r / exSubsize n))).map fun _ => m).sum = m * exSubsize n * (r / exSubsize n) := by
    rw [List.map_const', List.sum_replicate, List.length_range, smul_eq_mul]; ring
  have c2 : (((List.range (exSubsize n)).map (exSubsize n * (r / exSubsize n) + ·)).map fun _ => m).sum = m * exSubsize n := by
    rw [List.map_const', List.sum_replicate, List.length_map, List.length_range, smul_eq_mul, Nat.mul_comm]
  rw [c1, c2, Nat.mul_succ]
  rfl

/-- the runs of the program, in terms of what the ranks of a group hold -/
theorem runs_exMasked (hd : exSubsize n ∣ n) (hax : ax < g.length) (hg : g.getD ax 0 = m * n) (hs : ∀ r < n, (v r).shape = g.set ax m)
    (hv : ∀ r < n, (v r).data.length = (g.set ax m).prod) (hr : ∀ r < n, FitsL .real (v r).data) {na : Option Nat} {σ : Nat → NDArray FNum}
    (hσ : Runs n (fun r => ((galLayout n g ax m).fam n .real (fun r => (v r).data) r).norm (env n J r) (.num 2) na) (fun r => .ok (σ r))) :
    Runs n (fun r => exMasked (env n J r) g ax (v r) na) (fun r => .ok ((galLayout n g ax m).global n .real (fun r => (v r).data),
      (((galLayout n g ax m).members n r).map fun q => (List.zipWith (· * ·) (v q).data (v q).data).sum).sum, σ r)) := by
  rcases Nat.eq_zero_or_pos n with rfl | hn
  · exact Runs.of_zero
  have hL := galLayout_wf hd hax hg
  have hG := exGood hv hr
  unfold exMasked
  simp only [Prog.bind_eq]
  refine Runs.bind_ok (runs_mkDArr_none (J := J) (L := galLayout n g ax m) (dt := .real) hL fun _ => ?_) ?_
  · show (fun _ => m) = balanced (g.getD ax 0) n
    funext r
    unfold balanced
    rw [hg, if_neg (by simp), Nat.mul_div_cancel _ hn]
  refine Runs.bind_ok (runs_setAll_good (J := J) (L := galLayout n g ax m) (v := v) (fun r _ => length_junk r) (fun r h => by rw [hs r h, lshape_scatter rfl]; rfl) hG) ?_
  refine Runs.bind_ok (runs_asarray (J := J) hL rfl) ?_
  refine Runs.bind_ok (runs_dot (J := J) hn hL hG hG (fun h => by cases h) (fun h => by cases h)) ?_
  refine Runs.bind_ok hσ ?_
  exact Runs.ret _

theorem exDot (hd : exSubsize n ∣ n) (hax : ax < g.length) (hg : g.getD ax 0 = m * n) (hv : ∀ r < n, (v r).data.length = (g.set ax m).prod) {r : Nat} (hr : r < n) :
    (((galLayout n g ax m).members n r).map fun q => (List.zipWith (· * ·) (v q).data (v q).data).sum).sum
      = selfDot (groupPart ax m (exSubsize n) r ((galLayout n g ax m).global n .real fun r => (v r).data)) := by
  have hp := perm_concatData ((galLayout n g ax m).members n r) (galLayout n g ax m).sizes (fun q => (v q).data) (out := outer g ax) (inn := NDArray.inner g ax) fun q hq => by
    rw [hv q (mem_members hr hq), prod_set hax]
    rfl
  unfold selfDot
  rw [exPart hd hax hg hv hr]
  have hz : ∀ l : List K, List.zipWith (· * ·) l l = l.map fun x => x * x := fun l => by rw [List.zipWith_self]
  simp only [hz]
  rw [(hp.map _).sum_eq, List.map_flatMap, List.flatMap, List.sum_flatten, List.map_map]
  rfl

/-- **C95** (arrays with a mask).  For every number of ranks that is even, or 1 or 3, for all shapes, axes and local values, every execution of the sections ends on every rank with
    the whole array gathered, with the dot product of the part of it that belongs to the rank's group, and with the norm of that part: what the script compares with (`Dot check`
    and `Norm check` print True). -/
theorem C95_masked (hd : 2 ∣ n ∨ n = 1 ∨ n = 3) (hax : ax < g.length) (hg : g.getD ax 0 = m * n) (hs : ∀ r < n, (v r).shape = g.set ax m)
    (hv : ∀ r < n, (v r).data.length = (g.set ax m).prod) (hr : ∀ r < n, FitsL .real (v r).data) :
    ∃ X : NDArray K, X.shape = g ∧ (∀ r < n, (X.slice ax (m * r) (m * (r + 1))).data = (v r).data) ∧
      Always n (fun r => exMasked (env n J r) g ax (v r) none) (fun r => .ok (X, selfDot (groupPart ax m (exSubsize n) r X),
        ⟨[], .real, [vecNorm (.num 2) (groupPart ax m (exSubsize n) r X).data]⟩)) ∧
      Always n (fun r => exMasked (env n J r) g ax (v r) (some ax)) (fun r => .ok (X, selfDot (groupPart ax m (exSubsize n) r X),
        normsAlong ax (groupPart ax m (exSubsize n) r X))) := by
  rcases Nat.eq_zero_or_pos n with rfl | hn
  · refine ⟨⟨g, .real, []⟩, rfl, fun r h => absurd h (by omega), Runs.of_zero.always, Runs.of_zero.always⟩
  have hd := (C95_sizes hn).2 hd
  have hL := galLayout_wf hd hax hg
  have hG := exGood hv hr
  have hok : ∀ q < n, ∀ x ∈ (v q).data, OrdOk (.num 2) .real x := fun q _ x _ => .inr ⟨fun _ => .inl ⟨2, by norm_num⟩, fun h => by cases h⟩
  refine ⟨(galLayout n g ax m).global n .real fun r => (v r).data, rfl, fun r h => ?_, ?_, ?_⟩
  · have := piece_global hL rfl hG.length h
    refine Eq.trans ?_ this
    have e : ∀ k, psum (galLayout n g ax m).sizes k = m * k := fun k => by
      rw [psum_eq_sum]
      show ((List.range k).map fun _ => m).sum = _
      rw [List.map_const', List.sum_replicate, List.length_range, smul_eq_mul, Nat.mul_comm]
    unfold Layout.piece
    rw [if_neg (by simp [galLayout, Partition.isBroadcast]), e, e]
    rfl
  · have h := runs_norm_flat (J := J) (o := .num 2) hn hL hG (fun h => by cases h) hok (fun h => h.elim) ⟨by simp, by simp⟩
    refine ((runs_exMasked hd hax hg hs hv hr h).congr (fun _ _ => rfl) fun r h => ?_).always
    have e1 : (galLayout n g ax m).red n = galLayout n g ax m := rfl
    have e2 : (galLayout n g ax m).shard n (fun r => (v r).data) = fun r => (v r).data := rfl
    rw [exDot hd hax hg hv h, e1, e2, exPart hd hax hg hv h]
    have hp := perm_concatData ((galLayout n g ax m).members n r) (galLayout n g ax m).sizes (fun q => (v q).data) (out := outer g ax) (inn := NDArray.inner g ax) fun q hq => by
      rw [hv q (mem_members h hq), prod_set hax]
      rfl
    rw [vecNorm_perm hp]
  · have h := runs_norm_axis_group (J := J) (o := .num 2) hL rfl hG hok (fun h => h.elim) ⟨by simp, by simp⟩
    refine ((runs_exMasked hd hax hg hs hv hr h).congr (fun _ _ => rfl) fun r h => ?_).always
    rw [exDot hd hax hg hv h]
    have hlt : r / exSubsize n < n / exSubsize n := Nat.div_lt_div_of_lt_of_dvd hd h
    have hlen : exSubsize n * (r / exSubsize n + 1) ≤ n := by
      calc _ ≤ exSubsize n * (n / exSubsize n) := Nat.mul_le_mul_left _ hlt
        _ = n := Nat.mul_div_cancel' hd
    have hsh : (groupPart ax m (exSubsize n) r ((galLayout n g ax m).global n .real fun r => (v r).data)).shape = g.set ax (m * exSubsize n) := by
      show g.set ax (min _ (g.getD ax 0) - min _ (g.getD ax 0)) = _
      have l1 : m * exSubsize n * (r / exSubsize n + 1) ≤ m * n := by rw [Nat.mul_assoc]; exact Nat.mul_le_mul_left _ hlen
      have l2 : m * exSubsize n * (r / exSubsize n) ≤ m * exSubsize n * (r / exSubsize n + 1) := Nat.mul_le_mul_left _ (Nat.le_succ _)
      rw [hg, min_eq_left l1, min_eq_left (l2.trans l1), Nat.mul_succ, Nat.add_sub_cancel_left]
    have hsum : (((galLayout n g ax m).members n r).map (galLayout n g ax m).sizes).sum = m * exSubsize n := by
      rw [exMembers hd h]
      show (((List.range (exSubsize n)).map (exSubsize n * (r / exSubsize n) + ·)).map fun _ => m).sum = _
      rw [List.map_const', List.sum_replicate, List.length_map, List.length_range, smul_eq_mul, Nat.mul_comm]
    have hget : (g.set ax (m * exSubsize n)).getD ax 0 = m * exSubsize n := len_set hax
    unfold normsAlong
    rw [hsum, exPart hd hax hg hv h, hsh, hget, List.eraseIdx_set_eq, List.take_set_of_le (le_refl ax), List.drop_set_of_lt (Nat.lt_succ_self ax)]
    have eg : (galLayout n g ax m).gshape = g := rfl
    have ea : (galLayout n g ax m).axis = ax := rfl
    simp only [eg, ea]
    rw [range_mul_flatMap (f := fun i k => vecNorm (.num 2) (column (m * exSubsize n) (NDArray.inner g ax) (concatData (outer g ax) (NDArray.inner g ax)
      (((galLayout n g ax m).members n r).map fun q => ((galLayout n g ax m).sizes q, (v q).data))) i k))]
    congr 4
    apply List.flatMap_congr
    intro i _
    apply List.map_congr_left
    intro k _
    congr 1
    unfold column
    apply List.map_congr_left
    intro j _
    congr 1
    show i * (m * exSubsize n * NDArray.inner g ax) + j * NDArray.inner g ax + k = (i * (m * exSubsize n) + j) * NDArray.inner g ax + k
    ring

/-- **C95** (values of the script).  With the values of the script, `(rank % subsize + 1) * ones`, the dot product is the same on all ranks: the sum over one group, as if the parts
    that the groups repeat were there once. -/
theorem C95_dot_once (hd : 2 ∣ n ∨ n = 1 ∨ n = 3) (hax : ax < g.length) (hg : g.getD ax 0 = m * n) {na : Option Nat} (hna : na = none ∨ na = some ax) :
    Always n (fun r => do
        let t ← exMasked (env n J r) g ax ⟨g.set ax m, .real, List.replicate (g.set ax m).prod ((r % exSubsize n : ℕ) + 1)⟩ na
        .ret t.2.1)
      (fun _ => .ok ((g.set ax m).prod * ((List.range (exSubsize n)).map fun i : ℕ => ((i : K) + 1) ^ 2).sum)) := by
  rcases Nat.eq_zero_or_pos n with rfl | hn
  · exact Runs.of_zero.always
  have hd := (C95_sizes hn).2 hd
  set w : Nat → NDArray K := fun r => ⟨g.set ax m, .real, List.replicate (g.set ax m).prod ((r % exSubsize n : ℕ) + 1)⟩ with hw
  have hv : ∀ r < n, (w r).data.length = (g.set ax m).prod := fun r _ => by simp [hw]
  have hf : ∀ r < n, FitsL .real (w r).data := fun r _ _ x hx => by
    rw [List.eq_of_mem_replicate hx]
    simp
  have hL := galLayout_wf hd hax hg
  have hG := exGood hv hf
  have hok : ∀ q < n, ∀ x ∈ (w q).data, OrdOk (.num 2) .real x := fun q _ x _ => .inr ⟨fun _ => .inl ⟨2, by norm_num⟩, fun h => by cases h⟩
  have main : ∃ σ : Nat → NDArray FNum, Runs n (fun r => exMasked (env n J r) g ax (w r) na) (fun r => .ok ((galLayout n g ax m).global n .real (fun r => (w r).data),
      (((galLayout n g ax m).members n r).map fun q => (List.zipWith (· * ·) (w q).data (w q).data).sum).sum, σ r)) := by
    rcases hna with rfl | rfl
    · exact ⟨_, runs_exMasked hd hax hg (fun _ _ => rfl) hv hf (runs_norm_flat (J := J) (o := .num 2) hn hL hG (fun h => by cases h) hok (fun h => h.elim) ⟨by simp, by simp⟩)⟩
    · exact ⟨_, runs_exMasked hd hax hg (fun _ _ => rfl) hv hf (runs_norm_axis_group (J := J) (o := .num 2) hL rfl hG hok (fun h => h.elim) ⟨by simp, by simp⟩)⟩
  obtain ⟨σ, h⟩ := main
  simp only [Prog.bind_eq]
  refine (Runs.bind_ok (k := fun _ t => .ret t.2.1) h ((Runs.ret fun r => _).congr (fun _ _ => rfl) fun r hr => ?_)).always
  rw [exMembers hd hr, List.map_map]
  refine congrArg Except.ok ?_
  dsimp only
  rw [← List.sum_map_mul_left]
  congr 1
  apply List.map_congr_left
  intro i hi
  have hi : i < exSubsize n := by simpa using hi
  simp only [Function.comp, hw, List.zipWith_self, List.map_replicate, List.sum_replicate, nsmul_eq_mul, Nat.mul_add_mod, Nat.mod_eq_of_lt hi]
  ring

/-- **C95 is false for the other numbers of ranks**: for odd numbers of ranks from 5 on the mask has no entry for the last rank, which raises IndexError in the constructor, while
    all other ranks wait forever in `Split`. -/
theorem C95_odd (h5 : 5 ≤ n) (ho : n % 2 = 1) (hax : ax < g.length) {na : Option Nat} :
    Ends n (fun r => exMasked (env n J r) g ax (v r) na) (fun r => if r = n - 1 then some (.error .index) else none) := by
  have hk : exSubsize n = n / 2 := by unfold exSubsize; omega
  have hq : n / (n / 2) = 2 := by rw [Nat.div_eq_iff (by omega)]; omega
  have hlen : (exMask n).length = n - 1 := by rw [exMask_length, hk, hq]; omega
  refine Ends.of_blocked .refl fun r hr => ?_
  have e0 : ¬ g.length ≤ ax := by omega
  have hlast : (exMask n)[n - 1]? = none := by rw [List.getElem?_eq_none_iff, hlen]
  have hthrow : exMasked (env n J (n - 1)) g ax (v (n - 1)) na = .throw .index := by
    unfold exMasked mkDArr mkSub
    rw [if_neg e0]
    show ((match (exMask n)[n - 1]? with | none => Prog.throw .index | some color => splitComm (env n J (n - 1)) color : P K (List Nat)).bind _).bind _ = _
    rw [hlast]
    rfl
  by_cases h : r = n - 1
  · simp only [if_pos h]
    rw [h, hthrow]
    rfl
  · simp only [if_neg h]
    right
    have hsome : (exMask n)[r]? = some ((exMask n)[r]'(by omega)) := List.getElem?_eq_getElem _
    have hcoll : ∃ k, exMasked (env n J r) g ax (v r) na = .coll .split (List.range n) (Enc.enc ((exMask n)[r]'(by omega))) k := by
      unfold exMasked mkDArr mkSub
      rw [if_neg e0]
      apply Exists.intro
      show ((match (exMask n)[r]? with | none => Prog.throw .index | some color => splitComm (env n J r) color : P K (List Nat)).bind _).bind _ = _
      rw [hsome]
      rfl
    obtain ⟨k, hk⟩ := hcoll
    refine ⟨.split, List.range n, _, k, hk, n - 1, by simp; omega, fun v' k' hc => ?_⟩
    rw [hthrow] at hc
    cases hc

/-! ### non-vacuity -/

/-- the section with one axis on four ranks, each with 5 entries of its own -/
example (J : Nat → Nat → ℝ) (u : Nat → List ℝ) (hu : ∀ r, (u r).length = 5) : ∃ X : NDArray ℝ, X.shape = [20] ∧ (∀ r < 4, (X.slice 0 (5 * r) (5 * (r + 1))).data = u r) ∧
    Always 4 (fun r => exMasked (env 4 J r) [20] 0 ⟨[5], .real, u r⟩ none) (fun r => .ok (X, selfDot (groupPart 0 5 (exSubsize 4) r X),
        ⟨[], .real, [vecNorm (.num 2) (groupPart 0 5 (exSubsize 4) r X).data]⟩)) := by
  obtain ⟨X, h1, h2, h3, -⟩ := C95_masked (K := ℝ) (J := J) (n := 4) (g := [20]) (ax := 0) (m := 5) (v := fun r => ⟨[5], .real, u r⟩) (.inl (by decide)) (by decide) rfl
    (fun _ _ => rfl) (fun r _ => by simp [hu]) (fun _ _ _ _ _ => rfl)
  exact ⟨X, h1, h2, h3⟩

/-- the section with the second of two axes on four ranks: the dot product is 2·5·(1 + 4) on each rank -/
example (J : Nat → Nat → ℝ) : Always 4 (fun r => do
      let t ← exMasked (env 4 J r) [2, 20] 1 ⟨[2, 5], .real, List.replicate 10 ((r % 2 : ℕ) + 1)⟩ (some 1)
      .ret t.2.1) (fun _ => .ok 50) :=
  ((C95_dot_once (K := ℝ) (J := J) (n := 4) (g := [2, 20]) (ax := 1) (m := 5) (.inl (by decide)) (by decide) rfl (.inr rfl)).runs.congr (fun _ _ => rfl)
    fun _ _ => by norm_num [exSubsize, List.range_succ]).always

/-- five ranks -/
example (J : Nat → Nat → ℝ) (v : Nat → NDArray ℝ) : Ends 5 (fun r => exMasked (env 5 J r) [25] 0 (v r) none) (fun r => if r = 4 then some (.error .index) else none) :=
  C95_odd (by decide) (by decide) (by decide)

end Verif

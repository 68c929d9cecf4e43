/- Operations on arrays with a mask, in terms of the vectors of the groups. -/
import Verif.Spec.Groups
import Verif.Proofs.Part
import Verif.Proofs.Norm

set_option linter.unusedSectionVars false

namespace Verif
open NDArray

variable {K : Type} [RCLike K] {n : Nat} {J : Nat → Nat → K} {V W : VSpace}

theorem members_color (L : Layout) (n r : Nat) : L.members n r = (List.range n).filter fun q => L.color q = L.color r := by
  unfold Layout.members Layout.color
  cases L.mask with
  | none => simp
  | some m => rfl

theorem gsize_succ (L : Layout) (γ k : Nat) : L.gsize γ (k + 1) = L.gsize γ k + if L.color k = γ then (L.lshape k).prod else 0 := by
  unfold Layout.gsize
  rw [List.range_succ, List.filter_append, List.map_append, List.sum_append]
  congr 1
  by_cases h : L.color k = γ
  · simp [h]
  · simp [h]

theorem gsize_mono (L : Layout) (γ : Nat) {j k : Nat} (h : j ≤ k) : L.gsize γ j ≤ L.gsize γ k := by
  induction h with
  | refl => exact le_rfl
  | step _ ih => rw [gsize_succ]; omega

theorem gsize_piece (L : Layout) {r n : Nat} (hr : r < n) : L.gsize (L.color r) r + (L.lshape r).prod ≤ L.gsize (L.color r) n := by
  have := gsize_mono L (L.color r) (show r + 1 ≤ n from hr)
  rw [gsize_succ, if_pos rfl] at this
  exact this

theorem length_gpiece {L : Layout} {x : Nat → List K} {r : Nat} (hr : r < n) (hx : (x (L.color r)).length = L.gsize (L.color r) n) : (L.gpiece x r).length = (L.lshape r).prod := by
  have := gsize_piece L hr
  unfold Layout.gpiece
  rw [List.length_take, List.length_drop, hx]
  omega

theorem good_gvec (hp : V.L.part = .scatter) {x : Nat → List K} (hx : V.GMem n x) : V.L.Good n V.dt (V.L.gpiece x) := by
  refine ⟨fun r hr => length_gpiece hr (hx r hr).1, fun r hr hd z hz => ?_, fun h => by rw [hp] at h; cases h⟩
  exact (hx r hr).2 hd z (List.mem_of_mem_drop (List.mem_of_mem_take hz))

theorem gpiece_map (L : Layout) (f : Nat → K → K) (x : Nat → List K) (r : Nat) : L.gpiece (fun γ => (x γ).map (f γ)) r = (L.gpiece x r).map (f (L.color r)) := by
  unfold Layout.gpiece
  rw [List.map_take, List.map_drop]

theorem gpiece_zip (L : Layout) (f : K → K → K) (x y : Nat → List K) (r : Nat) :
    L.gpiece (fun γ => List.zipWith f (x γ) (y γ)) r = List.zipWith f (L.gpiece x r) (L.gpiece y r) := by
  unfold Layout.gpiece
  rw [List.drop_zipWith, List.take_zipWith]

/-- the parts of the ranks of one colour, one after the other, are the vector of the group -/
theorem gpiece_flatMap (L : Layout) (x : Nat → List K) (γ k : Nat) : (((List.range k).filter fun q => L.color q = γ).flatMap (L.gpiece x)) = (x γ).take (L.gsize γ k) := by
  induction k with
  | zero => simp [Layout.gsize]
  | succ k ih =>
    rw [gsize_succ, List.range_succ, List.filter_append, List.flatMap_append, ih]
    by_cases h : L.color k = γ
    · rw [if_pos h, List.take_add]
      simp [h, Layout.gpiece]
    · rw [if_neg h]
      simp [h]

theorem gpiece_members {L : Layout} {x : Nat → List K} {r : Nat} (hx : (x (L.color r)).length = L.gsize (L.color r) n) : (L.members n r).flatMap (L.gpiece x) = x (L.color r) := by
  rw [members_color, gpiece_flatMap, List.take_of_length_le (by rw [hx])]

/-! ### vectors -/

section
variable {M N : Nat → Nat} {x y : ∀ γ, Vec K (N γ)}

theorem ghas_add (hx : V.GHas n x) (hy : V.GHas n y) : V.GHas n (fun γ => x γ + y γ) := fun r hr => by
  refine ⟨by rw [length_toL, ← (hx r hr).1, length_toL], ?_⟩
  show FitsL V.dt (toL (x _ + y _))
  rw [toL_add]
  intro hd z hz
  obtain ⟨i, hi, rfl⟩ := List.getElem_of_mem hz
  simp only [List.getElem_zipWith, star_add]
  rw [(hx r hr).2 hd _ (List.getElem_mem _), (hy r hr).2 hd _ (List.getElem_mem _)]

theorem ghas_smul (a : Nat → ℝ) (hx : V.GHas n x) : V.GHas n (fun γ => (a γ : K) • x γ) := fun r hr => by
  refine ⟨by rw [length_toL, ← (hx r hr).1, length_toL], ?_⟩
  show FitsL V.dt (toL ((a _ : K) • x _))
  rw [toL_smul]
  intro hd z hz
  obtain ⟨w, hw, rfl⟩ := List.mem_map.1 hz
  rw [star_mul', (hx r hr).2 hd _ hw]
  simp

theorem ghas_sub (hx : V.GHas n x) (hy : V.GHas n y) : V.GHas n (fun γ => x γ - y γ) := by
  have := ghas_add hx (ghas_smul (fun _ => -1) hy)
  simpa [sub_eq_add_neg] using this

theorem runs_copy_gpart (hL : V.L.WF n) (hp : V.L.part = .scatter) (hx : V.GHas n x) :
    Runs n (fun r => (V.gpart n x r).copy (env n J r)) (fun r => .ok (V.gpart n x r)) :=
  Runs.map_ok XArr.one (runs_copy hL (good_gvec hp hx))

theorem gpart_zip (f : K → K → K) {z : ∀ γ, Vec K (N γ)} (h : ∀ γ, toL (z γ) = List.zipWith f (toL (x γ)) (toL (y γ))) (r : Nat) :
    V.gpart n z r = .one (V.L.fam n V.dt (fun r => List.zipWith f (V.L.gpiece (fun γ => toL (x γ)) r) (V.L.gpiece (fun γ => toL (y γ)) r)) r) := by
  unfold VSpace.gpart VSpace.gvec
  have : V.L.gpiece (fun γ => toL (z γ)) = fun r => List.zipWith f (V.L.gpiece (fun γ => toL (x γ)) r) (V.L.gpiece (fun γ => toL (y γ)) r) := by
    funext r
    simp only [h]
    rw [gpiece_zip]
  rw [this]

theorem runs_add_gpart (hL : V.L.WF n) (hp : V.L.part = .scatter) (hx : V.GHas n x) (hy : V.GHas n y) :
    Runs n (fun r => (V.gpart n x r).add (env n J r) (V.gpart n y r)) (fun r => .ok (V.gpart n (fun γ => x γ + y γ) r)) :=
  (Runs.map_ok XArr.one (runs_add hL (good_gvec hp hx) (good_gvec hp hy))).congr (fun _ _ => rfl) fun r _ => by rw [gpart_zip _ (fun γ => toL_add (x γ) (y γ))]

theorem runs_iadd_gpart (hp : V.L.part = .scatter) (hx : V.GHas n x) (hy : V.GHas n y) :
    Runs n (fun r => (V.gpart n x r).iadd (env n J r) (V.gpart n y r)) (fun r => .ok (V.gpart n (fun γ => x γ + y γ) r)) :=
  (Runs.map_ok XArr.one (runs_iadd (good_gvec hp hx) (good_gvec hp hy))).congr (fun _ _ => rfl) fun r _ => by rw [gpart_zip _ (fun γ => toL_add (x γ) (y γ))]

theorem runs_sub_gpart (hL : V.L.WF n) (hp : V.L.part = .scatter) (hx : V.GHas n x) (hy : V.GHas n y) :
    Runs n (fun r => (V.gpart n x r).sub' (env n J r) (V.gpart n y r)) (fun r => .ok (V.gpart n (fun γ => x γ - y γ) r)) :=
  (Runs.map_ok XArr.one (runs_sub hL (good_gvec hp hx) (good_gvec hp hy))).congr (fun _ _ => rfl) fun r _ => by rw [gpart_zip _ (fun γ => toL_sub (x γ) (y γ))]

theorem runs_isub_gpart (hL : V.L.WF n) (hp : V.L.part = .scatter) (hx : V.GHas n x) (hy : V.GHas n y) :
    Runs n (fun r => (V.gpart n x r).isub (env n J r) (V.gpart n y r)) (fun r => .ok (V.gpart n (fun γ => x γ - y γ) r)) :=
  (Runs.map_ok XArr.one (runs_isub hL (good_gvec hp hx) (good_gvec hp hy))).congr (fun _ _ => rfl) fun r _ => by rw [gpart_zip _ (fun γ => toL_sub (x γ) (y γ))]

/-- each rank multiplies with the number of its group -/
theorem runs_fmul_gpart (hL : V.L.WF n) (hp : V.L.part = .scatter) (a : Nat → ℝ) (hx : V.GHas n x) :
    Runs n (fun r => XArr.fmul (env n J r) (a (V.L.color r)) (V.gpart n x r)) (fun r => .ok (V.gpart n (fun γ => (a γ : K) • x γ) r)) := by
  have hg := good_gvec hp hx
  have hg' := good_gvec hp (ghas_smul a hx)
  have e : V.L.gpiece (fun γ => toL ((a γ : K) • x γ)) = fun r => (V.L.gpiece (fun γ => toL (x γ)) r).map (· * (a (V.L.color r) : K)) := by
    funext r
    simp only [toL_smul]
    rw [gpiece_map V.L (fun γ z => z * (a γ : K))]
  refine (Runs.map_ok XArr.one (runs_like_set_good (J := J) (a := V.L.gpiece fun γ => toL (x γ))
    (v := fun r => ⟨V.L.lshape r, V.dt.promote .real, V.L.gpiece (fun γ => toL ((a γ : K) • x γ)) r⟩) hL (fun _ _ => rfl) hg')).congr (fun r _ => ?_) fun r _ => rfl
  rw [e]
  rfl

theorem gmem_conj {x : Nat → List K} (hx : V.GMem n x) : V.GMem n (fun γ => (x γ).map star) := fun r hr => by
  refine ⟨by rw [List.length_map, (hx r hr).1], fun hd z hz => ?_⟩
  obtain ⟨w, hw, rfl⟩ := List.mem_map.1 hz
  rw [(hx r hr).2 hd w hw, (hx r hr).2 hd w hw]

theorem runs_dot_gvec (hL : V.L.WF n) (hp : V.L.part = .scatter) {x y : Nat → List K} (hx : V.GMem n x) (hy : V.GMem n y) :
    Runs n (fun r => (V.gvec n x r).dot (env n J r) (V.gvec n y r)) (fun r => .ok (List.zipWith (· * ·) (x (V.L.color r)) (y (V.L.color r))).sum) := by
  rcases Nat.eq_zero_or_pos n with rfl | hn
  · exact Runs.of_zero
  have hb : V.L.part.isBroadcast = false := by rw [hp]; rfl
  refine (runs_dot (J := J) hn hL (good_gvec hp hx) (good_gvec hp hy) (fun h => by rw [hb] at h; cases h) (fun h => by rw [hb] at h; cases h)).congr (fun _ _ => rfl) fun r hr => ?_
  have e : ∀ a : Nat → List K, V.L.shard n a = a := fun a => by funext r; simp [Layout.shard, hb]
  rw [e, e]
  have hz : (List.zipWith (· * ·) (x (V.L.color r)) (y (V.L.color r))).length = V.L.gsize (V.L.color r) n := by rw [List.length_zipWith, (hx r hr).1, (hy r hr).1, min_self]
  have := gpiece_members (L := V.L) (x := fun γ => List.zipWith (· * ·) (x γ) (y γ)) hz
  rw [← this, List.flatMap, List.sum_flatten, List.map_map]
  congr 3
  funext q
  simp only [Function.comp]
  rw [gpiece_zip]

theorem runs_conj_gpart (hL : V.L.WF n) (hp : V.L.part = .scatter) (hy : V.GHas n y) :
    Runs n (fun r => (V.gpart n y r).conj (env n J r)) (fun r => .ok (.one (V.gvec n (fun γ => (toL (y γ)).map star) r))) := by
  refine (Runs.map_ok XArr.one (runs_conj (J := J) hL (good_gvec hp hy))).congr (fun _ _ => rfl) fun r _ => ?_
  unfold VSpace.gvec
  congr 3
  funext r
  exact (gpiece_map V.L (fun _ => (star : K → K)) _ r).symm

theorem runs_dotc_gpart (hL : V.L.WF n) (hp : V.L.part = .scatter) (hx : V.GHas n x) (hy : V.GHas n y) :
    Runs n (fun r => (V.gpart n x r).dot (env n J r) (.one (V.gvec n (fun γ => (toL (y γ)).map star) r))) (fun r => .ok (inner K (y (V.L.color r)) (x (V.L.color r)))) := by
  have := runs_dot_gvec (J := J) hL hp hx (gmem_conj hy)
  simp only [sum_toL] at this
  exact this

theorem runs_absDot_gpart (hL : V.L.WF n) (hp : V.L.part = .scatter) (hx : V.GHas n x) (hy : V.GHas n y) :
    Runs n (fun r => absDot (env n J r) (V.gpart n x r) (V.gpart n y r)) (fun r => .ok ‖inner K (y (V.L.color r)) (x (V.L.color r))‖) := by
  simp only [absDot, Prog.bind_eq]
  refine Runs.bind_ok (runs_conj_gpart hL hp hy) ?_
  refine Runs.bind_ok (runs_dotc_gpart hL hp hx hy) ?_
  exact Runs.ret _

theorem runs_absSelf_gpart (hL : V.L.WF n) (hp : V.L.part = .scatter) (hx : V.GHas n x) :
    Runs n (fun r => absDot (env n J r) (V.gpart n x r) (V.gpart n x r)) (fun r => .ok (‖x (V.L.color r)‖ ^ 2)) := by
  refine (runs_absDot_gpart (J := J) hL hp hx hx).congr (fun _ _ => rfl) fun r _ => ?_
  rw [inner_self_eq_norm_sq_to_K, norm_pow, RCLike.norm_ofReal, abs_of_nonneg (norm_nonneg _)]

theorem runs_norm_gpart (hL : V.L.WF n) (hp : V.L.part = .scatter) (hx : V.GHas n x) :
    Runs n (fun r => (V.gpart n x r).norm (env n J r)) (fun r => .ok (.fin ‖x (V.L.color r)‖)) := by
  rcases Nat.eq_zero_or_pos n with rfl | hn
  · exact Runs.of_zero
  have hb : V.L.part.isBroadcast = false := by rw [hp]; rfl
  have h1 := runs_norm_flat (J := J) (o := .none) hn hL (good_gvec hp hx) (fun h => by rw [hb] at h; cases h) (fun _ _ _ _ => trivial) (fun h => h.elim) ⟨by simp, by simp⟩
  refine (Runs.map_ok _ h1).congr (fun _ _ => rfl) fun r hr => ?_
  have e : ∀ a : Nat → List K, V.L.shard n a = a := fun a => by funext r; simp [Layout.shard, hb]
  have e2 : V.L.red n = V.L := by simp [Layout.red, hb]
  rw [e, e2, gpiece_members (hx r hr).1]
  show Except.ok (FNum.fin (Real.sqrt ((toL (x (V.L.color r))).map fun z => ‖z‖ ^ 2).sum)) = _
  rw [norm_toL]

theorem GActs.runs {mv : Nat → Ctx K → XArr K → P K (XArr K)} {A : ∀ γ, Vec K (M γ) → Vec K (N γ)} (h : GActs n J mv V W A) {x : ∀ γ, Vec K (M γ)} (hx : V.GHas n x) :
    Runs n (fun r => mv r (env n J r) (V.gpart n x r)) (fun r => .ok (W.gpart n (fun γ => A γ (x γ)) r)) := (h x hx).2.runs
theorem GActs.has {mv : Nat → Ctx K → XArr K → P K (XArr K)} {A : ∀ γ, Vec K (M γ) → Vec K (N γ)} (h : GActs n J mv V W A) {x : ∀ γ, Vec K (M γ)} (hx : V.GHas n x) :
    W.GHas n (fun γ => A γ (x γ)) := (h x hx).1

end
end Verif

/- Norm and gathering of stacked distributed vectors. -/
import Verif.Proofs.Stacked
import Mathlib.Analysis.RCLike.Lemmas

set_option linter.unusedSectionVars false

namespace Verif
open NDArray

section
variable {K : Type} [RCLike K] {n : Nat} {J : Nat → Nat → K}

/-- the order is admissible for the entries of the vector, and for ±inf no rank's part is empty -/
def VSpace.NormOk (V : VSpace) (n : Nat) (o : NormOrd) (d : List K) : Prop :=
  (∀ x ∈ d, OrdOk o V.dt x) ∧ (o.extremal → ∀ q < n, V.L.shard n (V.L.piece d) q ≠ [])

theorem mem_piece {L : Layout} {d : List K} {r : Nat} {x : K} (h : x ∈ L.piece d r) : x ∈ d := by
  unfold Layout.piece at h
  split_ifs at h
  · exact h
  · exact mem_sliceData h

theorem runs_norm_vec {V : VSpace} (hL : V.L.WF n) (hm : V.L.mask = none) {o : NormOrd} {d : List K} (hd : V.Mem d) (ho : V.NormOk n o d)
    (hfro : o ≠ .fro ∧ o ≠ .nuc) :
    Runs n (fun r => (V.vec n d r).norm (env n J r) o none) (fun _ => .ok ⟨[], .real, [vecNorm o d]⟩) := by
  rcases Nat.eq_zero_or_pos n with rfl | hn
  · exact Runs.of_zero
  refine (runs_norm_flat (J := J) hn hL (good_vec hL hd) (fun hb r _ => by simp [Layout.piece, hb])
    (fun q _ x hx => ho.1 x (mem_piece hx)) ho.2 hfro).congr (fun _ _ => rfl) fun r hr => ?_
  have e : (V.L.red n).members n r = List.range n := by
    unfold Layout.red
    split_ifs
    · rfl
    · simp only [Layout.members, hm]
  rw [e, vecNorm_perm (perm_shard hn hL (good_vec hL hd).length), global_piece hL hd.1]

theorem FNum.pow_root {p : ℝ} (hp : p ≠ 0) {x : FNum} (hx : ∀ t, x = .fin t → 0 ≤ t) : FNum.pow p (FNum.root p x) = x := by
  have hp' := lt_or_gt_of_ne hp
  cases x with
  | nan => rfl
  | inf => rcases hp' with h | h <;> simp [FNum.pow, FNum.root, h, not_lt.2 h.le]
  | fin t =>
    have ht := hx t rfl
    by_cases h0 : t = 0
    · subst h0
      rcases hp' with h | h <;> simp [FNum.pow, FNum.root, h, not_lt.2 h.le]
    · have h1 : t ^ (1 / p) ≠ 0 := by
        have : 0 < t := lt_of_le_of_ne ht (Ne.symm h0)
        positivity
      simp only [FNum.root, if_neg h0, FNum.pow, if_neg h1]
      rw [← Real.rpow_mul ht]
      simp [hp]

/-- non-negative or infinite or NaN -/
def FNum.NonNeg (x : FNum) : Prop := ∀ t, x = .fin t → 0 ≤ t

theorem FNum.nonneg_sum {l : List FNum} (h : ∀ x ∈ l, x.NonNeg) : l.sum.NonNeg := by
  induction l with
  | nil => intro t ht; injection ht with ht; rw [← ht]
  | cons a l ih =>
    intro t ht
    rw [List.sum_cons] at ht
    have h1 := h a (by simp)
    have h2 := ih fun x hx => h x (by simp [hx])
    revert h2
    generalize l.sum = s at ht
    intro h2
    cases a <;> cases s <;> first | (cases ht; done) | skip
    injection ht with ht
    rw [← ht]
    exact add_nonneg (h1 _ rfl) (h2 _ rfl)

theorem powAbs_nonneg {p t : ℝ} (ht : 0 ≤ t) : (powAbs p t).NonNeg := by
  intro u hu
  unfold powAbs at hu
  split_ifs at hu
  · injection hu with hu; rw [← hu]
  · injection hu with hu; rw [← hu]; positivity

theorem vecNorm_none (l : List K) : vecNorm .none l = vecNorm (.num 2) l := by
  have e : (fun x : K => powAbs 2 ‖x‖) = fun x => FNum.fin (‖x‖ ^ (2:ℝ)) := by
    funext x
    by_cases h : ‖x‖ = 0
    · simp [powAbs, h]
    · simp only [powAbs, h, if_false]
  have e2 : (l.map fun x : K => FNum.fin (‖x‖ ^ (2:ℝ))) = (l.map fun x => ‖x‖ ^ 2).map FNum.fin := by
    rw [List.map_map]
    apply List.map_congr_left
    intro x _
    simp
  simp only [vecNorm, if_neg (two_ne_zero (α := ℝ)), e, e2, FNum.sum_fin, FNum.root]
  split_ifs with h h'
  · rw [h, Real.sqrt_zero]
  · exact absurd (by norm_num) h'
  · rw [Real.sqrt_eq_rpow]

theorem foldl_max_fin : ∀ (l : List ℝ) (a : ℝ), (l.map FNum.fin).foldl FNum.max2 (.fin a) = .fin (l.foldl max a)
  | [], _ => rfl
  | b :: l, a => by
    simp only [List.map_cons, List.foldl_cons]
    rw [show FNum.max2 (.fin a) (.fin b) = .fin (max a b) from rfl]
    exact foldl_max_fin l _
theorem foldl_min_fin : ∀ (l : List ℝ) (a : ℝ), (l.map FNum.fin).foldl FNum.min2 (.fin a) = .fin (l.foldl min a)
  | [], _ => rfl
  | b :: l, a => by
    simp only [List.map_cons, List.foldl_cons]
    rw [show FNum.min2 (.fin a) (.fin b) = .fin (min a b) from rfl]
    exact foldl_min_fin l _

theorem ext_flatten_max {ds : List (List ℝ)} (h : ∀ d ∈ ds, d ≠ []) : (ds.map fun d => d.max?.getD 0).max? = ds.flatten.max? := by
  cases hm : ds.flatten.max? with
  | none =>
    rw [List.max?_eq_none_iff] at hm ⊢
    cases ds with
    | nil => rfl
    | cons d ds =>
      exfalso
      rw [List.flatten_cons] at hm
      exact h d (by simp) (List.append_eq_nil_iff.1 hm).1
  | some m =>
    rw [List.max?_eq_some_iff] at hm ⊢
    obtain ⟨h1, h2⟩ := hm
    rw [List.mem_flatten] at h1
    obtain ⟨d, hd, hmd⟩ := h1
    refine ⟨List.mem_map.2 ⟨d, hd, ?_⟩, fun b hb => ?_⟩
    · have : d.max? = some m := List.max?_eq_some_iff.2 ⟨hmd, fun b hb => h2 b (List.mem_flatten.2 ⟨d, hd, hb⟩)⟩
      rw [this]; rfl
    · obtain ⟨e, he, rfl⟩ := List.mem_map.1 hb
      cases hx : e.max? with
      | none => exact absurd (List.max?_eq_none_iff.1 hx) (h e he)
      | some x => exact h2 x (List.mem_flatten.2 ⟨e, he, (List.max?_eq_some_iff.1 hx).1⟩)

theorem ext_flatten_min {ds : List (List ℝ)} (h : ∀ d ∈ ds, d ≠ []) : (ds.map fun d => d.min?.getD 0).min? = ds.flatten.min? := by
  cases hm : ds.flatten.min? with
  | none =>
    rw [List.min?_eq_none_iff] at hm ⊢
    cases ds with
    | nil => rfl
    | cons d ds =>
      exfalso
      rw [List.flatten_cons] at hm
      exact h d (by simp) (List.append_eq_nil_iff.1 hm).1
  | some m =>
    rw [List.min?_eq_some_iff] at hm ⊢
    obtain ⟨h1, h2⟩ := hm
    rw [List.mem_flatten] at h1
    obtain ⟨d, hd, hmd⟩ := h1
    refine ⟨List.mem_map.2 ⟨d, hd, ?_⟩, fun b hb => ?_⟩
    · have : d.min? = some m := List.min?_eq_some_iff.2 ⟨hmd, fun b hb => h2 b (List.mem_flatten.2 ⟨d, hd, hb⟩)⟩
      rw [this]; rfl
    · obtain ⟨e, he, rfl⟩ := List.mem_map.1 hb
      cases hx : e.min? with
      | none => exact absurd (List.min?_eq_none_iff.1 hx) (h e he)
      | some x => exact h2 x (List.mem_flatten.2 ⟨e, he, (List.min?_eq_some_iff.1 hx).1⟩)

/-- the norm of a concatenation from the norms of its parts -/
theorem combineNorms_flatten {o : NormOrd} {ds : List (List K)} (hds : ds ≠ []) (hfro : o ≠ .fro ∧ o ≠ .nuc) (hne : o.extremal → ∀ d ∈ ds, d ≠ []) :
    SArr.combineNorms (ds.map (vecNorm o)) o = .ok (vecNorm o ds.flatten) := by
  have num : ∀ p : ℝ, p ≠ 0 → FNum.root p ((ds.map (vecNorm (.num p))).map (FNum.pow p)).sum = vecNorm (.num p) ds.flatten := by
    intro p hp
    have : ∀ ds : List (List K), ((ds.map (vecNorm (.num p))).map (FNum.pow p)).sum = (ds.flatten.map fun x => powAbs p ‖x‖).sum := by
      intro ds
      induction ds with
      | nil => rfl
      | cons d ds ih =>
        rw [List.flatten_cons, List.map_append, List.sum_append, ← ih]
        simp only [List.map_cons, List.sum_cons]
        congr 1
        simp only [vecNorm, if_neg hp]
        apply FNum.pow_root hp
        apply FNum.nonneg_sum
        intro x hx
        obtain ⟨y, _, rfl⟩ := List.mem_map.1 hx
        exact powAbs_nonneg (norm_nonneg _)
    rw [this]
    simp only [vecNorm, if_neg hp]
  cases o with
  | none =>
    have e : (vecNorm .none : List K → FNum) = vecNorm (.num 2) := funext vecNorm_none
    have h2 : (2:ℝ) ≠ 0 := two_ne_zero
    simp only [SArr.combineNorms, NormOrd.dflt, if_neg h2, e, num 2 h2]
  | num p =>
    by_cases hp : p = 0
    · subst hp
      simp only [SArr.combineNorms, NormOrd.dflt, if_true]
      congr 1
      clear hds hne num
      induction ds with
      | nil => simp [vecNorm]; rfl
      | cons d ds ih =>
        rw [List.map_cons, List.sum_cons, ih, List.flatten_cons]
        simp [vecNorm, List.countP_append]
    · simp only [SArr.combineNorms, NormOrd.dflt, if_neg hp, num p hp]
  | inf =>
    have hne := hne trivial
    have e : ds.map (vecNorm .inf) = (ds.map fun d => (d.map fun x => ‖x‖).max?.getD 0).map FNum.fin := by
      rw [List.map_map]
      apply List.map_congr_left
      intro d hd
      cases hm : (d.map fun x => ‖x‖).max? with
      | none => exact absurd (List.map_eq_nil_iff.1 (List.max?_eq_none_iff.1 hm)) (hne d hd)
      | some m => simp [vecNorm, hm]
    have key := ext_flatten_max (ds := ds.map fun d => d.map fun x => ‖x‖) (by simpa using hne)
    rw [← List.map_flatten, List.map_map] at key
    simp only [SArr.combineNorms, NormOrd.dflt, vecNorm]
    rw [← key]
    cases ds with
    | nil => exact absurd rfl hds
    | cons d ds =>
      rw [e]
      simp only [List.map_cons, SArr.extremum, foldl_max_fin, List.max?_cons', Function.comp]
      rfl
  | ninf =>
    have hne := hne trivial
    have e : ds.map (vecNorm .ninf) = (ds.map fun d => (d.map fun x => ‖x‖).min?.getD 0).map FNum.fin := by
      rw [List.map_map]
      apply List.map_congr_left
      intro d hd
      cases hm : (d.map fun x => ‖x‖).min? with
      | none => exact absurd (List.map_eq_nil_iff.1 (List.min?_eq_none_iff.1 hm)) (hne d hd)
      | some m => simp [vecNorm, hm]
    have key := ext_flatten_min (ds := ds.map fun d => d.map fun x => ‖x‖) (by simpa using hne)
    rw [← List.map_flatten, List.map_map] at key
    simp only [SArr.combineNorms, NormOrd.dflt, vecNorm]
    rw [← key]
    cases ds with
    | nil => exact absurd rfl hds
    | cons d ds =>
      rw [e]
      simp only [List.map_cons, SArr.extremum, foldl_min_fin, List.min?_cons', Function.comp]
      rfl
  | fro => exact absurd rfl hfro.1
  | nuc => exact absurd rfl hfro.2

/-- the global data of the components of a stack -/
def SSpace.parts {K : Type} : SSpace → List K → List (List K)
  | [], _ => []
  | V :: S, d => d.take V.L.gshape.prod :: SSpace.parts S (d.drop V.L.gshape.prod)

theorem SSpace.flatten_parts {K : Type} [Star K] : ∀ {S : SSpace} {d : List K}, S.Mem d → (S.parts d).flatten = d
  | [], d, h => by rw [show d = [] from h]; rfl
  | V :: S, d, h => by
    rw [SSpace.parts, List.flatten_cons, SSpace.flatten_parts h.2, List.take_append_drop]

/-- the order is admissible for every component -/
def SSpace.NormOk (S : SSpace) (n : Nat) (o : NormOrd) (d : List K) : Prop := ∀ p ∈ S.zip (S.parts d), p.1.NormOk n o p.2

theorem runs_norm_svec {S : SSpace} (hS : S.WF n) (hm : S.NoMask) (h0 : S ≠ []) {o : NormOrd} {d : List K} (hd : S.Mem d) (ho : S.NormOk n o d)
    (hfro : o ≠ .fro ∧ o ≠ .nuc) (hne : o.extremal → ∀ e ∈ S.parts d, e ≠ []) :
    Runs n (fun r => (S.vec n d r).norm (env n J r) o) (fun _ => .ok (vecNorm o d)) := by
  have key : ∀ {S : SSpace} {d : List K}, S.WF n → S.NoMask → S.Mem d → S.NormOk n o d →
      Runs n (fun r => forList (fun d : DArr K => d.norm (env n J r) o none) (S.vec n d r)) (fun _ => .ok ((S.parts d).map fun e => ⟨[], .real, [vecNorm o e]⟩)) := by
    intro S
    induction S with
    | nil => intro d _ _ _ _; exact runs_forList_nil
    | cons V S ih =>
      intro d hS hm hd ho
      have h1 := runs_norm_vec (J := J) (hS V (by simp)) (hm V (by simp)) hd.1 (ho (V, d.take V.L.gshape.prod) (by simp [SSpace.parts])) hfro
      have h2 := ih (fun W hW => hS _ (by simp [hW])) (fun W hW => hm _ (by simp [hW])) hd.2 (fun p hp => ho p (by simp [SSpace.parts, hp]))
      exact runs_forList_cons h1 h2
  have hv : ∀ r, ¬ S.vec n d r = [] := by
    intro r h
    have := congrArg List.length h
    rw [SSpace.length_vec] at this
    exact h0 (List.length_eq_zero_iff.1 this)
  unfold SArr.norm
  simp only [if_neg (hv _)]
  refine Runs.bind_ok (key hS hm hd ho) ?_
  refine (Runs.lift (M := Msg K) fun _ => SArr.combineNorms ((S.parts d).map (vecNorm o)) o).congr (fun r _ => ?_) fun r _ => ?_
  · rw [List.map_map]; rfl
  · have := combineNorms_flatten (ds := S.parts d) (o := o) (by
      intro h
      have : S.parts d = [] := h
      cases S with
      | nil => exact h0 rfl
      | cons V S => simp [SSpace.parts] at this) hfro hne
    rw [this, SSpace.flatten_parts hd]

end

variable {K : Type} [Field K] [StarRing K] [CharZero K] {n : Nat} {J : Nat → Nat → K}

theorem concat_flat (a : NDArray K) (l : List (NDArray K)) :
    concat 0 ((a :: l).map NDArray.flatten) = .ok ⟨[((a :: l).map (·.data)).flatten.length], (a :: l).foldl (fun t b => t.promote b.dtype) a.dtype, ((a :: l).map (·.data)).flatten⟩ := by
  have hall : ((a :: l).map NDArray.flatten).all (fun b => b.shape.length = a.flatten.shape.length ∧ b.shape.set 0 0 = a.flatten.shape.set 0 0) = true := by
    rw [List.all_eq_true]
    intro b hb
    obtain ⟨x, _, rfl⟩ := List.mem_map.1 hb
    simp [NDArray.flatten]
  have hlen : 0 < a.flatten.shape.length := Nat.one_pos
  have h1 : concat 0 ((a :: l).map NDArray.flatten) = .ok { shape := a.flatten.shape.set 0 (((a :: l).map NDArray.flatten).map fun b => len b.shape 0).sum, dtype := ((a :: l).map NDArray.flatten).foldl (fun t b => t.promote b.dtype) a.flatten.dtype, data := concatData (outer a.flatten.shape 0) (inner a.flatten.shape 0) (((a :: l).map NDArray.flatten).map fun b => (len b.shape 0, b.data)) } := by
    unfold concat
    rw [List.map_cons] at hall ⊢
    dsimp only
    rw [if_pos ⟨hall, hlen⟩]
  rw [h1]
  congr 1
  have e1 : (((a :: l).map NDArray.flatten).map fun b => len b.shape 0).sum = ((a :: l).map (·.data)).flatten.length := by
    rw [List.length_flatten, List.map_map, List.map_map]; rfl
  have e2 : concatData (outer a.flatten.shape 0) (inner a.flatten.shape 0) (((a :: l).map NDArray.flatten).map fun b => (len b.shape 0, b.data)) = ((a :: l).map (·.data)).flatten := by
    have : outer a.flatten.shape 0 = 1 := rfl
    have h' : inner a.flatten.shape 0 = 1 := rfl
    rw [this, h']
    unfold concatData
    simp only [List.range_one, List.flatMap_cons, List.flatMap_nil, List.append_nil]
    rw [List.map_map, List.flatMap_map, List.flatten_eq_flatMap, List.flatMap_map]
    congr 1
    funext x
    simp [chunk, NDArray.flatten, len]
  have e3 : ((a :: l).map NDArray.flatten).foldl (fun t b => t.promote b.dtype) a.flatten.dtype = (a :: l).foldl (fun t b => t.promote b.dtype) a.dtype := by
    rw [List.foldl_map]; rfl
  rw [e1, e2, e3]
  rfl

/-- dtype of the gathered stack -/
def SSpace.dtype (S : SSpace) : DType := S.foldl (fun t V => t.promote V.dt) ((S.map (·.dt)).headD .real)

theorem runs_asarray_svec {S : SSpace} (hS : S.WF n) (h0 : S ≠ []) {d : List K} (hd : S.Mem d) :
    Runs n (fun r => (S.vec n d r).asarray (env n J r)) (fun _ => .ok ⟨[S.dim], S.dtype, d⟩) := by
  let arr : SSpace → List K → List (NDArray K) := fun S d => (S.zip (S.parts d)).map fun p => ⟨p.1.L.gshape, p.1.dt, p.2⟩
  have key : ∀ {S : SSpace} {d : List K}, S.WF n → S.Mem d →
      Runs n (fun r => forList (fun d : DArr K => d.asarray (env n J r)) (S.vec n d r)) (fun _ => .ok (arr S d)) := by
    intro S
    induction S with
    | nil => intro d _ _; exact runs_forList_nil
    | cons V S ih =>
      intro d hS hd
      exact runs_forList_cons (runs_asarray_vec (J := J) (hS V (by simp)) hd.1) (ih (fun W hW => hS _ (by simp [hW])) hd.2)
  have hp : ∀ (S : SSpace) (d : List K), (arr S d).map (·.data) = S.parts d := by
    intro S
    induction S with
    | nil => intro d; rfl
    | cons V S ih => intro d; simp only [arr, SSpace.parts, List.zip_cons_cons, List.map_cons]; exact congrArg _ (ih _)
  have hq : ∀ (S : SSpace) (d : List K), (arr S d).map (·.dtype) = S.map (·.dt) := by
    intro S
    induction S with
    | nil => intro d; rfl
    | cons V S ih => intro d; simp only [arr, SSpace.parts, List.zip_cons_cons, List.map_cons]; exact congrArg _ (ih _)
  unfold SArr.asarray
  refine Runs.bind_ok (key hS hd) ?_
  refine (Runs.lift (M := Msg K) fun _ => concat 0 ((arr S d).map NDArray.flatten)).congr (fun r _ => rfl) fun r _ => ?_
  cases S with
  | nil => exact absurd rfl h0
  | cons V S =>
    have ha : arr (V :: S) d = ⟨V.L.gshape, V.dt, d.take V.L.gshape.prod⟩ :: arr S (d.drop V.L.gshape.prod) := rfl
    rw [ha, concat_flat, ← ha, hp, SSpace.flatten_parts hd, hd.length]
    congr 2
    have : (arr (V :: S) d).foldl (fun t b => t.promote b.dtype) V.dt = ((arr (V :: S) d).map (·.dtype)).foldl DType.promote V.dt := List.foldl_map.symm
    rw [this, hq]
    simp [SSpace.dtype, List.foldl_map]

end Verif

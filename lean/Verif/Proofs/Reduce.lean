/- Execution lemmas for the reductions `dot` and `norm`. -/
import Verif.Proofs.Array
import Verif.Spec.Norm
import Mathlib.Data.List.Count

namespace Verif
open NDArray

set_option linter.unusedSectionVars false

/-! ### sub-communicators -/

section
variable {n : Nat} {L : Layout}

theorem mem_members {r q : Nat} (hr : r < n) (h : q ∈ L.members n r) : q < n := by
  unfold Layout.members at h
  split at h
  · simpa using h
  · simpa using (List.mem_filter.1 h).1

theorem self_mem_members {r : Nat} (hr : r < n) : r ∈ L.members n r := by
  unfold Layout.members
  split
  · simpa using hr
  · simp [hr]

theorem members_eq {r q : Nat} (hr : r < n) (h : q ∈ L.members n r) : L.members n q = L.members n r := by
  unfold Layout.members at h ⊢
  split
  · rfl
  · rename_i m hm
    rw [hm] at h
    dsimp only at h
    have := (List.mem_filter.1 h).2
    simp only [decide_eq_true_eq] at this
    rw [this]

theorem runs_allreduce_members {K α β : Type} [Enc K α] {op : α → α → Except Err α} {v w : Nat → α}
    {k : Nat → α → P K β} {ρ}
    (hf : ∀ r < n, ∃ q l, L.members n r = q :: l ∧ (l.map v).foldlM op (v q) = .ok (w r))
    (h : Runs n (fun r => k r (w r)) ρ) :
    Runs n (fun r => (allreduce (L.members n r) op (v r)).bind (k r)) ρ := by
  unfold allreduce
  simp only [Prog.bind_eq, Prog.bind_assoc]
  refine runs_gather_sub (fun r hr => self_mem_members hr) (fun r hr q hq => mem_members hr hq)
    (fun r hr q hq => members_eq hr hq) (h.congr (fun r hr => ?_) (fun _ _ => rfl))
  obtain ⟨q, l, h1, h2⟩ := hf r hr
  rw [h1, List.map_cons]
  simp only [h2, Prog.lift_ok, Prog.ret_bind]

theorem members_cons {r : Nat} (hr : r < n) : ∃ q l, L.members n r = q :: l :=
  List.exists_cons_of_ne_nil (List.ne_nil_of_mem (self_mem_members hr))

end

/-! ### the array whose shards are reduced -/

section
variable {K : Type} [Field K] [StarRing K] [CharZero K] {n : Nat} {J : Nat → Nat → K}

/-- broadcast arrays hold the same data on all ranks -/
def Layout.Agree (L : Layout) (n : Nat) (a : Nat → List K) : Prop :=
  L.part.isBroadcast = true → ∀ r < n, a r = a 0

/-- the layout of `to_dist(x)` with default arguments -/
def Layout.scattered (L : Layout) (n : Nat) : Layout :=
  ⟨L.gshape, .scatter, 0, balanced (len L.gshape 0) n, none⟩

/-- the layout of the array reduced by `dot` and `norm` -/
def Layout.red (L : Layout) (n : Nat) : Layout := if L.part.isBroadcast then L.scattered n else L

/-- its local data -/
def Layout.shard (L : Layout) (n : Nat) (a : Nat → List K) (r : Nat) : List K :=
  if L.part.isBroadcast then (L.scattered n).piece (a 0) r else a r

theorem scattered_wf {L : Layout} (hn : 0 < n) (hL : L.WF n) : (L.scattered n).WF n :=
  ⟨by have := hL.axis_lt; simp only [Layout.scattered]; omega, fun _ => psum_balanced_total _ hn, by simp [Layout.scattered]⟩

theorem red_wf {L : Layout} (hn : 0 < n) (hL : L.WF n) : (L.red n).WF n := by
  unfold Layout.red; split_ifs
  · exact scattered_wf hn hL
  · exact hL

theorem red_part {L : Layout} : (L.red n).part = .scatter := by
  unfold Layout.red; split_ifs with h
  · rfl
  · exact isBroadcast_false h

theorem red_gshape {L : Layout} : (L.red n).gshape = L.gshape := by
  unfold Layout.red; split_ifs <;> rfl

theorem length_shard {L : Layout} (hn : 0 < n) (hL : L.WF n) {a : Nat → List K}
    (ha : ∀ r < n, (a r).length = (L.lshape r).prod) {r : Nat} (hr : r < n) :
    (L.shard n a r).length = ((L.red n).lshape r).prod := by
  unfold Layout.shard Layout.red
  split_ifs with h
  · exact length_piece (scattered_wf hn hL) (by rw [ha 0 hn, lshape_bcast h]; rfl) hr
  · exact ha r hr

theorem global_shard {L : Layout} (hn : 0 < n) (hL : L.WF n) {a : Nat → List K}
    (ha : ∀ r < n, (a r).length = (L.lshape r).prod) :
    (L.red n).globalData n (L.shard n a) = L.globalData n a := by
  by_cases h : L.part.isBroadcast = true
  · have e1 : L.red n = L.scattered n := by simp [Layout.red, h]
    have e2 : L.shard n a = (L.scattered n).piece (a 0) := by funext r; simp [Layout.shard, h]
    rw [e1, e2, global_piece (scattered_wf hn hL) (by rw [ha 0 hn, lshape_bcast h]; rfl)]
    simp [Layout.globalData, h]
  · have e1 : L.red n = L := by simp [Layout.red, h]
    have e2 : L.shard n a = a := by funext r; simp [Layout.shard, h]
    rw [e1, e2]

theorem runs_toScatter {L : Layout} {dt : DType} {a : Nat → List K} (hn : 0 < n) (hL : L.WF n) (ha : L.Good n dt a)
    (hg : L.Agree n a) :
    Runs n (fun r => (L.fam n dt a r).toScatter (env n J r) L.part)
      (fun r => .ok ((L.red n).fam n dt (L.shard n a) r)) := by
  unfold DArr.toScatter
  by_cases h : L.part.isBroadcast = true
  · simp only [if_pos h]
    have e1 : L.red n = L.scattered n := by simp [Layout.red, h]
    have e2 : L.shard n a = (L.scattered n).piece (a 0) := by funext r; simp [Layout.shard, h]
    rw [e1, e2]
    have := runs_toDist_none (J := J) (x := ⟨L.gshape, dt, a 0⟩) (scattered_wf hn hL) (fun _ => rfl) rfl
      (by show (a 0).length = _; rw [ha.length 0 hn, lshape_bcast h]) (ha.fits 0 hn)
    refine this.congr (fun r hr => ?_) (fun _ _ => rfl)
    have e3 : (L.fam n dt a r).larr = ⟨L.gshape, dt, a 0⟩ := by
      simp [Layout.fam, lshape_bcast h, hg h r hr]
    rw [e3]; rfl
  · simp only [if_neg h]
    have e1 : L.red n = L := by simp [Layout.red, h]
    have e2 : L.shard n a = a := by funext r; simp [Layout.shard, h]
    rw [e1, e2]
    exact Runs.ret _

/-! ### dot -/

theorem runs_dot {L : Layout} {dt dt' : DType} {a b : Nat → List K} (hn : 0 < n) (hL : L.WF n) (ha : L.Good n dt a)
    (hb : L.Good n dt' b) (hga : L.Agree n a) (hgb : L.Agree n b) :
    Runs n (fun r => (L.fam n dt a r).dot (env n J r) (L.fam n dt' b r))
      (fun r => .ok ((L.members n r).map fun q => (List.zipWith (· * ·) (L.shard n a q) (L.shard n b q)).sum).sum) := by
  unfold DArr.dot
  simp only [Prog.bind_eq]
  refine Runs.bind_ok runs_checkCompat ?_
  refine Runs.bind_ok (runs_toScatter (J := J) hn hL ha hga) ?_
  refine Runs.bind_ok (runs_toScatter (J := J) hn hL hb hgb) ?_
  have hlen : ∀ r < n, (L.shard n a r).length = (L.shard n b r).length := fun r hr => by
    rw [length_shard hn hL ha.length hr, length_shard hn hL hb.length hr]
  refine Runs.congr (ps := fun r => (allreduce (L.members n r) (fun x y => .ok ⟨x.val + y.val⟩)
    (Sc.mk (List.zipWith (· * ·) (L.shard n a r) (L.shard n b r)).sum)).bind fun s => .ret s.val)
    (runs_allreduce_members (k := fun _ s => .ret s.val) (w := fun r => Sc.mk ((L.members n r).map fun q =>
      (List.zipWith (· * ·) (L.shard n a q) (L.shard n b q)).sum).sum) (fun r hr => ?_) (Runs.ret _)) ?_ (fun _ _ => rfl)
  · obtain ⟨q, l, h⟩ := members_cons (L := L) hr
    refine ⟨q, l, h, ?_⟩
    rw [h]
    generalize hv : (fun q => (List.zipWith (· * ·) (L.shard n a q) (L.shard n b q)).sum) = v
    have hv' : ∀ q, (List.zipWith (· * ·) (L.shard n a q) (L.shard n b q)).sum = v q := fun q => congrFun hv q
    simp only [hv']
    have : ∀ (l : List Nat) (x : K), (l.map fun r => Sc.mk (v r)).foldlM
        (fun (x y : Sc K) => (.ok ⟨x.val + y.val⟩ : Except Err (Sc K))) ⟨x⟩ = .ok ⟨x + (l.map v).sum⟩ := by
      intro l
      induction l with
      | nil => intro x; simp [pure, Except.pure]
      | cons q l ih =>
        intro x
        rw [List.map_cons, List.foldlM_cons]
        show (l.map fun r => Sc.mk (v r)).foldlM (fun (x y : Sc K) => (.ok ⟨x.val + y.val⟩ : Except Err (Sc K))) (Sc.mk (x + v q)) = _
        rw [ih, List.map_cons, List.sum_cons, add_assoc]
    rw [this, List.map_cons, List.sum_cons]
  · intro r hr
    have : NDArray.dot ((L.red n).fam n dt (L.shard n a) r).larr.flatten ((L.red n).fam n dt' (L.shard n b) r).larr.flatten
        = .ok (List.zipWith (· * ·) (L.shard n a r) (L.shard n b r)).sum := by
      simp only [NDArray.dot, NDArray.flatten, Layout.fam]
      exact if_pos (hlen r hr)
    rw [this]; rfl

/-- the sum over all ranks of the local dot products is the global dot product -/
theorem sum_dot_global {L : Layout} (hn : 0 < n) (hL : L.WF n) {a b : Nat → List K}
    (ha : ∀ r < n, (a r).length = (L.lshape r).prod) (hb : ∀ r < n, (b r).length = (L.lshape r).prod) :
    ((List.range n).map fun q => (List.zipWith (· * ·) (L.shard n a q) (L.shard n b q)).sum).sum
      = (List.zipWith (· * ·) (L.globalData n a) (L.globalData n b)).sum := by
  rw [← global_shard hn hL ha, ← global_shard hn hL hb, ← globalData_zip]
  · have hns : ¬ (L.red n).part.isBroadcast = true := by rw [red_part]; simp [Partition.isBroadcast]
    unfold Layout.globalData
    rw [if_neg hns, sum_concatData]
    intro r hr
    have hr : r < n := by simpa using hr
    rw [List.length_zipWith, length_shard hn hL ha hr, length_shard hn hL hb hr, min_self,
      length_lshape_prod (red_wf hn hL) red_part]
  · intro r hr; rw [length_shard hn hL ha hr, length_shard hn hL hb hr]

/-- the entries of the global array are those of the shards -/
theorem perm_global {L : Layout} (hL : L.WF n) (hp : L.part = .scatter) {a : Nat → List K}
    (ha : ∀ r < n, (a r).length = (L.lshape r).prod) :
    (L.globalData n a).Perm ((List.range n).flatMap a) := by
  classical
  rw [List.perm_iff_count]
  intro x
  have hns : ¬ L.part.isBroadcast = true := by rw [hp]; simp [Partition.isBroadcast]
  unfold Layout.globalData
  rw [if_neg hns, concatData]
  simp only [List.count_flatMap, List.flatMap_map]
  simp only [Function.comp_def, List.count_flatMap]
  rw [sum_map_flatMap_comm]
  congr 1
  apply List.map_congr_left
  intro r hr
  have hr : r < n := by simpa using hr
  have h2 : (a r).length = outer L.gshape L.axis * (L.sizes r * inner L.gshape L.axis) := by
    rw [ha r hr, length_lshape_prod hL hp]
  have h3 := flatMap_chunk h2
  conv_rhs => rw [← h3, List.count_flatMap]
  rfl

end

/-! ### norms -/

section
variable {K : Type} [RCLike K] {n : Nat} {J : Nat → Nat → K} {L : Layout} {β : Type}

theorem absFloatPower_eq {dt : DType} {p : ℝ} {x : K} (hp : p ≠ 0) (h : OrdOk (.num p) dt x)
    (hx : dt = .real → star x = x) : absFloatPower dt p x = powAbs p ‖x‖ := by
  have h' := h.resolve_left hp
  cases dt with
  | cplx =>
    by_cases h0 : x = 0
    · have := (h'.2 rfl).resolve_right (fun h => h h0)
      simp [absFloatPower, powAbs, h0, this]
    · simp [absFloatPower, powAbs, h0]
  | real =>
    have hre : ((RCLike.re x : ℝ) : K) = x := RCLike.conj_eq_iff_re.1 (hx rfl)
    have hn : ‖x‖ = |RCLike.re x| := by
      conv_lhs => rw [← hre]
      exact RCLike.norm_ofReal _
    simp only [absFloatPower, powAbs, hn, abs_eq_zero]
    split_ifs with h1 h2 h3 h4
    · rfl
    · rfl
    · rw [abs_of_pos h3]
    · rw [abs_of_nonpos (le_of_not_gt h3)]
    · exfalso
      rcases h'.1 rfl with h5 | h5
      · exact h4 h5
      · rcases lt_or_eq_of_le h5 with h6 | h6
        · exact h3 h6
        · exact h1 h6.symm

theorem mapM_ok {α β : Type} (g : α → β) (l : List α) :
    l.mapM (fun a => (.ok (g a) : Except Err β)) = .ok (l.map g) := by
  induction l with
  | nil => rfl
  | cons a l ih => rw [List.mapM_cons, ih]; rfl

theorem mapM_congr_ok {α β : Type} {f : α → Except Err β} {g : α → β} {l : List α} (h : ∀ a ∈ l, f a = .ok (g a)) :
    l.mapM f = .ok (l.map g) := by
  induction l with
  | nil => rfl
  | cons a l ih => rw [List.mapM_cons, h a (by simp), ih (fun b hb => h b (by simp [hb]))]; rfl

/-- reduction of buffers of the same shape -/
theorem foldlM_combine (f : FNum → FNum → FNum) (sh : List Nat) (N : Nat) (g : Nat → Nat → FNum) (l : List Nat)
    (acc : Nat → FNum) :
    (l.map fun q => (RArr.mk ⟨sh, .real, (List.range N).map (g q)⟩)).foldlM (combine f)
      ⟨⟨sh, .real, (List.range N).map acc⟩⟩
      = .ok ⟨⟨sh, .real, (List.range N).map fun j => (l.map fun q => g q j).foldl f (acc j)⟩⟩ := by
  induction l generalizing acc with
  | nil => rfl
  | cons q l ih =>
    rw [List.map_cons, List.foldlM_cons]
    have : combine f ⟨⟨sh, .real, (List.range N).map acc⟩⟩ ⟨⟨sh, .real, (List.range N).map (g q)⟩⟩
        = .ok ⟨⟨sh, .real, (List.range N).map fun j => f (acc j) (g q j)⟩⟩ := by
      simp only [combine, NDArray.zip, if_true]
      have e : List.zipWith f ((List.range N).map acc) ((List.range N).map (g q))
          = (List.range N).map fun j => f (acc j) (g q j) := by
        apply List.ext_getElem <;> simp
      rw [e]; rfl
    rw [this]
    exact ih _

/-- all-reduce of buffers -/
theorem runs_reduceBuf (f : FNum → FNum → FNum) {sh : List Nat} {N : Nat} {g : Nat → Nat → FNum} {w : Nat → Nat → FNum}
    {k : Nat → RArr → P K β} {ρ}
    (hw : ∀ r < n, ∀ q l, L.members n r = q :: l → ∀ j < N, (l.map fun q => g q j).foldl f (g q j) = w r j)
    (h : Runs n (fun r => k r ⟨⟨sh, .real, (List.range N).map (w r)⟩⟩) ρ) :
    Runs n (fun r => (allreduce (L.members n r) (combine f) (RArr.mk ⟨sh, .real, (List.range N).map (g r)⟩)).bind (k r)) ρ := by
  refine runs_allreduce_members (w := fun r => ⟨⟨sh, .real, (List.range N).map (w r)⟩⟩) (fun r hr => ?_) h
  obtain ⟨q, l, h1⟩ := members_cons (L := L) hr
  refine ⟨q, l, h1, ?_⟩
  rw [foldlM_combine]
  congr 3
  apply List.map_congr_left
  intro j hj
  exact hw r hr q l h1 j (by simpa using hj)

theorem foldl_add_sum (l : List FNum) (x : FNum) : l.foldl (· + ·) x = x + l.sum := by
  induction l generalizing x with
  | nil => simp
  | cons y l ih => rw [List.foldl_cons, ih, List.sum_cons, add_assoc]

theorem max?_append {l l' : List ℝ} {m m' : ℝ} (h : l.max? = some m) (h' : l'.max? = some m') :
    (l ++ l').max? = some (max m m') := by
  cases l with
  | nil => simp at h
  | cons x xs => cases l' with
    | nil => simp at h'
    | cons y ys =>
      simp only [List.max?, List.cons_append, Option.some.injEq, List.foldl_append, List.foldl_cons] at h h' ⊢
      rw [h, ← h', List.foldl_assoc]

theorem min?_append {l l' : List ℝ} {m m' : ℝ} (h : l.min? = some m) (h' : l'.min? = some m') :
    (l ++ l').min? = some (min m m') := by
  cases l with
  | nil => simp at h
  | cons x xs => cases l' with
    | nil => simp at h'
    | cons y ys =>
      simp only [List.min?, List.cons_append, Option.some.injEq, List.foldl_append, List.foldl_cons] at h h' ⊢
      rw [h, ← h', List.foldl_assoc]

theorem foldl_max2 {cols : Nat → List ℝ} {mx : Nat → ℝ} (l : List Nat) (hl : ∀ q ∈ l, (cols q).max? = some (mx q))
    {acc : List ℝ} {m : ℝ} (ha : acc.max? = some m) :
    ∃ m', (l.map fun q => FNum.fin (mx q)).foldl FNum.max2 (.fin m) = .fin m' ∧ (acc ++ l.flatMap cols).max? = some m' := by
  induction l generalizing acc m with
  | nil => exact ⟨m, rfl, by simpa using ha⟩
  | cons q l ih =>
    obtain ⟨m', h1, h2⟩ := ih (fun q hq => hl q (by simp [hq])) (max?_append ha (hl q (by simp)))
    exact ⟨m', by simpa [FNum.max2] using h1, by simpa using h2⟩

theorem foldl_min2 {cols : Nat → List ℝ} {mx : Nat → ℝ} (l : List Nat) (hl : ∀ q ∈ l, (cols q).min? = some (mx q))
    {acc : List ℝ} {m : ℝ} (ha : acc.min? = some m) :
    ∃ m', (l.map fun q => FNum.fin (mx q)).foldl FNum.min2 (.fin m) = .fin m' ∧ (acc ++ l.flatMap cols).min? = some m' := by
  induction l generalizing acc m with
  | nil => exact ⟨m, rfl, by simpa using ha⟩
  | cons q l ih =>
    obtain ⟨m', h1, h2⟩ := ih (fun q hq => hl q (by simp [hq])) (min?_append ha (hl q (by simp)))
    exact ⟨m', by simpa [FNum.min2] using h1, by simpa using h2⟩

theorem countP_flatMap_fin (p : K → Bool) (cols : Nat → List K) (l : List Nat) :
    (l.map fun q => FNum.fin ((cols q).countP p : ℕ)).sum = FNum.fin ((l.flatMap cols).countP p : ℕ) := by
  induction l with
  | nil => simp [FNum.zero_def]
  | cons q l ih => simp [ih]

theorem sum_flatMap_map (F : K → FNum) (cols : Nat → List K) (l : List Nat) :
    (l.map fun q => ((cols q).map F).sum).sum = ((l.flatMap cols).map F).sum := by
  induction l with
  | nil => simp
  | cons q l ih => simp [ih]

theorem root_two (l : List ℝ) (h : ∀ x ∈ l, 0 ≤ x) :
    FNum.root 2 (l.map fun t => powAbs 2 t).sum = .fin (Real.sqrt (l.map fun t => t ^ 2).sum) := by
  have e : (fun t => powAbs 2 t) = fun t : ℝ => FNum.fin (t ^ 2) := by
    funext t
    by_cases h0 : t = 0
    · simp [powAbs, h0]
    · simp [powAbs, h0]
  rw [e]
  have e2 : (l.map fun t : ℝ => FNum.fin (t ^ 2)) = (l.map fun t => t ^ 2).map FNum.fin := by
    rw [List.map_map]; rfl
  rw [e2, FNum.sum_fin]
  by_cases h0 : (l.map fun t => t ^ 2).sum = 0
  · simp [FNum.root, h0]
  · simp [FNum.root, h0, Real.sqrt_eq_rpow]

/-- `_compute_vector_norm` when the entries to be reduced into position `j` by rank `q` are `cols q j` -/
theorem runs_vectorNorm {dt : DType} {larr : Nat → NDArray K} {axis : Nat} {sh : List Nat} {N : Nat}
    {cols : Nat → Nat → List K} {o : NormOrd}
    (hdt : ∀ q < n, (larr q).dtype = dt)
    (hred : ∀ q < n, ∀ {γ : Type} (f : List K → Except Err γ) (g : List K → γ),
      (∀ j < N, f (cols q j) = .ok (g (cols q j))) →
      reduceAxis f axis (larr q) = .ok ⟨sh, .real, (List.range N).map fun j => g (cols q j)⟩)
    (hok : ∀ q < n, ∀ j < N, ∀ x ∈ cols q j, OrdOk o dt x ∧ (dt = .real → star x = x))
    (hne : o.extremal → ∀ q < n, ∀ j < N, cols q j ≠ [])
    (hfro : o ≠ .fro ∧ o ≠ .nuc) :
    Runs n (fun r => computeVectorNorm (L.members n r) (larr r) axis o)
      (fun r => .ok ⟨sh, .real, (List.range N).map fun j => vecNorm o ((L.members n r).flatMap fun q => cols q j)⟩) := by
  have hpow : ∀ p : ℝ, p ≠ 0 → (∀ q < n, ∀ j < N, ∀ x ∈ cols q j, OrdOk (.num p) dt x ∧ (dt = .real → star x = x)) →
      Runs n (fun r => (Prog.lift (reduceAxis (fun l => .ok (l.map (absFloatPower (larr r).dtype p)).sum) axis (larr r))).bind
        fun b => (allreduce (L.members n r) (combine (· + ·)) (RArr.mk b)).bind fun s => (.ret (s.val.map (FNum.root p)) : P K (NDArray FNum)))
      (fun r => .ok ⟨sh, .real, (List.range N).map fun j => FNum.root p
        ((((L.members n r).flatMap fun q => cols q j).map fun x => powAbs p ‖x‖).sum)⟩) := by
    intro p hp hok
    refine Runs.congr (ps := fun r => (allreduce (L.members n r) (combine (· + ·)) (RArr.mk ⟨sh, .real, (List.range N).map
      fun j => ((cols r j).map fun x => powAbs p ‖x‖).sum⟩)).bind fun s => .ret (s.val.map (FNum.root p)))
      (runs_reduceBuf (· + ·) (w := fun r j => (((L.members n r).flatMap fun q => cols q j).map fun x => powAbs p ‖x‖).sum)
        (fun r hr q l h j hj => ?_) (Runs.congr (Runs.ret _) (fun _ _ => rfl) (fun r hr => ?_))) (fun r hr => ?_) (fun _ _ => rfl)
    · rw [foldl_add_sum, h, ← sum_flatMap_map, List.map_cons, List.sum_cons]
    · simp only [NDArray.map, List.map_map]; rfl
    · have e : reduceAxis (fun l => (.ok (l.map (absFloatPower (larr r).dtype p)).sum : Except Err FNum)) axis (larr r)
          = .ok ⟨sh, .real, (List.range N).map fun j => ((cols r j).map (absFloatPower (larr r).dtype p)).sum⟩ :=
        hred r hr _ (fun l => (l.map (absFloatPower (larr r).dtype p)).sum) (fun _ _ => rfl)
      rw [e, Prog.lift_ok, Prog.ret_bind]
      congr 4
      apply List.map_congr_left
      intro j hj
      congr 1
      apply List.map_congr_left
      intro x hx
      have := hok r hr j (by simpa using hj) x hx
      rw [hdt r hr]
      exact (absFloatPower_eq hp this.1 this.2).symm
  have hmem : ∀ r < n, ∀ q ∈ L.members n r, q < n := fun r hr q hq => mem_members hr hq
  unfold computeVectorNorm
  cases o with
  | fro => exact absurd rfl hfro.1
  | nuc => exact absurd rfl hfro.2
  | none =>
    simp only [Prog.bind_eq]
    rw [show (fun r => (if (2 : ℝ) = 0 then (Prog.lift (reduceAxis (fun l => .ok (countNonzero l)) axis (larr r))).bind fun b =>
        (allreduce (L.members n r) (combine (· + ·)) (RArr.mk b)).bind fun s => .ret s.val
      else (Prog.lift (reduceAxis (fun l => .ok (l.map (absFloatPower (larr r).dtype 2)).sum) axis (larr r))).bind fun b =>
        (allreduce (L.members n r) (combine (· + ·)) (RArr.mk b)).bind fun s => .ret (s.val.map (FNum.root 2)) : P K (NDArray FNum)))
      = fun r => (Prog.lift (reduceAxis (fun l => .ok (l.map (absFloatPower (larr r).dtype 2)).sum) axis (larr r))).bind fun b =>
        (allreduce (L.members n r) (combine (· + ·)) (RArr.mk b)).bind fun s => .ret (s.val.map (FNum.root 2)) from by
        funext r; rw [if_neg two_ne_zero]]
    refine (hpow 2 two_ne_zero fun q hq j hj x hx => ⟨?_, (hok q hq j hj x hx).2⟩).congr (fun _ _ => rfl) fun r hr => ?_
    · exact .inr ⟨fun _ => .inl ⟨2, by norm_num⟩, fun _ => .inl (by norm_num)⟩
    · congr 2
      apply List.map_congr_left
      intro j _
      have := root_two (((L.members n r).flatMap fun q => cols q j).map fun x => ‖x‖) (by
        intro x hx; obtain ⟨y, _, rfl⟩ := List.mem_map.1 hx; exact norm_nonneg _)
      rw [List.map_map, List.map_map] at this
      exact this
  | num p =>
    simp only [Prog.bind_eq]
    by_cases hp : p = 0
    · simp only [if_pos hp, vecNorm]
      refine Runs.congr (ps := fun r => (allreduce (L.members n r) (combine (· + ·)) (RArr.mk ⟨sh, .real, (List.range N).map
        fun j => countNonzero (cols r j)⟩)).bind fun s => .ret s.val)
        (runs_reduceBuf (· + ·) (w := fun r j => countNonzero ((L.members n r).flatMap fun q => cols q j))
          (fun r hr q l h j hj => ?_) (Runs.ret _)) (fun r hr => ?_) (fun _ _ => rfl)
      · rw [foldl_add_sum, h]
        simp only [countNonzero]
        have := countP_flatMap_fin (fun x => decide (x ≠ 0)) (fun q => cols q j) (q :: l)
        rw [List.map_cons, List.sum_cons] at this
        exact this
      · rw [hred r hr _ countNonzero (fun _ _ => rfl)]; rfl
    · simp only [if_neg hp, vecNorm]
      exact hpow p hp hok
  | inf =>
    simp only [Prog.bind_eq, vecNorm]
    have hmx : ∀ q < n, ∀ j < N, ∃ m, ((cols q j).map fun x => ‖x‖).max? = some m := by
      intro q hq j hj
      cases h : ((cols q j).map fun x => ‖x‖).max? with
      | some m => exact ⟨m, rfl⟩
      | none => simp only [List.max?_eq_none_iff, List.map_eq_nil_iff] at h; exact absurd h (hne trivial q hq j hj)
    refine Runs.congr (ps := fun r => (allreduce (L.members n r) (combine FNum.max2) (RArr.mk ⟨sh, .real, (List.range N).map
        fun j => vecNorm .inf (cols r j)⟩)).bind fun s => .ret s.val)
        (runs_reduceBuf FNum.max2 (w := fun r j => vecNorm .inf ((L.members n r).flatMap fun q => cols q j))
          (fun r hr q l h j hj => ?_) (Runs.ret _)) (fun r hr => ?_) (fun _ _ => rfl)
    · have hml := hmem r hr
      rw [h] at hml ⊢
      obtain ⟨m, hm⟩ := hmx q (hml q (by simp)) j hj
      choose! mx hmx' using fun q (hq : q < n) => hmx q hq j hj
      obtain ⟨m', h1, h2⟩ := foldl_max2 (cols := fun q => (cols q j).map fun x => ‖x‖) (mx := mx) l
        (fun q hq => hmx' q (hml q (by simp [hq]))) hm
      have e1 : vecNorm .inf (cols q j) = .fin m := by simp only [vecNorm, hm]
      have e2 : (l.map fun q => vecNorm .inf (cols q j)) = l.map fun q => FNum.fin (mx q) := by
        apply List.map_congr_left
        intro q hq
        simp only [vecNorm, hmx' q (hml q (by simp [hq]))]
      rw [e1, e2, h1]
      have e3 : (((q :: l).flatMap fun q => cols q j).map fun x => ‖x‖)
          = (cols q j).map (fun x => ‖x‖) ++ l.flatMap (fun q => (cols q j).map fun x => ‖x‖) := by
        rw [List.flatMap_cons, List.map_append, List.map_flatMap]
      simp only [vecNorm, e3, h2]
    · rw [hred r hr maxAbs (vecNorm .inf) (fun j hj => by
        obtain ⟨m, hm⟩ := hmx r hr j hj
        simp only [maxAbs, vecNorm, hm])]
      rfl
  | ninf =>
    simp only [Prog.bind_eq, vecNorm]
    have hmx : ∀ q < n, ∀ j < N, ∃ m, ((cols q j).map fun x => ‖x‖).min? = some m := by
      intro q hq j hj
      cases h : ((cols q j).map fun x => ‖x‖).min? with
      | some m => exact ⟨m, rfl⟩
      | none => simp only [List.min?_eq_none_iff, List.map_eq_nil_iff] at h; exact absurd h (hne trivial q hq j hj)
    refine Runs.congr (ps := fun r => (allreduce (L.members n r) (combine FNum.min2) (RArr.mk ⟨sh, .real, (List.range N).map
        fun j => vecNorm .ninf (cols r j)⟩)).bind fun s => .ret s.val)
        (runs_reduceBuf FNum.min2 (w := fun r j => vecNorm .ninf ((L.members n r).flatMap fun q => cols q j))
          (fun r hr q l h j hj => ?_) (Runs.ret _)) (fun r hr => ?_) (fun _ _ => rfl)
    · have hml := hmem r hr
      rw [h] at hml ⊢
      obtain ⟨m, hm⟩ := hmx q (hml q (by simp)) j hj
      choose! mx hmx' using fun q (hq : q < n) => hmx q hq j hj
      obtain ⟨m', h1, h2⟩ := foldl_min2 (cols := fun q => (cols q j).map fun x => ‖x‖) (mx := mx) l
        (fun q hq => hmx' q (hml q (by simp [hq]))) hm
      have e1 : vecNorm .ninf (cols q j) = .fin m := by simp only [vecNorm, hm]
      have e2 : (l.map fun q => vecNorm .ninf (cols q j)) = l.map fun q => FNum.fin (mx q) := by
        apply List.map_congr_left
        intro q hq
        simp only [vecNorm, hmx' q (hml q (by simp [hq]))]
      rw [e1, e2, h1]
      have e3 : (((q :: l).flatMap fun q => cols q j).map fun x => ‖x‖)
          = (cols q j).map (fun x => ‖x‖) ++ l.flatMap (fun q => (cols q j).map fun x => ‖x‖) := by
        rw [List.flatMap_cons, List.map_append, List.map_flatMap]
      simp only [vecNorm, e3, h2]
    · rw [hred r hr minAbs (vecNorm .ninf) (fun j hj => by
        obtain ⟨m, hm⟩ := hmx r hr j hj
        simp only [minAbs, vecNorm, hm])]
      rfl

end
end Verif

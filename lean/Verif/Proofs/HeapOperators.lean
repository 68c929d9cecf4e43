/- The operators on the memory implement the operators on values. -/
import Verif.Model.HeapOperators
import Verif.Proofs.HeapRefine

set_option linter.unusedSectionVars false

namespace Verif
open NDArray

variable {K : Type} [Field K] [StarRing K] {h : Heap K} {c : Ctx K} {x : Nat} {d : DArr K} {ι : Type} {hp : ι → HPrim K} {pr : ι → Prim K}

/-- the leaf on the memory implements the leaf on values: it changes nothing and returns a new array -/
structure HPrim.Is (c : Ctx K) (q : HPrim K) (p : Prim K) : Prop where
  shape : q.shape = p.shape
  mv : ∀ (h : Heap K) (x : Nat) (d : DArr K), h.WF → h.get? x = some d → Impl h (q.mv c x) (p.mv c d) [] (Gives h)
  rmv : ∀ (h : Heap K) (x : Nat) (d : DArr K), h.WF → h.get? x = some d → Impl h (q.rmv c x) (p.rmv c d) [] (Gives h)

theorem lift_alloc_impl (hw : h.WF) (p : P K (DArr K)) : Impl h (do let y ← HP.lift p; HP.alloc y) p [] (Gives h) :=
  Impl.of_bind_ret (Impl.lift_bind hw fun y => (Impl.alloc (W := []) hw y).mono (fun _ h => h) fun z h' w _ _ hz => by
    obtain ⟨rfl, rfl, rfl⟩ := hz
    exact ⟨le_refl _, Heap.alloc_get _⟩)

theorem Prim.heap_is (p : Prim K) : HPrim.Is c p.heap p where
  shape := rfl
  mv _ _ _ hw hx := Impl.read_bind hx (lift_alloc_impl hw _)
  rmv _ _ _ hw hx := Impl.read_bind hx (lift_alloc_impl hw _)

theorem HArr.scaleInPlace_impl (hw : h.WF) (hx : h.get? x = some d) (s : Scal K) :
    Impl h (HArr.scaleInPlace c x s) (d.scaleInPlace c s) [x] (fun _ h' d' => h'.get? x = some d') := by
  unfold HArr.scaleInPlace DArr.scaleInPlace
  refine Impl.read_bind hx ?_
  split_ifs
  · exact Impl.throw hw
  · have := Impl.bind (W' := [x]) (k := fun _ => HArr.setAll c x ⟨d.larr.shape, d.larr.dtype, d.larr.data.map (· * s.val)⟩) (k' := fun _ => DArr.setAll c _ _) (fun _ => [x])
      (Impl.write (K := K) hw x ⟨d.larr.shape, d.larr.dtype, d.larr.data.map (· * s.val)⟩) (fun _ h => h) fun _ h' _ hw' hf' e => ⟨fun _ h => .inl h, by
        subst e
        exact HArr.setAll_impl (c := c) hw' (Heap.write_get hx _) ⟨d.larr.shape, d.larr.dtype, d.larr.data.map (· * s.val)⟩⟩
    exact this

theorem HArr.checkDim_impl {sh : Nat × Nat} {b : Bool} {k : HP K Nat} {p : P K (DArr K)} {W : List Nat} {V : Nat → Heap K → DArr K → Prop} (hw : h.WF) (hx : h.get? x = some d)
    (hk : Impl h k p W V) : Impl h (HArr.checkDim sh b x k) (Verif.checkDim sh b d p) W V := by
  unfold HArr.checkDim Verif.checkDim
  refine Impl.read_bind hx ?_
  by_cases h1 : d.gshape ≠ [if b then sh.1 else sh.2]
  · rw [if_pos h1, if_pos h1]; exact Impl.throw hw
  · rw [if_neg h1, if_neg h1]; exact hk

theorem HArr.powLoop_impl {f : Nat → HP K Nat} {g : DArr K → P K (DArr K)} (hf : ∀ (h : Heap K) (x : Nat) (d : DArr K), h.WF → h.get? x = some d → Impl h (f x) (g d) [] (Gives h))
    (p : Nat) (hw : h.WF) (hx : h.get? x = some d) : Impl h (HArr.powLoop c f p x) (Verif.powLoop c g p d) [x] (fun y h' e => y = x ∧ h'.get? x = some e) := by
  induction p generalizing h d with
  | zero => exact Impl.ret hw ⟨rfl, hx⟩
  | succ p ih =>
    unfold HArr.powLoop Verif.powLoop
    simp only [Prog.bind_eq]
    refine Impl.bind_nil (hf h x d hw hx) fun z h1 e hw1 hf1 hz => ?_
    refine Impl.read_bind hz.2 ?_
    exact Impl.bind (fun _ => [x]) (HArr.setAll_impl hw1 (hf1.get hw (by simp) hx) _) (fun _ h => h) fun _ h2 d2 hw2 hf2 e2 => ⟨fun _ h => .inl h, ih hw2 e2⟩

theorem MOp.hshape (hs : ∀ i, (hp i).shape = (pr i).shape) (e : MOp K ι) : (e.map hp).shape HPrim.shape = (e.map pr).shape Prim.shape := by
  induction e with
  | leaf i => exact hs i
  | adj A ih => simp only [MOp.map, MOp.shape, ih]
  | trans A ih => simp only [MOp.map, MOp.shape, ih]
  | prod A B ih ih' => simp only [MOp.map, MOp.shape, ih, ih']
  | scaled A s ih => simp only [MOp.map, MOp.shape, ih]
  | sum A B ih ih' => simp only [MOp.map, MOp.shape, ih]
  | pow A p ih => simp only [MOp.map, MOp.shape, ih]
  | conj A ih => simp only [MOp.map, MOp.shape, ih]

theorem Gives.trans {h h1 h2 : Heap K} {W : List Nat} (hf : Frame W h h1) (hg : Gives h1 x h2 d) : Gives h x h2 d := ⟨hf.objs_len.trans hg.1, hg.2⟩

theorem Impl.trans_gives {h h1 h2 : Heap K} {m : HP K Nat} {p : P K (DArr K)} {W W' : List Nat} (hf : Frame W h h2) (hm : Impl h1 m p W' (Gives h2)) : Impl h1 m p W' (Gives h) :=
  hm.mono (fun _ h => h) fun _ _ _ _ _ hz => hz.trans hf

/-- `matvec` and `rmatvec` on the memory compute the values of `MOp.run`, change nothing, and return a new array. -/
theorem MOp.hrun_impl (hi : ∀ i, HPrim.Is c (hp i) (pr i)) (e : MOp K ι) (b : Bool) (hw : h.WF) (hx : h.get? x = some d) :
    Impl h (MOp.hrun c b (e.map hp) x) (MOp.run c b (e.map pr) d) [] (Gives h) := by
  have hs := MOp.hshape fun i => (hi i).shape
  induction e generalizing h x d b with
  | leaf i =>
    show Impl h (HArr.checkDim (hp i).shape b x _) (checkDim (pr i).shape b d _) [] _
    rw [(hi i).shape]
    refine HArr.checkDim_impl hw hx ?_
    cases b
    · exact (hi i).mv h x d hw hx
    · exact (hi i).rmv h x d hw hx
  | adj A ih =>
    have e := hs (adj A)
    simp only [MOp.map, MOp.hrun, MOp.run] at e ⊢
    rw [e]
    exact HArr.checkDim_impl hw hx (ih _ hw hx)
  | trans A ih =>
    have e := hs (trans A)
    simp only [MOp.map, MOp.hrun, MOp.run] at e ⊢
    rw [e]
    refine HArr.checkDim_impl hw hx ?_
    simp only [Prog.bind_eq]
    refine Impl.bind_nil (HArr.conj_impl hw hx) fun z h1 w hw1 hf1 hz => ?_
    refine Impl.bind_nil (ih _ hw1 hz.2) fun y h2 v hw2 hf2 hy => ?_
    exact ((HArr.conj_impl hw2 hy.2).trans_gives hf2).trans_gives hf1
  | prod A B ih ih' =>
    have e := hs (prod A B)
    cases b
    all_goals
      simp only [MOp.map, MOp.hrun, MOp.run] at e ⊢
      rw [e]
      refine HArr.checkDim_impl hw hx ?_
      simp only [Prog.bind_eq]
    · refine Impl.bind_nil (ih' _ hw hx) fun z h1 w hw1 hf1 hz => ?_
      exact (ih _ hw1 hz.2).trans_gives hf1
    · refine Impl.bind_nil (ih _ hw hx) fun z h1 w hw1 hf1 hz => ?_
      exact (ih' _ hw1 hz.2).trans_gives hf1
  | scaled A s ih =>
    have e := hs (scaled A s)
    simp only [MOp.map, MOp.hrun, MOp.run] at e ⊢
    rw [e]
    refine HArr.checkDim_impl hw hx ?_
    simp only [Prog.bind_eq]
    refine Impl.bind (fun y => [y]) (ih b hw hx) (fun _ h => h) fun y h1 v hw1 hf1 hy => ⟨fun i hi => .inr (by simp at hi; subst hi; exact hy.1), ?_⟩
    exact Impl.of_bind_ret (Impl.bind (fun _ => []) (HArr.scaleInPlace_impl hw1 hy.2 _) (fun _ h => h) fun _ h2 v2 hw2 hf2 hv => ⟨by simp, Impl.ret hw2 ⟨hy.1, hv⟩⟩)
  | sum A B ih ih' =>
    have e := hs (sum A B)
    simp only [MOp.map, MOp.hrun, MOp.run] at e ⊢
    rw [e]
    refine HArr.checkDim_impl hw hx ?_
    simp only [Prog.bind_eq]
    refine Impl.bind_nil (ih b hw hx) fun y h1 v hw1 hf1 hy => ?_
    refine Impl.bind_nil (ih' b hw1 (hf1.get hw (by simp) hx)) fun z h2 w hw2 hf2 hz => ?_
    exact ((HArr.add_impl hw2 (hf2.get hw1 (by simp) hy.2) hz.2).trans_gives hf2).trans_gives hf1
  | pow A p ih =>
    have e := hs (pow A p)
    simp only [MOp.map, MOp.hrun, MOp.run] at e ⊢
    rw [e]
    refine HArr.checkDim_impl hw hx ?_
    simp only [Prog.bind_eq]
    refine Impl.bind (fun y => [y]) (HArr.copy_impl hw hx) (fun _ h => h) fun y h1 v hw1 hf1 hy => ⟨fun i hi => .inr (by simp at hi; subst hi; exact hy.1), ?_⟩
    exact (HArr.powLoop_impl (fun h x d hw hx => ih b hw hx) p hw1 hy.2).mono (fun _ h => h) fun z h2 w _ _ hz => ⟨by rw [hz.1]; exact hy.1, by rw [hz.1]; exact hz.2⟩
  | conj A ih =>
    have e := hs (conj A)
    simp only [MOp.map, MOp.hrun, MOp.run] at e ⊢
    rw [e]
    refine HArr.checkDim_impl hw hx ?_
    simp only [Prog.bind_eq]
    refine Impl.bind_nil (HArr.conj_impl hw hx) fun z h1 w hw1 hf1 hz => ?_
    refine Impl.bind_nil (ih _ hw1 hz.2) fun y h2 v hw2 hf2 hy => ?_
    exact ((HArr.conj_impl hw2 hy.2).trans_gives hf2).trans_gives hf1

/-! ### Stacked operators -/

variable {a : XRef} {u : XArr K}

theorem Impl.trans_givesX {h h1 h2 : Heap K} {m : HP K XRef} {p : P K (XArr K)} {W W' : List Nat} (hf : Frame W h h2) (hm : Impl h1 m p W' (GivesX h2)) : Impl h1 m p W' (GivesX h) :=
  hm.mono (fun _ h => h) fun _ _ _ _ _ hz => ⟨fun i hi => hf.objs_len.trans (hz.1 i hi), hz.2⟩

theorem SOp.vshape_map {sh : ι → Nat × Nat} {κ : Type} {f : κ → ι} (ops : List (MOp K κ)) : SOp.vshape sh (ops.map (MOp.map f)) =
    ((ops.map fun o => ((o.map f).shape sh).1).sum, (ops.map fun o => ((o.map f).shape sh).2).headD 0) := by
  unfold SOp.vshape
  simp only [List.map_map]
  rfl

theorem SOp.hshape (hs : ∀ i, (hp i).shape = (pr i).shape) (e : SOp K ι) : (e.map hp).shape HPrim.shape = (e.map pr).shape Prim.shape := by
  have hm := MOp.hshape hs
  induction e with
  | vstack ops => simp only [SOp.map, SOp.shape, SOp.vshape_map, hm]
  | grad ops => simp only [SOp.map, SOp.shape, SOp.vshape_map, hm]
  | bdiag ops => simp only [SOp.map, SOp.shape, List.map_map, Function.comp_def, hm]
  | adj A ih => simp only [SOp.map, SOp.shape, ih]
  | trans A ih => simp only [SOp.map, SOp.shape, ih]
  | prod A B ih ih' => simp only [SOp.map, SOp.shape, ih, ih']
  | scaled A s ih => simp only [SOp.map, SOp.shape, ih]
  | sum A B ih ih' => simp only [SOp.map, SOp.shape, ih]
  | pow A p ih => simp only [SOp.map, SOp.shape, ih]
  | conj A ih => simp only [SOp.map, SOp.shape, ih]

theorem SOp.hcheckDim_impl {sh : Nat × Nat} {b : Bool} {k : HP K XRef} {p : P K (XArr K)} {W : List Nat} {V : XRef → Heap K → XArr K → Prop} (hw : h.WF) (ha : HasX h a u)
    (hk : Impl h k p W V) : Impl h (SOp.hcheckDim sh b a k) (SOp.checkDim sh b u p) W V := by
  unfold SOp.hcheckDim SOp.checkDim
  refine HX.read_bind hw ha ?_
  cases u with
  | one d =>
    dsimp only
    by_cases h1 : d.gshape ≠ [if b then sh.1 else sh.2]
    · rw [if_pos h1, if_pos h1]; exact Impl.throw hw
    · rw [if_neg h1, if_neg h1]; exact hk
  | stack l =>
    dsimp only
    by_cases h1 : (l.any fun d => decide (d.gshape.length ≠ ((l.map fun e => e.gshape.length).headD 0))) = true
    · rw [if_pos h1, if_pos h1]; exact Impl.throw hw
    · rw [if_neg h1, if_neg h1]
      by_cases h2 : (l.map fun d => d.gshape.sum).sum ≠ (if b then sh.1 else sh.2)
      · rw [if_pos h2, if_pos h2]; exact Impl.throw hw
      · rw [if_neg h2, if_neg h2]; exact hk

theorem SOp.hvsMv_impl (hi : ∀ i, HPrim.Is c (hp i) (pr i)) (ops : List (MOp K ι)) (hw : h.WF) (ha : HasX h a u) :
    Impl h (SOp.hvsMv c (ops.map (MOp.map hp)) a) (SOp.vsMv c (ops.map (MOp.map pr)) u) [] (GivesX h) := by
  cases a <;> cases u <;> first | exact ha.elim | skip
  · rename_i x d
    refine impl_stack (forList_impl (R := fun h o o' => h.get? x = some d ∧ ∃ e : MOp K ι, o = e.map hp ∧ o' = e.map pr) hw ?_ ?_ ?_)
    · rw [List.forall₂_map_left_iff, List.forall₂_map_right_iff]
      exact List.forall₂_same.2 fun e _ => ⟨ha, e, rfl, rfl⟩
    · rintro h1 h2 o o' hw1 hf ⟨hx, he⟩
      exact ⟨hf.get hw1 (by simp) hx, he⟩
    · rintro h' o o' hw' ⟨hx, e, rfl, rfl⟩
      exact MOp.hrun_impl hi e false hw' hx
  · exact Impl.throw hw

theorem SOp.zip_rel {l : List Nat} {v : SArr K} (hl : Vals h l v) (ops : List (MOp K ι)) :
    List.Forall₂ (fun (p : Nat × MOp K (HPrim K)) (q : DArr K × MOp K (Prim K)) => h.get? p.1 = some q.1 ∧ ∃ e : MOp K ι, p.2 = e.map hp ∧ q.2 = e.map pr)
      (l.zip (ops.map (MOp.map hp))) (v.zip (ops.map (MOp.map pr))) := by
  induction hl generalizing ops with
  | nil => simp
  | cons h1 _ ih =>
    cases ops with
    | nil => simp
    | cons o os => exact .cons ⟨h1, o, rfl, rfl⟩ (ih os)

theorem SOp.hbdMv_impl (hi : ∀ i, HPrim.Is c (hp i) (pr i)) (ops : List (MOp K ι)) (b : Bool) (hw : h.WF) (ha : HasX h a u) :
    Impl h (SOp.hbdMv c b (ops.map (MOp.map hp)) a) (SOp.bdMv c b (ops.map (MOp.map pr)) u) [] (GivesX h) := by
  cases a <;> cases u <;> first | exact ha.elim | skip
  · exact Impl.throw hw
  · rename_i l v
    refine impl_stack (forList_impl (R := fun h p q => h.get? p.1 = some q.1 ∧ ∃ e : MOp K ι, p.2 = e.map hp ∧ q.2 = e.map pr) hw (SOp.zip_rel ha ops) ?_ ?_)
    · rintro h1 h2 o o' hw1 hf ⟨hx, he⟩
      exact ⟨hf.get hw1 (by simp) hx, he⟩
    · rintro h' ⟨x, o⟩ ⟨d, o'⟩ hw' ⟨hx, e, he, he'⟩
      dsimp only at hx he he' ⊢
      rw [he, he']
      exact MOp.hrun_impl hi e b hw' hx

theorem SOp.hvsLoop_impl (hi : ∀ i, HPrim.Is c (hp i) (pr i)) (l : List Nat) {v : SArr K} (hl : Vals h l v) (ops : List (MOp K ι)) (hw : h.WF) {h₀ : Heap K} (hx : Gives h₀ x h d)
    (h0 : h₀.objs.length ≤ h.objs.length) :
    Impl h (SOp.hvsLoop c x (l.zip (ops.map (MOp.map hp)))) (SOp.vsLoop c d (v.zip (ops.map (MOp.map pr)))) [] (Gives h₀) := by
  induction l generalizing h v ops x d with
  | nil => cases hl; exact Impl.ret hw hx
  | cons y l ih =>
    cases hl with
    | @cons _ e _ v h1 h2 =>
      cases ops with
      | nil => exact Impl.ret hw hx
      | cons o os =>
        simp only [List.map_cons, List.zip_cons_cons, SOp.hvsLoop, SOp.vsLoop, Prog.bind_eq]
        refine Impl.bind_nil (MOp.hrun_impl hi o true hw h1) fun z h1 w hw1 hf1 hz => ?_
        refine Impl.bind_nil (HArr.add_impl hw1 (hf1.get hw (by simp) hx.2) hz.2) fun y h2' y' hw2 hf2 hy => ?_
        exact ih (hf2.vals hw1 (hf1.vals hw h2 (by simp)) (by simp)) os hw2 ⟨(h0.trans hf1.objs_len).trans hy.1, hy.2⟩ ((h0.trans hf1.objs_len).trans hf2.objs_len)

theorem SOp.hvsRmv_impl (hi : ∀ i, HPrim.Is c (hp i) (pr i)) (ops : List (MOp K ι)) (hw : h.WF) (ha : HasX h a u) :
    Impl h (SOp.hvsRmv c (ops.map (MOp.map hp)) a) (SOp.vsRmv c (ops.map (MOp.map pr)) u) [] (GivesX h) := by
  cases a <;> cases u <;> first | exact ha.elim | skip
  · exact Impl.throw hw
  · rename_i l v
    cases ha with
    | nil => exact Impl.throw hw
    | @cons x d l v h1 h2 =>
      cases ops with
      | nil => exact Impl.throw hw
      | cons o os =>
        simp only [List.map_cons, SOp.hvsRmv, SOp.vsRmv, Prog.bind_eq]
        refine Impl.bind_nil (MOp.hrun_impl hi o true hw h1) fun z h1 w hw1 hf1 hz => ?_
        exact impl_one (SOp.hvsLoop_impl hi l (hf1.vals hw h2 (by simp)) os hw1 hz hf1.objs_len)

theorem SOp.hpowLoop_impl {f : XRef → HP K XRef} {g : XArr K → P K (XArr K)} (hf : ∀ (h : Heap K) (a : XRef) (u : XArr K), h.WF → HasX h a u → Impl h (f a) (g u) [] (GivesX h))
    (p : Nat) (hw : h.WF) (ha : HasX h a u) : Impl h (SOp.hpowLoop c f p a) (SOp.powLoop c g p u) a.refs (fun z h' e => z = a ∧ HasX h' a e) := by
  induction p generalizing h u with
  | zero => exact Impl.ret hw ⟨rfl, ha⟩
  | succ p ih =>
    unfold SOp.hpowLoop SOp.powLoop
    simp only [Prog.bind_eq]
    refine Impl.bind_nil (hf h a u hw ha) fun z h1 e hw1 hf1 hz => ?_
    have ha1 := hf1.hasX hw ha (by simp)
    obtain ⟨-, -, hz⟩ := hz
    cases a <;> cases u <;> first | exact ha.elim | skip
    · rename_i x d
      cases z <;> cases e <;> first | exact hz.elim | skip
      · refine Impl.read_bind hz ?_
        exact Impl.bind (fun _ => [x]) (HArr.setAll_impl hw1 ha1 _) (fun _ h => h) fun _ h2 d2 hw2 hf2 e2 => ⟨fun _ h => .inl h, ih (u := .one d2) hw2 e2⟩
      · exact Impl.throw hw1
    · exact ih hw1 ha1

/-- the stacked operators -/
theorem SOp.hrun_impl (hi : ∀ i, HPrim.Is c (hp i) (pr i)) (e : SOp K ι) (b : Bool) (hw : h.WF) (ha : HasX h a u) :
    Impl h (SOp.hrun c b (e.map hp) a) (SOp.run c b (e.map pr) u) [] (GivesX h) := by
  have hs := SOp.hshape fun i => (hi i).shape
  induction e generalizing h a u b with
  | vstack ops =>
    have e := hs (vstack ops)
    simp only [SOp.map, SOp.hrun, SOp.run] at e ⊢
    rw [e]
    refine SOp.hcheckDim_impl hw ha ?_
    cases b
    · exact SOp.hvsMv_impl hi ops hw ha
    · exact SOp.hvsRmv_impl hi ops hw ha
  | grad ops =>
    have e := hs (grad ops)
    simp only [SOp.map, SOp.hrun, SOp.run] at e ⊢
    rw [e]
    refine SOp.hcheckDim_impl hw ha ?_
    cases b
    · exact SOp.hvsMv_impl hi ops hw ha
    · exact SOp.hvsRmv_impl hi ops hw ha
  | bdiag ops =>
    have e := hs (bdiag ops)
    simp only [SOp.map, SOp.hrun, SOp.run] at e ⊢
    rw [e]
    exact SOp.hcheckDim_impl hw ha (SOp.hbdMv_impl hi ops b hw ha)
  | adj A ih =>
    have e := hs (adj A)
    simp only [SOp.map, SOp.hrun, SOp.run] at e ⊢
    rw [e]
    exact SOp.hcheckDim_impl hw ha (ih _ hw ha)
  | trans A ih =>
    have e := hs (trans A)
    simp only [SOp.map, SOp.hrun, SOp.run] at e ⊢
    rw [e]
    refine SOp.hcheckDim_impl hw ha ?_
    simp only [Prog.bind_eq]
    refine Impl.bind_nil (HX.conj_impl hw ha) fun z h1 w hw1 hf1 hz => ?_
    refine Impl.bind_nil (ih _ hw1 hz.2.2) fun y h2 v hw2 hf2 hy => ?_
    exact ((HX.conj_impl hw2 hy.2.2).trans_givesX hf2).trans_givesX hf1
  | prod A B ih ih' =>
    have e := hs (prod A B)
    cases b
    all_goals
      simp only [SOp.map, SOp.hrun, SOp.run] at e ⊢
      rw [e]
      refine SOp.hcheckDim_impl hw ha ?_
      simp only [Prog.bind_eq]
    · refine Impl.bind_nil (ih' _ hw ha) fun z h1 w hw1 hf1 hz => ?_
      exact (ih _ hw1 hz.2.2).trans_givesX hf1
    · refine Impl.bind_nil (ih _ hw ha) fun z h1 w hw1 hf1 hz => ?_
      exact (ih' _ hw1 hz.2.2).trans_givesX hf1
  | scaled A s ih =>
    have e := hs (scaled A s)
    simp only [SOp.map, SOp.hrun, SOp.run] at e ⊢
    rw [e]
    refine SOp.hcheckDim_impl hw ha ?_
    simp only [Prog.bind_eq]
    refine Impl.bind_nil (ih b hw ha) fun y h1 v hw1 hf1 hy => ?_
    exact (HX.smul_impl hw1 hy.2.2 _ _).trans_givesX hf1
  | sum A B ih ih' =>
    have e := hs (sum A B)
    simp only [SOp.map, SOp.hrun, SOp.run] at e ⊢
    rw [e]
    refine SOp.hcheckDim_impl hw ha ?_
    simp only [Prog.bind_eq]
    refine Impl.bind_nil (ih b hw ha) fun y h1 v hw1 hf1 hy => ?_
    refine Impl.bind_nil (ih' b hw1 (hf1.hasX hw ha (by simp))) fun z h2 w hw2 hf2 hz => ?_
    exact ((HX.add_impl hw2 (hf2.hasX hw1 hy.2.2 (by simp)) hz.2.2).trans_givesX hf2).trans_givesX hf1
  | pow A p ih =>
    have e := hs (pow A p)
    simp only [SOp.map, SOp.hrun, SOp.run] at e ⊢
    rw [e]
    refine SOp.hcheckDim_impl hw ha ?_
    simp only [Prog.bind_eq]
    refine Impl.bind (fun y => y.refs) (HX.copy_impl hw ha) (fun _ h => h) fun y h1 v hw1 hf1 hy => ⟨fun i hi => .inr (hy.1 i hi), ?_⟩
    exact (SOp.hpowLoop_impl (fun h a u hw ha => ih b hw ha) p hw1 hy.2.2).mono (fun _ h => h) fun z h2 w _ _ hz => by
      rw [hz.1]
      exact ⟨hy.1, hy.2.1, hz.2⟩
  | conj A ih =>
    have e := hs (conj A)
    simp only [SOp.map, SOp.hrun, SOp.run] at e ⊢
    rw [e]
    refine SOp.hcheckDim_impl hw ha ?_
    simp only [Prog.bind_eq]
    refine Impl.bind_nil (HX.conj_impl hw ha) fun z h1 w hw1 hf1 hz => ?_
    refine Impl.bind_nil (ih _ hw1 hz.2.2) fun y h2 v hw2 hf2 hy => ?_
    exact ((HX.conj_impl hw2 hy.2.2).trans_givesX hf2).trans_givesX hf1

/-! ### As operators of solvers -/

theorem MOp.toHX_mv (hi : ∀ i, HPrim.Is c (hp i) (pr i)) (e : MOp K ι) : Implements c ((e.map hp).toHX.mv c) ((e.map pr).toX.mv c) := fun h a u hw ha => by
  cases a <;> cases u <;> first | exact ha.elim | skip
  · exact impl_one (MOp.hrun_impl hi e false hw ha)
  · exact Impl.throw hw

theorem MOp.toHX_rmv (hi : ∀ i, HPrim.Is c (hp i) (pr i)) (e : MOp K ι) : Implements c ((e.map hp).toHX.rmv c) ((e.map pr).toX.rmv c) := fun h a u hw ha => by
  cases a <;> cases u <;> first | exact ha.elim | skip
  · exact impl_one (MOp.hrun_impl hi e true hw ha)
  · exact Impl.throw hw

theorem SOp.toHX_mv (hi : ∀ i, HPrim.Is c (hp i) (pr i)) (e : SOp K ι) : Implements c ((e.map hp).toHX.mv c) ((e.map pr).toX.mv c) := fun _ _ _ hw ha => SOp.hrun_impl hi e false hw ha
theorem SOp.toHX_rmv (hi : ∀ i, HPrim.Is c (hp i) (pr i)) (e : SOp K ι) : Implements c ((e.map hp).toHX.rmv c) ((e.map pr).toX.rmv c) := fun _ _ _ hw ha => SOp.hrun_impl hi e true hw ha

end Verif

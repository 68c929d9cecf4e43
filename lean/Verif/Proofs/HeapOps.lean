/- The methods of DistributedArray on the memory implement those on values. -/
import Verif.Proofs.Heap

set_option linter.unusedSectionVars false

namespace Verif
open NDArray

variable {K : Type} [Field K] [StarRing K] {h : Heap K} {c : Ctx K} {x y : Nat} {d e : DArr K}

theorem setItem_post (d : DArr K) (ix : Index) (v : NDArray K) : (d.setItem c ix v).Post fun o => ∀ d', o = .ok d' → d' = { d with larr := d'.larr } := by
  have key : ∀ v', (((Prog.lift (setIndex ix d.larr v')).bind fun a => Prog.ret { d with larr := a } : P K (DArr K))).Post fun o => ∀ d', o = .ok d' → d' = { d with larr := d'.larr } := fun v' => by
    cases setIndex ix d.larr v' with
    | ok a => intro d' hd'; cases hd'; rfl
    | error e => intro d' hd'; cases hd'
  unfold DArr.setItem
  split_ifs
  · simp only [Prog.bind_eq]
    refine Prog.Post.bind (Q := fun _ => True) ?_ (fun a _ => key a) fun e _ d' hd' => by cases hd'
    exact Prog.Post.trivial _ fun _ => trivial
  · exact key v

theorem HArr.setItem_impl (hw : h.WF) (hx : h.get? x = some d) (ix : Index) (v : NDArray K) :
    Impl h (HArr.setItem c x ix v) (d.setItem c ix v) [x] (fun _ h' d' => h'.get? x = some d') := by
  unfold HArr.setItem
  refine Impl.read_bind hx ?_
  refine Impl.of_bind_ret ?_
  refine Impl.bind_nil (Impl.lift_post hw (setItem_post d ix v)) fun d1 h' d2 _ _ hv => ?_
  obtain ⟨rfl, rfl, hq⟩ := hv
  show HRel _ _ (HP.write x d1.larr h') (.ret d1)
  refine HRel.ret (show _ ∧ _ ∧ _ from ⟨h'.write_wf hw x _, h'.write_frame x _, ?_⟩)
  show (h'.write x d1.larr).get? x = some d1
  rw [Heap.write_get hx, ← hq d1 rfl]

theorem HArr.setAll_impl (hw : h.WF) (hx : h.get? x = some d) (v : NDArray K) :
    Impl h (HArr.setAll c x v) (d.setAll c v) [x] (fun _ h' d' => h'.get? x = some d') := HArr.setItem_impl hw hx _ v

theorem HArr.new_impl (hw : h.WF) {gs : List Nat} {p : Partition} {ax : Nat} {ls : Option (List (List Nat))} {mk : Option (List Nat)} {dt : DType} :
    Impl h (HArr.new c gs p ax ls mk dt) (mkDArr c gs p ax ls mk dt) [] (Gives h) := by
  unfold HArr.new
  refine Impl.of_bind_ret ?_
  refine Impl.lift_bind hw fun d => ?_
  refine (Impl.alloc (W := []) hw d).mono (by simp) fun a h' b _ _ hv => ?_
  obtain ⟨rfl, rfl, rfl⟩ := hv
  exact ⟨le_refl _, h.alloc_get _⟩

theorem HArr.likeMask_impl (hw : h.WF) (hx : h.get? x = some d) (mk : Option (List Nat)) : Impl h (HArr.likeMask c x mk) (d.likeMask c mk) [] (Gives h) := by
  unfold HArr.likeMask DArr.likeMask
  refine Impl.read_bind hx ?_
  simp only [Prog.bind_eq]
  exact Impl.lift_bind hw fun ls => HArr.new_impl hw

theorem HArr.like_impl (hw : h.WF) (hx : h.get? x = some d) : Impl h (HArr.like c x) (d.like c) [] (Gives h) := by
  unfold HArr.like
  exact Impl.read_bind hx (HArr.likeMask_impl hw hx _)

/-- filling a new object and returning it -/
theorem HArr.fill_impl {h₀ : Heap K} (hw : h.WF) {r : Nat} (hr : Gives h₀ r h d) (v : NDArray K) :
    Impl h (do HArr.setAll c r v; HP.ret r) (d.setAll c v) [r] (Gives h₀) := by
  refine Impl.of_bind_ret ?_
  refine Impl.bind (fun _ => []) (HArr.setAll_impl hw hr.2 v) (by simp) fun _ h' d' hw' _ hv => ⟨by simp, Impl.ret hw' ⟨hr.1, hv⟩⟩

/-- the methods that compute a new array from one -/
theorem HArr.map_impl (hw : h.WF) (hx : h.get? x = some d) (f : DArr K → NDArray K) :
    Impl h (do
      let r ← HArr.like c x
      let d ← HP.read x
      HArr.setAll c r (f d)
      HP.ret r) ((d.like c).bind fun r => r.setAll c (f d)) [] (Gives h) := by
  refine Impl.bind (fun r => [r]) (HArr.like_impl hw hx) (by simp) fun r h1 d1 hw1 hf1 hv1 => ⟨fun z hz => .inr (List.mem_singleton.1 hz ▸ hv1.1), ?_⟩
  exact Impl.read_bind (hf1.get hw (by simp) hx) (HArr.fill_impl hw1 hv1 _)

theorem HArr.neg_impl (hw : h.WF) (hx : h.get? x = some d) : Impl h (HArr.neg c x) (d.neg c) [] (Gives h) := HArr.map_impl hw hx fun d => d.larr.map (- ·)
theorem HArr.smul_impl (hw : h.WF) (hx : h.get? x = some d) (t : DType) (s : K) : Impl h (HArr.smul c x t s) (d.smul c t s) [] (Gives h) := HArr.map_impl hw hx fun d => d.larr.smul t s
theorem HArr.conj_impl (hw : h.WF) (hx : h.get? x = some d) : Impl h (HArr.conj c x) (d.conj c) [] (Gives h) := HArr.map_impl hw hx fun d => d.larr.map star
theorem HArr.copy_impl (hw : h.WF) (hx : h.get? x = some d) : Impl h (HArr.copy c x) (d.copy c) [] (Gives h) := HArr.map_impl hw hx fun d => d.larr

theorem HArr.zerosLike_impl (hw : h.WF) (hx : h.get? x = some d) : Impl h (HArr.zerosLike c x) (d.zerosLike c) [] (Gives h) := by
  unfold HArr.zerosLike DArr.zerosLike
  refine Impl.bind (fun r => [r]) (HArr.likeMask_impl hw hx none) (by simp) fun r h1 d1 hw1 hf1 hv1 => ⟨fun z hz => .inr (List.mem_singleton.1 hz ▸ hv1.1), ?_⟩
  exact HArr.fill_impl hw1 hv1 _

theorem HArr.ravel_impl (hw : h.WF) (hx : h.get? x = some d) : Impl h (HArr.ravel c x) (d.ravel c) [] (Gives h) := by
  unfold HArr.ravel DArr.ravel
  refine Impl.read_bind hx ?_
  simp only [Prog.bind_eq]
  refine Impl.lift_bind hw fun ls => ?_
  refine Impl.bind (fun r => [r]) (HArr.new_impl hw) (by simp) fun r h1 d1 hw1 hf1 hv1 => ⟨fun z hz => .inr (List.mem_singleton.1 hz ▸ hv1.1), ?_⟩
  exact Impl.read_bind (hf1.get hw (by simp) hx) (HArr.fill_impl hw1 hv1 _)

/-- the methods that compute a new array from two -/
theorem HArr.zip_impl (hw : h.WF) (hx : h.get? x = some d) (hy : h.get? y = some e) (f : K → K → K) :
    Impl h (do
      let d ← HP.read x
      let e ← HP.read y
      HP.lift (d.checkCompat e)
      let r ← HArr.like c x
      let d ← HP.read x
      let e ← HP.read y
      let v ← HP.lift (Prog.lift (NDArray.zip f d.larr e.larr))
      HArr.setAll c r v
      HP.ret r) ((d.checkCompat e).bind fun _ => (d.like c).bind fun r => (Prog.lift (NDArray.zip f d.larr e.larr)).bind fun v => r.setAll c v) [] (Gives h) := by
  refine Impl.read_bind hx (Impl.read_bind hy ?_)
  refine Impl.lift_bind hw fun _ => ?_
  refine Impl.bind (fun r => [r]) (HArr.like_impl hw hx) (by simp) fun r h1 d1 hw1 hf1 hv1 => ⟨fun z hz => .inr (List.mem_singleton.1 hz ▸ hv1.1), ?_⟩
  refine Impl.read_bind (hf1.get hw (by simp) hx) (Impl.read_bind (hf1.get hw (by simp) hy) ?_)
  exact Impl.lift_bind hw1 fun v => HArr.fill_impl hw1 hv1 _

theorem HArr.add_impl (hw : h.WF) (hx : h.get? x = some d) (hy : h.get? y = some e) : Impl h (HArr.add c x y) (d.add c e) [] (Gives h) := HArr.zip_impl hw hx hy _
theorem HArr.mul_impl (hw : h.WF) (hx : h.get? x = some d) (hy : h.get? y = some e) : Impl h (HArr.mul c x y) (d.mul c e) [] (Gives h) := HArr.zip_impl hw hx hy _

theorem HArr.sub_impl (hw : h.WF) (hx : h.get? x = some d) (hy : h.get? y = some e) : Impl h (HArr.sub c x y) (d.sub' c e) [] (Gives h) := by
  unfold HArr.sub DArr.sub'
  refine Impl.bind_nil (HArr.neg_impl hw hy) fun m h1 e1 hw1 hf1 hv1 => ?_
  exact (HArr.add_impl hw1 (hf1.get hw (by simp) hx) hv1.2).mono (by simp) fun a h' b _ _ hv => ⟨hf1.objs_len.trans hv.1, hv.2⟩

theorem HArr.iadd_impl (hw : h.WF) (hx : h.get? x = some d) (hy : h.get? y = some e) :
    Impl h (HArr.iadd c x y) (d.iadd c e) [x] (fun z h' d' => z = x ∧ h'.get? x = some d') := by
  unfold HArr.iadd DArr.iadd
  refine Impl.read_bind hx (Impl.read_bind hy ?_)
  simp only [Prog.bind_eq]
  refine Impl.lift_bind hw fun _ => Impl.lift_bind hw fun v => ?_
  refine Impl.of_bind_ret ?_
  exact Impl.bind (fun _ => []) (HArr.setAll_impl hw hx v) (by simp) fun _ h' d' hw' _ hv => ⟨by simp, Impl.ret hw' ⟨rfl, hv⟩⟩

theorem HArr.isub_impl (hw : h.WF) (hx : h.get? x = some d) (hy : h.get? y = some e) :
    Impl h (HArr.isub c x y) (d.isub c e) [x] (fun z h' d' => z = x ∧ h'.get? x = some d') := by
  unfold HArr.isub DArr.isub
  exact Impl.bind_nil (HArr.neg_impl hw hy) fun m h1 e1 hw1 hf1 hv1 => HArr.iadd_impl hw1 (hf1.get hw (by simp) hx) hv1.2

theorem HArr.dot_impl (hw : h.WF) (hx : h.get? x = some d) (hy : h.get? y = some e) : Impl h (HArr.dot c x y) (d.dot c e) [] (fun a h' b => a = b ∧ h' = h) := by
  unfold HArr.dot
  exact Impl.read_bind hx (Impl.read_bind hy (Impl.lift hw _))

/-! ### Stacks -/

/-- a list of objects with their values -/
abbrev Vals (h : Heap K) (l : List Nat) (v : SArr K) : Prop := List.Forall₂ (fun x d => h.get? x = some d) l v

theorem Vals.lt {l : List Nat} {v : SArr K} (hl : Vals h l v) : ∀ x ∈ l, x < h.objs.length := by
  induction hl with
  | nil => simp
  | cons hx _ ih => intro y hy; rcases List.mem_cons.1 hy with rfl | hy
                    · exact Heap.lt_of_get? hx
                    · exact ih y hy

theorem Frame.vals {W : List Nat} {h' : Heap K} (f : Frame W h h') (hw : h.WF) {l : List Nat} {v : SArr K} (hl : Vals h l v) (hx : ∀ x ∈ l, x ∉ W) : Vals h' l v := by
  induction hl with
  | nil => exact .nil
  | cons h1 _ ih => exact .cons (f.get hw (hx _ (by simp)) h1) (ih fun x hx' => hx x (by simp [hx']))

theorem readList_eq {l : List Nat} {v : SArr K} (hl : Vals h l v) : HP.forList HP.read l h = .ret (.ok v, h) := by
  induction hl with
  | nil => rfl
  | @cons x d l v h1 _ ih =>
    unfold HP.forList
    show HP.bind _ _ h = _
    have h2 : HP.read x h = .ret (.ok d, h) := by rw [HP.read, h1]
    unfold HP.bind
    rw [h2]
    show HP.bind _ _ h = _
    unfold HP.bind
    rw [ih]
    rfl

theorem readList_impl (hw : h.WF) {l : List Nat} {v : SArr K} (hl : Vals h l v) {γ δ : Type} {W : List Nat} {V : γ → Heap K → δ → Prop} {k : List (DArr K) → HP K γ} {p : P K δ}
    (hk : Impl h (k v) p W V) : Impl h (HP.forList HP.read l >>= k) p W V := by
  show HRel _ _ (HP.bind (HP.forList HP.read l) k h) _
  unfold HP.bind
  rw [readList_eq hl]
  exact hk

/-- values of new objects -/
def GivesL (h : Heap K) (l : List Nat) (h' : Heap K) (v : SArr K) : Prop := (∀ x ∈ l, New h x) ∧ l.Nodup ∧ Vals h' l v

/-- `[f(a) for a in l]` where `f` returns a new object -/
theorem forList_impl {ι ι' : Type} {f : ι → HP K Nat} {g : ι' → P K (DArr K)} {R : Heap K → ι → ι' → Prop} {l : List ι} {v : List ι'} (hw : h.WF) (hl : List.Forall₂ (R h) l v)
    (hR : ∀ h h' i j, h.WF → Frame [] h h' → R h i j → R h' i j) (hf : ∀ h i j, h.WF → R h i j → Impl h (f i) (g j) [] (Gives h)) :
    Impl h (HP.forList f l) (forList g v) [] (GivesL h) := by
  induction l generalizing v h with
  | nil =>
    cases hl
    exact Impl.ret hw ⟨by simp, by simp, .nil⟩
  | cons i l ih =>
    cases hl with
    | @cons _ j _ v h1 h2 =>
      unfold HP.forList Verif.forList
      refine Impl.bind_nil (hf h i j hw h1) fun a h' b hw' hf' hv' => ?_
      have h3 : List.Forall₂ (R h') l v := h2.imp fun i j hij => hR h h' i j hw hf' hij
      refine Impl.bind_nil (ih hw' h3) fun as h'' bs hw'' hf'' hv'' => ?_
      refine Impl.ret hw'' ⟨fun x hx => ?_, ?_, .cons (hf''.get hw' (by simp) hv'.2) hv''.2.2⟩
      · rcases List.mem_cons.1 hx with rfl | hx
        · exact hv'.1
        · exact hf'.objs_len.trans (hv''.1 x hx)
      · refine List.nodup_cons.2 ⟨fun hm => ?_, hv''.2.1⟩
        have h4 := hv''.1 a hm
        have h5 := Heap.lt_of_get? hv'.2
        unfold New at h4
        omega

/-- `for a in l: target(a)[:] = ...`: a loop changing distinct objects one after the other -/
theorem forEach_impl {ι ι' : Type} {f : ι → HP K Unit} {g : ι' → P K (DArr K)} {R : Heap K → ι → ι' → Prop} {t : ι → Nat} {l : List ι} {v : List ι'} (hw : h.WF)
    (hl : List.Forall₂ (R h) l v) (hd : l.Pairwise fun i j => t i ≠ t j) (hR : l.Pairwise fun i i' => ∀ h h' j, h.WF → Frame [t i] h h' → R h i' j → R h' i' j)
    (hlt : ∀ h i j, R h i j → t i < h.objs.length)
    (hf : ∀ h i j, i ∈ l → h.WF → R h i j → Impl h (f i) (g j) [t i] (fun _ h' d => h'.get? (t i) = some d)) :
    Impl h (HP.forEach f l) (forList g v) (l.map t) (fun _ h' ds => Vals h' (l.map t) ds) := by
  induction l generalizing v h with
  | nil =>
    cases hl
    exact Impl.ret hw .nil
  | cons i l ih =>
    cases hl with
    | @cons _ j _ v h1 h2 =>
      unfold HP.forEach Verif.forList
      refine Impl.bind (fun _ => l.map t) (hf h i j (by simp) hw h1) (by simp) fun _ h' b hw' hf' hv' => ⟨fun x hx => .inl (by simp [List.mem_map.1 hx]), ?_⟩
      have h3 : List.Forall₂ (R h') l v := by
        refine List.forall₂_iff_zip.2 ⟨h2.length_eq, fun {a b} hab => ?_⟩
        have := List.rel_of_pairwise_cons hR (List.of_mem_zip hab).1
        exact this h h' b hw hf' ((List.forall₂_iff_zip.1 h2).2 hab)
      have h4 := ih hw' h3 (List.Pairwise.of_cons hd) (List.Pairwise.of_cons hR) fun h i' j hi => hf h i' j (by simp [hi])
      have h5 : Impl h' (HP.forEach f l) ((forList g v).bind fun bs => Prog.ret (b :: bs)) (l.map t) (fun _ h'' ds => Vals h'' ((i :: l).map t) ds) := by
        have h6 : (HP.forEach f l) = (HP.forEach f l >>= fun u => HP.ret u) := by
          funext hh
          show _ = HP.bind _ _ hh
          unfold HP.bind HP.ret
          conv_lhs => rw [← Prog.bind_ret (HP.forEach f l hh)]
          congr 1
          funext p
          obtain ⟨p1, p2⟩ := p
          cases p1 <;> rfl
        rw [h6]
        refine Impl.bind (fun _ => []) h4 (by simp) fun _ h'' bs hw'' hf'' hv'' => ⟨by simp, Impl.ret hw'' (.cons (hf''.get hw' ?_ hv') hv'')⟩
        rw [List.mem_map]
        rintro ⟨i', hi', e⟩
        exact List.rel_of_pairwise_cons hd hi' e.symm
      simpa using h5

end Verif

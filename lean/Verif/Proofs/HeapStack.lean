/- The methods of StackedDistributedArray, and those of both kinds of arrays, on the memory. -/
import Verif.Proofs.HeapOps

set_option linter.unusedSectionVars false

namespace Verif
open NDArray

variable {K : Type} [Field K] [StarRing K] {h : Heap K} {c : Ctx K} {x y : List Nat} {v w : SArr K}

theorem forall₂_zip {A B A' B' : Type} {R : A → B → Prop} {R' : A' → B' → Prop} {a : List A} {b : List B} {a' : List A'} {b' : List B'} (h1 : List.Forall₂ R a b) (h2 : List.Forall₂ R' a' b') :
    List.Forall₂ (fun p q => R p.1 q.1 ∧ R' p.2 q.2) (a.zip a') (b.zip b') := by
  induction h1 generalizing a' b' with
  | nil => simp
  | cons h _ ih => cases h2 with
    | nil => simp
    | cons h' h2 => exact .cons ⟨h, h'⟩ (ih h2)

theorem pairwise_zip_left {A B : Type} {R : A → A → Prop} {a : List A} (h : a.Pairwise R) (b : List B) : (a.zip b).Pairwise fun p q => R p.1 q.1 := by
  induction h generalizing b with
  | nil => simp
  | cons h1 _ ih => cases b with
    | nil => simp
    | cons b0 b => exact .cons (fun p hp => h1 _ (List.of_mem_zip hp).1) (ih b)

theorem HStack.checkSize_bind (hw : h.WF) (hx : Vals h x v) (hy : Vals h y w) {γ δ : Type} {W : List Nat} {V : γ → Heap K → δ → Prop} {k : Unit → HP K γ} {p : P K δ}
    (hk : v.length = w.length → Impl h (k ()) p W V) : Impl h (HStack.checkSize x y >>= k) ((SArr.checkSize v w).bind fun _ => p) W V := by
  have e : HStack.checkSize x y h = HP.lift (SArr.checkSize v w) h := by
    show HP.bind _ _ h = _
    unfold HP.bind
    rw [readList_eq hx]
    show HP.bind _ _ h = _
    unfold HP.bind
    rw [readList_eq hy]
    rfl
  show HRel _ _ (HP.bind (HStack.checkSize x y) k h) _
  unfold HP.bind
  rw [e]
  unfold SArr.checkSize
  split_ifs with h1 h2
  · exact .err ⟨hw, .refl⟩
  · exact .err ⟨hw, .refl⟩
  · exact hk (not_not.1 h1)

theorem HStack.copy_impl (hw : h.WF) (hx : Vals h x v) : Impl h (HStack.copy c x) (SArr.copy c v) [] (GivesL h) :=
  forList_impl (R := fun h x d => h.get? x = some d) hw hx (fun _ _ _ _ hw hf e => hf.get hw (by simp) e) fun _ _ _ hw e => HArr.copy_impl hw e

theorem HStack.conj_impl (hw : h.WF) (hx : Vals h x v) : Impl h (HStack.conj c x) (SArr.conj c v) [] (GivesL h) :=
  forList_impl (R := fun h x d => h.get? x = some d) hw hx (fun _ _ _ _ hw hf e => hf.get hw (by simp) e) fun _ _ _ hw e => HArr.conj_impl hw e

/-- a loop filling new objects `s` -/
theorem HStack.fill_impl {h₀ : Heap K} {s : List Nat} {u : SArr K} {ι ι' : Type} {f : Nat × ι → HP K Unit} {g : DArr K × ι' → P K (DArr K)} {R : Heap K → ι → ι' → Prop} {l : List ι} {l' : List ι'}
    (hw : h.WF) (hs : GivesL h₀ s h u) (hl : List.Forall₂ (R h) l l') (hlen : s.length = l.length)
    (hR : ∀ t ∈ s, ∀ i ∈ l, ∀ h h' j, h.WF → Frame [t] h h' → R h i j → R h' i j)
    (hf : ∀ h t d i j, i ∈ l → h.WF → h.get? t = some d → R h i j → Impl h (f (t, i)) (g (d, j)) [t] (fun _ h' d => h'.get? t = some d)) :
    Impl h (do HP.forEach f (s.zip l); HP.ret s) (forList g (u.zip l')) s (GivesL h₀) := by
  refine Impl.of_bind_ret ?_
  have hm : (s.zip l).map Prod.fst = s := List.map_fst_zip (by omega)
  have := forEach_impl (t := Prod.fst) (R := fun h p q => h.get? p.1 = some q.1 ∧ R h p.2 q.2) (f := f) (g := g) hw (forall₂_zip hs.2.2 hl) (pairwise_zip_left hs.2.1 l)
    (List.Pairwise.imp_of_mem (R := fun p q => p.1 ≠ q.1) (fun {p q} hp hq hne h h' j hw hf' hh => ⟨hf'.get hw (by simpa using hne.symm) hh.1,
      hR p.1 (List.of_mem_zip hp).1 q.2 (List.of_mem_zip hq).2 h h' j.2 hw hf' hh.2⟩) (pairwise_zip_left hs.2.1 l))
    (fun h i j hh => Heap.lt_of_get? hh.1)
    (fun h i j hi hw hh => hf h i.1 j.1 i.2 j.2 (List.of_mem_zip hi).2 hw hh.1 hh.2)
  rw [hm] at this
  exact Impl.bind (fun _ => []) this (fun _ hx => hx) fun _ h' ds hw' hf' hv' => ⟨by simp, Impl.ret hw' ⟨hs.1, hs.2.1, hv'⟩⟩

/-- `t[:] = z.local_array` for the result `z` of an operation -/
theorem HArr.assign_impl (hw : h.WF) {t : Nat} {d : DArr K} (ht : h.get? t = some d) {m : HP K Nat} {p : P K (DArr K)} (hm : Impl h m p [] (Gives h)) :
    Impl h (do
      let z ← m
      let e ← HP.read z
      HArr.setAll c t e.larr) (p.bind fun z => d.setAll c z.larr) [t] (fun _ h' d => h'.get? t = some d) :=
  Impl.bind_nil hm fun z h' e hw' hf' hv' => Impl.read_bind hv'.2 (HArr.setAll_impl hw' (hf'.get hw (by simp) ht) _)

theorem HStack.neg_impl (hw : h.WF) (hx : Vals h x v) : Impl h (HStack.neg c x) (SArr.neg c v) [] (GivesL h) := by
  unfold HStack.neg SArr.neg
  refine Impl.bind (fun s => s) (HStack.copy_impl hw hx) (by simp) fun s h' u hw' hf' hs => ⟨fun z hz => .inr (hs.1 z hz), ?_⟩
  refine Impl.of_bind_ret ?_
  have := forEach_impl (t := id) (R := fun h x d => h.get? x = some d) (f := fun a => do
      let d ← HP.read a
      HArr.setAll c a (d.larr.map (- ·))) (g := fun d => d.setAll c (d.larr.map (- ·))) hw' hs.2.2 hs.2.1
    (hs.2.1.imp fun {a b} hne h h' j hw hf e => hf.get hw (by simpa using Ne.symm hne) e) (fun h i j e => Heap.lt_of_get? e)
    (fun h i j _ hw e => Impl.read_bind e (HArr.setAll_impl hw e _))
  rw [List.map_id] at this
  exact Impl.bind (fun _ => []) this (fun _ hx => hx) fun _ h' ds hw' hf' hv' => ⟨by simp, Impl.ret hw' ⟨hs.1, hs.2.1, hv'⟩⟩

theorem GivesL.length {s : List Nat} {u : SArr K} {h' : Heap K} (hs : GivesL h s h' u) : s.length = u.length := hs.2.2.length_eq

theorem zip_of_copy {s : List Nat} (hl : s.length = x.length) (hlen : v.length = w.length) (hx : Vals h x v) (hy : Vals h y w) :
    s.length = (x.zip y).length := by
  have h1 := hx.length_eq
  have h2 := hy.length_eq
  simp [hl]; omega

/-- The number of objects returned by `copy`. -/
theorem copy_length (hx : Vals h x v) : (SArr.copy c v).Post fun o => ∀ u, o = .ok u → u.length = v.length := by
  unfold SArr.copy
  clear hx
  induction v with
  | nil => intro u hu; cases hu; rfl
  | cons d v ih =>
    unfold forList
    refine Prog.Post.bind (Q := fun _ => True) (Prog.Post.trivial _ fun _ => trivial) (fun a _ => ?_) fun e _ u hu => by cases hu
    refine Prog.Post.bind ih (fun b hb => ?_) fun e _ u hu => by cases hu
    intro u hu
    cases hu
    simp [hb b rfl]

theorem HStack.copy_impl' (hw : h.WF) (hx : Vals h x v) : Impl h (HStack.copy c x) (SArr.copy c v) [] (fun s h' u => GivesL h s h' u ∧ s.length = x.length) :=
  (HRel.post_and (HStack.copy_impl hw hx) (copy_length (c := c) hx)).mono (fun s h' u hv => ⟨hv.1.1, hv.1.2.1, hv.1.2.2, by
    rw [hv.1.2.2.length, hx.length_eq, hv.2 u rfl]⟩) fun _ he => he

/-- operations on two stacks computing a new one -/
theorem HStack.zip_impl {op : Ctx K → Nat → Nat → HP K Nat} {op' : Ctx K → DArr K → DArr K → P K (DArr K)}
    (hop : ∀ {h : Heap K} {x y : Nat} {d e : DArr K}, h.WF → h.get? x = some d → h.get? y = some e → Impl h (op c x y) (op' c d e) [] (Gives h)) (hw : h.WF) (hx : Vals h x v) (hy : Vals h y w) :
    Impl h (do
      HStack.checkSize x y
      let s ← HStack.copy c x
      HP.forEach (fun t : Nat × Nat × Nat => do
        let z ← op c t.2.1 t.2.2
        let d ← HP.read z
        HArr.setAll c t.1 d.larr) (s.zip (x.zip y))
      HP.ret s) ((SArr.checkSize v w).bind fun _ => (SArr.copy c v).bind fun s => forList (fun t : DArr K × DArr K × DArr K => (op' c t.2.1 t.2.2).bind fun z => t.1.setAll c z.larr) (s.zip (v.zip w)))
      [] (GivesL h) := by
  refine HStack.checkSize_bind hw hx hy fun hlen => ?_
  refine Impl.bind (fun s => s) (HStack.copy_impl' hw hx) (by simp) fun s h' u hw' hf' hs => ⟨fun z hz => .inr (hs.1.1 z hz), ?_⟩
  have lx := hx.lt
  have ly := hy.lt
  refine HStack.fill_impl (R := fun h p q => h.get? p.1 = some q.1 ∧ h.get? p.2 = some q.2) hw' hs.1 (forall₂_zip (hf'.vals hw hx (by simp)) (hf'.vals hw hy (by simp)))
    (zip_of_copy hs.2 hlen hx hy) (fun t ht i hi h1 h2 j hw1 hf1 e => ?_) fun h t d i j _ hw ht e => HArr.assign_impl hw ht (hop hw e.1 e.2)
  have h3 := hs.1.1 t ht
  unfold New at h3
  have h4 := lx i.1 (List.of_mem_zip hi).1
  have h5 := ly i.2 (List.of_mem_zip hi).2
  exact ⟨hf1.get hw1 (by simp; omega) e.1, hf1.get hw1 (by simp; omega) e.2⟩

theorem HStack.add_impl (hw : h.WF) (hx : Vals h x v) (hy : Vals h y w) : Impl h (HStack.add c x y) (SArr.add c v w) [] (GivesL h) :=
  HStack.zip_impl (op := HArr.add) (op' := DArr.add) (fun hw hx hy => HArr.add_impl hw hx hy) hw hx hy
theorem HStack.mul_impl (hw : h.WF) (hx : Vals h x v) (hy : Vals h y w) : Impl h (HStack.mul c x y) (SArr.mul c v w) [] (GivesL h) :=
  HStack.zip_impl (op := HArr.mul) (op' := DArr.mul) (fun hw hx hy => HArr.mul_impl hw hx hy) hw hx hy

theorem HStack.smul_impl (hw : h.WF) (hx : Vals h x v) (t : DType) (a : K) : Impl h (HStack.smul c x t a) (SArr.smul c v t a) [] (GivesL h) := by
  unfold HStack.smul SArr.smul
  refine Impl.bind (fun s => s) (HStack.copy_impl' hw hx) (by simp) fun s h' u hw' hf' hs => ⟨fun z hz => .inr (hs.1.1 z hz), ?_⟩
  have lx := hx.lt
  refine HStack.fill_impl (R := fun h p q => h.get? p = some q) hw' hs.1 (hf'.vals hw hx (by simp)) hs.2 (fun t ht i hi h1 h2 j hw1 hf1 e => ?_) fun h z d i j _ hw ht e =>
    HArr.assign_impl hw ht (HArr.smul_impl hw e t a)
  have h3 := hs.1.1 t ht
  unfold New at h3
  have h4 := lx i hi
  exact hf1.get hw1 (by simp; omega) e

theorem HStack.sub_impl (hw : h.WF) (hx : Vals h x v) (hy : Vals h y w) : Impl h (HStack.sub c x y) (SArr.sub' c v w) [] (GivesL h) := by
  unfold HStack.sub SArr.sub'
  refine Impl.bind_nil (HStack.neg_impl hw hy) fun m h1 e1 hw1 hf1 hv1 => ?_
  exact (HStack.add_impl hw1 (hf1.vals hw hx (by simp)) hv1.2.2).mono (by simp) fun a h' b _ _ hv => ⟨fun z hz => hf1.objs_len.trans (hv.1 z hz), hv.2⟩

/-- In-place addition: the components of `x` are different objects, and a component of `y` is not one of the components of `x` changed before it is used. -/
theorem HStack.iadd_impl (hw : h.WF) (hx : Vals h x v) (hy : Vals h y w) (hn : x.Nodup) (ha : (x.zip y).Pairwise fun p q => q.2 ≠ p.1) :
    Impl h (HStack.iadd c x y) (SArr.iadd c v w) x (fun z h' u => z = x ∧ Vals h' x u) := by
  unfold HStack.iadd SArr.iadd
  refine HStack.checkSize_bind hw hx hy fun hlen => ?_
  refine Impl.of_bind_ret ?_
  have h1 := hx.length_eq
  have h2 := hy.length_eq
  have hm : (x.zip y).map Prod.fst = x := List.map_fst_zip (by omega)
  have := forEach_impl (t := Prod.fst) (R := fun h (p : Nat × Nat) (q : DArr K × DArr K) => h.get? p.1 = some q.1 ∧ h.get? p.2 = some q.2) (f := fun t => do
      let z ← HArr.add c t.1 t.2
      let d ← HP.read z
      HArr.setAll c t.1 d.larr) (g := fun t => (t.1.add c t.2).bind fun z => t.1.setAll c z.larr) hw (forall₂_zip hx hy) (pairwise_zip_left hn y)
    (((pairwise_zip_left hn y).and ha).imp fun {p q} hne h h' j hw hf e => ⟨hf.get hw (by simpa using Ne.symm hne.1) e.1, hf.get hw (by simpa using hne.2) e.2⟩) (fun h i j e => Heap.lt_of_get? e.1)
    (fun h i j _ hw e => HArr.assign_impl hw e.1 (HArr.add_impl hw e.1 e.2))
  rw [hm] at this
  exact Impl.bind (fun _ => []) this (fun _ hx => hx) fun _ h' ds hw' hf' hv' => ⟨by simp, Impl.ret hw' ⟨rfl, hv'⟩⟩

/-- In-place subtraction: only the components of `x` have to be different objects, since `-y` is a new array. -/
theorem HStack.isub_impl (hw : h.WF) (hx : Vals h x v) (hy : Vals h y w) (hn : x.Nodup) :
    Impl h (HStack.isub c x y) (SArr.isub c v w) x (fun z h' u => z = x ∧ Vals h' x u) := by
  unfold HStack.isub SArr.isub
  refine Impl.bind_nil (HStack.neg_impl hw hy) fun m h1 e1 hw1 hf1 hv1 => ?_
  refine HStack.iadd_impl hw1 (hf1.vals hw hx (by simp)) hv1.2.2 hn ?_
  refine List.Pairwise.imp_of_mem (R := fun _ _ => True) (fun {p q} hp hq _ => ?_) (List.pairwise_of_forall fun _ _ => trivial)
  have h3 := hv1.1 q.2 (List.of_mem_zip hq).2
  have h4 := hx.lt p.1 (List.of_mem_zip hp).1
  unfold New at h3
  omega

/-! ### Both kinds of arrays -/

variable {a b : XRef} {u z : XArr K}

/-- the value of a new array -/
def GivesX (h : Heap K) (x : XRef) (h' : Heap K) (v : XArr K) : Prop := (∀ i ∈ x.refs, New h i) ∧ x.refs.Nodup ∧ HasX h' x v

theorem HasX.lt (hx : HasX h a u) : ∀ i ∈ a.refs, i < h.objs.length := by
  cases a <;> cases u
  · intro i hi
    rw [List.mem_singleton.1 hi]
    exact Heap.lt_of_get? hx
  · exact hx.elim
  · exact hx.elim
  · exact Vals.lt hx

theorem Frame.hasX {W : List Nat} {h' : Heap K} (f : Frame W h h') (hw : h.WF) (hx : HasX h a u) (hn : ∀ i ∈ a.refs, i ∉ W) : HasX h' a u := by
  cases a <;> cases u
  · exact f.get hw (hn _ (by simp [XRef.refs])) hx
  · exact hx.elim
  · exact hx.elim
  · exact f.vals hw hx hn

theorem gives_one {x : Nat} {d : DArr K} {h' : Heap K} (hx : Gives h x h' d) : GivesX h (.one x) h' (.one d) :=
  ⟨fun i hi => List.mem_singleton.1 hi ▸ hx.1, by simp [XRef.refs], hx.2⟩

theorem impl_one {m : HP K Nat} {p : P K (DArr K)} {h₀ : Heap K} {W : List Nat} (hm : Impl h m p W (Gives h₀)) :
    Impl h (do let y ← m; HP.ret (XRef.one y)) (p.bind fun y => .ret (XArr.one y)) W (GivesX h₀) :=
  Impl.bind (fun _ => []) hm (fun _ hx => hx) fun _ _ _ hw' _ hv => ⟨by simp, Impl.ret hw' (gives_one hv)⟩

theorem impl_stack {m : HP K (List Nat)} {p : P K (SArr K)} {h₀ : Heap K} {W : List Nat} (hm : Impl h m p W (GivesL h₀)) :
    Impl h (do let y ← m; HP.ret (XRef.stack y)) (p.bind fun y => .ret (XArr.stack y)) W (GivesX h₀) :=
  Impl.bind (fun _ => []) hm (fun _ hx => hx) fun _ _ _ hw' _ hv => ⟨by simp, Impl.ret hw' hv⟩

theorem HX.copy_impl (hw : h.WF) (ha : HasX h a u) : Impl h (HX.copy c a) (u.copy c) [] (GivesX h) := by
  cases a <;> cases u
  · exact impl_one (HArr.copy_impl hw ha)
  · exact ha.elim
  · exact ha.elim
  · exact impl_stack (HStack.copy_impl hw ha)

theorem HX.conj_impl (hw : h.WF) (ha : HasX h a u) : Impl h (HX.conj c a) (u.conj c) [] (GivesX h) := by
  cases a <;> cases u
  · exact impl_one (HArr.conj_impl hw ha)
  · exact ha.elim
  · exact ha.elim
  · exact impl_stack (HStack.conj_impl hw ha)

theorem HX.smul_impl (hw : h.WF) (ha : HasX h a u) (t : DType) (s : K) : Impl h (HX.smul c t s a) (u.smul c t s) [] (GivesX h) := by
  cases a <;> cases u
  · exact impl_one (HArr.smul_impl hw ha t s)
  · exact ha.elim
  · exact ha.elim
  · exact impl_stack (HStack.smul_impl hw ha t s)

theorem HX.add_impl (hw : h.WF) (ha : HasX h a u) (hb : HasX h b z) : Impl h (HX.add c a b) (u.add c z) [] (GivesX h) := by
  cases a <;> cases u <;> cases b <;> cases z <;> first | exact ha.elim | exact hb.elim | skip
  · exact impl_one (HArr.add_impl hw ha hb)
  · exact Impl.throw hw
  · exact Impl.throw hw
  · exact impl_stack (HStack.add_impl hw ha hb)

theorem HX.sub_impl (hw : h.WF) (ha : HasX h a u) (hb : HasX h b z) : Impl h (HX.sub c a b) (u.sub' c z) [] (GivesX h) := by
  cases a <;> cases u <;> cases b <;> cases z <;> first | exact ha.elim | exact hb.elim | skip
  · exact impl_one (HArr.sub_impl hw ha hb)
  · exact Impl.bind_nil (HStack.neg_impl hw hb) fun _ _ _ hw' _ _ => Impl.throw hw'
  · exact Impl.bind_nil (HArr.neg_impl hw hb) fun _ _ _ hw' _ _ => Impl.throw hw'
  · exact impl_stack (HStack.sub_impl hw ha hb)

/-- `x += y` for an array `y` sharing no object with `x`, and `x -= y` -/
theorem HX.iadd_impl (hw : h.WF) (ha : HasX h a u) (hb : HasX h b z) (hn : a.refs.Nodup) (hd : ∀ i ∈ a.refs, i ∉ b.refs) :
    Impl h (HX.iadd c a b) (u.iadd c z) a.refs (fun y h' v => y = a ∧ HasX h' a v) := by
  cases a <;> cases u <;> cases b <;> cases z <;> first | exact ha.elim | exact hb.elim | skip
  · exact Impl.bind (fun _ => []) (HArr.iadd_impl hw ha hb) (fun _ hx => hx) fun _ _ _ hw' _ hv => ⟨by simp, Impl.ret hw' ⟨by rw [hv.1], hv.2⟩⟩
  · exact Impl.throw hw
  · exact Impl.throw hw
  · refine Impl.bind (fun _ => []) (HStack.iadd_impl hw ha hb hn ?_) (fun _ hx => hx) fun _ _ _ hw' _ hv => ⟨by simp, Impl.ret hw' ⟨by rw [hv.1], hv.2⟩⟩
    refine List.Pairwise.imp_of_mem (R := fun _ _ => True) (fun {p q} hp hq _ he => ?_) (List.pairwise_of_forall fun _ _ => trivial)
    exact hd p.1 (List.of_mem_zip hp).1 (he ▸ (List.of_mem_zip hq).2)

theorem HX.isub_impl (hw : h.WF) (ha : HasX h a u) (hb : HasX h b z) (hn : a.refs.Nodup) :
    Impl h (HX.isub c a b) (u.isub c z) a.refs (fun y h' v => y = a ∧ HasX h' a v) := by
  cases a <;> cases u <;> cases b <;> cases z <;> first | exact ha.elim | exact hb.elim | skip
  · exact Impl.bind (fun _ => []) (HArr.isub_impl hw ha hb) (fun _ hx => hx) fun _ _ _ hw' _ hv => ⟨by simp, Impl.ret hw' ⟨by rw [hv.1], hv.2⟩⟩
  · exact Impl.bind_nil (HStack.neg_impl hw hb) fun _ _ _ hw' _ _ => Impl.throw hw'
  · exact Impl.bind_nil (HArr.neg_impl hw hb) fun _ _ _ hw' _ _ => Impl.throw hw'
  · exact Impl.bind (fun _ => []) (HStack.isub_impl hw ha hb hn) (fun _ hx => hx) fun _ _ _ hw' _ hv => ⟨by simp, Impl.ret hw' ⟨by rw [hv.1], hv.2⟩⟩

theorem HX.read_bind (hw : h.WF) (ha : HasX h a u) {γ δ : Type} {W : List Nat} {V : γ → Heap K → δ → Prop} {k : XArr K → HP K γ} {p : P K δ} (hk : Impl h (k u) p W V) :
    Impl h (HX.read a >>= k) p W V := by
  have e : HX.read a h = .ret (.ok u, h) := by
    cases a <;> cases u
    · show HP.bind _ _ h = _
      have h2 := ha
      simp only [HasX] at h2
      simp only [HP.bind, HP.read, h2]
      rfl
    · exact ha.elim
    · exact ha.elim
    · show HP.bind _ _ h = _
      unfold HP.bind
      rw [readList_eq ha]
      rfl
  show HRel _ _ (HP.bind (HX.read a) k h) _
  unfold HP.bind
  rw [e]
  exact hk

theorem HX.dot_impl (hw : h.WF) (ha : HasX h a u) (hb : HasX h b z) : Impl h (HX.dot c a b) (u.dot c z) [] (fun s h' t => s = t ∧ h' = h) := by
  unfold HX.dot
  exact HX.read_bind hw ha (HX.read_bind hw hb (Impl.lift hw _))

end Verif

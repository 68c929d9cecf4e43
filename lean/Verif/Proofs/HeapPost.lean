/- What programs do to the memory, whatever the values and the aliasing. -/
import Verif.Proofs.HeapStack

set_option linter.unusedSectionVars false

namespace Verif
open NDArray

variable {K : Type}

/-- Whatever it receives, `m` started in the memory `h` ends in a well-formed memory in which only objects of `W` were changed, and its results satisfy `Q`. -/
def HPost {α : Type} (h : Heap K) (m : HP K α) (W : List Nat) (Q : α → Heap K → Prop) : Prop :=
  (m h).Post fun o => ∃ x, o = .ok x ∧ x.2.WF ∧ Frame W h x.2 ∧ ∀ a, x.1 = .ok a → Q a x.2

variable {α β : Type} {h : Heap K} {W : List Nat} {Q : α → Heap K → Prop}

theorem Impl.hpost {m : HP K α} {p : P K β} {V : α → Heap K → β → Prop} (hi : Impl h m p W V) (hQ : ∀ a h' b, V a h' b → Q a h') : HPost h m W Q := by
  refine (HRel.post hi).mono fun o ⟨x, ho, hx⟩ => ⟨x, ho, ?_⟩
  rcases hx with ⟨a, b, ha, h1, h2, h3⟩ | ⟨e, he, h1, h2⟩
  · exact ⟨h1, h2, fun a' ha' => by rw [ha] at ha'; cases ha'; exact hQ _ _ _ h3⟩
  · exact ⟨h1, h2, fun a' ha' => by rw [he] at ha'; cases ha'⟩

theorem HPost.ret (hw : h.WF) {a : α} (hQ : Q a h) : HPost h (HP.ret a) W Q := ⟨_, rfl, hw, .refl, fun a' ha' => by cases ha'; exact hQ⟩

theorem HPost.mono {m : HP K α} {W' : List Nat} {Q' : α → Heap K → Prop} (h1 : HPost h m W Q) (hW : ∀ x ∈ W, x ∈ W') (hQ : ∀ a h', h'.WF → Frame W h h' → Q a h' → Q' a h') : HPost h m W' Q' :=
  Prog.Post.mono h1 fun _ ⟨x, ho, hw, hf, hq⟩ => ⟨x, ho, hw, hf.mono hW, fun a ha => hQ a x.2 hw hf (hq a ha)⟩

theorem HPost.bind {m : HP K α} {k : α → HP K β} {W' : List Nat} {Q' : β → Heap K → Prop} (W₂ : α → List Nat) (h1 : HPost h m W Q) (hW : ∀ x ∈ W, x ∈ W')
    (h2 : ∀ a h', h'.WF → Frame W h h' → Q a h' → (∀ x ∈ W₂ a, x ∈ W' ∨ h.objs.length ≤ x) ∧ HPost h' (k a) (W₂ a) Q') : HPost h (m >>= k) W' Q' := by
  refine Prog.Post.bind h1 (fun x hx => ?_) fun e he => by obtain ⟨x, hx, -⟩ := he; cases hx
  obtain ⟨x', hx', hw, hf, hq⟩ := hx
  cases hx'
  obtain ⟨o, h'⟩ := x
  cases o with
  | error e => exact ⟨_, rfl, hw, hf.mono hW, fun a ha => by cases ha⟩
  | ok a =>
    obtain ⟨h3, h4⟩ := h2 a h' hw hf (hq a rfl)
    exact Prog.Post.mono h4 fun o ⟨x, ho, hw', hf', hq'⟩ => ⟨x, ho, hw', hf.trans hf' hW h3, hq'⟩

theorem HPost.read_bind {x : Nat} {d : DArr K} (hx : h.get? x = some d) {k : DArr K → HP K α} (hk : HPost h (k d) W Q) : HPost h (HP.read x >>= k) W Q := by
  show Prog.Post _ (HP.bind (HP.read x) k h)
  have e : HP.read x h = .ret (.ok d, h) := by unfold HP.read; rw [hx]
  unfold HP.bind
  rw [e]
  exact hk

/-- in every execution, whatever the programs of the other ranks -/
theorem HPost.sound {m : HP K α} (h1 : HPost h m W Q) {n : Nat} {ps : Nat → P K (Except Err α × Heap K)} {r : Nat} (hr : r < n) (hp : ps r = m h) {s : St (Msg K) (Except Err α × Heap K)}
    (hs : Run n (St.init ps) s) {o : Except Err (Except Err α × Heap K)} (ho : s.prog r = Prog.lift o) :
    ∃ x, o = .ok x ∧ x.2.WF ∧ Frame W h x.2 ∧ ∀ a, x.1 = .ok a → Q a x.2 := Prog.Post.sound (Q := fun o => ∃ x, o = .ok x ∧ x.2.WF ∧ Frame W h x.2 ∧ ∀ a, x.1 = .ok a → Q a x.2)
      (by rw [hp]; exact h1) hr hs ho

/-- names of existing objects -/
def Live (h : Heap K) (l : List Nat) : Prop := ∀ x ∈ l, x < h.objs.length

theorem Frame.live {l : List Nat} {h' : Heap K} (f : Frame W h h') (hl : Live h l) : Live h' l := fun x hx => lt_of_lt_of_le (hl x hx) f.objs_len

theorem Heap.WF.get (hw : h.WF) {x : Nat} (hx : x < h.objs.length) : ∃ d, h.get? x = some d := by
  have h1 := List.getElem?_eq_getElem hx
  have h2 := hw.lt _ (List.getElem_mem hx)
  exact ⟨_, by rw [Heap.get?, h1]; simp only [Option.bind_some]; rw [List.getElem?_eq_getElem h2]; rfl⟩

theorem Heap.WF.vals (hw : h.WF) {l : List Nat} (hl : Live h l) : ∃ v : SArr K, Vals h l v := by
  induction l with
  | nil => exact ⟨[], .nil⟩
  | cons x l ih =>
    obtain ⟨d, hd⟩ := hw.get (hl x (by simp))
    obtain ⟨v, hv⟩ := ih fun y hy => hl y (by simp [hy])
    exact ⟨d :: v, .cons hd hv⟩

theorem Heap.WF.hasX (hw : h.WF) {a : XRef} (ha : Live h a.refs) : ∃ v : XArr K, HasX h a v := by
  cases a with
  | one x =>
    obtain ⟨d, hd⟩ := hw.get (ha x (by simp [XRef.refs]))
    exact ⟨.one d, hd⟩
  | stack l =>
    obtain ⟨v, hv⟩ := hw.vals ha
    exact ⟨.stack v, hv⟩

variable [Field K] [StarRing K] {c : Ctx K} {x y : List Nat}

/-- a loop changing objects of `W` -/
theorem HPost.forEach {ι : Type} {f : ι → HP K Unit} {l : List ι} (hw : h.WF) (hW : Live h W) {L : List Nat} (hL : Live h L)
    (hf : ∀ h, h.WF → Live h W → Live h L → ∀ i ∈ l, HPost h (f i) W fun _ _ => True) : HPost h (HP.forEach f l) W fun _ _ => True := by
  induction l generalizing h with
  | nil => exact .ret hw trivial
  | cons i l ih =>
    unfold HP.forEach
    refine HPost.bind (fun _ => W) (hf h hw hW hL i (by simp)) (fun _ hx => hx) fun _ h' hw' hf' _ => ⟨fun _ hx => .inl hx, ?_⟩
    exact ih hw' (hf'.live hW) (hf'.live hL) fun h hw hW hL i hi => hf h hw hW hL i (by simp [hi])

/-- In-place addition of stacks, with any aliasing: the object itself is returned, only components of `x` are changed. -/
theorem HStack.iadd_post (hw : h.WF) (hx : Live h x) (hy : Live h y) : HPost h (HStack.iadd c x y) x fun z _ => z = x := by
  obtain ⟨v, hv⟩ := hw.vals hx
  obtain ⟨w, hw'⟩ := hw.vals hy
  unfold HStack.iadd
  have h0 : HPost h (HStack.checkSize x y) x fun _ _ => True := by
    refine Impl.hpost (β := Unit) (p := (SArr.checkSize v w).bind fun _ => .ret ()) (V := fun _ _ _ => True) ?_ fun _ _ _ _ => trivial
    have := HStack.checkSize_bind (W := x) (V := fun _ _ _ => True) hw hv hw' (k := fun u => HP.ret u) (p := .ret ()) fun _ => Impl.ret hw trivial
    have e : (HStack.checkSize x y >>= fun u => HP.ret u) = HStack.checkSize (K := K) x y := by
      funext hh
      show HP.bind _ _ hh = _
      unfold HP.bind HP.ret
      conv_rhs => rw [← Prog.bind_ret (HStack.checkSize x y hh)]
      congr 1
      funext p
      obtain ⟨p1, p2⟩ := p
      cases p1 <;> rfl
    rwa [e] at this
  refine HPost.bind (fun _ => x) h0 (fun _ h => h) fun _ h1 hw1 hf1 _ => ⟨fun _ h => .inl h, ?_⟩
  refine HPost.bind (fun _ => []) (HPost.forEach (L := y) hw1 (hf1.live hx) (hf1.live hy) fun h2 hw2 hx2 hy2 i hi => ?_) (fun _ h => h) fun _ h' hw' hf' _ => ⟨by simp, .ret hw' rfl⟩
  obtain ⟨d, hd⟩ := hw2.get (hx2 i.1 (List.of_mem_zip hi).1)
  obtain ⟨e, he⟩ := hw2.get (hy2 i.2 (List.of_mem_zip hi).2)
  exact ((HArr.assign_impl hw2 hd (HArr.add_impl hw2 hd he)).hpost fun _ _ _ _ => trivial).mono (fun z hz => List.mem_singleton.1 hz ▸ (List.of_mem_zip hi).1) fun _ _ _ _ _ => trivial

theorem HStack.isub_post (hw : h.WF) (hx : Live h x) (hy : Live h y) : HPost h (HStack.isub c x y) x fun z _ => z = x := by
  obtain ⟨w, hw'⟩ := hw.vals hy
  unfold HStack.isub
  refine HPost.bind (fun _ => x) ((HStack.neg_impl hw hw').hpost (Q := fun s h' => Live h' s) fun s h' u hs => hs.2.2.lt) (by simp) fun m h1 hw1 hf1 hm => ⟨fun _ h => .inl h, ?_⟩
  exact HStack.iadd_post hw1 (hf1.live hx) hm

theorem HX.iadd_post {a b : XRef} (hw : h.WF) (ha : Live h a.refs) (hb : Live h b.refs) : HPost h (HX.iadd c a b) a.refs fun z _ => z = a := by
  obtain ⟨u, hu⟩ := hw.hasX ha
  obtain ⟨v, hv⟩ := hw.hasX hb
  cases a <;> cases b
  · cases u <;> cases v <;> first | exact hu.elim | exact hv.elim | skip
    exact HPost.bind (fun _ => []) ((HArr.iadd_impl hw hu hv).hpost (Q := fun z _ => z = _) fun _ _ _ h => h.1) (fun _ h => h) fun z h' hw' _ hz => ⟨by simp, .ret hw' (by rw [hz])⟩
  · exact ⟨_, rfl, hw, .refl, fun _ h => by cases h⟩
  · exact ⟨_, rfl, hw, .refl, fun _ h => by cases h⟩
  · exact HPost.bind (fun _ => []) (HStack.iadd_post hw ha hb) (fun _ h => h) fun z h' hw' _ hz => ⟨by simp, .ret hw' (by rw [hz])⟩

theorem HX.isub_post {a b : XRef} (hw : h.WF) (ha : Live h a.refs) (hb : Live h b.refs) : HPost h (HX.isub c a b) a.refs fun z _ => z = a := by
  obtain ⟨u, hu⟩ := hw.hasX ha
  obtain ⟨v, hv⟩ := hw.hasX hb
  cases a <;> cases b
  · cases u <;> cases v <;> first | exact hu.elim | exact hv.elim | skip
    exact HPost.bind (fun _ => []) ((HArr.isub_impl hw hu hv).hpost (Q := fun z _ => z = _) fun _ _ _ h => h.1) (fun _ h => h) fun z h' hw' _ hz => ⟨by simp, .ret hw' (by rw [hz])⟩
  · cases v
    · exact hv.elim
    exact HPost.bind (fun _ => []) ((HStack.neg_impl hw hv).hpost (Q := fun _ _ => True) fun _ _ _ _ => trivial) (by simp) fun z h' hw' _ _ => ⟨by simp, ⟨_, rfl, hw', .refl, fun _ h => by cases h⟩⟩
  · cases v
    · exact HPost.bind (fun _ => []) ((HArr.neg_impl hw hv).hpost (Q := fun _ _ => True) fun _ _ _ _ => trivial) (by simp) fun z h' hw' _ _ => ⟨by simp, ⟨_, rfl, hw', .refl, fun _ h => by cases h⟩⟩
    · exact hv.elim
  · exact HPost.bind (fun _ => []) (HStack.isub_post hw ha hb) (fun _ h => h) fun z h' hw' _ hz => ⟨by simp, .ret hw' (by rw [hz])⟩

section
variable {K : Type} [Field K] [StarRing K] {h : Heap K} {c : Ctx K} {a b : XRef}

/-- the operations that return a new array -/
inductive NewOp (K : Type)
  | neg | add | sub | mul | smul (t : DType) (s : K) | conj | copy | zerosLike | ravel

def NewOp.run (c : Ctx K) (a b : XRef) : NewOp K → HP K XRef
  | .neg => HX.neg c a
  | .add => HX.add c a b
  | .sub => HX.sub c a b
  | .mul => HX.mul c a b
  | .smul t s => HX.smul c t s a
  | .conj => HX.conj c a
  | .copy => HX.copy c a
  | .zerosLike => HX.zerosLike c a
  | .ravel => HX.ravel c a

/-- the array `z`, in the memory `h'`, shares no memory with anything that existed in `h` -/
def Fresh (h h' : Heap K) (z : XRef) : Prop := ∀ i ∈ z.refs, New h i ∧ ∃ m, h'.buf? i = some m ∧ h.bufs.length ≤ m

theorem fresh_of {z : XRef} {h' : Heap K} (hf : Frame [] h h') (h1 : ∀ i ∈ z.refs, New h i) (h2 : Live h' z.refs) : Fresh h h' z := by
  intro i hi
  have h3 := List.getElem?_eq_getElem (h2 i hi)
  exact ⟨h1 i hi, _, by rw [Heap.buf?, h3]; rfl, hf.fresh i _ (h1 i hi) h3⟩

theorem throw_post {α : Type} {W : List Nat} {Q : α → Heap K → Prop} (hw : h.WF) {e : Err} : HPost h (HP.throw e) W Q := ⟨_, rfl, hw, .refl, fun _ h => by cases h⟩

theorem newOp_post (op : NewOp K) (hw : h.WF) (ha : Live h a.refs) (hb : Live h b.refs) : HPost h (op.run c a b) [] fun z h' => Fresh h h' z := by
  have one : ∀ {m : HP K Nat} {p : P K (DArr K)}, Impl h m p [] (Gives h) → HPost h (do let y ← m; HP.ret (XRef.one y)) [] fun z h' => (∀ i ∈ z.refs, New h i) ∧ Live h' z.refs :=
    fun hm => (impl_one hm).hpost fun z h' u hz => ⟨hz.1, hz.2.2.lt⟩
  have stack : ∀ {m : HP K (List Nat)} {p : P K (SArr K)}, Impl h m p [] (GivesL h) → HPost h (do let y ← m; HP.ret (XRef.stack y)) [] fun z h' => (∀ i ∈ z.refs, New h i) ∧ Live h' z.refs :=
    fun hm => (impl_stack hm).hpost fun z h' u hz => ⟨hz.1, hz.2.2.lt⟩
  refine HPost.mono (W := []) (Q := fun z h' => (∀ i ∈ z.refs, New h i) ∧ Live h' z.refs) ?_ (fun _ h => h) fun z h' _ hf hz => fresh_of hf hz.1 hz.2
  obtain ⟨u, hu⟩ := hw.hasX ha
  obtain ⟨v, hv⟩ := hw.hasX hb
  cases a <;> cases u <;> first | exact hu.elim | skip
  · cases op
    case neg => exact one (HArr.neg_impl hw hu)
    case smul => exact one (HArr.smul_impl hw hu _ _)
    case conj => exact one (HArr.conj_impl hw hu)
    case copy => exact one (HArr.copy_impl hw hu)
    case zerosLike => exact one (HArr.zerosLike_impl hw hu)
    case ravel => exact one (HArr.ravel_impl hw hu)
    all_goals (cases b <;> cases v <;> first | exact hv.elim | skip)
    · exact one (HArr.add_impl hw hu hv)
    · exact throw_post hw
    · exact one (HArr.sub_impl hw hu hv)
    · exact HPost.bind (fun _ => []) ((HStack.neg_impl hw hv).hpost (Q := fun _ _ => True) fun _ _ _ _ => trivial) (by simp) fun _ _ hw' _ _ => ⟨by simp, throw_post hw'⟩
    · exact one (HArr.mul_impl hw hu hv)
    · exact throw_post hw
  · cases op
    case neg => exact stack (HStack.neg_impl hw hu)
    case smul => exact stack (HStack.smul_impl hw hu _ _)
    case conj => exact stack (HStack.conj_impl hw hu)
    case copy => exact stack (HStack.copy_impl hw hu)
    case zerosLike => exact throw_post hw
    case ravel => exact throw_post hw
    all_goals (cases b <;> cases v <;> first | exact hv.elim | skip)
    · exact throw_post hw
    · exact stack (HStack.add_impl hw hu hv)
    · exact HPost.bind (fun _ => []) ((HArr.neg_impl hw hv).hpost (Q := fun _ _ => True) fun _ _ _ _ => trivial) (by simp) fun _ _ hw' _ _ => ⟨by simp, throw_post hw'⟩
    · exact stack (HStack.sub_impl hw hu hv)
    · exact throw_post hw
    · exact stack (HStack.mul_impl hw hu hv)

end

end Verif

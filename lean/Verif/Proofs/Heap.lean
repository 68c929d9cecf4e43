/- Programs on the memory and the programs on values that they implement. -/
import Verif.Spec.Heap
import Verif.MPI.Safe
import Verif.MPI.Bind

set_option linter.unusedSectionVars false

namespace Verif
open NDArray Relation

variable {K α β γ δ : Type}

/-! ### Memory -/

theorem Heap.get?_some {h : Heap K} {x : Nat} {d : DArr K} (e : h.get? x = some d) : ∃ o a, h.objs[x]? = some o ∧ h.bufs[o.buf]? = some a ∧ d = o.val a := by
  unfold Heap.get? at e
  cases ho : h.objs[x]? with
  | none => simp [ho] at e
  | some o =>
    cases ha : h.bufs[o.buf]? with
    | none => simp [ho, ha] at e
    | some a => simp [ho, ha] at e; exact ⟨o, a, rfl, ha, e.symm⟩

theorem Heap.lt_of_get? {h : Heap K} {x : Nat} {d : DArr K} (e : h.get? x = some d) : x < h.objs.length := by
  obtain ⟨o, a, ho, -⟩ := Heap.get?_some e
  exact (List.getElem?_eq_some_iff.1 ho).1

theorem Heap.WF.inj {h : Heap K} (hw : h.WF) {x y : Nat} {o o' : DObj} (hx : h.objs[x]? = some o) (hy : h.objs[y]? = some o') (e : o.buf = o'.buf) : x = y := by
  obtain ⟨hx1, hx2⟩ := List.getElem?_eq_some_iff.1 hx
  obtain ⟨hy1, hy2⟩ := List.getElem?_eq_some_iff.1 hy
  have := hw.nodup
  rw [List.nodup_iff_injective_get] at this
  have h2 := @this ⟨x, by simpa using hx1⟩ ⟨y, by simpa using hy1⟩ (by simp [hx2, hy2, e])
  simpa using h2

theorem Frame.refl {W : List Nat} {h : Heap K} : Frame W h h :=
  ⟨fun _ _ e => e, le_refl _, fun _ _ e _ => e, fun x o hx e => absurd (List.getElem?_eq_some_iff.1 e).1 (by omega)⟩

theorem Frame.objs_len {W : List Nat} {h h' : Heap K} (f : Frame W h h') : h.objs.length ≤ h'.objs.length := by
  by_contra hc
  have hl : h'.objs.length < h.objs.length := by omega
  have := f.objs _ _ (List.getElem?_eq_getElem hl)
  simp at this

theorem Frame.trans {W W' V : List Nat} {h h' h'' : Heap K} (f : Frame W h h') (g : Frame W' h' h'') (hW : ∀ x ∈ W, x ∈ V) (hW' : ∀ x ∈ W', x ∈ V ∨ h.objs.length ≤ x) :
    Frame V h h'' := by
  refine ⟨fun x o e => g.objs _ _ (f.objs _ _ e), f.len.trans g.len, fun b a e hb => ?_, fun x o hx e => ?_⟩
  · refine g.same b a (f.same b a e fun x hx => hb x (hW x hx)) fun x hx he => ?_
    have hbl := (List.getElem?_eq_some_iff.1 e).1
    unfold Heap.buf? at he
    cases ho : h'.objs[x]? with
    | none => simp [ho] at he
    | some o =>
      rw [ho, Option.map_some, Option.some_inj] at he
      by_cases hn : h.objs.length ≤ x
      · have := f.fresh x o hn ho
        omega
      · rcases hW' x hx with h1 | h1
        · apply hb x h1
          have hlt : x < h.objs.length := by omega
          have h2 := f.objs x _ (List.getElem?_eq_getElem hlt)
          rw [ho, Option.some_inj] at h2
          rw [Heap.buf?, List.getElem?_eq_getElem hlt, Option.map_some, ← h2, he]
        · exact hn h1
  · by_cases hn : x < h'.objs.length
    · have h2 := g.objs x _ (List.getElem?_eq_getElem hn)
      rw [e, Option.some_inj] at h2
      exact f.fresh x o hx (by rw [List.getElem?_eq_getElem hn, h2])
    · exact f.len.trans (g.fresh x o (by omega) e)

theorem Frame.mono {W V : List Nat} {h h' : Heap K} (f : Frame W h h') (hW : ∀ x ∈ W, x ∈ V) : Frame V h h' :=
  f.trans .refl (W' := []) hW (by simp)

/-- objects that may not be changed keep their values -/
theorem Frame.get {W : List Nat} {h h' : Heap K} (f : Frame W h h') (hw : h.WF) {x : Nat} {d : DArr K} (hx : x ∉ W) (e : h.get? x = some d) : h'.get? x = some d := by
  obtain ⟨o, a, ho, ha, rfl⟩ := Heap.get?_some e
  have h1 := f.objs x o ho
  have h2 := f.same o.buf a ha fun y hy he => by
    unfold Heap.buf? at he
    cases hoy : h.objs[y]? with
    | none => simp [hoy] at he
    | some o' =>
      rw [hoy, Option.map_some, Option.some_inj] at he
      exact hx (hw.inj ho hoy he.symm ▸ hy)
  simp [Heap.get?, h1, h2]

theorem Heap.alloc_wf {h : Heap K} (hw : h.WF) (d : DArr K) : (h.alloc d).WF := by
  refine ⟨fun o ho => ?_, ?_⟩
  · simp only [alloc, List.mem_append, List.mem_singleton, List.length_append, List.length_singleton] at ho ⊢
    rcases ho with ho | rfl
    · have := hw.lt o ho; omega
    · simp
  · simp only [alloc, List.map_append, List.map_cons, List.map_nil, List.nodup_append, hw.nodup, List.nodup_cons, List.not_mem_nil, not_false_eq_true, List.nodup_nil, and_self, true_and, List.mem_map,
      List.mem_singleton]
    rintro _ ⟨o, ho, rfl⟩ _ rfl
    have := hw.lt o ho
    omega

theorem Heap.alloc_frame {h : Heap K} (d : DArr K) : Frame [] h (h.alloc d) := by
  refine ⟨fun x o e => ?_, by simp [alloc], fun b a e _ => ?_, fun x o hx e => ?_⟩
  · have := (List.getElem?_eq_some_iff.1 e).1
    rw [alloc, List.getElem?_append_left this, e]
  · have := (List.getElem?_eq_some_iff.1 e).1
    rw [alloc]
    dsimp only
    rw [List.getElem?_append_left this, e]
  · have h1 : x = h.objs.length := by
      have := (List.getElem?_eq_some_iff.1 e).1
      simp [alloc] at this
      omega
    subst h1
    simp [alloc] at e
    simp [← e]

theorem Heap.alloc_get {h : Heap K} (d : DArr K) : (h.alloc d).get? h.objs.length = some d := by
  simp [alloc, get?, DObj.val]

theorem Heap.write_eq {h : Heap K} {x : Nat} {o : DObj} (e : h.objs[x]? = some o) (a : NDArray K) : h.write x a = ⟨h.objs, h.bufs.set o.buf a⟩ := by
  simp [write, buf?, e, poke]

theorem Heap.write_wf {h : Heap K} (hw : h.WF) (x : Nat) (a : NDArray K) : (h.write x a).WF := by
  unfold write
  cases h.buf? x with
  | none => exact hw
  | some b => exact ⟨by simpa [poke] using hw.lt, by simpa [poke] using hw.nodup⟩

theorem Heap.write_frame {h : Heap K} (x : Nat) (a : NDArray K) : Frame [x] h (h.write x a) := by
  unfold write
  cases e : h.buf? x with
  | none => exact .refl
  | some b =>
    refine ⟨fun _ _ e => e, by simp [poke], fun b' a' e' hb => ?_, fun y o hy e => ?_⟩
    · have h1 : b ≠ b' := fun hc => hb x (by simp) (by rw [e, hc])
      show (h.bufs.set b a)[b']? = some a'
      rw [List.getElem?_set_ne h1, e']
    · have := (List.getElem?_eq_some_iff.1 e).1
      simp [poke] at this
      omega

theorem Heap.write_get {h : Heap K} {x : Nat} {d : DArr K} (e : h.get? x = some d) (a : NDArray K) : (h.write x a).get? x = some { d with larr := a } := by
  obtain ⟨o, a', ho, ha, rfl⟩ := Heap.get?_some e
  have := (List.getElem?_eq_some_iff.1 ha).1
  rw [write_eq ho]
  simp [get?, ho, this, DObj.val]

/-! ### Outcomes of programs -/

/-- all outcomes of the program of a rank, whatever it receives -/
def Prog.Post {M : Type} (Q : Except Err α → Prop) : Prog M α → Prop
  | .ret a => Q (.ok a)
  | .throw e => Q (.error e)
  | .send _ _ _ k => k.Post Q
  | .recv _ _ k => ∀ m, (k m).Post Q
  | .coll _ _ _ k => ∀ ms, (k ms).Post Q

theorem Prog.Post.safe {M : Type} {Q : Except Err α → Prop} {p : Prog M α} (h : p.Post Q) (r : Nat) :
    Safe (fun _ _ _ _ => True) (fun _ _ _ _ => True) (fun _ o => Q o) r p := by
  induction p with
  | ret a => exact h
  | throw e => exact h
  | send j t v k ih => exact ⟨trivial, ih h⟩
  | recv i t k ih => exact fun v _ => ih v (h v)
  | coll kind c v k ih => exact ⟨trivial, fun w _ => ih _ (h _)⟩

/-- in every execution of any programs of the other ranks -/
theorem Prog.Post.sound {M : Type} {n : Nat} {ps : Nat → Prog M α} {r : Nat} {Q : Except Err α → Prop} (h : (ps r).Post Q) (hr : r < n) {s : St M α} (hs : Run n (St.init ps) s)
    {o : Except Err α} (ho : s.prog r = Prog.lift o) : Q o := by
  have := Safe.sound (n := n) (ps := ps) (G := fun _ _ _ _ => True) (H := fun _ _ _ _ => True) (R := fun q o => q = r → Q o) (fun q _ => ?_) hs hr ho
  · exact this rfl
  · by_cases e : q = r
    · subst e
      exact (h.safe q).mono fun o ho _ => ho
    · exact Safe.trivial (fun _ _ _ => trivial) (fun _ _ _ => trivial) fun _ hc => absurd hc e

theorem Prog.Post.mono {M : Type} {Q Q' : Except Err α → Prop} {p : Prog M α} (h : p.Post Q) (hQ : ∀ o, Q o → Q' o) : p.Post Q' := by
  induction p with
  | ret a => exact hQ _ h
  | throw e => exact hQ _ h
  | send j t v k ih => exact ih h
  | recv i t k ih => exact fun v => ih v (h v)
  | coll kind c v k ih => exact fun w => ih _ (h _)

theorem Prog.Post.trivial {M : Type} {Q : Except Err α → Prop} (p : Prog M α) (hQ : ∀ o, Q o) : p.Post Q := by
  induction p with
  | ret a => exact hQ _
  | throw e => exact hQ _
  | send j t v k ih => exact ih
  | recv i t k ih => exact ih
  | coll kind c v k ih => exact ih

theorem Prog.Post.bind {M : Type} {Q : Except Err α → Prop} {Q' : Except Err β → Prop} {p : Prog M α} {k : α → Prog M β} (h : p.Post Q)
    (h1 : ∀ a, Q (.ok a) → (k a).Post Q') (h2 : ∀ e, Q (.error e) → Q' (.error e)) : (p.bind k).Post Q' := by
  induction p with
  | ret a => exact h1 a h
  | throw e => exact h2 e h
  | send j t v k ih => exact ih h
  | recv i t k ih => exact fun v => ih v (h v)
  | coll kind c v k ih => exact fun w => ih _ (h _)

/-! ### Programs on the memory implementing programs on values -/

/-- The two programs communicate in the same way, and their outcomes are related: `V` for results, `E` for the memory after an exception. -/
inductive HRel (V : α → Heap K → β → Prop) (E : Heap K → Prop) : P K (Except Err α × Heap K) → P K β → Prop
  | ret {a h b} (hv : V a h b) : HRel V E (.ret (.ok a, h)) (.ret b)
  | err {e h} (he : E h) : HRel V E (.ret (.error e, h)) (.throw e)
  | send {j t v p q} (hk : HRel V E p q) : HRel V E (.send j t v p) (.send j t v q)
  | recv {i t p q} (hk : ∀ m, HRel V E (p m) (q m)) : HRel V E (.recv i t p) (.recv i t q)
  | coll {kind c v p q} (hk : ∀ ms, HRel V E (p ms) (q ms)) : HRel V E (.coll kind c v p) (.coll kind c v q)

variable {V : α → Heap K → β → Prop} {E : Heap K → Prop}

theorem HRel.mono {V' : α → Heap K → β → Prop} {E' : Heap K → Prop} {p : P K (Except Err α × Heap K)} {q : P K β} (h : HRel V E p q) (hV : ∀ a h b, V a h b → V' a h b)
    (hE : ∀ h, E h → E' h) : HRel V' E' p q := by
  induction h with
  | ret hv => exact .ret (hV _ _ _ hv)
  | err he => exact .err (hE _ he)
  | send _ ih => exact .send ih
  | recv _ ih => exact .recv ih
  | coll _ ih => exact .coll ih

theorem HRel.bind {V' : γ → Heap K → δ → Prop} {E' : Heap K → Prop} {p : P K (Except Err α × Heap K)} {q : P K β} {k : α → HP K γ} {k' : β → P K δ} (h : HRel V E p q)
    (hk : ∀ a h b, V a h b → HRel V' E' (k a h) (k' b)) (hE : ∀ h, E h → E' h) :
    HRel V' E' (p.bind fun x => match x.1 with
      | .ok a => k a x.2
      | .error e => .ret (.error e, x.2)) (q.bind k') := by
  induction h with
  | ret hv => exact hk _ _ _ hv
  | err he => exact .err (hE _ he)
  | send _ ih => exact .send ih
  | recv _ ih => exact .recv ih
  | coll _ ih => exact .coll ih

/-- the outcomes of the program on the memory -/
theorem HRel.post {p : P K (Except Err α × Heap K)} {q : P K β} (h : HRel V E p q) :
    p.Post fun o => ∃ x, o = .ok x ∧ ((∃ a b, x.1 = .ok a ∧ V a x.2 b) ∨ ∃ e, x.1 = .error e ∧ E x.2) := by
  induction h with
  | ret hv => exact ⟨_, rfl, .inl ⟨_, _, rfl, hv⟩⟩
  | err he => exact ⟨_, rfl, .inr ⟨_, rfl, he⟩⟩
  | send _ ih => exact ih
  | recv _ ih => exact ih
  | coll _ ih => exact ih

/-- the same with a property of the outcomes of the other program -/
theorem HRel.post_and {p : P K (Except Err α × Heap K)} {q : P K β} {Q : Except Err β → Prop} (h : HRel V E p q) (hq : q.Post Q) : HRel (fun a h b => V a h b ∧ Q (.ok b)) E p q := by
  induction h with
  | ret hv => exact .ret ⟨hv, hq⟩
  | err he => exact .err he
  | send _ ih => exact .send (ih hq)
  | recv _ ih => exact .recv fun m => ih m (hq m)
  | coll _ ih => exact .coll fun m => ih m (hq m)

/-- Executions of the programs on values are matched by executions of the programs on the memory. -/
theorem HRel.step {n : Nat} {V : Nat → α → Heap K → β → Prop} {E : Nat → Heap K → Prop} {ps : Nat → P K (Except Err α × Heap K)} {qs qs' : Nat → P K β}
    (h : ∀ r < n, HRel (V r) (E r) (ps r) (qs r)) (hs : SStep n qs qs') : ∃ ps', SStep n ps ps' ∧ ∀ r < n, HRel (V r) (E r) (ps' r) (qs' r) := by
  cases hs with
  | @rdv i j t v k k' hi hj hp hq =>
    have h1 := h i hi
    have h2 := h j hj
    rw [hp] at h1
    rw [hq] at h2
    generalize e1 : ps i = pi at h1
    generalize e2 : ps j = pj at h2
    cases h1 with
    | @send _ _ _ p _ hk =>
      cases h2 with
      | @recv _ _ p' _ hk' =>
        refine ⟨_, .rdv hi hj e1 e2, fun r hr => ?_⟩
        by_cases e : r = j
        · subst e; simpa using hk' v
        · by_cases e' : r = i
          · subst e'; simpa [Function.update_of_ne e] using hk
          · simpa [Function.update_of_ne e, Function.update_of_ne e'] using h r hr
  | @col c kind v kk hne hlt hp =>
    have h1 : ∀ r ∈ c, ∃ k, ps r = .coll kind c (v r) k ∧ ∀ ms, HRel (V r) (E r) (k ms) (kk r ms) := fun r hr => by
      have h1 := h r (hlt r hr)
      rw [hp r hr] at h1
      generalize e1 : ps r = pi at h1
      cases h1 with
      | @coll _ _ _ p _ hk => exact ⟨p, rfl, hk⟩
    haveI : Nonempty (List (Msg K) → P K (Except Err α × Heap K)) := ⟨fun _ => .throw .value⟩
    choose! k hk1 hk2 using h1
    refine ⟨_, .col (kk := k) hne hlt hk1, fun r hr => ?_⟩
    by_cases e : r ∈ c
    · simpa [e] using hk2 r e _
    · simpa [e] using h r hr

theorem HRel.steps {n : Nat} {V : Nat → α → Heap K → β → Prop} {E : Nat → Heap K → Prop} {ps : Nat → P K (Except Err α × Heap K)} {qs qs' : Nat → P K β}
    (h : ∀ r < n, HRel (V r) (E r) (ps r) (qs r)) (hs : ReflTransGen (SStep n) qs qs') : ∃ ps', ReflTransGen (SStep n) ps ps' ∧ ∀ r < n, HRel (V r) (E r) (ps' r) (qs' r) := by
  induction hs with
  | refl => exact ⟨ps, .refl, h⟩
  | tail _ h2 ih =>
    obtain ⟨p1, h3, h4⟩ := ih
    obtain ⟨p2, h5, h6⟩ := HRel.step h4 h2
    exact ⟨p2, h3.tail h5, h6⟩

/-- If the programs on values always end with the results `ρ`, the programs on the memory always end with related results. -/
theorem HRel.always {n : Nat} {V : Nat → α → Heap K → β → Prop} {E : Nat → Heap K → Prop} {ps : Nat → P K (Except Err α × Heap K)} {qs : Nat → P K β} {ρ : Nat → Except Err β}
    (h : ∀ r < n, HRel (V r) (E r) (ps r) (qs r)) (hq : Always n qs ρ) :
    ∃ out : Nat → Except Err α × Heap K, Always n ps (fun r => .ok (out r)) ∧
      ∀ r < n, match ρ r with
        | .ok b => ∃ a, (out r).1 = .ok a ∧ V r a (out r).2 b
        | .error e => (out r).1 = .error e ∧ E r (out r).2 := by
  obtain ⟨qs', h1, h2⟩ := hq.runs
  obtain ⟨ps', h3, h4⟩ := HRel.steps h h1
  have h5 : ∀ r < n, ∃ x, ps' r = .ret x ∧ match ρ r with
        | .ok b => ∃ a, x.1 = .ok a ∧ V r a x.2 b
        | .error e => x.1 = .error e ∧ E r x.2 := fun r hr => by
    have h6 := h4 r hr
    rw [h2 r hr] at h6
    cases hρ : ρ r with
    | ok b =>
      rw [hρ] at h6
      generalize ps' r = p at h6
      cases h6 with
      | @ret a h _ hv => exact ⟨_, rfl, a, rfl, hv⟩
    | error e =>
      rw [hρ] at h6
      generalize ps' r = p at h6
      cases h6 with
      | err he => exact ⟨_, rfl, rfl, he⟩
  haveI : Nonempty (Except Err α × Heap K) := ⟨(.error .value, ⟨[], []⟩)⟩
  choose! out ho1 ho2 using h5
  exact ⟨out, Runs.always ⟨ps', h3, fun r hr => ho1 r hr⟩, ho2⟩

/-- `m`, started in the memory `h`, implements `p`: it only changes the objects in `W`, and its results are related by `V`. -/
def Impl (h : Heap K) (m : HP K α) (p : P K β) (W : List Nat) (V : α → Heap K → β → Prop) : Prop :=
  HRel (fun a h' b => h'.WF ∧ Frame W h h' ∧ V a h' b) (fun h' => h'.WF ∧ Frame W h h') (m h) p

variable {h : Heap K} {m : HP K α} {p : P K β} {W : List Nat}

theorem Impl.bind {V' : γ → Heap K → δ → Prop} {k : α → HP K γ} {k' : β → P K δ} {W' : List Nat} (W₂ : α → List Nat) (h1 : Impl h m p W V) (hW : ∀ x ∈ W, x ∈ W')
    (h2 : ∀ a h' b, h'.WF → Frame W h h' → V a h' b → (∀ x ∈ W₂ a, x ∈ W' ∨ h.objs.length ≤ x) ∧ Impl h' (k a) (k' b) (W₂ a) V') : Impl h (m >>= k) (p.bind k') W' V' := by
  refine HRel.bind h1 (fun a h' b hv => ?_) fun h' he => ⟨he.1, he.2.mono hW⟩
  obtain ⟨h3, h4⟩ := h2 a h' b hv.1 hv.2.1 hv.2.2
  exact h4.mono (fun a' h'' b' hv' => ⟨hv'.1, hv.2.1.trans hv'.2.1 hW h3, hv'.2.2⟩) fun h'' he => ⟨he.1, hv.2.1.trans he.2 hW h3⟩

theorem Impl.of_bind_ret (h1 : Impl h m (p.bind Prog.ret) W V) : Impl h m p W V := by rwa [Prog.bind_ret] at h1

/-- a first part that changes nothing -/
theorem Impl.bind_nil {V' : γ → Heap K → δ → Prop} {k : α → HP K γ} {k' : β → P K δ} {W' : List Nat} (h1 : Impl h m p [] V)
    (h2 : ∀ a h' b, h'.WF → Frame [] h h' → V a h' b → Impl h' (k a) (k' b) W' V') : Impl h (m >>= k) (p.bind k') W' V' :=
  h1.bind (fun _ => W') (by simp) fun a h' b hw hf hv => ⟨fun x hx => .inl hx, h2 a h' b hw hf hv⟩

theorem Impl.mono {V' : α → Heap K → β → Prop} {W' : List Nat} (h1 : Impl h m p W V) (hW : ∀ x ∈ W, x ∈ W') (hV : ∀ a h' b, h'.WF → Frame W h h' → V a h' b → V' a h' b) : Impl h m p W' V' :=
  HRel.mono h1 (fun a h' b hv => ⟨hv.1, hv.2.1.mono hW, hV _ _ _ hv.1 hv.2.1 hv.2.2⟩) fun h' he => ⟨he.1, he.2.mono hW⟩

theorem Impl.ret (hw : h.WF) {a : α} {b : β} (hV : V a h b) : Impl h (HP.ret a) (.ret b) W V := HRel.ret (a := a) (b := b) (show _ ∧ _ ∧ _ from ⟨hw, .refl, hV⟩)

theorem Impl.throw (hw : h.WF) {e : Err} : Impl h (HP.throw e) (.throw e) W V := .err ⟨hw, .refl⟩

theorem Impl.lift (hw : h.WF) (p : P K α) : Impl h (HP.lift p) p W (fun a h' b => a = b ∧ h' = h) := by
  show HRel _ _ (p.attempt.bind fun o => .ret (o, h)) p
  induction p with
  | ret a => exact .ret ⟨hw, .refl, rfl, rfl⟩
  | throw e => exact .err ⟨hw, .refl⟩
  | send j t v k ih => exact .send ih
  | recv i t k ih => exact .recv ih
  | coll kind c v k ih => exact .coll ih

theorem Impl.lift_post (hw : h.WF) {p : P K α} {Q : Except Err α → Prop} (hq : p.Post Q) : Impl h (HP.lift p) p W (fun a h' b => a = b ∧ h' = h ∧ Q (.ok b)) :=
  (HRel.post_and (Impl.lift hw p) hq).mono (fun _ _ _ hv => ⟨hv.1.1, hv.1.2.1, hv.1.2.2.1, hv.1.2.2.2, hv.2⟩) fun _ he => he

theorem Impl.read (hw : h.WF) {x : Nat} {d : DArr K} (hx : h.get? x = some d) : Impl h (HP.read x) (.ret d) W (fun a h' b => a = b ∧ h' = h ∧ b = d) := by
  show HRel _ _ (HP.read x h) _
  unfold HP.read
  rw [hx]
  exact .ret ⟨hw, .refl, rfl, rfl, rfl⟩

theorem Impl.alloc (hw : h.WF) (d : DArr K) : Impl h (HP.alloc d) (.ret d) W (fun a h' b => a = h.objs.length ∧ h' = h.alloc d ∧ b = d) :=
  HRel.ret (a := h.objs.length) (b := d) <| show _ ∧ _ ∧ _ from ⟨h.alloc_wf hw d, (h.alloc_frame d).mono (by simp), rfl, rfl, rfl⟩

theorem Impl.write (hw : h.WF) (x : Nat) (a : NDArray K) : Impl h (HP.write x a) (.ret ()) [x] (fun _ h' _ => h' = h.write x a) :=
  HRel.ret (a := ()) (b := ()) <| show _ ∧ _ ∧ _ from ⟨h.write_wf hw x a, h.write_frame x a, rfl⟩

/-- reading an object at the beginning -/
theorem Impl.read_bind {V : γ → Heap K → δ → Prop} {x : Nat} {d : DArr K} (hx : h.get? x = some d) {k : DArr K → HP K γ} {p : P K δ} (hk : Impl h (k d) p W V) :
    Impl h (HP.read x >>= k) p W V := by
  show HRel _ _ (HP.bind (HP.read x) k h) _
  unfold HP.bind HP.read
  rw [hx]
  exact hk

theorem Impl.lift_bind {V : γ → Heap K → δ → Prop} (hw : h.WF) {q : P K α} {k : α → HP K γ} {k' : α → P K δ} (hk : ∀ a, Impl h (k a) (k' a) W V) : Impl h (HP.lift q >>= k) (q.bind k') W V :=
  Impl.bind_nil (Impl.lift hw q) fun a h' b _ _ hv => by
    obtain ⟨rfl, rfl⟩ := hv
    exact hk a

/-- the value of a new object -/
def Gives (h : Heap K) (x : Nat) (h' : Heap K) (d : DArr K) : Prop := New h x ∧ h'.get? x = some d

end Verif

/- The solvers on the memory: what they leave unchanged, and that they implement the solvers on values. -/
import Verif.Model.HeapSolvers
import Verif.Proofs.HeapPost

set_option linter.unusedSectionVars false

namespace Verif
open NDArray

/-! ### Objects that existed before -/

section
variable {K α β : Type} {h₀ h : Heap K}

/-- `m`, started in a later state `h` of the memory `h₀`, leaves all objects of `h₀` unchanged. -/
def Keeps (h₀ h : Heap K) (m : HP K α) (Q : α → Heap K → Prop) : Prop :=
  (m h).Post fun o => ∃ x, o = .ok x ∧ x.2.WF ∧ Frame [] h₀ x.2 ∧ h.objs.length ≤ x.2.objs.length ∧ ∀ a, x.1 = .ok a → Q a x.2

variable {Q : α → Heap K → Prop}

theorem HPost.keeps {m : HP K α} {W : List Nat} (hm : HPost h m W Q) (hf : Frame [] h₀ h) (hW : ∀ x ∈ W, New h₀ x) : Keeps h₀ h m Q :=
  Prog.Post.mono hm fun _ ⟨x, ho, hw, hf', hq⟩ => ⟨x, ho, hw, hf.trans hf' (fun _ h => h) fun y hy => .inr (hW y hy), hf'.objs_len, hq⟩

theorem Keeps.ret (hw : h.WF) (hf : Frame [] h₀ h) {a : α} (hQ : Q a h) : Keeps h₀ h (HP.ret a) Q := ⟨_, rfl, hw, hf, le_refl _, fun a' ha' => by cases ha'; exact hQ⟩

theorem Keeps.throw (hw : h.WF) (hf : Frame [] h₀ h) {e : Err} : Keeps h₀ h (HP.throw e : HP K α) Q := ⟨_, rfl, hw, hf, le_refl _, fun a' ha' => by cases ha'⟩

theorem Keeps.bind {m : HP K α} {k : α → HP K β} {Q' : β → Heap K → Prop} (h1 : Keeps h₀ h m Q)
    (h2 : ∀ a h', h'.WF → Frame [] h₀ h' → h.objs.length ≤ h'.objs.length → Q a h' → Keeps h₀ h' (k a) Q') : Keeps h₀ h (m >>= k) Q' := by
  refine Prog.Post.bind h1 (fun x hx => ?_) fun e he => by obtain ⟨x, hx, -⟩ := he; cases hx
  obtain ⟨x', hx', hw, hf, hl, hq⟩ := hx
  cases hx'
  obtain ⟨o, h'⟩ := x
  cases o with
  | error e => exact ⟨_, rfl, hw, hf, hl, fun a ha => by cases ha⟩
  | ok a =>
    exact Prog.Post.mono (h2 a h' hw hf hl (hq a rfl)) fun o ⟨x, ho, hw', hf', hl', hq'⟩ => ⟨x, ho, hw', hf', le_trans hl hl', hq'⟩

theorem Keeps.lift (hw : h.WF) (hf : Frame [] h₀ h) (p : P K α) : Keeps h₀ h (HP.lift p) fun _ _ => True :=
  ((Impl.lift (W := []) hw p).hpost fun _ _ _ _ => trivial).keeps hf (by simp)

theorem Keeps.mono {m : HP K α} {Q' : α → Heap K → Prop} (h1 : Keeps h₀ h m Q) (hQ : ∀ a h', Q a h' → Q' a h') : Keeps h₀ h m Q' :=
  Prog.Post.mono h1 fun _ ⟨x, ho, hw, hf, hl, hq⟩ => ⟨x, ho, hw, hf, hl, fun a ha => hQ a x.2 (hq a ha)⟩

/-- an array made of objects created since `h₀` -/
def Own (h₀ h : Heap K) (a : XRef) : Prop := Live h a.refs ∧ ∀ i ∈ a.refs, New h₀ i

theorem Live.mono {l : List Nat} {h' : Heap K} (hl : Live h l) (hle : h.objs.length ≤ h'.objs.length) : Live h' l := fun x hx => lt_of_lt_of_le (hl x hx) hle
theorem Own.mono {a : XRef} {h' : Heap K} (hl : Own h₀ h a) (hle : h.objs.length ≤ h'.objs.length) : Own h₀ h' a := ⟨hl.1.mono hle, hl.2⟩

end

section
variable {K : Type} [Field K] [StarRing K] {h₀ h : Heap K} {c : Ctx K} {a b : XRef}

theorem keeps_new (op : NewOp K) (hw : h.WF) (hf : Frame [] h₀ h) (ha : Live h a.refs) (hb : Live h b.refs) : Keeps h₀ h (op.run c a b) fun z h' => Own h₀ h' z :=
  ((newOp_post (c := c) op hw ha hb).mono (W' := []) (Q' := fun z h' => Own h₀ h' z) (by simp) fun z h' _ _ hz => ⟨fun i hi => by
    obtain ⟨-, m, hm, -⟩ := hz i hi
    unfold Heap.buf? at hm
    cases ho : h'.objs[i]? with
    | none => simp [ho] at hm
    | some o => exact (List.getElem?_eq_some_iff.1 ho).1, fun i hi => hf.objs_len.trans (hz i hi).1⟩).keeps hf (by simp)

theorem keeps_copy (hw : h.WF) (hf : Frame [] h₀ h) (ha : Live h a.refs) : Keeps h₀ h (HX.copy c a) fun z h' => Own h₀ h' z := keeps_new (b := a) .copy hw hf ha ha
theorem keeps_conj (hw : h.WF) (hf : Frame [] h₀ h) (ha : Live h a.refs) : Keeps h₀ h (HX.conj c a) fun z h' => Own h₀ h' z := keeps_new (b := a) .conj hw hf ha ha
theorem keeps_smul (hw : h.WF) (hf : Frame [] h₀ h) (ha : Live h a.refs) (t : DType) (s : K) : Keeps h₀ h (HX.smul c t s a) fun z h' => Own h₀ h' z := keeps_new (b := a) (.smul t s) hw hf ha ha
theorem keeps_add (hw : h.WF) (hf : Frame [] h₀ h) (ha : Live h a.refs) (hb : Live h b.refs) : Keeps h₀ h (HX.add c a b) fun z h' => Own h₀ h' z := keeps_new .add hw hf ha hb
theorem keeps_sub (hw : h.WF) (hf : Frame [] h₀ h) (ha : Live h a.refs) (hb : Live h b.refs) : Keeps h₀ h (HX.sub c a b) fun z h' => Own h₀ h' z := keeps_new .sub hw hf ha hb

theorem keeps_iadd (hw : h.WF) (hf : Frame [] h₀ h) (ha : Own h₀ h a) (hb : Live h b.refs) : Keeps h₀ h (HX.iadd c a b) fun z _ => z = a :=
  (HX.iadd_post hw ha.1 hb).keeps hf ha.2
theorem keeps_isub (hw : h.WF) (hf : Frame [] h₀ h) (ha : Own h₀ h a) (hb : Live h b.refs) : Keeps h₀ h (HX.isub c a b) fun z _ => z = a :=
  (HX.isub_post hw ha.1 hb).keeps hf ha.2

theorem keeps_dot (hw : h.WF) (hf : Frame [] h₀ h) (ha : Live h a.refs) (hb : Live h b.refs) : Keeps h₀ h (HX.dot c a b) fun _ _ => True := by
  obtain ⟨u, hu⟩ := hw.hasX ha
  obtain ⟨v, hv⟩ := hw.hasX hb
  exact ((HX.dot_impl hw hu hv).hpost fun _ _ _ _ => trivial).keeps hf (by simp)

theorem keeps_read (hw : h.WF) (hf : Frame [] h₀ h) (ha : Live h a.refs) : Keeps h₀ h (HX.read a) fun _ _ => True := by
  obtain ⟨u, hu⟩ := hw.hasX ha
  have := HX.read_bind (W := []) hw hu (k := fun v => HP.ret v) (p := .ret u) (V := fun _ _ _ => True) (Impl.ret hw trivial)
  have e : (HX.read a >>= fun v => HP.ret v) = HX.read (K := K) a := by
    funext hh
    show HP.bind _ _ hh = _
    unfold HP.bind HP.ret
    conv_rhs => rw [← Prog.bind_ret (HX.read a hh)]
    congr 1
    funext p
    obtain ⟨p1, p2⟩ := p
    cases p1 <;> rfl
  rw [e] at this
  exact (this.hpost fun _ _ _ _ => trivial).keeps hf (by simp)

/-- the program changes nothing but its argument and what it creates -/
def OnlyArg (f : XRef → HP K XRef) : Prop := ∀ (h : Heap K) (a : XRef), h.WF → Live h a.refs → HPost h (f a) a.refs fun z h' => Live h' z.refs

theorem OnlyArg.keeps {f : XRef → HP K XRef} (hf' : OnlyArg f) (hw : h.WF) (hf : Frame [] h₀ h) (ha : Own h₀ h a) : Keeps h₀ h (f a) fun z h' => Live h' z.refs :=
  (hf' h a hw ha.1).keeps hf ha.2

end

section
variable {K : Type} [RCLike K] {h₀ h : Heap K} {c : Ctx K} {op : HXOp K} {cb : XRef → HP K Unit}

theorem keeps_absDot {a b : XRef} (hw : h.WF) (hf : Frame [] h₀ h) (ha : Live h a.refs) (hb : Live h b.refs) : Keeps h₀ h (HX.absDot c a b) fun _ _ => True := by
  unfold HX.absDot
  refine Keeps.bind (keeps_conj hw hf hb) fun z h1 hw1 hf1 hl1 hz => ?_
  exact Keeps.bind (keeps_dot hw1 hf1 (ha.mono hl1) hz.1) fun v h2 hw2 hf2 hl2 _ => .ret hw2 hf2 trivial

theorem keeps_norm {a : XRef} (hw : h.WF) (hf : Frame [] h₀ h) (ha : Live h a.refs) : Keeps h₀ h (HX.norm c a) fun _ _ => True := by
  unfold HX.norm
  exact Keeps.bind (keeps_read hw hf ha) fun v h1 hw1 hf1 _ _ => Keeps.lift hw1 hf1 _

/-- the callback changes nothing but its argument -/
def OnlyArgCb (cb : XRef → HP K Unit) : Prop := ∀ (h : Heap K) (a : XRef), h.WF → Live h a.refs → HPost h (cb a) a.refs fun _ _ => True

/-- the arrays of the solver that are changed in place belong to it -/
def HCG.Inv (h₀ h : Heap K) (s : HCG) (x : XRef) : Prop := Own h₀ h s.r ∧ Own h₀ h s.c ∧ Own h₀ h x

theorem HCG.setup_keeps (hop : OnlyArg (op.mv c)) {y x0 : XRef} (hw : h.WF) (hf : Frame [] h₀ h) (hy : Live h y.refs) (hx : Live h x0.refs) (niter : Option Int) (tol : ℝ) :
    Keeps h₀ h (HCG.setup c op y x0 niter tol) fun p h' => HCG.Inv h₀ h' p.1 p.2 := by
  unfold HCG.setup
  refine Keeps.bind (keeps_copy hw hf hx) fun x h1 hw1 hf1 hl1 hx1 => ?_
  refine Keeps.bind (hop.keeps hw1 hf1 hx1) fun ax h2 hw2 hf2 hl2 hax => ?_
  refine Keeps.bind (keeps_sub hw2 hf2 ((hy.mono hl1).mono hl2) hax) fun r h3 hw3 hf3 hl3 hr => ?_
  refine Keeps.bind (keeps_copy hw3 hf3 hr.1) fun cc h4 hw4 hf4 hl4 hcc => ?_
  refine Keeps.bind (keeps_absDot hw4 hf4 (hr.1.mono hl4) (hr.1.mono hl4)) fun k h5 hw5 hf5 hl5 _ => ?_
  exact .ret hw5 hf5 ⟨(hr.mono hl4).mono hl5, hcc.mono hl5, (((hx1.mono hl2).mono hl3).mono hl4).mono hl5⟩

theorem HCG.step_keeps (hop : OnlyArg (op.mv c)) {s : HCG} {x : XRef} (hw : h.WF) (hf : Frame [] h₀ h) (hi : HCG.Inv h₀ h s x) :
    Keeps h₀ h (HCG.step c op s x) fun p h' => HCG.Inv h₀ h' p.1 p.2 := by
  unfold HCG.step
  obtain ⟨hr, hc, hx⟩ := hi
  refine Keeps.bind (hop.keeps hw hf hc) fun opc h1 hw1 hf1 l1 hopc => ?_
  have hr := hr.mono l1; have hc := hc.mono l1; have hx := hx.mono l1
  refine Keeps.bind (keeps_absDot hw1 hf1 hc.1 hopc) fun copc h2 hw2 hf2 l2 _ => ?_
  have hr := hr.mono l2; have hc := hc.mono l2; have hx := hx.mono l2; have hopc := hopc.mono l2
  refine Keeps.bind (Keeps.lift hw2 hf2 _) fun a h3 hw3 hf3 l3 _ => ?_
  have hr := hr.mono l3; have hc := hc.mono l3; have hx := hx.mono l3; have hopc := hopc.mono l3
  refine Keeps.bind (keeps_smul hw3 hf3 hc.1 _ _) fun ac h4 hw4 hf4 l4 hac => ?_
  have hr := hr.mono l4; have hc := hc.mono l4; have hx := hx.mono l4; have hopc := hopc.mono l4
  refine Keeps.bind (keeps_iadd hw4 hf4 hx hac.1) fun x' h5 hw5 hf5 l5 ex => ?_
  subst ex
  have hr := hr.mono l5; have hc := hc.mono l5; have hx := hx.mono l5; have hopc := hopc.mono l5
  refine Keeps.bind (keeps_smul hw5 hf5 hopc _ _) fun ao h6 hw6 hf6 l6 hao => ?_
  have hr := hr.mono l6; have hc := hc.mono l6; have hx := hx.mono l6
  refine Keeps.bind (keeps_isub hw6 hf6 hr hao.1) fun r' h7 hw7 hf7 l7 er => ?_
  subst er
  have hr := hr.mono l7; have hc := hc.mono l7; have hx := hx.mono l7
  refine Keeps.bind (keeps_absDot hw7 hf7 hr.1 hr.1) fun k h8 hw8 hf8 l8 _ => ?_
  have hr := hr.mono l8; have hc := hc.mono l8; have hx := hx.mono l8
  refine Keeps.bind (Keeps.lift hw8 hf8 _) fun b h9 hw9 hf9 l9 _ => ?_
  have hr := hr.mono l9; have hc := hc.mono l9; have hx := hx.mono l9
  refine Keeps.bind (keeps_smul hw9 hf9 hc.1 _ _) fun bc h10 hw10 hf10 l10 hbc => ?_
  have hr := hr.mono l10; have hx := hx.mono l10
  refine Keeps.bind (keeps_add hw10 hf10 hr.1 hbc.1) fun cc h11 hw11 hf11 l11 hcc => ?_
  exact .ret hw11 hf11 ⟨hr.mono l11, hcc, hx.mono l11⟩

theorem HCG.loop_keeps (hop : OnlyArg (op.mv c)) (hcb : OnlyArgCb cb) (niter : Int) (k : Nat) {s : HCG} {x : XRef} (hw : h.WF) (hf : Frame [] h₀ h) (hi : HCG.Inv h₀ h s x) (tr : List (XArr K)) :
    Keeps h₀ h (HCG.loop c op cb niter k s x tr) fun p h' => Own h₀ h' p.2.1 := by
  induction k generalizing h s x tr with
  | zero => exact .ret hw hf hi.2.2
  | succ k ih =>
    unfold HCG.loop
    split_ifs
    · refine Keeps.bind (HCG.step_keeps hop hw hf hi) fun p h1 hw1 hf1 l1 hi1 => ?_
      refine Keeps.bind (keeps_read hw1 hf1 hi1.2.2.1) fun v h2 hw2 hf2 l2 _ => ?_
      have hi2 : HCG.Inv h₀ h2 p.1 p.2 := ⟨hi1.1.mono l2, hi1.2.1.mono l2, hi1.2.2.mono l2⟩
      refine Keeps.bind ((hcb h2 p.2 hw2 hi2.2.2.1).keeps hf2 hi2.2.2.2) fun _ h3 hw3 hf3 l3 _ => ?_
      exact ih hw3 hf3 ⟨hi2.1.mono l3, hi2.2.1.mono l3, hi2.2.2.mono l3⟩ _
    · exact .ret hw hf hi.2.2

theorem HCG.solve_keeps (hop : OnlyArg (op.mv c)) (hcb : OnlyArgCb cb) {y x0 : XRef} (hw : h.WF) (hy : Live h y.refs) (hx : Live h x0.refs) (niter : Option Int) (tol : ℝ) :
    Keeps h h (HCG.solve c op cb y x0 niter tol) fun p h' => Own h h' p.1 := by
  unfold HCG.solve
  refine Keeps.bind (HCG.setup_keeps hop hw .refl hy hx niter tol) fun p h1 hw1 hf1 l1 hi1 => ?_
  refine Keeps.bind (Q := fun p h' => Own h h' p.2.1) ?_ fun q h2 hw2 hf2 l2 hq => .ret hw2 hf2 hq
  unfold HCG.run
  split
  · exact .throw hw1 hf1
  · exact HCG.loop_keeps hop hcb _ _ hw1 hf1 hi1 _

/-! CGLS -/

def HCGLS.Inv (h₀ h : Heap K) (s : HCGLS) (x : XRef) : Prop := Own h₀ h s.s ∧ Own h₀ h s.c ∧ Own h₀ h x ∧ Live h s.q.refs

theorem HCGLS.setup_keeps (hop : OnlyArg (op.mv c)) (hop' : OnlyArg (op.rmv c)) {y x0 : XRef} (hw : h.WF) (hf : Frame [] h₀ h) (hy : Live h y.refs) (hx : Live h x0.refs) (niter : Option Int)
    (damp tol : ℝ) : Keeps h₀ h (HCGLS.setup c op y x0 niter damp tol) fun p h' => HCGLS.Inv h₀ h' p.1 p.2 := by
  unfold HCGLS.setup
  refine Keeps.bind (keeps_copy hw hf hx) fun x h1 hw1 hf1 l1 hx => ?_
  have hy := hy.mono l1
  refine Keeps.bind (hop.keeps hw1 hf1 hx) fun ax h2 hw2 hf2 l2 hax => ?_
  have hy := hy.mono l2; have hx := hx.mono l2
  refine Keeps.bind (keeps_sub hw2 hf2 hy hax) fun s h3 hw3 hf3 l3 hs => ?_
  have hx := hx.mono l3
  refine Keeps.bind (keeps_smul hw3 hf3 hx.1 _ _) fun dx h4 hw4 hf4 l4 hdx => ?_
  have hx := hx.mono l4; have hs := hs.mono l4
  refine Keeps.bind (hop'.keeps hw4 hf4 hs) fun rs h5 hw5 hf5 l5 hrs => ?_
  have hx := hx.mono l5; have hs := hs.mono l5; have hdx := hdx.mono l5
  refine Keeps.bind (keeps_sub hw5 hf5 hrs hdx.1) fun r h6 hw6 hf6 l6 hr => ?_
  have hx := hx.mono l6; have hs := hs.mono l6
  refine Keeps.bind (keeps_copy hw6 hf6 hr.1) fun cc h7 hw7 hf7 l7 hcc => ?_
  have hx := hx.mono l7; have hs := hs.mono l7; have hr := hr.mono l7
  refine Keeps.bind (hop.keeps hw7 hf7 hcc) fun q h8 hw8 hf8 l8 hq => ?_
  have hx := hx.mono l8; have hs := hs.mono l8; have hr := hr.mono l8; have hcc := hcc.mono l8
  refine Keeps.bind (keeps_absDot hw8 hf8 hr.1 hr.1) fun k h9 hw9 hf9 l9 _ => ?_
  have hx := hx.mono l9; have hs := hs.mono l9; have hcc := hcc.mono l9; have hq := hq.mono l9
  refine Keeps.bind (keeps_norm hw9 hf9 hs.1) fun v h10 hw10 hf10 l10 _ => ?_
  have hx := hx.mono l10; have hs := hs.mono l10; have hcc := hcc.mono l10; have hq := hq.mono l10
  refine Keeps.bind (Keeps.lift hw10 hf10 _) fun v h11 hw11 hf11 l11 _ => ?_
  have hx := hx.mono l11; have hs := hs.mono l11; have hcc := hcc.mono l11; have hq := hq.mono l11
  refine Keeps.bind (keeps_absDot hw11 hf11 hx.1 hx.1) fun xx h12 hw12 hf12 l12 _ => ?_
  exact .ret hw12 hf12 ⟨hs.mono l12, hcc.mono l12, hx.mono l12, hq.mono l12⟩

theorem HCGLS.step_keeps (hop : OnlyArg (op.mv c)) (hop' : OnlyArg (op.rmv c)) {s : HCGLS} {x : XRef} (hw : h.WF) (hf : Frame [] h₀ h) (hi : HCGLS.Inv h₀ h s x) :
    Keeps h₀ h (HCGLS.step c op s x) fun p h' => HCGLS.Inv h₀ h' p.1 p.2 := by
  unfold HCGLS.step
  obtain ⟨hs, hc, hx, hq⟩ := hi
  refine Keeps.bind (keeps_conj hw hf hq) fun qc h1 hw1 hf1 l1 hqc => ?_
  have hs := hs.mono l1; have hc := hc.mono l1; have hx := hx.mono l1; have hq := hq.mono l1
  refine Keeps.bind (keeps_dot hw1 hf1 hq hqc.1) fun qq h2 hw2 hf2 l2 _ => ?_
  have hs := hs.mono l2; have hc := hc.mono l2; have hx := hx.mono l2; have hq := hq.mono l2
  refine Keeps.bind (keeps_conj hw2 hf2 hc.1) fun ccj h3 hw3 hf3 l3 hccj => ?_
  have hs := hs.mono l3; have hc := hc.mono l3; have hx := hx.mono l3; have hq := hq.mono l3
  refine Keeps.bind (keeps_dot hw3 hf3 hc.1 hccj.1) fun cc h4 hw4 hf4 l4 _ => ?_
  have hs := hs.mono l4; have hc := hc.mono l4; have hx := hx.mono l4; have hq := hq.mono l4
  refine Keeps.bind (Keeps.lift hw4 hf4 _) fun av h5 hw5 hf5 l5 _ => ?_
  have hs := hs.mono l5; have hc := hc.mono l5; have hx := hx.mono l5; have hq := hq.mono l5
  refine Keeps.bind (keeps_smul hw5 hf5 hc.1 _ _) fun ac h6 hw6 hf6 l6 hac => ?_
  have hs := hs.mono l6; have hc := hc.mono l6; have hx := hx.mono l6; have hq := hq.mono l6
  refine Keeps.bind (keeps_iadd hw6 hf6 hx hac.1) fun x' h7 hw7 hf7 l7 ex => ?_
  subst ex
  have hs := hs.mono l7; have hc := hc.mono l7; have hx := hx.mono l7; have hq := hq.mono l7
  refine Keeps.bind (keeps_smul hw7 hf7 hq _ _) fun aq h8 hw8 hf8 l8 haq => ?_
  have hs := hs.mono l8; have hc := hc.mono l8; have hx := hx.mono l8
  refine Keeps.bind (keeps_isub hw8 hf8 hs haq.1) fun s' h9 hw9 hf9 l9 es => ?_
  subst es
  have hs := hs.mono l9; have hc := hc.mono l9; have hx := hx.mono l9
  refine Keeps.bind (keeps_smul hw9 hf9 hx.1 _ _) fun dx h10 hw10 hf10 l10 hdx => ?_
  have hs := hs.mono l10; have hc := hc.mono l10; have hx := hx.mono l10
  refine Keeps.bind (hop'.keeps hw10 hf10 hs) fun rs h11 hw11 hf11 l11 hrs => ?_
  have hs := hs.mono l11; have hc := hc.mono l11; have hx := hx.mono l11; have hdx := hdx.mono l11
  refine Keeps.bind (keeps_sub hw11 hf11 hrs hdx.1) fun r h12 hw12 hf12 l12 hr => ?_
  have hs := hs.mono l12; have hc := hc.mono l12; have hx := hx.mono l12
  refine Keeps.bind (keeps_absDot hw12 hf12 hr.1 hr.1) fun k h13 hw13 hf13 l13 _ => ?_
  have hs := hs.mono l13; have hc := hc.mono l13; have hx := hx.mono l13; have hr := hr.mono l13
  refine Keeps.bind (Keeps.lift hw13 hf13 _) fun b h14 hw14 hf14 l14 _ => ?_
  have hs := hs.mono l14; have hc := hc.mono l14; have hx := hx.mono l14; have hr := hr.mono l14
  refine Keeps.bind (keeps_smul hw14 hf14 hc.1 _ _) fun bc h15 hw15 hf15 l15 hbc => ?_
  have hs := hs.mono l15; have hx := hx.mono l15; have hr := hr.mono l15
  refine Keeps.bind (keeps_add hw15 hf15 hr.1 hbc.1) fun cn h16 hw16 hf16 l16 hcn => ?_
  have hs := hs.mono l16; have hx := hx.mono l16
  refine Keeps.bind (hop.keeps hw16 hf16 hcn) fun q h17 hw17 hf17 l17 hq => ?_
  have hs := hs.mono l17; have hx := hx.mono l17; have hcn := hcn.mono l17
  refine Keeps.bind (keeps_norm hw17 hf17 hs.1) fun v h18 hw18 hf18 l18 _ => ?_
  have hs := hs.mono l18; have hx := hx.mono l18; have hcn := hcn.mono l18; have hq := hq.mono l18
  refine Keeps.bind (Keeps.lift hw18 hf18 _) fun ck h19 hw19 hf19 l19 _ => ?_
  have hs := hs.mono l19; have hx := hx.mono l19; have hcn := hcn.mono l19; have hq := hq.mono l19
  refine Keeps.bind (keeps_absDot hw19 hf19 hx.1 hx.1) fun xx h20 hw20 hf20 l20 _ => ?_
  exact .ret hw20 hf20 ⟨hs.mono l20, hcn.mono l20, hx.mono l20, hq.mono l20⟩

theorem HCGLS.loop_keeps (hop : OnlyArg (op.mv c)) (hop' : OnlyArg (op.rmv c)) (hcb : OnlyArgCb cb) (niter : Int) (k : Nat) {s : HCGLS} {x : XRef} (hw : h.WF) (hf : Frame [] h₀ h)
    (hi : HCGLS.Inv h₀ h s x) (tr : List (XArr K)) : Keeps h₀ h (HCGLS.loop c op cb niter k s x tr) fun p h' => Own h₀ h' p.2.1 := by
  induction k generalizing h s x tr with
  | zero => exact .ret hw hf hi.2.2.1
  | succ k ih =>
    unfold HCGLS.loop
    split_ifs
    · refine Keeps.bind (HCGLS.step_keeps hop hop' hw hf hi) fun p h1 hw1 hf1 l1 hi1 => ?_
      refine Keeps.bind (keeps_read hw1 hf1 hi1.2.2.1.1) fun v h2 hw2 hf2 l2 _ => ?_
      have hi2 : HCGLS.Inv h₀ h2 p.1 p.2 := ⟨hi1.1.mono l2, hi1.2.1.mono l2, hi1.2.2.1.mono l2, hi1.2.2.2.mono l2⟩
      refine Keeps.bind ((hcb h2 p.2 hw2 hi2.2.2.1.1).keeps hf2 hi2.2.2.1.2) fun _ h3 hw3 hf3 l3 _ => ?_
      exact ih hw3 hf3 ⟨hi2.1.mono l3, hi2.2.1.mono l3, hi2.2.2.1.mono l3, hi2.2.2.2.mono l3⟩ _
    · exact .ret hw hf hi.2.2.1

theorem HCGLS.solve_keeps (hop : OnlyArg (op.mv c)) (hop' : OnlyArg (op.rmv c)) (hcb : OnlyArgCb cb) {y x0 : XRef} (hw : h.WF) (hy : Live h y.refs) (hx : Live h x0.refs) (niter : Option Int)
    (damp tol : ℝ) : Keeps h h (HCGLS.solve c op cb y x0 niter damp tol) fun p h' => Own h h' p.x := by
  unfold HCGLS.solve
  refine Keeps.bind (HCGLS.setup_keeps hop hop' hw .refl hy hx niter damp tol) fun p h1 hw1 hf1 l1 hi1 => ?_
  refine Keeps.bind (Q := fun p h' => Own h h' p.2.1) ?_ fun q h2 hw2 hf2 l2 hq => ?_
  · unfold HCGLS.run
    split
    · exact .throw hw1 hf1
    · exact HCGLS.loop_keeps hop hop' hcb _ _ hw1 hf1 hi1 _
  · unfold HCGLS.finalize
    split
    · exact .ret hw2 hf2 hq
    · exact .throw hw2 hf2

end
end Verif

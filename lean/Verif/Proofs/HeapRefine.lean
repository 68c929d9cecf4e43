/- The solvers on the memory implement the solvers on values. -/
import Verif.Proofs.HeapSolvers

set_option linter.unusedSectionVars false

namespace Verif
open NDArray

variable {K : Type} [RCLike K] {h : Heap K} {c : Ctx K} {a b : XRef} {u v : XArr K}

/-- the operator on the memory implements the operator on values: it changes nothing and returns a new array -/
def Implements (c : Ctx K) (f : XRef → HP K XRef) (g : XArr K → P K (XArr K)) : Prop :=
  ∀ (h : Heap K) (a : XRef) (u : XArr K), h.WF → HasX h a u → Impl h (f a) (g u) [] (GivesX h)

theorem Implements.onlyArg {f : XRef → HP K XRef} {g : XArr K → P K (XArr K)} (hi : Implements c f g) : OnlyArg f := fun h a hw ha => by
  obtain ⟨u, hu⟩ := hw.hasX ha
  exact ((hi h a u hw hu).hpost fun z h' w hz => hz.2.2.lt).mono (by simp) fun _ _ _ _ hz => hz

/-- the callback changes nothing and does not communicate or raise -/
def Harmless (cb : XRef → HP K Unit) : Prop := ∀ (h : Heap K) (a : XRef), h.WF → Live h a.refs → Impl h (cb a) (.ret ()) [] (fun _ _ _ => True)

theorem Harmless.onlyArg {cb : XRef → HP K Unit} (hc : Harmless cb) : OnlyArgCb cb := fun h a hw ha => ((hc h a hw ha).hpost fun _ _ _ _ => trivial).mono (by simp) fun _ _ _ _ _ => trivial

theorem absDot_impl (hw : h.WF) (ha : HasX h a u) (hb : HasX h b v) : Impl h (HX.absDot c a b) (absDot c u v) [] (fun s _ t => s = t) := by
  unfold HX.absDot absDot
  simp only [Prog.bind_eq]
  refine Impl.bind_nil (HX.conj_impl hw hb) fun z h1 w hw1 hf1 hz => ?_
  refine Impl.bind_nil (HX.dot_impl hw1 (hf1.hasX hw ha (by simp)) hz.2.2) fun s h2 t hw2 hf2 hs => ?_
  exact Impl.ret hw2 (by rw [hs.1])

theorem norm_impl (hw : h.WF) (ha : HasX h a u) : Impl h (HX.norm c a) (u.norm c) [] (fun s _ t => s = t) := by
  unfold HX.norm
  exact HX.read_bind hw ha ((Impl.lift (W := []) hw _).mono (by simp) fun _ _ _ _ _ h => h.1)

/-- relation between the states of `CG`; the arrays changed in place are different from all others -/
structure HCG.Rel (h : Heap K) (s : HCG) (x : XRef) (s' : CGS K) (x' : XArr K) : Prop where
  niter : s.niter = s'.niter
  tol : s.tol = s'.tol
  kold : s.kold = s'.kold
  cost : s.cost = s'.cost
  iiter : s.iiter = s'.iiter
  hr : HasX h s.r s'.r
  hc : HasX h s.c s'.c
  hx : HasX h x x'
  nr : s.r.refs.Nodup
  nx : x.refs.Nodup
  rc : ∀ i ∈ s.r.refs, i ∉ s.c.refs
  xc : ∀ i ∈ x.refs, i ∉ s.c.refs
  xr : ∀ i ∈ x.refs, i ∉ s.r.refs

theorem new_disj {h : Heap K} {l l' : List Nat} (hl : Live h l) (hn : ∀ i ∈ l', New h i) : ∀ i ∈ l, i ∉ l' := fun i hi hi' => by
  have h1 := hl i hi
  have h2 := hn i hi'
  unfold New at h2
  omega

theorem new_disj' {h : Heap K} {l l' : List Nat} (hl : Live h l) (hn : ∀ i ∈ l', New h i) : ∀ i ∈ l', i ∉ l := fun i hi hi' => new_disj hl hn i hi' hi

theorem HasX.live (ha : HasX h a u) : Live h a.refs := ha.lt

variable {op : HXOp K} {op' : XOp K} {cb : XRef → HP K Unit}

theorem HCG.setup_impl (hop : Implements c (op.mv c) (op'.mv c)) {y x0 : XRef} {y' x0' : XArr K} (hw : h.WF) (hy : HasX h y y') (hx : HasX h x0 x0') (niter : Option Int) (tol : ℝ) :
    Impl h (HCG.setup c op y x0 niter tol) (CGS.setup c op' y' x0' niter tol) []
      (fun p h' p' => HCG.Rel h' p.1 p.2 p'.1 p'.2 ∧ (∀ i ∈ p.1.r.refs, New h i) ∧ ∀ i ∈ p.2.refs, New h i) := by
  unfold HCG.setup CGS.setup
  simp only [Prog.bind_eq]
  refine Impl.bind_nil (HX.copy_impl hw hx) fun x h1 x' hw1 hf1 hx1 => ?_
  have hy1 := hf1.hasX hw hy (by simp)
  refine Impl.bind_nil (hop h1 x x' hw1 hx1.2.2) fun ax h2 ax' hw2 hf2 hax => ?_
  have hy2 := hf2.hasX hw1 hy1 (by simp)
  have hx2 := hf2.hasX hw1 hx1.2.2 (by simp)
  refine Impl.bind_nil (HX.sub_impl hw2 hy2 hax.2.2) fun r h3 r' hw3 hf3 hr => ?_
  have hx3 := hf3.hasX hw2 hx2 (by simp)
  refine Impl.bind_nil (HX.copy_impl hw3 hr.2.2) fun cc h4 cc' hw4 hf4 hcc => ?_
  have hx4 := hf4.hasX hw3 hx3 (by simp)
  have hr4 := hf4.hasX hw3 hr.2.2 (by simp)
  refine Impl.bind_nil (absDot_impl hw4 hr4 hr4) fun k h5 k' hw5 hf5 hk => ?_
  subst hk
  have hx5 := hf5.hasX hw4 hx4 (by simp)
  have hr5 := hf5.hasX hw4 hr4 (by simp)
  have hc5 := hf5.hasX hw4 hcc.2.2 (by simp)
  refine Impl.ret hw5 ⟨⟨rfl, rfl, rfl, rfl, rfl, hr5, hc5, hx5, hr.2.1, hx1.2.1, ?_, ?_, ?_⟩, ?_, hx1.1⟩
  · exact new_disj hr.2.2.live hcc.1
  · exact new_disj hx3.live hcc.1
  · exact new_disj hx2.live hr.1
  · exact fun i hi => (hf1.objs_len.trans hf2.objs_len).trans (hr.1 i hi)

theorem HCG.step_impl (hop : Implements c (op.mv c) (op'.mv c)) {s : HCG} {x : XRef} {s' : CGS K} {x' : XArr K} (hw : h.WF) (hi : HCG.Rel h s x s' x') :
    Impl h (HCG.step c op s x) (CGS.step c op' s' x') (x.refs ++ s.r.refs)
      (fun p h' p' => HCG.Rel h' p.1 p.2 p'.1 p'.2 ∧ p.1.r = s.r ∧ p.2 = x) := by
  unfold HCG.step CGS.step
  simp only [Prog.bind_eq]
  obtain ⟨e1, e2, e3, e4, e5, hr, hc, hx, nr, nx, rc, xc, xr⟩ := hi
  refine Impl.bind_nil (hop h _ _ hw hc) fun opc h1 opc' hw1 hf1 ho => ?_
  have xo := new_disj hx.live ho.1
  have ro := new_disj hr.live ho.1
  have ho := ho.2.2
  have hr := hf1.hasX hw hr (by simp); have hc := hf1.hasX hw hc (by simp); have hx := hf1.hasX hw hx (by simp)
  refine Impl.bind_nil (absDot_impl hw1 hc ho) fun copc h2 copc' hw2 hf2 ek => ?_
  subst ek
  have hr := hf2.hasX hw1 hr (by simp); have hc := hf2.hasX hw1 hc (by simp); have hx := hf2.hasX hw1 hx (by simp); have ho := hf2.hasX hw1 ho (by simp)
  rw [e3]
  refine Impl.lift_bind hw2 fun α => ?_
  refine Impl.bind_nil (HX.smul_impl hw2 hc _ _) fun ac h3 ac' hw3 hf3 hac => ?_
  have xac := new_disj hx.live hac.1
  have hac := hac.2.2
  have hr := hf3.hasX hw2 hr (by simp); have hc := hf3.hasX hw2 hc (by simp); have hx := hf3.hasX hw2 hx (by simp); have ho := hf3.hasX hw2 ho (by simp)
  refine Impl.bind (fun _ => x.refs ++ s.r.refs) (HX.iadd_impl hw3 hx hac nx xac) (fun i hi => by simp [hi]) fun x1 h4 x1' hw4 hf4 hx4 => ⟨fun i hi => .inl hi, ?_⟩
  obtain ⟨rfl, hx⟩ := hx4
  have hr := hf4.hasX hw3 hr (fun i hi hi' => xr i hi' hi); have hc := hf4.hasX hw3 hc (fun i hi hi' => xc i hi' hi); have ho := hf4.hasX hw3 ho (fun i hi hi' => xo i hi' hi)
  refine Impl.bind_nil (HX.smul_impl hw4 ho _ _) fun ao h5 ao' hw5 hf5 hao => ?_
  have hao := hao.2.2
  have hr := hf5.hasX hw4 hr (by simp); have hc := hf5.hasX hw4 hc (by simp); have hx := hf5.hasX hw4 hx (by simp)
  refine Impl.bind (fun _ => x1.refs ++ s.r.refs) (HX.isub_impl hw5 hr hao nr) (fun i hi => by simp [hi]) fun r1 h6 r1' hw6 hf6 hr6 => ⟨fun i hi => .inl hi, ?_⟩
  obtain ⟨er, hr⟩ := hr6
  subst er
  have hc := hf6.hasX hw5 hc (fun i hi hi' => rc i hi' hi); have hx := hf6.hasX hw5 hx xr
  refine Impl.bind_nil (absDot_impl hw6 hr hr) fun k h7 k' hw7 hf7 ek => ?_
  subst ek
  have hr := hf7.hasX hw6 hr (by simp); have hc := hf7.hasX hw6 hc (by simp); have hx := hf7.hasX hw6 hx (by simp)
  refine Impl.lift_bind hw7 fun β => ?_
  refine Impl.bind_nil (HX.smul_impl hw7 hc _ _) fun bc h8 bc' hw8 hf8 hbc => ?_
  have hbc := hbc.2.2
  have hr := hf8.hasX hw7 hr (by simp); have hx := hf8.hasX hw7 hx (by simp)
  refine Impl.bind_nil (HX.add_impl hw8 hr hbc) fun cc h9 cc' hw9 hf9 hcc => ?_
  refine Impl.ret hw9 ⟨⟨e1, e2, rfl, by simp [e4], by simp [e5], hf9.hasX hw8 hr (by simp), hcc.2.2, hf9.hasX hw8 hx (by simp), nr, nx, ?_, ?_, xr⟩, rfl, rfl⟩
  · exact new_disj hr.live hcc.1
  · exact new_disj hx.live hcc.1

theorem HCG.loop_impl (hop : Implements c (op.mv c) (op'.mv c)) (hcb : Harmless cb) (niter : Int) (k : Nat) {s : HCG} {x : XRef} {s' : CGS K} {x' : XArr K} (hw : h.WF)
    (hi : HCG.Rel h s x s' x') (tr : List (XArr K)) :
    Impl h (HCG.loop c op cb niter k s x tr) (CGS.loop c op' niter k s' x' tr) (x.refs ++ s.r.refs)
      (fun p h' p' => HCG.Rel h' p.1 p.2.1 p'.1 p'.2.1 ∧ p.2.1 = x ∧ p.2.2 = p'.2.2) := by
  induction k generalizing h s x s' x' tr with
  | zero => exact Impl.ret hw ⟨hi, rfl, rfl⟩
  | succ k ih =>
    unfold HCG.loop CGS.loop
    rw [hi.iiter, hi.kold, hi.tol]
    split_ifs
    · simp only [Prog.bind_eq]
      refine Impl.bind (fun _ => x.refs ++ s.r.refs) (HCG.step_impl hop hw hi) (fun i hi => hi) fun p h1 p' hw1 hf1 hp => ⟨fun i hi => .inl hi, ?_⟩
      obtain ⟨hp, e1, e2⟩ := hp
      refine HX.read_bind hw1 hp.hx ?_
      have h2 := Impl.bind (W' := x.refs ++ s.r.refs) (k := fun _ => HCG.loop c op cb niter k p.1 p.2 (tr ++ [p'.2])) (k' := fun _ => CGS.loop c op' niter k p'.1 p'.2 (tr ++ [p'.2]))
        (V' := fun q h' q' => HCG.Rel h' q.1 q.2.1 q'.1 q'.2.1 ∧ q.2.1 = x ∧ q.2.2 = q'.2.2) (fun _ => x.refs ++ s.r.refs) (hcb h1 p.2 hw1 hp.hx.live) (by simp)
        fun _ h2 _ hw2 hf2 _ => ⟨fun i hi => .inl hi, by
          have hp2 : HCG.Rel h2 p.1 p.2 p'.1 p'.2 := ⟨hp.niter, hp.tol, hp.kold, hp.cost, hp.iiter, hf2.hasX hw1 hp.hr (by simp), hf2.hasX hw1 hp.hc (by simp), hf2.hasX hw1 hp.hx (by simp),
            hp.nr, hp.nx, hp.rc, hp.xc, hp.xr⟩
          have := ih hw2 hp2 (tr ++ [p'.2])
          rw [e1] at this
          rw [e2] at this ⊢
          exact this⟩
      exact h2
    · exact Impl.ret hw ⟨hi, rfl, rfl⟩

/-- `CG.solve` on the memory implements `CGS.solve`. -/
theorem HCG.solve_impl (hop : Implements c (op.mv c) (op'.mv c)) (hcb : Harmless cb) {y x0 : XRef} {y' x0' : XArr K} (hw : h.WF) (hy : HasX h y y') (hx : HasX h x0 x0') (niter : Option Int)
    (tol : ℝ) : Impl h (HCG.solve c op cb y x0 niter tol) (CGS.solve c op' y' x0' niter tol) []
      (fun p h' p' => (∀ i ∈ p.1.refs, New h i) ∧ HasX h' p.1 p'.1 ∧ p.2 = p'.2) := by
  unfold HCG.solve CGS.solve
  simp only [Prog.bind_eq]
  refine Impl.bind (fun p => p.2.refs ++ p.1.r.refs) (HCG.setup_impl hop hw hy hx niter tol) (by simp) fun p h1 p' hw1 hf1 hp => ⟨fun i hi => .inr ?_, ?_⟩
  · rcases List.mem_append.1 hi with hi | hi
    · exact hp.2.2 i hi
    · exact hp.2.1 i hi
  obtain ⟨hp, hr, hx⟩ := hp
  refine Impl.bind (fun _ => []) (V := fun q h' q' => HCG.Rel h' q.1 q.2.1 q'.1 q'.2.1 ∧ q.2.1 = p.2 ∧ q.2.2 = q'.2.2) ?_ (fun i hi => hi) fun q h2 q' hw2 hf2 hq => ⟨by simp, ?_⟩
  · unfold HCG.run CGS.run
    rw [hp.niter, hp.iiter]
    cases niter with
    | some m => exact HCG.loop_impl hop hcb _ _ hw1 hp _
    | none =>
      cases p'.1.niter with
      | none => exact Impl.throw hw1
      | some m => exact HCG.loop_impl hop hcb _ _ hw1 hp _
  · exact Impl.ret hw2 ⟨by rw [hq.2.1]; exact hx, hq.1.hx, by simp [hq.1.iiter, hq.1.cost, hq.2.2]⟩

/-! ### CGLS -/

structure HCGLS.Rel (h : Heap K) (s : HCGLS) (x : XRef) (s' : CGLSS K) (x' : XArr K) : Prop where
  damp : s.damp = s'.damp
  niter : s.niter = s'.niter
  tol : s.tol = s'.tol
  kold : s.kold = s'.kold
  cost : s.cost = s'.cost
  cost1 : s.cost1 = s'.cost1
  iiter : s.iiter = s'.iiter
  hs : HasX h s.s s'.s
  hc : HasX h s.c s'.c
  hq : HasX h s.q s'.q
  hx : HasX h x x'
  ns : s.s.refs.Nodup
  nx : x.refs.Nodup
  sc : ∀ i ∈ s.s.refs, i ∉ s.c.refs
  sq : ∀ i ∈ s.s.refs, i ∉ s.q.refs
  xc : ∀ i ∈ x.refs, i ∉ s.c.refs
  xq : ∀ i ∈ x.refs, i ∉ s.q.refs
  xs : ∀ i ∈ x.refs, i ∉ s.s.refs

theorem HCGLS.setup_impl (hop : Implements c (op.mv c) (op'.mv c)) (hop' : Implements c (op.rmv c) (op'.rmv c)) {y x0 : XRef} {y' x0' : XArr K} (hw : h.WF) (hy : HasX h y y') (hx : HasX h x0 x0')
    (niter : Option Int) (damp tol : ℝ) : Impl h (HCGLS.setup c op y x0 niter damp tol) (CGLSS.setup c op' y' x0' niter damp tol) []
      (fun p h' p' => HCGLS.Rel h' p.1 p.2 p'.1 p'.2 ∧ (∀ i ∈ p.1.s.refs, New h i) ∧ ∀ i ∈ p.2.refs, New h i) := by
  unfold HCGLS.setup CGLSS.setup
  simp only [Prog.bind_eq]
  refine Impl.bind_nil (HX.copy_impl hw hx) fun x h1 x' hw1 hf1 hx1 => ?_
  obtain ⟨xn, nx, hx⟩ := hx1
  have hy := hf1.hasX hw hy (by simp)
  refine Impl.bind_nil (hop h1 x x' hw1 hx) fun ax h2 ax' hw2 hf2 hax => ?_
  have hy := hf2.hasX hw1 hy (by simp); have hx := hf2.hasX hw1 hx (by simp)
  refine Impl.bind_nil (HX.sub_impl hw2 hy hax.2.2) fun s h3 s' hw3 hf3 hs => ?_
  obtain ⟨sn, ns, hs⟩ := hs
  have xs := new_disj hx.live sn
  have hx := hf3.hasX hw2 hx (by simp)
  refine Impl.bind_nil (HX.smul_impl hw3 hx _ _) fun dx h4 dx' hw4 hf4 hdx => ?_
  have hdx := hdx.2.2
  have hx := hf4.hasX hw3 hx (by simp); have hs := hf4.hasX hw3 hs (by simp)
  refine Impl.bind_nil (hop' h4 s s' hw4 hs) fun rs h5 rs' hw5 hf5 hrs => ?_
  have hrs := hrs.2.2
  have hx := hf5.hasX hw4 hx (by simp); have hs := hf5.hasX hw4 hs (by simp); have hdx := hf5.hasX hw4 hdx (by simp)
  refine Impl.bind_nil (HX.sub_impl hw5 hrs hdx) fun r h6 r' hw6 hf6 hr => ?_
  have hr := hr.2.2
  have hx := hf6.hasX hw5 hx (by simp); have hs := hf6.hasX hw5 hs (by simp)
  refine Impl.bind_nil (HX.copy_impl hw6 hr) fun cc h7 cc' hw7 hf7 hcc => ?_
  have sc := new_disj hs.live hcc.1
  have xc := new_disj hx.live hcc.1
  have hcc := hcc.2.2
  have hx := hf7.hasX hw6 hx (by simp); have hs := hf7.hasX hw6 hs (by simp); have hr := hf7.hasX hw6 hr (by simp)
  refine Impl.bind_nil (hop h7 cc cc' hw7 hcc) fun q h8 q' hw8 hf8 hq => ?_
  have sq := new_disj hs.live hq.1
  have xq := new_disj hx.live hq.1
  have hq := hq.2.2
  have hx := hf8.hasX hw7 hx (by simp); have hs := hf8.hasX hw7 hs (by simp); have hr := hf8.hasX hw7 hr (by simp); have hcc := hf8.hasX hw7 hcc (by simp)
  refine Impl.bind_nil (absDot_impl hw8 hr hr) fun k h9 k' hw9 hf9 ek => ?_
  subst ek
  have hx := hf9.hasX hw8 hx (by simp); have hs := hf9.hasX hw8 hs (by simp); have hq := hf9.hasX hw8 hq (by simp); have hcc := hf9.hasX hw8 hcc (by simp)
  refine Impl.bind_nil (norm_impl hw9 hs) fun v h10 v' hw10 hf10 ev => ?_
  subst ev
  have hx := hf10.hasX hw9 hx (by simp); have hs := hf10.hasX hw9 hs (by simp); have hq := hf10.hasX hw9 hq (by simp); have hcc := hf10.hasX hw9 hcc (by simp)
  refine Impl.lift_bind hw10 fun cost0 => ?_
  refine Impl.bind_nil (absDot_impl hw10 hx hx) fun xx h11 xx' hw11 hf11 exx => ?_
  subst exx
  have hx := hf11.hasX hw10 hx (by simp); have hs := hf11.hasX hw10 hs (by simp); have hq := hf11.hasX hw10 hq (by simp); have hcc := hf11.hasX hw10 hcc (by simp)
  exact Impl.ret hw11 ⟨⟨rfl, rfl, rfl, rfl, rfl, rfl, rfl, hs, hcc, hq, hx, ns, nx, sc, sq, xc, xq, xs⟩, fun i hi => (hf1.objs_len.trans hf2.objs_len).trans (sn i hi), xn⟩

theorem HCGLS.step_impl (hop : Implements c (op.mv c) (op'.mv c)) (hop' : Implements c (op.rmv c) (op'.rmv c)) {s : HCGLS} {x : XRef} {s' : CGLSS K} {x' : XArr K} (hw : h.WF)
    (hi : HCGLS.Rel h s x s' x') : Impl h (HCGLS.step c op s x) (CGLSS.step c op' s' x') (x.refs ++ s.s.refs)
      (fun p h' p' => HCGLS.Rel h' p.1 p.2 p'.1 p'.2 ∧ p.1.s = s.s ∧ p.2 = x) := by
  unfold HCGLS.step CGLSS.step
  simp only [Prog.bind_eq]
  obtain ⟨e1, e2, e3, e4, e5, e6, e7, hs, hc, hq, hx, ns, nx, sc, sq, xc, xq, xs⟩ := hi
  refine Impl.bind_nil (HX.conj_impl hw hq) fun qc h1 qc' hw1 hf1 hqc => ?_
  have hqc := hqc.2.2
  have hs := hf1.hasX hw hs (by simp); have hc := hf1.hasX hw hc (by simp); have hq := hf1.hasX hw hq (by simp); have hx := hf1.hasX hw hx (by simp)
  refine Impl.bind_nil (HX.dot_impl hw1 hq hqc) fun qq h2 qq' hw2 hf2 eq => ?_
  obtain ⟨rfl, -⟩ := eq
  have hs := hf2.hasX hw1 hs (by simp); have hc := hf2.hasX hw1 hc (by simp); have hq := hf2.hasX hw1 hq (by simp); have hx := hf2.hasX hw1 hx (by simp)
  refine Impl.bind_nil (HX.conj_impl hw2 hc) fun cj h3 cj' hw3 hf3 hcj => ?_
  have hcj := hcj.2.2
  have hs := hf3.hasX hw2 hs (by simp); have hc := hf3.hasX hw2 hc (by simp); have hq := hf3.hasX hw2 hq (by simp); have hx := hf3.hasX hw2 hx (by simp)
  refine Impl.bind_nil (HX.dot_impl hw3 hc hcj) fun cv h4 cv' hw4 hf4 eq => ?_
  obtain ⟨rfl, -⟩ := eq
  have hs := hf4.hasX hw3 hs (by simp); have hc := hf4.hasX hw3 hc (by simp); have hq := hf4.hasX hw3 hq (by simp); have hx := hf4.hasX hw3 hx (by simp)
  rw [e1, e4]
  refine Impl.lift_bind hw4 fun av => ?_
  refine Impl.bind_nil (HX.smul_impl hw4 hc _ _) fun ac h5 ac' hw5 hf5 hac => ?_
  have xac := new_disj hx.live hac.1
  have hac := hac.2.2
  have hs := hf5.hasX hw4 hs (by simp); have hc := hf5.hasX hw4 hc (by simp); have hq := hf5.hasX hw4 hq (by simp); have hx := hf5.hasX hw4 hx (by simp)
  refine Impl.bind (fun _ => x.refs ++ s.s.refs) (HX.iadd_impl hw5 hx hac nx xac) (fun i hi => by simp [hi]) fun x1 h6 x1' hw6 hf6 hx6 => ⟨fun i hi => .inl hi, ?_⟩
  obtain ⟨rfl, hx⟩ := hx6
  have hs := hf6.hasX hw5 hs (fun i hi hi' => xs i hi' hi); have hc := hf6.hasX hw5 hc (fun i hi hi' => xc i hi' hi); have hq := hf6.hasX hw5 hq (fun i hi hi' => xq i hi' hi)
  refine Impl.bind_nil (HX.smul_impl hw6 hq _ _) fun aq h7 aq' hw7 hf7 haq => ?_
  have haq := haq.2.2
  have hs := hf7.hasX hw6 hs (by simp); have hc := hf7.hasX hw6 hc (by simp); have hx := hf7.hasX hw6 hx (by simp)
  refine Impl.bind (fun _ => x1.refs ++ s.s.refs) (HX.isub_impl hw7 hs haq ns) (fun i hi => by simp [hi]) fun s1 h8 s1' hw8 hf8 hs8 => ⟨fun i hi => .inl hi, ?_⟩
  obtain ⟨es, hs⟩ := hs8
  subst es
  have hc := hf8.hasX hw7 hc (fun i hi hi' => sc i hi' hi); have hx := hf8.hasX hw7 hx xs
  refine Impl.bind_nil (HX.smul_impl hw8 hx _ _) fun dx h9 dx' hw9 hf9 hdx => ?_
  have hdx := hdx.2.2
  have hs := hf9.hasX hw8 hs (by simp); have hc := hf9.hasX hw8 hc (by simp); have hx := hf9.hasX hw8 hx (by simp)
  refine Impl.bind_nil (hop' h9 _ _ hw9 hs) fun rs h10 rs' hw10 hf10 hrs => ?_
  have hrs := hrs.2.2
  have hs := hf10.hasX hw9 hs (by simp); have hc := hf10.hasX hw9 hc (by simp); have hx := hf10.hasX hw9 hx (by simp); have hdx := hf10.hasX hw9 hdx (by simp)
  refine Impl.bind_nil (HX.sub_impl hw10 hrs hdx) fun r h11 r' hw11 hf11 hr => ?_
  have hr := hr.2.2
  have hs := hf11.hasX hw10 hs (by simp); have hc := hf11.hasX hw10 hc (by simp); have hx := hf11.hasX hw10 hx (by simp)
  refine Impl.bind_nil (absDot_impl hw11 hr hr) fun k h12 k' hw12 hf12 ek => ?_
  subst ek
  have hs := hf12.hasX hw11 hs (by simp); have hc := hf12.hasX hw11 hc (by simp); have hx := hf12.hasX hw11 hx (by simp); have hr := hf12.hasX hw11 hr (by simp)
  refine Impl.lift_bind hw12 fun β => ?_
  refine Impl.bind_nil (HX.smul_impl hw12 hc _ _) fun bc h13 bc' hw13 hf13 hbc => ?_
  have hbc := hbc.2.2
  have hs := hf13.hasX hw12 hs (by simp); have hx := hf13.hasX hw12 hx (by simp); have hr := hf13.hasX hw12 hr (by simp)
  refine Impl.bind_nil (HX.add_impl hw13 hr hbc) fun cn h14 cn' hw14 hf14 hcn => ?_
  have sc := new_disj hs.live hcn.1
  have xc := new_disj hx.live hcn.1
  have hcn := hcn.2.2
  have hs := hf14.hasX hw13 hs (by simp); have hx := hf14.hasX hw13 hx (by simp)
  refine Impl.bind_nil (hop h14 _ _ hw14 hcn) fun q h15 q' hw15 hf15 hq => ?_
  have sq := new_disj hs.live hq.1
  have xq := new_disj hx.live hq.1
  have hq := hq.2.2
  have hs := hf15.hasX hw14 hs (by simp); have hx := hf15.hasX hw14 hx (by simp); have hcn := hf15.hasX hw14 hcn (by simp)
  refine Impl.bind_nil (norm_impl hw15 hs) fun v h16 v' hw16 hf16 ev => ?_
  subst ev
  have hs := hf16.hasX hw15 hs (by simp); have hx := hf16.hasX hw15 hx (by simp); have hcn := hf16.hasX hw15 hcn (by simp); have hq := hf16.hasX hw15 hq (by simp)
  refine Impl.lift_bind hw16 fun ck => ?_
  refine Impl.bind_nil (absDot_impl hw16 hx hx) fun xx h17 xx' hw17 hf17 exx => ?_
  subst exx
  have hs := hf17.hasX hw16 hs (by simp); have hx := hf17.hasX hw16 hx (by simp); have hcn := hf17.hasX hw16 hcn (by simp); have hq := hf17.hasX hw16 hq (by simp)
  exact Impl.ret hw17 ⟨⟨rfl, e2, e3, rfl, by simp [e5], by simp [e6], by simp [e7], hs, hcn, hq, hx, ns, nx, sc, sq, xc, xq, xs⟩, rfl, rfl⟩

theorem HCGLS.loop_impl (hop : Implements c (op.mv c) (op'.mv c)) (hop' : Implements c (op.rmv c) (op'.rmv c)) (hcb : Harmless cb) (niter : Int) (k : Nat) {s : HCGLS} {x : XRef} {s' : CGLSS K}
    {x' : XArr K} (hw : h.WF) (hi : HCGLS.Rel h s x s' x') (tr : List (XArr K)) :
    Impl h (HCGLS.loop c op cb niter k s x tr) (CGLSS.loop c op' niter k s' x' tr) (x.refs ++ s.s.refs)
      (fun p h' p' => HCGLS.Rel h' p.1 p.2.1 p'.1 p'.2.1 ∧ p.2.1 = x ∧ p.2.2 = p'.2.2) := by
  induction k generalizing h s x s' x' tr with
  | zero => exact Impl.ret hw ⟨hi, rfl, rfl⟩
  | succ k ih =>
    unfold HCGLS.loop CGLSS.loop
    rw [hi.iiter, hi.kold, hi.tol]
    split_ifs
    · simp only [Prog.bind_eq]
      refine Impl.bind (fun _ => x.refs ++ s.s.refs) (HCGLS.step_impl hop hop' hw hi) (fun i hi => hi) fun p h1 p' hw1 hf1 hp => ⟨fun i hi => .inl hi, ?_⟩
      obtain ⟨hp, e1, e2⟩ := hp
      refine HX.read_bind hw1 hp.hx ?_
      have h2 := Impl.bind (W' := x.refs ++ s.s.refs) (k := fun _ => HCGLS.loop c op cb niter k p.1 p.2 (tr ++ [p'.2])) (k' := fun _ => CGLSS.loop c op' niter k p'.1 p'.2 (tr ++ [p'.2]))
        (V' := fun q h' q' => HCGLS.Rel h' q.1 q.2.1 q'.1 q'.2.1 ∧ q.2.1 = x ∧ q.2.2 = q'.2.2) (fun _ => x.refs ++ s.s.refs) (hcb h1 p.2 hw1 hp.hx.live) (by simp)
        fun _ h2 _ hw2 hf2 _ => ⟨fun i hi => .inl hi, by
          have hp2 : HCGLS.Rel h2 p.1 p.2 p'.1 p'.2 := ⟨hp.damp, hp.niter, hp.tol, hp.kold, hp.cost, hp.cost1, hp.iiter, hf2.hasX hw1 hp.hs (by simp), hf2.hasX hw1 hp.hc (by simp),
            hf2.hasX hw1 hp.hq (by simp), hf2.hasX hw1 hp.hx (by simp), hp.ns, hp.nx, hp.sc, hp.sq, hp.xc, hp.xq, hp.xs⟩
          have := ih hw2 hp2 (tr ++ [p'.2])
          rw [e1] at this
          rw [e2] at this ⊢
          exact this⟩
      exact h2
    · exact Impl.ret hw ⟨hi, rfl, rfl⟩

/-- `CGLS.solve` on the memory implements `CGLSS.solve`. -/
theorem HCGLS.solve_impl (hop : Implements c (op.mv c) (op'.mv c)) (hop' : Implements c (op.rmv c) (op'.rmv c)) (hcb : Harmless cb) {y x0 : XRef} {y' x0' : XArr K} (hw : h.WF)
    (hy : HasX h y y') (hx : HasX h x0 x0') (niter : Option Int) (damp tol : ℝ) : Impl h (HCGLS.solve c op cb y x0 niter damp tol) (CGLSS.solve c op' y' x0' niter damp tol) []
      (fun p h' p' => (∀ i ∈ p.x.refs, New h i) ∧ HasX h' p.x p'.x ∧ p.istop = p'.istop ∧ p.iiter = p'.iiter ∧ p.r1norm = p'.r1norm ∧ p.r2norm = p'.r2norm ∧ p.cost = p'.cost ∧
        p.trace = p'.trace) := by
  unfold HCGLS.solve CGLSS.solve
  simp only [Prog.bind_eq]
  refine Impl.bind (fun p => p.2.refs ++ p.1.s.refs) (HCGLS.setup_impl hop hop' hw hy hx niter damp tol) (by simp) fun p h1 p' hw1 hf1 hp => ⟨fun i hi => .inr ?_, ?_⟩
  · rcases List.mem_append.1 hi with hi | hi
    · exact hp.2.2 i hi
    · exact hp.2.1 i hi
  obtain ⟨hp, hr, hx⟩ := hp
  refine Impl.bind (fun _ => []) (V := fun q h' q' => HCGLS.Rel h' q.1 q.2.1 q'.1 q'.2.1 ∧ q.2.1 = p.2 ∧ q.2.2 = q'.2.2) ?_ (fun i hi => hi) fun q h2 q' hw2 hf2 hq => ⟨by simp, ?_⟩
  · unfold HCGLS.run CGLSS.run
    rw [hp.niter, hp.iiter]
    cases niter with
    | some m => exact HCGLS.loop_impl hop hop' hcb _ _ hw1 hp _
    | none =>
      cases p'.1.niter with
      | none => exact Impl.throw hw1
      | some m => exact HCGLS.loop_impl hop hop' hcb _ _ hw1 hp _
  · unfold HCGLS.finalize CGLSS.finalize
    rw [hq.1.cost1, hq.1.iiter, hq.1.kold, hq.1.tol]
    cases q'.1.cost1[q'.1.iiter]? with
    | none => exact Impl.throw hw2
    | some r2 => exact Impl.ret hw2 ⟨by rw [hq.2.1]; exact hx, hq.1.hx, rfl, rfl, rfl, rfl, hq.1.cost, hq.2.2⟩

end Verif

/-
  C75: with any arithmetic, stacked operators compute functions of the lists of global vectors; regularised inversion with CGLS gives the same results on all numbers of ranks,
  if dot products and norms do not depend on the order of summation.
-/
import Verif.Proofs.FloatStacked
import Verif.Props.C73
import Verif.Props.C74

namespace Verif
open NDArray

variable {K : Type}

section
variable (A : OpArith K) {n : Nat} {J : Nat → Nat → K} {b : Bool} {ι : Type} {prim : ι → Nat → Prim K} {sh : ι → Nat × Nat} {lf : ι → Bool → SVec K → SVec K} {e f : SOp K ι} {S T : XDom}

/-- `matvec` and `rmatvec` of a stacked operator, with leaves that compute `lf`, compute the serial expression on the global vectors -/
theorem C75_expr (h : SAccepts n J prim sh lf b e S T) : XTakes n J (fun r c x => A.srun c b (e.map (prim · r)) x) S T (A.seval lf b e) := saccepts_takes A h

/-- a stacked operator as operator of the solvers -/
theorem C75_acts {L L' : XLay} {D : List DType → Prop} (h : ∀ d, D d → ∃ S T : XDom, S.lay = L ∧ T.lay = L' ∧ S.dts = d ∧ SAccepts n J prim sh lf b e S T) :
    XActs n J (fun r => if b then (A.asStackedOp (e.map (prim · r))).rmv else (A.asStackedOp (e.map (prim · r))).mv) L L' (A.seval lf b e) D := by
  refine ⟨fun x hx hD => ?_, fun x hx hD => ?_⟩
  · obtain ⟨S, T, rfl, rfl, hd, h⟩ := h _ hD
    exact (saccepts_takes A h).fits x hx hd.symm
  · obtain ⟨S, T, rfl, rfl, hd, h⟩ := h _ hD
    refine Runs.always ?_
    have k := (saccepts_takes A h).run hx hd.symm
    cases b <;> exact k.congr (fun r _ => rfl) fun _ _ => rfl

/-- MPIStackedVStack: the list of the products -/
theorem C75_vstack {ops : List (MOp K ι)} {V : VSpace} {Ws : List VSpace} (hne : ops ≠ []) (h : List.Forall₂ (fun o W => Accepts n J prim sh lf false o V W) ops Ws) {x : SVec K}
    (hx : x.v.length = V.L.gshape.prod) (hd : x.dt = V.dt) :
    Always n (fun r => A.srun (env n J r) false (.vstack (ops.map (MOp.map (prim · r)))) (x.part V.L n r))
      (fun r => .ok ((XVec.stack (ops.map fun o => A.eval lf false o x)).part (.stack (Ws.map VSpace.L)) n r)) := by
  have k : SAccepts n J prim sh lf false (.vstack ops) (.one V) (.stack Ws) := ⟨hne, h⟩
  have := (saccepts_takes A k).runs (.one x) hx (congrArg (· :: []) hd)
  simp only [SOp.map, OpArith.seval, OpArith.evalStack] at this
  exact this

/-- the adjoint: the products with the adjoints, added from the first to the last -/
theorem C75_vstack_adj {o : MOp K ι} {os : List (MOp K ι)} {V W : VSpace} {Vs : List VSpace} (h : Accepts n J prim sh lf true o V W)
    (hs : List.Forall₂ (fun o V => ∃ t, Accepts n J prim sh lf true o V ⟨W.L, t⟩) os Vs) {x : SVec K} {xs : List (SVec K)}
    (hx : (XVec.stack (x :: xs)).Fits (.stack ((V :: Vs).map VSpace.L))) (hd : (x :: xs).map SVec.dt = (V :: Vs).map VSpace.dt) :
    Always n (fun r => A.srun (env n J r) true (.vstack ((o :: os).map (MOp.map (prim · r)))) ((XVec.stack (x :: xs)).part (.stack ((V :: Vs).map VSpace.L)) n r))
      (fun r => .ok (((List.zipWith (fun o x => A.eval lf true o x) os xs).foldl (SVec.add A.toArith) (A.eval lf true o x)).part W.L n r)) := by
  have k : SAccepts n J prim sh lf true (.vstack (o :: os)) (.stack (V :: Vs)) (.one W) := ⟨h, hs⟩
  have := (saccepts_takes A k).runs (.stack (x :: xs)) hx hd
  simp only [SOp.map, OpArith.seval, OpArith.evalStack, List.zipWith_cons_cons, SVec.addAll] at this
  exact this

/-- powers: a stack is returned as a copy, whatever the operator computes -/
theorem C75_pow_stack {p : Nat} {Vs : List VSpace} (h : SAccepts n J prim sh lf b (.pow e p) (.stack Vs) T) {xs : List (SVec K)} (hx : (XVec.stack xs).Fits (XDom.stack Vs).lay)
    (hd : (XVec.stack xs).dts = (XDom.stack Vs).dts) :
    Always n (fun r => A.srun (env n J r) b (.pow (e.map (prim · r)) p) ((XVec.stack xs).part (XDom.stack Vs).lay n r))
      (fun r => .ok (((XVec.stack xs).copy A.toArith).part (XDom.stack Vs).lay n r)) := by
  have hT : XDom.stack Vs = T := h.1
  subst hT
  have := (saccepts_takes A h).runs (.stack xs) hx hd
  simpa only [SOp.map, OpArith.seval, OpArith.evalPow] using this

/-- `CGLS` with stacked operators: if dot products and norms do not depend on the order of summation, and the leaves compute the same functions on both numbers of ranks, then all results
    are the same; for instance with `MPIStackedVStack([Op, eps * Reg])` and data in a stack -/
theorem C75_cgls (hA : OrderFree A.toArith) {D D' : List DType → Prop} {n₁ n₂ : Nat} {J₁ J₂ : Nat → Nat → K}
    {prim₁ prim₂ : ι → Nat → Prim K} {sh₁ sh₂ : ι → Nat × Nat} {L₁ L₂ L₁' L₂' : XLay} (hn₁ : 0 < n₁) (hn₂ : 0 < n₂)
    (hi : L₁.Replicated ∨ L₁'.Replicated ∨ L₂.Replicated ∨ L₂'.Replicated → ∀ dt a, A.cast dt (A.cast dt a) = A.cast dt a)
    (hq : L₁'.Replicated ∨ L₂'.Replicated → ∀ x : XVec K, x.Fits L₁ → D x.dts → (A.seval lf false e x).Stored A.toArith) (hN : L₁.SameSize L₂) (hN' : L₁'.SameSize L₂')
    (h₁ : ∀ d, D d → ∃ S T : XDom, S.lay = L₁ ∧ T.lay = L₁' ∧ S.dts = d ∧ SAccepts n₁ J₁ prim₁ sh₁ lf false e S T)
    (h₂ : ∀ d, D d → ∃ S T : XDom, S.lay = L₂ ∧ T.lay = L₂' ∧ S.dts = d ∧ SAccepts n₂ J₂ prim₂ sh₂ lf false e S T)
    (h₁' : ∀ d, D' d → ∃ S T : XDom, S.lay = L₁' ∧ T.lay = L₁ ∧ S.dts = d ∧ D T.dts ∧ SAccepts n₁ J₁ prim₁ sh₁ lf true e S T)
    (h₂' : ∀ d, D' d → ∃ S T : XDom, S.lay = L₂' ∧ T.lay = L₂ ∧ S.dts = d ∧ SAccepts n₂ J₂ prim₂ sh₂ lf true e S T)
    {y x0 : XVec K} {damp tol : K} {niter : Int} (hy : y.Fits L₁') (hx : x0.Fits L₁) (dy : D' y.dts) (dx : D x0.dts) :
    let op₁ (r : Nat) : XOp K := A.asStackedOp (e.map (prim₁ · r))
    let op₂ (r : Nat) : XOp K := A.asStackedOp (e.map (prim₂ · r))
    (∃ (x : XVec K) (istop it : Nat) (r1 r2 : K) (cost : List K) (xs : List (XVec K)),
      Always n₁ (fun r => FCGLS.solve A.toArith A.normX (env n₁ J₁ r) (op₁ r) (y.part L₁' n₁ r) (x0.part L₁ n₁ r) (some niter) damp tol)
        (fun r => .ok ⟨x.part L₁ n₁ r, istop, it, r1, r2, cost, xs.map fun z => z.part L₁ n₁ r⟩) ∧
      Always n₂ (fun r => FCGLS.solve A.toArith A.normX (env n₂ J₂ r) (op₂ r) (y.part L₂' n₂ r) (x0.part L₂ n₂ r) (some niter) damp tol)
        (fun r => .ok ⟨x.part L₂ n₂ r, istop, it, r1, r2, cost, xs.map fun z => z.part L₂ n₂ r⟩)) ∨
    ∃ er, Always n₁ (fun r => FCGLS.solve A.toArith A.normX (env n₁ J₁ r) (op₁ r) (y.part L₁' n₁ r) (x0.part L₁ n₁ r) (some niter) damp tol) (fun _ => .error er) ∧
      Always n₂ (fun r => FCGLS.solve A.toArith A.normX (env n₂ J₂ r) (op₂ r) (y.part L₂' n₂ r) (x0.part L₂ n₂ r) (some niter) damp tol) (fun _ => .error er) := by
  intro op₁ op₂
  have w₁ : L₁.WF n₁ ∧ L₁'.WF n₁ := by
    obtain ⟨S, T, rfl, rfl, -, h⟩ := h₁ _ dx
    exact ⟨(SAccepts.facts h).hS, (SAccepts.facts h).hT⟩
  have w₂ : L₂.WF n₂ ∧ L₂'.WF n₂ := by
    obtain ⟨S, T, rfl, rfl, -, h⟩ := h₂ _ dx
    exact ⟨(SAccepts.facts h).hS, (SAccepts.facts h).hT⟩
  refine C74_cgls_layouts A.toArith hA (op₁ := op₁) (op₂ := op₂) hn₁ hn₂ w₁.1 w₂.1 w₁.2 w₂.2 hN hN' (fun h => hi (h.elim .inl fun h => .inr (.inl h))) (fun h => hi (.inr (.inr h))) hq
    (C75_acts A (b := false) h₁) (C75_acts A (b := false) h₂) (C75_acts A (b := true) (sh := sh₁) fun d hd => ?_) (C75_acts A (b := true) h₂') (fun s hs hD => ?_) hy hx dy dx
  · obtain ⟨S, T, a, b, c, -, d⟩ := h₁' d hd
    exact ⟨S, T, a, b, c, d⟩
  · obtain ⟨S, T, rfl, rfl, c, d, h⟩ := h₁' _ hD
    rw [(saccepts_takes A h).dtype s hs c.symm]
    exact d

/-- `CG` with stacked operators -/
theorem C75_cg (hA : OrderFree A.toArith) {D : List DType → Prop} {n₁ n₂ : Nat} {J₁ J₂ : Nat → Nat → K}
    {prim₁ prim₂ : ι → Nat → Prim K} {sh₁ sh₂ : ι → Nat × Nat} {L₁ L₂ : XLay} (hn₁ : 0 < n₁) (hn₂ : 0 < n₂)
    (hi : L₁.Replicated ∨ L₂.Replicated → ∀ dt a, A.cast dt (A.cast dt a) = A.cast dt a) (hN : L₁.SameSize L₂)
    (h₁ : ∀ d, D d → ∃ S T : XDom, S.lay = L₁ ∧ T.lay = L₁ ∧ S.dts = d ∧ SAccepts n₁ J₁ prim₁ sh₁ lf false e S T)
    (h₂ : ∀ d, D d → ∃ S T : XDom, S.lay = L₂ ∧ T.lay = L₂ ∧ S.dts = d ∧ SAccepts n₂ J₂ prim₂ sh₂ lf false e S T)
    {y x0 : XVec K} {tol : K} {niter : Int} (hy : y.Fits L₁) (hx : x0.Fits L₁) (dy : D y.dts) (dx : D x0.dts) :
    let op₁ (r : Nat) : XOp K := A.asStackedOp (e.map (prim₁ · r))
    let op₂ (r : Nat) : XOp K := A.asStackedOp (e.map (prim₂ · r))
    (∃ (x : XVec K) (it : Nat) (cost : List K) (xs : List (XVec K)),
      Always n₁ (fun r => FCG.solve A.toArith (env n₁ J₁ r) (op₁ r) (y.part L₁ n₁ r) (x0.part L₁ n₁ r) (some niter) tol) (fun r => .ok (x.part L₁ n₁ r, it, cost, xs.map fun z => z.part L₁ n₁ r)) ∧
      Always n₂ (fun r => FCG.solve A.toArith (env n₂ J₂ r) (op₂ r) (y.part L₂ n₂ r) (x0.part L₂ n₂ r) (some niter) tol) (fun r => .ok (x.part L₂ n₂ r, it, cost, xs.map fun z => z.part L₂ n₂ r))) ∨
    ∃ er, Always n₁ (fun r => FCG.solve A.toArith (env n₁ J₁ r) (op₁ r) (y.part L₁ n₁ r) (x0.part L₁ n₁ r) (some niter) tol) (fun _ => .error er) ∧
      Always n₂ (fun r => FCG.solve A.toArith (env n₂ J₂ r) (op₂ r) (y.part L₂ n₂ r) (x0.part L₂ n₂ r) (some niter) tol) (fun _ => .error er) := by
  intro op₁ op₂
  have w₁ : L₁.WF n₁ := by
    obtain ⟨S, T, rfl, -, -, h⟩ := h₁ _ dx
    exact (SAccepts.facts h).hS
  have w₂ : L₂.WF n₂ := by
    obtain ⟨S, T, rfl, -, -, h⟩ := h₂ _ dx
    exact (SAccepts.facts h).hS
  exact C74_cg_layouts A.toArith hA (op₁ := op₁) (op₂ := op₂) hn₁ hn₂ w₁ w₂ hN (fun h => hi (.inl h)) (fun h => hi (.inr h)) (C75_acts A (b := false) h₁) (C75_acts A (b := false) h₂) hy hx dy dx

end

/-! ### adjoint and difference -/

section
variable (A : OpArith K) {c : Ctx K}

theorem OpArith.xcheck_swap {s : Nat × Nat} {b : Bool} {x : XArr K} {k : P K (XArr K)} : OpArith.xcheck (s.2, s.1) b x k = OpArith.xcheck s (!b) x k := by
  unfold OpArith.xcheck
  cases b <;> rfl

theorem OpArith.xcheck_twice {s : Nat × Nat} {b : Bool} {x : XArr K} {k : P K (XArr K)} : OpArith.xcheck s b x (OpArith.xcheck s b x k) = OpArith.xcheck s b x k := by
  unfold OpArith.xcheck
  cases x <;> simp only <;> split_ifs <;> rfl

theorem OpArith.srun_check (e : SOp K (Prim K)) (b : Bool) (x : XArr K) : A.srun c b e x = OpArith.xcheck (e.shape Prim.shape) b x (A.srun c b e x) := by
  cases e <;> cases b <;> simp only [OpArith.srun, OpArith.xcheck_twice]

theorem OpArith.smulOp_ok {ℓ : Type} {sh : ℓ → Nat × Nat} {e f d : SOp K ℓ} (h : OpArith.smulOp sh e f = .ok d) : d = .prod e f := by
  unfold OpArith.smulOp at h
  split_ifs at h with h1 h2
  · split at h
    · split_ifs at h
    · cases h
  · split at h
    · split_ifs at h
      exact (Except.ok.inj h).symm
    · exact (Except.ok.inj h).symm

theorem OpArith.saddOp_ok {ℓ : Type} {sh : ℓ → Nat × Nat} {e f d : SOp K ℓ} (h : OpArith.saddOp sh e f = .ok d) : d = .sum e f := by
  unfold OpArith.saddOp at h
  split_ifs at h
  exact (Except.ok.inj h).symm

/-- If `e.H` is accepted, it has the transposed shape, and its `matvec` performs the computation and communication of `rmatvec` of `e`.  Its `rmatvec` performs those of `matvec`
    of `e`, if conjugating twice gives the same number. -/
theorem C75_H {e e' : SOp K (Prim K)} (h : A.sopH Prim.shape e = .ok e') :
    e'.shape Prim.shape = ((e.shape Prim.shape).2, (e.shape Prim.shape).1) ∧
      ∀ (b : Bool) (x : XArr K), (b = true → ∀ z, A.conj (A.conj z) = z) → A.srun c b e' x = A.srun c (!b) e x := by
  have hadj : ∀ {e : SOp K (Prim K)}, ((SOp.adj e).shape Prim.shape = ((e.shape Prim.shape).2, (e.shape Prim.shape).1) ∧
      ∀ (b : Bool) (x : XArr K), (b = true → ∀ z, A.conj (A.conj z) = z) → A.srun c b (.adj e) x = A.srun c (!b) e x) := by
    intro e
    refine ⟨rfl, fun b x _ => ?_⟩
    simp only [OpArith.srun, SOp.shape]
    rw [OpArith.xcheck_swap, ← A.srun_check]
  induction e generalizing e' with
  | vstack ops => obtain rfl := (Except.ok.inj h).symm; exact hadj
  | bdiag ops => obtain rfl := (Except.ok.inj h).symm; exact hadj
  | grad ops => obtain rfl := (Except.ok.inj h).symm; exact hadj
  | adj e ih => obtain rfl := (Except.ok.inj h).symm; exact hadj
  | trans e ih => obtain rfl := (Except.ok.inj h).symm; exact hadj
  | pow e p ih => obtain rfl := (Except.ok.inj h).symm; exact hadj
  | prod e f ihe ihf =>
    simp only [OpArith.sopH] at h
    cases hf : A.sopH Prim.shape f with
    | error er => rw [hf] at h; cases h
    | ok f' =>
      cases he : A.sopH Prim.shape e with
      | error er => rw [hf, he] at h; cases h
      | ok e1 =>
        rw [hf, he] at h
        obtain rfl := OpArith.smulOp_ok h
        obtain ⟨se, re⟩ := ihe he
        obtain ⟨sf, rf⟩ := ihf hf
        refine ⟨by simp only [SOp.shape, se, sf], fun b x hb => ?_⟩
        cases b <;> simp only [OpArith.srun, SOp.shape, se, sf, fun x => re _ x hb, fun x => rf _ x hb, OpArith.xcheck] <;> rfl
  | scaled e s ih =>
    simp only [OpArith.sopH] at h
    cases he : A.sopH Prim.shape e with
    | error er => rw [he] at h; cases h
    | ok e1 =>
      rw [he] at h
      obtain rfl := (Except.ok.inj h).symm
      obtain ⟨se, re⟩ := ih he
      refine ⟨se, fun b x hb => ?_⟩
      cases b
      · simp only [OpArith.srun, SOp.shape, se, fun x => re _ x hb, OpArith.xcheck]
        rfl
      · have hc : A.conjScal (A.conjScal s) = s := by
          simp only [OpArith.conjScal, hb rfl]
        simp only [OpArith.srun, SOp.shape, se, fun x => re _ x hb, OpArith.xcheck, hc, if_true]
        rfl
  | sum e f ihe ihf =>
    simp only [OpArith.sopH] at h
    cases he : A.sopH Prim.shape e with
    | error er => rw [he] at h; cases h
    | ok e1 =>
      cases hf : A.sopH Prim.shape f with
      | error er => rw [he, hf] at h; cases h
      | ok f' =>
        rw [he, hf] at h
        obtain rfl := OpArith.saddOp_ok h
        obtain ⟨se, re⟩ := ihe he
        obtain ⟨sf, rf⟩ := ihf hf
        refine ⟨se, fun b x hb => ?_⟩
        cases b <;> simp only [OpArith.srun, SOp.shape, se, fun x => re _ x hb, fun x => rf _ x hb, OpArith.xcheck] <;> rfl
  | conj e ih =>
    simp only [OpArith.sopH] at h
    cases he : A.sopH Prim.shape e with
    | error er => rw [he] at h; cases h
    | ok e1 =>
      rw [he] at h
      obtain rfl := (Except.ok.inj h).symm
      obtain ⟨se, re⟩ := ih he
      refine ⟨se, fun b x hb => ?_⟩
      cases b <;> simp only [OpArith.srun, SOp.shape, se, fun x => re _ x hb, OpArith.xcheck] <;> rfl

/-- `e - f` is rejected if `e` is not itself a scaled operator, whatever `f` is: its class differs from that of `-f` -/
theorem C75_sub {ℓ : Type} {sh : ℓ → Nat × Nat} {e f : SOp K ℓ} :
    A.ssubOp sh e f = if e.type = .scaled ∧ e.shape sh = f.shape sh then .ok (.sum e (.scaled f ⟨.real, A.negOne⟩)) else .error .value := by
  unfold OpArith.ssubOp OpArith.saddOp
  simp only [SOp.type, SOp.shape]
  by_cases h1 : e.type = .scaled <;> by_cases h2 : e.shape sh = f.shape sh <;> simp [h1, h2]

end

/-! ### exact arithmetic -/

section
variable [RCLike K]

theorem exact_vsLoop (c : Ctx K) (l : List (DArr K × MOp K (Prim K))) : ∀ y, OpArith.exact.vsLoop c y l = SOp.vsLoop c y l := by
  induction l with
  | nil => intro y; rfl
  | cons p l ih =>
    intro y
    simp only [OpArith.vsLoop, SOp.vsLoop, ih, C73_exact_run]
    rfl

theorem exact_vsRmv (c : Ctx K) (ops : List (MOp K (Prim K))) (x : XArr K) : OpArith.exact.vsRmv c ops x = SOp.vsRmv c ops x := by
  cases x with
  | one d => rfl
  | stack l =>
    cases l with
    | nil => rfl
    | cons x0 xs =>
      cases ops with
      | nil => rfl
      | cons o os => simp only [OpArith.vsRmv, SOp.vsRmv, exact_vsLoop, C73_exact_run]

theorem exact_vsMv (c : Ctx K) (ops : List (MOp K (Prim K))) (x : XArr K) : OpArith.exact.vsMv c ops x = SOp.vsMv c ops x := by
  cases x with
  | one d => simp only [OpArith.vsMv, SOp.vsMv, C73_exact_run]
  | stack l => rfl

theorem exact_bdMv (c : Ctx K) (b : Bool) (ops : List (MOp K (Prim K))) (x : XArr K) : OpArith.exact.bdMv c b ops x = SOp.bdMv c b ops x := by
  cases x with
  | one d => rfl
  | stack l => simp only [OpArith.bdMv, SOp.bdMv, C73_exact_run]

theorem exact_xpowLoop (c : Ctx K) (f : XArr K → P K (XArr K)) (p : Nat) : ∀ y, OpArith.exact.xpowLoop c f p y = SOp.powLoop c f p y := by
  induction p with
  | zero => intro y; rfl
  | succ p ih =>
    intro y
    simp only [OpArith.xpowLoop, SOp.powLoop, ih]
    rfl

/-- with exact arithmetic, stacked operators run as in Model/StackedOperator.lean -/
theorem C75_exact_run (c : Ctx K) (e : SOp K (Prim K)) : ∀ (b : Bool) (x : XArr K), OpArith.exact.srun c b e x = e.run c b x := by
  have h1 : ∀ x : XArr K, OpArith.exact.conjX c x = x.conj c := fun x => by cases x <;> rfl
  have h2 : ∀ x y : XArr K, OpArith.exact.addX c x y = x.add c y := fun x y => by cases x <;> cases y <;> rfl
  have h3 : ∀ (t : DType) (a : K) (x : XArr K), OpArith.exact.smulX c t a x = x.smul c t a := fun t a x => by cases x <;> rfl
  have h4 : ∀ x : XArr K, OpArith.exact.copy c x = x.copy c := fun x => by cases x <;> rfl
  have h5 : ∀ (s : Nat × Nat) (b : Bool) (x : XArr K) (k : P K (XArr K)), OpArith.xcheck s b x k = SOp.checkDim s b x k := fun s b x k => by cases x <;> rfl
  induction e with
  | vstack ops => intro b x; simp only [OpArith.srun, SOp.run, h5, exact_vsMv, exact_vsRmv]
  | grad ops => intro b x; simp only [OpArith.srun, SOp.run, h5, exact_vsMv, exact_vsRmv]
  | bdiag ops => intro b x; simp only [OpArith.srun, SOp.run, h5, exact_bdMv]
  | adj e ih => intro b x; simp only [OpArith.srun, SOp.run, ih, h5]
  | trans e ih => intro b x; simp only [OpArith.srun, SOp.run, ih, h5, h1]
  | prod e f ihe ihf => intro b x; cases b <;> simp only [OpArith.srun, SOp.run, ihe, ihf, h5]
  | scaled e s ih => intro b x; cases b <;> (simp only [OpArith.srun, SOp.run, ih, h5, h3]; rfl)
  | sum e f ihe ihf => intro b x; simp only [OpArith.srun, SOp.run, ihe, ihf, h5, h2]
  | pow e p ih =>
    intro b x
    simp only [OpArith.srun, SOp.run, exact_xpowLoop, h5, h4]
    rw [show OpArith.exact.srun c b e = e.run c b from funext (ih b)]
  | conj e ih => intro b x; simp only [OpArith.srun, SOp.run, ih, h5, h1]

end

/-! ### cases -/

/-- rounded integers with exact dot products and norms -/
def wholeOps : OpArith Int where
  toArrArith := { toArith := wholeArith, sub := fun x y => rough (x - y), div := fun x y => rough (x / y), half := 0, two := 2, three := 3, twelve := 12 }
  sumRows rows j := (rows.map (·.getD j 0)).foldl (fun x y => rough (x + y)) 0
  sumArr arrs j := (arrs.map (·.getD j 0)).foldl (fun x y => rough (x + y)) 0
  negOne := -1

/-- forward and backward differences of five numbers -/
def regPrim (i : Bool) (_ : Nat) : Prim Int := wholeOps.fdPrim (if i then .forward else .backward) ⟨[5], 1, false, .real⟩

/-- what they compute -/
def regLeaf (i b : Bool) (x : SVec Int) : SVec Int :=
  wholeOps.along .real 5 [] (fun v p => if b then wholeOps.fdEntryAdj .real false 5 1 v p (if i then .forward else .backward)
    else wholeOps.fdEntry .real false 5 1 v p (if i then .forward else .backward)) (x.copy wholeOps.toArith)

/-- `MPIStackedVStack([F, 3 * B])` -/
def regOp : SOp Int Bool := .vstack [.leaf true, .scaled (.leaf false) ⟨.real, 3⟩]

abbrev regV (n : Nat) : VSpace := ⟨.flat n 5 [], .real⟩

theorem reg_leaf (n : Nat) (hn : 0 < n) (h5 : n ≤ 5) (J : Nat → Nat → Int) (i b : Bool) : Accepts n J regPrim (fun _ => (5, 5)) regLeaf b (.leaf i) (regV n) (regV n) := by
  refine ⟨fun _ _ => rfl, ⟨flat_wf hn, rfl⟩, ⟨flat_wf hn, rfl⟩, by cases b <;> rfl, by cases b <;> rfl, ?_⟩
  have h := C73_leaf_first wholeOps (J := J) (n := n) (N := 5) (b := b) (X := .flat n 5 []) (dx := .real) (dt := .real) (rest := []) (s := 1) (edge := false) (if i then .forward else .backward) hn
    (by cases b <;> cases i <;> exact h5) (fun _ _ => rfl) (rowable_flat hn)
  exact h

theorem reg_scattered (n : Nat) : ¬ XLay.Replicated (.one (.flat n 5 [])) ∧ ¬ XLay.Replicated (.stack [.flat n 5 [], .flat n 5 []]) := by
  refine ⟨fun h => absurd h Bool.false_ne_true, fun ⟨L, hL, h⟩ => ?_⟩
  rcases List.mem_cons.1 hL with rfl | hL
  · exact absurd h Bool.false_ne_true
  · rcases List.mem_singleton.1 hL with rfl
    exact absurd h Bool.false_ne_true

/-- it can be applied, and so can its adjoint, on one to five ranks -/
theorem reg_accepts (n : Nat) (hn : 0 < n) (h5 : n ≤ 5) (J : Nat → Nat → Int) :
    SAccepts n J regPrim (fun _ => (5, 5)) regLeaf false regOp (.one (regV n)) (.stack [regV n, regV n]) ∧
    SAccepts n J regPrim (fun _ => (5, 5)) regLeaf true regOp (.stack [regV n, regV n]) (.one (regV n)) := by
  have h := reg_leaf n hn h5 J
  exact ⟨⟨by simp, .cons (h _ _) (.cons ⟨h _ _, fun _ => rfl⟩ .nil)⟩, ⟨h _ _, .cons ⟨.real, h _ _, fun _ => rfl⟩ .nil⟩⟩

/-- two ranks: the differences 1, 9, 21, 5 are rounded to 1, 8, 20, 5, and their triples 3, 24, 60, 15 to 3, 24, 60, 14 -/
example (J : Nat → Nat → Int) :
    Always 2 (fun r => wholeOps.srun (env 2 J r) false (regOp.map (regPrim · r)) ((⟨.real, [0, 1, 10, 31, 36]⟩ : SVec Int).part (.flat 2 5 []) 2 r))
      (fun r => .ok ((XVec.stack [⟨.real, [1, 8, 20, 5, 0]⟩, ⟨.real, [0, 3, 24, 60, 14]⟩] : XVec Int).part (.stack [.flat 2 5 [], .flat 2 5 []]) 2 r)) := by
  have h := (C75_expr wholeOps (reg_accepts 2 (by decide) (by decide) J).1).runs (.one ⟨.real, [0, 1, 10, 31, 36]⟩) rfl rfl
  refine h.congr fun r _ => ?_
  rw [show wholeOps.seval regLeaf false regOp (.one ⟨.real, [0, 1, 10, 31, 36]⟩) = .stack [⟨.real, [1, 8, 20, 5, 0]⟩, ⟨.real, [0, 3, 24, 60, 14]⟩] by rfl]
  rfl

/-- the third power of MPIStackedBlockDiag([F, B]) leaves a stack as it is -/
example (J : Nat → Nat → Int) (x y : SVec Int) (hx : x.v.length = 5) (hy : y.v.length = 5) (dx : x.dt = .real) (dy : y.dt = .real) :
    Always 2 (fun r => wholeOps.srun (env 2 J r) false (.pow (.bdiag [.leaf (regPrim true r), .leaf (regPrim false r)]) 3) ((XVec.stack [x, y]).part (.stack [.flat 2 5 [], .flat 2 5 []]) 2 r))
      (fun r => .ok ((XVec.stack [x, y]).part (.stack [.flat 2 5 [], .flat 2 5 []]) 2 r)) := by
  have h := reg_leaf 2 (by decide) (by decide) J
  have k := C75_pow_stack wholeOps (b := false) (e := .bdiag [.leaf true, .leaf false]) (p := 3) (Vs := [regV 2, regV 2]) (T := .stack [regV 2, regV 2]) (xs := [x, y]) (J := J) (sh := fun _ => (5, 5)) (lf := regLeaf) (prim := regPrim)
    ⟨rfl, _, rfl, by simp, h _ _, h _ _, trivial⟩ (List.Forall₂.cons hx (List.Forall₂.cons hy List.Forall₂.nil)) (by simp [XVec.dts, XDom.dts, dx, dy])
  refine k.congr fun r _ => ?_
  have hc : ∀ z : SVec Int, z.copy wholeOps.toArith = z := fun z => congrArg (SVec.mk z.dt) (List.map_id _)
  simp only [XVec.copy, List.map_cons, List.map_nil, hc]
  rfl

/-- `(2 * S).H` for the stacked operator `S` above -/
example (r : Nat) : wholeOps.sopH Prim.shape (.scaled (regOp.map (regPrim · r)) ⟨.real, 2⟩) = .ok (.scaled (.adj (regOp.map (regPrim · r))) ⟨.real, 2⟩) := rfl

/-- `S - S` is rejected -/
example (r : Nat) : wholeOps.ssubOp Prim.shape (regOp.map (regPrim · r)) (regOp.map (regPrim · r)) = .error .value := rfl

/-- regularised inversion on any two numbers of ranks up to five -/
example (n₁ n₂ : Nat) (hn₁ : 0 < n₁) (h₁ : n₁ ≤ 5) (hn₂ : 0 < n₂) (h₂ : n₂ ≤ 5) (J₁ J₂ : Nat → Nat → Int) (y x0 : XVec Int)
    (hy : y.Fits (.stack [.flat n₁ 5 [], .flat n₁ 5 []])) (hx : x0.Fits (.one (.flat n₁ 5 []))) (dy : y.dts = [.real, .real]) (dx : x0.dts = [.real]) (niter damp tol : Int) :
    let op (r : Nat) : XOp Int := wholeOps.asStackedOp (regOp.map (regPrim · r))
    let M (n : Nat) : XLay := .one (.flat n 5 [])
    let D (n : Nat) : XLay := .stack [.flat n 5 [], .flat n 5 []]
    (∃ (x : XVec Int) (istop it : Nat) (r1 r2 : Int) (cost : List Int) (xs : List (XVec Int)),
      Always n₁ (fun r => FCGLS.solve wholeOps.toArith wholeOps.normX (env n₁ J₁ r) (op r) (y.part (D n₁) n₁ r) (x0.part (M n₁) n₁ r) (some niter) damp tol)
        (fun r => .ok ⟨x.part (M n₁) n₁ r, istop, it, r1, r2, cost, xs.map fun z => z.part (M n₁) n₁ r⟩) ∧
      Always n₂ (fun r => FCGLS.solve wholeOps.toArith wholeOps.normX (env n₂ J₂ r) (op r) (y.part (D n₂) n₂ r) (x0.part (M n₂) n₂ r) (some niter) damp tol)
        (fun r => .ok ⟨x.part (M n₂) n₂ r, istop, it, r1, r2, cost, xs.map fun z => z.part (M n₂) n₂ r⟩)) ∨
    ∃ er, Always n₁ (fun r => FCGLS.solve wholeOps.toArith wholeOps.normX (env n₁ J₁ r) (op r) (y.part (D n₁) n₁ r) (x0.part (M n₁) n₁ r) (some niter) damp tol) (fun _ => .error er) ∧
      Always n₂ (fun r => FCGLS.solve wholeOps.toArith wholeOps.normX (env n₂ J₂ r) (op r) (y.part (D n₂) n₂ r) (x0.part (M n₂) n₂ r) (some niter) damp tol) (fun _ => .error er) := by
  have a := reg_accepts n₁ hn₁ h₁ J₁
  have b := reg_accepts n₂ hn₂ h₂ J₂
  exact C75_cgls wholeOps wholeArith_free (e := regOp) (lf := regLeaf) (prim₁ := regPrim) (prim₂ := regPrim) (sh₁ := fun _ => (5, 5)) (sh₂ := fun _ => (5, 5)) (D := (· = [.real])) (D' := (· = [.real, .real])) hn₁ hn₂
    (L₁ := .one (.flat n₁ 5 [])) (L₂ := .one (.flat n₂ 5 [])) (L₁' := .stack [.flat n₁ 5 [], .flat n₁ 5 []]) (L₂' := .stack [.flat n₂ 5 [], .flat n₂ 5 []])
    (fun _ _ _ => rfl) (fun h => h.elim (fun h => absurd h (reg_scattered n₁).2) fun h => absurd h (reg_scattered n₂).2) rfl (List.Forall₂.cons rfl (List.Forall₂.cons rfl List.Forall₂.nil))
    (fun d hd => ⟨.one (regV n₁), .stack [regV n₁, regV n₁], rfl, rfl, hd.symm, a.1⟩) (fun d hd => ⟨.one (regV n₂), .stack [regV n₂, regV n₂], rfl, rfl, hd.symm, b.1⟩)
    (fun d hd => ⟨.stack [regV n₁, regV n₁], .one (regV n₁), rfl, rfl, hd.symm, rfl, a.2⟩) (fun d hd => ⟨.stack [regV n₂, regV n₂], .one (regV n₂), rfl, rfl, hd.symm, b.2⟩)
    hy hx dy dx

end Verif

/- C91: Calls of the solvers and expressions of operators in programs; the number of ranks does not matter. -/
import Verif.Proofs.ScriptExpr
import Verif.Props.C90

namespace Verif
open NDArray
set_option linter.unusedSectionVars false

namespace Script
variable {K σ ι : Type} [RCLike K] {n : Nat} {J : Nat → Nat → K} {dt : DType} {prim : ι → Nat → Prim K} {lv : Leaves K ι}

/-! ### solvers -/

/-- the ranks hold the parts of an array, scattered along the first axis in any way or BROADCAST -/
def HeldArr (n : Nat) (dt : DType) (f : Nat → DArr K) (a : NDArray K) : Prop :=
  a.dtype = dt ∧ a.data.length = a.shape.prod ∧ ∃ L, Held n a.shape L ∧ ∀ r < n, f r = VSpace.vec ⟨L, dt⟩ n a.data r

/-- **C91** (cg).  Let the operator give the right result or raise.  The data, the first guess and the results of the operator may be held in different ways.
    * If `cg` raises with NumPy arrays, some rank raises, in all executions.
    * If it returns, then either all ranks return their parts of the solution, the number of iterations and the norms of the residuals that it returns, in all executions, or some rank raises, in all
      executions. -/
theorem C91_cg (hn : 0 < n) (hdt : dt = .real → ∀ k : K, star k = k) {p : Nat → Prim K} {sh : Nat × Nat} {fn : Bool → List K → List K} (ho : OpOr n J dt p sh fn)
    {y x : Nat → DArr K} {a b : NDArray K} (hy : HeldArr n dt y a) (hx : HeldArr n dt x b) (niter : Int) (tol : ℝ) :
    let ps r := CGS.solve (env n J r) (MOp.toX (.leaf (p r))) (.one (y r)) (.one (x r)) (some niter) tol
    let serial := (SerialCG.start (applyTo dt sh fn false) a b).bind (SerialCG.steps (applyTo dt sh fn false) tol niter.toNat)
    (∀ e, serial = .error e → Raises n ps) ∧
    ∀ s, serial = .ok s → (∃ (w : Nat → DArr K) (tr : Nat → List (XArr K)), HeldArr n dt w s.x ∧ Always n ps fun r => .ok (.one (w r), s.iiter, s.cost, tr r)) ∨ Raises n ps := by
  intro ps serial
  rcases out_cg ⟨hn, hdt⟩ (OpOr.rep ⟨hn, hdt⟩ ho) (y := fun r => .one (y r)) (x := fun r => .one (x r)) ⟨y, hy, fun _ _ => rfl⟩ ⟨x, hx, fun _ _ => rfl⟩ niter tol with
    ⟨s, hs, w, ⟨⟨v, hv, hw⟩, hw'⟩, hr⟩ | ⟨-, hr⟩
  · refine ⟨fun e he => (by rw [show serial = _ from hs] at he; cases he), fun s' hs' => .inl ?_⟩
    obtain rfl := Except.ok.inj (hs.symm.trans hs')
    refine ⟨v, fun r => (w r).2.2.2, hv, (hr.congr (fun _ _ => rfl) fun r hr => ?_).always⟩
    obtain ⟨h1, h2⟩ := hw' r hr
    rw [← h1, ← h2, ← show (w r).1 = _ from hw r hr]
  · exact ⟨fun _ _ => hr, fun _ _ => .inr hr⟩

/-- **C91** (cgls).  The same for `cgls`, with its numbers. -/
theorem C91_cgls (hn : 0 < n) (hdt : dt = .real → ∀ k : K, star k = k) {p : Nat → Prim K} {sh : Nat × Nat} {fn : Bool → List K → List K} (ho : OpOr n J dt p sh fn)
    {y x : Nat → DArr K} {a b : NDArray K} (hy : HeldArr n dt y a) (hx : HeldArr n dt x b) (niter : Int) (damp tol : ℝ) :
    let ps r := CGLSS.solve (env n J r) (MOp.toX (.leaf (p r))) (.one (y r)) (.one (x r)) (some niter) damp tol
    let serial := (SerialCGLS.start (applyTo dt sh fn) damp a b).bind (SerialCGLS.steps (applyTo dt sh fn) (damp ^ 2) tol niter.toNat)
    (∀ e, serial = .error e → Raises n ps) ∧
    ∀ s, serial = .ok s → (∃ (w : Nat → DArr K) (tr : Nat → List (XArr K)), HeldArr n dt w s.x ∧
      Always n ps fun r => .ok ⟨.one (w r), if s.k < tol then 1 else 2, s.iiter, s.k, s.cost1.getLastD .nan, s.cost, tr r⟩) ∨ Raises n ps := by
  intro ps serial
  rcases out_cgls ⟨hn, hdt⟩ (OpOr.rep ⟨hn, hdt⟩ ho) (y := fun r => .one (y r)) (x := fun r => .one (x r)) ⟨y, hy, fun _ _ => rfl⟩ ⟨x, hx, fun _ _ => rfl⟩ niter damp tol with
    ⟨s, hs, w, ⟨⟨v, hv, hw⟩, hw'⟩, hr⟩ | ⟨-, hr⟩
  · refine ⟨fun e he => (by rw [show serial = _ from hs] at he; cases he), fun s' hs' => .inl ?_⟩
    obtain rfl := Except.ok.inj (hs.symm.trans hs')
    refine ⟨v, fun r => (w r).trace, hv, (hr.congr (fun _ _ => rfl) fun r hr => ?_).always⟩
    have h1 := hw' r hr
    simp only [SerialCGLS.numbers, CGLSNumbers.mk.injEq] at h1
    obtain ⟨h1, h2, h3, h4, h5⟩ := h1
    rw [← h1, ← h2, ← h3, ← h4, ← h5, ← show (w r).x = _ from hw r hr]
  · exact ⟨fun _ _ => hr, fun _ _ => .inr hr⟩

/-! ### expressions -/

/-- **C91** (expressions).  Expressions of operators that give the right result or raise do so themselves: adjoints, transposes, conjugates, products, sums and scalar multiples; the operators may use
    different layouts. -/
theorem C91_expr (hn : 0 < n) (hdt : dt = .real → ∀ k : K, star k = k) (hops : OpsOr n J dt prim lv) (e : MOp K ι) (he : Expression dt e) (hs : Shaped lv.sh e) :
    OpOr n J dt (exprPrim prim lv.sh dt e) (e.shape lv.sh) fun b => den lv b e := by
  refine ⟨fun _ _ => rfl, fun b X hX => ?_⟩
  obtain ⟨Y, hY, h⟩ := expr_or hn hdt hops e he hs b X hX
  refine ⟨Y, hY, fun d hd => ?_⟩
  have hl : d.length = dimOf (e.shape lv.sh) b := by
    have := hd.1
    rw [show (VSpace.L ⟨X, dt⟩).gshape = _ from hX.shape] at this
    simpa using this
  obtain ⟨h1, h2⟩ := h d hl
  refine ⟨hY.mem hdt (by simpa using h1), ?_⟩
  have h3 := h2.imp Runs.always id
  cases b <;> exact h3

/-- **C91** (expressions as operators).  Making an operator of an expression changes nothing. -/
theorem C91_wrap (hp : ∀ i, ∀ r < n, (prim i r).shape = lv.sh i) (e : MOp K ι) (c : Ctx K) (b : Bool) (x : DArr K) {r : Nat} (hr : r < n) :
    MOp.run c b (.leaf (exprPrim prim lv.sh dt e r)) x = MOp.run c b (e.map (prim · r)) x := by
  have h0 : MOp.run c b (.leaf (exprPrim prim lv.sh dt e r)) x = checkDim (e.shape lv.sh) b x (MOp.run c b (e.map (prim · r)) x) := by
    cases b <;> rfl
  rw [h0]
  unfold checkDim
  by_cases h : x.gshape ≠ [if b then (e.shape lv.sh).1 else (e.shape lv.sh).2]
  · rw [if_pos h]
    rw [← expr_shape hp e hr] at h
    cases e <;> cases b <;> simp only [MOp.map, MOp.run, checkDim] <;> exact (if_pos h).symm
  · rw [if_neg h]

/-- **C91** (expressions in the default layout).  In the default layout this includes powers, and nothing raises. -/
theorem C91_expr_standard {κ : Type} (hn : 0 < n) (hdt : dt = .real → ∀ k : K, star k = k) (hops : OpsStandard n J dt prim lv) (e : κ → MOp K ι) (he : ∀ k, PowerExpression dt (e k))
    (hs : ∀ k, Shaped lv.sh (e k)) :
    OpsStandard n J dt (fun k => exprPrim prim lv.sh dt (e k)) ⟨fun k => (e k).shape lv.sh, fun k b => den lv b (e k)⟩ := by
  refine fun k => ⟨fun _ _ => rfl, fun b => ?_⟩
  have h := typed_computes (expr_typed hn hdt hops (e k) (he k) (hs k) b)
  cases b <;> exact h

/-- **C91** (programs with expressions).  In a script the operators may be such expressions. -/
theorem C91_script (hn : 0 < n) (hdt : dt = .real → ∀ k : K, star k = k) (hops : OpsOr n J dt prim lv) {κ : Type} (e : κ → MOp K ι) (he : ∀ k, Expression dt (e k)) (hs : ∀ k, Shaped lv.sh (e k))
    (p : Script K σ κ) {V : Nat → Vars (DArr K) σ} {G : Vars (NDArray K) σ} (h : Holds n dt V G) :
    let ps r := p.run dt (fun k => exprPrim prim lv.sh dt (e k) r) (env n J r) (V r)
    let serial := p.serial dt ⟨fun k => (e k).shape lv.sh, fun k b => den lv b (e k)⟩ G
    (∀ er, serial = .error er → Raises n ps) ∧ ∀ G', serial = .ok G' → (∃ V', Holds n dt V' G' ∧ Always n ps fun r => .ok (V' r)) ∨ Raises n ps :=
  C90_script (prim := fun k => exprPrim prim lv.sh dt (e k)) (lv := ⟨fun k => (e k).shape lv.sh, fun k b => den lv b (e k)⟩) hn hdt
    (fun k => C91_expr hn hdt hops (e k) (he k) (hs k)) p h

/-! ### the number of ranks -/

/-- **C91** (number of ranks).  Two jobs run the same script with different numbers of ranks and with operators that are distributed differently but are the same operators.  If both return, then the
    numbers, the gathered arrays and whatever else the script keeps are the same on all ranks of both jobs, and all arrays have the same entries. -/
theorem C91_ranks (hdt : dt = .real → ∀ k : K, star k = k) {n m : Nat} (hn : 0 < n) (hm : 0 < m) {J J' : Nat → Nat → K} {prim prim' : ι → Nat → Prim K} (hops : OpsOr n J dt prim lv)
    (hops' : OpsOr m J' dt prim' lv) (p : Script K σ ι) (s : σ) {V V' : Nat → Vars (DArr K) σ}
    (hc : Completes n (fun r => p.run dt (prim · r) (env n J r) ⟨fun _ => none, s⟩) V) (hc' : Completes m (fun r => p.run dt (prim' · r) (env m J' r) ⟨fun _ => none, s⟩) V') :
    (∀ q < n, ∀ r < m, (V q).loc = (V' r).loc) ∧ ∃ G, Holds n dt V G ∧ Holds m dt V' G := by
  obtain ⟨G, h1, h2, -⟩ := C90_results hn hdt hops p s hc
  obtain ⟨G', h1', h2', -⟩ := C90_results hm hdt hops' p s hc'
  obtain rfl := Except.ok.inj (h1.symm.trans h1')
  exact ⟨fun q hq r hr => (h2.1 q hq).trans (h2'.1 r hr).symm, G, h2, h2'⟩

/-- **C91** (number of ranks, default layout).  In the default layout a script returns on `n` ranks if and only if it returns on `m` ranks. -/
theorem C91_ranks_plain (hdt : dt = .real → ∀ k : K, star k = k) {n m : Nat} (hn : 0 < n) (hm : 0 < m) {J J' : Nat → Nat → K} {prim prim' : ι → Nat → Prim K} (ho : OpsOr n J dt prim lv)
    (ho' : OpsOr m J' dt prim' lv) (hops : OpsStandard n J dt prim lv) (hops' : OpsStandard m J' dt prim' lv) (p : Script K σ ι) (hp : p.Plain) (s : σ) :
    Raises n (fun r => p.run dt (prim · r) (env n J r) ⟨fun _ => none, s⟩) ↔ Raises m (fun r => p.run dt (prim' · r) (env m J' r) ⟨fun _ => none, s⟩) := by
  rw [C90_plain_iff hn hdt ho hops p hp (V := fun _ => ⟨fun _ => none, s⟩) (G := ⟨fun _ => none, s⟩) ⟨fun _ _ => rfl, fun _ _ _ => rfl⟩,
    C90_plain_iff hm hdt ho' hops' p hp (V := fun _ => ⟨fun _ => none, s⟩) (G := ⟨fun _ => none, s⟩) ⟨fun _ _ => rfl, fun _ _ _ => rfl⟩]

/-! ### examples -/

/-- `x, iiter, cost = cg(Op, y, x0, niter, tol)`, then the solution is gathered -/
noncomputable def callScript (N : Nat) (y : Nat → ℝ) (niter : Int) (tol : ℝ) : Script ℝ (Nat × List ℝ × List ℝ) Unit :=
  .seq (.dist 0 false (fun _ => [N]) fun _ => y) <|
  .seq (.unary (fun _ => .zeros) 1 0) <|
  .seq (.cg () 2 0 1 (fun _ => niter) (fun _ => tol) fun k c s => (k, c, s.2.2)) <|
  .gather 2 fun a s => (s.1, s.2.1, a.data)

/-- With NumPy arrays and the operator 2 I: one iteration, residual norms √10 and 0, solution (1/2, 3/2). -/
theorem serial_call : ((callScript 2 (fun i => if i = 0 then 1 else 3) 5 0).serial .real
    ⟨fun _ : Unit => (2, 2), fun _ b => blockDiag b (allOps 2 doubles)⟩ ⟨fun _ => none, (0, [], [])⟩).map (·.loc) = .ok (1, [√10, 0], [1 / 2, 3 / 2]) := by
  have e : Int.toNat 5 = 4 + 1 := rfl
  norm_num [e, callScript, serial, SerialCG.start, SerialCG.step, SerialCG.steps, applyTo, divide, dotConj, scaleBy, ebind, Vars.get, Vars.set, NDArray.tab, elementwise, Except.bind, Except.map,
    UnaryOp.fn, BinaryOp.fn, dimOf, List.range_succ, blockDiag_doubles]

/-- On 2 ranks, in all executions, both ranks have this. -/
example (J : Nat → Nat → ℝ) : ∃ V : Nat → Vars (DArr ℝ) (Nat × List ℝ × List ℝ), (∀ r < 2, (V r).loc = (1, [√10, 0], [1 / 2, 3 / 2])) ∧
    Always 2 (fun r => (callScript 2 (fun i => if i = 0 then 1 else 3) 5 0).run .real (fun _ => bdPrim 2 doubles none .real r) (env 2 J r) ⟨fun _ => none, (0, [], [])⟩)
      fun r => .ok (V r) := by
  have h := serial_call
  cases hs : (callScript 2 (fun i => if i = 0 then 1 else 3) 5 0).serial .real ⟨fun _ : Unit => (2, 2), fun _ b => blockDiag b (allOps 2 doubles)⟩ ⟨fun _ => none, (0, [], [])⟩ with
  | error e => rw [hs] at h; cases h
  | ok G =>
    rw [hs] at h
    obtain ⟨V, h1, h2⟩ := C90_plain (J := J) (prim := fun _ => bdPrim 2 doubles none .real) (n := 2) (by decide) (fun _ _ => rfl)
      (C90_blockDiag_standard (ι := Unit) (ops := fun _ => doubles) (by decide) (fun _ _ _ h => doubles_ok h) (fun _ _ _ => by simp [doubles]) (by intro _ b r; cases b <;> rfl))
      (callScript 2 (fun i => if i = 0 then 1 else 3) 5 0) (by simp [callScript, Plain]) (V := fun _ => ⟨fun _ => none, (0, [], [])⟩) (G := ⟨fun _ => none, (0, [], [])⟩)
      ⟨fun _ _ => rfl, fun _ _ _ => rfl⟩ hs
    exact ⟨V, fun r hr => by rw [h1.1 r hr]; exact Except.ok.inj h, h2⟩

/-- The normal operator Aᴴ A + 2 I of the block diagonal operator is an expression that may stand in a script. -/
example : let e : MOp ℝ Unit := .sum (.prod (.adj (.leaf ())) (.leaf ())) (.scaled (.leaf ()) ⟨.real, 2⟩)
    Expression .real e ∧ Shaped (fun _ => (n, n)) e := ⟨⟨⟨trivial, trivial⟩, trivial, fun _ => rfl⟩, ⟨trivial, trivial, rfl⟩, trivial, rfl⟩

end Script
end Verif

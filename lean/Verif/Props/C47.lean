/- C47: the solvers do not modify their inputs. -/
import Verif.Props.C06
import Verif.Props.C46

set_option linter.unusedSectionVars false

namespace Verif
open NDArray

section
variable {K : Type} [RCLike K] {h : Heap K} {c : Ctx K} {op : HXOp K} {cb : XRef → HP K Unit} {y x0 : XRef} {niter : Option Int} {damp tol : ℝ} {n r : Nat}

theorem Keeps.sound {α : Type} {m : HP K α} {Q : α → Heap K → Prop} (hm : Keeps h h m Q) (hw : h.WF) (hr : r < n) {ps : Nat → P K (Except Err α × Heap K)} (hp : ps r = m h)
    {s : St (Msg K) (Except Err α × Heap K)} (hs : Run n (St.init ps) s) {o : Except Err α} {h' : Heap K} (ho : s.prog r = .ret (o, h')) :
    (∀ x d, h.get? x = some d → h'.get? x = some d) ∧ (∀ (m : Nat) (v : NDArray K), h.bufs[m]? = some v → h'.bufs[m]? = some v) ∧ Frame [] h h' ∧ ∀ p, o = .ok p → Q p h' := by
  have h1 : (ps r).Post fun o => ∃ x, o = .ok x ∧ x.2.WF ∧ Frame [] h x.2 ∧ h.objs.length ≤ x.2.objs.length ∧ ∀ a, x.1 = .ok a → Q a x.2 := by rw [hp]; exact hm
  obtain ⟨x, hx, -, hf, -, hq⟩ := h1.sound hr hs (o := .ok (o, h')) ho
  cases hx
  exact ⟨fun x d hd => hf.get hw (by simp) hd, fun m v hm => hf.same m v hm (by simp), hf, hq⟩

theorem Own.fresh {h' : Heap K} {a : XRef} (ha : Own h h' a) (hf : Frame [] h h') : Fresh h h' a := fresh_of hf ha.2 ha.1

/-- **C47** (`cg`).  In any reachable memory, for any existing arrays `y` and `x0` (possibly the same), any limit and tolerance, and any operator and callback that change
    nothing but their argument (and what they create): in any execution, whatever the other ranks do, every array object that existed — in particular `y` and `x0` — and
    every NumPy buffer have the same value after `cg` as before, also when `cg` raises an exception; and the returned array shares no memory with them. -/
theorem C47_cg (hh : Reachable h) (hop : OnlyArg (op.mv c)) (hcb : OnlyArgCb cb) (hy : Live h y.refs) (hx : Live h x0.refs) (hr : r < n)
    {ps : Nat → P K (Except Err (XRef × Nat × List ℝ × List (XArr K)) × Heap K)} (hp : ps r = HCG.solve c op cb y x0 niter tol h)
    {s : St (Msg K) (Except Err (XRef × Nat × List ℝ × List (XArr K)) × Heap K)} (hs : Run n (St.init ps) s) {o : Except Err (XRef × Nat × List ℝ × List (XArr K))} {h' : Heap K}
    (ho : s.prog r = .ret (o, h')) :
    (∀ x d, h.get? x = some d → h'.get? x = some d) ∧ (∀ (m : Nat) (v : NDArray K), h.bufs[m]? = some v → h'.bufs[m]? = some v) ∧ ∀ p, o = .ok p → Fresh h h' p.1 := by
  have hw := C06_no_sharing hh
  obtain ⟨h1, h2, h3, h4⟩ := (HCG.solve_keeps hop hcb hw hy hx niter tol).sound hw hr hp hs ho
  exact ⟨h1, h2, fun p hp => (h4 p hp).fresh h3⟩

/-- **C47** (`cgls`). -/
theorem C47_cgls (hh : Reachable h) (hop : OnlyArg (op.mv c)) (hop' : OnlyArg (op.rmv c)) (hcb : OnlyArgCb cb) (hy : Live h y.refs) (hx : Live h x0.refs) (hr : r < n)
    {ps : Nat → P K (Except Err (HCGLS.Result K) × Heap K)} (hp : ps r = HCGLS.solve c op cb y x0 niter damp tol h)
    {s : St (Msg K) (Except Err (HCGLS.Result K) × Heap K)} (hs : Run n (St.init ps) s) {o : Except Err (HCGLS.Result K)} {h' : Heap K} (ho : s.prog r = .ret (o, h')) :
    (∀ x d, h.get? x = some d → h'.get? x = some d) ∧ (∀ (m : Nat) (v : NDArray K), h.bufs[m]? = some v → h'.bufs[m]? = some v) ∧ ∀ p, o = .ok p → Fresh h h' p.x := by
  have hw := C06_no_sharing hh
  obtain ⟨h1, h2, h3, h4⟩ := (HCGLS.solve_keeps hop hop' hcb hw hy hx niter damp tol).sound hw hr hp hs ho
  exact ⟨h1, h2, fun p hp => (h4 p hp).fresh h3⟩

/-- The operators that can be built with the library satisfy the hypothesis: all expressions (products, sums, powers, ...) of BlockDiag, VStack, HStack, FirstDerivative,
    SecondDerivative, Laplacian, Fredholm1, MDC, wrapped local operators, and user-defined operators that return a new array computed from the value of their argument. -/
theorem C47_operators {e : MOp K (HPrim K)} (he : LibM e) (c : Ctx K) : OnlyArg (e.toHX.mv c) ∧ OnlyArg (e.toHX.rmv c) := by
  obtain ⟨b, e, rfl, rfl⟩ := he.same
  exact ⟨(MOp.toHX_mv (hp := fun i : HLeaf K => i.1.1) (pr := fun i : HLeaf K => i.1.2) (fun i => i.2 c) e).onlyArg,
    (MOp.toHX_rmv (hp := fun i : HLeaf K => i.1.1) (pr := fun i : HLeaf K => i.1.2) (fun i => i.2 c) e).onlyArg⟩

theorem C47_stacked_operators {e : SOp K (HPrim K)} (he : LibS e) (c : Ctx K) : OnlyArg (e.toHX.mv c) ∧ OnlyArg (e.toHX.rmv c) := by
  obtain ⟨b, e, rfl, rfl⟩ := he.same
  exact ⟨(SOp.toHX_mv (hp := fun i : HLeaf K => i.1.1) (pr := fun i : HLeaf K => i.1.2) (fun i => i.2 c) e).onlyArg,
    (SOp.toHX_rmv (hp := fun i : HLeaf K => i.1.1) (pr := fun i : HLeaf K => i.1.2) (fun i => i.2 c) e).onlyArg⟩

/-- So does an operator that works in place: it doubles its argument and returns it. -/
theorem C47_inplace_operator (c : Ctx K) : OnlyArg (fun a : XRef => HX.iadd (K := K) c a a) := fun h a hw ha =>
  (HX.iadd_post (c := c) hw ha ha).mono (fun _ h => h) fun z h' _ hf hz => by rw [hz]; exact hf.live ha

/-- Callbacks that do nothing, or change the iterate. -/
theorem C47_callbacks (c : Ctx K) : OnlyArgCb (fun _ : XRef => (HP.ret () : HP K Unit)) ∧ OnlyArgCb (fun a : XRef => (do let _ ← HX.iadd (K := K) c a a; HP.ret () : HP K Unit)) :=
  ⟨fun _ _ hw _ => .ret hw trivial, fun _ _ hw ha => done_post (HX.iadd_post (c := c) hw ha ha)⟩

end

/-! ### The solvers on the memory compute what the solvers on values compute

So the theorems C40 - C46 hold for the solvers with in-place updates of `x`, `r` and `s`. -/

section
variable {K : Type} [RCLike K] {n : Nat} {J : Nat → Nat → K} {h : Nat → Heap K} {op : Nat → HXOp K} {op' : Nat → XOp K} {cb : Nat → XRef → HP K Unit} {y x0 : Nat → XRef}
  {y' x0' : Nat → XArr K} {niter : Option Int} {damp tol : ℝ}

/-- `cg` with in-place updates: if the solver on values always ends with the results `ρ`, then `cg` on the memory does, on all ranks, with the same numbers, the same values seen by
    the callback, and the solution in a new array; the operator may be any program that computes the same values, and the callback any program that changes nothing. -/
theorem C47_cg_refines (hh : ∀ r < n, Reachable (h r)) (hop : ∀ r < n, Implements (env n J r) ((op r).mv (env n J r)) ((op' r).mv (env n J r))) (hcb : ∀ r < n, Harmless (cb r))
    (hy : ∀ r < n, HasX (h r) (y r) (y' r)) (hx : ∀ r < n, HasX (h r) (x0 r) (x0' r)) {ρ : Nat → XArr K × Nat × List ℝ × List (XArr K)}
    (hρ : Always n (fun r => CGS.solve (env n J r) (op' r) (y' r) (x0' r) niter tol) (fun r => .ok (ρ r))) :
    ∃ out : Nat → Except Err (XRef × Nat × List ℝ × List (XArr K)) × Heap K,
      Always n (fun r => HCG.solve (env n J r) (op r) (cb r) (y r) (x0 r) niter tol (h r)) (fun r => .ok (out r)) ∧
      ∀ r < n, ∃ z, (out r).1 = .ok (z, (ρ r).2) ∧ HasX (out r).2 z (ρ r).1 ∧ Fresh (h r) (out r).2 z ∧ HasX (out r).2 (y r) (y' r) ∧ HasX (out r).2 (x0 r) (x0' r) := by
  have hw := fun r hr => C06_no_sharing (hh r hr)
  obtain ⟨out, h1, h2⟩ := HRel.always (fun r hr => HCG.solve_impl (hop r hr) (hcb r hr) (hw r hr) (hy r hr) (hx r hr) niter tol) hρ
  refine ⟨out, h1, fun r hr => ?_⟩
  obtain ⟨⟨z, t⟩, h3, h4, h5, h6, h7, h8⟩ := h2 r hr
  dsimp only at h6 h7 h8
  exact ⟨z, by rw [h3, h8], h7, fresh_of h5 h6 h7.live, h5.hasX (hw r hr) (hy r hr) (by simp), h5.hasX (hw r hr) (hx r hr) (by simp)⟩

/-- `cgls` with in-place updates. -/
theorem C47_cgls_refines (hh : ∀ r < n, Reachable (h r)) (hop : ∀ r < n, Implements (env n J r) ((op r).mv (env n J r)) ((op' r).mv (env n J r)))
    (hop' : ∀ r < n, Implements (env n J r) ((op r).rmv (env n J r)) ((op' r).rmv (env n J r))) (hcb : ∀ r < n, Harmless (cb r))
    (hy : ∀ r < n, HasX (h r) (y r) (y' r)) (hx : ∀ r < n, HasX (h r) (x0 r) (x0' r)) {ρ : Nat → CGLSS.Result K}
    (hρ : Always n (fun r => CGLSS.solve (env n J r) (op' r) (y' r) (x0' r) niter damp tol) (fun r => .ok (ρ r))) :
    ∃ out : Nat → Except Err (HCGLS.Result K) × Heap K,
      Always n (fun r => HCGLS.solve (env n J r) (op r) (cb r) (y r) (x0 r) niter damp tol (h r)) (fun r => .ok (out r)) ∧
      ∀ r < n, ∃ z, (out r).1 = .ok ⟨z, (ρ r).istop, (ρ r).iiter, (ρ r).r1norm, (ρ r).r2norm, (ρ r).cost, (ρ r).trace⟩ ∧ HasX (out r).2 z (ρ r).x ∧ Fresh (h r) (out r).2 z ∧
        HasX (out r).2 (y r) (y' r) ∧ HasX (out r).2 (x0 r) (x0' r) := by
  have hw := fun r hr => C06_no_sharing (hh r hr)
  obtain ⟨out, h1, h2⟩ := HRel.always (fun r hr => HCGLS.solve_impl (hop r hr) (hop' r hr) (hcb r hr) (hw r hr) (hy r hr) (hx r hr) niter damp tol) hρ
  refine ⟨out, h1, fun r hr => ?_⟩
  obtain ⟨⟨z, t1, t2, t3, t4, t5, t6⟩, h3, h4, h5, h6, h7, e1, e2, e3, e4, e5, e6⟩ := h2 r hr
  dsimp only at h6 h7 e1 e2 e3 e4 e5 e6
  exact ⟨z, by rw [h3, e1, e2, e3, e4, e5, e6], h7, fresh_of h5 h6 h7.live, h5.hasX (hw r hr) (hy r hr) (by simp), h5.hasX (hw r hr) (hx r hr) (by simp)⟩

end

/-! ### Non-vacuity -/

section
open Serial

/-- a call that ends without communication -/
theorem Reachable.pure {K : Type} [Field K] [StarRing K] {h h' : Heap K} (k : Call K) (c : Ctx K) (o : Except Err Unit) (hh : Reachable h) (hk : Live h k.refs)
    (he : k.run c h = .ret (o, h')) : Reachable h' :=
  .call (n := 1) (r := 0) (c := c) (o := o) k hh hk (by decide) (ps := fun _ => k.run c h) rfl .refl he

/-- an object with two entries of arbitrary contents, and then the parts of `y = (2, 5)` and `x0 = 0` on rank `r` of two -/
noncomputable def Diag2.heap (r : Nat) : Heap ℝ :=
  (((⟨[], []⟩ : Heap ℝ).alloc ⟨[2], .scatter, 0, none, [0], [2], .real, ⟨[2], .real, [0, 0]⟩⟩).alloc (Diag2.V.vec 2 [2, 5] r)).alloc (Diag2.V.vec 2 [0, 0] r)

/-- This memory is reachable: an array is created, and two operators are applied to it. -/
theorem Diag2.heap_reachable (r : Nat) : Reachable (Diag2.heap r) := by
  have h1 : Reachable ((⟨[], []⟩ : Heap ℝ).alloc ⟨[2], .scatter, 0, none, [0], [2], .real, ⟨[2], .real, [0, 0]⟩⟩) :=
    Reachable.pure (.new [2] .scatter 0 none none .real) (env 1 (fun _ _ => 0) 0) (.ok ()) (.start []) (by simp [Live, Call.refs])
      (by
        simp [Call.run, HArr.new, mkDArr, mkSub, checkLocalShapes, localSplit, emptyArr, env, Ctx.world, castTo, len, Partition.isBroadcast]
        rfl)
  have h2 := Reachable.pure (.apply (.leaf (Prim.heap ⟨2, 2, .real, fun _ _ => .ret (Diag2.V.vec 2 [2, 5] r), fun _ d => .ret d⟩)) (.leaf (.user _)) false 0) (env 1 (fun _ _ => 0) 0) (.ok ()) h1
    (by simp [Live, Call.refs, Heap.alloc]) rfl
  exact Reachable.pure (.apply (.leaf (Prim.heap ⟨2, 2, .real, fun _ _ => .ret (Diag2.V.vec 2 [0, 0] r), fun _ d => .ret d⟩)) (.leaf (.user _)) false 0) (env 1 (fun _ _ => 0) 0) (.ok ()) h2
    (by simp [Live, Call.refs, Heap.alloc]) rfl

/-- Non-vacuity: one step of `cg` for diag(2, 5) on two ranks, with in-place updates: the iterate of serial CG is in a new array, and `y` and `x0` are unchanged. -/
example : ∃ out : Nat → Except Err (XRef × Nat × List ℝ × List (XArr ℝ)) × Heap ℝ,
    Always 2 (fun r => HCG.solve (env 2 (fun _ _ => 0) r) (((MOp.leaf (bdPrim 2 (Diag2.ops 2 5) none .real r)).map Prim.heap).toHX) (fun _ => HP.ret ()) (.one 1) (.one 2) (some 1) 0 (Diag2.heap r))
      (fun r => .ok (out r)) ∧
    ∀ r < 2, ∃ z, (out r).1 = .ok (z, 1, (List.range 2).map (fun i => Real.sqrt (CG.seq ℝ (Diag2.A 2 5) !₂[2, 5] 0 i).k),
        [(XSpace.one Diag2.V).part 2 (CG.seq ℝ (Diag2.A 2 5) !₂[2, 5] 0 1).x r]) ∧
      HasX (out r).2 z ((XSpace.one Diag2.V).part 2 (CG.seq ℝ (Diag2.A 2 5) !₂[2, 5] 0 1).x r) ∧ Fresh (Diag2.heap r) (out r).2 z ∧
      HasX (out r).2 (.one 1) ((XSpace.one Diag2.V).part 2 !₂[(2 : ℝ), 5] r) ∧ HasX (out r).2 (.one 2) ((XSpace.one Diag2.V).part 2 (0 : Vec ℝ 2) r) := by
  have hρ : Always 2 (fun r => CGS.solve (env 2 (fun _ _ => 0) r) (Diag2.op 2 5 r) ((XSpace.one Diag2.V).part 2 !₂[(2 : ℝ), 5] r) ((XSpace.one Diag2.V).part 2 (0 : Vec ℝ 2) r) (some 1) 0)
      (fun r => .ok ((XSpace.one Diag2.V).part 2 (CG.seq ℝ (Diag2.A 2 5) !₂[2, 5] 0 1).x r, 1,
        (List.range 2).map fun i => Real.sqrt (CG.seq ℝ (Diag2.A 2 5) !₂[2, 5] 0 i).k, [(XSpace.one Diag2.V).part 2 (CG.seq ℝ (Diag2.A 2 5) !₂[2, 5] 0 1).x r])) := by
    refine C46_cg Diag2.wf Diag2.noMask (Diag2.acts 2 5 false (fun _ _ => 0)) (Diag2.has _) (Diag2.has _) (m := 1) ⟨by omega, fun i _ hi => ?_, .inl (by simp)⟩ fun i hi => ?_
    · obtain rfl : i = 0 := by omega
      refine ⟨by simp, ?_⟩
      simp [CG.seq, CG.init, EuclideanSpace.norm_sq_eq, Fin.sum_univ_two, Diag2.A]; norm_num
    · obtain rfl : i = 0 := by omega
      exact diag2_ok
  refine C47_cg_refines (op' := Diag2.op 2 5) (fun r _ => Diag2.heap_reachable r) (fun r _ => MOp.toHX_mv (pr := id) (fun p => p.heap_is) (.leaf (bdPrim 2 (Diag2.ops 2 5) none .real r))) (fun r _ h a hw _ => Impl.ret hw trivial) (fun r _ => ?_) (fun r _ => ?_) hρ
  · show (Diag2.heap r).get? 1 = some (Diag2.V.vec 2 (toL !₂[(2 : ℝ), 5]) r)
    have : toL !₂[(2 : ℝ), 5] = [2, 5] := by simp [toL, List.ofFn_succ]
    rw [this]
    rfl
  · show (Diag2.heap r).get? 2 = some (Diag2.V.vec 2 (toL (0 : Vec ℝ 2)) r)
    have : toL (0 : Vec ℝ 2) = [0, 0] := by simp [toL, List.ofFn_succ]
    rw [this]
    rfl

end
end Verif

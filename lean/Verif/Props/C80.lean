/- C80: a solver object can be used again. -/
import Verif.Proofs.SolverReuse

set_option linter.unusedSectionVars false

namespace Verif
open NDArray Serial

section
variable {K : Type} [RCLike K] {c : Ctx K} {op : HXOp K} {cb : XRef → HP K Unit} {y x0 : XRef} {niter : Option Int} {damp tol : ℝ}

/-- **C80** (`solve` again, CG).  Whatever the attributes of a CG object are — set or unset by earlier calls, complete or interrupted by exceptions — `solve` communicates, changes the
    memory, returns and sets the attributes as with any other attributes: as with those of a new object. -/
theorem C80_cg_again (o o' : CGObj) : (CGObj.solve c op cb y x0 niter tol).seen o = (CGObj.solve c op cb y x0 niter tol).seen o' := by
  rw [CGObj.solve_seen, CGObj.solve_seen]

/-- And the results are those of `cg` in C40 – C47 and C62: `HCG.solve` is the program there. -/
theorem C80_cg_result (o : CGObj) : ((CGObj.solve c op cb y x0 niter tol).seen o >>= fun p => HP.ret p.1) = HCG.solve c op cb y x0 niter tol := by
  rw [CGObj.solve_seen]
  unfold HCG.solve
  simp only [HP.bind_assoc, HP.ret_bind]

/-- `setup` again: all attributes are those of a new object, so that `step`, `run` and `finalize` cannot tell the difference. -/
theorem C80_cg_setup (o o' : CGObj) : (CGObj.setup c op y x0 niter tol).seen o = (CGObj.setup c op y x0 niter tol).seen o' := by
  rw [CGObj.setup_seen, CGObj.setup_seen]

/-- **C80** (`solve` again, CGLS) -/
theorem C80_cgls_again (o o' : CGLSObj) : (CGLSObj.solve c op cb y x0 niter damp tol).seen o = (CGLSObj.solve c op cb y x0 niter damp tol).seen o' := by
  rw [CGLSObj.solve_seen, CGLSObj.solve_seen]

theorem C80_cgls_result (o : CGLSObj) : ((CGLSObj.solve c op cb y x0 niter damp tol).seen o >>= fun p => HP.ret p.1) = HCGLS.solve c op cb y x0 niter damp tol := by
  rw [CGLSObj.solve_seen]
  unfold HCGLS.solve
  simp only [HP.bind_assoc, HP.ret_bind, HP.bind_ret]

/-- `setup` again: only `istop`, `r1norm` and `r2norm` are kept, which no method but `finalize` uses, and `finalize` sets them. -/
theorem C80_cgls_setup (o o' : CGLSObj) :
    (CGLSObj.setup c op y x0 niter damp tol).seen o = (CGLSObj.setup c op y x0 niter damp tol).seen o' >>= fun p =>
      HP.ret (p.1, { p.2 with istop := o.istop, r1norm := o.r1norm, r2norm := o.r2norm }) := by
  rw [CGLSObj.setup_seen, CGLSObj.setup_seen]
  simp only [HP.bind_assoc, HP.ret_bind]
  rfl

/-- Before `setup`, `step` raises AttributeError on every rank without communication. -/
theorem C80_step_before_setup (x : XRef) (o : CGObj) (hc : o.c = none) (o' : CGLSObj) (hk : o'.kold = none) (h : Heap K) :
    CGObj.step c op x o h = .ret (.error .attribute, o, h) ∧ CGLSObj.step c op x o' h = .ret (.error .attribute, o', h) := by
  refine ⟨?_, ?_⟩
  · show (OM.bind (OM.get CGObj.c) _) o h = _
    simp [OM.bind, OM.get, hc, Prog.ret_bind]
  · show (OM.bind (OM.bind (OM.get CGLSObj.kold) _) _) o' h = _
    simp [OM.bind, OM.get, hk, Prog.ret_bind]

/-! ### `run` after `solve` -/

/-- **C80 is false** for `run` after `solve` (CG): if the loop has work left, the first step is computed and stored, and then AttributeError is raised; otherwise the result is that of
    `solve`. -/
theorem C80_cg_run_partial (o : CGObj) (m m' : Int) :
    (CGObj.solve c op cb y x0 (some m) tol >>= fun p => CGObj.run c op cb p.1 (some m')).seen o =
      (HCG.setup c op y x0 (some m) tol >>= fun p => HCG.run c op cb p.1 p.2 (some m)) >>= fun q =>
        if (q.1.iiter : Int) < m' ∧ q.1.kold > q.1.tol then HCG.step c op q.1 q.2.1 >>= fun _ => HP.throw .attribute
        else HP.ret ((q.2.1, []), CGObj.of q.1 (.array q.1.cost)) := by
  rw [OM.seen_bind, CGObj.solve_seen]
  simp only [HP.bind_assoc, HP.ret_bind, CGObj.run_seen_array]

/-- **C80 is false** for `run` after `solve` (CGLS) -/
theorem C80_cgls_run_partial (o : CGLSObj) (m m' : Int) :
    (CGLSObj.solve c op cb y x0 (some m) damp tol >>= fun p => CGLSObj.run c op cb p.x (some m')).seen o =
      (HCGLS.setup c op y x0 (some m) damp tol >>= fun p => HCGLS.run c op cb p.1 p.2 (some m)) >>= fun q => HCGLS.finalize q.1 q.2.1 q.2.2 >>= fun res =>
        if (q.1.iiter : Int) < m' ∧ q.1.kold > q.1.tol then HCGLS.update c op q.1 res.x >>= fun _ => HP.throw .attribute
        else HP.ret ((res.x, []), CGLSObj.of q.1 (.array q.1.cost) (CGLSObj.ends res)) := by
  rw [OM.seen_bind, CGLSObj.solve_seen]
  simp only [HP.bind_assoc, HP.ret_bind, CGLSObj.run_seen_array]

end

section
variable {K : Type} [RCLike K] {n N : Nat} {J : Nat → Nat → K} {S T : XSpace} {h : Nat → Heap K} {op : Nat → HXOp K} {op' : Nat → XOp K} {cb : Nat → XRef → HP K Unit} {yr xr : Nat → XRef}
  {damp tol : ℝ} {mx mx' : Int} {m : Nat}

/-- **C80 is false** for `run` after `solve` (CG).  If `solve` ended after `m` iterations because of the limit, the norm being above the tolerance, then `run` with a larger limit raises
    AttributeError on every rank, in all executions; and by then the array that `solve` returned has changed: it holds the iterate `m + 1`. -/
theorem C80_cg_run_false {A : Vec K N → Vec K N} {y x0 : Vec K N} (hn : 0 < n) (hS : S.WF n) (hm : S.NoMask) (hA : Acts n J (fun r => (op' r).mv) S S A) (hy : S.Has y) (hx : S.Has x0)
    (hh : ∀ r < n, Reachable (h r)) (hop : ∀ r < n, Implements (env n J r) ((op r).mv (env n J r)) ((op' r).mv (env n J r))) (hcb : ∀ r < n, Harmless (cb r))
    (hyr : ∀ r < n, HasX (h r) (yr r) (S.part n y r)) (hxr : ∀ r < n, HasX (h r) (xr r) (S.part n x0 r))
    (hst : Stops (fun i => (CG.seq K A y x0 i).k) mx tol 0 m) (hb : ∀ i ≤ m, ¬ CG.Breaks K A (CG.seq K A y x0 i)) (hmore : (m : Int) < mx') (hk : (CG.seq K A y x0 m).k > tol)
    (o : Nat → CGObj) :
    ∃ (z : Nat → XRef) (cost : Nat → List ℝ) (tr : Nat → List (XArr K)) (o' : Nat → CGObj) (h1 h2 : Nat → Heap K),
      Always n (fun r => (CGObj.solve (env n J r) (op r) (cb r) (yr r) (xr r) (some mx) tol).seen (o r) (h r)) (fun r => .ok (.ok ((z r, m, cost r, tr r), o' r), h1 r)) ∧
      Always n (fun r => (CGObj.solve (env n J r) (op r) (cb r) (yr r) (xr r) (some mx) tol >>= fun p => CGObj.run (env n J r) (op r) (cb r) p.1 (some mx')).seen (o r) (h r))
        (fun r => .ok (.error .attribute, h2 r)) ∧
      (∀ r < n, HasX (h1 r) (z r) (S.part n (CG.seq K A y x0 m).x r) ∧ HasX (h2 r) (z r) (S.part n (CG.seq K A y x0 (m + 1)).x r)) ∧
      ∃ r < n, S.part n (CG.seq K A y x0 m).x r ≠ S.part n (CG.seq K A y x0 (m + 1)).x r := by
  have hw := fun r hr => C06_no_sharing (hh r hr)
  have : Nonempty (HCG × XRef) := ⟨⟨.one 0, none, 0, .one 0, .one 0, 0, [], 0⟩, .one 0⟩
  have : Nonempty (HCG × XRef × List (XArr K)) := ⟨⟨.one 0, none, 0, .one 0, .one 0, 0, [], 0⟩, .one 0, []⟩
  have hv := Runs.bind_ok (k := fun r (p : CGS K × XArr K) => CGS.run (env n J r) (op' r) p.1 p.2 (some mx)) (runs_cg_setup (niter := some mx) (tol := tol) hS hm hA hy hx)
    (runs_cg_loop hS hm hA hy hx hst (fun i hi => hb i hi.le) (mx - 0).toNat 0 (fun _ => []) le_rfl hst.1 (by omega))
  obtain ⟨out, g1, g2⟩ := HRel.always (fun r hr => HCG.start_impl (hop r hr) (hcb r hr) (hw r hr) (hyr r hr) (hxr r hr) mx tol) hv.always
  choose! q g3 g4 g5 g6 g7 using g2
  obtain ⟨out2, g8, g9⟩ := HRel.always (fun r hr => HCG.step_impl (hop r hr) (g4 r hr) (g6 r hr)) (cg_step_ok (niter := some mx) (tol := tol) hS hm hA hy hx m (hb m le_rfl)).always
  choose! p g10 g11 g12 g13 g14 g15 using g9
  have r1 := (g1.runs).congr (ρ' := fun r => .ok (.ok (q r), (out r).2)) (fun r _ => rfl) fun r hr => by rw [← g3 r hr]
  have r2 := (g8.runs).congr (ρ' := fun r => .ok (.ok (p r), (out2 r).2)) (fun r _ => rfl) fun r hr => by rw [← g10 r hr]
  refine ⟨fun r => (q r).2.1, fun r => (q r).1.cost, fun r => (q r).2.2, fun r => CGObj.of (q r).1 (.array (q r).1.cost), fun r => (out r).2, fun r => (out2 r).2, ?_, ?_, fun r hr => ⟨?_, ?_⟩, ?_⟩
  · refine Runs.always <| (HP.runs_bind r1 (k := fun r (q : HCG × XRef × List (XArr K)) => HP.ret ((q.2.1, q.1.iiter, q.1.cost, q.2.2), CGObj.of q.1 (.array q.1.cost))) (Runs.ret _)).congr
      (fun r _ => ?_) fun r hr => ?_
    · rw [CGObj.solve_seen]
      simp only [HP.bind_assoc]
    · rw [(g6 r hr).iiter]
      rfl
  · refine Runs.always <| (HP.runs_bind r1 (k := fun r (q : HCG × XRef × List (XArr K)) => if (q.1.iiter : Int) < mx' ∧ q.1.kold > q.1.tol then HCG.step (env n J r) (op r) q.1 q.2.1 >>= fun _ => HP.throw .attribute
        else HP.ret ((q.2.1, []), CGObj.of q.1 (.array q.1.cost)))
      ((HP.runs_bind r2 (k := fun _ _ => HP.throw .attribute) (Runs.ret _)).congr (fun r hr => ?_) fun r _ => rfl)).congr (fun r _ => ?_) fun r _ => rfl
    · rw [if_pos]
      rw [(g6 r hr).iiter, (g6 r hr).kold, (g6 r hr).tol]
      exact ⟨hmore, hk⟩
    · rw [C80_cg_run_partial]
  · exact (g6 r hr).hx
  · have := (g13 r hr).hx
    rwa [g15 r hr] at this
  · by_contra hc
    push Not at hc
    refine cg_moves (hb m le_rfl) ?_
    rw [← CG.seq_succ]
    exact XSpace.part_inj hn hS hm (cg_has hA hy hx _).1 (cg_has hA hy hx _).1 fun r hr => (hc r hr).symm

/-- **C80 is false** for `run` after `solve` (CGLS) -/
theorem C80_cgls_run_false {M : Nat} {A : Vec K M → Vec K N} {B : Vec K N → Vec K M} {y : Vec K N} {x0 : Vec K M} (hn : 0 < n) (hA : A 0 = 0) (hyp : CGLSHyp n J op' S T A B y x0)
    (hh : ∀ r < n, Reachable (h r)) (hop : ∀ r < n, Implements (env n J r) ((op r).mv (env n J r)) ((op' r).mv (env n J r)))
    (hop' : ∀ r < n, Implements (env n J r) ((op r).rmv (env n J r)) ((op' r).rmv (env n J r))) (hcb : ∀ r < n, Harmless (cb r))
    (hyr : ∀ r < n, HasX (h r) (yr r) (T.part n y r)) (hxr : ∀ r < n, HasX (h r) (xr r) (S.part n x0 r))
    (hst : Stops (fun i => (CGLS.seq K A B damp (damp ^ 2) y x0 i).k) mx tol 0 m) (hb : ∀ i ≤ m, ¬ CGLS.Breaks (damp ^ 2) (CGLS.seq K A B damp (damp ^ 2) y x0 i))
    (hmore : (m : Int) < mx') (hk : (CGLS.seq K A B damp (damp ^ 2) y x0 m).k > tol) (o : Nat → CGLSObj) :
    ∃ (res : Nat → HCGLS.Result K) (o' : Nat → CGLSObj) (h1 h2 : Nat → Heap K),
      Always n (fun r => (CGLSObj.solve (env n J r) (op r) (cb r) (yr r) (xr r) (some mx) damp tol).seen (o r) (h r)) (fun r => .ok (.ok (res r, o' r), h1 r)) ∧
      Always n (fun r => (CGLSObj.solve (env n J r) (op r) (cb r) (yr r) (xr r) (some mx) damp tol >>= fun p => CGLSObj.run (env n J r) (op r) (cb r) p.x (some mx')).seen (o r) (h r))
        (fun r => .ok (.error .attribute, h2 r)) ∧
      (∀ r < n, (res r).iiter = m ∧ HasX (h1 r) (res r).x (S.part n (CGLS.seq K A B damp (damp ^ 2) y x0 m).x r) ∧
        HasX (h2 r) (res r).x (S.part n (CGLS.seq K A B damp (damp ^ 2) y x0 (m + 1)).x r)) ∧
      ∃ r < n, S.part n (CGLS.seq K A B damp (damp ^ 2) y x0 m).x r ≠ S.part n (CGLS.seq K A B damp (damp ^ 2) y x0 (m + 1)).x r := by
  have hw := fun r hr => C06_no_sharing (hh r hr)
  have : Nonempty (HCGLS × XRef) := ⟨⟨.one 0, 0, none, 0, .one 0, .one 0, .one 0, 0, [], [], 0⟩, .one 0⟩
  have : Nonempty (HCGLS × XRef × List (XArr K)) := ⟨⟨.one 0, 0, none, 0, .one 0, .one 0, .one 0, 0, [], [], 0⟩, .one 0, []⟩
  have hv := Runs.bind_ok (k := fun r (p : CGLSS K × XArr K) => CGLSS.run (env n J r) (op' r) p.1 p.2 (some mx)) (runs_cgls_setup (niter := some mx) (tol := tol) hyp)
    (runs_cgls_loop hyp hst (fun i hi => hb i hi.le) (mx - 0).toNat 0 (fun _ => []) le_rfl hst.1 (by omega))
  obtain ⟨out, g1, g2⟩ := HRel.always (fun r hr => HCGLS.start_impl (hop r hr) (hop' r hr) (hcb r hr) (hw r hr) (hyr r hr) (hxr r hr) mx damp tol) hv.always
  choose! q g3 g4 g5 g6 g7 using g2
  obtain ⟨out2, g8, g9⟩ := HRel.always (fun r hr => HCGLS.update_impl (hop r hr) (hop' r hr) (g4 r hr) (g6 r hr)) (cgls_update_ok (niter := some mx) (tol := tol) hyp m (hb m le_rfl)).always
  choose! p g10 g11 g12 g13 using g9
  have r1 := (g1.runs).congr (ρ' := fun r => .ok (.ok (q r), (out r).2)) (fun r _ => rfl) fun r hr => by rw [← g3 r hr]
  have r2 := (g8.runs).congr (ρ' := fun r => .ok (.ok (p r), (out2 r).2)) (fun r _ => rfl) fun r hr => by rw [← g10 r hr]
  have hf : ∀ r < n, HCGLS.finalize (q r).1 (q r).2.1 (q r).2.2 =
      HP.ret ⟨(q r).2.1, if (q r).1.kold < (q r).1.tol then 1 else 2, m, (q r).1.kold, cglsCost1 A B damp y x0 m, (q r).1.cost, (q r).2.2⟩ := fun r hr => by
    unfold HCGLS.finalize
    rw [(g6 r hr).cost1, (g6 r hr).iiter]
    simp [cglsState]
  let res : Nat → HCGLS.Result K := fun r => ⟨(q r).2.1, if (q r).1.kold < (q r).1.tol then 1 else 2, m, (q r).1.kold, cglsCost1 A B damp y x0 m, (q r).1.cost, (q r).2.2⟩
  refine ⟨res, fun r => CGLSObj.of (q r).1 (.array (q r).1.cost) (CGLSObj.ends (res r)), fun r => (out r).2, fun r => (out2 r).2, ?_, ?_, fun r hr => ⟨rfl, ?_, ?_⟩, ?_⟩
  · refine Runs.always <| (HP.runs_bind r1 (k := fun r (q : HCGLS × XRef × List (XArr K)) => HCGLS.finalize q.1 q.2.1 q.2.2 >>= fun r => HP.ret (r, CGLSObj.of q.1 (.array q.1.cost) (CGLSObj.ends r)))
      ((Runs.ret _).congr (fun r hr => ?_) fun r _ => rfl)).congr (fun r _ => ?_) fun r hr => rfl
    · rw [hf r hr]
      rfl
    · rw [CGLSObj.solve_seen]
      simp only [HP.bind_assoc]
  · refine Runs.always <| (HP.runs_bind r1 (k := fun r (q : HCGLS × XRef × List (XArr K)) => HCGLS.finalize q.1 q.2.1 q.2.2 >>= fun res =>
        if (q.1.iiter : Int) < mx' ∧ q.1.kold > q.1.tol then HCGLS.update (env n J r) (op r) q.1 res.x >>= fun _ => HP.throw .attribute
        else HP.ret ((res.x, []), CGLSObj.of q.1 (.array q.1.cost) (CGLSObj.ends res)))
      ((HP.runs_bind r2 (k := fun _ _ => HP.throw .attribute) (Runs.ret _)).congr (fun r hr => ?_) fun r _ => rfl)).congr (fun r _ => ?_) fun r _ => rfl
    · rw [hf r hr, HP.ret_bind, if_pos]
      rw [(g6 r hr).iiter, (g6 r hr).kold, (g6 r hr).tol]
      exact ⟨hmore, hk⟩
    · rw [C80_cgls_run_partial]
  · exact (g6 r hr).hx
  · exact g13 r hr
  · by_contra hc
    push Not at hc
    refine cgls_moves hA (hb m le_rfl) ?_
    exact XSpace.part_inj hn hyp.wfS hyp.maskS (cgls_has hyp _ _ _).1 (cgls_has hyp _ _ _).1 fun r hr => (hc r hr).symm

end

/-! ### Non-vacuity -/

/-- One step of `CG` for diag(2, 5) on two ranks, and then `run` with the limit 2. -/
theorem C80_cg_example (o : Nat → CGObj) : ∃ (z : Nat → XRef) (cost : Nat → List ℝ) (tr : Nat → List (XArr ℝ)) (o' : Nat → CGObj) (h1 h2 : Nat → Heap ℝ),
    Always 2 (fun r => (CGObj.solve (env 2 (fun _ _ => 0) r) (((MOp.leaf (bdPrim 2 (Diag2.ops 2 5) none .real r)).map Prim.heap).toHX) (fun _ => HP.ret ()) (.one 1) (.one 2) (some 1) 0).seen (o r)
      (Diag2.heap r)) (fun r => .ok (.ok ((z r, 1, cost r, tr r), o' r), h1 r)) ∧
    Always 2 (fun r => (CGObj.solve (env 2 (fun _ _ => 0) r) (((MOp.leaf (bdPrim 2 (Diag2.ops 2 5) none .real r)).map Prim.heap).toHX) (fun _ => HP.ret ()) (.one 1) (.one 2) (some 1) 0 >>=
      fun p => CGObj.run (env 2 (fun _ _ => 0) r) (((MOp.leaf (bdPrim 2 (Diag2.ops 2 5) none .real r)).map Prim.heap).toHX) (fun _ => HP.ret ()) p.1 (some 2)).seen (o r)
      (Diag2.heap r)) (fun r => .ok (.error .attribute, h2 r)) ∧
    (∀ r < 2, HasX (h1 r) (z r) ((XSpace.one Diag2.V).part 2 (CG.seq ℝ (Diag2.A 2 5) !₂[2, 5] 0 1).x r) ∧
      HasX (h2 r) (z r) ((XSpace.one Diag2.V).part 2 (CG.seq ℝ (Diag2.A 2 5) !₂[2, 5] 0 2).x r)) ∧
    ∃ r < 2, (XSpace.one Diag2.V).part 2 (CG.seq ℝ (Diag2.A 2 5) !₂[2, 5] 0 1).x r ≠ (XSpace.one Diag2.V).part 2 (CG.seq ℝ (Diag2.A 2 5) !₂[2, 5] 0 2).x r := by
  refine C80_cg_run_false (op' := Diag2.op 2 5) (m := 1) (by decide) Diag2.wf Diag2.noMask (Diag2.acts 2 5 false (fun _ _ => 0)) (Diag2.has _) (Diag2.has _) (fun r _ => Diag2.heap_reachable r)
    (fun r _ => MOp.toHX_mv (pr := id) (fun p => p.heap_is) (.leaf (bdPrim 2 (Diag2.ops 2 5) none .real r))) (fun r _ h a hw _ => Impl.ret hw trivial) (fun r _ => ?_) (fun r _ => ?_)
    ⟨by omega, fun i _ hi => ?_, .inl (by simp)⟩ (fun i hi => ?_) (by norm_num) ?_ o
  · show (Diag2.heap r).get? 1 = some (Diag2.V.vec 2 (toL !₂[(2 : ℝ), 5]) r)
    have : toL !₂[(2 : ℝ), 5] = [2, 5] := by simp [toL, List.ofFn_succ]
    rw [this]
    rfl
  · show (Diag2.heap r).get? 2 = some (Diag2.V.vec 2 (toL (0 : Vec ℝ 2)) r)
    have : toL (0 : Vec ℝ 2) = [0, 0] := by simp [toL, List.ofFn_succ]
    rw [this]
    rfl
  · obtain rfl : i = 0 := by omega
    refine ⟨by simp, ?_⟩
    simp [CG.seq, CG.init, EuclideanSpace.norm_sq_eq, Fin.sum_univ_two, Diag2.A]; norm_num
  · obtain rfl | rfl : i = 0 ∨ i = 1 := by omega
    · exact diag2_ok
    · exact diag2_ok1
  · rw [diag2_seq1]; norm_num

/-- One step of `CGLS` for diag(1/2, 1/5) on two ranks, and then `run` with the limit 2. -/
theorem C80_cgls_example (o : Nat → CGLSObj) : ∃ (res : Nat → HCGLS.Result ℝ) (o' : Nat → CGLSObj) (h1 h2 : Nat → Heap ℝ) (x1 x2 : Nat → XArr ℝ),
    Always 2 (fun r => (CGLSObj.solve (env 2 (fun _ _ => 0) r) (((MOp.leaf (bdPrim 2 (Diag2.ops (1 / 2) (1 / 5)) none .real r)).map Prim.heap).toHX) (fun _ => HP.ret ()) (.one 1) (.one 2) (some 1) 0
      0).seen (o r) (Diag2.heap r)) (fun r => .ok (.ok (res r, o' r), h1 r)) ∧
    Always 2 (fun r => (CGLSObj.solve (env 2 (fun _ _ => 0) r) (((MOp.leaf (bdPrim 2 (Diag2.ops (1 / 2) (1 / 5)) none .real r)).map Prim.heap).toHX) (fun _ => HP.ret ()) (.one 1) (.one 2) (some 1) 0
      0 >>= fun p => CGLSObj.run (env 2 (fun _ _ => 0) r) (((MOp.leaf (bdPrim 2 (Diag2.ops (1 / 2) (1 / 5)) none .real r)).map Prim.heap).toHX) (fun _ => HP.ret ()) p.x (some 2)).seen (o r)
      (Diag2.heap r)) (fun r => .ok (.error .attribute, h2 r)) ∧
    (∀ r < 2, (res r).iiter = 1 ∧ HasX (h1 r) (res r).x (x1 r) ∧ HasX (h2 r) (res r).x (x2 r)) ∧ ∃ r < 2, x1 r ≠ x2 r := by
  obtain ⟨res, o', h1, h2, e⟩ := C80_cgls_run_false (op' := Diag2.op (1 / 2) (1 / 5)) (m := 1) (mx := 1) (mx' := 2) (damp := 0) (tol := 0) (h := Diag2.heap) (yr := fun _ => .one 1)
    (xr := fun _ => .one 2) (cb := fun _ _ => HP.ret ()) (by decide)
    (by ext i; fin_cases i <;> simp [Diag2.A]) (Diag2.hyp (1 / 2) (1 / 5) (fun _ _ => 0) !₂[2, 5] 0) (fun r _ => Diag2.heap_reachable r)
    (fun r _ => MOp.toHX_mv (pr := id) (fun p => p.heap_is) (.leaf (bdPrim 2 (Diag2.ops (1 / 2) (1 / 5)) none .real r)))
    (fun r _ => MOp.toHX_rmv (pr := id) (fun p => p.heap_is) (.leaf (bdPrim 2 (Diag2.ops (1 / 2) (1 / 5)) none .real r))) (fun r _ h a hw _ => Impl.ret hw trivial)
    (fun r _ => by
      show (Diag2.heap r).get? 1 = some (Diag2.V.vec 2 (toL !₂[(2 : ℝ), 5]) r)
      have : toL !₂[(2 : ℝ), 5] = [2, 5] := by simp [toL, List.ofFn_succ]
      rw [this]
      rfl)
    (fun r _ => by
      show (Diag2.heap r).get? 2 = some (Diag2.V.vec 2 (toL (0 : Vec ℝ 2)) r)
      have : toL (0 : Vec ℝ 2) = [0, 0] := by simp [toL, List.ofFn_succ]
      rw [this]
      rfl)
    ⟨by omega, fun i _ hi => by
      obtain rfl : i = 0 := by omega
      refine ⟨by simp, ?_⟩
      show (CGLS.seq ℝ (Diag2.A (1 / 2) (1 / 5)) (Diag2.A (1 / 2) (1 / 5)) 0 (0 ^ 2) !₂[2, 5] 0 0).k > 0
      rw [diag2_cgls_seq0]; norm_num, .inl (by simp)⟩
    (fun i hi => diag2_cgls_ok i (by omega)) (by norm_num) (by rw [diag2_cgls_seq1.1]; norm_num) o
  exact ⟨res, o', h1, h2, _, _, e⟩

end Verif

/- C61: the log of the solvers. -/
import Verif.Props.C43
import Verif.Props.C46
import Verif.Proofs.SolverLog

namespace Verif
open NDArray Serial

variable {K : Type} [RCLike K] {n : Nat} {J : Nat → Nat → K} {op : Nat → XOp K} {y x0 x : Nat → XArr K} {tol damp : ℝ} {mx : Int} {it : IterShow}

theorem yields_result {M α : Type} {ps : Nat → Prog M α} {a : Nat → α} (h : Always n ps (fun r => .ok (a r))) {Q : α → Prop} {r : Nat} (hr : r < n) (hq : Yields Q (ps r)) : Q (a r) := by
  obtain ⟨fs, hs, he⟩ := h.runs
  have := steps_yields hs hq
  rw [he r hr] at this
  cases this with | ret h => exact h

/-- **C61** (`cg` without `show`).  The program is that of `cg`; nothing is printed. -/
theorem C61_cg_silent (c : Ctx K) (op : XOp K) (y x0 : XArr K) (niter : Option Int) (tol : ℝ) (it : IterShow) :
    CGS.solveShow c false it op y x0 niter tol = (CGS.solve c op y x0 niter tol).bind fun res => .ret (res, []) := by
  have hl : ∀ (mx : Int) (f : Nat) (s : CGS K) (x : XArr K) (tr : List (XArr K)), CGS.loopShow c false it op mx f s x tr [] = (CGS.loop c op mx f s x tr).bind fun p => .ret (p, []) := by
    intro mx f
    induction f with
    | zero => intro s x tr; rfl
    | succ f ih =>
      intro s x tr
      unfold CGS.loopShow CGS.loop
      by_cases hc : (s.iiter : Int) < mx ∧ s.kold > s.tol
      · rw [if_pos hc, if_pos hc]
        simp [showStep, CGS.stepShow, Prog.bind_assoc, ih]
      · rw [if_neg hc, if_neg hc]; rfl
  unfold CGS.solveShow CGS.solve CGS.setupShow
  simp only [Prog.bind_eq, Prog.bind_assoc, Bool.false_eq_true, false_and, if_false, Prog.lift_ok, Prog.ret_bind]
  congr 1
  funext p
  unfold CGS.runShow CGS.run
  cases niter with
  | some m => simp only [hl, Prog.bind_assoc, Prog.ret_bind]
  | none =>
    cases p.1.niter with
    | some m => simp only [hl, Prog.bind_assoc, Prog.ret_bind]
    | none => rfl

/-- **C61** (`cgls` without `show`). -/
theorem C61_cgls_silent (c : Ctx K) (op : XOp K) (y x0 : XArr K) (niter : Option Int) (damp tol : ℝ) (it : IterShow) :
    CGLSS.solveShow c false it op y x0 niter damp tol = (CGLSS.solve c op y x0 niter damp tol).bind fun res => .ret (res, []) := by
  have hl : ∀ (mx : Int) (f : Nat) (s : CGLSS K) (x : XArr K) (tr : List (XArr K)), CGLSS.loopShow c false it op mx f s x tr [] = (CGLSS.loop c op mx f s x tr).bind fun p => .ret (p, []) := by
    intro mx f
    induction f with
    | zero => intro s x tr; rfl
    | succ f ih =>
      intro s x tr
      unfold CGLSS.loopShow CGLSS.loop
      by_cases hc : (s.iiter : Int) < mx ∧ s.kold > s.tol
      · rw [if_pos hc, if_pos hc]
        simp [showStep, CGLSS.stepShow, Prog.bind_assoc, ih]
      · rw [if_neg hc, if_neg hc]; rfl
  unfold CGLSS.solveShow CGLSS.solve CGLSS.setupShow
  simp only [Prog.bind_eq, Prog.bind_assoc, Bool.false_eq_true, false_and, if_false, Prog.lift_ok, Prog.ret_bind]
  congr 1
  funext p
  unfold CGLSS.runShow CGLSS.run
  cases niter with
  | some m => simp only [hl, Prog.bind_assoc, Prog.ret_bind]
  | none =>
    cases p.1.niter with
    | some m => simp only [hl, Prog.bind_assoc, Prog.ret_bind]
    | none => rfl

theorem runs_cg_setupShow {s : Nat → CGS K} (hs : Always n (fun r => CGS.setup (env n J r) (op r) (y r) (x0 r) (some mx) tol) (fun r => .ok (s r, x r))) (hx : (x 0).SameShapes) :
    Runs n (fun r => CGS.setupShow (env n J r) true (op r) (y r) (x0 r) (some mx) tol) (fun r => .ok (s r, x r)) := by
  unfold CGS.setupShow
  simp only [Prog.bind_eq]
  refine Runs.bind_ok hs.runs ((Runs.ret fun r => (s r, x r)).congr (fun r hr => ?_) fun _ _ => rfl)
  by_cases h : r = 0
  · subst h
    rw [if_pos ⟨trivial, rfl⟩, printSetup_ok hx]; rfl
  · rw [if_neg (fun h' => h h'.2)]; rfl

/-- **C61** (`cg` with `show`), partial.  For all numbers of ranks, operators (whatever they do), data, limits and tolerances: let `cg` return `res` without `show`.  With `show` every rank returns
    the same, in every execution, and rank 0 prints one line for each iteration that is to be shown, in order, with the number of the iteration, the first entry of the iterate on rank 0 and the
    residual norm; the other ranks print nothing.  Assumed, as it is false otherwise (`C61_violated`, `C61_violated_empty`): on rank 0 the components of a stacked iterate have equal local shapes, and the
    local array that is shown is a vector with at least one entry.  Also assumed: for the iterations made, no division by
    `itershow[2] = 0` is needed (`C61_cg_zero` is about the opposite case). -/
theorem C61_cg_partial {s : Nat → CGS K} {res : Nat → XArr K × Nat × List ℝ × List (XArr K)}
    (hs : Always n (fun r => CGS.setup (env n J r) (op r) (y r) (x0 r) (some mx) tol) (fun r => .ok (s r, x r)))
    (h : Always n (fun r => CGS.solve (env n J r) (op r) (y r) (x0 r) (some mx) tol) (fun r => .ok (res r)))
    (he : ∀ r < n, ∀ i < (res r).2.2.2.length, it.Decided mx i) (hx : (x 0).SameShapes) (hp : ∀ i, Shown it mx i → ∀ x, (res 0).2.2.2[i]? = some x → ∃ v, x.Starts v) :
    ∃ log, (0 < n → IsLog it mx (res 0).2.2.2 (res 0).2.2.1 none log) ∧
      Always n (fun r => CGS.solveShow (env n J r) true it (op r) (y r) (x0 r) (some mx) tol) (fun r => .ok (res r, if r = 0 then log else [])) := by
  rcases Nat.eq_zero_or_pos n with rfl | hn
  · exact ⟨[], fun h => absurd h (by omega), Runs.of_zero.always⟩
  have h1 : Always n (fun r => (CGS.run (env n J r) (op r) (s r) (x r) (some mx)).bind fun q => .ret (q.2.1, q.1.iiter, q.1.cost, q.2.2)) (fun r => .ok (res r)) :=
    Always.bind_inv (a := fun r => (s r, x r)) (k := fun r p => (CGS.run (env n J r) (op r) p.1 p.2 (some mx)).bind fun q => .ret (q.2.1, q.1.iiter, q.1.cost, q.2.2)) hs h
  have hf : ∀ r < n, Follows (fun q => CanShow (env n J r) it mx q.2.2.2)
      (fun p q => q.1 = p ∧ if (env n J r).rank = 0 then IsLog it mx p.2.2.2 p.2.2.1 none q.2 else q.2 = [])
      ((CGS.run (env n J r) (op r) (s r) (x r) (some mx)).bind fun q => .ret (q.2.1, q.1.iiter, q.1.cost, q.2.2))
      ((CGS.runShow (env n J r) true it (op r) (s r) (x r) (some mx)).bind fun q => .ret ((q.1.2.1, q.1.1.iiter, q.1.1.cost, q.1.2.2), q.2)) := fun r hr => by
    have hy := yields_result hs hr (cg_setup_yields (env n J r) (op r) (y r) (x0 r) (some mx) tol)
    refine Follows.then (cg_loop_follows (env n J r) it (op r) mx _ (s r) (x r) [] [] hy.1 hy.2 ?_) (fun a ha => .ret ha) fun a b ha hb => .ret fun _ => ⟨_, rfl, ?_, ?_⟩
    · split_ifs
      · exact List.Forall₂.nil
      · rfl
    · rw [hb.1]
    · exact hb.2
  obtain ⟨b, hb1, hb2⟩ := h1.runs.follows hn (fun r hr => by
    refine ⟨he r hr, ?_⟩
    intro h0 i hi x hx'
    obtain rfl : r = 0 := h0
    exact hp i hi x hx') hf
  refine ⟨(b 0).2, fun _ => (by simpa using (hb1 0 hn).2), ?_⟩
  have h2 := Runs.bind_ok (k := fun r p => (CGS.runShow (env n J r) true it (op r) p.1 p.2 (some mx)).bind fun q => .ret ((q.1.2.1, q.1.1.iiter, q.1.1.cost, q.1.2.2), q.2))
    (runs_cg_setupShow hs hx) hb2
  refine (h2.congr (fun r _ => rfl) fun r hr => ?_).always
  have := hb1 r hr
  by_cases h0 : r = 0
  · subst h0
    rw [if_pos rfl, ← this.1]
  · have h3 := this.2
    rw [if_neg (show ¬ (env n J r).rank = 0 from h0)] at h3
    rw [if_neg h0, ← this.1, ← h3]

theorem runs_cgls_setupShow {s : Nat → CGLSS K} (hs : Always n (fun r => CGLSS.setup (env n J r) (op r) (y r) (x0 r) (some mx) damp tol) (fun r => .ok (s r, x r))) (hx : (x 0).SameShapes) :
    Runs n (fun r => CGLSS.setupShow (env n J r) true (op r) (y r) (x0 r) (some mx) damp tol) (fun r => .ok (s r, x r)) := by
  unfold CGLSS.setupShow
  simp only [Prog.bind_eq]
  refine Runs.bind_ok hs.runs ((Runs.ret fun r => (s r, x r)).congr (fun r hr => ?_) fun _ _ => rfl)
  by_cases h : r = 0
  · subst h
    rw [if_pos ⟨trivial, rfl⟩, printSetup_ok hx]; rfl
  · rw [if_neg (fun h' => h h'.2)]; rfl

/-- **C61** (`cg` with `show`, for operators that apply `A`), partial.  When serial CG stops after `m` steps, every rank returns the serial results (C46), and the log of rank 0 shows the serial
    iterates and costs. -/
theorem C61_cg_serial_partial {S : XSpace} {N m : Nat} {A : Vec K N → Vec K N} {y x0 : Vec K N} (hS : S.WF n) (hm : S.NoMask) (hA : Acts n J (fun r => (op r).mv) S S A) (hy : S.Has y) (hx : S.Has x0)
    (hst : Stops (fun i => (CG.seq K A y x0 i).k) mx tol 0 m) (hb : ∀ i < m, ¬ CG.Breaks K A (CG.seq K A y x0 i))
    (he : ∀ i < m, it.Decided mx i) (hs : (S.part n x0 0).SameShapes) (hp : ∀ i < m, Shown it mx i → ∃ v, (S.part n (CG.seq K A y x0 (i + 1)).x 0).Starts v) :
    ∃ log, (0 < n → IsLog it mx ((List.range' 1 m).map fun i => S.part n (CG.seq K A y x0 i).x 0) ((List.range (m + 1)).map fun i => Real.sqrt (CG.seq K A y x0 i).k) none log) ∧
      Always n (fun r => CGS.solveShow (env n J r) true it (op r) (S.part n y r) (S.part n x0 r) (some mx) tol)
      (fun r => .ok ((S.part n (CG.seq K A y x0 m).x r, m, (List.range (m + 1)).map fun i => Real.sqrt (CG.seq K A y x0 i).k,
        (List.range' 1 m).map fun i => S.part n (CG.seq K A y x0 i).x r), if r = 0 then log else [])) := by
  refine C61_cg_partial (runs_cg_setup hS hm hA hy hx).always (C46_cg hS hm hA hy hx hst hb) (fun _ _ i hi => he i (by simpa using hi)) hs fun i hi x hx => ?_
  simp only [List.getElem?_map, Option.map_eq_some_iff, List.getElem?_range'] at hx
  obtain ⟨j, hj, rfl⟩ := hx
  rw [List.getElem?_eq_some_iff] at hj
  obtain ⟨h, hj⟩ := hj
  rw [List.getElem_range', Nat.one_mul, Nat.add_comm] at hj
  rw [← hj]
  exact hp i (by simpa using h) hi

/-- **C61** (`cgls` with `show`), partial, as for `cg`; the lines of the log also contain the entries of the attribute `cost1` of the solver.  (`q` is the state of the solver after `run`: attributes,
    iterate and arguments of the callback.) -/
theorem C61_cgls_partial {s : Nat → CGLSS K} {res : Nat → CGLSS.Result K} {q : Nat → CGLSS K × XArr K × List (XArr K)}
    (hs : Always n (fun r => CGLSS.setup (env n J r) (op r) (y r) (x0 r) (some mx) damp tol) (fun r => .ok (s r, x r)))
    (hq : Always n (fun r => CGLSS.run (env n J r) (op r) (s r) (x r) (some mx)) (fun r => .ok (q r)))
    (h : Always n (fun r => CGLSS.solve (env n J r) (op r) (y r) (x0 r) (some mx) damp tol) (fun r => .ok (res r)))
    (he : ∀ r < n, ∀ i < (q r).2.2.length, it.Decided mx i) (hx : (x 0).SameShapes) (hp : ∀ i, Shown it mx i → ∀ x, (q 0).2.2[i]? = some x → ∃ v, x.Starts v) :
    ∃ log, (0 < n → IsLog it mx (q 0).2.2 (q 0).1.cost (some (q 0).1.cost1) log) ∧
      Always n (fun r => CGLSS.solveShow (env n J r) true it (op r) (y r) (x0 r) (some mx) damp tol) (fun r => .ok (res r, if r = 0 then log else [])) := by
  rcases Nat.eq_zero_or_pos n with rfl | hn
  · exact ⟨[], fun h => absurd h (by omega), Runs.of_zero.always⟩
  have h1 : Always n (fun r => (CGLSS.run (env n J r) (op r) (s r) (x r) (some mx)).bind fun q => CGLSS.finalize q.1 q.2.1 q.2.2) (fun r => .ok (res r)) :=
    Always.bind_inv (a := fun r => (s r, x r)) (k := fun r p => (CGLSS.run (env n J r) (op r) p.1 p.2 (some mx)).bind fun q => CGLSS.finalize q.1 q.2.1 q.2.2) hs h
  have h2 : Always n (fun r => CGLSS.finalize (q r).1 (q r).2.1 (q r).2.2) (fun r => .ok (res r)) := Always.bind_inv (k := fun r q => CGLSS.finalize q.1 q.2.1 q.2.2) hq h1
  have hf : ∀ r < n, Follows (fun p => CanShow (env n J r) it mx p.2.2) (fun p q => q.1 = p ∧ if (env n J r).rank = 0 then IsLog it mx p.2.2 p.1.cost (some p.1.cost1) q.2 else q.2 = [])
      (CGLSS.run (env n J r) (op r) (s r) (x r) (some mx)) (CGLSS.runShow (env n J r) true it (op r) (s r) (x r) (some mx)) := fun r hr => by
    have hy := yields_result hs hr (cgls_setup_yields (env n J r) (op r) (y r) (x0 r) (some mx) damp tol)
    refine cgls_loop_follows (env n J r) it (op r) mx _ (s r) (x r) [] [] hy.1 hy.2.1 hy.2.2 ?_
    split_ifs
    · exact List.Forall₂.nil
    · rfl
  obtain ⟨b, hb1, hb2⟩ := hq.runs.follows hn (fun r hr => by
    refine ⟨he r hr, ?_⟩
    intro h0 i hi x hx'
    obtain rfl : r = 0 := h0
    exact hp i hi x hx') hf
  refine ⟨(b 0).2, fun _ => (by simpa using (hb1 0 hn).2), ?_⟩
  have h3 := Runs.bind_ok (k := fun r p => (CGLSS.runShow (env n J r) true it (op r) p.1 p.2 (some mx)).bind fun q => (CGLSS.finalize q.1.1 q.1.2.1 q.1.2.2).bind fun res => .ret (res, q.2))
    (runs_cgls_setupShow hs hx) (Runs.bind_ok (k := fun r q => (CGLSS.finalize q.1.1 q.1.2.1 q.1.2.2).bind fun res => .ret (res, q.2)) hb2
      (σ := fun r => .ok (res r, if r = 0 then (b 0).2 else [])) ?_)
  · exact (h3.congr (fun r _ => rfl) fun r hr => rfl).always
  · have h4 := Runs.bind_ok (k := fun r res => .ret (res, if r = 0 then (b 0).2 else [])) h2.runs (Runs.ret _)
    refine h4.congr (fun r hr => ?_) fun _ _ => rfl
    have := hb1 r hr
    rw [this.1]
    congr 1
    funext res
    by_cases h0 : r = 0
    · subst h0; rw [if_pos rfl]
    · have h5 := this.2
      rw [if_neg (show ¬ (env n J r).rank = 0 from h0)] at h5
      rw [if_neg h0, ← h5]

/-- **C61** (`cgls` with `show`, for operators that apply `A` and its adjoint), partial: the log of rank 0 shows the serial iterates and costs. -/
theorem C61_cgls_serial_partial {S T : XSpace} {M N m : Nat} {A : Vec K M → Vec K N} {B : Vec K N → Vec K M} {y : Vec K N} {x0 : Vec K M} (h : CGLSHyp n J op S T A B y x0)
    (hst : Stops (fun i => (CGLS.seq K A B damp (damp ^ 2) y x0 i).k) mx tol 0 m) (hb : ∀ i < m, ¬ CGLS.Breaks (damp ^ 2) (CGLS.seq K A B damp (damp ^ 2) y x0 i))
    (he : ∀ i < m, it.Decided mx i) (hs : (S.part n x0 0).SameShapes) (hp : ∀ i < m, Shown it mx i → ∃ v, (S.part n (CGLS.seq K A B damp (damp ^ 2) y x0 (i + 1)).x 0).Starts v) :
    ∃ log, (0 < n → IsLog it mx ((List.range' 1 m).map fun i => S.part n (CGLS.seq K A B damp (damp ^ 2) y x0 i).x 0)
        ((List.range (m + 1)).map fun i => ‖(CGLS.seq K A B damp (damp ^ 2) y x0 i).s‖) (some ((List.range (m + 1)).map (cglsCost1 A B damp y x0))) log) ∧
      Always n (fun r => CGLSS.solveShow (env n J r) true it (op r) (T.part n y r) (S.part n x0 r) (some mx) damp tol)
      (fun r => .ok (⟨S.part n (CGLS.seq K A B damp (damp ^ 2) y x0 m).x r, if (CGLS.seq K A B damp (damp ^ 2) y x0 m).k < tol then 1 else 2, m,
        (CGLS.seq K A B damp (damp ^ 2) y x0 m).k, cglsCost1 A B damp y x0 m, (List.range (m + 1)).map fun i => ‖(CGLS.seq K A B damp (damp ^ 2) y x0 i).s‖,
        (List.range' 1 m).map fun i => S.part n (CGLS.seq K A B damp (damp ^ 2) y x0 i).x r⟩, if r = 0 then log else [])) := by
  have hq := runs_cgls_loop (niter := some mx) h hst hb mx.toNat 0 (fun _ => []) le_rfl (Nat.zero_le _) (by omega)
  have hq' := (hq.congr (ps' := fun r => CGLSS.run (env n J r) (op r) (cglsState S T n y x0 (some mx) damp tol A B 0 r) (S.part n (CGLS.seq K A B damp (damp ^ 2) y x0 0).x r) (some mx))
    (fun r _ => by simp [CGLSS.run, cglsState]) fun _ _ => rfl).always
  have := C61_cgls_partial (it := it) (runs_cgls_setup h).always hq' (runs_cgls_solve h hst hb).always (fun _ _ i hi => he i (by simpa using hi)) hs fun i hi x hx => ?_
  · simpa only [List.nil_append, Nat.zero_add, Nat.sub_zero, cglsState] using this
  simp only [List.nil_append, Nat.zero_add, Nat.sub_zero, List.getElem?_map, Option.map_eq_some_iff] at hx
  obtain ⟨j, hj, rfl⟩ := hx
  rw [List.getElem?_eq_some_iff] at hj
  obtain ⟨h, hj⟩ := hj
  rw [List.getElem_range', Nat.one_mul, Nat.add_comm] at hj
  rw [← hj]
  exact hp i (by simpa using h) hi

/-! ### what can go wrong -/

/-- **C61** (`cg`, division by `itershow[2] = 0`).  For operators that do anything: let `setup` and the first `m` steps succeed, and let the loop go on after them.  If whether an iteration is shown
    can be found out without dividing by `itershow[2] = 0` for the iterations before, but not for this one, then *every* rank raises ZeroDivisionError, in every execution: none of them waits. -/
theorem C61_cg_zero {s : Nat → Nat → CGS K} {x : Nat → Nat → XArr K} {m : Nat}
    (h0 : Always n (fun r => CGS.setup (env n J r) (op r) (y r) (x0 r) (some mx) tol) (fun r => .ok (s 0 r, x 0 r)))
    (hs : ∀ i < m, Always n (fun r => CGS.step (env n J r) (op r) (s i r) (x i r)) (fun r => .ok (s (i + 1) r, x (i + 1) r)))
    (hgo : ∀ i ≤ m, (i : Int) < mx ∧ ∀ r < n, (s i r).kold > (s i r).tol)
    (he : ∀ i < m, it.Decided mx i) (hm : ¬ it.Decided mx m) (hx : (x 0 0).SameShapes) (hp : ∀ i < m, Shown it mx i → ∃ v, (x (i + 1) 0).Starts v) :
    Always n (fun r => CGS.solveShow (env n J r) true it (op r) (y r) (x0 r) (some mx) tol) (fun _ => .error .zeroDiv) := by
  have hinv : ∀ j r, j ≤ m → r < n → (s j r).iiter = j ∧ (s j r).cost.length = j + 1 := by
    intro j r hj hr
    induction j with
    | zero => exact yields_result h0 hr (by exact cg_setup_yields (env n J r) (op r) (y r) (x0 r) (some mx) tol)
    | succ j ih =>
      obtain ⟨h1, v, h2⟩ := yields_result (hs j (by omega)) hr (cg_step_yields (env n J r) (op r) (s j r) (x j r))
      obtain ⟨h3, h4⟩ := ih (by omega)
      exact ⟨h1.trans (by omega), by change (s (j + 1) r).cost = _ at h2; rw [h2]; simp [h4]⟩
  have hl : ∀ (f j : Nat) (tr : Nat → List (XArr K)) (log : Nat → List (LogLine K)), j ≤ m → (f : Int) = mx - j →
      Runs n (fun r => CGS.loopShow (env n J r) true it (op r) mx f (s j r) (x j r) (tr r) (log r)) (fun _ => .error .zeroDiv) := by
    intro f
    induction f with
    | zero =>
      intro j tr log hj hf
      have := (hgo j hj).1
      omega
    | succ f ih =>
      intro j tr log hj hf
      rcases Nat.lt_or_eq_of_le hj with hlt | rfl
      · have hll : ∃ ll : Nat → List (LogLine K), Runs n (fun r => CGS.stepShow (env n J r) (decide (Shown it mx j)) (op r) (s j r) (x j r)) (fun r => .ok ((s (j + 1) r, x (j + 1) r), ll r)) := by
          have hpr : 0 < n → Shown it mx j → ∃ l, CGS.printStep (s (j + 1) 0) (x (j + 1) 0) = .ok l := by
            intro h0 hsh
            obtain ⟨v, hv⟩ := hp j hlt hsh
            obtain ⟨h1, h2⟩ := hinv (j + 1) 0 hlt h0
            have h3 : (s (j + 1) 0).cost[(s (j + 1) 0).iiter]? = some ((s (j + 1) 0).cost[(s (j + 1) 0).iiter]'(by omega)) := List.getElem?_eq_getElem _
            simp only [CGS.printStep, first_ok hv, h3]
            exact ⟨_, rfl⟩
          by_cases hsh : 0 < n ∧ Shown it mx j
          · obtain ⟨l, hl⟩ := hpr hsh.1 hsh.2
            refine ⟨fun r => if r = 0 then [l] else [], ?_⟩
            simp only [CGS.stepShow, Prog.bind_eq]
            refine Runs.bind_ok (hs j hlt).runs ((Runs.ret _).congr (fun r hr => ?_) fun _ _ => rfl)
            by_cases hr0 : r = 0
            · subst hr0
              rw [if_pos rfl, if_pos ⟨by simpa using hsh.2, rfl⟩]
              simp only [hl, Prog.lift_ok, Prog.ret_bind]
            · rw [if_neg hr0, if_neg (fun h => hr0 h.2)]
          · refine ⟨fun _ => [], ?_⟩
            simp only [CGS.stepShow, Prog.bind_eq]
            refine Runs.bind_ok (hs j hlt).runs ((Runs.ret _).congr (fun r hr => ?_) fun _ _ => rfl)
            rw [if_neg (fun h => hsh ⟨by omega, by simpa using h.1⟩)]
        obtain ⟨ll, hll⟩ := hll
        refine (Runs.bind_ok (k := fun r p => CGS.loopShow (env n J r) true it (op r) mx f p.1.1 p.1.2 (tr r ++ [p.1.2]) (log r ++ p.2)) hll
          (ih (j + 1) (fun r => tr r ++ [x (j + 1) r]) (fun r => log r ++ ll r) hlt (by push_cast at hf ⊢; omega))).congr (fun r hr => ?_) fun _ _ => rfl
        have hi := (hinv j r hj hr).1
        rw [CGS.loopShow, if_pos ⟨by rw [hi]; exact (hgo j hj).1, (hgo j hj).2 r hr⟩, showStep_ok (by rw [hi]; exact he j hlt), hi]
        simp only [Prog.bind_eq, Prog.lift_ok, Prog.ret_bind]
      · refine (Runs.throw fun _ => .zeroDiv).congr (fun r hr => ?_) fun _ _ => rfl
        have hi := (hinv j r hj hr).1
        rw [CGS.loopShow, if_pos ⟨by rw [hi]; exact (hgo j hj).1, (hgo j hj).2 r hr⟩, showStep_error (by rw [hi]; exact hm)]
        rfl
  refine (Runs.bind_ok (k := fun r p => (CGS.runShow (env n J r) true it (op r) p.1 p.2 (some mx)).bind fun q => .ret ((q.1.2.1, q.1.1.iiter, q.1.1.cost, q.1.2.2), q.2))
    (runs_cg_setupShow h0 hx) (Runs.bind (k := fun r q => .ret ((q.1.2.1, q.1.1.iiter, q.1.1.cost, q.1.2.2), q.2)) ((hl mx.toNat 0 (fun _ => []) (fun _ => []) (Nat.zero_le _) ?_).congr (fun r hr => ?_) fun _ _ => rfl) (Runs.throw _))).always
  · have := (hgo 0 (Nat.zero_le _)).1
    omega
  · simp [CGS.runShow, (hinv 0 r (Nat.zero_le _) hr).1]

/-- **C61** (`cgls`, division by `itershow[2] = 0`).  For operators that do anything: let `setup` and the first `m` steps succeed, and let the loop go on after them.  If whether an iteration is shown
    can be found out without dividing by `itershow[2] = 0` for the iterations before, but not for this one, then *every* rank raises ZeroDivisionError, in every execution: none of them waits. -/
theorem C61_cgls_zero {s : Nat → Nat → CGLSS K} {x : Nat → Nat → XArr K} {m : Nat}
    (h0 : Always n (fun r => CGLSS.setup (env n J r) (op r) (y r) (x0 r) (some mx) damp tol) (fun r => .ok (s 0 r, x 0 r)))
    (hs : ∀ i < m, Always n (fun r => CGLSS.step (env n J r) (op r) (s i r) (x i r)) (fun r => .ok (s (i + 1) r, x (i + 1) r)))
    (hgo : ∀ i ≤ m, (i : Int) < mx ∧ ∀ r < n, (s i r).kold > (s i r).tol)
    (he : ∀ i < m, it.Decided mx i) (hm : ¬ it.Decided mx m) (hx : (x 0 0).SameShapes) (hp : ∀ i < m, Shown it mx i → ∃ v, (x (i + 1) 0).Starts v) :
    Always n (fun r => CGLSS.solveShow (env n J r) true it (op r) (y r) (x0 r) (some mx) damp tol) (fun _ => .error .zeroDiv) := by
  have hinv : ∀ j r, j ≤ m → r < n → (s j r).iiter = j ∧ (s j r).cost.length = j + 1 ∧ (s j r).cost1.length = j + 1 := by
    intro j r hj hr
    induction j with
    | zero => exact yields_result h0 hr (by exact cgls_setup_yields (env n J r) (op r) (y r) (x0 r) (some mx) damp tol)
    | succ j ih =>
      obtain ⟨h1, v, v1, h2, h2'⟩ := yields_result (hs j (by omega)) hr (cgls_step_yields (env n J r) (op r) (s j r) (x j r))
      obtain ⟨h3, h4, h4'⟩ := ih (by omega)
      change (s (j + 1) r).cost = _ at h2
      change (s (j + 1) r).cost1 = _ at h2'
      exact ⟨h1.trans (by omega), by rw [h2]; simp [h4], by rw [h2']; simp [h4']⟩
  have hl : ∀ (f j : Nat) (tr : Nat → List (XArr K)) (log : Nat → List (LogLine K)), j ≤ m → (f : Int) = mx - j →
      Runs n (fun r => CGLSS.loopShow (env n J r) true it (op r) mx f (s j r) (x j r) (tr r) (log r)) (fun _ => .error .zeroDiv) := by
    intro f
    induction f with
    | zero =>
      intro j tr log hj hf
      have := (hgo j hj).1
      omega
    | succ f ih =>
      intro j tr log hj hf
      rcases Nat.lt_or_eq_of_le hj with hlt | rfl
      · have hll : ∃ ll : Nat → List (LogLine K), Runs n (fun r => CGLSS.stepShow (env n J r) (decide (Shown it mx j)) (op r) (s j r) (x j r)) (fun r => .ok ((s (j + 1) r, x (j + 1) r), ll r)) := by
          have hpr : 0 < n → Shown it mx j → ∃ l, CGLSS.printStep (s (j + 1) 0) (x (j + 1) 0) = .ok l := by
            intro h0 hsh
            obtain ⟨v, hv⟩ := hp j hlt hsh
            obtain ⟨h1, h2, h2'⟩ := hinv (j + 1) 0 hlt h0
            have h3 : (s (j + 1) 0).cost[(s (j + 1) 0).iiter]? = some ((s (j + 1) 0).cost[(s (j + 1) 0).iiter]'(by omega)) := List.getElem?_eq_getElem _
            have h4 : (s (j + 1) 0).cost1[(s (j + 1) 0).iiter]? = some ((s (j + 1) 0).cost1[(s (j + 1) 0).iiter]'(by omega)) := List.getElem?_eq_getElem _
            simp only [CGLSS.printStep, first_ok hv, h3, h4]
            exact ⟨_, rfl⟩
          by_cases hsh : 0 < n ∧ Shown it mx j
          · obtain ⟨l, hl⟩ := hpr hsh.1 hsh.2
            refine ⟨fun r => if r = 0 then [l] else [], ?_⟩
            simp only [CGLSS.stepShow, Prog.bind_eq]
            refine Runs.bind_ok (hs j hlt).runs ((Runs.ret _).congr (fun r hr => ?_) fun _ _ => rfl)
            by_cases hr0 : r = 0
            · subst hr0
              rw [if_pos rfl, if_pos ⟨by simpa using hsh.2, rfl⟩]
              simp only [hl, Prog.lift_ok, Prog.ret_bind]
            · rw [if_neg hr0, if_neg (fun h => hr0 h.2)]
          · refine ⟨fun _ => [], ?_⟩
            simp only [CGLSS.stepShow, Prog.bind_eq]
            refine Runs.bind_ok (hs j hlt).runs ((Runs.ret _).congr (fun r hr => ?_) fun _ _ => rfl)
            rw [if_neg (fun h => hsh ⟨by omega, by simpa using h.1⟩)]
        obtain ⟨ll, hll⟩ := hll
        refine (Runs.bind_ok (k := fun r p => CGLSS.loopShow (env n J r) true it (op r) mx f p.1.1 p.1.2 (tr r ++ [p.1.2]) (log r ++ p.2)) hll
          (ih (j + 1) (fun r => tr r ++ [x (j + 1) r]) (fun r => log r ++ ll r) hlt (by push_cast at hf ⊢; omega))).congr (fun r hr => ?_) fun _ _ => rfl
        have hi := (hinv j r hj hr).1
        rw [CGLSS.loopShow, if_pos ⟨by rw [hi]; exact (hgo j hj).1, (hgo j hj).2 r hr⟩, showStep_ok (by rw [hi]; exact he j hlt), hi]
        simp only [Prog.bind_eq, Prog.lift_ok, Prog.ret_bind]
      · refine (Runs.throw fun _ => .zeroDiv).congr (fun r hr => ?_) fun _ _ => rfl
        have hi := (hinv j r hj hr).1
        rw [CGLSS.loopShow, if_pos ⟨by rw [hi]; exact (hgo j hj).1, (hgo j hj).2 r hr⟩, showStep_error (by rw [hi]; exact hm)]
        rfl
  refine (Runs.bind_ok (k := fun r p => (CGLSS.runShow (env n J r) true it (op r) p.1 p.2 (some mx)).bind fun q => (CGLSS.finalize q.1.1 q.1.2.1 q.1.2.2).bind fun res => .ret (res, q.2))
    (runs_cgls_setupShow h0 hx) (Runs.bind (k := fun r q => (CGLSS.finalize q.1.1 q.1.2.1 q.1.2.2).bind fun res => .ret (res, q.2)) ((hl mx.toNat 0 (fun _ => []) (fun _ => []) (Nat.zero_le _) ?_).congr (fun r hr => ?_) fun _ _ => rfl) (Runs.throw _))).always
  · have := (hgo 0 (Nat.zero_le _)).1
    omega
  · simp [CGLSS.runShow, (hinv 0 r (Nat.zero_le _) hr).1]

/-- **C61** (`cg` for operators that apply `A`, division by `itershow[2] = 0`). -/
theorem C61_cg_serial_zero {S : XSpace} {N m : Nat} {A : Vec K N → Vec K N} {y x0 : Vec K N} (hS : S.WF n) (hm : S.NoMask) (hA : Acts n J (fun r => (op r).mv) S S A) (hy : S.Has y) (hx : S.Has x0)
    (hgo : ∀ i ≤ m, (i : Int) < mx ∧ (CG.seq K A y x0 i).k > tol) (hb : ∀ i < m, ¬ CG.Breaks K A (CG.seq K A y x0 i))
    (he : ∀ i < m, it.Decided mx i) (he' : ¬ it.Decided mx m) (hs : (S.part n x0 0).SameShapes) (hp : ∀ i < m, Shown it mx i → ∃ v, (S.part n (CG.seq K A y x0 (i + 1)).x 0).Starts v) :
    Always n (fun r => CGS.solveShow (env n J r) true it (op r) (S.part n y r) (S.part n x0 r) (some mx) tol) (fun _ => .error .zeroDiv) :=
  C61_cg_zero (runs_cg_setup hS hm hA hy hx).always (fun i hi => (cg_step_ok hS hm hA hy hx i (hb i hi)).always) (fun i hi => ⟨(hgo i hi).1, fun _ _ => (hgo i hi).2⟩) he he' hs hp

/-- **C61** (`cgls` for operators that apply `A` and its adjoint, division by `itershow[2] = 0`). -/
theorem C61_cgls_serial_zero {S T : XSpace} {M N m : Nat} {A : Vec K M → Vec K N} {B : Vec K N → Vec K M} {y : Vec K N} {x0 : Vec K M} (h : CGLSHyp n J op S T A B y x0)
    (hgo : ∀ i ≤ m, (i : Int) < mx ∧ (CGLS.seq K A B damp (damp ^ 2) y x0 i).k > tol) (hb : ∀ i < m, ¬ CGLS.Breaks (damp ^ 2) (CGLS.seq K A B damp (damp ^ 2) y x0 i))
    (he : ∀ i < m, it.Decided mx i) (he' : ¬ it.Decided mx m) (hs : (S.part n x0 0).SameShapes)
    (hp : ∀ i < m, Shown it mx i → ∃ v, (S.part n (CGLS.seq K A B damp (damp ^ 2) y x0 (i + 1)).x 0).Starts v) :
    Always n (fun r => CGLSS.solveShow (env n J r) true it (op r) (T.part n y r) (S.part n x0 r) (some mx) damp tol) (fun _ => .error .zeroDiv) :=
  C61_cgls_zero (runs_cgls_setup h).always (fun i hi => (cgls_step_ok h i (hb i hi)).always) (fun i hi => ⟨(hgo i hi).1, fun _ _ => (hgo i hi).2⟩) he he' hs hp


theorem ends_after {M α β : Type} {ps : Nat → Prog M α} {ps' : Nat → Prog M β} {a : Nat → α} {k : Nat → α → Prog M β} {o : Nat → Option (Except Err β)} {q : Nat} {v : Except Err β}
    (h : Always n ps (fun r => .ok (a r))) (e : ps' = fun r => (ps r).bind (k r)) (hq : q < n) (ho : o q = some v)
    (hk : ∀ r < n, match o r with | some v => k r (a r) = Prog.lift v | none => WaitsAll n (k r (a r))) : Ends n ps' o := by
  subst e
  obtain ⟨fs, h1, h2⟩ := h.runs
  have h3 : ∀ r < n, (fs r).bind (k r) = k r (a r) := fun r hr => by rw [h2 r hr]; rfl
  have hkq := hk q hq
  rw [ho] at hkq
  refine Ends.of_blocked (steps_bind h1 k) fun r hr => ?_
  have := hk r hr
  cases ho' : o r with
  | some v =>
    rw [ho'] at this
    exact (h3 r hr).trans this
  | none =>
    rw [ho'] at this
    obtain ⟨kind, w, k', hc⟩ := this
    refine .inr ⟨kind, _, w, k', (h3 r hr).trans hc, q, by simpa using hq, fun v' k'' => ?_⟩
    rw [h3 q hq, show k q (a q) = Prog.lift v from hkq]
    cases v <;> simp [Prog.lift]

/-- **C61** (different local shapes).  If the components of the stacked `x` have different local shapes on rank 0 then rank 0 raises ValueError in `setup`; if the other ranks are to make a step (which
    starts with a collective operation) *they wait forever*. -/
theorem C61_cg_deadlock {s : Nat → CGS K} (hn : 0 < n)
    (hs : Always n (fun r => CGS.setup (env n J r) (op r) (y r) (x0 r) (some mx) tol) (fun r => .ok (s r, x r))) (hx : ¬ (x 0).SameShapes)
    (hgo : ∀ r < n, r ≠ 0 → 0 < mx ∧ (s r).kold > (s r).tol) (hw : ∀ r < n, r ≠ 0 → WaitsAll n (CGS.step (env n J r) (op r) (s r) (x r))) (he : it.Decided mx 0) :
    Ends n (fun r => CGS.solveShow (env n J r) true it (op r) (y r) (x0 r) (some mx) tol) (fun r => if r = 0 then some (.error .value) else none) := by
  refine ends_after (q := 0) (a := fun r => (s r, x r)) (k := fun r p => (Prog.lift (if true = true ∧ (env n J r).rank = 0 then p.2.printSetup else .ok ()) : P K Unit).bind fun _ =>
    (CGS.runShow (env n J r) true it (op r) p.1 p.2 (some mx)).bind fun q => .ret ((q.1.2.1, q.1.1.iiter, q.1.1.cost, q.1.2.2), q.2)) hs ?_ hn rfl fun r hr => ?_
  · funext r
    simp only [CGS.solveShow, CGS.setupShow, Prog.bind_eq, Prog.bind_assoc, Prog.ret_bind]
  · by_cases h0 : r = 0
    · subst h0
      show _ = Prog.lift (Except.error Err.value)
      simp only
      rw [if_pos ⟨trivial, rfl⟩, printSetup_error hx]; rfl
    · simp only [if_neg h0]
      rw [if_neg (fun h => h0 h.2)]
      show WaitsAll n ((CGS.runShow (env n J r) true it (op r) (s r) (x r) (some mx)).bind _)
      refine WaitsAll.bind ?_ _
      have h1 := hgo r hr h0
      have hi := (yields_result hs hr (cg_setup_yields (env n J r) (op r) (y r) (x0 r) (some mx) tol)).1
      change (s r).iiter = 0 at hi
      obtain ⟨f, hf⟩ : ∃ f, (mx - ((s r).iiter : Int)).toNat = f + 1 := ⟨(mx - ((s r).iiter : Int)).toNat - 1, by rw [hi]; omega⟩
      show WaitsAll n (CGS.loopShow (env n J r) true it (op r) mx (mx - ((s r).iiter : Int)).toNat (s r) (x r) [] [])
      rw [hf]
      unfold CGS.loopShow
      rw [if_pos ⟨by rw [hi]; exact h1.1, h1.2⟩, showStep_ok (by rw [hi]; exact he)]
      simp only [Prog.bind_eq, Prog.lift_ok, Prog.ret_bind, CGS.stepShow, Prog.bind_assoc]
      exact WaitsAll.bind (hw r hr h0) _

/-- **C61** (nothing to show on rank 0).  If the first iteration is shown and rank 0's local array has no first number then rank 0 raises an exception; the other ranks return normally if this was
    the last iteration. -/
theorem C61_cg_empty {s s1 : Nat → CGS K} {x1 : Nat → XArr K} {e : Err} (hs : Always n (fun r => CGS.setup (env n J r) (op r) (y r) (x0 r) (some 1) tol) (fun r => .ok (s r, x r)))
    (hx : (x 0).SameShapes) (hgo : ∀ r < n, (s r).kold > (s r).tol) (h1 : Always n (fun r => CGS.step (env n J r) (op r) (s r) (x r)) (fun r => .ok (s1 r, x1 r)))
    (hsh : Shown it 1 0) (he : it.Decided 1 0) (hne : (x1 0).first = .error e) :
    Always n (fun r => CGS.solveShow (env n J r) true it (op r) (y r) (x0 r) (some 1) tol) (fun r => if r = 0 then .error e else .ok ((x1 r, 1, (s1 r).cost, [x1 r]), [])) := by
  have h2 : Runs n (fun r => (CGS.runShow (env n J r) true it (op r) (s r) (x r) (some 1)).bind fun q => .ret ((q.1.2.1, q.1.1.iiter, q.1.1.cost, q.1.2.2), q.2))
      (fun r => if r = 0 then .error e else .ok ((x1 r, 1, (s1 r).cost, [x1 r]), [])) := by
    have h3 := Runs.bind_ok (k := fun r p => ((if true = true ∧ (env n J r).rank = 0 then (Prog.lift (CGS.printStep p.1 p.2) : P K (LogLine K)).bind fun l => .ret (p, [l]) else .ret (p, [])).bind fun p =>
      CGS.loopShow (env n J r) true it (op r) 1 0 p.1.1 p.1.2 ([] ++ [p.1.2]) ([] ++ p.2)).bind fun q => .ret ((q.1.2.1, q.1.1.iiter, q.1.1.cost, q.1.2.2), q.2)) h1.runs
      (σ := fun r => if r = 0 then .error e else .ok ((x1 r, 1, (s1 r).cost, [x1 r]), [])) ?_
    · refine h3.congr (fun r hr => ?_) fun _ _ => rfl
      have hi := (yields_result hs hr (cg_setup_yields (env n J r) (op r) (y r) (x0 r) (some 1) tol)).1
      change (s r).iiter = 0 at hi
      show _ = (CGS.loopShow (env n J r) true it (op r) 1 (1 - ((s r).iiter : Int)).toNat (s r) (x r) [] []).bind _
      rw [hi, show ((1 : Int) - ((0 : Nat) : Int)).toNat = 1 from rfl, CGS.loopShow, if_pos ⟨by rw [hi]; decide, hgo r hr⟩, showStep_ok (by rw [hi]; exact he), hi]
      simp only [hsh, decide_true, Prog.bind_eq, Prog.lift_ok, Prog.ret_bind, CGS.stepShow, Prog.bind_assoc]
    · refine (Runs.lift fun r => if r = 0 then .error e else .ok ((x1 r, 1, (s1 r).cost, [x1 r]), [])).congr (fun r hr => ?_) fun _ _ => rfl
      have hi := (yields_result hs hr (cg_setup_yields (env n J r) (op r) (y r) (x0 r) (some 1) tol)).1
      have hi1 := (yields_result h1 hr (cg_step_yields (env n J r) (op r) (s r) (x r))).1
      change (s r).iiter = 0 at hi
      change (s1 r).iiter = _ at hi1
      by_cases h0 : r = 0
      · subst h0
        rw [if_pos rfl, if_pos ⟨rfl, rfl⟩]
        simp only [CGS.printStep, hne, Prog.lift_error, Prog.throw_bind]
      · rw [if_neg h0, if_neg (fun h => h0 h.2)]
        simp only [Prog.ret_bind, CGS.loopShow, Prog.lift_ok, hi1, hi]
        rfl
  exact (Runs.bind_ok (k := fun r p => (CGS.runShow (env n J r) true it (op r) p.1 p.2 (some 1)).bind fun q => .ret ((q.1.2.1, q.1.1.iiter, q.1.1.cost, q.1.2.2), q.2))
    (runs_cg_setupShow hs hx) h2).always

/-! ### examples: the identity operator -/

namespace IdLog

/-- the identity -/
def idOp : XOp ℝ := ⟨fun _ x => .ret x, fun _ x => .ret x⟩

theorem acts (J : Nat → Nat → ℝ) (S : XSpace) {N : Nat} : Acts 2 J (fun _ => idOp.mv) S S (id : Vec ℝ N → Vec ℝ N) := fun x hx => ⟨hx, (Runs.ret fun r => S.part 2 x r).always⟩

/-- two components with one and two entries on each of two ranks -/
def S : XSpace := .stack [⟨.lin 2 fun _ => 1, .real⟩, ⟨.lin 4 fun _ => 2, .real⟩]

theorem wf : S.WF 2 := by
  intro V hV
  rcases List.mem_cons.1 hV with rfl | hV
  · exact lin_wf (by simp [psum]) (by simp)
  · rcases List.mem_singleton.1 hV with rfl
    exact lin_wf (by simp [psum]) (by simp)

theorem noMask : S.NoMask := by
  intro V hV
  rcases List.mem_cons.1 hV with rfl | hV
  · rfl
  · rcases List.mem_singleton.1 hV with rfl
    rfl

theorem has (x : Vec ℝ 6) : S.Has x :=
  ⟨⟨by simp [Layout.lin], fun _ z _ => by simp⟩, ⟨by simp [Layout.lin], fun _ z _ => by simp⟩, List.length_eq_zero_iff.1 (by simp [Layout.lin])⟩

/-- one vector with nothing on rank 0 and one entry on rank 1 -/
def E : XSpace := .one ⟨.lin 1 fun r => r, .real⟩

theorem wfE : E.WF 2 := lin_wf (by simp [psum]) (by simp)

theorem hasE (x : Vec ℝ 1) : E.Has x := ⟨by simp [Layout.lin, psum], fun _ z _ => by simp⟩

theorem k0 {N : Nat} (y : Vec ℝ N) : CG.seq ℝ id y 0 0 = ⟨0, y, y, ‖y‖ ^ 2⟩ := by
  simp [CG.seq, CG.init]

theorem ok0 {N : Nat} {y : Vec ℝ N} (hy : y ≠ 0) : ¬ CG.Breaks ℝ id (CG.seq ℝ id y 0 0) := by
  rw [k0, CG.Breaks]
  simp [hy]

end IdLog

open IdLog

/-- **C61 is false** (stacked arrays): `cg` for the identity on two ranks, with a stacked array whose components have one and two entries on each rank, nonzero data `y`, starting point 0, `niter = 1`,
    `tol = 0`.  Without `show` all ranks return; with `show` rank 0 raises ValueError and *rank 1 waits forever*, in every execution. -/
theorem C61_violated (J : Nat → Nat → ℝ) {y : Vec ℝ 6} (hy : y ≠ 0) (he : it.Decided 1 0) :
    (∃ res : Nat → XArr ℝ × Nat × List ℝ × List (XArr ℝ), Always 2 (fun r => CGS.solve (env 2 J r) idOp (S.part 2 y r) (S.part 2 (0 : Vec ℝ 6) r) (some 1) 0) (fun r => .ok (res r))) ∧
    Ends 2 (fun r => CGS.solveShow (env 2 J r) true it idOp (S.part 2 y r) (S.part 2 (0 : Vec ℝ 6) r) (some 1) 0) (fun r => if r = 0 then some (.error .value) else none) := by
  have hk : 0 < ‖y‖ ^ 2 := by positivity
  refine ⟨⟨_, C46_cg (op := fun _ => idOp) wf noMask (acts J S) (has y) (has 0) (m := 1) ⟨by omega, fun i _ hi => ?_, .inl (by simp)⟩ fun i hi => ?_⟩,
    C61_cg_deadlock (op := fun _ => idOp) (by omega) (runs_cg_setup wf noMask (acts J S) (has y) (has 0)).always (fun h => ?_) (fun r _ _ => ⟨by omega, ?_⟩) (fun r hr _ => ?_) he⟩
  · obtain rfl : i = 0 := by omega
    simp only [k0]
    exact ⟨by simp, hk⟩
  · obtain rfl : i = 0 := by omega
    exact ok0 hy
  · have := h _ (List.mem_cons_self) _ (List.mem_cons_of_mem _ List.mem_cons_self)
    simp [VSpace.vec, Layout.fam, Layout.lshape, Layout.lin, Partition.isBroadcast] at this
  · simp only [cgState, k0]; exact hk
  · simp only [CGS.step, idOp, Prog.bind_eq, Prog.ret_bind, absDot, Prog.bind_assoc]
    refine WaitsAll.bind ?_ _
    simp only [cgState, XSpace.part, S, XSpace.vec, SSpace.vec, XArr.conj, SArr.conj, forList, DArr.conj, DArr.like, DArr.likeMask, DArr.localShapes, allgather, gather, Prog.bind_eq, Prog.bind]
    exact ⟨_, _, _, rfl⟩

/-- **C61 is false** (nothing on rank 0): `cg` for the identity on two ranks, with one entry that is on rank 1, nonzero data, starting point 0, `niter = 1`, `tol = 0`.  Without `show` all ranks
    return; with `show` rank 0 raises IndexError. -/
theorem C61_violated_empty (J : Nat → Nat → ℝ) {y : Vec ℝ 1} (hy : y ≠ 0) (he : it.Decided 1 0) (hsh : Shown it 1 0) :
    (∃ res : Nat → XArr ℝ × Nat × List ℝ × List (XArr ℝ), Always 2 (fun r => CGS.solve (env 2 J r) idOp (E.part 2 y r) (E.part 2 (0 : Vec ℝ 1) r) (some 1) 0) (fun r => .ok (res r))) ∧
    ∃ res : Nat → (XArr ℝ × Nat × List ℝ × List (XArr ℝ)) × List (LogLine ℝ),
    Always 2 (fun r => CGS.solveShow (env 2 J r) true it idOp (E.part 2 y r) (E.part 2 (0 : Vec ℝ 1) r) (some 1) 0) (fun r => if r = 0 then .error .index else .ok (res r)) := by
  have hk : 0 < ‖y‖ ^ 2 := by positivity
  refine ⟨⟨_, C46_cg (op := fun _ => idOp) wfE rfl (acts J E) (hasE y) (hasE 0) (m := 1) ⟨by omega, fun i _ hi => ?_, .inl (by simp)⟩ fun i hi => ?_⟩, _,
    C61_cg_empty (op := fun _ => idOp) (e := .index) (runs_cg_setup wfE rfl (acts J E) (hasE y) (hasE 0)).always trivial (fun r _ => ?_)
      (cg_step_ok wfE rfl (acts J E) (hasE y) (hasE 0) 0 (ok0 hy)).always hsh he ?_⟩
  · obtain rfl : i = 0 := by omega
    simp only [k0]
    exact ⟨by simp, hk⟩
  · obtain rfl : i = 0 := by omega
    exact ok0 hy
  · simp only [cgState, k0]; exact hk
  · rfl

theorem Diag2.starts (x : Vec ℝ 2) : ((XSpace.one Diag2.V).part 2 x 0).Starts (x 0) :=
  ⟨_, rfl, 0, [], rfl, by simp [VSpace.vec, Layout.fam, Diag2.V, Layout.piece, Layout.lin, toL, Partition.isBroadcast, sliceData, psum, NDArray.inner, NDArray.outer, NDArray.len, NDArray.chunk]⟩

/-- Non-vacuity: one step of `cg` for diag(2, 5) on two ranks with `show`: one line, with the first entry of the iterate. -/
example : ∃ l : LogLine ℝ, l.iiter = 1 ∧ l.x0 = (CG.seq ℝ (Diag2.A 2 5) !₂[2, 5] 0 1).x 0 ∧ l.cost = Real.sqrt (CG.seq ℝ (Diag2.A 2 5) !₂[2, 5] 0 1).k ∧ ∃ res : Nat → _,
    Always 2 (fun r => CGS.solveShow (env 2 (fun _ _ => 0) r) true ⟨10, 10, 10⟩ (Diag2.op 2 5 r) ((XSpace.one Diag2.V).part 2 !₂[(2 : ℝ), 5] r) ((XSpace.one Diag2.V).part 2 (0 : Vec ℝ 2) r) (some 1) 0)
      (fun r => .ok (res r, if r = 0 then [l] else [])) := by
  obtain ⟨log, h1, h2⟩ := C61_cg_serial_partial (it := ⟨10, 10, 10⟩) Diag2.wf Diag2.noMask (Diag2.acts 2 5 false (fun _ _ => 0)) (Diag2.has !₂[(2 : ℝ), 5]) (Diag2.has 0) (mx := 1) (tol := 0) (m := 1)
    ⟨by omega, fun i _ hi => by
      obtain rfl : i = 0 := by omega
      refine ⟨by simp, ?_⟩
      simp [CG.seq, CG.init, EuclideanSpace.norm_sq_eq, Fin.sum_univ_two, Diag2.A]; norm_num, .inl (by simp)⟩
    (fun i hi => by
      obtain rfl : i = 0 := by omega
      exact diag2_ok) (fun _ _ => .inl (by decide)) trivial (fun i _ _ => ⟨_, Diag2.starts _⟩)
  have h3 := h1 (by omega)
  have h4 : ((List.range ((List.range' 1 1).map fun i => (XSpace.one Diag2.V).part 2 (CG.seq ℝ (Diag2.A 2 5) !₂[2, 5] 0 i).x 0).length).filter fun i => Shown ⟨10, 10, 10⟩ 1 i) = [0] := by
    simp only [List.length_map, List.length_range']
    decide
  rw [IsLog, h4, List.forall₂_cons_left_iff] at h3
  obtain ⟨l, log', ⟨e1, ⟨x, e2, e3⟩, e4, -⟩, e5, rfl⟩ := h3
  cases List.forall₂_nil_left_iff.1 e5
  refine ⟨l, e1, ?_, ?_, _, h2⟩
  · cases e2
    obtain ⟨d, ⟨⟩, k, l', -, e6⟩ := e3
    obtain ⟨d', ⟨⟩, k', l'', -, e7⟩ := Diag2.starts (CG.seq ℝ (Diag2.A 2 5) !₂[2, 5] 0 1).x
    exact (List.cons.inj (e6.symm.trans e7)).1
  · exact (Option.some.inj e4).symm

/-- Non-vacuity: one step of `cgls` for diag(2, 5) on two ranks with `show` and damp = 3: one line. -/
example : ∃ l : LogLine ℝ, l.iiter = 1 ∧ l.cost = ‖(CGLS.seq ℝ (Diag2.A 2 5) (Diag2.A 2 5) 3 (3 ^ 2) !₂[1, 1] 0 1).s‖ ∧ ∃ res : Nat → _,
    Always 2 (fun r => CGLSS.solveShow (env 2 (fun _ _ => 0) r) true ⟨10, 10, 10⟩ (Diag2.op 2 5 r) ((XSpace.one Diag2.V).part 2 !₂[(1 : ℝ), 1] r) ((XSpace.one Diag2.V).part 2 (0 : Vec ℝ 2) r) (some 1) 3 0)
      (fun r => .ok (res r, if r = 0 then [l] else [])) := by
  obtain ⟨log, h1, h2⟩ := C61_cgls_serial_partial (it := ⟨10, 10, 10⟩) (Diag2.hyp 2 5 (fun _ _ => 0) !₂[(1 : ℝ), 1] 0) (damp := 3) (mx := 1) (tol := 0) (m := 1)
    ⟨by omega, fun i _ hi => by
      obtain rfl : i = 0 := by omega
      refine ⟨by simp, ?_⟩
      simp [CGLS.seq, CGLS.init, EuclideanSpace.norm_sq_eq, Fin.sum_univ_two, Diag2.A]; norm_num, .inl (by simp)⟩
    (fun i hi => by
      obtain rfl : i = 0 := by omega
      exact Diag2.cgls_ok 3) (fun _ _ => .inl (by decide)) trivial (fun i _ _ => ⟨_, Diag2.starts _⟩)
  have h3 := h1 (by omega)
  have h4 : ((List.range ((List.range' 1 1).map fun i => (XSpace.one Diag2.V).part 2 (CGLS.seq ℝ (Diag2.A 2 5) (Diag2.A 2 5) 3 (3 ^ 2) !₂[1, 1] 0 i).x 0).length).filter
      fun i => Shown ⟨10, 10, 10⟩ 1 i) = [0] := by
    simp only [List.length_map, List.length_range']
    decide
  rw [IsLog, h4, List.forall₂_cons_left_iff] at h3
  obtain ⟨l, log', ⟨e1, -, e4, -⟩, e5, rfl⟩ := h3
  cases List.forall₂_nil_left_iff.1 e5
  exact ⟨l, e1, (Option.some.inj e4).symm, _, h2⟩

/-- Non-vacuity: `cg` for diag(2, 5) on two ranks with `itershow = (1, 0, 0)`: the second iteration divides by zero, on both ranks. -/
example : Always 2 (fun r => CGS.solveShow (env 2 (fun _ _ => 0) r) true ⟨1, 0, 0⟩ (Diag2.op 2 5 r) ((XSpace.one Diag2.V).part 2 !₂[(2 : ℝ), 5] r) ((XSpace.one Diag2.V).part 2 (0 : Vec ℝ 2) r) (some 2) (-1))
    (fun _ => .error .zeroDiv) :=
  C61_cg_serial_zero (it := ⟨1, 0, 0⟩) Diag2.wf Diag2.noMask (Diag2.acts 2 5 false (fun _ _ => 0)) (Diag2.has !₂[(2 : ℝ), 5]) (Diag2.has 0) (mx := 2) (tol := -1) (m := 1)
    (fun i hi => ⟨by omega, lt_of_lt_of_le (b := 0) (by norm_num) (by
      rcases Nat.le_one_iff_eq_zero_or_eq_one.1 hi with rfl | rfl
      · exact sq_nonneg _
      · rw [CG.seq_succ]; exact sq_nonneg _)⟩)
    (fun i hi => by
      obtain rfl : i = 0 := by omega
      exact diag2_ok) (fun i hi => .inr (.inl (by simp only; omega))) (by simp [IterShow.Decided]) trivial (fun i _ _ => ⟨_, Diag2.starts _⟩)

end Verif

/- C46: distributed solvers equal serial solvers. -/
import Verif.Props.C45

namespace Verif
open NDArray Serial

variable {K ι : Type} [RCLike K] {n : Nat} {J : Nat → Nat → K} {S T : XSpace} {M N : Nat} {op : Nat → XOp K} {tol damp : ℝ} {mx : Int} {m : Nat}
  {lv : Leaves K ι} {prim : ι → Nat → Prim K}

/-- **C46** (`cg`).  For all numbers of ranks, layouts (distributed, replicated or stacked), operators, data, limits and tolerances: when serial CG for the gathered operator `A`, data `y` and
    starting point `x0` stops after `m` steps, then in every execution every rank returns its part of the serial iterate `x_m`, the number `m`, the serial cost history √k_0, …, √k_m, and its
    callback has seen its parts of the serial iterates. -/
theorem C46_cg {A : Vec K N → Vec K N} {y x0 : Vec K N} (hS : S.WF n) (hm : S.NoMask) (hA : Acts n J (fun r => (op r).mv) S S A) (hy : S.Has y) (hx : S.Has x0)
    (hst : Stops (fun i => (CG.seq K A y x0 i).k) mx tol 0 m) (hb : ∀ i < m, ¬ CG.Breaks K A (CG.seq K A y x0 i)) :
    Always n (fun r => CGS.solve (env n J r) (op r) (S.part n y r) (S.part n x0 r) (some mx) tol)
      (fun r => .ok (S.part n (CG.seq K A y x0 m).x r, m, (List.range (m + 1)).map fun i => Real.sqrt (CG.seq K A y x0 i).k,
        (List.range' 1 m).map fun i => S.part n (CG.seq K A y x0 i).x r)) := by
  have h1 := runs_cg_run (niter := some mx) (niter1 := some mx) hS hm hA hy hx rfl hst hb
  have h2 := Runs.bind_ok (k := fun r q => .ret (q.2.1, q.1.iiter, q.1.cost, q.2.2)) h1 (Runs.ret _)
  refine (h2.congr (fun r _ => ?_) fun r _ => ?_).always
  · simp only [CGS.solve, CGS.steps, Prog.bind_eq, Prog.bind_assoc]
  · simp [cgState]

/-- **C46** (`cg`, division by zero).  When serial CG divides by zero in a step, the distributed solver does so on all ranks. -/
theorem C46_cg_break {A : Vec K N → Vec K N} {y x0 : Vec K N} (hS : S.WF n) (hm : S.NoMask) (hA : Acts n J (fun r => (op r).mv) S S A) (hy : S.Has y) (hx : S.Has x0)
    (hst : Hits (fun i => (CG.seq K A y x0 i).k) (fun i => CG.Breaks K A (CG.seq K A y x0 i)) mx tol 0 m) (hb : ∀ i < m, ¬ CG.Breaks K A (CG.seq K A y x0 i)) :
    ∃ e : Err, (e = .nonfinite ∨ e = .zeroDiv) ∧ Always n (fun r => CGS.solve (env n J r) (op r) (S.part n y r) (S.part n x0 r) (some mx) tol) (fun _ => .error e) := by
  have h3 := runs_cg_run_break (niter := some mx) (niter1 := some mx) hS hm hA hy hx rfl hst hb
  have h4 := Runs.bind (k := fun r q => .ret (q.2.1, q.1.iiter, q.1.cost, q.2.2)) h3 (Runs.throw _)
  refine ⟨_, ?_, (h4.congr (fun r _ => ?_) fun r _ => rfl).always⟩
  · split_ifs <;> simp
  · simp only [CGS.solve, CGS.steps, Prog.bind_eq, Prog.bind_assoc]

/-- **C46** (`cgls`).  As for `cg`; `B` is what `rmatvec` computes.  The serial algorithm is the one of the code (start with coefficient `damp`, steps with `damp²`, see C44). -/
theorem C46_cgls {A : Vec K M → Vec K N} {B : Vec K N → Vec K M} {y : Vec K N} {x0 : Vec K M} (h : CGLSHyp n J op S T A B y x0)
    (hst : Stops (fun i => (CGLS.seq K A B damp (damp ^ 2) y x0 i).k) mx tol 0 m) (hb : ∀ i < m, ¬ CGLS.Breaks (damp ^ 2) (CGLS.seq K A B damp (damp ^ 2) y x0 i)) :
    ∃ res : Nat → CGLSS.Result K, (∀ r, (res r).x = S.part n (CGLS.seq K A B damp (damp ^ 2) y x0 m).x r ∧ (res r).iiter = m ∧
        (res r).cost = (List.range (m + 1)).map (fun i => ‖(CGLS.seq K A B damp (damp ^ 2) y x0 i).s‖) ∧ (res r).r1norm = (CGLS.seq K A B damp (damp ^ 2) y x0 m).k ∧
        (res r).trace = (List.range' 1 m).map fun i => S.part n (CGLS.seq K A B damp (damp ^ 2) y x0 i).x r) ∧
      Always n (fun r => CGLSS.solve (env n J r) (op r) (T.part n y r) (S.part n x0 r) (some mx) damp tol) (fun r => .ok (res r)) :=
  ⟨_, fun _ => ⟨rfl, rfl, rfl, rfl, rfl⟩, (runs_cgls_solve h hst hb).always⟩

/-- **C46** (`cgls`, division by zero). -/
theorem C46_cgls_break {A : Vec K M → Vec K N} {B : Vec K N → Vec K M} {y : Vec K N} {x0 : Vec K M} (h : CGLSHyp n J op S T A B y x0)
    (hst : Hits (fun i => (CGLS.seq K A B damp (damp ^ 2) y x0 i).k) (fun i => CGLS.Breaks (damp ^ 2) (CGLS.seq K A B damp (damp ^ 2) y x0 i)) mx tol 0 m)
    (hb : ∀ i < m, ¬ CGLS.Breaks (damp ^ 2) (CGLS.seq K A B damp (damp ^ 2) y x0 i)) :
    ∃ e : Err, (e = .nonfinite ∨ e = .zeroDiv) ∧
      Always n (fun r => CGLSS.solve (env n J r) (op r) (T.part n y r) (S.part n x0 r) (some mx) damp tol) (fun _ => .error e) := by
  refine ⟨_, ?_, (runs_cgls_solve_break h hst hb).always⟩
  split_ifs <;> simp

/-- **C46** (`cg` for operator expressions).  The hypothesis on the operator holds for every well-typed operator expression (C27) that denotes `A`. -/
theorem C46_cg_expr {e : MOp K ι} {V : VSpace} (he : Typed lv n J prim false e V V) (hV : V.L.WF n) (hm : V.L.mask = none) {A : Vec K N → Vec K N}
    (hA : ∀ x, V.Mem (toL x) → toL (A x) = den lv false e (toL x)) {y x0 : Vec K N} (hy : V.Mem (toL y)) (hx : V.Mem (toL x0))
    (hst : Stops (fun i => (CG.seq K A y x0 i).k) mx tol 0 m) (hb : ∀ i < m, ¬ CG.Breaks K A (CG.seq K A y x0 i)) :
    Always n (fun r => CGS.solve (env n J r) (MOp.toX (e.map (prim · r))) (.one (V.vec n (toL y) r)) (.one (V.vec n (toL x0) r)) (some mx) tol)
      (fun r => .ok (.one (V.vec n (toL (CG.seq K A y x0 m).x) r), m, (List.range (m + 1)).map fun i => Real.sqrt (CG.seq K A y x0 i).k,
        (List.range' 1 m).map fun i => .one (V.vec n (toL (CG.seq K A y x0 i).x) r))) :=
  C46_cg (S := .one V) hV hm (typed_acts he hA) hy hx hst hb

/-- **C46** (`cgls` for stacked operator expressions).  The hypotheses on the operator hold for every well-typed stacked operator expression (C36, C37) that denotes `A` and, in the adjoint
    direction, `B`. -/
theorem C46_cgls_stacked {e : SOp K ι} (he : STyped lv n J prim false e S T) (he' : STyped lv n J prim true e T S) (hS : S.WF n) (hT : T.WF n) (hmS : S.NoMask) (hmT : T.NoMask)
    (hT0 : T ≠ .stack []) {A : Vec K M → Vec K N} {B : Vec K N → Vec K M} (hA : ∀ x, S.Has x → toL (A x) = sden lv false e (toL x))
    (hB : ∀ x, T.Has x → toL (B x) = sden lv true e (toL x)) {y : Vec K N} {x0 : Vec K M} (hy : T.Has y) (hx : S.Has x0)
    (hst : Stops (fun i => (CGLS.seq K A B damp (damp ^ 2) y x0 i).k) mx tol 0 m) (hb : ∀ i < m, ¬ CGLS.Breaks (damp ^ 2) (CGLS.seq K A B damp (damp ^ 2) y x0 i)) :
    ∃ res : Nat → CGLSS.Result K, (∀ r, (res r).x = S.part n (CGLS.seq K A B damp (damp ^ 2) y x0 m).x r ∧ (res r).iiter = m ∧
        (res r).cost = (List.range (m + 1)).map (fun i => ‖(CGLS.seq K A B damp (damp ^ 2) y x0 i).s‖)) ∧
      Always n (fun r => CGLSS.solve (env n J r) (SOp.toX (e.map (prim · r))) (T.part n y r) (S.part n x0 r) (some mx) damp tol) (fun r => .ok (res r)) := by
  obtain ⟨res, h1, h2⟩ := C46_cgls (op := fun r => SOp.toX (e.map (prim · r)))
    ⟨hS, hT, hmS, hmT, hT0, styped_acts (b := false) he hA, styped_acts (b := true) he' hB, hy, hx⟩ hst hb
  exact ⟨res, fun r => ⟨(h1 r).1, (h1 r).2.1, (h1 r).2.2.1⟩, h2⟩

/-- Non-vacuity: one step of `cg` for diag(2, 5) on two ranks. -/
example : Always 2 (fun r => CGS.solve (env 2 (fun _ _ => 0) r) (Diag2.op 2 5 r) ((XSpace.one Diag2.V).part 2 !₂[(2 : ℝ), 5] r) ((XSpace.one Diag2.V).part 2 (0 : Vec ℝ 2) r) (some 1) 0)
      (fun r => .ok ((XSpace.one Diag2.V).part 2 (CG.seq ℝ (Diag2.A 2 5) !₂[2, 5] 0 1).x r, 1,
        (List.range 2).map fun i => Real.sqrt (CG.seq ℝ (Diag2.A 2 5) !₂[2, 5] 0 i).k, [(XSpace.one Diag2.V).part 2 (CG.seq ℝ (Diag2.A 2 5) !₂[2, 5] 0 1).x r])) := by
  refine C46_cg Diag2.wf Diag2.noMask (Diag2.acts 2 5 false (fun _ _ => 0)) (Diag2.has _) (Diag2.has _) (m := 1) ⟨by omega, fun i _ hi => ?_, .inl (by simp)⟩ fun i hi => ?_
  · obtain rfl : i = 0 := by omega
    refine ⟨by simp, ?_⟩
    simp [CG.seq, CG.init, EuclideanSpace.norm_sq_eq, Fin.sum_univ_two, Diag2.A]; norm_num
  · obtain rfl : i = 0 := by omega
    exact diag2_ok

end Verif

/- C58: gathered results do not depend on the number of ranks and the layout. -/
import Verif.Props.C46

namespace Verif
open NDArray Serial

section
variable {K : Type} [Field K] [StarRing K] [CharZero K] {n : Nat} {J : Nat → Nat → K}

/-- `DistributedArray.to_dist` of the global vector `d`, in the layout and dtype `V` -/
def scatterArr (n : Nat) (V : VSpace) (c : Ctx K) (d : List K) : P K (DArr K) :=
  toDist c ⟨V.L.gshape, V.dt, d⟩ V.L.part V.L.axis (some ((List.range n).map V.L.lshape)) V.L.mask

theorem runs_scatterArr {V : VSpace} (hV : V.L.WF n) {d : List K} (hd : V.Mem d) :
    Runs n (fun r => scatterArr n V (env n J r) d) (fun r => .ok (V.vec n d r)) :=
  runs_toDist (x := ⟨V.L.gshape, V.dt, d⟩) hV rfl hd.1 hd.2

end

section
variable {K ι : Type} [Field K] [StarRing K] [CharZero K] {lv : Leaves K ι} {n n' : Nat} {J J' : Nat → Nat → K} {prim prim' : ι → Nat → Prim K}

/-- distribute a vector, apply the operator (or its adjoint), gather the result -/
def applyProg (n : Nat) (V : VSpace) (b : Bool) (c : Ctx K) (A : MOp K (Prim K)) (d : List K) : P K (NDArray K) := do
  let x ← scatterArr n V c d
  let y ← A.run c b x
  y.asarray c

/-- the result is the serial one -/
theorem C58_serial {e : MOp K ι} {b : Bool} {S T : VSpace} (h : Typed lv n J prim b e S T) {d : List K} (hd : S.Mem d) :
    Always n (fun r => applyProg n S b (env n J r) (e.map (prim · r)) d) (fun _ => .ok ⟨[dimOf (e.shape lv.sh) (!b)], T.dt, den lv b e d⟩) := by
  have hf := Typed.facts h
  have hc := (typed_computes h).runs hd
  refine Runs.always ?_
  unfold applyProg
  simp only [Prog.bind_eq]
  refine Runs.bind_ok (runs_scatterArr hf.1 hd) (Runs.bind_ok hc ?_)
  have := runs_asarray_vec (J := J) hf.2.1 (typed_computes h d hd).1
  rw [hf.2.2.2.1] at this
  exact this

/-- **C58** (operators).  Let an expression be built from operators that, on `n` ranks with some layouts and on `n'` ranks with other layouts, compute the same functions.  Then
    distributing any vector, applying the operator or its adjoint and gathering gives the same array on all ranks of both programs, in all executions. -/
theorem C58_operator {e : MOp K ι} {b : Bool} {S T S' T' : VSpace} (h : Typed lv n J prim b e S T) (h' : Typed lv n' J' prim' b e S' T') (hT : T.dt = T'.dt)
    {d : List K} (hd : S.Mem d) (hd' : S'.Mem d) :
    ∃ y : NDArray K, Always n (fun r => applyProg n S b (env n J r) (e.map (prim · r)) d) (fun _ => .ok y) ∧
      Always n' (fun r => applyProg n' S' b (env n' J' r) (e.map (prim' · r)) d) (fun _ => .ok y) := by
  refine ⟨_, C58_serial h hd, ?_⟩
  rw [hT]
  exact C58_serial h' hd'

end

section
variable {K : Type} [RCLike K] {n n' : Nat} {J J' : Nat → Nat → K} {M N : Nat} {op op' : Nat → XOp K}

/-- distribute data and starting point, call `cg`, gather the solution; the result consists of the solution, the number of iterations and the cost history -/
noncomputable def cgProg (n : Nat) (V : VSpace) (c : Ctx K) (op : XOp K) (y x0 : List K) (mx : Option Int) (tol : ℝ) : P K (NDArray K × Nat × List ℝ) := do
  let y ← scatterArr n V c y
  let x0 ← scatterArr n V c x0
  let q ← CGS.solve c op (.one y) (.one x0) mx tol
  match q.1 with
  | .one x => do
    let a ← x.asarray c
    .ret (a, q.2.1, q.2.2.1)
  | .stack _ => .throw .attribute

theorem cgProg_error {V : VSpace} {y x0 : Vec K N} {mx : Option Int} {tol : ℝ} {e : Err} (hV : V.L.WF n) (hy : V.Mem (toL y)) (hx : V.Mem (toL x0))
    (h : Always n (fun r => CGS.solve (env n J r) (op r) ((XSpace.one V).part n y r) ((XSpace.one V).part n x0 r) mx tol) (fun _ => .error e)) :
    Always n (fun r => cgProg n V (env n J r) (op r) (toL y) (toL x0) mx tol) (fun _ => .error e) := by
  refine Runs.always ?_
  unfold cgProg
  simp only [Prog.bind_eq]
  exact Runs.bind_ok (runs_scatterArr hV hy) (Runs.bind_ok (runs_scatterArr hV hx) (Runs.bind h.runs (Runs.throw _)))

theorem cgProg_ok {V : VSpace} {y x0 x : Vec K N} {mx : Option Int} {tol : ℝ} {k : Nat} {cost : List ℝ} {tr : Nat → List (XArr K)} (hV : V.L.WF n) (hy : V.Mem (toL y)) (hx : V.Mem (toL x0))
    (hm : V.Mem (toL x))
    (h : Always n (fun r => CGS.solve (env n J r) (op r) ((XSpace.one V).part n y r) ((XSpace.one V).part n x0 r) mx tol) (fun r => .ok ((XSpace.one V).part n x r, k, cost, tr r))) :
    Always n (fun r => cgProg n V (env n J r) (op r) (toL y) (toL x0) mx tol) (fun _ => .ok (⟨V.L.gshape, V.dt, toL x⟩, k, cost)) := by
  refine Runs.always ?_
  unfold cgProg
  simp only [Prog.bind_eq]
  refine Runs.bind_ok (runs_scatterArr hV hy) (Runs.bind_ok (runs_scatterArr hV hx) (Runs.bind_ok h.runs ?_))
  exact Runs.bind_ok (runs_asarray_vec hV hm) (Runs.ret _)

/-- there is one result (solution, number of iterations and cost history, or an exception), given by the serial algorithm, for all numbers of ranks, layouts and implementations of `A` -/
theorem C58_cg_serial (dt : DType) {A : Vec K N → Vec K N} (y x0 : Vec K N) (mx : Option Int) (tol : ℝ) :
    ∃ ρ : Except Err (NDArray K × Nat × List ℝ), ∀ (n : Nat) (J : Nat → Nat → K) (op : Nat → XOp K) (V : VSpace), V.dt = dt → V.L.WF n → V.L.mask = none → V.L.gshape = [N] →
      Acts n J (fun r => (op r).mv) (.one V) (.one V) A → V.Mem (toL y) → V.Mem (toL x0) →
      Always n (fun r => cgProg n V (env n J r) (op r) (toL y) (toL x0) mx tol) (fun _ => ρ) := by
  cases mx with
  | none => exact ⟨.error .value, fun n J op V hdt hV hm hg hA hy hx => by
    refine cgProg_error hV hy hx (Runs.always ?_)
    simp only [CGS.solve, Prog.bind_eq]
    exact Runs.bind_ok (runs_cg_setup (S := .one V) hV hm hA hy hx) (Runs.throw _)⟩
  | some mx =>
    obtain ⟨m, h1, h2⟩ := stops_or_hits (fun i => (CG.seq K A y x0 i).k) (fun i => CG.Breaks K A (CG.seq K A y x0 i)) mx tol mx.toNat 0 (by omega) (by simp)
    rcases h2 with h2 | h2
    · refine ⟨.ok (⟨[N], dt, toL (CG.seq K A y x0 m).x⟩, m, (List.range (m + 1)).map fun i => Real.sqrt (CG.seq K A y x0 i).k), fun n J op V hdt hV hm hg hA hy hx => ?_⟩
      rw [← hdt, ← hg]
      exact cgProg_ok hV hy hx (cg_has (S := .one V) hA hy hx m).1 (C46_cg (S := .one V) hV hm hA hy hx h2 h1)
    · refine ⟨.error (if inner K (CG.seq K A y x0 m).c (A (CG.seq K A y x0 m).c) = 0 then .nonfinite else .zeroDiv), fun n J op V hdt hV hm hg hA hy hx => ?_⟩
      refine cgProg_error hV hy hx ?_
      have h3 := runs_cg_run_break (S := .one V) (niter := some mx) (niter1 := some mx) hV hm hA hy hx rfl h2 h1
      have h4 := Runs.bind (k := fun r q => .ret (q.2.1, q.1.iiter, q.1.cost, q.2.2)) h3 (Runs.throw _)
      refine (h4.congr (fun r _ => ?_) fun r _ => rfl).always
      simp only [CGS.solve, CGS.steps, Prog.bind_eq, Prog.bind_assoc]

/-- **C58** (`cg`).  Let two programs, on `n` and on `n'` ranks, with layouts `V` and `V'` (distributed in any way or replicated), have operators that compute the same function `A`.  For
    all data, starting points, limits and tolerances, distributing the data, calling `cg` and gathering the solution gives the same outcome on all ranks of both programs, in all executions:
    the same solution, number of iterations and cost history, or the same exception. -/
theorem C58_cg {A : Vec K N → Vec K N} {y x0 : Vec K N} (mx : Option Int) (tol : ℝ) {V V' : VSpace} (hdt : V'.dt = V.dt)
    (hV : V.L.WF n) (hm : V.L.mask = none) (hg : V.L.gshape = [N]) (hA : Acts n J (fun r => (op r).mv) (.one V) (.one V) A) (hy : V.Mem (toL y)) (hx : V.Mem (toL x0))
    (hV' : V'.L.WF n') (hm' : V'.L.mask = none) (hg' : V'.L.gshape = [N]) (hA' : Acts n' J' (fun r => (op' r).mv) (.one V') (.one V') A) (hy' : V'.Mem (toL y)) (hx' : V'.Mem (toL x0)) :
    ∃ ρ : Except Err (NDArray K × Nat × List ℝ),
      Always n (fun r => cgProg n V (env n J r) (op r) (toL y) (toL x0) mx tol) (fun _ => ρ) ∧
      Always n' (fun r => cgProg n' V' (env n' J' r) (op' r) (toL y) (toL x0) mx tol) (fun _ => ρ) := by
  obtain ⟨ρ, h⟩ := C58_cg_serial (K := K) V.dt (A := A) y x0 mx tol
  exact ⟨ρ, h n J op V rfl hV hm hg hA hy hx, h n' J' op' V' hdt hV' hm' hg' hA' hy' hx'⟩

/-- distribute data and starting point, call `cgls`, gather the solution; the result consists of the solution and the numbers `cgls` returns (istop, iit, r1norm, r2norm, cost) -/
noncomputable def cglsProg (n : Nat) (V W : VSpace) (c : Ctx K) (op : XOp K) (y x0 : List K) (mx : Option Int) (damp tol : ℝ) : P K (NDArray K × Nat × Nat × ℝ × FNum × List ℝ) := do
  let y ← scatterArr n W c y
  let x0 ← scatterArr n V c x0
  let q ← CGLSS.solve c op (.one y) (.one x0) mx damp tol
  match q.x with
  | .one x => do
    let a ← x.asarray c
    .ret (a, q.istop, q.iiter, q.r1norm, q.r2norm, q.cost)
  | .stack _ => .throw .attribute

theorem cglsProg_error {V W : VSpace} {y : Vec K N} {x0 : Vec K M} {mx : Option Int} {damp tol : ℝ} {e : Err} (hV : V.L.WF n) (hW : W.L.WF n) (hy : W.Mem (toL y)) (hx : V.Mem (toL x0))
    (h : Runs n (fun r => CGLSS.solve (env n J r) (op r) ((XSpace.one W).part n y r) ((XSpace.one V).part n x0 r) mx damp tol) (fun _ => .error e)) :
    Always n (fun r => cglsProg n V W (env n J r) (op r) (toL y) (toL x0) mx damp tol) (fun _ => .error e) := by
  refine Runs.always ?_
  unfold cglsProg
  simp only [Prog.bind_eq]
  exact Runs.bind_ok (runs_scatterArr hW hy) (Runs.bind_ok (runs_scatterArr hV hx) (Runs.bind h (Runs.throw _)))

/-- as for `cg` -/
theorem C58_cgls_serial (dt : DType) {A : Vec K M → Vec K N} {B : Vec K N → Vec K M} (y : Vec K N) (x0 : Vec K M) (mx : Option Int) (damp tol : ℝ) :
    ∃ ρ : Except Err (NDArray K × Nat × Nat × ℝ × FNum × List ℝ), ∀ (n : Nat) (J : Nat → Nat → K) (op : Nat → XOp K) (V W : VSpace), V.dt = dt → V.L.gshape = [M] →
      CGLSHyp n J op (.one V) (.one W) A B y x0 →
      Always n (fun r => cglsProg n V W (env n J r) (op r) (toL y) (toL x0) mx damp tol) (fun _ => ρ) := by
  cases mx with
  | none => exact ⟨.error .value, fun n J op V W hdt hg h => by
    refine cglsProg_error h.wfS h.wfT h.hy h.hx ?_
    simp only [CGLSS.solve, Prog.bind_eq]
    exact Runs.bind_ok (runs_cgls_setup h) (Runs.throw _)⟩
  | some mx =>
    obtain ⟨m, h1, h2⟩ := stops_or_hits (fun i => (CGLS.seq K A B damp (damp ^ 2) y x0 i).k) (fun i => CGLS.Breaks (damp ^ 2) (CGLS.seq K A B damp (damp ^ 2) y x0 i)) mx tol mx.toNat 0 (by omega) (by simp)
    rcases h2 with h2 | h2
    · refine ⟨.ok (⟨[M], dt, toL (CGLS.seq K A B damp (damp ^ 2) y x0 m).x⟩, if (CGLS.seq K A B damp (damp ^ 2) y x0 m).k < tol then 1 else 2, m,
        (CGLS.seq K A B damp (damp ^ 2) y x0 m).k, cglsCost1 A B damp y x0 m, (List.range (m + 1)).map fun i => ‖(CGLS.seq K A B damp (damp ^ 2) y x0 i).s‖), fun n J op V W hdt hg h => ?_⟩
      rw [← hdt, ← hg]
      refine Runs.always ?_
      unfold cglsProg
      simp only [Prog.bind_eq]
      refine Runs.bind_ok (runs_scatterArr h.wfT h.hy) (Runs.bind_ok (runs_scatterArr h.wfS h.hx) (Runs.bind_ok (runs_cgls_solve h h2 h1) ?_))
      exact Runs.bind_ok (runs_asarray_vec h.wfS (cgls_has h damp (damp ^ 2) m).1) (Runs.ret _)
    · exact ⟨.error _, fun n J op V W hdt hg h => cglsProg_error h.wfS h.wfT h.hy h.hx (runs_cgls_solve_break h h2 h1)⟩

/-- **C58** (`cgls`). -/
theorem C58_cgls {A : Vec K M → Vec K N} {B : Vec K N → Vec K M} {y : Vec K N} {x0 : Vec K M} (mx : Option Int) (damp tol : ℝ) {V W V' W' : VSpace} (hdt : V'.dt = V.dt)
    (hg : V.L.gshape = [M]) (h : CGLSHyp n J op (.one V) (.one W) A B y x0) (hg' : V'.L.gshape = [M]) (h' : CGLSHyp n' J' op' (.one V') (.one W') A B y x0) :
    ∃ ρ : Except Err (NDArray K × Nat × Nat × ℝ × FNum × List ℝ),
      Always n (fun r => cglsProg n V W (env n J r) (op r) (toL y) (toL x0) mx damp tol) (fun _ => ρ) ∧
      Always n' (fun r => cglsProg n' V' W' (env n' J' r) (op' r) (toL y) (toL x0) mx damp tol) (fun _ => ρ) := by
  obtain ⟨ρ, k⟩ := C58_cgls_serial (K := K) V.dt (A := A) (B := B) y x0 mx damp tol
  exact ⟨ρ, k n J op V W rfl hg h, k n' J' op' V' W' hdt hg' h'⟩

end

section
variable {K : Type} [Field K] [StarRing K] [CharZero K] {n n' : Nat} {J J' : Nat → Nat → K}

/-- **C58** (`MPIBlockDiag`).  The result depends only on the sequence of blocks and not on which ranks hold them: when the same sequence of operators is cut into consecutive groups in two
    ways, over `n` and over `n'` ranks, both programs gather the same array. -/
theorem C58_blockDiag {ops ops' : Nat → List (LOp K)} {b : Bool} {dx dt : DType} (heq : allOps n ops = allOps n' ops') (hok : ∀ o ∈ allOps n ops, o.Ok b dx dt)
    (hne : ∀ r < n, ops r ≠ []) (hne' : ∀ r < n', ops' r ≠ []) {d : List K} (hd : d.length = inSum b (allOps n ops)) (hmem : FitsL dx d) :
    ∃ y : NDArray K, Always n (fun r => applyProg n ⟨inL b n ops, dx⟩ b (env n J r) (.leaf (bdPrim n ops none dt r)) d) (fun _ => .ok y) ∧
      Always n' (fun r => applyProg n' ⟨inL b n' ops', dx⟩ b (env n' J' r) (.leaf (bdPrim n' ops' none dt r)) d) (fun _ => .ok y) := by
  let lv : Leaves K Unit := ⟨fun _ => (inSum true (allOps n ops), inSum false (allOps n ops)), fun _ b => blockDiag b (allOps n ops)⟩
  have h := typed_blockDiag (lv := lv) (J := J) (n := n) (prim := fun _ => bdPrim n ops none dt) (i := ()) (b := b) (dx := dx) (dt := dt) (ops := ops) (fun _ => rfl) rfl rfl hok hne
  have h' := typed_blockDiag (lv := lv) (J := J') (n := n') (prim := fun _ => bdPrim n' ops' none dt) (i := ()) (b := b) (dx := dx) (dt := dt) (ops := ops') (fun _ => rfl)
    (by rw [← heq]) (by rw [← heq]) (by rw [← heq]; exact hok) hne'
  exact C58_operator (e := .leaf ()) h h' rfl ⟨by simpa [Layout.lin] using hd, hmem⟩ ⟨by rw [heq] at hd; simpa [Layout.lin] using hd, hmem⟩

end

/-- both entries of diag(a, b) on one rank -/
noncomputable def Diag2.ops1 (a b : ℝ) (_ : Nat) : List (LOp ℝ) := [Diag2.one a, Diag2.one b]

/-- Non-vacuity: diag(2, 5) on two ranks with one block each, and on one rank with two blocks. -/
example : ∃ y : NDArray ℝ,
    Always 2 (fun r => applyProg 2 ⟨inL false 2 (Diag2.ops 2 5), .real⟩ false (env 2 (fun _ _ => 0) r) (.leaf (bdPrim 2 (Diag2.ops 2 5) none .real r)) [1, 1]) (fun _ => .ok y) ∧
    Always 1 (fun r => applyProg 1 ⟨inL false 1 (Diag2.ops1 2 5), .real⟩ false (env 1 (fun _ _ => 0) r) (.leaf (bdPrim 1 (Diag2.ops1 2 5) none .real r)) [1, 1]) (fun _ => .ok y) := by
  refine C58_blockDiag ?_ (fun o ho => Diag2.ok 2 5 false ho) (fun r _ => ?_) (fun r _ => by simp [Diag2.ops1]) ?_ (fun _ z _ => by simp)
  · simp [allOps, Diag2.ops, Diag2.ops1, List.range_succ]
  · unfold Diag2.ops; split_ifs <;> simp
  · simp [allOps, Diag2.ops, List.range_succ, inSum, Diag2.one, LOp.inDim]

namespace Diag2

/-- two entries on one rank -/
def V1 : VSpace := ⟨.lin 2 fun _ => 2, .real⟩

theorem wf1 : (XSpace.one V1).WF 1 := lin_wf (by simp [psum]) (by simp)

theorem has1 (x : Vec ℝ 2) : (XSpace.one V1).Has x := ⟨by simp [V1, Layout.lin], fun _ z _ => by simp⟩

noncomputable def op1 (a b : ℝ) (r : Nat) : XOp ℝ := MOp.toX (.leaf (bdPrim 1 (ops1 a b) none .real r))

theorem acts1 (a b : ℝ) (d : Bool) (J : Nat → Nat → ℝ) : Acts 1 J (fun r => (op1 a b r).dir d) (.one V1) (.one V1) (A a b) := by
  let lv : Leaves ℝ Unit := ⟨fun _ => (2, 2), fun _ d => blockDiag d (allOps 1 (ops1 a b))⟩
  have e : allOps 1 (ops1 a b) = allOps 2 (ops a b) := by simp [allOps, ops, ops1, List.range_succ]
  have h := typed_blockDiag (lv := lv) (J := J) (n := 1) (prim := fun _ => bdPrim 1 (ops1 a b) none .real) (i := ()) (b := d) (dx := .real) (dt := .real)
      (ops := ops1 a b) (fun _ => rfl) (by simp [lv, inSum, LOp.inDim, one, allOps, ops1, List.range_succ]) rfl (fun o ho => ok a b d (by rwa [e] at ho))
      (fun r _ => by simp [ops1])
  have hL : ∀ d, inL d 1 (ops1 a b) = V1.L := by
    intro d
    unfold inL V1
    cases d <;> simp [inSum, LOp.inDim, one, allOps, ops1, List.range_succ]
  rw [hL, hL] at h
  refine typed_acts (e := .leaf ()) h fun x hx => ?_
  cases d <;> simp [den, lv, allOps, ops1, List.range_succ, blockDiag, slices, one, LOp.inDim, LOp.fn, toL, List.ofFn_succ, A]

end Diag2

/-- Non-vacuity: `cg` with diag(a, b) on two ranks and on one rank. -/
example (a b : ℝ) (y x0 : Vec ℝ 2) (mx : Option Int) (tol : ℝ) : ∃ ρ : Except Err (NDArray ℝ × Nat × List ℝ),
      Always 2 (fun r => cgProg 2 Diag2.V (env 2 (fun _ _ => 0) r) (Diag2.op a b r) (toL y) (toL x0) mx tol) (fun _ => ρ) ∧
      Always 1 (fun r => cgProg 1 Diag2.V1 (env 1 (fun _ _ => 0) r) (Diag2.op1 a b r) (toL y) (toL x0) mx tol) (fun _ => ρ) :=
  C58_cg mx tol rfl Diag2.wf rfl rfl (Diag2.acts a b false _) (Diag2.has _) (Diag2.has _) Diag2.wf1 rfl rfl (Diag2.acts1 a b false _) (Diag2.has1 _) (Diag2.has1 _)

/-- Non-vacuity: `cgls`. -/
example (a b : ℝ) (y x0 : Vec ℝ 2) (mx : Option Int) (damp tol : ℝ) : ∃ ρ : Except Err (NDArray ℝ × Nat × Nat × ℝ × FNum × List ℝ),
      Always 2 (fun r => cglsProg 2 Diag2.V Diag2.V (env 2 (fun _ _ => 0) r) (Diag2.op a b r) (toL y) (toL x0) mx damp tol) (fun _ => ρ) ∧
      Always 1 (fun r => cglsProg 1 Diag2.V1 Diag2.V1 (env 1 (fun _ _ => 0) r) (Diag2.op1 a b r) (toL y) (toL x0) mx damp tol) (fun _ => ρ) :=
  C58_cgls mx damp tol rfl rfl ⟨Diag2.wf, Diag2.wf, rfl, rfl, by simp, Diag2.acts a b false _, Diag2.acts a b true _, Diag2.has _, Diag2.has _⟩ rfl
    ⟨Diag2.wf1, Diag2.wf1, rfl, rfl, by simp, Diag2.acts1 a b false _, Diag2.acts1 a b true _, Diag2.has1 _, Diag2.has1 _⟩

end Verif

/- C85: the solvers on operators that may raise return the serial result or raise. -/
import Verif.Proofs.SafeSolvers
import Verif.Props.C17
import Verif.Props.C46
import Verif.Props.C83
import Verif.Props.C84

namespace Verif
open NDArray Serial

section
variable {K ι : Type} [RCLike K] {n : Nat} {J : Nat → Nat → K} {S T : XSpace} {M N : Nat} {op : Nat → XOp K} {tol damp : ℝ} {mx : Int}
  {lv : Leaves K ι} {prim : ι → Nat → Prim K}

theorem RunsOr.raises {α : Type} {ps : Nat → P K α} {e : Err} (hn : 0 < n) (h : RunsOr n ps fun _ => .error e) : Raises n ps := h.elim (Raises.of_runs hn) id

/-- **C85** (`cg`).  Whatever the data, the starting point, the limit and the tolerance: serial CG stops after some number `m` of steps without having divided by zero and every rank
    returns, in every execution, its part of the serial iterate `x_m`, the number `m` and the serial cost history, and its callback has seen its parts of the serial iterates; or some rank
    ends with an exception, in every execution. -/
theorem C85_cg (hn : 0 < n) {A : Vec K N → Vec K N} {y x0 : Vec K N} (hS : S.WF n) (hm : S.NoMask) (hA : ActsOr n J (fun r => (op r).mv) S S A) (hy : S.Has y) (hx : S.Has x0) :
    (∃ m, Stops (fun i => (CG.seq K A y x0 i).k) mx tol 0 m ∧ (∀ i < m, ¬ CG.Breaks K A (CG.seq K A y x0 i)) ∧
      Always n (fun r => CGS.solve (env n J r) (op r) (S.part n y r) (S.part n x0 r) (some mx) tol)
        (fun r => .ok (S.part n (CG.seq K A y x0 m).x r, m, (List.range (m + 1)).map fun i => Real.sqrt (CG.seq K A y x0 i).k,
          (List.range' 1 m).map fun i => S.part n (CG.seq K A y x0 i).x r))) ∨
      Raises n (fun r => CGS.solve (env n J r) (op r) (S.part n y r) (S.part n x0 r) (some mx) tol) := by
  obtain ⟨m, hb, hst | hst⟩ := stops_or_hits (fun i => (CG.seq K A y x0 i).k) (fun i => CG.Breaks K A (CG.seq K A y x0 i)) mx tol mx.toNat 0 (by omega) (by simp)
  · have h1 := runs_cg_run_or (niter := some mx) (niter1 := some mx) hS hm hA hy hx rfl hst hb
    have h2 := RunsOr.bind_ok (k := fun r q => .ret (q.2.1, q.1.iiter, q.1.cost, q.2.2)) h1 (Runs.ret _).or
    have h3 : RunsOr n (fun r => CGS.solve (env n J r) (op r) (S.part n y r) (S.part n x0 r) (some mx) tol)
        (fun r => .ok (S.part n (CG.seq K A y x0 m).x r, m, (List.range (m + 1)).map fun i => Real.sqrt (CG.seq K A y x0 i).k,
          (List.range' 1 m).map fun i => S.part n (CG.seq K A y x0 i).x r)) := by
      refine h2.congr (fun r _ => ?_) fun r _ => ?_
      · simp only [CGS.solve, CGS.steps, Prog.bind_eq, Prog.bind_assoc]
      · simp [cgState]
    exact h3.imp (fun h => ⟨m, hst, hb, h.always⟩) id
  · right
    have h3 := runs_cg_run_break_or (niter := some mx) (niter1 := some mx) hS hm hA hy hx rfl hst hb
    have h4 := (RunsOr.raises hn h3).bind (fun _ q => .ret (q.2.1, q.1.iiter, q.1.cost, q.2.2))
    refine h4.congr fun r _ => ?_
    simp only [CGS.solve, CGS.steps, Prog.bind_eq, Prog.bind_assoc]

/-- **C85** (`cgls`).  As for `cg`; `A` is what `matvec` computes and `B` what `rmatvec` computes if they do not raise. -/
theorem C85_cgls (hn : 0 < n) {A : Vec K M → Vec K N} {B : Vec K N → Vec K M} {y : Vec K N} {x0 : Vec K M} (h : CGLSHypOr n J op S T A B y x0) :
    (∃ m, Stops (fun i => (CGLS.seq K A B damp (damp ^ 2) y x0 i).k) mx tol 0 m ∧ (∀ i < m, ¬ CGLS.Breaks (damp ^ 2) (CGLS.seq K A B damp (damp ^ 2) y x0 i)) ∧
      ∃ res : Nat → CGLSS.Result K, (∀ r, (res r).x = S.part n (CGLS.seq K A B damp (damp ^ 2) y x0 m).x r ∧ (res r).iiter = m ∧
        (res r).cost = (List.range (m + 1)).map (fun i => ‖(CGLS.seq K A B damp (damp ^ 2) y x0 i).s‖) ∧ (res r).r1norm = (CGLS.seq K A B damp (damp ^ 2) y x0 m).k ∧
        (res r).trace = (List.range' 1 m).map fun i => S.part n (CGLS.seq K A B damp (damp ^ 2) y x0 i).x r) ∧
        Always n (fun r => CGLSS.solve (env n J r) (op r) (T.part n y r) (S.part n x0 r) (some mx) damp tol) (fun r => .ok (res r))) ∨
      Raises n (fun r => CGLSS.solve (env n J r) (op r) (T.part n y r) (S.part n x0 r) (some mx) damp tol) := by
  obtain ⟨m, hb, hst | hst⟩ := stops_or_hits (fun i => (CGLS.seq K A B damp (damp ^ 2) y x0 i).k)
    (fun i => CGLS.Breaks (damp ^ 2) (CGLS.seq K A B damp (damp ^ 2) y x0 i)) mx tol mx.toNat 0 (by omega) (by simp)
  · exact (runs_cgls_solve_or h hst hb).imp (fun h => ⟨m, hst, hb, _, fun _ => ⟨rfl, rfl, rfl, rfl, rfl⟩, h.always⟩) id
  · exact .inr (RunsOr.raises hn (runs_cgls_solve_break_or h hst hb))

theorem RunsOr.bind_raises {α β : Type} {ps : Nat → P K α} {a : Nat → α} {k : Nat → α → P K β} (h : RunsOr n ps (fun r => .ok (a r))) (h2 : Raises n (fun r => k r (a r))) :
    Raises n (fun r => (ps r).bind (k r)) := by
  rcases h with h | h
  · obtain ⟨m, hm, e, h2⟩ := h2
    exact ⟨m, hm, e, rankEnds_bind_ok hm h h2⟩
  · exact h.bind k

/-! ### Operators -/

theorem XComputesOr.acts {mv : Nat → Ctx K → XArr K → P K (XArr K)} {f : List K → List K} (h : XComputesOr n J mv S T f) {A : Vec K M → Vec K N}
    (hA : ∀ x, S.Has x → toL (A x) = f (toL x)) : ActsOr n J mv S T A := by
  intro x hx
  have := h (toL x) hx
  unfold XSpace.Has XSpace.part
  rw [hA x hx]
  exact this

/-- a program for arrays that are not stacked, as the `matvec` that the solvers call -/
def liftOne (mv : Ctx K → DArr K → P K (DArr K)) (c : Ctx K) : XArr K → P K (XArr K)
  | .one d => (mv c d).bind fun y => .ret (.one y)
  | .stack _ => .throw .attribute

theorem ComputesOr.acts {mv : Nat → Ctx K → DArr K → P K (DArr K)} {S T : VSpace} {f : List K → List K} (h : ComputesOr n J mv S T f) {A : Vec K M → Vec K N}
    (hA : ∀ x, S.Mem (toL x) → toL (A x) = f (toL x)) : ActsOr n J (fun r => liftOne (mv r)) (.one S) (.one T) A := by
  refine XComputesOr.acts (S := .one S) (T := .one T) (f := f) (fun d hd => ⟨(h d hd).1, ?_⟩) hA
  exact (RunsOr.map_ok XArr.one (RunsOr.congr ((h d hd).2.imp Always.runs id) (fun _ _ => rfl) fun _ _ => rfl)).imp Runs.always id

/-- leaves that always give the right result are leaves that give it or raise -/
theorem Acts.or {mv : Nat → Ctx K → XArr K → P K (XArr K)} {A : Vec K M → Vec K N} (h : Acts n J mv S T A) : ActsOr n J mv S T A :=
  fun x hx => ⟨(h x hx).1, .inl (h x hx).2⟩

/-- **C85** (`cg` for operator expressions whose parts may raise). -/
theorem C85_cg_expr (hn : 0 < n) {e : MOp K ι} {V : VSpace} (he : TypedOr lv n J prim false e V V) (hV : V.L.WF n) (hm : V.L.mask = none) {A : Vec K N → Vec K N}
    (hA : ∀ x, V.Mem (toL x) → toL (A x) = den lv false e (toL x)) {y x0 : Vec K N} (hy : V.Mem (toL y)) (hx : V.Mem (toL x0)) :
    (∃ m, Stops (fun i => (CG.seq K A y x0 i).k) mx tol 0 m ∧ (∀ i < m, ¬ CG.Breaks K A (CG.seq K A y x0 i)) ∧
      Always n (fun r => CGS.solve (env n J r) (MOp.toX (e.map (prim · r))) (.one (V.vec n (toL y) r)) (.one (V.vec n (toL x0) r)) (some mx) tol)
        (fun r => .ok (.one (V.vec n (toL (CG.seq K A y x0 m).x) r), m, (List.range (m + 1)).map fun i => Real.sqrt (CG.seq K A y x0 i).k,
          (List.range' 1 m).map fun i => .one (V.vec n (toL (CG.seq K A y x0 i).x) r)))) ∨
      Raises n (fun r => CGS.solve (env n J r) (MOp.toX (e.map (prim · r))) (.one (V.vec n (toL y) r)) (.one (V.vec n (toL x0) r)) (some mx) tol) :=
  C85_cg (S := .one V) (op := fun r => MOp.toX (e.map (prim · r))) hn hV hm (by
    have := ComputesOr.acts (typedOr_safe he) hA
    intro x hx
    exact this x hx) hy hx

/-- **C85** (`cgls` for stacked operator expressions whose parts may raise). -/
theorem C85_cgls_stacked (hn : 0 < n) {e : SOp K ι} (he : STypedOr lv n J prim false e S T) (he' : STypedOr lv n J prim true e T S) (hS : S.WF n) (hT : T.WF n)
    (hmS : S.NoMask) (hmT : T.NoMask) (hT0 : T ≠ .stack []) {A : Vec K M → Vec K N} {B : Vec K N → Vec K M} (hA : ∀ x, S.Has x → toL (A x) = sden lv false e (toL x))
    (hB : ∀ x, T.Has x → toL (B x) = sden lv true e (toL x)) {y : Vec K N} {x0 : Vec K M} (hy : T.Has y) (hx : S.Has x0) :
    (∃ m, Stops (fun i => (CGLS.seq K A B damp (damp ^ 2) y x0 i).k) mx tol 0 m ∧
      ∃ res : Nat → CGLSS.Result K, (∀ r, (res r).x = S.part n (CGLS.seq K A B damp (damp ^ 2) y x0 m).x r ∧ (res r).iiter = m ∧
        (res r).cost = (List.range (m + 1)).map (fun i => ‖(CGLS.seq K A B damp (damp ^ 2) y x0 i).s‖)) ∧
        Always n (fun r => CGLSS.solve (env n J r) (SOp.toX (e.map (prim · r))) (T.part n y r) (S.part n x0 r) (some mx) damp tol) (fun r => .ok (res r))) ∨
      Raises n (fun r => CGLSS.solve (env n J r) (SOp.toX (e.map (prim · r))) (T.part n y r) (S.part n x0 r) (some mx) damp tol) := by
  refine (C85_cgls (op := fun r => SOp.toX (e.map (prim · r))) hn
    ⟨hS, hT, hmS, hmT, hT0, XComputesOr.acts (stypedOr_safe (b := false) he) hA, XComputesOr.acts (stypedOr_safe (b := true) he') hB, hy, hx⟩).imp (fun ⟨m, h1, _, res, h3, h4⟩ => ?_) id
  exact ⟨m, h1, res, fun r => ⟨(h3 r).1, (h3 r).2.1, (h3 r).2.2.1⟩, h4⟩

/-- **C85** (`cgls` with MPIFredholm1).  However the slices of the kernel are spread over the ranks: the iterates of serial CGLS for the block-diagonal matrix of all slices, or some rank raises. -/
theorem C85_cgls_fredholm (hn : 0 < n) {sz : Nat → Nat} {nx ny nz : Nat} {sg um : Bool} {dG dt : DType} {g : List K} (h1 : ∀ r < n, sz r ≠ 1)
    (hg : g.length = psum sz n * (nx * ny)) (fg : FitsL dt g) {A : Vec K M → Vec K N} {B : Vec K N → Vec K M}
    (hA : ∀ x : Vec K M, toL (A x) = fredholm (psum sz n) nx ny nz g (toL x)) (hB : ∀ x : Vec K N, toL (B x) = fredholmAdj (psum sz n) nx ny nz g (toL x))
    {y : Vec K N} {x0 : Vec K M} (hy : VSpace.Mem ⟨.all (psum sz n * nx * nz), dt⟩ (toL y)) (hx : VSpace.Mem ⟨.all (psum sz n * ny * nz), dt⟩ (toL x0)) :
    let p := fun r => fredObj n sz nx ny nz sg um dG dt g r
    let op : Nat → XOp K := fun r => ⟨liftOne (fredMv (p r) false), liftOne (fredMv (p r) true)⟩
    (∃ m, Stops (fun i => (CGLS.seq K A B damp (damp ^ 2) y x0 i).k) mx tol 0 m ∧
      ∃ res : Nat → CGLSS.Result K, (∀ r, (res r).x = .one (VSpace.vec ⟨.all (psum sz n * ny * nz), dt⟩ n (toL (CGLS.seq K A B damp (damp ^ 2) y x0 m).x) r) ∧ (res r).iiter = m) ∧
        Always n (fun r => CGLSS.solve (env n J r) (op r) (.one (VSpace.vec ⟨.all (psum sz n * nx * nz), dt⟩ n (toL y) r))
          (.one (VSpace.vec ⟨.all (psum sz n * ny * nz), dt⟩ n (toL x0) r)) (some mx) damp tol) (fun r => .ok (res r))) ∨
      Raises n (fun r => CGLSS.solve (env n J r) (op r) (.one (VSpace.vec ⟨.all (psum sz n * nx * nz), dt⟩ n (toL y) r))
          (.one (VSpace.vec ⟨.all (psum sz n * ny * nz), dt⟩ n (toL x0) r)) (some mx) damp tol) := by
  intro p op
  have a1 := ComputesOr.acts (fredMv_safe (J := J) (n := n) (sz := sz) (nx := nx) (ny := ny) (nz := nz) (sg := sg) (um := um) (dG := dG) (dt := dt) (dx := dt)
    (X := .all (psum sz n * ny * nz)) h1 hg fg id false rfl) fun x _ => hA x
  have a2 := ComputesOr.acts (fredMv_safe (J := J) (n := n) (sz := sz) (nx := nx) (ny := ny) (nz := nz) (sg := sg) (um := um) (dG := dG) (dt := dt) (dx := dt)
    (X := .all (psum sz n * nx * nz)) h1 hg fg id true rfl) fun x _ => hB x
  refine (C85_cgls (S := .one ⟨.all (psum sz n * ny * nz), dt⟩) (T := .one ⟨.all (psum sz n * nx * nz), dt⟩) (op := op) hn
    ⟨all_wf rfl, all_wf rfl, rfl, rfl, by simp, a1, a2, hy, hx⟩).imp (fun ⟨m, h1, _, res, h3, h4⟩ => ?_) id
  exact ⟨m, h1, res, fun r => ⟨(h3 r).1, (h3 r).2.1⟩, h4⟩

/-! ### Data in another layout -/

theorem sub_raises {S : VSpace} (hS : S.L.WF n) {d : List K} (hd : S.Mem d) {y : Nat → DArr K} {q : Nat} (hq : q < n) (h : ¬ Compatible (y q) (S.vec n d q)) :
    Raises n (fun r => XArr.sub' (env n J r) (.one (y r)) (.one (S.vec n d r))) := by
  have h1 : RankEnds n (fun r => (y r).sub' (env n J r) (S.vec n d r)) q (.error .value) := by
    refine rankEnds_bind_ok hq (runs_neg_vec (J := J) hS hd) ?_
    have hc : ¬ Compatible (y q) (S.vec n (d.map (- ·)) q) := h
    classical
    exact RankEnds.of_steps .refl (by simp [DArr.add, checkCompat_eq, hc])
  exact ⟨q, hq, .value, h1.bind_error fun _ z => .ret (XArr.one z)⟩

/-- **C85** (`cg`, data in another layout than the result of the operator).  If on some rank the data differ from `Op x0` in partition, local shape or mask, some rank raises. -/
theorem C85_cg_layout {S T : VSpace} {A : Vec K M → Vec K N} {x0 : Vec K M} (hS : S.L.WF n) (hT : T.L.WF n) (hA : ActsOr n J (fun r => (op r).mv) (.one S) (.one T) A)
    (hx : S.Mem (toL x0)) {y : Nat → DArr K} {q : Nat} (hq : q < n) (h : ¬ Compatible (y q) (T.vec n (toL (A x0)) q)) :
    Raises n (fun r => CGS.solve (env n J r) (op r) (.one (y r)) (.one (S.vec n (toL x0) r)) (some mx) tol) := by
  have hx' : (XSpace.one S).Has x0 := hx
  have key : Raises n (fun r => CGS.setup (env n J r) (op r) (.one (y r)) (.one (S.vec n (toL x0) r)) (some mx) tol) := by
    simp only [CGS.setup, Prog.bind_eq]
    refine (Runs.or (runs_copy_part (S := .one S) (J := J) hS hx')).bind_raises ?_
    exact (hA.runs hx').bind_raises ((sub_raises hT (hA.has hx') hq h).bind _)
  simp only [CGS.solve, Prog.bind_eq]
  exact key.bind _

/-- **C85** (`cgls`, data in another layout than the result of the operator). -/
theorem C85_cgls_layout {S T : VSpace} {A : Vec K M → Vec K N} {x0 : Vec K M} (hS : S.L.WF n) (hT : T.L.WF n) (hA : ActsOr n J (fun r => (op r).mv) (.one S) (.one T) A)
    (hx : S.Mem (toL x0)) {y : Nat → DArr K} {q : Nat} (hq : q < n) (h : ¬ Compatible (y q) (T.vec n (toL (A x0)) q)) :
    Raises n (fun r => CGLSS.solve (env n J r) (op r) (.one (y r)) (.one (S.vec n (toL x0) r)) (some mx) damp tol) := by
  have hx' : (XSpace.one S).Has x0 := hx
  have key : Raises n (fun r => CGLSS.setup (env n J r) (op r) (.one (y r)) (.one (S.vec n (toL x0) r)) (some mx) damp tol) := by
    simp only [CGLSS.setup, Prog.bind_eq]
    refine (Runs.or (runs_copy_part (S := .one S) (J := J) hS hx')).bind_raises ?_
    exact (hA.runs hx').bind_raises ((sub_raises hT (hA.has hx') hq h).bind _)
  simp only [CGLSS.solve, Prog.bind_eq]
  exact key.bind _

end

/-! ### Examples -/

/-- Non-vacuity: `cg` for diag(2, 5) on two ranks, which never raises in the operator … -/
example := C85_cg (n := 2) (mx := 3) (tol := 0) (by decide) Diag2.wf Diag2.noMask (Diag2.acts 2 5 false (fun _ _ => 0)).or (Diag2.has !₂[2, 5]) (Diag2.has 0)

/-- … and data held by all ranks, which always raise. -/
example : Raises 2 (fun r => CGS.solve (env 2 (fun _ _ => 0) r) (Diag2.op 2 5 r) (.one (VSpace.vec ⟨.all 2, .real⟩ 2 [2, 5] r)) (.one (Diag2.V.vec 2 (toL (0 : Vec ℝ 2)) r)) (some 3) 0) :=
  C85_cg_layout (T := Diag2.V) Diag2.wf Diag2.wf (Diag2.acts 2 5 false (fun _ _ => 0)).or (Diag2.has 0) (q := 0) (by decide) (by
    rintro ⟨h, -⟩
    cases h)

/-- Non-vacuity: the Laplacian along the first axis of two rows on three ranks, so that the last rank has none. -/
example {sd : Serial ℝ SDKind} {A : Vec ℝ 6 → Vec ℝ 6} (hA : ∀ x, toL (A x) = den (lapFns sd 3 2 [3] true .real) false (.leaf ⟨0, 2, .centered⟩) (toL x)) (y : Vec ℝ 6) :=
  C85_cg_expr (K := ℝ) (J := fun _ _ => 0) (n := 3) (mx := 3) (tol := 0) (by decide)
    (lap_safe (sd := sd) (N := 2) (rest := [3]) (t := ⟨0, 2, .centered⟩) (dx := .real) (dt := .real) (edge := true) (X := .flat 3 2 [3]) (b := false) (by decide) (by decide) id
      (.inl ⟨flat_wf (by decide), rfl, rfl⟩) ⟨by norm_num, by simp, fun a h => by cases h⟩ (by simp))
    (flat_wf (by decide)) rfl (fun x _ => hA x) (y := y) (x0 := 0) ⟨by simp [Layout.lin], fun _ z _ => by simp⟩ ⟨by simp [Layout.lin], fun _ z _ => by simp⟩

end Verif

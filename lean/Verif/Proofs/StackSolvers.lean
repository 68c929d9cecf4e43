/-
  The solvers with arbitrary arithmetic compute on stacked arrays what the serial algorithms of Spec/StackSolvers.lean compute (see Proofs/BlockSolvers.lean).
-/
import Verif.Proofs.StackVectors

namespace Verif
open NDArray

variable {K : Type} (A : Arith K) {n : Nat} {J : Nat → Nat → K} {L L' : XLay} {x y : XVec K}

/-! ### CG -/

variable {op : Nat → XOp K} {F : XVec K → XVec K} {x0 : XVec K} {niter : Option Int} {tol : K} {D : List DType → Prop}

structure XCG.Sized (s : XCG K) (N : XLay) (D : List DType → Prop) : Prop where
  x : s.x.Fits N
  r : s.r.Fits N
  c : s.c.Fits N
  rd : D s.r.dts
  cd : D s.c.dts

/-- the solver object when the serial state is `s` -/
def XCG.obj (L : XLay) (n : Nat) (y : XVec K) (niter : Option Int) (tol : K) (cost : List K) (it : Nat) (s : XCG K) (r : Nat) : FCG K :=
  ⟨y.part L n r, niter, tol, s.r.part L n r, s.c.part L n r, s.k, cost, it⟩

theorem xcg_start_sized (hF : ∀ x : XVec K, x.Fits L → D x.dts → (F x).Fits L) {dot : XVec K → XVec K → K}
    (hy : y.Fits L) (hx : x0.Fits L) (dy : D y.dts) (dx : D x0.dts) : (XCG.start A dot F y x0).Sized L D := by
  have h1 := XVec.fits_copy A hx
  have dx : D (XVec.copy A x0).dts := by rw [XVec.dts_copy]; exact dx
  have h2 := XVec.fits_sub A hy (hF _ h1 dx)
  have d2 : D (XVec.sub A y (F (XVec.copy A x0))).dts := by rw [XVec.dts_sub A hy (hF _ h1 dx)]; exact dy
  exact ⟨h1, h2, XVec.fits_copy A h2, d2, by show D (XVec.copy A _).dts; rw [XVec.dts_copy]; exact d2⟩

theorem xcg_setup (hL : L.WF n) (hop : XActs n J (fun r => (op r).mv) L L F D) (hy : y.Fits L) (hx : x0.Fits L) (dy : D y.dts) (dx : D x0.dts) :
    Runs n (fun r => FCG.setup A (env n J r) (op r) (y.part L n r) (x0.part L n r) niter tol)
      (fun r => .ok ((XCG.start A (XVec.blockDot A L n) F y x0).obj L n y niter tol [A.sqrt (XCG.start A (XVec.blockDot A L n) F y x0).k] 0 r,
        (XCG.start A (XVec.blockDot A L n) F y x0).x.part L n r)) := by
  have h1 := XVec.fits_copy A hx
  have dx : D (XVec.copy A x0).dts := by rw [XVec.dts_copy]; exact dx
  have h2 := XVec.fits_sub A hy (hop.fits _ h1 dx)
  unfold FCG.setup
  simp only [Prog.bind_eq]
  refine Runs.bind_ok (w_copy A hL hx) ?_
  refine Runs.bind_ok (hop.runs _ h1 dx).runs ?_
  refine Runs.bind_ok (w_sub A hL hy (hop.fits _ h1 dx)) ?_
  refine Runs.bind_ok (w_copy A hL h2) ?_
  refine Runs.bind_ok (w_absDot A hL h2 h2) ?_
  exact Runs.ret _

theorem xcg_step (hL : L.WF n) (hop : XActs n J (fun r => (op r).mv) L L F D) {s : XCG K} (hs : s.Sized L D) {cost : List K} {it : Nat} :
    (∀ s', XCG.next A (XVec.blockDot A L n) F s = .ok s' → s'.Sized L D ∧
      Runs n (fun r => FCG.step A (env n J r) (op r) (s.obj L n y niter tol cost it r) (s.x.part L n r))
        (fun r => .ok (s'.obj L n y niter tol (cost ++ [A.sqrt s'.k]) (it + 1) r, s'.x.part L n r))) ∧
    ∀ e, XCG.next A (XVec.blockDot A L n) F s = .error e →
      Runs n (fun r => FCG.step A (env n J r) (op r) (s.obj L n y niter tol cost it r) (s.x.part L n r)) (fun _ => .error e) := by
  have hq := hop.fits _ hs.c hs.cd
  unfold FCG.step
  simp only [Prog.bind_eq, XCG.obj]
  unfold XCG.next
  simp only [bind, Except.bind]
  cases ha : A.npDiv s.k (A.abs (XVec.blockDot A L n s.c (XVec.conj A (F s.c)))) with
  | error e =>
    refine ⟨fun s' h => (by cases h), fun e' h => ?_⟩
    injection h with h
    subst h
    refine Runs.bind_ok (hop.runs _ hs.c hs.cd).runs (Runs.bind_ok (w_absDot A hL hs.c hq) ?_)
    rw [ha]
    exact Runs.throw _
  | ok a =>
    have hr := XVec.fits_sub A hs.r (XVec.fits_scale A a hq)
    dsimp only
    cases hb : A.pyDiv (A.abs (XVec.blockDot A L n (XVec.sub A s.r (XVec.scale A a (F s.c))) (XVec.conj A (XVec.sub A s.r (XVec.scale A a (F s.c)))))) s.k with
    | error e =>
      refine ⟨fun s' h => (by cases h), fun e' h => ?_⟩
      injection h with h
      subst h
      refine Runs.bind_ok (hop.runs _ hs.c hs.cd).runs (Runs.bind_ok (w_absDot A hL hs.c hq) ?_)
      simp only [ha, Prog.lift_ok, Prog.ret_bind]
      refine Runs.bind_ok (w_scale A hL hs.c a) ?_
      refine Runs.bind_ok (w_iadd A hL hs.x (XVec.fits_scale A a hs.c)) ?_
      refine Runs.bind_ok (w_scale A hL hq a) ?_
      refine Runs.bind_ok (w_isub A hL hs.r (XVec.fits_scale A a hq)) ?_
      refine Runs.bind_ok (w_absDot A hL hr hr) ?_
      rw [hb]
      exact Runs.throw _
    | ok b =>
      refine ⟨fun s' h => ?_, fun e h => (by cases h)⟩
      injection h with h
      subst h
      have dr : D (XVec.sub A s.r (XVec.scale A a (F s.c))).dts := by rw [XVec.dts_sub A hs.r (XVec.fits_scale A a hq)]; exact hs.rd
      refine ⟨⟨XVec.fits_add A hs.x (XVec.fits_scale A a hs.c), hr, XVec.fits_add A hr (XVec.fits_scale A b hs.c), dr, by
        show D (XVec.add A _ _).dts; rw [XVec.dts_add A hr (XVec.fits_scale A b hs.c)]; exact dr⟩, ?_⟩
      refine Runs.bind_ok (hop.runs _ hs.c hs.cd).runs (Runs.bind_ok (w_absDot A hL hs.c hq) ?_)
      simp only [ha, Prog.lift_ok, Prog.ret_bind]
      refine Runs.bind_ok (w_scale A hL hs.c a) ?_
      refine Runs.bind_ok (w_iadd A hL hs.x (XVec.fits_scale A a hs.c)) ?_
      refine Runs.bind_ok (w_scale A hL hq a) ?_
      refine Runs.bind_ok (w_isub A hL hs.r (XVec.fits_scale A a hq)) ?_
      refine Runs.bind_ok (w_absDot A hL hr hr) ?_
      simp only [hb, Prog.lift_ok, Prog.ret_bind]
      refine Runs.bind_ok (w_scale A hL hs.c b) ?_
      refine Runs.bind_ok (w_add A hL hr (XVec.fits_scale A b hs.c)) ?_
      exact Runs.ret _

/-- the loop when it ends after `m` steps -/
theorem xcg_loop (hL : L.WF n) (hop : XActs n J (fun r => (op r).mv) L L F D) {mx : Int} {m : Nat} {s : Nat → XCG K}
    (hs : ∀ i < m, XCG.next A (XVec.blockDot A L n) F (s i) = .ok (s (i + 1))) (h0 : (s 0).Sized L D) (hst : StopsAt A mx tol (fun i => (s i).k) m) :
    ∀ (f j : Nat) (tr : Nat → List (XArr K)), j ≤ m → (f : Int) = max (mx - j) 0 →
    Runs n (fun r => FCG.loop A (env n J r) (op r) mx f ((s j).obj L n y niter tol ((List.range (j + 1)).map fun i => A.sqrt (s i).k) j r) ((s j).x.part L n r) (tr r))
      (fun r => .ok ((s m).obj L n y niter tol ((List.range (m + 1)).map fun i => A.sqrt (s i).k) m r, (s m).x.part L n r,
        tr r ++ (List.range' (j + 1) (m - j)).map fun i => (s i).x.part L n r)) := by
  have hsz : ∀ i ≤ m, (s i).Sized L D := by
    intro i hi
    induction i with
    | zero => exact h0
    | succ i ih => exact ((xcg_step A (y := y) (niter := niter) (tol := tol) (cost := []) (it := 0) hL hop (ih (by omega))).1 _ (hs i (by omega))).1
  intro f
  induction f with
  | zero =>
    intro j tr hj hf
    have hmj : m = j := by
      by_contra hne
      have := (hst.1 j (by omega)).1
      omega
    subst hmj
    refine (Runs.ret _).congr (fun r _ => rfl) fun r _ => ?_
    simp
  | succ f ih =>
    intro j tr hj hf
    rcases Nat.lt_or_eq_of_le hj with hlt | rfl
    · have hc := hst.1 j hlt
      have := Runs.bind_ok (k := fun r p => FCG.loop A (env n J r) (op r) mx f p.1 p.2 (tr r ++ [p.2]))
        ((xcg_step A (J := J) (y := y) (niter := niter) (tol := tol) (cost := (List.range (j + 1)).map fun i => A.sqrt (s i).k) (it := j) hL hop (hsz j hj)).1 _ (hs j hlt)).2
        ((ih (j + 1) (fun r => tr r ++ [(s (j + 1)).x.part L n r]) hlt (by omega)).congr (fun r _ => by
          rw [List.range_succ (n := j + 1), List.map_append]; rfl) fun _ _ => rfl)
      refine this.congr (fun r _ => ?_) fun r _ => ?_
      · simp only [FCG.loop, Prog.bind_eq]
        rw [if_pos]
        exact hc
      · have e : m - j = (m - (j + 1)) + 1 := by omega
        rw [e, List.range'_succ]
        simp
    · refine (Runs.ret _).congr (fun r _ => ?_) fun r _ => by simp; rfl
      simp only [FCG.loop]
      rw [if_neg]
      exact hst.2

/-- the loop when step `m` raises -/
theorem xcg_loop_error (hL : L.WF n) (hop : XActs n J (fun r => (op r).mv) L L F D) {mx : Int} {m : Nat} {s : Nat → XCG K} {e : Err}
    (hs : ∀ i < m, XCG.next A (XVec.blockDot A L n) F (s i) = .ok (s (i + 1))) (he : XCG.next A (XVec.blockDot A L n) F (s m) = .error e) (h0 : (s 0).Sized L D)
    (hst : ∀ i ≤ m, (i : Int) < mx ∧ A.gt (s i).k tol = true) :
    ∀ (f j : Nat) (cost : List K) (tr : Nat → List (XArr K)), j ≤ m → (f : Int) = max (mx - j) 0 →
    Runs n (fun r => FCG.loop A (env n J r) (op r) mx f ((s j).obj L n y niter tol cost j r) ((s j).x.part L n r) (tr r)) (fun _ => .error e) := by
  have hsz : ∀ i ≤ m, (s i).Sized L D := by
    intro i hi
    induction i with
    | zero => exact h0
    | succ i ih => exact ((xcg_step A (y := y) (niter := niter) (tol := tol) (cost := []) (it := 0) hL hop (ih (by omega))).1 _ (hs i (by omega))).1
  intro f
  induction f with
  | zero =>
    intro j cost tr hj hf
    have := (hst j hj).1
    omega
  | succ f ih =>
    intro j cost tr hj hf
    have hc := hst j hj
    have key : Runs n (fun r => (FCG.step A (env n J r) (op r) ((s j).obj L n y niter tol cost j r) ((s j).x.part L n r)).bind
        fun p => FCG.loop A (env n J r) (op r) mx f p.1 p.2 (tr r ++ [p.2])) (fun _ => .error e) := by
      rcases Nat.lt_or_eq_of_le hj with hlt | rfl
      · exact Runs.bind_ok ((xcg_step A (J := J) (y := y) (niter := niter) (tol := tol) (cost := cost) (it := j) hL hop (hsz j hj)).1 _ (hs j hlt)).2
          (ih (j + 1) _ (fun r => tr r ++ [(s (j + 1)).x.part L n r]) hlt (by omega))
      · exact Runs.bind ((xcg_step A (J := J) (y := y) (niter := niter) (tol := tol) (cost := cost) (it := j) hL hop (hsz j hj)).2 _ he) (Runs.throw _)
    refine key.congr (fun r _ => ?_) fun _ _ => rfl
    simp only [FCG.loop, Prog.bind_eq]
    rw [if_pos]
    exact hc

theorem xcg_seq_next {dot : XVec K → XVec K → K} {m : Nat} {s : Nat → XCG K} (hs : ∀ i ≤ m, XCG.seq A dot F y x0 i = .ok (s i)) : ∀ i < m, XCG.next A dot F (s i) = .ok (s (i + 1)) := by
  intro i hi
  have h := hs (i + 1) hi
  rw [XCG.seq, hs i (by omega)] at h
  exact h

theorem xcg_seq_zero {dot : XVec K → XVec K → K} {m : Nat} {s : Nat → XCG K} (hs : ∀ i ≤ m, XCG.seq A dot F y x0 i = .ok (s i)) : s 0 = XCG.start A dot F y x0 := by
  have h := hs 0 (Nat.zero_le _)
  injection h with h
  exact h.symm

theorem xcg_solve (hL : L.WF n) (hop : XActs n J (fun r => (op r).mv) L L F D) (hy : y.Fits L) (hx : x0.Fits L) (dy : D y.dts) (dx : D x0.dts) {mx : Int} {m : Nat}
    {s : Nat → XCG K} (hs : ∀ i ≤ m, XCG.seq A (XVec.blockDot A L n) F y x0 i = .ok (s i)) (hst : StopsAt A mx tol (fun i => (s i).k) m) :
    Runs n (fun r => FCG.solve A (env n J r) (op r) (y.part L n r) (x0.part L n r) (some mx) tol)
      (fun r => .ok ((s m).x.part L n r, m, (List.range (m + 1)).map (fun i => A.sqrt (s i).k), (List.range' 1 m).map fun i => (s i).x.part L n r)) := by
  have h0 := xcg_seq_zero A hs
  have hz : (s 0).Sized L D := h0 ▸ xcg_start_sized A hop.fits hy hx dy dx
  unfold FCG.solve
  simp only [Prog.bind_eq]
  refine Runs.bind_ok (xcg_setup A hL hop hy hx dy dx) ?_
  have hl := xcg_loop A (J := J) (y := y) (niter := some mx) (tol := tol) hL hop (xcg_seq_next A hs) hz hst (mx.toNat) 0 (fun _ => []) (Nat.zero_le _) (by simp)
  refine Runs.bind_ok (hl.congr (fun r _ => ?_) fun _ _ => rfl) ?_
  · rw [← h0]
    simp [FCG.run, XCG.obj]
  · refine (Runs.ret _).congr (fun r _ => rfl) fun r _ => ?_
    simp [XCG.obj]

theorem xcg_solve_error (hL : L.WF n) (hop : XActs n J (fun r => (op r).mv) L L F D) (hy : y.Fits L) (hx : x0.Fits L) (dy : D y.dts) (dx : D x0.dts) {mx : Int} {m : Nat}
    {s : Nat → XCG K} {e : Err} (hs : ∀ i ≤ m, XCG.seq A (XVec.blockDot A L n) F y x0 i = .ok (s i)) (he : XCG.seq A (XVec.blockDot A L n) F y x0 (m + 1) = .error e)
    (hst : ∀ i ≤ m, (i : Int) < mx ∧ A.gt (s i).k tol = true) :
    Runs n (fun r => FCG.solve A (env n J r) (op r) (y.part L n r) (x0.part L n r) (some mx) tol) (fun _ => .error e) := by
  have h0 := xcg_seq_zero A hs
  have hz : (s 0).Sized L D := h0 ▸ xcg_start_sized A hop.fits hy hx dy dx
  have he' : XCG.next A (XVec.blockDot A L n) F (s m) = .error e := by
    rw [XCG.seq, hs m le_rfl] at he
    exact he
  unfold FCG.solve
  simp only [Prog.bind_eq]
  refine Runs.bind_ok (xcg_setup A hL hop hy hx dy dx) ?_
  have hl := xcg_loop_error A (J := J) (y := y) (niter := some mx) (tol := tol) hL hop (xcg_seq_next A hs) he' hz hst (mx.toNat) 0 [A.sqrt (s 0).k] (fun _ => []) (Nat.zero_le _) (by simp)
  refine Runs.bind (hl.congr (fun r _ => ?_) fun _ _ => rfl) (Runs.throw _)
  rw [← h0]
  simp [FCG.run, XCG.obj]

/-! ### CGLS -/

variable {F' : XVec K → XVec K} {damp damp2 : K} {D' : List DType → Prop}

structure XLS.Sized (t : XLS K) (N M : XLay) (D' : List DType → Prop) : Prop where
  x : t.x.Fits N
  s : t.s.Fits M
  c : t.c.Fits N
  q : t.q.Fits M
  sd : D' t.s.dts

/-- the solver object when the serial state is `t` -/
def XLS.obj (L L' : XLay) (n : Nat) (y : XVec K) (damp2 : K) (niter : Option Int) (tol : K) (cost cost1 : List K) (it : Nat) (t : XLS K) (r : Nat) : FCGLS K :=
  ⟨y.part L' n r, damp2, niter, tol, t.s.part L' n r, t.c.part L n r, t.q.part L' n r, t.k, cost, cost1, it⟩

theorem xls_setup (hL : L.WF n) (hL' : L'.WF n) (hop : XActs n J (fun r => (op r).mv) L L' F D)
    (hop' : XActs n J (fun r => (op r).rmv) L' L F' D') (hD : ∀ s : XVec K, s.Fits L' → D' s.dts → D (F' s).dts) (hd : A.pySq damp = .ok damp2) (hy : y.Fits L') (hx : x0.Fits L) (dy : D' y.dts) (dx : D x0.dts) :
    (∀ t, XLS.start A (XVec.blockDot A L n) (XVec.blockNorm A L' n) F F' damp y x0 = .ok t → t.Sized L L' D' ∧
      Runs n (fun r => FCGLS.setup A A.normX (env n J r) (op r) (y.part L' n r) (x0.part L n r) niter damp tol)
        (fun r => .ok (t.obj L L' n y damp2 niter tol [t.r1] [t.r2] 0 r, t.x.part L n r))) ∧
    ∀ e, XLS.start A (XVec.blockDot A L n) (XVec.blockNorm A L' n) F F' damp y x0 = .error e →
      Runs n (fun r => FCGLS.setup A A.normX (env n J r) (op r) (y.part L' n r) (x0.part L n r) niter damp tol) (fun _ => .error e) := by
  have h1 := XVec.fits_copy A hx
  have dx : D (XVec.copy A x0).dts := by rw [XVec.dts_copy]; exact dx
  have h2 := XVec.fits_sub A hy (hop.fits _ h1 dx)
  have dy : D' (XVec.sub A y (F (XVec.copy A x0))).dts := by rw [XVec.dts_sub A hy (hop.fits _ h1 dx)]; exact dy
  have h3 := XVec.fits_sub A (hop'.fits _ h2 dy) (XVec.fits_scale A damp h1)
  have d3 : D (XVec.copy A (XVec.sub A (F' (XVec.sub A y (F (XVec.copy A x0)))) (XVec.scale A damp (XVec.copy A x0)))).dts := by
    rw [XVec.dts_copy, XVec.dts_sub A (hop'.fits _ h2 dy) (XVec.fits_scale A damp h1)]; exact hD _ h2 dy
  have h4 := XVec.fits_copy A h3
  unfold FCGLS.setup
  simp only [Prog.bind_eq, hd, Prog.lift_ok, Prog.ret_bind]
  unfold XLS.start
  simp only [bind, Except.bind]
  cases hs : A.pySq (XVec.blockNorm A L' n (XVec.sub A y (F (XVec.copy A x0)))) with
  | error e =>
    refine ⟨fun t h => (by cases h), fun e' h => ?_⟩
    injection h with h
    subst h
    refine Runs.bind_ok (w_copy A hL hx) ?_
    refine Runs.bind_ok (hop.runs _ h1 dx).runs ?_
    refine Runs.bind_ok (w_sub A hL' hy (hop.fits _ h1 dx)) ?_
    refine Runs.bind_ok (w_scale A hL h1 damp) ?_
    refine Runs.bind_ok (hop'.runs _ h2 dy).runs ?_
    refine Runs.bind_ok (w_sub A hL (hop'.fits _ h2 dy) (XVec.fits_scale A damp h1)) ?_
    refine Runs.bind_ok (w_copy A hL h3) ?_
    refine Runs.bind_ok (hop.runs _ h4 d3).runs ?_
    refine Runs.bind_ok (w_absDot A hL h3 h3) ?_
    refine Runs.bind_ok (w_norm A hL' h2) ?_
    rw [hs]
    exact Runs.throw _
  | ok sq =>
    refine ⟨fun t h => ?_, fun e h => (by cases h)⟩
    injection h with h
    subst h
    refine ⟨⟨h1, h2, h4, hop.fits _ h4 d3, dy⟩, ?_⟩
    refine Runs.bind_ok (w_copy A hL hx) ?_
    refine Runs.bind_ok (hop.runs _ h1 dx).runs ?_
    refine Runs.bind_ok (w_sub A hL' hy (hop.fits _ h1 dx)) ?_
    refine Runs.bind_ok (w_scale A hL h1 damp) ?_
    refine Runs.bind_ok (hop'.runs _ h2 dy).runs ?_
    refine Runs.bind_ok (w_sub A hL (hop'.fits _ h2 dy) (XVec.fits_scale A damp h1)) ?_
    refine Runs.bind_ok (w_copy A hL h3) ?_
    refine Runs.bind_ok (hop.runs _ h4 d3).runs ?_
    refine Runs.bind_ok (w_absDot A hL h3 h3) ?_
    refine Runs.bind_ok (w_norm A hL' h2) ?_
    simp only [hs, Prog.lift_ok, Prog.ret_bind]
    refine Runs.bind_ok (w_absDot A hL h1 h1) ?_
    exact Runs.ret _

theorem xls_step (hL : L.WF n) (hL' : L'.WF n) (hop : XActs n J (fun r => (op r).mv) L L' F D)
    (hop' : XActs n J (fun r => (op r).rmv) L' L F' D') (hD : ∀ s : XVec K, s.Fits L' → D' s.dts → D (F' s).dts) {t : XLS K} (ht : t.Sized L L' D') {cost cost1 : List K} {it : Nat} :
    (∀ t', XLS.next A (XVec.blockDot A L n) (XVec.blockDot A L' n) (XVec.blockNorm A L' n) F F' damp2 t = .ok t' → t'.Sized L L' D' ∧
      Runs n (fun r => FCGLS.step A A.normX (env n J r) (op r) (t.obj L L' n y damp2 niter tol cost cost1 it r) (t.x.part L n r))
        (fun r => .ok (t'.obj L L' n y damp2 niter tol (cost ++ [t'.r1]) (cost1 ++ [t'.r2]) (it + 1) r, t'.x.part L n r))) ∧
    ∀ e, XLS.next A (XVec.blockDot A L n) (XVec.blockDot A L' n) (XVec.blockNorm A L' n) F F' damp2 t = .error e →
      Runs n (fun r => FCGLS.step A A.normX (env n J r) (op r) (t.obj L L' n y damp2 niter tol cost cost1 it r) (t.x.part L n r)) (fun _ => .error e) := by
  unfold FCGLS.step
  simp only [Prog.bind_eq, XLS.obj]
  unfold XLS.next
  simp only [bind, Except.bind]
  cases ha : A.npDiv t.k (A.add (XVec.blockDot A L' n t.q (XVec.conj A t.q)) (A.mul damp2 (XVec.blockDot A L n t.c (XVec.conj A t.c)))) with
  | error e =>
    refine ⟨fun t' h => (by cases h), fun e' h => ?_⟩
    injection h with h
    subst h
    refine Runs.bind_ok (w_dotConj A hL' ht.q ht.q) (Runs.bind_ok (w_dotConj A hL ht.c ht.c) ?_)
    rw [ha]
    exact Runs.throw _
  | ok a =>
    dsimp only
    have h1 := XVec.fits_add A ht.x (XVec.fits_scale A (A.abs a) ht.c)
    have h2 := XVec.fits_sub A ht.s (XVec.fits_scale A (A.abs a) ht.q)
    have d2 : D' (XVec.sub A t.s (XVec.scale A (A.abs a) t.q)).dts := by rw [XVec.dts_sub A ht.s (XVec.fits_scale A (A.abs a) ht.q)]; exact ht.sd
    generalize hX : XVec.add A t.x (XVec.scale A (A.abs a) t.c) = X at *
    generalize hS : XVec.sub A t.s (XVec.scale A (A.abs a) t.q) = S at *
    have h3 := XVec.fits_sub A (hop'.fits _ h2 d2) (XVec.fits_scale A damp2 h1)
    have d3 : D (XVec.sub A (F' S) (XVec.scale A damp2 X)).dts := by rw [XVec.dts_sub A (hop'.fits _ h2 d2) (XVec.fits_scale A damp2 h1)]; exact hD _ h2 d2
    generalize hR : XVec.sub A (F' S) (XVec.scale A damp2 X) = R at *
    have pre : ∀ {β : Type} (k : Nat → XArr K → XArr K → XArr K → K → P K β) (ρ : Nat → Except Err β),
        Runs n (fun r => k r (X.part L n r) (S.part L' n r) (R.part L n r) (A.abs (XVec.blockDot A L n R (XVec.conj A R)))) ρ →
        Runs n (fun r => (A.dotConj (env n J r) (t.q.part L' n r) (t.q.part L' n r)).bind fun qq => (A.dotConj (env n J r) (t.c.part L n r) (t.c.part L n r)).bind fun cc =>
          (Prog.lift (A.npDiv t.k (A.add qq (A.mul damp2 cc)))).bind fun av => (A.fmulX (env n J r) (A.abs av) (t.c.part L n r)).bind fun ac =>
          (A.iaddX (env n J r) (t.x.part L n r) ac).bind fun x => (A.fmulX (env n J r) (A.abs av) (t.q.part L' n r)).bind fun aq =>
          (A.isubX (env n J r) (t.s.part L' n r) aq).bind fun s => (A.fmulX (env n J r) damp2 x).bind fun dx => ((op r).rmv (env n J r) s).bind fun rs =>
          (A.subX (env n J r) rs dx).bind fun rr => (A.absDot (env n J r) rr rr).bind fun kk => k r x s rr kk) ρ := by
      intro β k ρ h
      refine Runs.bind_ok (w_dotConj A hL' ht.q ht.q) (Runs.bind_ok (w_dotConj A hL ht.c ht.c) ?_)
      simp only [ha, Prog.lift_ok, Prog.ret_bind]
      refine Runs.bind_ok (w_scale A hL ht.c _) ?_
      refine Runs.bind_ok (w_iadd A hL ht.x (XVec.fits_scale A _ ht.c)) ?_
      refine Runs.bind_ok (w_scale A hL' ht.q _) ?_
      refine Runs.bind_ok (w_isub A hL' ht.s (XVec.fits_scale A _ ht.q)) ?_
      rw [hX, hS]
      refine Runs.bind_ok (w_scale A hL h1 _) ?_
      refine Runs.bind_ok (hop'.runs _ h2 d2).runs ?_
      refine Runs.bind_ok (w_sub A hL (hop'.fits _ h2 d2) (XVec.fits_scale A _ h1)) ?_
      rw [hR]
      exact Runs.bind_ok (w_absDot A hL h3 h3) h
    cases hb : A.pyDiv (A.abs (XVec.blockDot A L n R (XVec.conj A R))) t.k with
    | error e =>
      refine ⟨fun t' h => (by cases h), fun e' h => ?_⟩
      injection h with h
      subst h
      refine pre (fun r x s rr kk => _) _ ?_
      rw [hb]
      exact Runs.throw _
    | ok b =>
      dsimp only
      have h4 := XVec.fits_add A h3 (XVec.fits_scale A b ht.c)
      have d4 : D (XVec.add A R (XVec.scale A b t.c)).dts := by rw [XVec.dts_add A h3 (XVec.fits_scale A b ht.c)]; exact d3
      cases hq : A.pySq (XVec.blockNorm A L' n S) with
      | error e =>
        refine ⟨fun t' h => (by cases h), fun e' h => ?_⟩
        injection h with h
        subst h
        refine pre (fun r x s rr kk => _) _ ?_
        simp only [hb, Prog.lift_ok, Prog.ret_bind]
        refine Runs.bind_ok (w_scale A hL ht.c b) ?_
        refine Runs.bind_ok (w_add A hL h3 (XVec.fits_scale A b ht.c)) ?_
        refine Runs.bind_ok (hop.runs _ h4 d4).runs ?_
        refine Runs.bind_ok (w_norm A hL' h2) ?_
        rw [hq]
        exact Runs.throw _
      | ok sq =>
        refine ⟨fun t' h => ?_, fun e h => (by cases h)⟩
        injection h with h
        subst h
        refine ⟨⟨h1, h2, h4, hop.fits _ h4 d4, d2⟩, pre (fun r x s rr kk => _) _ ?_⟩
        simp only [hb, Prog.lift_ok, Prog.ret_bind]
        refine Runs.bind_ok (w_scale A hL ht.c b) ?_
        refine Runs.bind_ok (w_add A hL h3 (XVec.fits_scale A b ht.c)) ?_
        refine Runs.bind_ok (hop.runs _ h4 d4).runs ?_
        refine Runs.bind_ok (w_norm A hL' h2) ?_
        simp only [hq, Prog.lift_ok, Prog.ret_bind]
        refine Runs.bind_ok (w_absDot A hL h1 h1) ?_
        exact Runs.ret _

theorem xls_sized (hL : L.WF n) (hL' : L'.WF n) (hop : XActs n J (fun r => (op r).mv) L L' F D)
    (hop' : XActs n J (fun r => (op r).rmv) L' L F' D') (hD : ∀ s : XVec K, s.Fits L' → D' s.dts → D (F' s).dts) {m : Nat} {t : Nat → XLS K}
    (hs : ∀ i < m, XLS.next A (XVec.blockDot A L n) (XVec.blockDot A L' n) (XVec.blockNorm A L' n) F F' damp2 (t i) = .ok (t (i + 1))) (h0 : (t 0).Sized L L' D') :
    ∀ i ≤ m, (t i).Sized L L' D' := by
  intro i hi
  induction i with
  | zero => exact h0
  | succ i ih => exact ((xls_step A (y := .stack []) (niter := none) (tol := A.zero) (cost := []) (cost1 := []) (it := 0) hL hL' hop hop' hD (ih (by omega))).1 _ (hs i (by omega))).1

theorem xls_loop (hL : L.WF n) (hL' : L'.WF n) (hop : XActs n J (fun r => (op r).mv) L L' F D)
    (hop' : XActs n J (fun r => (op r).rmv) L' L F' D') (hD : ∀ s : XVec K, s.Fits L' → D' s.dts → D (F' s).dts) {mx : Int} {m : Nat} {t : Nat → XLS K}
    (hs : ∀ i < m, XLS.next A (XVec.blockDot A L n) (XVec.blockDot A L' n) (XVec.blockNorm A L' n) F F' damp2 (t i) = .ok (t (i + 1))) (h0 : (t 0).Sized L L' D')
    (hst : StopsAt A mx tol (fun i => (t i).k) m) :
    ∀ (f j : Nat) (tr : Nat → List (XArr K)), j ≤ m → (f : Int) = max (mx - j) 0 →
    Runs n (fun r => FCGLS.loop A A.normX (env n J r) (op r) mx f
        ((t j).obj L L' n y damp2 niter tol ((List.range (j + 1)).map fun i => (t i).r1) ((List.range (j + 1)).map fun i => (t i).r2) j r) ((t j).x.part L n r) (tr r))
      (fun r => .ok ((t m).obj L L' n y damp2 niter tol ((List.range (m + 1)).map fun i => (t i).r1) ((List.range (m + 1)).map fun i => (t i).r2) m r, (t m).x.part L n r,
        tr r ++ (List.range' (j + 1) (m - j)).map fun i => (t i).x.part L n r)) := by
  have hsz := xls_sized A hL hL' hop hop' hD hs h0
  intro f
  induction f with
  | zero =>
    intro j tr hj hf
    have hmj : m = j := by
      by_contra hne
      have := (hst.1 j (by omega)).1
      omega
    subst hmj
    refine (Runs.ret _).congr (fun r _ => rfl) fun r _ => ?_
    simp
  | succ f ih =>
    intro j tr hj hf
    rcases Nat.lt_or_eq_of_le hj with hlt | rfl
    · have hc := hst.1 j hlt
      have := Runs.bind_ok (k := fun r p => FCGLS.loop A A.normX (env n J r) (op r) mx f p.1 p.2 (tr r ++ [p.2]))
        ((xls_step A (J := J) (y := y) (niter := niter) (tol := tol) (cost := (List.range (j + 1)).map fun i => (t i).r1) (cost1 := (List.range (j + 1)).map fun i => (t i).r2) (it := j)
          hL hL' hop hop' hD (hsz j hj)).1 _ (hs j hlt)).2
        ((ih (j + 1) (fun r => tr r ++ [(t (j + 1)).x.part L n r]) hlt (by omega)).congr (fun r _ => by
          rw [List.range_succ (n := j + 1), List.map_append, List.map_append]; rfl) fun _ _ => rfl)
      refine this.congr (fun r _ => ?_) fun r _ => ?_
      · simp only [FCGLS.loop, Prog.bind_eq]
        rw [if_pos]
        exact hc
      · have e : m - j = (m - (j + 1)) + 1 := by omega
        rw [e, List.range'_succ]
        simp
    · refine (Runs.ret _).congr (fun r _ => ?_) fun r _ => by simp; rfl
      simp only [FCGLS.loop]
      rw [if_neg]
      exact hst.2

theorem xls_loop_error (hL : L.WF n) (hL' : L'.WF n) (hop : XActs n J (fun r => (op r).mv) L L' F D)
    (hop' : XActs n J (fun r => (op r).rmv) L' L F' D') (hD : ∀ s : XVec K, s.Fits L' → D' s.dts → D (F' s).dts) {mx : Int} {m : Nat} {t : Nat → XLS K} {e : Err}
    (hs : ∀ i < m, XLS.next A (XVec.blockDot A L n) (XVec.blockDot A L' n) (XVec.blockNorm A L' n) F F' damp2 (t i) = .ok (t (i + 1)))
    (he : XLS.next A (XVec.blockDot A L n) (XVec.blockDot A L' n) (XVec.blockNorm A L' n) F F' damp2 (t m) = .error e) (h0 : (t 0).Sized L L' D')
    (hst : ∀ i ≤ m, (i : Int) < mx ∧ A.gt (t i).k tol = true) :
    ∀ (f j : Nat) (cost cost1 : List K) (tr : Nat → List (XArr K)), j ≤ m → (f : Int) = max (mx - j) 0 →
    Runs n (fun r => FCGLS.loop A A.normX (env n J r) (op r) mx f ((t j).obj L L' n y damp2 niter tol cost cost1 j r) ((t j).x.part L n r) (tr r)) (fun _ => .error e) := by
  have hsz := xls_sized A hL hL' hop hop' hD hs h0
  intro f
  induction f with
  | zero =>
    intro j cost cost1 tr hj hf
    have := (hst j hj).1
    omega
  | succ f ih =>
    intro j cost cost1 tr hj hf
    have hc := hst j hj
    have key : Runs n (fun r => (FCGLS.step A A.normX (env n J r) (op r) ((t j).obj L L' n y damp2 niter tol cost cost1 j r) ((t j).x.part L n r)).bind
        fun p => FCGLS.loop A A.normX (env n J r) (op r) mx f p.1 p.2 (tr r ++ [p.2])) (fun _ => .error e) := by
      rcases Nat.lt_or_eq_of_le hj with hlt | rfl
      · exact Runs.bind_ok ((xls_step A (J := J) (y := y) (niter := niter) (tol := tol) (cost := cost) (cost1 := cost1) (it := j) hL hL' hop hop' hD (hsz j hj)).1 _ (hs j hlt)).2
          (ih (j + 1) _ _ (fun r => tr r ++ [(t (j + 1)).x.part L n r]) hlt (by omega))
      · exact Runs.bind ((xls_step A (J := J) (y := y) (niter := niter) (tol := tol) (cost := cost) (cost1 := cost1) (it := j) hL hL' hop hop' hD (hsz j hj)).2 _ he) (Runs.throw _)
    refine key.congr (fun r _ => ?_) fun _ _ => rfl
    simp only [FCGLS.loop, Prog.bind_eq]
    rw [if_pos]
    exact hc

theorem xls_seq_ok {dot dot' : XVec K → XVec K → K} {nrm : XVec K → K} {m : Nat} {t : Nat → XLS K} (hs : ∀ i ≤ m, XLS.seq A dot dot' nrm F F' damp y x0 i = .ok (t i)) :
    ∃ d, A.pySq damp = .ok d ∧ XLS.start A dot nrm F F' damp y x0 = .ok (t 0) ∧ (∀ i < m, XLS.next A dot dot' nrm F F' d (t i) = .ok (t (i + 1))) ∧
      XLS.seq A dot dot' nrm F F' damp y x0 (m + 1) = XLS.next A dot dot' nrm F F' d (t m) := by
  have h := hs 0 (Nat.zero_le _)
  simp only [XLS.seq, bind, Except.bind] at h
  cases hd : A.pySq damp with
  | error e => rw [hd] at h; cases h
  | ok d =>
    rw [hd] at h
    refine ⟨d, rfl, h, fun i hi => ?_, ?_⟩
    · have h := hs (i + 1) hi
      simp only [XLS.seq, bind, Except.bind, hd, hs i (by omega)] at h
      exact h
    · simp only [XLS.seq, bind, Except.bind, hd, hs m le_rfl]

theorem xls_solve (hL : L.WF n) (hL' : L'.WF n) (hop : XActs n J (fun r => (op r).mv) L L' F D)
    (hop' : XActs n J (fun r => (op r).rmv) L' L F' D') (hD : ∀ s : XVec K, s.Fits L' → D' s.dts → D (F' s).dts) (hy : y.Fits L') (hx : x0.Fits L) (dy : D' y.dts) (dx : D x0.dts) {mx : Int} {m : Nat} {t : Nat → XLS K}
    (hs : ∀ i ≤ m, XLS.seq A (XVec.blockDot A L n) (XVec.blockDot A L' n) (XVec.blockNorm A L' n) F F' damp y x0 i = .ok (t i)) (hst : StopsAt A mx tol (fun i => (t i).k) m) :
    Runs n (fun r => FCGLS.solve A A.normX (env n J r) (op r) (y.part L' n r) (x0.part L n r) (some mx) damp tol)
      (fun r => .ok ⟨(t m).x.part L n r, if A.lt (t m).k tol then 1 else 2, m, (t m).k, (t m).r2, (List.range (m + 1)).map (fun i => (t i).r1), (List.range' 1 m).map fun i => (t i).x.part L n r⟩) := by
  obtain ⟨d, hd, h0, hn, -⟩ := xls_seq_ok A hs
  obtain ⟨hz, hset⟩ := (xls_setup A (J := J) (niter := some mx) (tol := tol) hL hL' hop hop' hD hd hy hx dy dx).1 _ h0
  unfold FCGLS.solve
  simp only [Prog.bind_eq]
  refine Runs.bind_ok hset ?_
  have hl := xls_loop A (J := J) (y := y) (niter := some mx) (tol := tol) hL hL' hop hop' hD hn hz hst (mx.toNat) 0 (fun _ => []) (Nat.zero_le _) (by simp)
  refine Runs.bind_ok (hl.congr (fun r _ => ?_) fun _ _ => rfl) ?_
  · simp [FCGLS.run, XLS.obj]
  · have hget : ((List.range (m + 1)).map fun i => (t i).r2)[m]? = some (t m).r2 := by simp
    refine (Runs.ret _).congr (fun r _ => ?_) fun _ _ => rfl
    simp only [FCGLS.finalize, XLS.obj, hget]
    simp
    rfl

theorem xls_solve_error (hL : L.WF n) (hL' : L'.WF n) (hop : XActs n J (fun r => (op r).mv) L L' F D)
    (hop' : XActs n J (fun r => (op r).rmv) L' L F' D') (hD : ∀ s : XVec K, s.Fits L' → D' s.dts → D (F' s).dts) (hy : y.Fits L') (hx : x0.Fits L) (dy : D' y.dts) (dx : D x0.dts) {mx : Int} {m : Nat} {t : Nat → XLS K} {e : Err}
    (hs : ∀ i ≤ m, XLS.seq A (XVec.blockDot A L n) (XVec.blockDot A L' n) (XVec.blockNorm A L' n) F F' damp y x0 i = .ok (t i))
    (he : XLS.seq A (XVec.blockDot A L n) (XVec.blockDot A L' n) (XVec.blockNorm A L' n) F F' damp y x0 (m + 1) = .error e)
    (hst : ∀ i ≤ m, (i : Int) < mx ∧ A.gt (t i).k tol = true) :
    Runs n (fun r => FCGLS.solve A A.normX (env n J r) (op r) (y.part L' n r) (x0.part L n r) (some mx) damp tol) (fun _ => .error e) := by
  obtain ⟨d, hd, h0, hn, hl⟩ := xls_seq_ok A hs
  rw [hl] at he
  obtain ⟨hz, hset⟩ := (xls_setup A (J := J) (niter := some mx) (tol := tol) hL hL' hop hop' hD hd hy hx dy dx).1 _ h0
  unfold FCGLS.solve
  simp only [Prog.bind_eq]
  refine Runs.bind_ok hset ?_
  have hl := xls_loop_error A (J := J) (y := y) (niter := some mx) (tol := tol) hL hL' hop hop' hD hn he hz hst (mx.toNat) 0 [(t 0).r1] [(t 0).r2] (fun _ => []) (Nat.zero_le _) (by simp)
  refine Runs.bind (hl.congr (fun r _ => ?_) fun _ _ => rfl) (Runs.throw _)
  simp [FCGLS.run, XLS.obj]

/-- already `setup` raises -/
theorem xls_solve_setup_error (hL : L.WF n) (hL' : L'.WF n) (hop : XActs n J (fun r => (op r).mv) L L' F D)
    (hop' : XActs n J (fun r => (op r).rmv) L' L F' D') (hD : ∀ s : XVec K, s.Fits L' → D' s.dts → D (F' s).dts) (hy : y.Fits L') (hx : x0.Fits L) (dy : D' y.dts) (dx : D x0.dts) {mx : Int} {e : Err}
    (he : XLS.seq A (XVec.blockDot A L n) (XVec.blockDot A L' n) (XVec.blockNorm A L' n) F F' damp y x0 0 = .error e) :
    Runs n (fun r => FCGLS.solve A A.normX (env n J r) (op r) (y.part L' n r) (x0.part L n r) (some mx) damp tol) (fun _ => .error e) := by
  simp only [XLS.seq, bind, Except.bind] at he
  unfold FCGLS.solve
  simp only [Prog.bind_eq]
  cases hd : A.pySq damp with
  | error e' =>
    rw [hd] at he
    injection he with he
    subst he
    refine Runs.bind (ρ := fun _ => .error e') ?_ (Runs.throw _)
    unfold FCGLS.setup
    simp only [Prog.bind_eq, hd]
    exact Runs.throw _
  | ok d =>
    rw [hd] at he
    exact Runs.bind ((xls_setup A (J := J) (niter := some mx) (tol := tol) hL hL' hop hop' hD hd hy hx dy dx).2 _ he) (Runs.throw _)

/-! ### when the layouts do not matter -/

theorem forall₂_trans {l l' : List Layout} {m : List (SVec K)} (h : List.Forall₂ (fun L L' : Layout => L.gshape.prod = L'.gshape.prod) l l') (hx : List.Forall₂ FitsOne l m) : List.Forall₂ FitsOne l' m := by
  induction h generalizing m with
  | nil => exact hx
  | cons e _ ih =>
    cases hx with
    | cons hx hm => exact .cons (Eq.trans hx e) (ih hm)

theorem XVec.fits_same {L₁ L₂ : XLay} (h : L₁.SameSize L₂) (hx : x.Fits L₁) : x.Fits L₂ := by
  cases L₁ <;> cases L₂ <;> cases x <;> try first | exact h.elim | exact hx.elim
  · exact Eq.trans hx h
  · exact forall₂_trans h hx

theorem XVec.fits_same' {L₁ L₂ : XLay} (h : L₁.SameSize L₂) (hx : x.Fits L₂) : x.Fits L₁ := by
  refine XVec.fits_same (L₁ := L₂) ?_ hx
  cases L₁ <;> cases L₂ <;> try exact h.elim
  · exact Eq.symm h
  · exact (List.Forall₂.flip h).imp fun _ _ h => Eq.symm h

theorem zip_free₂ {g : Layout → SVec K → SVec K → K} {t : SVec K → SVec K → K} {l : List Layout} {xs ys : List (SVec K)} (h : ∀ L ∈ l, ∀ x ∈ xs, ∀ y ∈ ys, FitsOne L x → FitsOne L y → g L x y = t x y)
    (hx : List.Forall₂ FitsOne l xs) (hy : List.Forall₂ FitsOne l ys) : List.zipWith (fun L (p : SVec K × SVec K) => g L p.1 p.2) l (xs.zip ys) = List.zipWith t xs ys := by
  induction hx generalizing ys with
  | nil => rfl
  | cons hx _ ih =>
    cases hy with
    | cons hy hys =>
      simp only [List.zip_cons_cons, List.zipWith_cons_cons]
      rw [ih (fun L hL x hx y hy => h L (by simp [hL]) x (by simp [hx]) y (by simp [hy])) hys, h _ (by simp) _ (by simp) _ (by simp) hx hy]

theorem zip_free {g : Layout → SVec K → K} {t : SVec K → K} {l : List Layout} {xs : List (SVec K)} (h : ∀ L ∈ l, ∀ x ∈ xs, FitsOne L x → g L x = t x)
    (hx : List.Forall₂ FitsOne l xs) : List.zipWith g l xs = xs.map t := by
  induction hx with
  | nil => rfl
  | cons hx _ ih =>
    simp only [List.map_cons, List.zipWith_cons_cons]
    rw [ih (fun L hL x hx => h L (by simp [hL]) x (by simp [hx])), h _ (by simp) _ (by simp) hx]

theorem xblockDot_free (hA : OrderFree A) : ∃ t : XVec K → XVec K → K, ∀ (n : Nat) (L : XLay), 0 < n → L.WF n →
    ∀ x y : XVec K, x.Fits L → y.Fits L → (L.Replicated → x.Stored A) → (L.Replicated → y.Stored A) → x.blockDot A L n y = t x y := by
  obtain ⟨t, ht⟩ := blockDot_free A hA
  refine ⟨fun x y => match x, y with
    | .one x, .one y => t x y
    | .stack xs, .stack ys => (List.zipWith t xs ys).foldl A.add A.zero
    | _, _ => A.zero, fun n L hn hL x y hx hy sx sy => ?_⟩
  cases L <;> cases x <;> cases y <;> try first | exact hx.elim | exact hy.elim
  · exact ht n _ hn hL.1 _ _ hx hy sx sy
  · exact congrArg (List.foldl A.add A.zero) (zip_free₂ (g := fun L x y => SVec.blockDot A L n x y) (fun L hLm x mx y my hx hy => ht n L hn (hL.2 L hLm).1 x y hx hy (fun hb => sx ⟨L, hLm, hb⟩ x mx) (fun hb => sy ⟨L, hLm, hb⟩ y my)) hx hy)

theorem xblockNorm_free (hA : OrderFree A) : ∃ t : XVec K → K, ∀ (n : Nat) (L : XLay), 0 < n → L.WF n →
    ∀ x : XVec K, x.Fits L → (L.Replicated → x.Stored A) → x.blockNorm A L n = t x := by
  obtain ⟨t, ht⟩ := blockNorm_free A hA
  refine ⟨fun x => match x with
    | .one x => t x
    | .stack xs => A.stackNorm (xs.map t), fun n L hn hL x hx sx => ?_⟩
  cases L <;> cases x <;> try exact hx.elim
  · exact ht n _ hn hL.1 _ hx sx
  · exact congrArg A.stackNorm (zip_free (g := fun L x => SVec.blockNorm A L n x) (fun L hLm x mx hx => ht n L hn (hL.2 L hLm).1 x hx (fun hb => sx ⟨L, hLm, hb⟩ x mx)) hx)

/-! ### what is stored stays the same when it is stored once more -/

section
variable (hi : ∀ dt a, A.cast dt (A.cast dt a) = A.cast dt a)
include hi

theorem XVec.stored_copy (x : XVec K) : (x.copy A).Stored A := by
  cases x with
  | one x => exact SVec.stored_map A hi _ _
  | stack l =>
    intro z hz
    obtain ⟨w, -, rfl⟩ := List.mem_map.1 hz
    exact SVec.stored_map A hi _ _

theorem XVec.stored_conj (x : XVec K) : (x.conj A).Stored A := by
  cases x with
  | one x => exact SVec.stored_map A hi _ _
  | stack l =>
    intro z hz
    obtain ⟨w, -, rfl⟩ := List.mem_map.1 hz
    exact SVec.stored_map A hi _ _

theorem XVec.stored_add {N : XLay} {x y : XVec K} (hx : x.Fits N) (hy : y.Fits N) : (x.add A y).Stored A := by
  cases N <;> cases x <;> cases y <;> try first | exact hx.elim | exact hy.elim
  · exact SVec.stored_zip A hi _ _ _
  · intro z hz
    obtain ⟨i, h, rfl⟩ := List.mem_iff_getElem.1 hz
    simp only [List.getElem_zipWith]
    exact SVec.stored_map A hi _ _

theorem XVec.stored_sub {N : XLay} {x y : XVec K} (hx : x.Fits N) (hy : y.Fits N) : (x.sub A y).Stored A := by
  cases N <;> cases x <;> cases y <;> try first | exact hx.elim | exact hy.elim
  · exact SVec.stored_zip A hi _ _ _
  · intro z hz
    obtain ⟨i, h, rfl⟩ := List.mem_iff_getElem.1 hz
    simp only [List.getElem_zipWith]
    exact SVec.stored_map A hi _ _

end

/-- only the products of vectors of the right length, all of which have been stored, matter -/
theorem xcg_seq_congr {N : XLay} {dot₁ dot₂ : XVec K → XVec K → K} (hF : ∀ x : XVec K, x.Fits N → D x.dts → (F x).Fits N)
    {P : XVec K → Prop} (hcp : ∀ x, P (XVec.copy A x)) (hcj : ∀ x, P (XVec.conj A x)) (had : ∀ N x y, XVec.Fits N x → XVec.Fits N y → P (XVec.add A x y))
    (hsb : ∀ N x y, XVec.Fits N x → XVec.Fits N y → P (XVec.sub A x y))
    (hd : ∀ x y : XVec K, x.Fits N → y.Fits N → P x → P y → dot₁ x y = dot₂ x y) (hy : y.Fits N) (hx : x0.Fits N) (dy : D y.dts) (dx : D x0.dts) (j : Nat) :
    XCG.seq A dot₁ F y x0 j = XCG.seq A dot₂ F y x0 j ∧ ∀ s, XCG.seq A dot₁ F y x0 j = .ok s → s.Sized N D ∧ P s.c := by
  have hc : ∀ {x : XVec K}, x.Fits N → (x.conj A).Fits N := fun h => XVec.fits_conj A h
  induction j with
  | zero =>
    have h1 := XVec.fits_copy A hx
    have dx : D (XVec.copy A x0).dts := by rw [XVec.dts_copy]; exact dx
    have h2 := XVec.fits_sub A hy (hF _ h1 dx)
    have d2 : D (XVec.sub A y (F (XVec.copy A x0))).dts := by rw [XVec.dts_sub A hy (hF _ h1 dx)]; exact dy
    refine ⟨?_, fun s h => ?_⟩
    · simp only [XCG.seq, XCG.start, hd _ _ h2 (hc h2) (hsb _ _ _ hy (hF _ h1 dx)) (hcj _)]
    · injection h with h
      subst h
      exact ⟨⟨h1, h2, XVec.fits_copy A h2, d2, by show D (XVec.copy A _).dts; rw [XVec.dts_copy]; exact d2⟩, hcp _⟩
  | succ j ih =>
    simp only [XCG.seq]
    rw [← ih.1]
    cases hs : XCG.seq A dot₁ F y x0 j with
    | error e => exact ⟨rfl, fun s h => by cases h⟩
    | ok s =>
      obtain ⟨hz, hp⟩ := ih.2 s hs
      have h1 := hF _ hz.c hz.cd
      simp only [Except.bind, XCG.next, bind]
      rw [hd _ _ hz.c (hc h1) hp (hcj _)]
      cases A.npDiv s.k (A.abs (dot₂ s.c (XVec.conj A (F s.c)))) with
      | error e => exact ⟨rfl, fun s h => by cases h⟩
      | ok a =>
        have h2 := XVec.fits_sub A hz.r (XVec.fits_scale A a h1)
        simp only
        rw [hd _ _ h2 (hc h2) (hsb _ _ _ hz.r (XVec.fits_scale A a h1)) (hcj _)]
        cases A.pyDiv (A.abs (dot₂ (XVec.sub A s.r (XVec.scale A a (F s.c))) (XVec.conj A (XVec.sub A s.r (XVec.scale A a (F s.c)))))) s.k with
        | error e => exact ⟨rfl, fun s h => by cases h⟩
        | ok b =>
          refine ⟨rfl, fun t h => ?_⟩
          injection h with h
          subst h
          have dr : D (XVec.sub A s.r (XVec.scale A a (F s.c))).dts := by rw [XVec.dts_sub A hz.r (XVec.fits_scale A a h1)]; exact hz.rd
          exact ⟨⟨XVec.fits_add A hz.x (XVec.fits_scale A a hz.c), h2, XVec.fits_add A h2 (XVec.fits_scale A b hz.c), dr, by
            show D (XVec.add A _ _).dts; rw [XVec.dts_add A h2 (XVec.fits_scale A b hz.c)]; exact dr⟩, had _ _ _ h2 (XVec.fits_scale A b hz.c)⟩

theorem xls_seq_congr {N M : XLay} {dot₁ dot₂ dot₁' dot₂' : XVec K → XVec K → K} {nrm₁ nrm₂ : XVec K → K} (hF : ∀ x : XVec K, x.Fits N → D x.dts → (F x).Fits M)
    (hF' : ∀ x : XVec K, x.Fits M → D' x.dts → (F' x).Fits N) (hD : ∀ s : XVec K, s.Fits M → D' s.dts → D (F' s).dts) {P P' : XVec K → Prop} (hcp : ∀ x, P (XVec.copy A x)) (hcj : ∀ x, P (XVec.conj A x)) (had : ∀ N x y, XVec.Fits N x → XVec.Fits N y → P (XVec.add A x y))
    (hsb : ∀ N x y, XVec.Fits N x → XVec.Fits N y → P (XVec.sub A x y)) (hPP : ∀ x, P x → P' x)
    (hP : ∀ x : XVec K, x.Fits N → D x.dts → P' (F x)) (hd : ∀ x y : XVec K, x.Fits N → y.Fits N → P x → P y → dot₁ x y = dot₂ x y)
    (hd' : ∀ x y : XVec K, x.Fits M → y.Fits M → P' x → P' y → dot₁' x y = dot₂' x y) (hn : ∀ x : XVec K, x.Fits M → P' x → nrm₁ x = nrm₂ x)
    (hy : y.Fits M) (hx : x0.Fits N) (dy : D' y.dts) (dx : D x0.dts) (j : Nat) :
    XLS.seq A dot₁ dot₁' nrm₁ F F' damp y x0 j = XLS.seq A dot₂ dot₂' nrm₂ F F' damp y x0 j ∧ ∀ t, XLS.seq A dot₁ dot₁' nrm₁ F F' damp y x0 j = .ok t → t.Sized N M D' ∧ P t.c ∧ P' t.q := by
  have hc : ∀ {x : XVec K} {k : XLay}, x.Fits k → (x.conj A).Fits k := fun h => XVec.fits_conj A h
  have hstart : XLS.start A dot₁ nrm₁ F F' damp y x0 = XLS.start A dot₂ nrm₂ F F' damp y x0 ∧ ∀ t, XLS.start A dot₁ nrm₁ F F' damp y x0 = .ok t → t.Sized N M D' ∧ P t.c ∧ P' t.q := by
    have h1 := XVec.fits_copy A hx
    have dx : D (XVec.copy A x0).dts := by rw [XVec.dts_copy]; exact dx
    have h2 := XVec.fits_sub A hy (hF _ h1 dx)
    have dy : D' (XVec.sub A y (F (XVec.copy A x0))).dts := by rw [XVec.dts_sub A hy (hF _ h1 dx)]; exact dy
    have h3 := XVec.fits_sub A (hF' _ h2 dy) (XVec.fits_scale A damp h1)
    have d3 : D (XVec.copy A (XVec.sub A (F' (XVec.sub A y (F (XVec.copy A x0)))) (XVec.scale A damp (XVec.copy A x0)))).dts := by
      rw [XVec.dts_copy, XVec.dts_sub A (hF' _ h2 dy) (XVec.fits_scale A damp h1)]; exact hD _ h2 dy
    have p2 := hsb _ _ _ hy (hF _ h1 ‹_›)
    have p3 := hsb _ _ _ (hF' _ h2 dy) (XVec.fits_scale A damp h1)
    simp only [XLS.start, bind, Except.bind, hn _ h2 (hPP _ p2), hd _ _ h3 (hc h3) p3 (hcj _), hd _ _ h1 (hc h1) (hcp _) (hcj _)]
    cases A.pySq (nrm₂ (XVec.sub A y (F (XVec.copy A x0)))) with
    | error e => exact ⟨trivial, fun s h => by cases h⟩
    | ok q =>
      refine ⟨trivial, fun t h => ?_⟩
      injection h with h
      subst h
      exact ⟨⟨h1, h2, XVec.fits_copy A h3, hF _ (XVec.fits_copy A h3) d3, dy⟩, hcp _, hP _ (XVec.fits_copy A h3) d3⟩
  have hnext : ∀ d t, XLS.Sized t N M D' → P t.c → P' t.q → XLS.next A dot₁ dot₁' nrm₁ F F' d t = XLS.next A dot₂ dot₂' nrm₂ F F' d t ∧
      ∀ t', XLS.next A dot₁ dot₁' nrm₁ F F' d t = .ok t' → t'.Sized N M D' ∧ P t'.c ∧ P' t'.q := by
    intro d t ht pc pq
    simp only [XLS.next, bind, Except.bind, hd' _ _ ht.q (hc ht.q) pq (hPP _ (hcj _)), hd _ _ ht.c (hc ht.c) pc (hcj _)]
    cases A.npDiv t.k (A.add (dot₂' t.q (XVec.conj A t.q)) (A.mul d (dot₂ t.c (XVec.conj A t.c)))) with
    | error e => exact ⟨rfl, fun s h => by cases h⟩
    | ok a =>
      have h1 := XVec.fits_add A ht.x (XVec.fits_scale A (A.abs a) ht.c)
      have h2 := XVec.fits_sub A ht.s (XVec.fits_scale A (A.abs a) ht.q)
      have d2 : D' (XVec.sub A t.s (XVec.scale A (A.abs a) t.q)).dts := by rw [XVec.dts_sub A ht.s (XVec.fits_scale A (A.abs a) ht.q)]; exact ht.sd
      have pX := had _ _ _ ht.x (XVec.fits_scale A (A.abs a) ht.c)
      have pS := hsb _ _ _ ht.s (XVec.fits_scale A (A.abs a) ht.q)
      simp only
      generalize hX : XVec.add A t.x (XVec.scale A (A.abs a) t.c) = X at *
      generalize hS : XVec.sub A t.s (XVec.scale A (A.abs a) t.q) = S at *
      have h3 := XVec.fits_sub A (hF' _ h2 d2) (XVec.fits_scale A d h1)
      have pR := hsb _ _ _ (hF' _ h2 d2) (XVec.fits_scale A d h1)
      simp only [hd _ _ h3 (hc h3) pR (hcj _), hn _ h2 (hPP _ pS), hd _ _ h1 (hc h1) pX (hcj _)]
      have d3 : D (XVec.sub A (F' S) (XVec.scale A d X)).dts := by rw [XVec.dts_sub A (hF' _ h2 d2) (XVec.fits_scale A d h1)]; exact hD _ h2 d2
      generalize hR : XVec.sub A (F' S) (XVec.scale A d X) = R at *
      cases A.pyDiv (A.abs (dot₂ R (XVec.conj A R))) t.k with
      | error e => exact ⟨trivial, fun s h => by cases h⟩
      | ok b =>
        simp only
        cases A.pySq (nrm₂ S) with
        | error e => exact ⟨trivial, fun s h => by cases h⟩
        | ok q =>
          have h4 := XVec.fits_add A h3 (XVec.fits_scale A b ht.c)
          have d4 : D (XVec.add A R (XVec.scale A b t.c)).dts := by rw [XVec.dts_add A h3 (XVec.fits_scale A b ht.c)]; exact d3
          refine ⟨trivial, fun t h => ?_⟩
          injection h with h
          subst h
          exact ⟨⟨h1, h2, h4, hF _ h4 d4, d2⟩, had _ _ _ h3 (XVec.fits_scale A b ht.c), hP _ h4 d4⟩
  induction j with
  | zero =>
    simp only [XLS.seq, bind, Except.bind]
    cases A.pySq damp with
    | error e => exact ⟨rfl, fun s h => by cases h⟩
    | ok d => exact hstart
  | succ j ih =>
    simp only [XLS.seq, bind, Except.bind]
    cases A.pySq damp with
    | error e => exact ⟨rfl, fun s h => by cases h⟩
    | ok d =>
      simp only
      rw [← ih.1]
      cases hs : XLS.seq A dot₁ dot₁' nrm₁ F F' damp y x0 j with
      | error e => exact ⟨rfl, fun s h => by cases h⟩
      | ok t => exact hnext d t (ih.2 t hs).1 (ih.2 t hs).2.1 (ih.2 t hs).2.2

end Verif

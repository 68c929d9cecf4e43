/-
  C74: with any arithmetic, the solvers compute on stacks of distributed arrays what the serial algorithms compute on the lists of global vectors.
-/
import Verif.Proofs.StackSolvers
import Verif.Props.C70

namespace Verif
open NDArray

variable {K : Type}

section
variable (A : Arith K) {n : Nat} {J : Nat → Nat → K} {L L' : XLay} {op : Nat → XOp K} {F F' : XVec K → XVec K} {y x0 : XVec K} {tol damp : K} {niter : Int} {m : Nat} {D D' : List DType → Prop}

/-! ### CG -/

/-- `cg` makes the steps of the serial algorithm on the global vectors: it returns the parts of its iterate, the number of its steps, the norms of its residuals, and it
    passes its iterates to the callback -/
theorem C74_cg (hL : L.WF n) (hop : XActs n J (fun r => (op r).mv) L L F D) (hy : y.Fits L) (hx : x0.Fits L) (dy : D y.dts) (dx : D x0.dts)
    {s : Nat → XCG K} (hs : ∀ i ≤ m, XCG.seq A (XVec.blockDot A L n) F y x0 i = .ok (s i)) (hst : StopsAt A niter tol (fun i => (s i).k) m) :
    Always n (fun r => FCG.solve A (env n J r) (op r) (y.part L n r) (x0.part L n r) (some niter) tol)
      (fun r => .ok ((s m).x.part L n r, m, (List.range (m + 1)).map (fun i => A.sqrt (s i).k), (List.range' 1 m).map fun i => (s i).x.part L n r)) :=
  (xcg_solve A hL hop hy hx dy dx hs hst).always

/-- if a division of the serial algorithm raises, then `cg` raises the same error on all ranks -/
theorem C74_cg_error (hL : L.WF n) (hop : XActs n J (fun r => (op r).mv) L L F D) (hy : y.Fits L) (hx : x0.Fits L) (dy : D y.dts) (dx : D x0.dts)
    {s : Nat → XCG K} {e : Err} (hs : ∀ i ≤ m, XCG.seq A (XVec.blockDot A L n) F y x0 i = .ok (s i)) (he : XCG.seq A (XVec.blockDot A L n) F y x0 (m + 1) = .error e)
    (hst : ∀ i ≤ m, (i : Int) < niter ∧ A.gt (s i).k tol = true) :
    Always n (fun r => FCG.solve A (env n J r) (op r) (y.part L n r) (x0.part L n r) (some niter) tol) (fun _ => .error e) :=
  (xcg_solve_error A hL hop hy hx dy dx hs he hst).always

/-- these are all cases: the serial algorithm stops or raises -/
theorem C74_cg_cases (dot : XVec K → XVec K → K) (F : XVec K → XVec K) (y x0 : XVec K) (niter : Int) (tol : K) :
    (∃ (m : Nat) (s : Nat → XCG K), (∀ i ≤ m, XCG.seq A dot F y x0 i = .ok (s i)) ∧ StopsAt A niter tol (fun i => (s i).k) m) ∨
    ∃ (m : Nat) (s : Nat → XCG K) (e : Err), (∀ i ≤ m, XCG.seq A dot F y x0 i = .ok (s i)) ∧ XCG.seq A dot F y x0 (m + 1) = .error e ∧
      ∀ i ≤ m, (i : Int) < niter ∧ A.gt (s i).k tol = true :=
  stops_or_fails A (XCG.seq A dot F y x0) XCG.k _ rfl niter tol

/-- the numbers of ranks and the layouts may differ: if dot products do not depend on the order of summation, `cg` computes the same numbers, whatever else the arithmetic does -/
theorem C74_cg_layouts (hA : OrderFree A) {n₁ n₂ : Nat} {J₁ J₂ : Nat → Nat → K} {L₁ L₂ : XLay} {op₁ op₂ : Nat → XOp K} (hn₁ : 0 < n₁) (hn₂ : 0 < n₂)
    (hL₁ : L₁.WF n₁) (hL₂ : L₂.WF n₂) (hN : L₁.SameSize L₂)
    (hc₁ : L₁.Replicated → ∀ dt a, A.cast dt (A.cast dt a) = A.cast dt a) (hc₂ : L₂.Replicated → ∀ dt a, A.cast dt (A.cast dt a) = A.cast dt a)
    (hop₁ : XActs n₁ J₁ (fun r => (op₁ r).mv) L₁ L₁ F D) (hop₂ : XActs n₂ J₂ (fun r => (op₂ r).mv) L₂ L₂ F D) (hy : y.Fits L₁) (hx : x0.Fits L₁) (dy : D y.dts) (dx : D x0.dts) :
    (∃ (x : XVec K) (it : Nat) (cost : List K) (xs : List (XVec K)),
      Always n₁ (fun r => FCG.solve A (env n₁ J₁ r) (op₁ r) (y.part L₁ n₁ r) (x0.part L₁ n₁ r) (some niter) tol) (fun r => .ok (x.part L₁ n₁ r, it, cost, xs.map fun z => z.part L₁ n₁ r)) ∧
      Always n₂ (fun r => FCG.solve A (env n₂ J₂ r) (op₂ r) (y.part L₂ n₂ r) (x0.part L₂ n₂ r) (some niter) tol) (fun r => .ok (x.part L₂ n₂ r, it, cost, xs.map fun z => z.part L₂ n₂ r))) ∨
    ∃ e, Always n₁ (fun r => FCG.solve A (env n₁ J₁ r) (op₁ r) (y.part L₁ n₁ r) (x0.part L₁ n₁ r) (some niter) tol) (fun _ => .error e) ∧
      Always n₂ (fun r => FCG.solve A (env n₂ J₂ r) (op₂ r) (y.part L₂ n₂ r) (x0.part L₂ n₂ r) (some niter) tol) (fun _ => .error e) := by
  obtain ⟨t, ht⟩ := xblockDot_free A hA
  have hi : L₁.Replicated ∨ L₂.Replicated → ∀ dt a, A.cast dt (A.cast dt a) = A.cast dt a := fun h => h.elim hc₁ hc₂
  have e := fun j => (xcg_seq_congr A (N := L₁) hop₁.fits (dot₂ := XVec.blockDot A L₂ n₂) (P := fun x => L₁.Replicated ∨ L₂.Replicated → x.Stored A) (fun x h => XVec.stored_copy A (hi h) x) (fun x h => XVec.stored_conj A (hi h) x)
    (fun _ x y hx hy h => XVec.stored_add A (hi h) hx hy) (fun _ x y hx hy h => XVec.stored_sub A (hi h) hx hy)
    (fun x y hx hy sx sy => (ht n₁ L₁ hn₁ hL₁ x y hx hy (fun h => sx (.inl h)) (fun h => sy (.inl h))).trans
      (ht n₂ L₂ hn₂ hL₂ x y (XVec.fits_same hN hx) (XVec.fits_same hN hy) (fun h => sx (.inr h)) (fun h => sy (.inr h))).symm) hy hx dy dx j).1
  rcases C74_cg_cases A (XVec.blockDot A L₁ n₁) F y x0 niter tol with ⟨m, s, hs, hst⟩ | ⟨m, s, er, hs, he, hst⟩
  · refine .inl ⟨(s m).x, m, (List.range (m + 1)).map (fun i => A.sqrt (s i).k), (List.range' 1 m).map fun i => (s i).x, ?_, ?_⟩
    · exact (C74_cg A hL₁ hop₁ hy hx dy dx hs hst).congr fun r _ => by simp
    · exact (C74_cg A hL₂ hop₂ (XVec.fits_same hN hy) (XVec.fits_same hN hx) dy dx (fun i hi => (e i).symm.trans (hs i hi)) hst).congr fun r _ => by simp
  · exact .inr ⟨er, C74_cg_error A hL₁ hop₁ hy hx dy dx hs he hst, C74_cg_error A hL₂ hop₂ (XVec.fits_same hN hy) (XVec.fits_same hN hx) dy dx (fun i hi => (e i).symm.trans (hs i hi)) ((e _).symm.trans he) hst⟩

/-! ### CGLS -/

/-- `cgls` likewise, with models in the layout `L` and data in the layout `L'` -/
theorem C74_cgls (hL : L.WF n) (hL' : L'.WF n) (hop : XActs n J (fun r => (op r).mv) L L' F D)
    (hop' : XActs n J (fun r => (op r).rmv) L' L F' D') (hD : ∀ s : XVec K, s.Fits L' → D' s.dts → D (F' s).dts) (hy : y.Fits L') (hx : x0.Fits L) (dy : D' y.dts) (dx : D x0.dts) {t : Nat → XLS K}
    (hs : ∀ i ≤ m, XLS.seq A (XVec.blockDot A L n) (XVec.blockDot A L' n) (XVec.blockNorm A L' n) F F' damp y x0 i = .ok (t i)) (hst : StopsAt A niter tol (fun i => (t i).k) m) :
    Always n (fun r => FCGLS.solve A A.normX (env n J r) (op r) (y.part L' n r) (x0.part L n r) (some niter) damp tol)
      (fun r => .ok { x := (t m).x.part L n r, istop := if A.lt (t m).k tol then 1 else 2, iiter := m, r1norm := (t m).k, r2norm := (t m).r2,
                      cost := (List.range (m + 1)).map fun i => (t i).r1, trace := (List.range' 1 m).map fun i => (t i).x.part L n r }) :=
  (xls_solve A hL hL' hop hop' hD hy hx dy dx hs hst).always

/-- if step `m + 1` of the serial algorithm raises, then `cgls` raises the same error on all ranks -/
theorem C74_cgls_error (hL : L.WF n) (hL' : L'.WF n) (hop : XActs n J (fun r => (op r).mv) L L' F D)
    (hop' : XActs n J (fun r => (op r).rmv) L' L F' D') (hD : ∀ s : XVec K, s.Fits L' → D' s.dts → D (F' s).dts) (hy : y.Fits L') (hx : x0.Fits L) (dy : D' y.dts) (dx : D x0.dts) {t : Nat → XLS K} {e : Err}
    (hs : ∀ i ≤ m, XLS.seq A (XVec.blockDot A L n) (XVec.blockDot A L' n) (XVec.blockNorm A L' n) F F' damp y x0 i = .ok (t i))
    (he : XLS.seq A (XVec.blockDot A L n) (XVec.blockDot A L' n) (XVec.blockNorm A L' n) F F' damp y x0 (m + 1) = .error e)
    (hst : ∀ i ≤ m, (i : Int) < niter ∧ A.gt (t i).k tol = true) :
    Always n (fun r => FCGLS.solve A A.normX (env n J r) (op r) (y.part L' n r) (x0.part L n r) (some niter) damp tol) (fun _ => .error e) :=
  (xls_solve_error A hL hL' hop hop' hD hy hx dy dx hs he hst).always

/-- the same if its initialisation raises -/
theorem C74_cgls_setup_error (hL : L.WF n) (hL' : L'.WF n) (hop : XActs n J (fun r => (op r).mv) L L' F D)
    (hop' : XActs n J (fun r => (op r).rmv) L' L F' D') (hD : ∀ s : XVec K, s.Fits L' → D' s.dts → D (F' s).dts) (hy : y.Fits L') (hx : x0.Fits L) (dy : D' y.dts) (dx : D x0.dts) {e : Err}
    (he : XLS.seq A (XVec.blockDot A L n) (XVec.blockDot A L' n) (XVec.blockNorm A L' n) F F' damp y x0 0 = .error e) :
    Always n (fun r => FCGLS.solve A A.normX (env n J r) (op r) (y.part L' n r) (x0.part L n r) (some niter) damp tol) (fun _ => .error e) :=
  (xls_solve_setup_error A hL hL' hop hop' hD hy hx dy dx he).always

/-- these are all cases -/
theorem C74_cgls_cases (dot dot' : XVec K → XVec K → K) (nrm : XVec K → K) (F F' : XVec K → XVec K) (damp : K) (y x0 : XVec K) (niter : Int) (tol : K) :
    (∃ e, XLS.seq A dot dot' nrm F F' damp y x0 0 = .error e) ∨
    (∃ (m : Nat) (t : Nat → XLS K), (∀ i ≤ m, XLS.seq A dot dot' nrm F F' damp y x0 i = .ok (t i)) ∧ StopsAt A niter tol (fun i => (t i).k) m) ∨
    ∃ (m : Nat) (t : Nat → XLS K) (e : Err), (∀ i ≤ m, XLS.seq A dot dot' nrm F F' damp y x0 i = .ok (t i)) ∧ XLS.seq A dot dot' nrm F F' damp y x0 (m + 1) = .error e ∧
      ∀ i ≤ m, (i : Int) < niter ∧ A.gt (t i).k tol = true := by
  cases h : XLS.seq A dot dot' nrm F F' damp y x0 0 with
  | error e => exact .inl ⟨e, rfl⟩
  | ok t => exact .inr (stops_or_fails A (XLS.seq A dot dot' nrm F F' damp y x0) XLS.k t h niter tol)

/-- the layouts matter only through the order of summation -/
theorem C74_cgls_layouts (hA : OrderFree A) {n₁ n₂ : Nat} {J₁ J₂ : Nat → Nat → K} {L₁ L₂ L₁' L₂' : XLay} {op₁ op₂ : Nat → XOp K} (hn₁ : 0 < n₁) (hn₂ : 0 < n₂)
    (hL₁ : L₁.WF n₁) (hL₂ : L₂.WF n₂) (hL₁' : L₁'.WF n₁) (hL₂' : L₂'.WF n₂) (hN : L₁.SameSize L₂) (hN' : L₁'.SameSize L₂')
    (hc₁ : L₁.Replicated ∨ L₁'.Replicated → ∀ dt a, A.cast dt (A.cast dt a) = A.cast dt a) (hc₂ : L₂.Replicated ∨ L₂'.Replicated → ∀ dt a, A.cast dt (A.cast dt a) = A.cast dt a)
    (hq : L₁'.Replicated ∨ L₂'.Replicated → ∀ x : XVec K, x.Fits L₁ → D x.dts → (F x).Stored A)
    (hop₁ : XActs n₁ J₁ (fun r => (op₁ r).mv) L₁ L₁' F D) (hop₂ : XActs n₂ J₂ (fun r => (op₂ r).mv) L₂ L₂' F D)
    (hop₁' : XActs n₁ J₁ (fun r => (op₁ r).rmv) L₁' L₁ F' D') (hop₂' : XActs n₂ J₂ (fun r => (op₂ r).rmv) L₂' L₂ F' D') (hD : ∀ s : XVec K, s.Fits L₁' → D' s.dts → D (F' s).dts) (hy : y.Fits L₁') (hx : x0.Fits L₁) (dy : D' y.dts) (dx : D x0.dts) :
    (∃ (x : XVec K) (istop it : Nat) (r1 r2 : K) (cost : List K) (xs : List (XVec K)),
      Always n₁ (fun r => FCGLS.solve A A.normX (env n₁ J₁ r) (op₁ r) (y.part L₁' n₁ r) (x0.part L₁ n₁ r) (some niter) damp tol)
        (fun r => .ok ⟨x.part L₁ n₁ r, istop, it, r1, r2, cost, xs.map fun z => z.part L₁ n₁ r⟩) ∧
      Always n₂ (fun r => FCGLS.solve A A.normX (env n₂ J₂ r) (op₂ r) (y.part L₂' n₂ r) (x0.part L₂ n₂ r) (some niter) damp tol)
        (fun r => .ok ⟨x.part L₂ n₂ r, istop, it, r1, r2, cost, xs.map fun z => z.part L₂ n₂ r⟩)) ∨
    ∃ e, Always n₁ (fun r => FCGLS.solve A A.normX (env n₁ J₁ r) (op₁ r) (y.part L₁' n₁ r) (x0.part L₁ n₁ r) (some niter) damp tol) (fun _ => .error e) ∧
      Always n₂ (fun r => FCGLS.solve A A.normX (env n₂ J₂ r) (op₂ r) (y.part L₂' n₂ r) (x0.part L₂ n₂ r) (some niter) damp tol) (fun _ => .error e) := by
  obtain ⟨t, ht⟩ := xblockDot_free A hA
  obtain ⟨u, hu⟩ := xblockNorm_free A hA
  let B := L₁.Replicated ∨ L₁'.Replicated ∨ L₂.Replicated ∨ L₂'.Replicated
  let B' := L₁'.Replicated ∨ L₂'.Replicated
  have hi : B → ∀ dt a, A.cast dt (A.cast dt a) = A.cast dt a := fun h => by
    rcases h with h | h | h | h
    exacts [hc₁ (.inl h), hc₁ (.inr h), hc₂ (.inl h), hc₂ (.inr h)]
  have e := fun j => (xls_seq_congr A (damp := damp) (N := L₁) (M := L₁') hop₁.fits hop₁'.fits hD (dot₂ := XVec.blockDot A L₂ n₂) (dot₂' := XVec.blockDot A L₂' n₂) (nrm₂ := XVec.blockNorm A L₂' n₂)
    (P := fun x => B → x.Stored A) (P' := fun x => B' → x.Stored A) (fun x h => XVec.stored_copy A (hi h) x) (fun x h => XVec.stored_conj A (hi h) x)
    (fun _ x y hx hy h => XVec.stored_add A (hi h) hx hy) (fun _ x y hx hy h => XVec.stored_sub A (hi h) hx hy)
    (fun x h h' => h (h'.elim (fun h => .inr (.inl h)) fun h => .inr (.inr (.inr h)))) (fun x hx hd h => hq h x hx hd)
    (fun x y hx hy sx sy => (ht n₁ L₁ hn₁ hL₁ x y hx hy (fun h => sx (.inl h)) (fun h => sy (.inl h))).trans
      (ht n₂ L₂ hn₂ hL₂ x y (XVec.fits_same hN hx) (XVec.fits_same hN hy) (fun h => sx (.inr (.inr (.inl h)))) (fun h => sy (.inr (.inr (.inl h))))).symm)
    (fun x y hx hy sx sy => (ht n₁ L₁' hn₁ hL₁' x y hx hy (fun h => sx (.inl h)) (fun h => sy (.inl h))).trans
      (ht n₂ L₂' hn₂ hL₂' x y (XVec.fits_same hN' hx) (XVec.fits_same hN' hy) (fun h => sx (.inr h)) (fun h => sy (.inr h))).symm)
    (fun x hx sx => (hu n₁ L₁' hn₁ hL₁' x hx (fun h => sx (.inl h))).trans (hu n₂ L₂' hn₂ hL₂' x (XVec.fits_same hN' hx) (fun h => sx (.inr h))).symm) hy hx dy dx j).1
  rcases C74_cgls_cases A (XVec.blockDot A L₁ n₁) (XVec.blockDot A L₁' n₁) (XVec.blockNorm A L₁' n₁) F F' damp y x0 niter tol with ⟨er, he⟩ | ⟨m, s, hs, hst⟩ | ⟨m, s, er, hs, he, hst⟩
  · exact .inr ⟨er, C74_cgls_setup_error A hL₁ hL₁' hop₁ hop₁' hD hy hx dy dx he, C74_cgls_setup_error A hL₂ hL₂' hop₂ hop₂' (fun s hs => hD s (XVec.fits_same' hN' hs)) (XVec.fits_same hN' hy) (XVec.fits_same hN hx) dy dx ((e 0).symm.trans he)⟩
  · refine .inl ⟨(s m).x, if A.lt (s m).k tol then 1 else 2, m, (s m).k, (s m).r2, (List.range (m + 1)).map (fun i => (s i).r1), (List.range' 1 m).map fun i => (s i).x, ?_, ?_⟩
    · exact (C74_cgls A hL₁ hL₁' hop₁ hop₁' hD hy hx dy dx hs hst).congr fun r _ => by simp
    · exact (C74_cgls A hL₂ hL₂' hop₂ hop₂' (fun s hs => hD s (XVec.fits_same' hN' hs)) (XVec.fits_same hN' hy) (XVec.fits_same hN hx) dy dx (fun i hi => (e i).symm.trans (hs i hi)) hst).congr fun r _ => by simp
  · exact .inr ⟨er, C74_cgls_error A hL₁ hL₁' hop₁ hop₁' hD hy hx dy dx hs he hst,
      C74_cgls_error A hL₂ hL₂' hop₂ hop₂' (fun s hs => hD s (XVec.fits_same' hN' hs)) (XVec.fits_same hN' hy) (XVec.fits_same hN hx) dy dx (fun i hi => (e i).symm.trans (hs i hi)) ((e _).symm.trans he) hst⟩

/-! ### a single vector -/

/-- on single vectors these are the algorithms of C70 -/
theorem C74_cg_one (dot : XVec K → XVec K → K) (F : XVec K → XVec K) (G : SVec K → SVec K) (hF : ∀ x, F (.one x) = .one (G x)) (y x0 : SVec K) (j : Nat) :
    XCG.seq A dot F (.one y) (.one x0) j = (SCG.seq A (fun a b => dot (.one a) (.one b)) G y x0 j).map fun s => ⟨.one s.x, .one s.r, .one s.c, s.k⟩ := by
  induction j with
  | zero => simp [XCG.seq, SCG.seq, XCG.start, SCG.start, hF, XVec.copy, XVec.sub, XVec.conj, Except.map]
  | succ j ih =>
    rw [XCG.seq, ih, SCG.seq]
    cases SCG.seq A (fun a b => dot (.one a) (.one b)) G y x0 j with
    | error e => rfl
    | ok s =>
      simp only [Except.map, Except.bind, XCG.next, SCG.next, hF, XVec.conj, bind]
      cases A.npDiv s.k (A.abs (dot (.one s.c) (.one ((G s.c).conj A)))) with
      | error e => rfl
      | ok a =>
        simp only [XVec.scale, XVec.sub, XVec.add]
        cases A.pyDiv (A.abs (dot (.one (s.r.sub A ((G s.c).scale A a))) (.one ((s.r.sub A ((G s.c).scale A a)).conj A)))) s.k <;> rfl

theorem C74_cgls_one (dot dot' : XVec K → XVec K → K) (nrm : XVec K → K) (F F' : XVec K → XVec K) (G G' : SVec K → SVec K) (hF : ∀ x, F (.one x) = .one (G x)) (hF' : ∀ x, F' (.one x) = .one (G' x))
    (damp : K) (y x0 : SVec K) (j : Nat) :
    XLS.seq A dot dot' nrm F F' damp (.one y) (.one x0) j = (SLS.seq A (fun a b => dot (.one a) (.one b)) (fun a b => dot' (.one a) (.one b)) (fun a => nrm (.one a)) G G' damp y x0 j).map
      fun t => ⟨.one t.x, .one t.s, .one t.c, .one t.q, t.k, t.r1, t.r2⟩ := by
  induction j with
  | zero =>
    simp only [XLS.seq, SLS.seq, XLS.start, SLS.start, hF, hF', XVec.copy, XVec.sub, XVec.conj, XVec.scale, bind, Except.bind]
    cases A.pySq damp with
    | error e => rfl
    | ok d =>
      simp only
      cases A.pySq (nrm (.one (y.sub A (G (x0.copy A))))) <;> rfl
  | succ j ih =>
    rw [XLS.seq, ih, SLS.seq]
    simp only [bind, Except.bind]
    cases A.pySq damp with
    | error e => rfl
    | ok d =>
      simp only
      cases SLS.seq A (fun a b => dot (.one a) (.one b)) (fun a b => dot' (.one a) (.one b)) (fun a => nrm (.one a)) G G' damp y x0 j with
      | error e => rfl
      | ok t =>
        simp only [Except.map, Except.bind, XLS.next, SLS.next, hF, hF', XVec.conj, bind, XVec.scale, XVec.add, XVec.sub]
        cases A.npDiv t.k (A.add (dot' (.one t.q) (.one (t.q.conj A))) (A.mul d (dot (.one t.c) (.one (t.c.conj A))))) with
        | error e => rfl
        | ok a =>
          dsimp only
          cases A.pyDiv (A.abs (dot (.one ((G' (t.s.sub A (t.q.scale A (A.abs a)))).sub A ((t.x.add A (t.c.scale A (A.abs a))).scale A d)))
            (.one (((G' (t.s.sub A (t.q.scale A (A.abs a)))).sub A ((t.x.add A (t.c.scale A (A.abs a))).scale A d)).conj A)))) t.k with
          | error e => rfl
          | ok b =>
            dsimp only
            cases A.pySq (nrm (.one (t.s.sub A (t.q.scale A (A.abs a))))) <;> rfl

end

/-! ### cases -/

/-- a stack of two arrays on two ranks: three entries, and two entries that both ranks hold -/
def threeAndTwo : XLay := .stack [threeOnTwo, ⟨[2], .broadcast, 0, fun _ => 2, none⟩]

theorem threeAndTwo_wf : threeAndTwo.WF 2 := by
  refine ⟨by simp, fun L hL => ?_⟩
  rcases List.mem_cons.1 hL with rfl | hL
  · exact ⟨threeOnTwo_wf, rfl⟩
  · rcases List.mem_singleton.1 hL with rfl
    exact ⟨⟨by decide, fun h => by simp at h, fun _ h => by simp at h⟩, rfl⟩

/-- the same on one rank -/
def threeAndTwo' : XLay := .stack [threeOnOne, ⟨[2], .broadcast, 0, fun _ => 2, none⟩]

theorem threeAndTwo'_wf : threeAndTwo'.WF 1 := by
  refine ⟨by simp, fun L hL => ?_⟩
  rcases List.mem_cons.1 hL with rfl | hL
  · exact ⟨threeOnOne_wf, rfl⟩
  · rcases List.mem_singleton.1 hL with rfl
    exact ⟨⟨by decide, fun h => by simp at h, fun _ h => by simp at h⟩, rfl⟩

theorem copyOp_xacts (A : Arith K) {n : Nat} {J : Nat → Nat → K} {L : XLay} (hL : L.WF n) : XActs n J (fun _ => (copyOp A).mv) L L (XVec.copy A) :=
  ⟨fun _ h _ => XVec.fits_copy A h, fun _ h _ => (w_copy A hL h).always⟩

/-- `cg` on this stack with rounded integers: the products of the arrays are 10 and 4, one step -/
example (J : Nat → Nat → Int) :
    Always 2 (fun r => FCG.solve roughArith (env 2 J r) (copyOp roughArith) (XVec.part threeAndTwo 2 (.stack [⟨.real, [3, 1, 1]⟩, ⟨.real, [2, 0]⟩]) r)
        (XVec.part threeAndTwo 2 (.stack [⟨.real, [0, 0, 0]⟩, ⟨.real, [0, 0]⟩]) r) (some 1) 9)
      (fun r => .ok (XVec.part threeAndTwo 2 (.stack [⟨.real, [3, 1, 1]⟩, ⟨.real, [2, 0]⟩]) r, 1, [14, 0], [XVec.part threeAndTwo 2 (.stack [⟨.real, [3, 1, 1]⟩, ⟨.real, [2, 0]⟩]) r])) := by
  refine (C74_cg roughArith (y := .stack [⟨.real, [3, 1, 1]⟩, ⟨.real, [2, 0]⟩]) (x0 := .stack [⟨.real, [0, 0, 0]⟩, ⟨.real, [0, 0]⟩]) (m := 1) (s := fun i => if i = 0
      then ⟨.stack [⟨.real, [0, 0, 0]⟩, ⟨.real, [0, 0]⟩], .stack [⟨.real, [3, 1, 1]⟩, ⟨.real, [2, 0]⟩], .stack [⟨.real, [3, 1, 1]⟩, ⟨.real, [2, 0]⟩], 14⟩
      else ⟨.stack [⟨.real, [3, 1, 1]⟩, ⟨.real, [2, 0]⟩], .stack [⟨.real, [0, 0, 0]⟩, ⟨.real, [0, 0]⟩], .stack [⟨.real, [0, 0, 0]⟩, ⟨.real, [0, 0]⟩], 0⟩)
    threeAndTwo_wf (copyOp_xacts _ threeAndTwo_wf) (List.Forall₂.cons rfl (List.Forall₂.cons rfl List.Forall₂.nil)) (List.Forall₂.cons rfl (List.Forall₂.cons rfl List.Forall₂.nil)) trivial trivial (fun i hi => ?_) ?_).congr fun r _ => rfl
  · rcases Nat.le_one_iff_eq_zero_or_eq_one.1 hi with rfl | rfl
    · rfl
    · rfl
  · refine ⟨fun i hi => ?_, by decide⟩
    obtain rfl : i = 0 := by omega
    decide

/-- one rank and two ranks, with elementwise rounding but exact sums -/
example (J₁ J₂ : Nat → Nat → Int) (y x0 : XVec Int) (hy : y.Fits threeAndTwo') (hx : x0.Fits threeAndTwo') (niter damp tol : Int) :
    (∃ (x : XVec Int) (istop it : Nat) (r1 r2 : Int) (cost : List Int) (xs : List (XVec Int)),
      Always 1 (fun r => FCGLS.solve wholeArith wholeArith.normX (env 1 J₁ r) (copyOp wholeArith) (y.part threeAndTwo' 1 r) (x0.part threeAndTwo' 1 r) (some niter) damp tol)
        (fun r => .ok ⟨x.part threeAndTwo' 1 r, istop, it, r1, r2, cost, xs.map fun z => z.part threeAndTwo' 1 r⟩) ∧
      Always 2 (fun r => FCGLS.solve wholeArith wholeArith.normX (env 2 J₂ r) (copyOp wholeArith) (y.part threeAndTwo 2 r) (x0.part threeAndTwo 2 r) (some niter) damp tol)
        (fun r => .ok ⟨x.part threeAndTwo 2 r, istop, it, r1, r2, cost, xs.map fun z => z.part threeAndTwo 2 r⟩)) ∨
    ∃ e, Always 1 (fun r => FCGLS.solve wholeArith wholeArith.normX (env 1 J₁ r) (copyOp wholeArith) (y.part threeAndTwo' 1 r) (x0.part threeAndTwo' 1 r) (some niter) damp tol) (fun _ => .error e) ∧
      Always 2 (fun r => FCGLS.solve wholeArith wholeArith.normX (env 2 J₂ r) (copyOp wholeArith) (y.part threeAndTwo 2 r) (x0.part threeAndTwo 2 r) (some niter) damp tol) (fun _ => .error e) :=
  C74_cgls_layouts wholeArith wholeArith_free (by decide) (by decide) threeAndTwo'_wf threeAndTwo_wf threeAndTwo'_wf threeAndTwo_wf (List.Forall₂.cons rfl (List.Forall₂.cons rfl List.Forall₂.nil)) (List.Forall₂.cons rfl (List.Forall₂.cons rfl List.Forall₂.nil))
    (fun _ _ _ => rfl) (fun _ _ _ => rfl) (fun _ x _ _ => XVec.stored_copy wholeArith (fun _ _ => rfl) x) (copyOp_xacts _ threeAndTwo'_wf) (copyOp_xacts _ threeAndTwo_wf) (copyOp_xacts _ threeAndTwo'_wf) (copyOp_xacts _ threeAndTwo_wf)
    (fun _ _ _ => trivial) hy hx trivial trivial

end Verif

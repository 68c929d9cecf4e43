/-
  C70: with any arithmetic, the solvers compute on distributed arrays what the serial algorithms compute on the global vectors; the layout enters only through the order of
  summation in dot products and norms.
-/
import Verif.Proofs.BlockSolvers
import Verif.Props.C67

namespace Verif
open NDArray

variable {K : Type}

section
variable (A : Arith K) {n : Nat} {J : Nat → Nat → K} {L L' : Layout} {op : Nat → XOp K} {F F' : SVec K → SVec K} {y x0 : SVec K} {tol damp : K} {niter : Int} {m : Nat} {D D' : DType → Prop}

/-! ### CG -/

/-- `cg` makes the steps of the serial algorithm on the global vectors: it returns the parts of its iterate, the number of its steps, the norms of its residuals, and it
    passes its iterates to the callback -/
theorem C70_cg (hL : L.WF n) (hm : L.mask = none) (hop : ActsAs n J (fun r => (op r).mv) L L F D) (hy : y.v.length = L.gshape.prod) (hx : x0.v.length = L.gshape.prod) (dy : D y.dt) (dx : D x0.dt)
    {s : Nat → SCG K} (hs : ∀ i ≤ m, SCG.seq A (SVec.blockDot A L n) F y x0 i = .ok (s i)) (hst : StopsAt A niter tol (fun i => (s i).k) m) :
    Always n (fun r => FCG.solve A (env n J r) (op r) (y.part L n r) (x0.part L n r) (some niter) tol)
      (fun r => .ok ((s m).x.part L n r, m, (List.range (m + 1)).map (fun i => A.sqrt (s i).k), (List.range' 1 m).map fun i => (s i).x.part L n r)) :=
  (bcg_solve A hL hm hop hy hx dy dx hs hst).always

/-- if a division of the serial algorithm raises, then `cg` raises the same error on all ranks -/
theorem C70_cg_error (hL : L.WF n) (hm : L.mask = none) (hop : ActsAs n J (fun r => (op r).mv) L L F D) (hy : y.v.length = L.gshape.prod) (hx : x0.v.length = L.gshape.prod) (dy : D y.dt) (dx : D x0.dt)
    {s : Nat → SCG K} {e : Err} (hs : ∀ i ≤ m, SCG.seq A (SVec.blockDot A L n) F y x0 i = .ok (s i)) (he : SCG.seq A (SVec.blockDot A L n) F y x0 (m + 1) = .error e)
    (hst : ∀ i ≤ m, (i : Int) < niter ∧ A.gt (s i).k tol = true) :
    Always n (fun r => FCG.solve A (env n J r) (op r) (y.part L n r) (x0.part L n r) (some niter) tol) (fun _ => .error e) :=
  (bcg_solve_error A hL hm hop hy hx dy dx hs he hst).always

/-- these are all cases: the serial algorithm stops or raises -/
theorem C70_cg_cases (dot : SVec K → SVec K → K) (F : SVec K → SVec K) (y x0 : SVec K) (niter : Int) (tol : K) :
    (∃ (m : Nat) (s : Nat → SCG K), (∀ i ≤ m, SCG.seq A dot F y x0 i = .ok (s i)) ∧ StopsAt A niter tol (fun i => (s i).k) m) ∨
    ∃ (m : Nat) (s : Nat → SCG K) (e : Err), (∀ i ≤ m, SCG.seq A dot F y x0 i = .ok (s i)) ∧ SCG.seq A dot F y x0 (m + 1) = .error e ∧
      ∀ i ≤ m, (i : Int) < niter ∧ A.gt (s i).k tol = true :=
  stops_or_fails A (SCG.seq A dot F y x0) SCG.k _ rfl niter tol

/-- the numbers of ranks and the layouts may differ: if dot products do not depend on the order of summation, `cg` computes the same numbers, whatever else the arithmetic does -/
theorem C70_cg_layouts (hA : OrderFree A) {n₁ n₂ : Nat} {J₁ J₂ : Nat → Nat → K} {L₁ L₂ : Layout} {op₁ op₂ : Nat → XOp K} (hn₁ : 0 < n₁) (hn₂ : 0 < n₂)
    (hL₁ : L₁.WF n₁) (hL₂ : L₂.WF n₂) (hm₁ : L₁.mask = none) (hm₂ : L₂.mask = none) (hN : L₁.gshape.prod = L₂.gshape.prod)
    (hc₁ : L₁.part.isBroadcast = true → ∀ dt a, A.cast dt (A.cast dt a) = A.cast dt a) (hc₂ : L₂.part.isBroadcast = true → ∀ dt a, A.cast dt (A.cast dt a) = A.cast dt a)
    (hop₁ : ActsAs n₁ J₁ (fun r => (op₁ r).mv) L₁ L₁ F D) (hop₂ : ActsAs n₂ J₂ (fun r => (op₂ r).mv) L₂ L₂ F D) (hy : y.v.length = L₁.gshape.prod) (hx : x0.v.length = L₁.gshape.prod) (dy : D y.dt) (dx : D x0.dt) :
    (∃ (x : SVec K) (it : Nat) (cost : List K) (xs : List (SVec K)),
      Always n₁ (fun r => FCG.solve A (env n₁ J₁ r) (op₁ r) (y.part L₁ n₁ r) (x0.part L₁ n₁ r) (some niter) tol) (fun r => .ok (x.part L₁ n₁ r, it, cost, xs.map fun z => z.part L₁ n₁ r)) ∧
      Always n₂ (fun r => FCG.solve A (env n₂ J₂ r) (op₂ r) (y.part L₂ n₂ r) (x0.part L₂ n₂ r) (some niter) tol) (fun r => .ok (x.part L₂ n₂ r, it, cost, xs.map fun z => z.part L₂ n₂ r))) ∨
    ∃ e, Always n₁ (fun r => FCG.solve A (env n₁ J₁ r) (op₁ r) (y.part L₁ n₁ r) (x0.part L₁ n₁ r) (some niter) tol) (fun _ => .error e) ∧
      Always n₂ (fun r => FCG.solve A (env n₂ J₂ r) (op₂ r) (y.part L₂ n₂ r) (x0.part L₂ n₂ r) (some niter) tol) (fun _ => .error e) := by
  obtain ⟨t, ht⟩ := blockDot_free A hA
  have hi : L₁.part.isBroadcast = true ∨ L₂.part.isBroadcast = true → ∀ dt a, A.cast dt (A.cast dt a) = A.cast dt a := fun h => h.elim hc₁ hc₂
  have e := fun j => (scg_seq_congr A (N := L₁.gshape.prod) hop₁.length (dot₂ := SVec.blockDot A L₂ n₂) (P := fun x => L₁.part.isBroadcast = true ∨ L₂.part.isBroadcast = true → x.Stored A)
    (fun f x h => SVec.stored_map A (hi h) f x) (fun f x y h => SVec.stored_zip A (hi h) f x y)
    (fun x y hx hy sx sy => (ht n₁ L₁ hn₁ hL₁ x y hx hy (fun h => sx (.inl h)) (fun h => sy (.inl h))).trans
      (ht n₂ L₂ hn₂ hL₂ x y (hN ▸ hx) (hN ▸ hy) (fun h => sx (.inr h)) (fun h => sy (.inr h))).symm) hy hx dy dx j).1
  rcases C70_cg_cases A (SVec.blockDot A L₁ n₁) F y x0 niter tol with ⟨m, s, hs, hst⟩ | ⟨m, s, er, hs, he, hst⟩
  · refine .inl ⟨(s m).x, m, (List.range (m + 1)).map (fun i => A.sqrt (s i).k), (List.range' 1 m).map fun i => (s i).x, ?_, ?_⟩
    · exact (C70_cg A hL₁ hm₁ hop₁ hy hx dy dx hs hst).congr fun r _ => by simp
    · exact (C70_cg A hL₂ hm₂ hop₂ (hN ▸ hy) (hN ▸ hx) dy dx (fun i hi => (e i).symm.trans (hs i hi)) hst).congr fun r _ => by simp
  · exact .inr ⟨er, C70_cg_error A hL₁ hm₁ hop₁ hy hx dy dx hs he hst, C70_cg_error A hL₂ hm₂ hop₂ (hN ▸ hy) (hN ▸ hx) dy dx (fun i hi => (e i).symm.trans (hs i hi)) ((e _).symm.trans he) hst⟩

/-! ### CGLS -/

/-- `cgls` likewise, with models in the layout `L` and data in the layout `L'` -/
theorem C70_cgls (hL : L.WF n) (hm : L.mask = none) (hL' : L'.WF n) (hm' : L'.mask = none) (hop : ActsAs n J (fun r => (op r).mv) L L' F D)
    (hop' : ActsAs n J (fun r => (op r).rmv) L' L F' D') (hD : ∀ s : SVec K, s.v.length = L'.gshape.prod → D' s.dt → D (F' s).dt) (hy : y.v.length = L'.gshape.prod) (hx : x0.v.length = L.gshape.prod) (dy : D' y.dt) (dx : D x0.dt) {t : Nat → SLS K}
    (hs : ∀ i ≤ m, SLS.seq A (SVec.blockDot A L n) (SVec.blockDot A L' n) (SVec.blockNorm A L' n) F F' damp y x0 i = .ok (t i)) (hst : StopsAt A niter tol (fun i => (t i).k) m) :
    Always n (fun r => FCGLS.solve A A.normX (env n J r) (op r) (y.part L' n r) (x0.part L n r) (some niter) damp tol)
      (fun r => .ok { x := (t m).x.part L n r, istop := if A.lt (t m).k tol then 1 else 2, iiter := m, r1norm := (t m).k, r2norm := (t m).r2,
                      cost := (List.range (m + 1)).map fun i => (t i).r1, trace := (List.range' 1 m).map fun i => (t i).x.part L n r }) :=
  (bls_solve A hL hm hL' hm' hop hop' hD hy hx dy dx hs hst).always

/-- if step `m + 1` of the serial algorithm raises, then `cgls` raises the same error on all ranks -/
theorem C70_cgls_error (hL : L.WF n) (hm : L.mask = none) (hL' : L'.WF n) (hm' : L'.mask = none) (hop : ActsAs n J (fun r => (op r).mv) L L' F D)
    (hop' : ActsAs n J (fun r => (op r).rmv) L' L F' D') (hD : ∀ s : SVec K, s.v.length = L'.gshape.prod → D' s.dt → D (F' s).dt) (hy : y.v.length = L'.gshape.prod) (hx : x0.v.length = L.gshape.prod) (dy : D' y.dt) (dx : D x0.dt) {t : Nat → SLS K} {e : Err}
    (hs : ∀ i ≤ m, SLS.seq A (SVec.blockDot A L n) (SVec.blockDot A L' n) (SVec.blockNorm A L' n) F F' damp y x0 i = .ok (t i))
    (he : SLS.seq A (SVec.blockDot A L n) (SVec.blockDot A L' n) (SVec.blockNorm A L' n) F F' damp y x0 (m + 1) = .error e)
    (hst : ∀ i ≤ m, (i : Int) < niter ∧ A.gt (t i).k tol = true) :
    Always n (fun r => FCGLS.solve A A.normX (env n J r) (op r) (y.part L' n r) (x0.part L n r) (some niter) damp tol) (fun _ => .error e) :=
  (bls_solve_error A hL hm hL' hm' hop hop' hD hy hx dy dx hs he hst).always

/-- the same if its initialisation raises -/
theorem C70_cgls_setup_error (hL : L.WF n) (hm : L.mask = none) (hL' : L'.WF n) (hm' : L'.mask = none) (hop : ActsAs n J (fun r => (op r).mv) L L' F D)
    (hop' : ActsAs n J (fun r => (op r).rmv) L' L F' D') (hD : ∀ s : SVec K, s.v.length = L'.gshape.prod → D' s.dt → D (F' s).dt) (hy : y.v.length = L'.gshape.prod) (hx : x0.v.length = L.gshape.prod) (dy : D' y.dt) (dx : D x0.dt) {e : Err}
    (he : SLS.seq A (SVec.blockDot A L n) (SVec.blockDot A L' n) (SVec.blockNorm A L' n) F F' damp y x0 0 = .error e) :
    Always n (fun r => FCGLS.solve A A.normX (env n J r) (op r) (y.part L' n r) (x0.part L n r) (some niter) damp tol) (fun _ => .error e) :=
  (bls_solve_setup_error A hL hm hL' hm' hop hop' hD hy hx dy dx he).always

/-- these are all cases -/
theorem C70_cgls_cases (dot dot' : SVec K → SVec K → K) (nrm : SVec K → K) (F F' : SVec K → SVec K) (damp : K) (y x0 : SVec K) (niter : Int) (tol : K) :
    (∃ e, SLS.seq A dot dot' nrm F F' damp y x0 0 = .error e) ∨
    (∃ (m : Nat) (t : Nat → SLS K), (∀ i ≤ m, SLS.seq A dot dot' nrm F F' damp y x0 i = .ok (t i)) ∧ StopsAt A niter tol (fun i => (t i).k) m) ∨
    ∃ (m : Nat) (t : Nat → SLS K) (e : Err), (∀ i ≤ m, SLS.seq A dot dot' nrm F F' damp y x0 i = .ok (t i)) ∧ SLS.seq A dot dot' nrm F F' damp y x0 (m + 1) = .error e ∧
      ∀ i ≤ m, (i : Int) < niter ∧ A.gt (t i).k tol = true := by
  cases h : SLS.seq A dot dot' nrm F F' damp y x0 0 with
  | error e => exact .inl ⟨e, rfl⟩
  | ok t => exact .inr (stops_or_fails A (SLS.seq A dot dot' nrm F F' damp y x0) SLS.k t h niter tol)

/-- the layouts matter only through the order of summation -/
theorem C70_cgls_layouts (hA : OrderFree A) {n₁ n₂ : Nat} {J₁ J₂ : Nat → Nat → K} {L₁ L₂ L₁' L₂' : Layout} {op₁ op₂ : Nat → XOp K} (hn₁ : 0 < n₁) (hn₂ : 0 < n₂)
    (hL₁ : L₁.WF n₁) (hL₂ : L₂.WF n₂) (hm₁ : L₁.mask = none) (hm₂ : L₂.mask = none) (hL₁' : L₁'.WF n₁) (hL₂' : L₂'.WF n₂) (hm₁' : L₁'.mask = none) (hm₂' : L₂'.mask = none)
    (hN : L₁.gshape.prod = L₂.gshape.prod) (hN' : L₁'.gshape.prod = L₂'.gshape.prod)
    (hc₁ : L₁.part.isBroadcast = true ∨ L₁'.part.isBroadcast = true → ∀ dt a, A.cast dt (A.cast dt a) = A.cast dt a) (hc₂ : L₂.part.isBroadcast = true ∨ L₂'.part.isBroadcast = true → ∀ dt a, A.cast dt (A.cast dt a) = A.cast dt a)
    (hq : L₁'.part.isBroadcast = true ∨ L₂'.part.isBroadcast = true → ∀ x : SVec K, x.v.length = L₁.gshape.prod → D x.dt → (F x).Stored A)
    (hop₁ : ActsAs n₁ J₁ (fun r => (op₁ r).mv) L₁ L₁' F D) (hop₂ : ActsAs n₂ J₂ (fun r => (op₂ r).mv) L₂ L₂' F D)
    (hop₁' : ActsAs n₁ J₁ (fun r => (op₁ r).rmv) L₁' L₁ F' D') (hop₂' : ActsAs n₂ J₂ (fun r => (op₂ r).rmv) L₂' L₂ F' D') (hD : ∀ s : SVec K, s.v.length = L₁'.gshape.prod → D' s.dt → D (F' s).dt) (hy : y.v.length = L₁'.gshape.prod) (hx : x0.v.length = L₁.gshape.prod) (dy : D' y.dt) (dx : D x0.dt) :
    (∃ (x : SVec K) (istop it : Nat) (r1 r2 : K) (cost : List K) (xs : List (SVec K)),
      Always n₁ (fun r => FCGLS.solve A A.normX (env n₁ J₁ r) (op₁ r) (y.part L₁' n₁ r) (x0.part L₁ n₁ r) (some niter) damp tol)
        (fun r => .ok ⟨x.part L₁ n₁ r, istop, it, r1, r2, cost, xs.map fun z => z.part L₁ n₁ r⟩) ∧
      Always n₂ (fun r => FCGLS.solve A A.normX (env n₂ J₂ r) (op₂ r) (y.part L₂' n₂ r) (x0.part L₂ n₂ r) (some niter) damp tol)
        (fun r => .ok ⟨x.part L₂ n₂ r, istop, it, r1, r2, cost, xs.map fun z => z.part L₂ n₂ r⟩)) ∨
    ∃ e, Always n₁ (fun r => FCGLS.solve A A.normX (env n₁ J₁ r) (op₁ r) (y.part L₁' n₁ r) (x0.part L₁ n₁ r) (some niter) damp tol) (fun _ => .error e) ∧
      Always n₂ (fun r => FCGLS.solve A A.normX (env n₂ J₂ r) (op₂ r) (y.part L₂' n₂ r) (x0.part L₂ n₂ r) (some niter) damp tol) (fun _ => .error e) := by
  obtain ⟨t, ht⟩ := blockDot_free A hA
  obtain ⟨u, hu⟩ := blockNorm_free A hA
  let B := L₁.part.isBroadcast = true ∨ L₁'.part.isBroadcast = true ∨ L₂.part.isBroadcast = true ∨ L₂'.part.isBroadcast = true
  let B' := L₁'.part.isBroadcast = true ∨ L₂'.part.isBroadcast = true
  have hi : B → ∀ dt a, A.cast dt (A.cast dt a) = A.cast dt a := fun h => by
    rcases h with h | h | h | h
    exacts [hc₁ (.inl h), hc₁ (.inr h), hc₂ (.inl h), hc₂ (.inr h)]
  have e := fun j => (sls_seq_congr A (damp := damp) (N := L₁.gshape.prod) (M := L₁'.gshape.prod) hop₁.length hop₁'.length hD (dot₂ := SVec.blockDot A L₂ n₂) (dot₂' := SVec.blockDot A L₂' n₂) (nrm₂ := SVec.blockNorm A L₂' n₂)
    (P := fun x => B → x.Stored A) (P' := fun x => B' → x.Stored A) (fun f x h => SVec.stored_map A (hi h) f x) (fun f x y h => SVec.stored_zip A (hi h) f x y)
    (fun x h h' => h (by rcases h' with h' | h' <;> simp [B, h'])) (fun x hx hd h => hq h x hx hd)
    (fun x y hx hy sx sy => (ht n₁ L₁ hn₁ hL₁ x y hx hy (fun h => sx (.inl h)) (fun h => sy (.inl h))).trans
      (ht n₂ L₂ hn₂ hL₂ x y (hN ▸ hx) (hN ▸ hy) (fun h => sx (.inr (.inr (.inl h)))) (fun h => sy (.inr (.inr (.inl h))))).symm)
    (fun x y hx hy sx sy => (ht n₁ L₁' hn₁ hL₁' x y hx hy (fun h => sx (.inl h)) (fun h => sy (.inl h))).trans
      (ht n₂ L₂' hn₂ hL₂' x y (hN' ▸ hx) (hN' ▸ hy) (fun h => sx (.inr h)) (fun h => sy (.inr h))).symm)
    (fun x hx sx => (hu n₁ L₁' hn₁ hL₁' x hx (fun h => sx (.inl h))).trans (hu n₂ L₂' hn₂ hL₂' x (hN' ▸ hx) (fun h => sx (.inr h))).symm) hy hx dy dx j).1
  rcases C70_cgls_cases A (SVec.blockDot A L₁ n₁) (SVec.blockDot A L₁' n₁) (SVec.blockNorm A L₁' n₁) F F' damp y x0 niter tol with ⟨er, he⟩ | ⟨m, s, hs, hst⟩ | ⟨m, s, er, hs, he, hst⟩
  · exact .inr ⟨er, C70_cgls_setup_error A hL₁ hm₁ hL₁' hm₁' hop₁ hop₁' hD hy hx dy dx he, C70_cgls_setup_error A hL₂ hm₂ hL₂' hm₂' hop₂ hop₂' (hN' ▸ hD) (hN' ▸ hy) (hN ▸ hx) dy dx ((e 0).symm.trans he)⟩
  · refine .inl ⟨(s m).x, if A.lt (s m).k tol then 1 else 2, m, (s m).k, (s m).r2, (List.range (m + 1)).map (fun i => (s i).r1), (List.range' 1 m).map fun i => (s i).x, ?_, ?_⟩
    · exact (C70_cgls A hL₁ hm₁ hL₁' hm₁' hop₁ hop₁' hD hy hx dy dx hs hst).congr fun r _ => by simp
    · exact (C70_cgls A hL₂ hm₂ hL₂' hm₂' hop₂ hop₂' (hN' ▸ hD) (hN' ▸ hy) (hN ▸ hx) dy dx (fun i hi => (e i).symm.trans (hs i hi)) hst).congr fun r _ => by simp
  · exact .inr ⟨er, C70_cgls_error A hL₁ hm₁ hL₁' hm₁' hop₁ hop₁' hD hy hx dy dx hs he hst,
      C70_cgls_error A hL₂ hm₂ hL₂' hm₂' hop₂ hop₂' (hN' ▸ hD) (hN' ▸ hy) (hN ▸ hx) dy dx (fun i hi => (e i).symm.trans (hs i hi)) ((e _).symm.trans he) hst⟩

end

/-! ### the order of summation matters -/

/-- three entries on one rank -/
def threeOnOne : Layout := ⟨[3], .scatter, 0, fun r => if r = 0 then 3 else 0, none⟩

/-- three entries on two ranks -/
def threeOnTwo : Layout := ⟨[3], .scatter, 0, fun r => if r = 0 then 1 else if r = 1 then 2 else 0, none⟩

theorem threeOnOne_wf : threeOnOne.WF 1 := ⟨by decide, fun _ => by decide, fun _ h => by simp [threeOnOne] at h⟩
theorem threeOnTwo_wf : threeOnTwo.WF 2 := ⟨by decide, fun _ => by decide, fun _ h => by simp [threeOnTwo] at h⟩

/-- numbers of three binary digits: from 8 on, only even numbers can be represented -/
def rough (x : Int) : Int := if x.natAbs < 8 then x else x - x % 2

/-- integers rounded in this way; sums from left to right -/
def roughArith : Arith Int where
  cast _ x := x
  zero := 0
  neg x := -x
  conj x := x
  abs x := x.natAbs
  sqrt x := x
  add x y := rough (x + y)
  mul x y := rough (x * y)
  npDiv x y := .ok (x / y)
  pyDiv x y := if y = 0 then .error .zeroDiv else .ok (x / y)
  pySq x := .ok (rough (x * x))
  dot a b := (List.zipWith (fun x y => rough (x * y)) a b).foldl (fun x y => rough (x + y)) 0
  sumSq l := (l.map fun x => rough (x * x)).foldl (fun x y => rough (x + y)) 0
  root x := x
  stackNorm l := l.foldl (fun x y => rough (x + y)) 0
  sum l := l.foldl (fun x y => rough (x + y)) 0
  gt x y := x > y
  lt x y := x < y

/-- the operator that copies its argument acts as `copy` -/
theorem copyOp_actsAs (A : Arith K) {n : Nat} {J : Nat → Nat → K} {L : Layout} (hL : L.WF n) (hm : L.mask = none) : ActsAs n J (fun _ => (copyOp A).mv) L L (SVec.copy A) :=
  ⟨fun _ h _ => SVec.length_copy A h, fun _ h _ => (p_copy A hL hm h).always⟩

/-- with rounding, the number of ranks can decide whether `cg` stops: the identity with data (3, 1, 1), start vector 0 and tol = 9.  On one rank the square of the residual is
    (9 + 1) + 1 = 8, and `cg` returns 0 without a step.  On two ranks it is 9 + (1 + 1) = 10, and `cg` returns the solution. -/
theorem C70_order_matters (J₁ J₂ : Nat → Nat → Int) :
    Always 1 (fun r => FCG.solve roughArith (env 1 J₁ r) (copyOp roughArith) ((⟨.real, [3, 1, 1]⟩ : SVec Int).part threeOnOne 1 r) ((⟨.real, [0, 0, 0]⟩ : SVec Int).part threeOnOne 1 r) (some 1) 9)
      (fun r => .ok ((⟨.real, [0, 0, 0]⟩ : SVec Int).part threeOnOne 1 r, 0, [8], [])) ∧
    Always 2 (fun r => FCG.solve roughArith (env 2 J₂ r) (copyOp roughArith) ((⟨.real, [3, 1, 1]⟩ : SVec Int).part threeOnTwo 2 r) ((⟨.real, [0, 0, 0]⟩ : SVec Int).part threeOnTwo 2 r) (some 1) 9)
      (fun r => .ok ((⟨.real, [3, 1, 1]⟩ : SVec Int).part threeOnTwo 2 r, 1, [10, 0], [(⟨.real, [3, 1, 1]⟩ : SVec Int).part threeOnTwo 2 r])) := by
  constructor
  · refine (C70_cg roughArith (m := 0) (s := fun _ => ⟨⟨.real, [0, 0, 0]⟩, ⟨.real, [3, 1, 1]⟩, ⟨.real, [3, 1, 1]⟩, 8⟩) threeOnOne_wf rfl (copyOp_actsAs _ threeOnOne_wf rfl) rfl rfl trivial trivial (fun i hi => ?_) ?_).congr
      fun r _ => rfl
    · obtain rfl : i = 0 := by omega
      rfl
    · exact ⟨fun i hi => by omega, by decide⟩
  · refine (C70_cg roughArith (m := 1) (s := fun i => if i = 0 then ⟨⟨.real, [0, 0, 0]⟩, ⟨.real, [3, 1, 1]⟩, ⟨.real, [3, 1, 1]⟩, 10⟩ else ⟨⟨.real, [3, 1, 1]⟩, ⟨.real, [0, 0, 0]⟩, ⟨.real, [0, 0, 0]⟩, 0⟩)
      threeOnTwo_wf rfl (copyOp_actsAs _ threeOnTwo_wf rfl) rfl rfl trivial trivial (fun i hi => ?_) ?_).congr fun r _ => rfl
    · rcases Nat.le_one_iff_eq_zero_or_eq_one.1 hi with rfl | rfl
      · rfl
      · rfl
    · refine ⟨fun i hi => ?_, by decide⟩
      obtain rfl : i = 0 := by omega
      decide

/-! ### cases -/

/-- integers rounded in the elementwise operations but with exact dot products, which do not depend on the order of summation -/
def wholeArith : Arith Int where
  cast _ x := x
  zero := 0
  neg x := -x
  conj x := x
  abs x := x.natAbs
  sqrt x := x
  add x y := rough (x + y)
  mul x y := rough (x * y)
  npDiv x y := .ok (x / y)
  pyDiv x y := if y = 0 then .error .zeroDiv else .ok (x / y)
  pySq x := .ok (x * x)
  dot a b := (List.zipWith (· * ·) a b).sum
  sumSq l := (l.map fun x => x * x).sum
  root x := x
  stackNorm l := l.sum
  sum l := l.sum
  gt x y := x > y
  lt x y := x < y

theorem wholeArith_free : OrderFree wholeArith := by
  refine ⟨⟨fun s => (s.map fun p : Int × Int => p.1 * p.2).sum, fun bs h => ?_⟩, ⟨fun s => (s.map fun x : Int => x * x).sum, fun bs => ?_⟩⟩
  · clear h
    beta_reduce
    rw [Multiset.map_coe, Multiset.sum_coe, List.map_flatMap]
    show (bs.map fun b => (List.zipWith (· * ·) b.1 b.2).sum).sum = _
    induction bs with
    | nil => rfl
    | cons b bs ih =>
      rw [List.map_cons, List.sum_cons, List.flatMap_cons, List.sum_append, ih]
      congr 1
      rw [List.zip, List.map_zipWith]
  · beta_reduce
    rw [Multiset.map_coe, Multiset.sum_coe]
    show (bs.map fun l => (l.map fun x => x * x).sum).sum = _
    induction bs with
    | nil => rfl
    | cons b bs ih => rw [List.map_cons, List.sum_cons, List.flatten_cons, List.map_append, List.sum_append, ih]

/-- one rank and two ranks, with elementwise rounding but exact sums -/
example (J₁ J₂ : Nat → Nat → Int) (y x0 : SVec Int) (hy : y.v.length = 3) (hx : x0.v.length = 3) (niter tol : Int) :
    (∃ (x : SVec Int) (it : Nat) (cost : List Int) (xs : List (SVec Int)),
      Always 1 (fun r => FCG.solve wholeArith (env 1 J₁ r) (copyOp wholeArith) (y.part threeOnOne 1 r) (x0.part threeOnOne 1 r) (some niter) tol)
        (fun r => .ok (x.part threeOnOne 1 r, it, cost, xs.map fun z => z.part threeOnOne 1 r)) ∧
      Always 2 (fun r => FCG.solve wholeArith (env 2 J₂ r) (copyOp wholeArith) (y.part threeOnTwo 2 r) (x0.part threeOnTwo 2 r) (some niter) tol)
        (fun r => .ok (x.part threeOnTwo 2 r, it, cost, xs.map fun z => z.part threeOnTwo 2 r))) ∨
    ∃ e, Always 1 (fun r => FCG.solve wholeArith (env 1 J₁ r) (copyOp wholeArith) (y.part threeOnOne 1 r) (x0.part threeOnOne 1 r) (some niter) tol) (fun _ => .error e) ∧
      Always 2 (fun r => FCG.solve wholeArith (env 2 J₂ r) (copyOp wholeArith) (y.part threeOnTwo 2 r) (x0.part threeOnTwo 2 r) (some niter) tol) (fun _ => .error e) :=
  C70_cg_layouts wholeArith wholeArith_free (by decide) (by decide) threeOnOne_wf threeOnTwo_wf rfl rfl rfl (fun _ _ _ => rfl) (fun _ _ _ => rfl)
    (copyOp_actsAs _ threeOnOne_wf rfl) (copyOp_actsAs _ threeOnTwo_wf rfl) hy hx trivial trivial

/-- `cgls` with the rounded integers, on two ranks: one step from 0 to (3, 1, 1) -/
example (J : Nat → Nat → Int) : Always 2 (fun r => FCGLS.solve roughArith roughArith.normX (env 2 J r) (copyOp roughArith) ((⟨.real, [3, 1, 1]⟩ : SVec Int).part threeOnTwo 2 r)
      ((⟨.real, [0, 0, 0]⟩ : SVec Int).part threeOnTwo 2 r) (some 5) 0 9)
    (fun r => .ok { x := (⟨.real, [3, 1, 1]⟩ : SVec Int).part threeOnTwo 2 r, istop := 1, iiter := 1, r1norm := 0, r2norm := 0, cost := [10, 0],
                    trace := [(⟨.real, [3, 1, 1]⟩ : SVec Int).part threeOnTwo 2 r] }) := by
  refine (C70_cgls roughArith (m := 1) (t := fun i => if i = 0 then ⟨⟨.real, [0, 0, 0]⟩, ⟨.real, [3, 1, 1]⟩, ⟨.real, [3, 1, 1]⟩, ⟨.real, [3, 1, 1]⟩, 10, 10, 100⟩
      else ⟨⟨.real, [3, 1, 1]⟩, ⟨.real, [0, 0, 0]⟩, ⟨.real, [0, 0, 0]⟩, ⟨.real, [0, 0, 0]⟩, 0, 0, 0⟩)
    threeOnTwo_wf rfl threeOnTwo_wf rfl (copyOp_actsAs _ threeOnTwo_wf rfl) (copyOp_actsAs _ threeOnTwo_wf rfl) (fun _ _ _ => trivial) rfl rfl trivial trivial (fun i hi => ?_) ?_).congr fun r _ => rfl
  · rcases Nat.le_one_iff_eq_zero_or_eq_one.1 hi with rfl | rfl
    · rfl
    · rfl
  · refine ⟨fun i hi => ?_, by decide⟩
    obtain rfl : i = 0 := by omega
    decide

/-- division by zero: with data 0 and tol = -1 the first step divides 0 by 0, and all ranks raise ZeroDivisionError -/
example (J : Nat → Nat → Int) : Always 2 (fun r => FCG.solve roughArith (env 2 J r) (copyOp roughArith) ((⟨.real, [0, 0, 0]⟩ : SVec Int).part threeOnTwo 2 r)
    ((⟨.real, [0, 0, 0]⟩ : SVec Int).part threeOnTwo 2 r) (some 5) (-1)) (fun _ => .error .zeroDiv) := by
  refine C70_cg_error roughArith (m := 0) (s := fun _ => ⟨⟨.real, [0, 0, 0]⟩, ⟨.real, [0, 0, 0]⟩, ⟨.real, [0, 0, 0]⟩, 0⟩) threeOnTwo_wf rfl (copyOp_actsAs _ threeOnTwo_wf rfl) rfl rfl trivial trivial (fun i hi => ?_) rfl
    fun i hi => ?_
  · obtain rfl : i = 0 := by omega
    rfl
  · obtain rfl : i = 0 := by omega
    decide

end Verif

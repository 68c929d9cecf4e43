/-
  C88: with rounding errors, the residual norms that `cg` and `cgls` report are those of the vectors that they return, up to small errors.
-/
import Verif.Proofs.Gap
import Verif.Props.C71
import Verif.Props.C78

namespace Verif

variable {K : Type} [RCLike K] {u : ℝ} {A : Arith K} {n b k m : Nat} {J : Nat → Nat → K} {L L' : Layout} {op : Nat → XOp K} {F F' : SVec K → SVec K} {D D' : DType → Prop} {y x0 : SVec K} {niter : Int}
  {tol damp : K} {M : Nat → Nat → K}

theorem getD_map_range {α : Type} (f : Nat → α) (d : α) {N j : Nat} (hj : j < N) : ((List.range N).map f).getD j d = f j := by simp [List.getD_eq_getElem?_getD, hj]

theorem near_of {κ : K} {ρ τ e g : ℝ} (he : 0 ≤ e) (h : ‖κ - ((ρ : ℝ) : K)‖ ≤ e * ρ) (h' : |ρ - τ| ≤ g) : ‖κ - ((τ : ℝ) : K)‖ ≤ e * τ + (1 + e) * g := by
  have h1 : ‖((ρ : ℝ) : K) - ((τ : ℝ) : K)‖ ≤ g := by rw [← RCLike.ofReal_sub, RCLike.norm_ofReal]; exact h'
  have h2 := norm_sub_le_norm_sub_add_norm_sub κ ((ρ : ℝ) : K) ((τ : ℝ) : K)
  have h3 : e * ρ ≤ e * (τ + g) := mul_le_mul_of_nonneg_left (by linarith [(abs_le.1 h').2]) he
  linarith

theorem Steps.norms {N N' : Nat} {x s c : Nat → SVec K} {a : Nat → K} {X : Nat → ℝ} (h : Steps A F D N N' y x0 m x s c a) (hA : SolverRounding A u) (hu : errBound u 4 ≤ 1 / 2)
    (hD : ∀ dt, D dt → Stores A u dt) (hD' : ∀ dt, D' dt → Stores A u dt)
    (hF : ∀ v : SVec K, v.v.length = N → D v.dt → (F v).v.length = N') (hM : MulUpTo u k D D' F M N' N) (hy : y.v.length = N') (hx : x0.v.length = N) (dy : D' y.dt) (dx : D x0.dt) {i : Nat} (hi : i ≤ m)
    (hX : ∀ l ≤ i, ∀ j < N, ‖(x l).v.getD j 0‖ ≤ X j) :
    |l2 (s i).v - l2 (residual M N' N y.v (x i).v)| ≤ 12 * errBound u ((k + 5) * (i + 1)) * l2 (scaleOf M N' N y.v X) := by
  have h' : Steps A F D N N' y x0 i x s c a := ⟨h.x_zero, h.s_zero, fun l hl => h.x_succ l (by omega), fun l hl => h.s_succ l (by omega), fun l hl => h.c_len l (by omega), fun l hl => h.c_dt l (by omega)⟩
  refine l2_near ((h.facts hF hy hx dx i hi).2.1) (by simp [residual]) (by simp [scaleOf]) (mul_nonneg (by norm_num) (errBound_nonneg hA.nonneg _)) fun j hj => ?_
  rw [residual, scaleOf, getD_map_range _ _ hj, getD_map_range _ _ hj, list_range_sum]
  exact h'.gap hA hu hD hD' hF hM hy hx dy dx hX hj i le_rfl

section cg
variable (hA : SolverRounding A u) (hu : errBound u 4 ≤ 1 / 2) (hL : L.WF n) (hm : L.mask = none) (hn : 0 < n) (hD : ∀ dt, D dt → Stores A u dt)
  (hc : L.part.isBroadcast = true → ∀ dt a, A.cast dt (A.cast dt a) = A.cast dt a) (hb : ∀ z : SVec K, z.v.length = L.gshape.prod → ∀ q < n, (z.block A L n q).length ≤ b)
  (hop : ActsAs n J (fun r => (op r).mv) L L F D) (hM : MulUpTo u k D D F M L.gshape.prod L.gshape.prod) (hy : y.v.length = L.gshape.prod) (hx : x0.v.length = L.gshape.prod) (dy : D y.dt) (dx : D x0.dt)
  {s : Nat → SCG K} (hs : ∀ i ≤ m, SCG.seq A (SVec.blockDot A L n) F y x0 i = .ok (s i)) (hst : StopsAt A niter tol (fun i => (s i).k) m)
include hA hu hL hn hD hc hb hop hM hy hx dy dx hs

theorem cg_norms {i : Nat} (hi : i ≤ m) {X : Nat → ℝ} (hX : ∀ l ≤ i, ∀ j < L.gshape.prod, ‖(s l).x.v.getD j 0‖ ≤ X j) :
    ∃ t : ℝ, 0 ≤ t ∧ (s i).k = (t : K) ∧ |t - l2 (s i).r.v ^ 2| ≤ errBound u (b + n + 1) * l2 (s i).r.v ^ 2 ∧
      |l2 (s i).r.v - l2 (residual M L.gshape.prod L.gshape.prod y.v (s i).x.v)| ≤ 12 * errBound u ((k + 5) * (i + 1)) * l2 (scaleOf M L.gshape.prod L.gshape.prod y.v X) := by
  obtain ⟨⟨a, h1⟩, h2⟩ := scg_steps hop.length hy hx dy dx hs
  obtain ⟨h3, v, w, h4⟩ := h2 i hi
  obtain ⟨-, h5, -, h6⟩ := h1.facts hop.length hy hx dx i hi
  obtain ⟨t, t0, te, tn⟩ := absDot_near (x := (s i).r) hA hL hn h5 (fun hh => by rw [h4]; exact SVec.stored_zip A (hc hh) _ _ _) (fun hh => SVec.stored_map A (hc hh) _ _) (hb _ h5)
    (by rw [show (s i).r.dt = y.dt from h6]; exact hD _ dy)
  exact ⟨t, t0, h3.trans te, tn, h1.norms hA hu hD hD hop.length hM hy hx dy dx hi hX⟩

include hm hst in
/-- `cg`: the reported norms (`cost`) are the norms of the true residuals `y - M x` of the iterates, up to rounding errors.  `k` operations are enough for one entry of a product with the matrix;
    no rank contributes more than `b` products to a dot product; the entries of the iterates are at most those of `X`. -/
theorem C88_cg :
    Always n (fun r => FCG.solve A (env n J r) (op r) (y.part L n r) (x0.part L n r) (some niter) tol)
      (fun r => .ok ((s m).x.part L n r, m, (List.range (m + 1)).map (fun i => A.sqrt (s i).k), (List.range' 1 m).map fun i => (s i).x.part L n r)) ∧
    ∀ i ≤ m, ∀ X : Nat → ℝ, (∀ l ≤ i, ∀ j < L.gshape.prod, ‖(s l).x.v.getD j 0‖ ≤ X j) →
      ‖A.sqrt (s i).k - ((l2 (residual M L.gshape.prod L.gshape.prod y.v (s i).x.v) : ℝ) : K)‖ ≤
        errBound u (b + n + 2) * l2 (residual M L.gshape.prod L.gshape.prod y.v (s i).x.v) +
        (1 + errBound u (b + n + 2)) * (12 * errBound u ((k + 5) * (i + 1)) * l2 (scaleOf M L.gshape.prod L.gshape.prod y.v X)) := by
  refine ⟨C70_cg A hL hm hop hy hx dy dx hs hst, fun i hi X hX => ?_⟩
  obtain ⟨t, t0, te, tn, tg⟩ := cg_norms hA hu hL hn hD hc hb hop hM hy hx dy dx hs hi hX
  refine near_of (errBound_nonneg hA.nonneg _) ?_ tg
  have h1 := sqrt_near t0 (l2_nonneg _) tn
  have h2 := hA.sqrt t t0
  unfold Rounded at h2
  rw [RCLike.norm_ofReal, abs_of_nonneg (Real.sqrt_nonneg _)] at h2
  rw [te]
  have h3 := norm_sub_le_norm_sub_add_norm_sub (A.sqrt (t : K)) ((√t : ℝ) : K) ((l2 (s i).r.v : ℝ) : K)
  rw [← RCLike.ofReal_sub (√t), RCLike.norm_ofReal] at h3
  have h4 := errBound_succ (u := u) (b + n + 1)
  have h5 : u * √t ≤ u * ((1 + errBound u (b + n + 1)) * l2 (s i).r.v) := mul_le_mul_of_nonneg_left (by linarith [(abs_le.1 h1).2]) hA.nonneg
  rw [show b + n + 2 = b + n + 1 + 1 from rfl, h4]
  linarith

include hst in
/-- If `cg` stops before the last iteration, the norm of the true residual of the returned vector is at most the root of `tol`, up to rounding errors. -/
theorem C88_cg_stop {τ : ℝ} (htol : tol = (τ : K)) (hgt : ∀ p q : ℝ, A.gt (p : K) (q : K) = false → p ≤ q) (hlt : (m : Int) < niter) (he : errBound u (b + n + 1) < 1) {X : Nat → ℝ}
    (hX : ∀ l ≤ m, ∀ j < L.gshape.prod, ‖(s l).x.v.getD j 0‖ ≤ X j) :
    l2 (residual M L.gshape.prod L.gshape.prod y.v (s m).x.v) ≤
      √(τ / (1 - errBound u (b + n + 1))) + 12 * errBound u ((k + 5) * (m + 1)) * l2 (scaleOf M L.gshape.prod L.gshape.prod y.v X) := by
  obtain ⟨t, t0, te, tn, tg⟩ := cg_norms hA hu hL hn hD hc hb hop hM hy hx dy dx hs le_rfl hX
  have h1 : t ≤ τ := by
    refine hgt t τ ?_
    have := hst.2
    rw [← te, ← htol]
    cases hg : A.gt (s m).k tol
    · rfl
    · exact absurd ⟨hlt, hg⟩ this
  have h2 : l2 (s m).r.v ≤ √(τ / (1 - errBound u (b + n + 1))) := by
    refine Real.le_sqrt_of_sq_le ?_
    rw [le_div_iff₀ (by linarith)]
    linarith [(abs_le.1 tn).1]
  linarith [(abs_le.1 tg).1]

end cg

/-- `cgls`: the same for the norm of the residual, which is `cost` in the result -/
theorem C88_cgls (hA : SolverRounding A u) (hu : errBound u 4 ≤ 1 / 2) (hL : L.WF n) (hm : L.mask = none) (hL' : L'.WF n) (hm' : L'.mask = none) (hn : 0 < n) (hDs : ∀ dt, D dt → Stores A u dt)
    (hDs' : ∀ dt, D' dt → Stores A u dt) (hc : L'.part.isBroadcast = true → ∀ dt a, A.cast dt (A.cast dt a) = A.cast dt a)
    (hb : ∀ z : SVec K, z.v.length = L'.gshape.prod → ∀ q < n, (z.block A L' n q).length ≤ b) (hop : ActsAs n J (fun r => (op r).mv) L L' F D)
    (hop' : ActsAs n J (fun r => (op r).rmv) L' L F' D') (hD : ∀ s : SVec K, s.v.length = L'.gshape.prod → D' s.dt → D (F' s).dt) (hM : MulUpTo u k D D' F M L'.gshape.prod L.gshape.prod)
    (hy : y.v.length = L'.gshape.prod) (hx : x0.v.length = L.gshape.prod) (dy : D' y.dt) (dx : D x0.dt) {t : Nat → SLS K}
    (hs : ∀ i ≤ m, SLS.seq A (SVec.blockDot A L n) (SVec.blockDot A L' n) (SVec.blockNorm A L' n) F F' damp y x0 i = .ok (t i)) (hst : StopsAt A niter tol (fun i => (t i).k) m) :
    Always n (fun r => FCGLS.solve A A.normX (env n J r) (op r) (y.part L' n r) (x0.part L n r) (some niter) damp tol)
      (fun r => .ok { x := (t m).x.part L n r, istop := if A.lt (t m).k tol then 1 else 2, iiter := m, r1norm := (t m).k, r2norm := (t m).r2,
                      cost := (List.range (m + 1)).map fun i => (t i).r1, trace := (List.range' 1 m).map fun i => (t i).x.part L n r }) ∧
    ∀ i ≤ m, ∀ X : Nat → ℝ, (∀ l ≤ i, ∀ j < L.gshape.prod, ‖(t l).x.v.getD j 0‖ ≤ X j) →
      ‖(t i).r1 - ((l2 (residual M L'.gshape.prod L.gshape.prod y.v (t i).x.v) : ℝ) : K)‖ ≤
        errBound u (b + n) * l2 (residual M L'.gshape.prod L.gshape.prod y.v (t i).x.v) +
        (1 + errBound u (b + n)) * (12 * errBound u ((k + 5) * (i + 1)) * l2 (scaleOf M L'.gshape.prod L.gshape.prod y.v X)) := by
  refine ⟨C70_cgls A hL hm hL' hm' hop hop' hD hy hx dy dx hs hst, fun i hi X hX => ?_⟩
  obtain ⟨⟨a, h1⟩, h2⟩ := sls_steps hop.length hop'.length hD hy hx dy dx hs
  obtain ⟨h3, v, w, h4⟩ := h2 i hi
  obtain ⟨-, h5, -, -⟩ := h1.facts hop.length hy hx dx i hi
  rw [h3]
  exact near_of (errBound_nonneg hA.nonneg _) (blockNorm_near (x := (t i).s) hA.toRounding hL' hn h5 (fun hh => by rw [h4]; exact SVec.stored_zip A (hc hh) _ _ _) (hb _ h5))
    (h1.norms hA hu hDs hDs' hop.length hM hy hx dy dx hi hX)

/-! ### a case -/

theorem binary_solver (p : Nat) : SolverRounding (binary p).toArith ((1 / 2) ^ (p + 1)) where
  toRounding := (binary_rounding p).toRounding
  neg _ := rfl
  conj _ := rfl
  abs a := ⟨|a|, abs_nonneg _, rfl, by simp only [Real.norm_eq_abs, sub_self, abs_zero]; positivity⟩
  sqrt t _ := rd_rounded p _
  add x y := rd_rounded p _
  mul x y := rd_rounded p _

/-- rank `r` multiplies by `w r`, with rounding -/
noncomputable def rdDiag (p : Nat) (w : Nat → ℝ) : XOp ℝ :=
  let f : Ctx ℝ → XArr ℝ → P ℝ (XArr ℝ) := fun c x => match x with
    | .one d => .ret (.one { d with dtype := float64, larr := ⟨d.larr.shape, float64, d.larr.data.map fun a => rd p (w c.rank * a)⟩ })
    | .stack _ => .throw .attribute
  ⟨f, f⟩

noncomputable def rdDiagFn (p : Nat) (w : Nat → ℝ) (x : SVec ℝ) : SVec ℝ := ⟨float64, List.zipWith (fun a b => rd p (b * a)) x.v [w 0, w 1]⟩

theorem rdDiag_actsAs (p : Nat) (w : Nat → ℝ) (J : Nat → Nat → ℝ) : ActsAs 2 J (fun _ => (rdDiag p w).mv) twoOnTwo twoOnTwo (rdDiagFn p w) := by
  refine ⟨fun x h _ => by rw [rdDiagFn, List.length_zipWith, h]; rfl, fun x h _ => ?_⟩
  obtain ⟨dt, v⟩ := x
  match v, h with
  | [a, b], _ =>
    refine Runs.always ((Runs.ret _).congr (fun r _ => rfl) fun r hr => ?_)
    have : r = 0 ∨ r = 1 := by omega
    rcases this with rfl | rfl <;> rfl

def diagMat (w : Nat → ℝ) (j i : Nat) : ℝ := if j = i then w i else 0

theorem rdDiag_mul (p : Nat) (w : Nat → ℝ) : MulUpTo ((1 / 2) ^ (p + 1)) 1 (fun _ => True) (fun _ => True) (rdDiagFn p w) (diagMat w) 2 2 := by
  intro v hv _
  refine ⟨trivial, fun j hj => ?_⟩
  obtain ⟨dt, v⟩ := v
  match v, hv with
  | [a, b], _ =>
    have : j = 0 ∨ j = 1 := by omega
    rcases this with rfl | rfl
    · have := rd_rounded p (w 0 * a)
      simpa [SumUpTo, rowTerms, List.range_succ, rdDiagFn, diagMat, errBound_one, Rounded] using this
    · have := rd_rounded p (w 1 * b)
      simpa [SumUpTo, rowTerms, List.range_succ, rdDiagFn, diagMat, errBound_one, Rounded] using this

theorem twoOnTwo_block {A : Arith ℝ} (z : SVec ℝ) (hz : z.v.length = twoOnTwo.gshape.prod) : ∀ q < 2, (z.block A twoOnTwo 2 q).length ≤ 1 := by
  intro q hq
  rw [length_block A twoOnTwo_wf hz hq]
  interval_cases q <;> decide

/-- `float64`: if `tol` is not negative, `cg` with the diagonal operator returns on both ranks, and the reported norms are right up to `10 ^ -13` times the scale of the problem (after 10 steps or
    fewer) -/
example (J : Nat → Nat → ℝ) (w : Nat → ℝ) (y x0 : SVec ℝ) (hy : y.v.length = 2) (hx : x0.v.length = 2) (niter : Int) (hn : niter ≤ 10) (tol : ℝ) (ht : 0 ≤ tol) :
    ∃ (m : Nat) (x : Nat → SVec ℝ) (cost : Nat → ℝ),
      Always 2 (fun r => FCG.solve (binary 52).toArith (env 2 J r) (rdDiag 52 w) (y.part twoOnTwo 2 r) (x0.part twoOnTwo 2 r) (some niter) tol)
        (fun r => .ok ((x m).part twoOnTwo 2 r, m, (List.range (m + 1)).map cost, (List.range' 1 m).map fun i => (x i).part twoOnTwo 2 r)) ∧
      ∀ i ≤ m, ∀ X : Nat → ℝ, (∀ l ≤ i, ∀ j < 2, ‖(x l).v.getD j 0‖ ≤ X j) →
        ‖cost i - l2 (residual (diagMat w) 2 2 y.v (x i).v)‖ ≤ 1 / 10 ^ 15 * l2 (residual (diagMat w) 2 2 y.v (x i).v) + 1 / 10 ^ 13 * l2 (scaleOf (diagMat w) 2 2 y.v X) := by
  have hu : errBound ((1 / 2) ^ (52 + 1)) 4 ≤ 1 / 2 := by norm_num [errBound]
  rcases C70_cg_cases (binary 52).toArith (SVec.blockDot (binary 52).toArith twoOnTwo 2) (rdDiagFn 52 w) y x0 niter tol with ⟨m, s, hs, hst⟩ | ⟨m, s, e, hs, he, hst⟩
  · obtain ⟨h1, h2⟩ := C88_cg (J := J) (b := 1) (op := fun _ => rdDiag 52 w) (binary_solver 52) hu twoOnTwo_wf rfl (by norm_num) (fun dt _ => binary_stores 52 dt) (fun h => by cases h) twoOnTwo_block
      (rdDiag_actsAs 52 w J) (rdDiag_mul 52 w) hy hx trivial trivial hs hst
    refine ⟨m, fun i => (s i).x, fun i => (binary 52).sqrt (s i).k, h1, fun i hi X hX => ?_⟩
    refine (h2 i hi X hX).trans ?_
    have hm : m ≤ 10 := by
      by_contra hm
      have := (hst.1 10 (by omega)).1
      push_cast at this
      omega
    have e1 : errBound ((1 / 2) ^ (52 + 1)) (1 + 2 + 2) ≤ 1 / 10 ^ 15 := by norm_num [errBound]
    have e2 : errBound ((1 / 2) ^ (52 + 1)) ((1 + 5) * (i + 1)) ≤ errBound ((1 / 2) ^ (52 + 1)) 66 := errBound_mono (by norm_num) (by omega)
    have e3 : errBound ((1 / 2) ^ (52 + 1)) 66 ≤ 1 / 10 ^ 14 / 12 * 9 := by norm_num [errBound]
    have r0 := l2_nonneg (residual (diagMat w) 2 2 y.v (s i).x.v)
    have s0 := l2_nonneg (scaleOf (diagMat w) 2 2 y.v X)
    have f1 := mul_le_mul_of_nonneg_right e1 r0
    have f2 : (1 + errBound ((1 / 2) ^ (52 + 1)) (1 + 2 + 2)) * (12 * errBound ((1 / 2) ^ (52 + 1)) ((1 + 5) * (i + 1))) ≤ 1 / 10 ^ 13 := by
      have g0 := errBound_nonneg (u := (1 / 2) ^ (52 + 1)) (by norm_num) ((1 + 5) * (i + 1))
      nlinarith
    have f3 := mul_le_mul_of_nonneg_right f2 s0
    rw [mul_assoc] at f3
    exact add_le_add f1 f3
  · exfalso
    have h1 := (hst m le_rfl).2
    have h2 : (s m).k ≠ 0 := by
      have h3 : tol < (s m).k := by simpa [binary] using h1
      linarith
    rw [SCG.seq, hs m le_rfl] at he
    simp only [Except.bind, SCG.next, bind, binary, if_neg h2] at he
    cases he

/-- if it stops because of `tol`, the returned vector solves the system up to about that -/
example (J : Nat → Nat → ℝ) (w : Nat → ℝ) (y x0 : SVec ℝ) (hy : y.v.length = 2) (hx : x0.v.length = 2) (niter : Int) (tol : ℝ) {m : Nat} {s : Nat → SCG ℝ}
    (hs : ∀ i ≤ m, SCG.seq (binary 52).toArith (SVec.blockDot (binary 52).toArith twoOnTwo 2) (rdDiagFn 52 w) y x0 i = .ok (s i)) (hst : StopsAt (binary 52).toArith niter tol (fun i => (s i).k) m)
    (hlt : (m : Int) < niter) {X : Nat → ℝ} (hX : ∀ l ≤ m, ∀ j < 2, ‖(s l).x.v.getD j 0‖ ≤ X j) :=
  C88_cg_stop (J := J) (b := 1) (τ := tol) (op := fun _ => rdDiag 52 w) (binary_solver 52) (by norm_num [errBound]) twoOnTwo_wf (by norm_num) (fun dt _ => binary_stores 52 dt) (fun h => by cases h)
    twoOnTwo_block (rdDiag_actsAs 52 w J) (rdDiag_mul 52 w) hy hx trivial trivial hs hst rfl (fun p q h => by simpa [binary] using h) hlt (by norm_num [errBound]) hX

/-- and `cgls` -/
example (J : Nat → Nat → ℝ) (w : Nat → ℝ) (y x0 : SVec ℝ) (hy : y.v.length = 2) (hx : x0.v.length = 2) (niter : Int) (damp tol : ℝ) {m : Nat} {t : Nat → SLS ℝ}
    (hs : ∀ i ≤ m, SLS.seq (binary 52).toArith (SVec.blockDot (binary 52).toArith twoOnTwo 2) (SVec.blockDot (binary 52).toArith twoOnTwo 2) (SVec.blockNorm (binary 52).toArith twoOnTwo 2) (rdDiagFn 52 w)
      (rdDiagFn 52 w) damp y x0 i = .ok (t i)) (hst : StopsAt (binary 52).toArith niter tol (fun i => (t i).k) m) :=
  C88_cgls (J := J) (b := 1) (op := fun _ => rdDiag 52 w) (binary_solver 52) (by norm_num [errBound]) twoOnTwo_wf rfl twoOnTwo_wf rfl (by norm_num) (fun dt _ => binary_stores 52 dt)
    (fun dt _ => binary_stores 52 dt) (fun h => by cases h) twoOnTwo_block (rdDiag_actsAs 52 w J) (rdDiag_actsAs 52 w J) (fun _ _ _ => trivial) (rdDiag_mul 52 w) hy hx trivial trivial hs hst

end Verif

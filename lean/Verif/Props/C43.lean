/- C43, C44: invariants and start of CGLS. -/
import Verif.Props.C42

namespace Verif
open NDArray Serial

variable {K : Type} [RCLike K] {n : Nat} {J : Nat → Nat → K} {S T : XSpace} {M N : Nat} {op : Nat → XOp K} {y : Vec K N} {x0 : Vec K M}
  {A : Vec K M →ₗ[K] Vec K N} {B : Vec K N → Vec K M} {niter : Option Int} {damp tol : ℝ}

/-- **C43** (everything except the first entry of `cost1`).  `B` is what `rmatvec` computes.  There are iterates `xs` and directions `cs` such that for every number `j` of steps none of which
    divides by zero, in every execution all ranks end `setup` and `j` calls of `step` with `s = y - A x`, `q = A c`, `cost[i] = ‖y - A x_i‖` for all `i ≤ j`,
    `cost1[i] = √(‖y - A x_i‖² + damp² ‖x_i‖²)` for all `1 ≤ i ≤ j`; and the gradient used for the direction after step `j ≥ 1` is `B s - damp² x`, that is
    `c_j = g_j + (‖g_j‖² / kold_{j-1}) c_{j-1}` and `kold_j = ‖g_j‖²` with `g_j = B (y - A x_j) - damp² x_j`.
    Missing for the full claim: `cost1[0]`, for which see `C44_violated`. -/
theorem C43_partial (h : CGLSHyp n J op S T A B y x0) :
    ∃ (xs cs : Nat → Vec K M) (ks : Nat → ℝ), xs 0 = x0 ∧
      (∀ j, ks (j + 1) = ‖B (y - A (xs (j + 1))) - ((damp ^ 2 : ℝ) : K) • xs (j + 1)‖ ^ 2 ∧
        cs (j + 1) = (B (y - A (xs (j + 1))) - ((damp ^ 2 : ℝ) : K) • xs (j + 1)) + ((ks (j + 1) / ks j : ℝ) : K) • cs j) ∧
      ∀ j, (∀ i < j, ¬ CGLS.Breaks (damp ^ 2) (CGLS.seq K A B damp (damp ^ 2) y x0 i)) → ∃ c10,
        Always n (fun r => CGLSS.steps (env n J r) (op r) (T.part n y r) (S.part n x0 r) niter damp tol j)
          (fun r => .ok (⟨T.part n y r, damp ^ 2, niter, tol, T.part n (y - A (xs j)) r, S.part n (cs j) r, T.part n (A (cs j)) r, ks j,
            (List.range (j + 1)).map fun i => ‖y - A (xs i)‖,
            c10 :: (List.range' 1 j).map fun i => .fin (Real.sqrt (‖y - A (xs i)‖ ^ 2 + damp ^ 2 * ‖xs i‖ ^ 2)), j⟩, S.part n (xs j) r)) := by
  refine ⟨fun j => (CGLS.seq K A B damp (damp ^ 2) y x0 j).x, fun j => (CGLS.seq K A B damp (damp ^ 2) y x0 j).c, fun j => (CGLS.seq K A B damp (damp ^ 2) y x0 j).k, rfl,
    fun j => ?_, fun j hb => ⟨cglsCost1 A B damp y x0 0, ?_⟩⟩
  · have h1 := CGLS.inv_grad A B damp (damp ^ 2) y x0 j
    have h2 := CGLS.inv A B damp (damp ^ 2) y x0 (j + 1)
    dsimp only at h1
    rw [h2.1] at h1
    exact h1
  · have h1 := runs_cgls_steps (niter := niter) (tol := tol) h j hb
    refine Runs.always (h1.congr (fun _ _ => rfl) fun r _ => ?_)
    have h2 := fun j => CGLS.inv A B damp (damp ^ 2) y x0 j
    unfold cglsState
    dsimp only
    rw [← (h2 j).1, ← (h2 j).2]
    simp only [(h2 _).1]
    congr 3
    rw [List.range_eq_range', List.range'_succ, List.map_cons]
    congr 1
    apply List.map_congr_left
    intro i hi
    have hi' : i ≠ 0 := by have := List.mem_range'_1.1 hi; omega
    unfold cglsCost1
    simp only [if_neg hi', (h2 i).1]
    unfold FNum.sqrt
    rw [if_neg (not_lt.2 (by positivity))]

/-- **C44** (partial).  When damp · x0 = damp² · x0 and damp ‖x0‖² = damp² ‖x0‖² (that is `damp` is 0 or 1, or `x0 = 0`), the first direction is
    `A^H (y - A x0) - damp² x0` and `cost1[0]² = ‖y - A x0‖² + damp² ‖x0‖²`.
    Missing for the full claim: other values, for which it is false (`C44_violated`). -/
theorem C44_partial (h : CGLSHyp n J op S T A B y x0) (hd : damp = 0 ∨ damp = 1 ∨ x0 = 0) :
    ∃ st : Nat → CGLSS K, (∀ r, (st r).c = S.part n (B (y - A x0) - ((damp ^ 2 : ℝ) : K) • x0) r ∧
        (st r).cost1 = [.fin (Real.sqrt (‖y - A x0‖ ^ 2 + damp ^ 2 * ‖x0‖ ^ 2))]) ∧
      Always n (fun r => CGLSS.setup (env n J r) (op r) (T.part n y r) (S.part n x0 r) niter damp tol) (fun r => .ok (st r, S.part n x0 r)) := by
  refine ⟨fun r => cglsState S T n y x0 niter damp tol A B 0 r, fun r => ⟨?_, ?_⟩, (runs_cgls_setup h).always⟩
  · have : (damp : K) • x0 = ((damp ^ 2 : ℝ) : K) • x0 := by rcases hd with rfl | rfl | rfl <;> simp
    rw [← this]
    rfl
  · have : damp * ‖x0‖ ^ 2 = damp ^ 2 * ‖x0‖ ^ 2 := by rcases hd with rfl | rfl | rfl <;> simp
    simp only [cglsState, cglsCost1, CGLS.seq, Function.iterate_zero, id, CGLS.init, List.range_one, List.map_cons, List.map_nil, zero_add, if_true, this, FNum.sqrt]
    rw [if_neg (not_lt.2 (by positivity))]

/-- **C44** (what the code does).  For all inputs the first direction is `A^H (y - A x0) - damp x0` and `cost1[0] = √(‖y - A x0‖² + damp ‖x0‖²)` (nan when the argument is negative). -/
theorem C44_actual (h : CGLSHyp n J op S T A B y x0) :
    ∃ st : Nat → CGLSS K, (∀ r, (st r).c = S.part n (B (y - A x0) - (damp : K) • x0) r ∧ (st r).cost1 = [FNum.sqrt (‖y - A x0‖ ^ 2 + damp * ‖x0‖ ^ 2)]) ∧
      Always n (fun r => CGLSS.setup (env n J r) (op r) (T.part n y r) (S.part n x0 r) niter damp tol) (fun r => .ok (st r, S.part n x0 r)) := by
  refine ⟨fun r => cglsState S T n y x0 niter damp tol A B 0 r, fun r => ⟨rfl, ?_⟩, (runs_cgls_setup h).always⟩
  simp [cglsState, cglsCost1, CGLS.seq, CGLS.init]

theorem Diag2.hyp (a b : ℝ) (J : Nat → Nat → ℝ) (y x0 : Vec ℝ 2) : CGLSHyp 2 J (Diag2.op a b) (.one Diag2.V) (.one Diag2.V) (Diag2.A a b) (Diag2.A a b) y x0 :=
  ⟨Diag2.wf, Diag2.wf, Diag2.noMask, Diag2.noMask, by simp, Diag2.acts a b false J, Diag2.acts a b true J, Diag2.has _, Diag2.has _⟩

/-- the entry of a vector on rank 0 -/
theorem Diag2.entry (x : Vec ℝ 2) : (match (XSpace.one Diag2.V).part 2 x 0 with | .one d => d.larr.data | .stack _ => []) = [x 0] := by
  simp [XSpace.part, XSpace.vec, VSpace.vec, Layout.fam, Diag2.V, Layout.lin, Layout.piece, toL, List.ofFn_succ]
  rfl

/-- **C44 is false**: for diag(2, 5) on two ranks, y = 0, x0 = (1, 0) and damp = 2, rank 0 ends `setup` with -6 as first entry of the direction
    (the negative gradient of the documented functional is -8), and with cost1[0]² = 6 (the value of the functional is 8). -/
theorem C44_violated :
    let y : Vec ℝ 2 := 0
    let x0 : Vec ℝ 2 := !₂[1, 0]
    let S : XSpace := .one Diag2.V
    ∃ st : Nat → CGLSS ℝ, Always 2 (fun r => CGLSS.setup (env 2 (fun _ _ => 0) r) (Diag2.op 2 5 r) (S.part 2 y r) (S.part 2 x0 r) (some 10) 2 0) (fun r => .ok (st r, S.part 2 x0 r)) ∧
      (match (st 0).c with | .one d => d.larr.data | .stack _ => []) = [-6] ∧ (Diag2.A 2 5 (y - Diag2.A 2 5 x0) - ((2 : ℝ) ^ 2) • x0) 0 = -8 ∧
      (st 0).cost1 = [.fin (Real.sqrt 6)] ∧ ‖y - Diag2.A 2 5 x0‖ ^ 2 + 2 ^ 2 * ‖x0‖ ^ 2 = 8 := by
  intro y x0 S
  obtain ⟨st, h1, h2⟩ := C44_actual (niter := some 10) (damp := 2) (tol := 0) (Diag2.hyp 2 5 (fun _ _ => 0) y x0)
  refine ⟨st, h2, ?_, ?_, ?_, ?_⟩
  · rw [(h1 0).1, Diag2.entry]
    simp [Diag2.A, y, x0]; norm_num
  · simp [Diag2.A, y, x0]; norm_num
  · rw [(h1 0).2]
    have : ‖y - Diag2.A 2 5 x0‖ ^ 2 + 2 * ‖x0‖ ^ 2 = 6 := by
      simp [EuclideanSpace.norm_sq_eq, Fin.sum_univ_two, Diag2.A, y, x0]; norm_num
    rw [this, FNum.sqrt, if_neg (by norm_num)]
  · simp [EuclideanSpace.norm_sq_eq, Fin.sum_univ_two, Diag2.A, y, x0]; norm_num

theorem Diag2.cgls_ok (damp : ℝ) : ¬ CGLS.Breaks (damp ^ 2) (CGLS.seq ℝ (Diag2.A 2 5) (Diag2.A 2 5) damp (damp ^ 2) !₂[1, 1] 0 0) := by
  have e1 : (CGLS.seq ℝ (Diag2.A 2 5) (Diag2.A 2 5) damp (damp ^ 2) !₂[1, 1] 0 0).k = 29 := by
    simp [CGLS.seq, CGLS.init, EuclideanSpace.norm_sq_eq, Fin.sum_univ_two, Diag2.A]; norm_num
  have e2 : ‖(CGLS.seq ℝ (Diag2.A 2 5) (Diag2.A 2 5) damp (damp ^ 2) !₂[1, 1] 0 0).q‖ ^ 2 = 641 := by
    simp [CGLS.seq, CGLS.init, EuclideanSpace.norm_sq_eq, Fin.sum_univ_two, Diag2.A]; norm_num
  rintro (h | h)
  · rw [e2] at h
    have : 0 ≤ damp ^ 2 * ‖(CGLS.seq ℝ (Diag2.A 2 5) (Diag2.A 2 5) damp (damp ^ 2) !₂[1, 1] 0 0).c‖ ^ 2 := by positivity
    linarith
  · rw [e1] at h; norm_num at h

/-- Non-vacuity of `C43_partial`: one step of CGLS for diag(2, 5) on two ranks with damp = 3. -/
example : ∃ (xs cs : Nat → Vec ℝ 2) (ks : Nat → ℝ) (c10 : FNum), xs 0 = 0 ∧
    Always 2 (fun r => CGLSS.steps (env 2 (fun _ _ => 0) r) (Diag2.op 2 5 r) ((XSpace.one Diag2.V).part 2 !₂[(1 : ℝ), 1] r) ((XSpace.one Diag2.V).part 2 (0 : Vec ℝ 2) r) (some 3) 3 0 1)
      (fun r => .ok (⟨(XSpace.one Diag2.V).part 2 !₂[(1 : ℝ), 1] r, 3 ^ 2, some 3, 0, (XSpace.one Diag2.V).part 2 (!₂[1, 1] - Diag2.A 2 5 (xs 1)) r,
        (XSpace.one Diag2.V).part 2 (cs 1) r, (XSpace.one Diag2.V).part 2 (Diag2.A 2 5 (cs 1)) r, ks 1, [‖!₂[1, 1] - Diag2.A 2 5 (xs 0)‖, ‖!₂[1, 1] - Diag2.A 2 5 (xs 1)‖],
        [c10, .fin (Real.sqrt (‖!₂[1, 1] - Diag2.A 2 5 (xs 1)‖ ^ 2 + 3 ^ 2 * ‖xs 1‖ ^ 2))], 1⟩, (XSpace.one Diag2.V).part 2 (xs 1) r)) := by
  obtain ⟨xs, cs, ks, h1, _, h2⟩ := C43_partial (niter := some 3) (damp := 3) (tol := 0) (Diag2.hyp 2 5 (fun _ _ => 0) !₂[1, 1] 0)
  obtain ⟨c, h3⟩ := h2 1 fun i hi => by
    obtain rfl : i = 0 := by omega
    exact Diag2.cgls_ok 3
  exact ⟨xs, cs, ks, c, h1, h3⟩

end Verif

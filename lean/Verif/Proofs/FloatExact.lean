/-
  With exact arithmetic, the methods of Model/FloatSolvers.lean are those of Model/DistributedArray.lean and Model/Stacked.lean, and its CG is that of Model/Solvers.lean.
-/
import Verif.Proofs.FloatSolvers
import Verif.Model.Solvers

namespace Verif
open NDArray

variable {K : Type} [RCLike K]

open Classical in
/-- exact arithmetic, where a division by zero stops the program as in Model/Solvers.lean -/
noncomputable def Arith.exact : Arith K where
  cast := castTo
  zero := 0
  neg := (- ·)
  conj := star
  abs v := (‖v‖ : K)
  sqrt v := (Real.sqrt (RCLike.re v) : K)
  add := (· + ·)
  mul := (· * ·)
  npDiv a b := if b = 0 then .error .nonfinite else .ok (a / b)
  pyDiv a b := if b = 0 then .error .zeroDiv else .ok (a / b)
  pySq v := .ok (v ^ 2)
  dot a b := (List.zipWith (· * ·) a b).sum
  sumSq l := ((l.map fun x => ‖x‖ ^ 2).sum : ℝ)
  root v := (Real.sqrt (RCLike.re v) : K)
  stackNorm l := (Real.sqrt ((l.map fun x => ‖x‖ ^ 2).sum) : K)
  sum := List.sum
  gt a b := decide (RCLike.re a > RCLike.re b)
  lt a b := decide (RCLike.re a < RCLike.re b)

section
variable (c : Ctx K)

theorem exact_setAll : (Arith.exact (K := K)).setAll c = DArr.setAll c := rfl
theorem exact_dneg : (Arith.exact (K := K)).dneg c = DArr.neg c := rfl
theorem exact_dadd : (Arith.exact (K := K)).dadd c = DArr.add c := rfl
theorem exact_diadd : (Arith.exact (K := K)).diadd c = DArr.iadd c := rfl
theorem exact_dsub : (Arith.exact (K := K)).dsub c = DArr.sub' c := rfl
theorem exact_disub : (Arith.exact (K := K)).disub c = DArr.isub c := rfl
theorem exact_dsmul : (Arith.exact (K := K)).dsmul c = DArr.smul c := rfl
theorem exact_dconj : (Arith.exact (K := K)).dconj c = DArr.conj c := rfl
theorem exact_dcopy : (Arith.exact (K := K)).dcopy c = DArr.copy c := rfl
theorem exact_toDist : (Arith.exact (K := K)).toDist c = toDist c := rfl

theorem exact_reduce (sub : List Nat) (v : K) :
    (Arith.exact (K := K)).reduce sub v = (allreduce sub (fun a b => .ok ⟨a.val + b.val⟩) (Sc.mk v)).bind fun s => .ret s.val := by
  have hf : ∀ (ys : List (Sc K)) (y : Sc K), ys.foldlM (fun a b => (.ok ⟨a.val + b.val⟩ : Except Err (Sc K))) y = .ok ⟨y.val + (ys.map Sc.val).sum⟩ := by
    intro ys
    induction ys with
    | nil => intro y; simp only [List.foldlM_nil, List.map_nil, List.sum_nil, add_zero]; rfl
    | cons z ys ih =>
      intro y
      simp only [List.foldlM_cons, List.map_cons, List.sum_cons, ← add_assoc]
      exact ih _
  unfold Arith.reduce allreduce
  simp only [Prog.bind_eq, Prog.bind_assoc]
  congr 1
  funext l
  cases l with
  | nil => rfl
  | cons y ys => simp only [hf, Prog.lift_ok, Prog.ret_bind]; rfl

theorem exact_ddot : (Arith.exact (K := K)).ddot c = DArr.dot c := by
  funext d e
  unfold Arith.ddot DArr.dot
  simp only [Prog.bind_eq, exact_reduce]
  rfl

theorem exact_copy : (Arith.exact (K := K)).copy c = XArr.copy c := by funext x; cases x <;> rfl
theorem exact_conjX : (Arith.exact (K := K)).conjX c = XArr.conj c := by funext x; cases x <;> rfl
theorem exact_addX : (Arith.exact (K := K)).addX c = XArr.add c := by funext x y; cases x <;> cases y <;> rfl
theorem exact_subX : (Arith.exact (K := K)).subX c = XArr.sub' c := by funext x y; cases x <;> cases y <;> rfl
theorem exact_iaddX : (Arith.exact (K := K)).iaddX c = XArr.iadd c := by funext x y; cases x <;> cases y <;> rfl
theorem exact_isubX : (Arith.exact (K := K)).isubX c = XArr.isub c := by funext x y; cases x <;> cases y <;> rfl
theorem exact_fmulX (a : ℝ) : (Arith.exact (K := K)).fmulX c (a : K) = XArr.fmul c a := by funext x; cases x <;> rfl

theorem exact_dotX : (Arith.exact (K := K)).dotX c = XArr.dot c := by
  funext x y
  cases x <;> cases y
  · show (Arith.exact (K := K)).ddot c _ _ = _
    rw [exact_ddot]; rfl
  · rfl
  · rfl
  · show (Arith.exact (K := K)).sdot c _ _ = _
    unfold Arith.sdot
    simp only [exact_ddot]
    rfl

theorem exact_absDot (x y : XArr K) : (Arith.exact (K := K)).absDot c x y = (absDot c x y).bind fun v => .ret (v : K) := by
  unfold Arith.absDot Arith.dotConj absDot
  simp only [exact_conjX, exact_dotX, Prog.bind_eq, Prog.bind_assoc, Prog.ret_bind]
  rfl

theorem exact_npDiv (a b : ℝ) : Prog.lift ((Arith.exact (K := K)).npDiv (a : K) (b : K)) = ((if b = 0 then .throw .nonfinite else .ret (a / b) : P K ℝ)).bind fun v => .ret (v : K) := by
  by_cases h : b = 0
  · simp [Arith.exact, h, Prog.lift, Prog.bind]
  · have : (b : K) ≠ 0 := by simpa using h
    simp [Arith.exact, h, Prog.lift, Prog.bind]

theorem exact_pyDiv (a b : ℝ) : Prog.lift ((Arith.exact (K := K)).pyDiv (a : K) (b : K)) = (pyDiv a b : P K ℝ).bind fun v => .ret (v : K) := by
  unfold pyDiv
  by_cases h : b = 0
  · simp [Arith.exact, h, Prog.lift, Prog.bind]
  · have : (b : K) ≠ 0 := by simpa using h
    simp [Arith.exact, h, Prog.lift, Prog.bind]

/-- the attributes as numbers of `K` -/
def CGS.toF (s : CGS K) : FCG K := ⟨s.y, s.niter, (s.tol : K), s.r, s.c, (s.kold : K), s.cost.map fun v : ℝ => (v : K), s.iiter⟩

theorem exact_sqrt (v : ℝ) : (Arith.exact (K := K)).sqrt (v : K) = (Real.sqrt v : K) := by simp [Arith.exact]

theorem exact_setup (op : XOp K) (y x0 : XArr K) (niter : Option Int) (tol : ℝ) :
    FCG.setup Arith.exact c op y x0 niter (tol : K) = (CGS.setup c op y x0 niter tol).bind fun p => .ret (p.1.toF, p.2) := by
  unfold FCG.setup CGS.setup
  simp only [exact_copy, exact_subX, exact_absDot, Prog.bind_eq, Prog.bind_assoc, Prog.ret_bind, exact_sqrt]
  rfl

theorem exact_step (op : XOp K) (s : CGS K) (x : XArr K) :
    FCG.step Arith.exact c op s.toF x = (CGS.step c op s x).bind fun p => .ret (p.1.toF, p.2) := by
  unfold FCG.step CGS.step
  simp only [CGS.toF, exact_absDot, exact_addX, exact_iaddX, exact_isubX, exact_npDiv, exact_pyDiv, exact_fmulX, Prog.bind_eq, Prog.bind_assoc, Prog.ret_bind, exact_sqrt,
    List.map_append, List.map_cons, List.map_nil]

theorem exact_loop (op : XOp K) (niter : Int) (m : Nat) (s : CGS K) (x : XArr K) (t : List (XArr K)) :
    FCG.loop Arith.exact c op niter m s.toF x t = (CGS.loop c op niter m s x t).bind fun p => .ret (p.1.toF, p.2) := by
  induction m generalizing s x t with
  | zero => rfl
  | succ m ih =>
    have hgt : (Arith.exact (K := K)).gt s.toF.kold s.toF.tol = true ↔ s.kold > s.tol := by simp [Arith.exact, CGS.toF]
    simp only [FCG.loop, CGS.loop, hgt]
    by_cases h : (s.iiter : Int) < niter ∧ s.kold > s.tol
    · rw [if_pos (show (s.toF.iiter : Int) < niter ∧ s.kold > s.tol from h), if_pos h]
      simp only [Prog.bind_eq, exact_step, Prog.bind_assoc, Prog.ret_bind, ih]
    · rw [if_neg (show ¬ ((s.toF.iiter : Int) < niter ∧ s.kold > s.tol) from h), if_neg h]
      rfl

/-- the solver of Model/Solvers.lean is the solver of Model/FloatSolvers.lean with exact arithmetic -/
theorem exact_cg (op : XOp K) (y x0 : XArr K) (niter : Option Int) (tol : ℝ) :
    FCG.solve Arith.exact c op y x0 niter (tol : K) = (CGS.solve c op y x0 niter tol).bind fun p => .ret (p.1, p.2.1, p.2.2.1.map (fun v : ℝ => (v : K)), p.2.2.2) := by
  have hrun : ∀ s x, FCG.run Arith.exact c op (CGS.toF s) x niter = (CGS.run c op s x niter).bind fun p => .ret (p.1.toF, p.2) := by
    intro s x
    unfold FCG.run CGS.run
    cases niter with
    | some m => exact exact_loop c op m _ s x []
    | none =>
      show (match s.niter with | none => _ | some m => _) = _
      cases h : s.niter with
      | none => simp only [h]; rfl
      | some m => simp only [h]; exact exact_loop c op m _ s x []
  unfold FCG.solve CGS.solve
  simp only [Prog.bind_eq, exact_setup, Prog.bind_assoc, Prog.ret_bind, hrun]
  rfl

/-- a norm as number of `K`; the square root of a negative number is 0 in exact arithmetic -/
noncomputable def FNum.toK : FNum → K
  | .fin v => (v : K)
  | _ => 0

theorem exact_fsqrt (v : ℝ) : (Arith.exact (K := K)).sqrt (v : K) = (FNum.sqrt v).toK := by
  unfold FNum.sqrt
  by_cases h : v < 0
  · simp [h, FNum.toK, Arith.exact, Real.sqrt_eq_zero_of_nonpos h.le]
  · simp [h, FNum.toK, Arith.exact]

/-- `norm` of the exact model -/
noncomputable def exactNorm (c : Ctx K) (x : XArr K) : P K K := (x.norm c).bind fun v => v.toFloat.bind fun w : ℝ => .ret (w : K)

/-- the attributes as numbers of `K` -/
noncomputable def CGLSS.toF (s : CGLSS K) : FCGLS K :=
  ⟨s.y, (s.damp : K), s.niter, (s.tol : K), s.s, s.c, s.q, (s.kold : K), s.cost.map fun v : ℝ => (v : K), s.cost1.map FNum.toK, s.iiter⟩

/-- the result as numbers of `K` -/
noncomputable def CGLSS.Result.toF (s : CGLSS.Result K) : FCGLS.Result K := ⟨s.x, s.istop, s.iiter, (s.r1norm : K), s.r2norm.toK, s.cost.map fun v : ℝ => (v : K), s.trace⟩

theorem exact_pySq (v : ℝ) : Prog.lift (M := Msg K) ((Arith.exact (K := K)).pySq (v : K)) = .ret ((v ^ 2 : ℝ) : K) := by simp [Arith.exact, Prog.lift]

theorem exact_add (a b : ℝ) : (Arith.exact (K := K)).add (a : K) (b : K) = ((a + b : ℝ) : K) := by simp [Arith.exact]
theorem exact_mul (a b : ℝ) : (Arith.exact (K := K)).mul (a : K) (b : K) = ((a * b : ℝ) : K) := by simp [Arith.exact]
theorem exact_abs (v : K) : (Arith.exact (K := K)).abs v = ((‖v‖ : ℝ) : K) := rfl
theorem exact_npDivK (a b : K) : Prog.lift ((Arith.exact (K := K)).npDiv a b) = npDiv a b := by
  unfold npDiv
  by_cases h : b = 0 <;> simp [Arith.exact, h, Prog.lift]

theorem exact_dotConj (x y : XArr K) : (Arith.exact (K := K)).dotConj c x y = (y.conj c).bind fun z => x.dot c z := by
  unfold Arith.dotConj
  simp only [exact_conjX, exact_dotX, Prog.bind_eq]

theorem exact_lsetup (op : XOp K) (y x0 : XArr K) (niter : Option Int) (damp tol : ℝ) :
    FCGLS.setup Arith.exact exactNorm c op y x0 niter (damp : K) (tol : K) = (CGLSS.setup c op y x0 niter damp tol).bind fun p => .ret (p.1.toF, p.2) := by
  unfold FCGLS.setup CGLSS.setup
  simp only [exactNorm, exact_copy, exact_subX, exact_fmulX, exact_absDot, exact_pySq, exact_add, exact_mul, Prog.bind_eq, Prog.bind_assoc, Prog.ret_bind, exact_fsqrt]
  rfl

theorem exact_lstep (op : XOp K) (s : CGLSS K) (x : XArr K) :
    FCGLS.step Arith.exact exactNorm c op s.toF x = (CGLSS.step c op s x).bind fun p => .ret (p.1.toF, p.2) := by
  unfold FCGLS.step CGLSS.step
  simp only [CGLSS.toF, exactNorm, exact_absDot, exact_dotConj, exact_addX, exact_subX, exact_iaddX, exact_isubX, exact_npDivK, exact_pyDiv, exact_abs, exact_fmulX, exact_pySq, exact_add, exact_mul,
    Prog.bind_eq, Prog.bind_assoc, Prog.ret_bind, exact_fsqrt, List.map_append, List.map_cons, List.map_nil]
  rfl

theorem exact_lloop (op : XOp K) (niter : Int) (m : Nat) (s : CGLSS K) (x : XArr K) (t : List (XArr K)) :
    FCGLS.loop Arith.exact exactNorm c op niter m s.toF x t = (CGLSS.loop c op niter m s x t).bind fun p => .ret (p.1.toF, p.2) := by
  induction m generalizing s x t with
  | zero => rfl
  | succ m ih =>
    have hgt : (Arith.exact (K := K)).gt s.toF.kold s.toF.tol = true ↔ s.kold > s.tol := by simp [Arith.exact, CGLSS.toF]
    simp only [FCGLS.loop, CGLSS.loop, hgt]
    by_cases h : (s.iiter : Int) < niter ∧ s.kold > s.tol
    · rw [if_pos (show (s.toF.iiter : Int) < niter ∧ s.kold > s.tol from h), if_pos h]
      simp only [Prog.bind_eq, exact_lstep, Prog.bind_assoc, Prog.ret_bind, ih]
    · rw [if_neg (show ¬ ((s.toF.iiter : Int) < niter ∧ s.kold > s.tol) from h), if_neg h]
      rfl

/-- the same for CGLS, given the norm of the exact model -/
theorem exact_cgls (op : XOp K) (y x0 : XArr K) (niter : Option Int) (damp tol : ℝ) :
    FCGLS.solve Arith.exact exactNorm c op y x0 niter (damp : K) (tol : K) = (CGLSS.solve c op y x0 niter damp tol).bind fun p => .ret p.toF := by
  have hrun : ∀ s x, FCGLS.run Arith.exact exactNorm c op (CGLSS.toF s) x niter = (CGLSS.run c op s x niter).bind fun p => .ret (p.1.toF, p.2) := by
    intro s x
    unfold FCGLS.run CGLSS.run
    cases niter with
    | some m => exact exact_lloop c op m _ s x []
    | none =>
      show (match s.niter with | none => _ | some m => _) = _
      cases h : s.niter with
      | none => simp only [h]; rfl
      | some m => simp only [h]; exact exact_lloop c op m _ s x []
  have hfin : ∀ (s : CGLSS K) x t, FCGLS.finalize Arith.exact s.toF x t = (CGLSS.finalize s x t).bind fun p => .ret p.toF := by
    intro s x t
    have hlt : (Arith.exact (K := K)).lt s.toF.kold s.toF.tol = true ↔ s.kold < s.tol := by simp [Arith.exact, CGLSS.toF]
    unfold FCGLS.finalize CGLSS.finalize
    simp only [hlt]
    simp only [CGLSS.toF, List.getElem?_map]
    cases s.cost1[s.iiter]? <;> rfl
  unfold FCGLS.solve CGLSS.solve
  simp only [Prog.bind_eq, exact_lsetup, Prog.bind_assoc, Prog.ret_bind, hrun, hfin]

end
end Verif

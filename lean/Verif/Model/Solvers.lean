/-
  Model of /repo/pylops_mpi/optimization/cls_basic.py (CG, CGLS) and basic.py (cg, cgls).

  Scalars computed by the solvers (kold, a, b, cost, ...) are exact real numbers.
  Simplifications:
    * a division of Python floats by zero raises ZeroDivisionError (`zeroDiv`); a division of NumPy scalars by zero gives inf or nan with a
      warning and the code continues with these values: the model stops with `nonfinite` instead.  The same holds for a norm that is not finite.
    * `show` is not set (see SolverLog.lean for the log that is printed when it is), and the timers are not modelled.
    * the callback is a function that neither communicates nor changes its argument nor raises; the model records the arguments of its calls.
-/
import Verif.Model.StackedOperator

namespace Verif
open NDArray

variable {K : Type}

/-- the attribute `Op` of a solver: matvec and rmatvec -/
structure XOp (K : Type) where
  mv : Ctx K → XArr K → P K (XArr K)
  rmv : Ctx K → XArr K → P K (XArr K)

/-- a `MPILinearOperator` as `Op` -/
def MOp.toX [Field K] [StarRing K] (e : MOp K (Prim K)) : XOp K where
  mv c x := match x with
    | .one d => do let y ← MOp.run c false e d; .ret (.one y)
    | .stack _ => .throw .attribute
  rmv c x := match x with
    | .one d => do let y ← MOp.run c true e d; .ret (.one y)
    | .stack _ => .throw .attribute

/-- a `MPIStackedLinearOperator` as `Op` -/
def SOp.toX [Field K] [StarRing K] (e : SOp K (Prim K)) : XOp K := ⟨fun c => SOp.run c false e, fun c => SOp.run c true e⟩

/-- division of Python floats -/
noncomputable def pyDiv (a b : ℝ) : P K ℝ := if b = 0 then .throw .zeroDiv else .ret (a / b)

/-- division by a NumPy scalar -/
noncomputable def npDiv [RCLike K] (a b : K) : P K K := if b = 0 then .throw .nonfinite else .ret (a / b)

/-- the float value of a norm -/
def FNum.toFloat : FNum → P K ℝ
  | .fin v => .ret v
  | _ => .throw .nonfinite

/-- `numpy.sqrt` of a float -/
noncomputable def FNum.sqrt (v : ℝ) : FNum := if v < 0 then .nan else .fin (Real.sqrt v)

section
variable [RCLike K]

/-- `np.abs(x.dot(y.conj()))` -/
noncomputable def absDot (c : Ctx K) (x y : XArr K) : P K ℝ := do
  let y ← y.conj c
  let v ← x.dot c y
  .ret ‖v‖

/-- `a * x` for a float `a` -/
def XArr.fmul (c : Ctx K) (a : ℝ) (x : XArr K) : P K (XArr K) := x.smul c .real (a : K)

end

/-- attributes of the class `CG` -/
structure CGS (K : Type) where
  y : XArr K
  niter : Option Int
  tol : ℝ
  r : XArr K
  c : XArr K
  kold : ℝ
  cost : List ℝ
  iiter : Nat

namespace CGS
variable [RCLike K]

/-- `CG.setup` — cls_basic.py:84-104; returns the attributes and `x` -/
noncomputable def setup (c : Ctx K) (op : XOp K) (y x0 : XArr K) (niter : Option Int) (tol : ℝ) : P K (CGS K × XArr K) := do
  let x ← x0.copy c
  let ax ← op.mv c x
  let r ← y.sub' c ax
  let cc ← r.copy c
  let kold ← absDot c r r
  .ret (⟨y, niter, tol, r, cc, kold, [Real.sqrt kold], 0⟩, x)

/-- `CG.step` — cls_basic.py:124-137 -/
noncomputable def step (c : Ctx K) (op : XOp K) (s : CGS K) (x : XArr K) : P K (CGS K × XArr K) := do
  let opc ← op.mv c s.c
  let copc ← absDot c s.c opc
  let a ← (if copc = 0 then .throw .nonfinite else .ret (s.kold / copc) : P K ℝ)
  let ac ← XArr.fmul c a s.c
  let x ← x.iadd c ac
  let ao ← XArr.fmul c a opc
  let r ← s.r.isub c ao
  let k ← absDot c r r
  let b ← pyDiv k s.kold
  let bc ← XArr.fmul c b s.c
  let cc ← r.add c bc
  .ret ({ s with r := r, c := cc, kold := k, iiter := s.iiter + 1, cost := s.cost ++ [Real.sqrt k] }, x)

/-- the loop of `CG.run` — cls_basic.py:172-184; the last component lists the arguments of the callback.  The first argument bounds the number of
    iterations; it is `niter - iiter`, so that the loop condition is false when it is exhausted. -/
noncomputable def loop (c : Ctx K) (op : XOp K) (niter : Int) : Nat → CGS K → XArr K → List (XArr K) → P K (CGS K × XArr K × List (XArr K))
  | 0, s, x, tr => .ret (s, x, tr)
  | k + 1, s, x, tr =>
    if (s.iiter : Int) < niter ∧ s.kold > s.tol then do
      let p ← step c op s x
      loop c op niter k p.1 p.2 (tr ++ [p.2])
    else .ret (s, x, tr)

/-- `CG.run` — cls_basic.py:169-185 -/
noncomputable def run (c : Ctx K) (op : XOp K) (s : CGS K) (x : XArr K) (niter : Option Int) : P K (CGS K × XArr K × List (XArr K)) :=
  match (match niter with | some m => some m | none => s.niter) with
  | none => .throw .value
  | some m => loop c op m (m - s.iiter).toNat s x []

/-- `CG.solve` — cls_basic.py:242-245, and `cg` — basic.py:64-70 -/
noncomputable def solve (c : Ctx K) (op : XOp K) (y x0 : XArr K) (niter : Option Int) (tol : ℝ) : P K (XArr K × Nat × List ℝ × List (XArr K)) := do
  let p ← setup c op y x0 niter tol
  let q ← run c op p.1 p.2 niter
  .ret (q.2.1, q.1.iiter, q.1.cost, q.2.2)

/-- `setup` followed by `k` calls of `step` -/
noncomputable def steps (c : Ctx K) (op : XOp K) (y x0 : XArr K) (niter : Option Int) (tol : ℝ) : Nat → P K (CGS K × XArr K)
  | 0 => setup c op y x0 niter tol
  | k + 1 => do
    let p ← steps c op y x0 niter tol k
    step c op p.1 p.2

end CGS

/-- attributes of the class `CGLS`; `damp` is the attribute, the square of the argument -/
structure CGLSS (K : Type) where
  y : XArr K
  damp : ℝ
  niter : Option Int
  tol : ℝ
  s : XArr K
  c : XArr K
  q : XArr K
  kold : ℝ
  cost : List ℝ
  cost1 : List FNum
  iiter : Nat

namespace CGLSS
variable [RCLike K]

/-- `CGLS.setup` — cls_basic.py:333-360 -/
noncomputable def setup (c : Ctx K) (op : XOp K) (y x0 : XArr K) (niter : Option Int) (damp tol : ℝ) : P K (CGLSS K × XArr K) := do
  let x ← x0.copy c
  let ax ← op.mv c x
  let s ← y.sub' c ax
  let dx ← XArr.fmul c damp x
  let rs ← op.rmv c s
  let r ← rs.sub' c dx
  let cc ← r.copy c
  let q ← op.mv c cc
  let kold ← absDot c r r
  let v ← s.norm c
  let cost0 ← v.toFloat
  let xx ← absDot c x x
  .ret (⟨y, damp ^ 2, niter, tol, s, cc, q, kold, [cost0], [FNum.sqrt (cost0 ^ 2 + damp * xx)], 0⟩, x)

/-- `CGLS.step` — cls_basic.py:381-396 -/
noncomputable def step (c : Ctx K) (op : XOp K) (st : CGLSS K) (x : XArr K) : P K (CGLSS K × XArr K) := do
  let qc ← st.q.conj c
  let qq ← st.q.dot c qc
  let ccj ← st.c.conj c
  let cc ← st.c.dot c ccj
  let av ← npDiv (st.kold : K) (qq + (st.damp : K) * cc)
  let a := ‖av‖
  let ac ← XArr.fmul c a st.c
  let x ← x.iadd c ac
  let aq ← XArr.fmul c a st.q
  let s ← st.s.isub c aq
  let dx ← XArr.fmul c st.damp x
  let rs ← op.rmv c s
  let r ← rs.sub' c dx
  let k ← absDot c r r
  let b ← pyDiv k st.kold
  let bc ← XArr.fmul c b st.c
  let cn ← r.add c bc
  let q ← op.mv c cn
  let v ← s.norm c
  let ck ← v.toFloat
  let xx ← absDot c x x
  .ret ({ st with s := s, c := cn, q := q, kold := k, iiter := st.iiter + 1, cost := st.cost ++ [ck], cost1 := st.cost1 ++ [FNum.sqrt (ck ^ 2 + st.damp * xx)] }, x)

/-- the loop of `CGLS.run` — cls_basic.py:428-440 (as for CG) -/
noncomputable def loop (c : Ctx K) (op : XOp K) (niter : Int) : Nat → CGLSS K → XArr K → List (XArr K) → P K (CGLSS K × XArr K × List (XArr K))
  | 0, s, x, tr => .ret (s, x, tr)
  | k + 1, s, x, tr =>
    if (s.iiter : Int) < niter ∧ s.kold > s.tol then do
      let p ← step c op s x
      loop c op niter k p.1 p.2 (tr ++ [p.2])
    else .ret (s, x, tr)

/-- `CGLS.run` — cls_basic.py:425-441 -/
noncomputable def run (c : Ctx K) (op : XOp K) (s : CGLSS K) (x : XArr K) (niter : Option Int) : P K (CGLSS K × XArr K × List (XArr K)) :=
  match (match niter with | some m => some m | none => s.niter) with
  | none => .throw .value
  | some m => loop c op m (m - s.iiter).toNat s x []

/-- what `CGLS.solve` returns -/
structure Result (K : Type) where
  x : XArr K
  istop : Nat
  iiter : Nat
  r1norm : ℝ
  r2norm : FNum
  cost : List ℝ
  trace : List (XArr K)

/-- `CGLS.finalize` — cls_basic.py:452-461 — and the returned values -/
noncomputable def finalize (s : CGLSS K) (x : XArr K) (tr : List (XArr K)) : P K (Result K) :=
  match s.cost1[s.iiter]? with
  | some r2 => .ret ⟨x, if s.kold < s.tol then 1 else 2, s.iiter, s.kold, r2, s.cost, tr⟩
  | none => .throw .index

/-- `CGLS.solve` — cls_basic.py:520-523, and `cgls` — basic.py:142-148 -/
noncomputable def solve (c : Ctx K) (op : XOp K) (y x0 : XArr K) (niter : Option Int) (damp tol : ℝ) : P K (Result K) := do
  let p ← setup c op y x0 niter damp tol
  let q ← run c op p.1 p.2 niter
  finalize q.1 q.2.1 q.2.2

/-- `setup` followed by `k` calls of `step` -/
noncomputable def steps (c : Ctx K) (op : XOp K) (y x0 : XArr K) (niter : Option Int) (damp tol : ℝ) : Nat → P K (CGLSS K × XArr K)
  | 0 => setup c op y x0 niter damp tol
  | k + 1 => do
    let p ← steps c op y x0 niter damp tol k
    step c op p.1 p.2

end CGLSS
end Verif

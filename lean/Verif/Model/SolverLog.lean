/-
  The solvers of /repo/pylops_mpi/optimization/cls_basic.py with the argument `show`: what is printed, and what printing does to the run.

  A printed line is represented by the numbers it shows.  Printing itself, `_print_solver` and `_print_finalize` (classes of pylops) are assumed to succeed.
  NumPy ≥ 1.24 is assumed for `np.iscomplexobj` of a list of arrays, see `printSetup`.
-/
import Verif.Model.Solvers

namespace Verif
open NDArray

variable {K : Type}

/-- the argument `itershow` -/
structure IterShow where
  first : Int
  last : Int
  every : Int

/-- `showstep` — cls_basic.py:173-182 (CG), 429-438 (CGLS); a remainder by zero raises ZeroDivisionError -/
def showStep (show' : Bool) (it : IterShow) (niter : Int) (iiter : Nat) : Except Err Bool :=
  if show' = false then .ok false
  else if (iiter : Int) < it.first then .ok true
  else if niter - iiter < it.last then .ok true
  else if it.every = 0 then .error .zeroDiv
  else .ok (decide ((iiter : Int).fmod it.every = 0))

/-- the number `x[0]` in a format string with a format for numbers.  `x[0]` raises IndexError if the local array has no first entry; if it is an array the format raises TypeError. -/
def DArr.first (d : DArr K) : Except Err K :=
  match d.larr.shape with
  | [] => .error .index
  | 0 :: _ => .error .index
  | [_] => match d.larr.data.head? with
    | some v => .ok v
    | none => .error .index
  | _ => .error .type

/-- `x[0]` in `_print_step` — cls_basic.py:47-49 (CG), 290-292 (CGLS) -/
def XArr.first : XArr K → Except Err K
  | .one d => d.first
  | .stack [] => .error .index
  | .stack (d :: _) => d.first

/-- the check for complex numbers before `_print_setup` — cls_basic.py:99-103 (CG), 355-359 (CGLS).  `np.iscomplexobj` of a list makes an array of the list, and NumPy (≥ 1.24) raises ValueError if the
    shapes in the list differ. -/
def XArr.printSetup : XArr K → Except Err Unit
  | .one _ => .ok ()
  | .stack [] => .ok ()
  | .stack (d :: l) => if l.all fun e => e.larr.shape = d.larr.shape then .ok () else .error .value

/-- a line of the log: iteration, `x[0]`, `cost` and, for CGLS, `cost1` -/
structure LogLine (K : Type) where
  iiter : Nat
  x0 : K
  cost : ℝ
  cost1 : Option FNum

namespace CGS
variable [RCLike K]

/-- `CG.setup` with `show` — cls_basic.py:84-104 -/
noncomputable def setupShow (c : Ctx K) (show' : Bool) (op : XOp K) (y x0 : XArr K) (niter : Option Int) (tol : ℝ) : P K (CGS K × XArr K) := do
  let p ← setup c op y x0 niter tol
  Prog.lift (if show' ∧ c.rank = 0 then p.2.printSetup else .ok ())
  .ret p

/-- `CG._print_step` — cls_basic.py:46-52 -/
def printStep (s : CGS K) (x : XArr K) : Except Err (LogLine K) :=
  match x.first with
  | .error e => .error e
  | .ok v => match s.cost[s.iiter]? with
    | some k => .ok ⟨s.iiter, v, k, none⟩
    | none => .error .index

/-- `CG.step` with `show` — cls_basic.py:124-139 -/
noncomputable def stepShow (c : Ctx K) (show' : Bool) (op : XOp K) (s : CGS K) (x : XArr K) : P K ((CGS K × XArr K) × List (LogLine K)) := do
  let p ← step c op s x
  if show' ∧ c.rank = 0 then do
    let l ← Prog.lift (printStep p.1 p.2)
    .ret (p, [l])
  else .ret (p, [])

/-- the loop of `CG.run` with `show` — cls_basic.py:172-184 -/
noncomputable def loopShow (c : Ctx K) (show' : Bool) (it : IterShow) (op : XOp K) (niter : Int) :
    Nat → CGS K → XArr K → List (XArr K) → List (LogLine K) → P K ((CGS K × XArr K × List (XArr K)) × List (LogLine K))
  | 0, s, x, tr, log => .ret ((s, x, tr), log)
  | k + 1, s, x, tr, log =>
    if (s.iiter : Int) < niter ∧ s.kold > s.tol then do
      let sh ← Prog.lift (showStep show' it niter s.iiter)
      let p ← stepShow c sh op s x
      loopShow c show' it op niter k p.1.1 p.1.2 (tr ++ [p.1.2]) (log ++ p.2)
    else .ret ((s, x, tr), log)

/-- `CG.run` with `show` — cls_basic.py:169-185 -/
noncomputable def runShow (c : Ctx K) (show' : Bool) (it : IterShow) (op : XOp K) (s : CGS K) (x : XArr K) (niter : Option Int) :
    P K ((CGS K × XArr K × List (XArr K)) × List (LogLine K)) :=
  match (match niter with | some m => some m | none => s.niter) with
  | none => .throw .value
  | some m => loopShow c show' it op m (m - s.iiter).toNat s x [] []

/-- `CG.solve` with `show` — cls_basic.py:242-245; the last component is the log -/
noncomputable def solveShow (c : Ctx K) (show' : Bool) (it : IterShow) (op : XOp K) (y x0 : XArr K) (niter : Option Int) (tol : ℝ) :
    P K ((XArr K × Nat × List ℝ × List (XArr K)) × List (LogLine K)) := do
  let p ← setupShow c show' op y x0 niter tol
  let q ← runShow c show' it op p.1 p.2 niter
  .ret ((q.1.2.1, q.1.1.iiter, q.1.1.cost, q.1.2.2), q.2)

end CGS

namespace CGLSS
variable [RCLike K]

/-- `CGLS.setup` with `show` — cls_basic.py:333-360 -/
noncomputable def setupShow (c : Ctx K) (show' : Bool) (op : XOp K) (y x0 : XArr K) (niter : Option Int) (damp tol : ℝ) : P K (CGLSS K × XArr K) := do
  let p ← setup c op y x0 niter damp tol
  Prog.lift (if show' ∧ c.rank = 0 then p.2.printSetup else .ok ())
  .ret p

/-- `CGLS._print_step` — cls_basic.py:289-299 -/
def printStep (s : CGLSS K) (x : XArr K) : Except Err (LogLine K) :=
  match x.first with
  | .error e => .error e
  | .ok v => match s.cost[s.iiter]?, s.cost1[s.iiter]? with
    | some k, some k1 => .ok ⟨s.iiter, v, k, some k1⟩
    | _, _ => .error .index

/-- `CGLS.step` with `show` — cls_basic.py:381-398 -/
noncomputable def stepShow (c : Ctx K) (show' : Bool) (op : XOp K) (s : CGLSS K) (x : XArr K) : P K ((CGLSS K × XArr K) × List (LogLine K)) := do
  let p ← step c op s x
  if show' ∧ c.rank = 0 then do
    let l ← Prog.lift (printStep p.1 p.2)
    .ret (p, [l])
  else .ret (p, [])

/-- the loop of `CGLS.run` with `show` — cls_basic.py:428-440 -/
noncomputable def loopShow (c : Ctx K) (show' : Bool) (it : IterShow) (op : XOp K) (niter : Int) :
    Nat → CGLSS K → XArr K → List (XArr K) → List (LogLine K) → P K ((CGLSS K × XArr K × List (XArr K)) × List (LogLine K))
  | 0, s, x, tr, log => .ret ((s, x, tr), log)
  | k + 1, s, x, tr, log =>
    if (s.iiter : Int) < niter ∧ s.kold > s.tol then do
      let sh ← Prog.lift (showStep show' it niter s.iiter)
      let p ← stepShow c sh op s x
      loopShow c show' it op niter k p.1.1 p.1.2 (tr ++ [p.1.2]) (log ++ p.2)
    else .ret ((s, x, tr), log)

/-- `CGLS.run` with `show` — cls_basic.py:425-441 -/
noncomputable def runShow (c : Ctx K) (show' : Bool) (it : IterShow) (op : XOp K) (s : CGLSS K) (x : XArr K) (niter : Option Int) :
    P K ((CGLSS K × XArr K × List (XArr K)) × List (LogLine K)) :=
  match (match niter with | some m => some m | none => s.niter) with
  | none => .throw .value
  | some m => loopShow c show' it op m (m - s.iiter).toNat s x [] []

/-- `CGLS.solve` with `show` — cls_basic.py:520-523; the second component is the log -/
noncomputable def solveShow (c : Ctx K) (show' : Bool) (it : IterShow) (op : XOp K) (y x0 : XArr K) (niter : Option Int) (damp tol : ℝ) : P K (Result K × List (LogLine K)) := do
  let p ← setupShow c show' op y x0 niter damp tol
  let q ← runShow c show' it op p.1 p.2 niter
  let res ← finalize q.1.1 q.1.2.1 q.1.2.2
  .ret (res, q.2)

end CGLSS
end Verif

/-
  The classes `CG` and `CGLS` of /repo/pylops_mpi/optimization/cls_basic.py as objects whose attributes are read and written by the methods, statement by statement.

  Model/HeapSolvers has the same methods as functions on the record of all attributes; here attributes may be unset, an exception leaves the attributes as they are at that point, and
  `finalize` replaces the list `self.cost` by a NumPy array.  Not modelled: the attributes `rank`, `tstart`, `tend`, `telapsed` and printing (see Model/SolverLog).
-/
import Verif.Model.HeapSolvers

namespace Verif
open NDArray

/-- methods of an object with attributes `σ`: programs of one rank acting on the object and the memory; the attributes are kept when an exception is raised -/
def OM (σ K α : Type) : Type := σ → Heap K → P K (Except Err α × σ × Heap K)

namespace OM
variable {σ K α β : Type}

def ret (a : α) : OM σ K α := fun o h => .ret (.ok a, o, h)
def throw (e : Err) : OM σ K α := fun o h => .ret (.error e, o, h)
def bind (m : OM σ K α) (k : α → OM σ K β) : OM σ K β := fun o h => (m o h).bind fun p => match p.1 with
  | .ok a => k a p.2.1 p.2.2
  | .error e => .ret (.error e, p.2)

instance : Monad (OM σ K) where
  pure := ret
  bind := bind

/-- a program that does not use the object -/
def lift (m : HP K α) : OM σ K α := fun o h => (m h).bind fun p => .ret (p.1, o, p.2)

/-- `self.attr`: AttributeError if it is not set -/
def get (f : σ → Option α) : OM σ K α := fun o h => match f o with
  | some a => .ret (.ok a, o, h)
  | none => .ret (.error .attribute, o, h)

/-- `self.attr = v` -/
def set (f : σ → σ) : OM σ K Unit := fun o h => .ret (.ok (), f o, h)

/-- `l[i]` -/
def item (l : List α) (i : Nat) : OM σ K α := match l[i]? with
  | some a => ret a
  | none => throw .index

end OM

/-- the attribute `cost`: a Python list, or a NumPy array -/
inductive Costs
  | list (l : List ℝ)
  | array (l : List ℝ)

def Costs.vals : Costs → List ℝ
  | list l => l
  | array l => l

/-- `self.cost.append`, looked up before its argument is evaluated: NumPy arrays have no such attribute -/
def OM.appendable {σ K : Type} (f : σ → Option Costs) : OM σ K (List ℝ) := do
  match ← OM.get f with
  | .list l => OM.ret l
  | .array _ => OM.throw .attribute

/-- attributes of a `CG` object; `none`: not set -/
structure CGObj where
  y : Option XRef
  niter : Option (Option Int)
  tol : Option ℝ
  r : Option XRef
  c : Option XRef
  kold : Option ℝ
  cost : Option Costs
  iiter : Option Nat

namespace CGObj
variable {K : Type} [RCLike K]

/-- `CG.setup` — cls_basic.py:84-104 -/
noncomputable def setup (c : Ctx K) (op : HXOp K) (y x0 : XRef) (niter : Option Int) (tol : ℝ) : OM CGObj K XRef := do
  OM.set fun o => { o with y := some y }
  OM.set fun o => { o with niter := some niter }
  OM.set fun o => { o with tol := some tol }
  let x ← OM.lift (HX.copy c x0)
  let y ← OM.get CGObj.y
  let ax ← OM.lift (op.mv c x)
  let r ← OM.lift (HX.sub c y ax)
  OM.set fun o => { o with r := some r }
  let r ← OM.get CGObj.r
  let cc ← OM.lift (HX.copy c r)
  OM.set fun o => { o with c := some cc }
  let r ← OM.get CGObj.r
  let k ← OM.lift (HX.absDot c r r)
  OM.set fun o => { o with kold := some k }
  OM.set fun o => { o with cost := some (.list []) }
  let l ← OM.appendable CGObj.cost
  let k ← OM.get CGObj.kold
  OM.set fun o => { o with cost := some (.list (l ++ [Real.sqrt k])) }
  OM.set fun o => { o with iiter := some 0 }
  OM.ret x

/-- `CG.step` — cls_basic.py:124-137 -/
noncomputable def step (c : Ctx K) (op : HXOp K) (x : XRef) : OM CGObj K XRef := do
  let cc ← OM.get CGObj.c
  let opc ← OM.lift (op.mv c cc)
  let cc ← OM.get CGObj.c
  let copc ← OM.lift (HX.absDot c cc opc)
  let kold ← OM.get CGObj.kold
  let a ← OM.lift (HP.lift (if copc = 0 then .throw .nonfinite else .ret (kold / copc) : P K ℝ))
  let cc ← OM.get CGObj.c
  let ac ← OM.lift (HX.fmul c a cc)
  let x ← OM.lift (HX.iadd c x ac)
  let r ← OM.get CGObj.r
  let ao ← OM.lift (HX.fmul c a opc)
  let r ← OM.lift (HX.isub c r ao)
  OM.set fun o => { o with r := some r }
  let r ← OM.get CGObj.r
  let k ← OM.lift (HX.absDot c r r)
  let kold ← OM.get CGObj.kold
  let b ← OM.lift (HP.lift (pyDiv k kold))
  let r ← OM.get CGObj.r
  let cc ← OM.get CGObj.c
  let bc ← OM.lift (HX.fmul c b cc)
  let cn ← OM.lift (HX.add c r bc)
  OM.set fun o => { o with c := some cn }
  OM.set fun o => { o with kold := some k }
  let i ← OM.get CGObj.iiter
  OM.set fun o => { o with iiter := some (i + 1) }
  let l ← OM.appendable CGObj.cost
  let k ← OM.get CGObj.kold
  OM.set fun o => { o with cost := some (.list (l ++ [Real.sqrt k])) }
  OM.ret x

/-- the loop of `CG.run` — cls_basic.py:172-184 (see `HCG.loop`) -/
noncomputable def loop (c : Ctx K) (op : HXOp K) (cb : XRef → HP K Unit) (niter : Int) : Nat → XRef → List (XArr K) → OM CGObj K (XRef × List (XArr K))
  | 0, x, tr => OM.ret (x, tr)
  | f + 1, x, tr => do
    let i ← OM.get CGObj.iiter
    let k ← OM.get CGObj.kold
    let t ← OM.get CGObj.tol
    if (i : Int) < niter ∧ k > t then do
      let x ← step c op x
      let v ← OM.lift (HX.read x)
      OM.lift (cb x)
      loop c op cb niter f x (tr ++ [v])
    else OM.ret (x, tr)

/-- `CG.run` — cls_basic.py:169-185 -/
noncomputable def run (c : Ctx K) (op : HXOp K) (cb : XRef → HP K Unit) (x : XRef) (niter : Option Int) : OM CGObj K (XRef × List (XArr K)) := do
  let m ← match niter with
    | some m => OM.ret (some m)
    | none => OM.get CGObj.niter
  match m with
  | none => OM.throw .value
  | some m => do
    let i ← OM.get CGObj.iiter
    loop c op cb m (m - i).toNat x []

/-- `CG.finalize` — cls_basic.py:197-199 -/
def finalize : OM CGObj K Unit := do
  let l ← OM.get CGObj.cost
  OM.set fun o => { o with cost := some (.array l.vals) }

/-- `CG.solve` — cls_basic.py:242-245: the iterate, the number of iterations, `cost` and the arguments of the callback -/
noncomputable def solve (c : Ctx K) (op : HXOp K) (cb : XRef → HP K Unit) (y x0 : XRef) (niter : Option Int) (tol : ℝ) : OM CGObj K (XRef × Nat × List ℝ × List (XArr K)) := do
  let x ← setup c op y x0 niter tol
  let p ← run c op cb x niter
  finalize
  let i ← OM.get CGObj.iiter
  let l ← OM.get CGObj.cost
  OM.ret (p.1, i, l.vals, p.2)

end CGObj

/-- attributes of a `CGLS` object; `none`: not set -/
structure CGLSObj where
  y : Option XRef
  damp : Option ℝ
  niter : Option (Option Int)
  tol : Option ℝ
  s : Option XRef
  c : Option XRef
  q : Option XRef
  kold : Option ℝ
  cost : Option Costs
  cost1 : Option (List FNum)
  iiter : Option Nat
  istop : Option Nat
  r1norm : Option ℝ
  r2norm : Option FNum

namespace CGLSObj
variable {K : Type} [RCLike K]

/-- `CGLS.setup` — cls_basic.py:333-360 -/
noncomputable def setup (c : Ctx K) (op : HXOp K) (y x0 : XRef) (niter : Option Int) (damp tol : ℝ) : OM CGLSObj K XRef := do
  OM.set fun o => { o with y := some y }
  OM.set fun o => { o with damp := some (damp ^ 2) }
  OM.set fun o => { o with tol := some tol }
  OM.set fun o => { o with niter := some niter }
  let x ← OM.lift (HX.copy c x0)
  let y ← OM.get CGLSObj.y
  let ax ← OM.lift (op.mv c x)
  let s ← OM.lift (HX.sub c y ax)
  OM.set fun o => { o with s := some s }
  let dx ← OM.lift (HX.fmul c damp x)
  let s ← OM.get CGLSObj.s
  let rs ← OM.lift (op.rmv c s)
  let r ← OM.lift (HX.sub c rs dx)
  let cc ← OM.lift (HX.copy c r)
  OM.set fun o => { o with c := some cc }
  let cc ← OM.get CGLSObj.c
  let q ← OM.lift (op.mv c cc)
  OM.set fun o => { o with q := some q }
  let k ← OM.lift (HX.absDot c r r)
  OM.set fun o => { o with kold := some k }
  OM.set fun o => { o with cost := some (.list []) }
  OM.set fun o => { o with cost1 := some [] }
  let l ← OM.appendable CGLSObj.cost
  let s ← OM.get CGLSObj.s
  let v ← OM.lift (HX.norm c s)
  let v ← OM.lift (HP.lift v.toFloat)
  OM.set fun o => { o with cost := some (.list (l ++ [v])) }
  let l1 ← OM.get CGLSObj.cost1
  let l ← OM.get CGLSObj.cost
  let v ← OM.item l.vals 0
  let xx ← OM.lift (HX.absDot c x x)
  OM.set fun o => { o with cost1 := some (l1 ++ [FNum.sqrt (v ^ 2 + damp * xx)]) }
  OM.set fun o => { o with iiter := some 0 }
  OM.ret x

/-- `CGLS.step` up to the assignment to `iiter` — cls_basic.py:381-392 -/
noncomputable def update (c : Ctx K) (op : HXOp K) (x : XRef) : OM CGLSObj K XRef := do
  let kold ← OM.get CGLSObj.kold
  let q ← OM.get CGLSObj.q
  let qc ← OM.lift (HX.conj c q)
  let qq ← OM.lift (HX.dot c q qc)
  let damp ← OM.get CGLSObj.damp
  let cc ← OM.get CGLSObj.c
  let ccj ← OM.lift (HX.conj c cc)
  let cd ← OM.lift (HX.dot c cc ccj)
  let av ← OM.lift (HP.lift (npDiv (kold : K) (qq + (damp : K) * cd)))
  let cc ← OM.get CGLSObj.c
  let ac ← OM.lift (HX.fmul c ‖av‖ cc)
  let x ← OM.lift (HX.iadd c x ac)
  let s ← OM.get CGLSObj.s
  let q ← OM.get CGLSObj.q
  let aq ← OM.lift (HX.fmul c ‖av‖ q)
  let s ← OM.lift (HX.isub c s aq)
  OM.set fun o => { o with s := some s }
  let damp ← OM.get CGLSObj.damp
  let dx ← OM.lift (HX.fmul c damp x)
  let s ← OM.get CGLSObj.s
  let rs ← OM.lift (op.rmv c s)
  let r ← OM.lift (HX.sub c rs dx)
  let k ← OM.lift (HX.absDot c r r)
  let kold ← OM.get CGLSObj.kold
  let b ← OM.lift (HP.lift (pyDiv k kold))
  let cc ← OM.get CGLSObj.c
  let bc ← OM.lift (HX.fmul c b cc)
  let cn ← OM.lift (HX.add c r bc)
  OM.set fun o => { o with c := some cn }
  let cn ← OM.get CGLSObj.c
  let q ← OM.lift (op.mv c cn)
  OM.set fun o => { o with q := some q }
  OM.set fun o => { o with kold := some k }
  let i ← OM.get CGLSObj.iiter
  OM.set fun o => { o with iiter := some (i + 1) }
  OM.ret x

/-- the rest of `CGLS.step` — cls_basic.py:393-396 -/
noncomputable def record (c : Ctx K) (x : XRef) : OM CGLSObj K XRef := do
  let l ← OM.appendable CGLSObj.cost
  let s ← OM.get CGLSObj.s
  let v ← OM.lift (HX.norm c s)
  let v ← OM.lift (HP.lift v.toFloat)
  OM.set fun o => { o with cost := some (.list (l ++ [v])) }
  let l1 ← OM.get CGLSObj.cost1
  let l ← OM.get CGLSObj.cost
  let i ← OM.get CGLSObj.iiter
  let v ← OM.item l.vals i
  let damp ← OM.get CGLSObj.damp
  let xx ← OM.lift (HX.absDot c x x)
  OM.set fun o => { o with cost1 := some (l1 ++ [FNum.sqrt (v ^ 2 + damp * xx)]) }
  OM.ret x

/-- `CGLS.step` — cls_basic.py:381-396 -/
noncomputable def step (c : Ctx K) (op : HXOp K) (x : XRef) : OM CGLSObj K XRef := do
  let x ← update c op x
  record c x

/-- the loop of `CGLS.run` — cls_basic.py:428-440 -/
noncomputable def loop (c : Ctx K) (op : HXOp K) (cb : XRef → HP K Unit) (niter : Int) : Nat → XRef → List (XArr K) → OM CGLSObj K (XRef × List (XArr K))
  | 0, x, tr => OM.ret (x, tr)
  | f + 1, x, tr => do
    let i ← OM.get CGLSObj.iiter
    let k ← OM.get CGLSObj.kold
    let t ← OM.get CGLSObj.tol
    if (i : Int) < niter ∧ k > t then do
      let x ← step c op x
      let v ← OM.lift (HX.read x)
      OM.lift (cb x)
      loop c op cb niter f x (tr ++ [v])
    else OM.ret (x, tr)

/-- `CGLS.run` — cls_basic.py:425-441 -/
noncomputable def run (c : Ctx K) (op : HXOp K) (cb : XRef → HP K Unit) (x : XRef) (niter : Option Int) : OM CGLSObj K (XRef × List (XArr K)) := do
  let m ← match niter with
    | some m => OM.ret (some m)
    | none => OM.get CGLSObj.niter
  match m with
  | none => OM.throw .value
  | some m => do
    let i ← OM.get CGLSObj.iiter
    loop c op cb m (m - i).toNat x []

/-- `CGLS.finalize` — cls_basic.py:452-461 -/
noncomputable def finalize : OM CGLSObj K Unit := do
  let k ← OM.get CGLSObj.kold
  let t ← OM.get CGLSObj.tol
  OM.set fun o => { o with istop := some (if k < t then 1 else 2) }
  let k ← OM.get CGLSObj.kold
  OM.set fun o => { o with r1norm := some k }
  let l1 ← OM.get CGLSObj.cost1
  let i ← OM.get CGLSObj.iiter
  let v ← OM.item l1 i
  OM.set fun o => { o with r2norm := some v }
  let l ← OM.get CGLSObj.cost
  OM.set fun o => { o with cost := some (.array l.vals) }

/-- `CGLS.solve` — cls_basic.py:520-523 -/
noncomputable def solve (c : Ctx K) (op : HXOp K) (cb : XRef → HP K Unit) (y x0 : XRef) (niter : Option Int) (damp tol : ℝ) : OM CGLSObj K (HCGLS.Result K) := do
  let x ← setup c op y x0 niter damp tol
  let p ← run c op cb x niter
  finalize
  let istop ← OM.get CGLSObj.istop
  let i ← OM.get CGLSObj.iiter
  let r1 ← OM.get CGLSObj.r1norm
  let r2 ← OM.get CGLSObj.r2norm
  let l ← OM.get CGLSObj.cost
  OM.ret ⟨p.1, istop, i, r1, r2, l.vals, p.2⟩

end CGLSObj
end Verif

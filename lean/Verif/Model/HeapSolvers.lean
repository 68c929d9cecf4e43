/-
  The solvers of /repo/pylops_mpi/optimization/cls_basic.py acting on the memory (see Model/Heap).

  The attributes of a solver that are arrays are references; assigning to an attribute is returning a new record.  The operator and the callback are
  arbitrary programs acting on the memory.  Scalars and simplifications are those of Model/Solvers.
-/
import Verif.Model.Heap

namespace Verif
open NDArray

variable {K : Type}

/-- the attribute `Op` of a solver, acting on the memory -/
structure HXOp (K : Type) where
  mv : Ctx K → XRef → HP K XRef
  rmv : Ctx K → XRef → HP K XRef

section
variable [RCLike K]

/-- `x.norm()` -/
noncomputable def HX.norm (c : Ctx K) (x : XRef) : HP K FNum := do
  let a ← HX.read x
  HP.lift (a.norm c)

/-- `np.abs(x.dot(y.conj()))` -/
noncomputable def HX.absDot (c : Ctx K) (x y : XRef) : HP K ℝ := do
  let y ← HX.conj c y
  let v ← HX.dot c x y
  HP.ret ‖v‖

/-- `a * x` for a float `a` -/
def HX.fmul (c : Ctx K) (a : ℝ) (x : XRef) : HP K XRef := HX.smul c .real (a : K) x

end

/-- attributes of the class `CG` -/
structure HCG where
  y : XRef
  niter : Option Int
  tol : ℝ
  r : XRef
  c : XRef
  kold : ℝ
  cost : List ℝ
  iiter : Nat

namespace HCG
variable [RCLike K]

/-- `CG.setup` — cls_basic.py:84-104 -/
noncomputable def setup (c : Ctx K) (op : HXOp K) (y x0 : XRef) (niter : Option Int) (tol : ℝ) : HP K (HCG × XRef) := do
  let x ← HX.copy c x0
  let ax ← op.mv c x
  let r ← HX.sub c y ax
  let cc ← HX.copy c r
  let kold ← HX.absDot c r r
  HP.ret (⟨y, niter, tol, r, cc, kold, [Real.sqrt kold], 0⟩, x)

/-- `CG.step` — cls_basic.py:124-137 -/
noncomputable def step (c : Ctx K) (op : HXOp K) (s : HCG) (x : XRef) : HP K (HCG × XRef) := do
  let opc ← op.mv c s.c
  let copc ← HX.absDot c s.c opc
  let a ← HP.lift (if copc = 0 then .throw .nonfinite else .ret (s.kold / copc) : P K ℝ)
  let ac ← HX.fmul c a s.c
  let x ← HX.iadd c x ac
  let ao ← HX.fmul c a opc
  let r ← HX.isub c s.r ao
  let k ← HX.absDot c r r
  let b ← HP.lift (pyDiv k s.kold)
  let bc ← HX.fmul c b s.c
  let cc ← HX.add c r bc
  HP.ret ({ s with r := r, c := cc, kold := k, iiter := s.iiter + 1, cost := s.cost ++ [Real.sqrt k] }, x)

/-- the loop of `CG.run` — cls_basic.py:172-184 (see `CGS.loop`); `cb` is the callback, and the value of its argument is recorded -/
noncomputable def loop (c : Ctx K) (op : HXOp K) (cb : XRef → HP K Unit) (niter : Int) : Nat → HCG → XRef → List (XArr K) → HP K (HCG × XRef × List (XArr K))
  | 0, s, x, tr => HP.ret (s, x, tr)
  | k + 1, s, x, tr =>
    if (s.iiter : Int) < niter ∧ s.kold > s.tol then do
      let p ← step c op s x
      let v ← HX.read p.2
      cb p.2
      loop c op cb niter k p.1 p.2 (tr ++ [v])
    else HP.ret (s, x, tr)

/-- `CG.run` — cls_basic.py:169-185 -/
noncomputable def run (c : Ctx K) (op : HXOp K) (cb : XRef → HP K Unit) (s : HCG) (x : XRef) (niter : Option Int) : HP K (HCG × XRef × List (XArr K)) :=
  match (match niter with | some m => some m | none => s.niter) with
  | none => HP.throw .value
  | some m => loop c op cb m (m - s.iiter).toNat s x []

/-- `CG.solve` — cls_basic.py:242-245, and `cg` — basic.py:64-70 -/
noncomputable def solve (c : Ctx K) (op : HXOp K) (cb : XRef → HP K Unit) (y x0 : XRef) (niter : Option Int) (tol : ℝ) : HP K (XRef × Nat × List ℝ × List (XArr K)) := do
  let p ← setup c op y x0 niter tol
  let q ← run c op cb p.1 p.2 niter
  HP.ret (q.2.1, q.1.iiter, q.1.cost, q.2.2)

end HCG

/-- attributes of the class `CGLS` -/
structure HCGLS where
  y : XRef
  damp : ℝ
  niter : Option Int
  tol : ℝ
  s : XRef
  c : XRef
  q : XRef
  kold : ℝ
  cost : List ℝ
  cost1 : List FNum
  iiter : Nat

namespace HCGLS
variable [RCLike K]

/-- `CGLS.setup` — cls_basic.py:333-360 -/
noncomputable def setup (c : Ctx K) (op : HXOp K) (y x0 : XRef) (niter : Option Int) (damp tol : ℝ) : HP K (HCGLS × XRef) := do
  let x ← HX.copy c x0
  let ax ← op.mv c x
  let s ← HX.sub c y ax
  let dx ← HX.fmul c damp x
  let rs ← op.rmv c s
  let r ← HX.sub c rs dx
  let cc ← HX.copy c r
  let q ← op.mv c cc
  let kold ← HX.absDot c r r
  let v ← HX.norm c s
  let cost0 ← HP.lift v.toFloat
  let xx ← HX.absDot c x x
  HP.ret (⟨y, damp ^ 2, niter, tol, s, cc, q, kold, [cost0], [FNum.sqrt (cost0 ^ 2 + damp * xx)], 0⟩, x)

/-- `CGLS.step` — cls_basic.py:381-396 -/
noncomputable def step (c : Ctx K) (op : HXOp K) (st : HCGLS) (x : XRef) : HP K (HCGLS × XRef) := do
  let qc ← HX.conj c st.q
  let qq ← HX.dot c st.q qc
  let ccj ← HX.conj c st.c
  let cc ← HX.dot c st.c ccj
  let av ← HP.lift (npDiv (st.kold : K) (qq + (st.damp : K) * cc))
  let ac ← HX.fmul c ‖av‖ st.c
  let x ← HX.iadd c x ac
  let aq ← HX.fmul c ‖av‖ st.q
  let s ← HX.isub c st.s aq
  let dx ← HX.fmul c st.damp x
  let rs ← op.rmv c s
  let r ← HX.sub c rs dx
  let k ← HX.absDot c r r
  let b ← HP.lift (pyDiv k st.kold)
  let bc ← HX.fmul c b st.c
  let cn ← HX.add c r bc
  let q ← op.mv c cn
  let v ← HX.norm c s
  let ck ← HP.lift v.toFloat
  let xx ← HX.absDot c x x
  HP.ret ({ st with s := s, c := cn, q := q, kold := k, iiter := st.iiter + 1, cost := st.cost ++ [ck], cost1 := st.cost1 ++ [FNum.sqrt (ck ^ 2 + st.damp * xx)] }, x)

/-- the loop of `CGLS.run` — cls_basic.py:428-440 -/
noncomputable def loop (c : Ctx K) (op : HXOp K) (cb : XRef → HP K Unit) (niter : Int) : Nat → HCGLS → XRef → List (XArr K) → HP K (HCGLS × XRef × List (XArr K))
  | 0, s, x, tr => HP.ret (s, x, tr)
  | k + 1, s, x, tr =>
    if (s.iiter : Int) < niter ∧ s.kold > s.tol then do
      let p ← step c op s x
      let v ← HX.read p.2
      cb p.2
      loop c op cb niter k p.1 p.2 (tr ++ [v])
    else HP.ret (s, x, tr)

/-- `CGLS.run` — cls_basic.py:425-441 -/
noncomputable def run (c : Ctx K) (op : HXOp K) (cb : XRef → HP K Unit) (s : HCGLS) (x : XRef) (niter : Option Int) : HP K (HCGLS × XRef × List (XArr K)) :=
  match (match niter with | some m => some m | none => s.niter) with
  | none => HP.throw .value
  | some m => loop c op cb m (m - s.iiter).toNat s x []

/-- what `CGLS.solve` returns -/
structure Result (K : Type) where
  x : XRef
  istop : Nat
  iiter : Nat
  r1norm : ℝ
  r2norm : FNum
  cost : List ℝ
  trace : List (XArr K)

/-- `CGLS.finalize` — cls_basic.py:452-461 — and the returned values -/
noncomputable def finalize (s : HCGLS) (x : XRef) (tr : List (XArr K)) : HP K (Result K) :=
  match s.cost1[s.iiter]? with
  | some r2 => HP.ret ⟨x, if s.kold < s.tol then 1 else 2, s.iiter, s.kold, r2, s.cost, tr⟩
  | none => HP.throw .index

/-- `CGLS.solve` — cls_basic.py:520-523, and `cgls` — basic.py:142-148 -/
noncomputable def solve (c : Ctx K) (op : HXOp K) (cb : XRef → HP K Unit) (y x0 : XRef) (niter : Option Int) (damp tol : ℝ) : HP K (Result K) := do
  let p ← setup c op y x0 niter damp tol
  let q ← run c op cb p.1 p.2 niter
  finalize q.1 q.2.1 q.2.2

end HCGLS
end Verif

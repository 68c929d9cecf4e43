/-
  The methods of the array classes that the solvers use, and the solvers of cls_basic.py and basic.py, with arbitrary arithmetic: the numbers are the elements of any
  type and nothing is assumed about the operations.  In this way rounding, overflow, infinities, NaN and the order of summation in NumPy and MPI are included.

  All of `float`, `float64` and `complex128` are values of one type `K`.  With exact arithmetic (`Arith.exact`) the array methods are those of
  Model/DistributedArray.lean (Proofs/FloatSolvers.lean).  A reduction gives the same number to all ranks of the communicator: mpi4py's `allreduce` of Python objects,
  which the code uses for sums, reduces to one rank and broadcasts the result.
-/
import Verif.Model.Solvers

namespace Verif
open NDArray

/-- what NumPy, Python and MPI do with numbers -/
structure Arith (K : Type) where
  /-- storing a number in an array -/
  cast : DType → K → K
  zero : K
  neg : K → K
  conj : K → K
  abs : K → K
  sqrt : K → K
  add : K → K → K
  mul : K → K → K
  /-- `a / b` for a NumPy scalar `b`: gives inf or nan if `b` is zero, but raises after `numpy.seterr(divide='raise')` -/
  npDiv : K → K → Except Err K
  /-- `a / b` for Python floats: may raise ZeroDivisionError -/
  pyDiv : K → K → Except Err K
  /-- `a ** 2` for a Python float: may raise OverflowError -/
  pySq : K → Except Err K
  /-- `numpy.dot` of two vectors of the same length -/
  dot : List K → List K → K
  /-- `numpy.sum(numpy.abs(numpy.float_power(x, 2)))` -/
  sumSq : List K → K
  /-- `numpy.power(s, 1. / 2)` -/
  root : K → K
  /-- the norm of a stack from the norms of its arrays — DistributedArray.py:822-837 for `ord=None` -/
  stackNorm : List K → K
  /-- `MPI.SUM` over the contributions of the ranks -/
  sum : List K → K
  gt : K → K → Bool
  lt : K → K → Bool

variable {K : Type}

namespace Arith
variable (A : Arith K)

/-- `a[index] = v` (see `NDArray.setIndex`) -/
def setIndex (ix : Index) (a v : NDArray K) : Except Err (NDArray K) := do
  let (sh, pos) ← ix a.shape
  let d ← bcastTo sh v
  return { a with data := writeAt a.data pos (d.map (A.cast a.dtype)) }

/-- `numpy.empty(shape, dtype)` -/
def emptyArr (c : Ctx K) (shape : List Nat) (dt : DType) : NDArray K := ⟨shape, dt, (List.range shape.prod).map fun i => A.cast dt (c.junk i)⟩

/-- `DistributedArray.__init__` — DistributedArray.py:99-127 -/
def mkDArr (c : Ctx K) (gshape : List Nat) (part : Partition) (axis : Nat) (lshapes : Option (List (List Nat))) (mask : Option (List Nat)) (dt : DType) : P K (DArr K) :=
  if gshape.length ≤ axis then .throw .index else do
    let sub ← mkSub c mask
    checkLocalShapes c gshape part axis (lshapes.getD [])
    let ls := if lshapes.getD [] = [] then localSplit c gshape part axis else (lshapes.getD []).getD c.rank []
    .ret { gshape := gshape, part := part, axis := axis, mask := mask, sub := sub, lshape := ls, dtype := dt, larr := A.emptyArr c ls dt }

/-- `d[:] = v` — DistributedArray.py:132-155 -/
def setAll (c : Ctx K) (d : DArr K) (v : NDArray K) : P K (DArr K) :=
  if d.part = .broadcast then do
    let v0 ← bcast c v
    let a ← Prog.lift (A.setIndex Index.all d.larr v0)
    .ret { d with larr := a }
  else do
    let a ← Prog.lift (A.setIndex Index.all d.larr v)
    .ret { d with larr := a }

/-- the constructor call shared by `__neg__`, `add`, `multiply`, `conj`, `copy` — DistributedArray.py:408-415, 442-449, 468-475, 578-585, 592-599 -/
def like (c : Ctx K) (d : DArr K) : P K (DArr K) := do
  let ls ← d.localShapes c
  A.mkDArr c d.gshape d.part d.axis (some ls) d.mask d.dtype

/-- `__neg__` — DistributedArray.py:407-417 -/
def dneg (c : Ctx K) (d : DArr K) : P K (DArr K) := do
  let r ← A.like c d
  A.setAll c r (d.larr.map A.neg)

/-- `add` — DistributedArray.py:437-451 -/
def dadd (c : Ctx K) (d e : DArr K) : P K (DArr K) := do
  d.checkCompat e
  let r ← A.like c d
  let v ← Prog.lift (NDArray.zip A.add d.larr e.larr)
  A.setAll c r v

/-- `iadd` — DistributedArray.py:453-459 -/
def diadd (c : Ctx K) (d e : DArr K) : P K (DArr K) := do
  d.checkCompat e
  let v ← Prog.lift (NDArray.zip A.add d.larr e.larr)
  A.setAll c d v

/-- `__sub__` — DistributedArray.py:425-426 -/
def dsub (c : Ctx K) (d e : DArr K) : P K (DArr K) := do
  let m ← A.dneg c e
  A.dadd c d m

/-- `__isub__` — DistributedArray.py:428-429 -/
def disub (c : Ctx K) (d e : DArr K) : P K (DArr K) := do
  let m ← A.dneg c e
  A.diadd c d m

/-- `multiply` by a scalar of dtype `t` — DistributedArray.py:461-482 -/
def dsmul (c : Ctx K) (d : DArr K) (t : DType) (s : K) : P K (DArr K) := do
  let r ← A.like c d
  A.setAll c r ⟨d.larr.shape, d.larr.dtype.promote t, d.larr.data.map (A.mul · s)⟩

/-- `conj` — DistributedArray.py:575-587 -/
def dconj (c : Ctx K) (d : DArr K) : P K (DArr K) := do
  let r ← A.like c d
  A.setAll c r (d.larr.map A.conj)

/-- `copy` — DistributedArray.py:589-601 -/
def dcopy (c : Ctx K) (d : DArr K) : P K (DArr K) := do
  let r ← A.like c d
  A.setAll c r d.larr

/-- `to_dist` — DistributedArray.py:306-354 -/
def toDist (c : Ctx K) (x : NDArray K) (part : Partition) (axis : Nat) (lshapes : Option (List (List Nat))) (mask : Option (List Nat)) : P K (DArr K) := do
  let d ← A.mkDArr c x.shape part axis lshapes mask x.dtype
  if part.isBroadcast then A.setAll c d x
  else do
    let ls ← allgather c (len d.lshape axis)
    let lo := (ls.take c.rank).sum
    let hi := (ls.take (c.rank + 1)).sum
    A.setAll c d (x.slice axis lo hi)

/-- see `DArr.toScatter` — DistributedArray.py:491-494, 565-566 -/
def toScatter (c : Ctx K) (part : Partition) (d : DArr K) : P K (DArr K) := if part.isBroadcast then A.toDist c d.larr .scatter 0 none none else .ret d

/-- `allreduce` of a number — DistributedArray.py:399-406 -/
def reduce (sub : List Nat) (v : K) : P K K := do
  let l ← gather .allreduce sub (Sc.mk v)
  match l with
  | y :: ys => .ret (A.sum (y.val :: ys.map Sc.val))
  | [] => .throw .protocol

/-- `dot` — DistributedArray.py:484-496 -/
def ddot (c : Ctx K) (d e : DArr K) : P K K := do
  d.checkCompat e
  let x ← A.toScatter c d.part d
  let y ← A.toScatter c d.part e
  let v ← Prog.lift (if x.larr.data.length = y.larr.data.length then .ok (A.dot x.larr.data y.larr.data) else .error .value)
  A.reduce d.sub v

/-- `norm()` — DistributedArray.py:553-569, 512-514, 535-538 -/
def dnorm (c : Ctx K) (d : DArr K) : P K K := do
  let x ← A.toScatter c d.part d
  let s ← A.reduce x.sub (A.sumSq x.larr.data)
  .ret (A.root s)

/-! ### StackedDistributedArray -/

/-- `copy` — DistributedArray.py:845-849 -/
def scopy (c : Ctx K) (x : SArr K) : P K (SArr K) := forList (fun d => A.dcopy c d) x

/-- `conj` — DistributedArray.py:839-843 -/
def sconj (c : Ctx K) (x : SArr K) : P K (SArr K) := forList (fun d => A.dconj c d) x

/-- `__neg__` — DistributedArray.py:745-749 -/
def sneg (c : Ctx K) (x : SArr K) : P K (SArr K) := do
  let arr ← A.scopy c x
  forList (fun d => A.setAll c d (d.larr.map A.neg)) arr

/-- `add` — DistributedArray.py:769-777 -/
def sadd (c : Ctx K) (x y : SArr K) : P K (SArr K) := do
  x.checkSize y
  let s ← A.scopy c x
  forList (fun t : DArr K × DArr K × DArr K => do
    let z ← A.dadd c t.2.1 t.2.2
    A.setAll c t.1 z.larr) (s.zip (x.zip y))

/-- `iadd` — DistributedArray.py:779-785 -/
def siadd (c : Ctx K) (x y : SArr K) : P K (SArr K) := do
  x.checkSize y
  forList (fun t : DArr K × DArr K => do
    let z ← A.dadd c t.1 t.2
    A.setAll c t.1 z.larr) (x.zip y)

/-- `__sub__` — DistributedArray.py:757-758 -/
def ssub (c : Ctx K) (x y : SArr K) : P K (SArr K) := do
  let m ← A.sneg c y
  A.sadd c x m

/-- `__isub__` — DistributedArray.py:760-761 -/
def sisub (c : Ctx K) (x y : SArr K) : P K (SArr K) := do
  let m ← A.sneg c y
  A.siadd c x m

/-- `multiply` by a scalar of dtype `t` — DistributedArray.py:787-802 -/
def ssmul (c : Ctx K) (x : SArr K) (t : DType) (a : K) : P K (SArr K) := do
  let s ← A.scopy c x
  forList (fun p : DArr K × DArr K => do
    let z ← A.dsmul c p.2 t a
    A.setAll c p.1 z.larr) (s.zip x)

/-- `dot` — DistributedArray.py:804-811 -/
def sdot (c : Ctx K) (x y : SArr K) : P K K := do
  x.checkSize y
  let l ← forList (fun p : DArr K × DArr K => A.ddot c p.1 p.2) (x.zip y)
  .ret (l.foldl A.add A.zero)

/-- `norm()` — DistributedArray.py:813-837 -/
def snorm (c : Ctx K) (x : SArr K) : P K K :=
  match x with
  | [] => .throw .index
  | x => do
    let l ← forList (fun d => A.dnorm c d) x
    .ret (A.stackNorm l)

/-! ### both classes -/

def copy (c : Ctx K) : XArr K → P K (XArr K)
  | .one d => do let y ← A.dcopy c d; .ret (.one y)
  | .stack l => do let y ← A.scopy c l; .ret (.stack y)

def conjX (c : Ctx K) : XArr K → P K (XArr K)
  | .one d => do let y ← A.dconj c d; .ret (.one y)
  | .stack l => do let y ← A.sconj c l; .ret (.stack y)

def addX (c : Ctx K) : XArr K → XArr K → P K (XArr K)
  | .one d, .one e => do let y ← A.dadd c d e; .ret (.one y)
  | .stack l, .stack m => do let y ← A.sadd c l m; .ret (.stack y)
  | _, _ => .throw .attribute

def subX (c : Ctx K) : XArr K → XArr K → P K (XArr K)
  | .one d, .one e => do let y ← A.dsub c d e; .ret (.one y)
  | .stack l, .stack m => do let y ← A.ssub c l m; .ret (.stack y)
  | .one _, .stack m => do let _ ← A.sneg c m; .throw .attribute
  | .stack _, .one e => do let _ ← A.dneg c e; .throw .attribute

def iaddX (c : Ctx K) : XArr K → XArr K → P K (XArr K)
  | .one d, .one e => do let y ← A.diadd c d e; .ret (.one y)
  | .stack l, .stack m => do let y ← A.siadd c l m; .ret (.stack y)
  | _, _ => .throw .attribute

def isubX (c : Ctx K) : XArr K → XArr K → P K (XArr K)
  | .one d, .one e => do let y ← A.disub c d e; .ret (.one y)
  | .stack l, .stack m => do let y ← A.sisub c l m; .ret (.stack y)
  | .one _, .stack m => do let _ ← A.sneg c m; .throw .attribute
  | .stack _, .one e => do let _ ← A.dneg c e; .throw .attribute

/-- `a * x` for a float `a` -/
def fmulX (c : Ctx K) (a : K) : XArr K → P K (XArr K)
  | .one d => do let y ← A.dsmul c d .real a; .ret (.one y)
  | .stack l => do let y ← A.ssmul c l .real a; .ret (.stack y)

def dotX (c : Ctx K) : XArr K → XArr K → P K K
  | .one d, .one e => A.ddot c d e
  | .stack l, .stack m => A.sdot c l m
  | _, _ => .throw .attribute

def normX (c : Ctx K) : XArr K → P K K
  | .one d => A.dnorm c d
  | .stack l => A.snorm c l

/-- `x.dot(y.conj())` -/
def dotConj (c : Ctx K) (x y : XArr K) : P K K := do
  let y ← A.conjX c y
  A.dotX c x y

/-- `np.abs(x.dot(y.conj()))` -/
def absDot (c : Ctx K) (x y : XArr K) : P K K := do
  let v ← A.dotConj c x y
  .ret (A.abs v)

end Arith

/-! ### CG -/

/-- attributes of the class `CG` -/
structure FCG (K : Type) where
  y : XArr K
  niter : Option Int
  tol : K
  r : XArr K
  c : XArr K
  kold : K
  cost : List K
  iiter : Nat

namespace FCG
variable (A : Arith K)

/-- `CG.setup` — cls_basic.py:84-104 -/
def setup (c : Ctx K) (op : XOp K) (y x0 : XArr K) (niter : Option Int) (tol : K) : P K (FCG K × XArr K) := do
  let x ← A.copy c x0
  let ax ← op.mv c x
  let r ← A.subX c y ax
  let cc ← A.copy c r
  let kold ← A.absDot c r r
  .ret (⟨y, niter, tol, r, cc, kold, [A.sqrt kold], 0⟩, x)

/-- `CG.step` — cls_basic.py:124-137 -/
def step (c : Ctx K) (op : XOp K) (s : FCG K) (x : XArr K) : P K (FCG K × XArr K) := do
  let opc ← op.mv c s.c
  let copc ← A.absDot c s.c opc
  let a ← Prog.lift (A.npDiv s.kold copc)
  let ac ← A.fmulX c a s.c
  let x ← A.iaddX c x ac
  let ao ← A.fmulX c a opc
  let r ← A.isubX c s.r ao
  let k ← A.absDot c r r
  let b ← Prog.lift (A.pyDiv k s.kold)
  let bc ← A.fmulX c b s.c
  let cc ← A.addX c r bc
  .ret ({ s with r := r, c := cc, kold := k, iiter := s.iiter + 1, cost := s.cost ++ [A.sqrt k] }, x)

/-- the loop of `CG.run` — cls_basic.py:172-184 (see `CGS.loop`) -/
def loop (c : Ctx K) (op : XOp K) (niter : Int) : Nat → FCG K → XArr K → List (XArr K) → P K (FCG K × XArr K × List (XArr K))
  | 0, s, x, tr => .ret (s, x, tr)
  | k + 1, s, x, tr =>
    if (s.iiter : Int) < niter ∧ A.gt s.kold s.tol then do
      let p ← step A c op s x
      loop c op niter k p.1 p.2 (tr ++ [p.2])
    else .ret (s, x, tr)

/-- `CG.run` — cls_basic.py:169-185 -/
def run (c : Ctx K) (op : XOp K) (s : FCG K) (x : XArr K) (niter : Option Int) : P K (FCG K × XArr K × List (XArr K)) :=
  match (match niter with | some m => some m | none => s.niter) with
  | none => .throw .value
  | some m => loop A c op m (m - s.iiter).toNat s x []

/-- `CG.solve` — cls_basic.py:242-245, and `cg` — basic.py:64-70: the iterate, the number of iterations, `cost` and the arguments of the callback -/
def solve (c : Ctx K) (op : XOp K) (y x0 : XArr K) (niter : Option Int) (tol : K) : P K (XArr K × Nat × List K × List (XArr K)) := do
  let p ← setup A c op y x0 niter tol
  let q ← run A c op p.1 p.2 niter
  .ret (q.2.1, q.1.iiter, q.1.cost, q.2.2)

end FCG

/-! ### CGLS -/

/-- attributes of the class `CGLS` -/
structure FCGLS (K : Type) where
  y : XArr K
  damp : K
  niter : Option Int
  tol : K
  s : XArr K
  c : XArr K
  q : XArr K
  kold : K
  cost : List K
  cost1 : List K
  iiter : Nat

/-- what `CGLS.solve` returns -/
structure FCGLS.Result (K : Type) where
  x : XArr K
  istop : Nat
  iiter : Nat
  r1norm : K
  r2norm : K
  cost : List K
  trace : List (XArr K)

namespace FCGLS
variable (A : Arith K) (nrm : Ctx K → XArr K → P K K)

/-- `CGLS.setup` — cls_basic.py:333-360; `nrm` is the method `norm` -/
def setup (c : Ctx K) (op : XOp K) (y x0 : XArr K) (niter : Option Int) (damp tol : K) : P K (FCGLS K × XArr K) := do
  let damp2 ← Prog.lift (A.pySq damp)
  let x ← A.copy c x0
  let ax ← op.mv c x
  let s ← A.subX c y ax
  let dx ← A.fmulX c damp x
  let rs ← op.rmv c s
  let r ← A.subX c rs dx
  let cc ← A.copy c r
  let q ← op.mv c cc
  let kold ← A.absDot c r r
  let cost0 ← nrm c s
  let sq ← Prog.lift (A.pySq cost0)
  let xx ← A.absDot c x x
  .ret (⟨y, damp2, niter, tol, s, cc, q, kold, [cost0], [A.sqrt (A.add sq (A.mul damp xx))], 0⟩, x)

/-- `CGLS.step` — cls_basic.py:381-396 -/
def step (c : Ctx K) (op : XOp K) (st : FCGLS K) (x : XArr K) : P K (FCGLS K × XArr K) := do
  let qq ← A.dotConj c st.q st.q
  let cc ← A.dotConj c st.c st.c
  let av ← Prog.lift (A.npDiv st.kold (A.add qq (A.mul st.damp cc)))
  let a := A.abs av
  let ac ← A.fmulX c a st.c
  let x ← A.iaddX c x ac
  let aq ← A.fmulX c a st.q
  let s ← A.isubX c st.s aq
  let dx ← A.fmulX c st.damp x
  let rs ← op.rmv c s
  let r ← A.subX c rs dx
  let k ← A.absDot c r r
  let b ← Prog.lift (A.pyDiv k st.kold)
  let bc ← A.fmulX c b st.c
  let cn ← A.addX c r bc
  let q ← op.mv c cn
  let ck ← nrm c s
  let sq ← Prog.lift (A.pySq ck)
  let xx ← A.absDot c x x
  .ret ({ st with s := s, c := cn, q := q, kold := k, iiter := st.iiter + 1, cost := st.cost ++ [ck],
                  cost1 := st.cost1 ++ [A.sqrt (A.add sq (A.mul st.damp xx))] }, x)

/-- the loop of `CGLS.run` — cls_basic.py:428-440 -/
def loop (c : Ctx K) (op : XOp K) (niter : Int) : Nat → FCGLS K → XArr K → List (XArr K) → P K (FCGLS K × XArr K × List (XArr K))
  | 0, s, x, tr => .ret (s, x, tr)
  | k + 1, s, x, tr =>
    if (s.iiter : Int) < niter ∧ A.gt s.kold s.tol then do
      let p ← step A nrm c op s x
      loop c op niter k p.1 p.2 (tr ++ [p.2])
    else .ret (s, x, tr)

/-- `CGLS.run` — cls_basic.py:425-441 -/
def run (c : Ctx K) (op : XOp K) (s : FCGLS K) (x : XArr K) (niter : Option Int) : P K (FCGLS K × XArr K × List (XArr K)) :=
  match (match niter with | some m => some m | none => s.niter) with
  | none => .throw .value
  | some m => loop A nrm c op m (m - s.iiter).toNat s x []

/-- `CGLS.finalize` — cls_basic.py:452-461 -/
def finalize (s : FCGLS K) (x : XArr K) (tr : List (XArr K)) : P K (Result K) :=
  match s.cost1[s.iiter]? with
  | some r2 => .ret ⟨x, if A.lt s.kold s.tol then 1 else 2, s.iiter, s.kold, r2, s.cost, tr⟩
  | none => .throw .index

/-- `CGLS.solve` — cls_basic.py:520-523, and `cgls` — basic.py:142-148 -/
def solve (c : Ctx K) (op : XOp K) (y x0 : XArr K) (niter : Option Int) (damp tol : K) : P K (Result K) := do
  let p ← setup A nrm c op y x0 niter damp tol
  let q ← run A nrm c op p.1 p.2 niter
  finalize A q.1 q.2.1 q.2.2

end FCGLS
end Verif

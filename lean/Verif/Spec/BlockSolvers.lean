/-
  CG and CGLS on ordinary vectors, with arbitrary arithmetic.  The dot product and the norm are parameters: those of a distributed array are computed block by block.
-/
import Verif.Model.FloatSolvers
import Verif.Spec.Layout
import Verif.MPI.Runs
import Mathlib.Data.Multiset.Basic

namespace Verif

variable {K : Type}

/-- a vector with its dtype -/
structure SVec (K : Type) where
  dt : DType
  v : List K

namespace SVec
variable (A : Arith K)

/-- a new vector computed entry by entry and stored in the dtype of `x` -/
def map (f : K → K) (x : SVec K) : SVec K := ⟨x.dt, x.v.map fun a => A.cast x.dt (f a)⟩

/-- the same from two vectors: the dtype is that of the first -/
def zip (f : K → K → K) (x y : SVec K) : SVec K := ⟨x.dt, List.zipWith (fun a b => A.cast x.dt (f a b)) x.v y.v⟩

def copy (x : SVec K) : SVec K := x.map A id
def conj (x : SVec K) : SVec K := x.map A A.conj
def add (x y : SVec K) : SVec K := x.zip A A.add y
def sub (x y : SVec K) : SVec K := x.add A (y.map A A.neg)
def scale (a : K) (x : SVec K) : SVec K := x.map A (A.mul · a)

/-- the entries are numbers of the dtype: storing them once more changes nothing -/
def Stored (x : SVec K) : Prop := ∀ a ∈ x.v, A.cast x.dt a = a

/-- rank `r`'s part of the vector in the layout -/
def part (L : Layout) (n : Nat) (x : SVec K) (r : Nat) : XArr K := .one (L.fam n x.dt (L.piece x.v) r)

/-- the entries that rank `q` contributes to dot products and norms: its part or, if all ranks hold the vector, its part in the balanced distribution along the first axis -/
def block (L : Layout) (n : Nat) (x : SVec K) (q : Nat) : List K :=
  if L.part.isBroadcast then ((Layout.mk L.gshape .scatter 0 (fun r => L.gshape.getD 0 0 / n + if r < L.gshape.getD 0 0 % n then 1 else 0) none).piece x.v q).map (A.cast x.dt) else L.piece x.v q

/-- the dot product, from those of the blocks -/
def blockDot (L : Layout) (n : Nat) (x y : SVec K) : K := A.sum ((List.range n).map fun q => A.dot (x.block A L n q) (y.block A L n q))

/-- the norm, from the sums of squares of the blocks -/
def blockNorm (L : Layout) (n : Nat) (x : SVec K) : K := A.root (A.sum ((List.range n).map fun q => A.sumSq (x.block A L n q)))

end SVec

/-- the operator acts as the function `F` on vectors whose dtype is in `D`: it takes the distributed vector `x` to the distributed vector `F x`, in all executions -/
structure ActsAs (n : Nat) (J : Nat → Nat → K) (mv : Nat → Ctx K → XArr K → P K (XArr K)) (L L' : Layout) (F : SVec K → SVec K) (D : DType → Prop := fun _ => True) : Prop where
  length : ∀ x : SVec K, x.v.length = L.gshape.prod → D x.dt → (F x).v.length = L'.gshape.prod
  runs : ∀ x : SVec K, x.v.length = L.gshape.prod → D x.dt → Always n (fun r => mv r (env n J r) (x.part L n r)) (fun r => .ok ((F x).part L' n r))

/-! ### CG -/

/-- iterate, residual, search direction and the square of the residual norm -/
structure SCG (K : Type) where
  x : SVec K
  r : SVec K
  c : SVec K
  k : K

namespace SCG
variable (A : Arith K) (dot : SVec K → SVec K → K) (F : SVec K → SVec K)

def start (y x0 : SVec K) : SCG K :=
  let x := x0.copy A
  let r := y.sub A (F x)
  ⟨x, r, r.copy A, A.abs (dot r (r.conj A))⟩

def next (s : SCG K) : Except Err (SCG K) := do
  let q := F s.c
  let a ← A.npDiv s.k (A.abs (dot s.c (q.conj A)))
  let r := s.r.sub A (q.scale A a)
  let k := A.abs (dot r (r.conj A))
  let b ← A.pyDiv k s.k
  .ok ⟨s.x.add A (s.c.scale A a), r, r.add A (s.c.scale A b), k⟩

/-- the state after `j` steps -/
def seq (y x0 : SVec K) : Nat → Except Err (SCG K)
  | 0 => .ok (start A dot F y x0)
  | j + 1 => (seq y x0 j).bind (next A dot F)

end SCG

/-! ### CGLS -/

/-- iterate, residual, search direction, its image and the square of the norm of the gradient -/
structure SLS (K : Type) where
  x : SVec K
  s : SVec K
  c : SVec K
  q : SVec K
  k : K
  /-- norm of the residual -/
  r1 : K
  /-- norm of the residual and of the damping term -/
  r2 : K

namespace SLS
variable (A : Arith K) (dot dot' : SVec K → SVec K → K) (nrm : SVec K → K) (F F' : SVec K → SVec K)

/-- `dot` and `dot'` are the products of models and of data, `damp` is the argument -/
def start (damp : K) (y x0 : SVec K) : Except Err (SLS K) := do
  let x := x0.copy A
  let s := y.sub A (F x)
  let r := (F' s).sub A (x.scale A damp)
  let c := r.copy A
  let sq ← A.pySq (nrm s)
  .ok ⟨x, s, c, F c, A.abs (dot r (r.conj A)), nrm s, A.sqrt (A.add sq (A.mul damp (A.abs (dot x (x.conj A)))))⟩

/-- `damp2` is the square of the argument -/
def next (damp2 : K) (t : SLS K) : Except Err (SLS K) := do
  let a ← A.npDiv t.k (A.add (dot' t.q (t.q.conj A)) (A.mul damp2 (dot t.c (t.c.conj A))))
  let x := t.x.add A (t.c.scale A (A.abs a))
  let s := t.s.sub A (t.q.scale A (A.abs a))
  let r := (F' s).sub A (x.scale A damp2)
  let k := A.abs (dot r (r.conj A))
  let b ← A.pyDiv k t.k
  let c := r.add A (t.c.scale A b)
  let sq ← A.pySq (nrm s)
  .ok ⟨x, s, c, F c, k, nrm s, A.sqrt (A.add sq (A.mul damp2 (A.abs (dot x (x.conj A)))))⟩

/-- the state after `j` steps -/
def seq (damp : K) (y x0 : SVec K) : Nat → Except Err (SLS K)
  | 0 => do
    let _ ← A.pySq damp
    start A dot nrm F F' damp y x0
  | j + 1 => do
    let d ← A.pySq damp
    let t ← seq damp y x0 j
    next A dot dot' nrm F F' d t

end SLS

/-- the loop makes exactly `m` steps: before each of them there are iterations left and the number is above the tolerance, and thereafter not -/
def StopsAt (A : Arith K) (niter : Int) (tol : K) (k : Nat → K) (m : Nat) : Prop :=
  (∀ i < m, (i : Int) < niter ∧ A.gt (k i) tol = true) ∧ ¬ ((m : Int) < niter ∧ A.gt (k m) tol = true)

/-- dot products and norms do not depend on how the vectors are cut into blocks nor on the order of the entries (for instance, if sums are computed exactly and rounded once) -/
structure OrderFree (A : Arith K) : Prop where
  dot : ∃ t : Multiset (K × K) → K, ∀ bs : List (List K × List K), (∀ b ∈ bs, b.1.length = b.2.length) → A.sum (bs.map fun b => A.dot b.1 b.2) = t (bs.flatMap fun b => b.1.zip b.2)
  norm : ∃ t : Multiset K → K, ∀ bs : List (List K), A.sum (bs.map A.sumSq) = t bs.flatten

end Verif

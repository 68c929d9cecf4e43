/-
  CG and CGLS on lists of vectors, with arbitrary arithmetic: what the solvers compute on objects of class StackedDistributedArray.  As in Spec/BlockSolvers.lean the dot
  product and the norm are parameters.
-/
import Verif.Spec.BlockSolvers

namespace Verif

variable {K : Type}

/-- a vector or a list of vectors -/
inductive XVec (K : Type) where
  | one (x : SVec K)
  | stack (l : List (SVec K))

/-- the layouts of the arrays -/
inductive XLay where
  | one (L : Layout)
  | stack (l : List Layout)

/-- the arrays have no mask; a stack has at least one array -/
def XLay.WF (n : Nat) : XLay → Prop
  | .one L => L.WF n ∧ L.mask = none
  | .stack l => l ≠ [] ∧ ∀ L ∈ l, L.WF n ∧ L.mask = none

/-- some array is held by all ranks -/
def XLay.Replicated : XLay → Prop
  | .one L => L.part.isBroadcast = true
  | .stack l => ∃ L ∈ l, L.part.isBroadcast = true

/-- the arrays have the same global sizes -/
def XLay.SameSize : XLay → XLay → Prop
  | .one L, .one L' => L.gshape.prod = L'.gshape.prod
  | .stack l, .stack l' => List.Forall₂ (fun L L' => L.gshape.prod = L'.gshape.prod) l l'
  | _, _ => False

namespace XVec

/-- the vectors have the lengths of the arrays -/
def Fits : XLay → XVec K → Prop
  | .one L, .one x => x.v.length = L.gshape.prod
  | .stack l, .stack m => List.Forall₂ (fun L x => x.v.length = L.gshape.prod) l m
  | _, _ => False

/-- rank `r`'s parts of the vectors -/
def part : XLay → (n : Nat) → XVec K → Nat → XArr K
  | .one L, n, .one x, r => x.part L n r
  | .stack l, n, .stack m, r => .stack (List.zipWith (fun L x => L.fam n x.dt (L.piece x.v) r) l m)
  | _, _, _, _ => .stack []

/-- the dtypes -/
def dts : XVec K → List DType
  | .one x => [x.dt]
  | .stack l => l.map SVec.dt

variable (A : Arith K)

/-- the entries are numbers of the dtypes -/
def Stored : XVec K → Prop
  | .one x => x.Stored A
  | .stack l => ∀ x ∈ l, x.Stored A

def copy : XVec K → XVec K
  | .one x => .one (x.copy A)
  | .stack l => .stack (l.map (SVec.copy A))

def conj : XVec K → XVec K
  | .one x => .one (x.conj A)
  | .stack l => .stack (l.map (SVec.conj A))

/-- the results are stored once more in a stack -/
def add : XVec K → XVec K → XVec K
  | .one x, .one y => .one (x.add A y)
  | .stack l, .stack m => .stack (List.zipWith (fun x y => (x.add A y).copy A) l m)
  | x, _ => x

def sub : XVec K → XVec K → XVec K
  | .one x, .one y => .one (x.sub A y)
  | .stack l, .stack m => .stack (List.zipWith (fun x y => (x.add A ((y.copy A).map A A.neg)).copy A) l m)
  | x, _ => x

def scale (a : K) : XVec K → XVec K
  | .one x => .one (x.scale A a)
  | .stack l => .stack (l.map fun x => (x.scale A a).copy A)

/-- the dot product, from those of the blocks of each vector; the products of the vectors are added from left to right -/
def blockDot : XLay → (n : Nat) → XVec K → XVec K → K
  | .one L, n, .one x, .one y => x.blockDot A L n y
  | .stack l, n, .stack xs, .stack ys => (List.zipWith (fun L (p : SVec K × SVec K) => p.1.blockDot A L n p.2) l (xs.zip ys)).foldl A.add A.zero
  | _, _, _, _ => A.zero

/-- the norm, from the norms of the vectors -/
def blockNorm : XLay → (n : Nat) → XVec K → K
  | .one L, n, .one x => x.blockNorm A L n
  | .stack l, n, .stack xs => A.stackNorm (List.zipWith (fun L (x : SVec K) => x.blockNorm A L n) l xs)
  | _, _, _ => A.zero

end XVec

/-- the operator acts as the function `F` on (lists of) vectors whose dtypes are in `D` (see `ActsAs`) -/
structure XActs (n : Nat) (J : Nat → Nat → K) (mv : Nat → Ctx K → XArr K → P K (XArr K)) (L L' : XLay) (F : XVec K → XVec K) (D : List DType → Prop := fun _ => True) : Prop where
  fits : ∀ x : XVec K, x.Fits L → D x.dts → (F x).Fits L'
  runs : ∀ x : XVec K, x.Fits L → D x.dts → Always n (fun r => mv r (env n J r) (x.part L n r)) (fun r => .ok ((F x).part L' n r))

/-! ### CG -/

/-- iterate, residual, search direction and the square of the residual norm -/
structure XCG (K : Type) where
  x : XVec K
  r : XVec K
  c : XVec K
  k : K

namespace XCG
variable (A : Arith K) (dot : XVec K → XVec K → K) (F : XVec K → XVec K)

def start (y x0 : XVec K) : XCG K :=
  let x := x0.copy A
  let r := y.sub A (F x)
  ⟨x, r, r.copy A, A.abs (dot r (r.conj A))⟩

def next (s : XCG K) : Except Err (XCG K) := do
  let q := F s.c
  let a ← A.npDiv s.k (A.abs (dot s.c (q.conj A)))
  let r := s.r.sub A (q.scale A a)
  let k := A.abs (dot r (r.conj A))
  let b ← A.pyDiv k s.k
  .ok ⟨s.x.add A (s.c.scale A a), r, r.add A (s.c.scale A b), k⟩

/-- the state after `j` steps -/
def seq (y x0 : XVec K) : Nat → Except Err (XCG K)
  | 0 => .ok (start A dot F y x0)
  | j + 1 => (seq y x0 j).bind (next A dot F)

end XCG

/-! ### CGLS -/

/-- iterate, residual, search direction, its image and the square of the norm of the gradient -/
structure XLS (K : Type) where
  x : XVec K
  s : XVec K
  c : XVec K
  q : XVec K
  k : K
  /-- norm of the residual -/
  r1 : K
  /-- norm of the residual and of the damping term -/
  r2 : K

namespace XLS
variable (A : Arith K) (dot dot' : XVec K → XVec K → K) (nrm : XVec K → K) (F F' : XVec K → XVec K)

/-- `dot` and `dot'` are the products of models and of data, `damp` is the argument -/
def start (damp : K) (y x0 : XVec K) : Except Err (XLS K) := do
  let x := x0.copy A
  let s := y.sub A (F x)
  let r := (F' s).sub A (x.scale A damp)
  let c := r.copy A
  let sq ← A.pySq (nrm s)
  .ok ⟨x, s, c, F c, A.abs (dot r (r.conj A)), nrm s, A.sqrt (A.add sq (A.mul damp (A.abs (dot x (x.conj A)))))⟩

/-- `damp2` is the square of the argument -/
def next (damp2 : K) (t : XLS K) : Except Err (XLS K) := do
  let a ← A.npDiv t.k (A.add (dot' t.q (t.q.conj A)) (A.mul damp2 (dot t.c (t.c.conj A))))
  let x := t.x.add A (t.c.scale A (A.abs a))
  let s := t.s.sub A (t.q.scale A (A.abs a))
  let r := (F' s).sub A (x.scale A damp2)
  let k := A.abs (dot r (r.conj A))
  let b ← A.pyDiv k t.k
  let c := r.add A (t.c.scale A b)
  let sq ← A.pySq (nrm s)
  .ok ⟨x, s, c, F c, k, nrm s, A.sqrt (A.add sq (A.mul damp2 (A.abs (dot x (x.conj A)))))⟩

/-- the state after `j` steps -/
def seq (damp : K) (y x0 : XVec K) : Nat → Except Err (XLS K)
  | 0 => do
    let _ ← A.pySq damp
    start A dot nrm F F' damp y x0
  | j + 1 => do
    let d ← A.pySq damp
    let t ← seq damp y x0 j
    next A dot dot' nrm F F' d t

end XLS

end Verif

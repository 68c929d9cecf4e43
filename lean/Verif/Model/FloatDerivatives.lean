/-
  The finite-difference operators of FirstDerivative.py and SecondDerivative.py, and the decorator `reshaped`, with arbitrary arithmetic: nothing is assumed about the
  operations on numbers, and they are applied in the order of the code (compare Model/Derivatives.lean, where arithmetic is exact and rows are combined with
  coefficients).

  Simplifications: dtypes are float64 and complex128, both stored in the type `K`; a literal is one number whatever it is combined with; `sampling` is a Python float;
  dividing an array by zero does not raise (NumPy's default error handling).
-/
import Verif.Model.FloatSolvers
import Verif.Model.Derivatives
import Verif.Model.Decorators

namespace Verif
open NDArray

/-- what NumPy does with the entries of arrays, and the literals in the code -/
structure ArrArith (K : Type) extends Arith K where
  /-- `a - b` -/
  sub : K → K → K
  /-- `a / b` -/
  div : K → K → K
  /-- `0.5` -/
  half : K
  /-- `2`, `2.0` -/
  two : K
  /-- `3.0` -/
  three : K
  /-- `12.0` -/
  twelve : K

variable {K : Type}

namespace Arith
variable (A : Arith K)

/-- `a[index]` -/
def get (ix : Index) (a : NDArray K) : Except Err (NDArray K) := @NDArray.get K ⟨A.zero⟩ ix a

/-- `numpy.zeros((k,) + rest)` -/
def zeroRows (k : Int) (rest : List Nat) : Except Err (NDArray K) := @NDArray.zeroRows K ⟨A.zero⟩ k rest

/-- `d[index] = v` for a scattered array — DistributedArray.py:132-155 -/
def setItem (c : Ctx K) (d : DArr K) (ix : Index) (v : NDArray K) : P K (DArr K) :=
  if d.part = .broadcast then do
    let v0 ← bcast c v
    let a ← Prog.lift (A.setIndex ix d.larr v0)
    .ret { d with larr := a }
  else do
    let a ← Prog.lift (A.setIndex ix d.larr v)
    .ret { d with larr := a }

/-- `y[index] op= v`: `y[index]` is a view that is updated in place and then assigned to itself -/
def upd (c : Ctx K) (y : DArr K) (ix : Index) (f : K → K → K) (v : NDArray K) : P K (DArr K) := do
  let t ← Prog.lift (A.get ix y.larr)
  let t ← Prog.lift (t.inplace f v)
  A.setItem c y ix t

/-- `y = DistributedArray(global_shape=x.global_shape, local_shapes=x.local_shapes, axis=x.axis, dtype=self.dtype)` — e.g. FirstDerivative.py:144-145 -/
def newLike (c : Ctx K) (t : DType) (x : DArr K) : P K (DArr K) := do
  let ls ← x.localShapes c
  A.mkDArr c x.gshape .scatter x.axis (some ls) none t

/-- see `padFront` -/
def padFront (b : Bool) (k : Option Int) (dims : List Nat) (v : NDArray K) : Except Err (NDArray K) :=
  match b, k with
  | true, some k => do
    let z ← A.zeroRows k dims.tail
    concat 0 [z, v]
  | _, _ => .ok v

/-- see `padBack` -/
def padBack (b : Bool) (k : Option Int) (dims : List Nat) (v : NDArray K) : Except Err (NDArray K) :=
  match b, k with
  | true, some k => do
    let z ← A.zeroRows k dims.tail
    concat 0 [v, z]
  | _, _ => .ok v

/-- the block that occurs in all methods, see `Verif.stencil` -/
def stencil (c : Ctx K) (dims : List Nat) (x : DArr K) (front back : Option Nat) (φ : NDArray K → Except Err (NDArray K)) (kf kb : Option Int) : P K (NDArray K) := do
  let g ← x.addGhostCells c front back
  let v ← Prog.lift (φ g)
  let v ← Prog.lift (A.padFront (c.rank = 0) kf dims v)
  Prog.lift (A.padBack (c.rank = c.size - 1) kb dims v)

/-- the same followed by `y[:] op= v` -/
def accum (c : Ctx K) (dims : List Nat) (x : DArr K) (front back : Option Nat) (φ : NDArray K → Except Err (NDArray K)) (kf kb : Option Int) (f : K → K → K) (y : DArr K) :
    P K (DArr K) := do
  let v ← A.stencil c dims x front back φ kf kb
  A.upd c y Index.all f v

/-- `m(ghosted[lo:hi])` for an elementwise function `m` -/
def rowsOf (lo : Int) (hi : Option Int) (m : K → K) (g : NDArray K) : Except Err (NDArray K) := do
  let a ← A.get (Index.rows lo hi) g
  return a.map m

/-- an expression in the rows `x[i]`, `x[j]`, `x[k]` (expressions with fewer rows repeat an index); rows of an array have the same shape and dtype -/
def rowExpr (x : NDArray K) (i j k : Int) (f : K → K → K → K) : Except Err (NDArray K) := do
  let a ← A.get (Index.row i) x
  let b ← A.get (Index.row j) x
  let d ← A.get (Index.row k) x
  return ⟨a.shape, a.dtype, List.zipWith (fun p z => f p.1 p.2 z) (List.zip a.data b.data) d.data⟩

/-- `y[p] = expression in rows of x` -/
def setRow (c : Ctx K) (x : DArr K) (p i j k : Int) (f : K → K → K → K) (y : DArr K) : P K (DArr K) := do
  let v ← Prog.lift (A.rowExpr x.larr i j k f)
  A.setItem c y (Index.row p) v

/-- `y[p] op= expression in rows of x` -/
def updRow (c : Ctx K) (x : DArr K) (p i j k : Int) (op : K → K → K) (f : K → K → K → K) (y : DArr K) : P K (DArr K) := do
  let v ← Prog.lift (A.rowExpr x.larr i j k f)
  A.upd c y (Index.row p) op v

/-- `y[lo:hi] op= x[lo:hi]` if `b`, else `y[:] op= x[:]` -/
def addPart (c : Ctx K) (x : DArr K) (b : Bool) (lo : Int) (hi : Option Int) (f : K → K → K) (y : DArr K) : P K (DArr K) :=
  let ix := if b then Index.rows lo hi else Index.rows 0 none
  do
    let v ← Prog.lift (A.get ix x.larr)
    A.upd c y ix f v

/-- `ravel` — DistributedArray.py:603-627 -/
def ravel (c : Ctx K) (d : DArr K) : P K (DArr K) := do
  let ls ← d.localShapes c
  let r ← A.mkDArr c [d.gshape.prod] d.part 0 (some (ls.map fun s => [s.prod])) d.mask d.dtype
  A.setAll c r d.larr.flatten

/-- see `redistribute` — decorators.py:44-70 -/
def redistribute (c : Ctx K) (gshape : List Nat) (lshapes : Option (List (List Nat))) (x : DArr K) : P K (DArr K) :=
  if x.part ≠ .scatter then .throw .value
  else do
    let arr ← A.mkDArr c gshape .scatter 0 lshapes none x.dtype
    let al ← allgather c arr.lshape.prod
    let xl ← allgather c x.lshape.prod
    let dif := cumsum (List.zipWith (fun (a b : Nat) => (a : Int) - (b : Int)) al xl)
    let front := (min 0 (pyPrev dif c.rank)).natAbs
    let back := (max 0 (dif.getD c.rank 0)).toNat
    let g ← x.addGhostCells c (some front) (some back)
    let index := (max 0 (pyPrev dif c.rank)).toNat
    let v ← Prog.lift ((g.slice 0 index (al.getD c.rank 0 + index)).reshape arr.lshape)
    A.setAll c arr v

/-- `reshaped` — decorators.py:43-74 -/
def reshaped (c : Ctx K) (gshape : List Nat) (lshapes : Option (List (List Nat))) (f : DArr K → P K (DArr K)) (x : DArr K) : P K (DArr K) := do
  let arr ← A.redistribute c gshape lshapes x
  let y ← f arr
  if y.gshape.length > 1 then A.ravel c y else .ret y

end Arith

namespace ArrArith
variable (A : ArrArith K)

/-- `y[:] /= s` -/
def divide (c : Ctx K) (s : K) (y : DArr K) : P K (DArr K) := A.upd c y Index.all A.div (scalar .real s)

/-- `ghosted[1:] - ghosted[:-1]` — FirstDerivative.py:147, 177 -/
def diff1 (g : NDArray K) : Except Err (NDArray K) := do
  let a ← A.get (Index.rows 1 none) g
  let b ← A.get (Index.rows 0 (some (-1))) g
  a.zip A.sub b

/-- `0.5 * (ghosted[2:] - ghosted[:-2])` — FirstDerivative.py:207 -/
def cent3 (g : NDArray K) : Except Err (NDArray K) := do
  let a ← A.get (Index.rows 2 none) g
  let b ← A.get (Index.rows 0 (some (-2))) g
  let v ← a.zip A.sub b
  return v.map (A.mul A.half)

/-- `ghosted[:-4] / 12.0 - 2 * ghosted[1:-3] / 3.0 + 2 * ghosted[3:-1] / 3.0 - ghosted[4:] / 12.0` — FirstDerivative.py:255-260 -/
def cent5 (g : NDArray K) : Except Err (NDArray K) := do
  let a ← A.get (Index.rows 0 (some (-4))) g
  let b ← A.get (Index.rows 1 (some (-3))) g
  let d ← A.get (Index.rows 3 (some (-1))) g
  let e ← A.get (Index.rows 4 none) g
  let v ← (a.map (A.div · A.twelve)).zip A.sub (b.map fun x => A.div (A.mul A.two x) A.three)
  let v ← v.zip A.add (d.map fun x => A.div (A.mul A.two x) A.three)
  v.zip A.sub (e.map (A.div · A.twelve))

/-- `ghosted[2:] - 2 * ghosted[1:-1] + ghosted[:-2]` — SecondDerivative.py:130, 168, 207 -/
def diff2 (g : NDArray K) : Except Err (NDArray K) := do
  let a ← A.get (Index.rows 2 none) g
  let b ← A.get (Index.rows 1 (some (-1))) g
  let d ← A.get (Index.rows 0 (some (-2))) g
  let v ← a.zip A.sub (b.map (A.mul A.two))
  v.zip A.add d

/-! ### MPIFirstDerivative -/

/-- `_matvec_forward` — FirstDerivative.py:142-151 -/
def fdMvForward (c : Ctx K) (o : Deriv K) (x : DArr K) : P K (DArr K) := do
  let y ← A.newLike c o.dtype x
  let v ← A.stencil c o.dims x none (some 1) A.diff1 none (some 1)
  A.setAll c y (v.map (A.div · o.sampling))

/-- `_rmatvec_forward` — FirstDerivative.py:154-169 -/
def fdRmvForward (c : Ctx K) (o : Deriv K) (x : DArr K) : P K (DArr K) := do
  let y ← A.newLike c o.dtype x
  let y ← A.setAll c y (scalar .real A.zero)
  let y ← A.addPart c x (c.rank = c.size - 1) 0 (some (-1)) A.sub y
  let y ← A.accum c o.dims x (some 1) none (A.rowsOf 0 (some (-1)) id) (some 1) none A.add y
  A.divide c o.sampling y

/-- `_matvec_backward` — FirstDerivative.py:172-181 -/
def fdMvBackward (c : Ctx K) (o : Deriv K) (x : DArr K) : P K (DArr K) := do
  let y ← A.newLike c o.dtype x
  let v ← A.stencil c o.dims x (some 1) none A.diff1 (some 1) none
  A.setAll c y (v.map (A.div · o.sampling))

/-- `_rmatvec_backward` — FirstDerivative.py:184-199 -/
def fdRmvBackward (c : Ctx K) (o : Deriv K) (x : DArr K) : P K (DArr K) := do
  let y ← A.newLike c o.dtype x
  let y ← A.setAll c y (scalar .real A.zero)
  let y ← A.accum c o.dims x none (some 1) (A.rowsOf 1 none id) none (some 1) A.sub y
  let y ← A.addPart c x (c.rank = 0) 1 none A.add y
  A.divide c o.sampling y

/-- `_matvec_centered3` — FirstDerivative.py:202-219 -/
def fdMvCentered3 (c : Ctx K) (o : Deriv K) (x : DArr K) : P K (DArr K) := do
  let y ← A.newLike c o.dtype x
  let v ← A.stencil c o.dims x (some 1) (some 1) A.cent3 (some 1) (some (min ((len y.gshape 0 : Int) - 1) 1))
  let y ← A.setAll c y v
  let y ← doIf (o.edge ∧ c.rank = 0) (A.setRow c x 0 1 0 0 fun a b _ => A.sub a b) y
  let y ← doIf (o.edge ∧ c.rank = c.size - 1) (A.setRow c x (-1) (-1) (-2) (-2) fun a b _ => A.sub a b) y
  A.divide c o.sampling y

/-- `_rmatvec_centered3` — FirstDerivative.py:222-247 -/
def fdRmvCentered3 (c : Ctx K) (o : Deriv K) (x : DArr K) : P K (DArr K) := do
  let y ← A.newLike c o.dtype x
  let y ← A.setAll c y (scalar .real A.zero)
  let n0 : Int := len y.gshape 0
  let y ← A.accum c o.dims x none (some 2) (A.rowsOf 1 (some (-1)) (A.mul A.half)) none (some (min n0 2)) A.sub y
  let y ← A.accum c o.dims x (some 2) none (A.rowsOf 1 (some (-1)) (A.mul A.half)) (some (min n0 2)) none A.add y
  let y ← doIf (o.edge ∧ c.rank = 0) (A.updRow c x 0 0 0 0 A.sub fun a _ _ => a) y
  let y ← doIf (o.edge ∧ c.rank = 0) (A.updRow c x 1 0 0 0 A.add fun a _ _ => a) y
  let y ← doIf (o.edge ∧ c.rank = c.size - 1) (A.updRow c x (-2) (-1) (-1) (-1) A.sub fun a _ _ => a) y
  let y ← doIf (o.edge ∧ c.rank = c.size - 1) (A.updRow c x (-1) (-1) (-1) (-1) A.add fun a _ _ => a) y
  A.divide c o.sampling y

/-- `_matvec_centered5` — FirstDerivative.py:250-274 -/
def fdMvCentered5 (c : Ctx K) (o : Deriv K) (x : DArr K) : P K (DArr K) := do
  let y ← A.newLike c o.dtype x
  let n0 : Int := len y.gshape 0
  let v ← A.stencil c o.dims x (some 2) (some 2) A.cent5 (some (min n0 2)) (some (min (n0 - 2) 2))
  let y ← A.setAll c y v
  let y ← doIf (o.edge ∧ c.rank = 0) (A.setRow c x 0 1 0 0 fun a b _ => A.sub a b) y
  let y ← doIf (o.edge ∧ c.rank = 0) (A.setRow c x 1 2 0 0 fun a b _ => A.mul A.half (A.sub a b)) y
  let y ← doIf (o.edge ∧ c.rank = c.size - 1) (A.setRow c x (-1) (-1) (-2) (-2) fun a b _ => A.sub a b) y
  let y ← doIf (o.edge ∧ c.rank = c.size - 1) (A.setRow c x (-2) (-1) (-3) (-3) fun a b _ => A.mul A.half (A.sub a b)) y
  A.divide c o.sampling y

/-- `_rmatvec_centered5` — FirstDerivative.py:277-319 -/
def fdRmvCentered5 (c : Ctx K) (o : Deriv K) (x : DArr K) : P K (DArr K) := do
  let y ← A.newLike c o.dtype x
  let y ← A.setAll c y (scalar .real A.zero)
  let n0 : Int := len y.gshape 0
  let y ← A.accum c o.dims x none (some 4) (A.rowsOf 2 (some (-2)) (A.div · A.twelve)) none (some (min n0 4)) A.add y
  let y ← A.accum c o.dims x (some 1) (some 3) (A.rowsOf 2 (some (-2)) fun x => A.div (A.mul A.two x) A.three) (some 1) (some (min (n0 - 1) 3)) A.sub y
  let y ← A.accum c o.dims x (some 3) (some 1) (A.rowsOf 2 (some (-2)) fun x => A.div (A.mul A.two x) A.three) (some (min n0 3)) (some (min (n0 - 3) 1)) A.add y
  let y ← A.accum c o.dims x (some 4) none (A.rowsOf 2 (some (-2)) (A.div · A.twelve)) (some (min n0 4)) none A.sub y
  let y ← doIf (o.edge ∧ c.rank = 0) (A.updRow c x 0 0 1 1 A.sub fun a b _ => A.add a (A.mul A.half b)) y
  let y ← doIf (o.edge ∧ c.rank = 0) (A.updRow c x 1 0 0 0 A.add fun a _ _ => a) y
  let y ← doIf (o.edge ∧ c.rank = 0) (A.updRow c x 2 1 1 1 A.add fun a _ _ => A.mul A.half a) y
  let y ← doIf (o.edge ∧ c.rank = c.size - 1) (A.updRow c x (-3) (-2) (-2) (-2) A.sub fun a _ _ => A.mul A.half a) y
  let y ← doIf (o.edge ∧ c.rank = c.size - 1) (A.updRow c x (-2) (-1) (-1) (-1) A.sub fun a _ _ => a) y
  let y ← doIf (o.edge ∧ c.rank = c.size - 1) (A.updRow c x (-1) (-2) (-1) (-1) A.add fun a b _ => A.add (A.mul A.half a) b) y
  A.divide c o.sampling y

/-- `_register_multiplications` — FirstDerivative.py:101-127 -/
def fdMv : FDKind → Ctx K → Deriv K → DArr K → P K (DArr K)
  | .forward => A.fdMvForward
  | .backward => A.fdMvBackward
  | .centered3 => A.fdMvCentered3
  | .centered5 => A.fdMvCentered5
def fdRmv : FDKind → Ctx K → Deriv K → DArr K → P K (DArr K)
  | .forward => A.fdRmvForward
  | .backward => A.fdRmvBackward
  | .centered3 => A.fdRmvCentered3
  | .centered5 => A.fdRmvCentered5

/-! ### MPISecondDerivative.  `self.sampling ** 2` is a Python float operation, which may raise OverflowError. -/

/-- `_matvec_forward` — SecondDerivative.py:125-134 -/
def sdMvForward (c : Ctx K) (o : Deriv K) (x : DArr K) : P K (DArr K) := do
  let y ← A.newLike c o.dtype x
  let v ← A.stencil c o.dims x none (some 2) A.diff2 none (some (min (len y.gshape 0 : Int) 2))
  let s ← Prog.lift (A.pySq o.sampling)
  A.setAll c y (v.map (A.div · s))

/-- `_rmatvec_forward` — SecondDerivative.py:137-160 -/
def sdRmvForward (c : Ctx K) (o : Deriv K) (x : DArr K) : P K (DArr K) := do
  let y ← A.newLike c o.dtype x
  let y ← A.setAll c y (scalar .real A.zero)
  let n0 : Int := len y.gshape 0
  let y ← A.addPart c x (c.rank = c.size - 1) 0 (some (-2)) A.add y
  let y ← A.accum c o.dims x (some 1) (some 1) (A.rowsOf 0 (some (-2)) id) (some 1) (some (min 1 (n0 - 1))) (fun a b => A.sub a (A.mul A.two b)) y
  let y ← A.accum c o.dims x (some 2) none (A.rowsOf 0 (some (-2)) id) (some (min n0 2)) none A.add y
  let s ← Prog.lift (A.pySq o.sampling)
  A.divide c s y

/-- `_matvec_backward` — SecondDerivative.py:163-172 -/
def sdMvBackward (c : Ctx K) (o : Deriv K) (x : DArr K) : P K (DArr K) := do
  let y ← A.newLike c o.dtype x
  let v ← A.stencil c o.dims x (some 2) none A.diff2 (some (min (len y.gshape 0 : Int) 2)) none
  let s ← Prog.lift (A.pySq o.sampling)
  A.setAll c y (v.map (A.div · s))

/-- `_rmatvec_backward` — SecondDerivative.py:175-199 -/
def sdRmvBackward (c : Ctx K) (o : Deriv K) (x : DArr K) : P K (DArr K) := do
  let y ← A.newLike c o.dtype x
  let y ← A.setAll c y (scalar .real A.zero)
  let n0 : Int := len y.gshape 0
  let y ← A.accum c o.dims x none (some 2) (A.rowsOf 2 none id) none (some (min 2 n0)) A.add y
  let y ← A.accum c o.dims x (some 1) (some 1) (A.rowsOf 2 none (A.mul A.two)) (some 1) (some (min 1 (n0 - 1))) A.sub y
  let y ← A.addPart c x (c.rank = 0) 2 none A.add y
  let s ← Prog.lift (A.pySq o.sampling)
  A.divide c s y

/-- `_matvec_centered` — SecondDerivative.py:202-219 -/
def sdMvCentered (c : Ctx K) (o : Deriv K) (x : DArr K) : P K (DArr K) := do
  let y ← A.newLike c o.dtype x
  let v ← A.stencil c o.dims x (some 1) (some 1) A.diff2 (some 1) (some (min 1 ((len y.gshape 0 : Int) - 1)))
  let y ← A.setAll c y v
  let y ← doIf (o.edge ∧ c.rank = 0) (A.setRow c x 0 0 1 2 fun a b d => A.add (A.sub a (A.mul A.two b)) d) y
  let y ← doIf (o.edge ∧ c.rank = c.size - 1) (A.setRow c x (-1) (-3) (-2) (-1) fun a b d => A.add (A.sub a (A.mul A.two b)) d) y
  let s ← Prog.lift (A.pySq o.sampling)
  A.divide c s y

/-- `_rmatvec_centered` — SecondDerivative.py:222-256 -/
def sdRmvCentered (c : Ctx K) (o : Deriv K) (x : DArr K) : P K (DArr K) := do
  let y ← A.newLike c o.dtype x
  let y ← A.setAll c y (scalar .real A.zero)
  let n0 : Int := len y.gshape 0
  let y ← A.accum c o.dims x none (some 2) (A.rowsOf 1 (some (-1)) id) none (some (min 2 n0)) A.add y
  let y ← A.accum c o.dims x (some 1) (some 1) (A.rowsOf 1 (some (-1)) (A.mul A.two)) (some 1) (some (min 1 (n0 - 1))) A.sub y
  let y ← A.accum c o.dims x (some 2) none (A.rowsOf 1 (some (-1)) id) (some (min 2 n0)) none A.add y
  let y ← doIf (o.edge ∧ c.rank = 0) (A.updRow c x 0 0 0 0 A.add fun a _ _ => a) y
  let y ← doIf (o.edge ∧ c.rank = 0) (A.updRow c x 1 0 0 0 A.sub fun a _ _ => A.mul A.two a) y
  let y ← doIf (o.edge ∧ c.rank = 0) (A.updRow c x 2 0 0 0 A.add fun a _ _ => a) y
  let y ← doIf (o.edge ∧ c.rank = c.size - 1) (A.updRow c x (-3) (-1) (-1) (-1) A.add fun a _ _ => a) y
  let y ← doIf (o.edge ∧ c.rank = c.size - 1) (A.updRow c x (-2) (-1) (-1) (-1) A.sub fun a _ _ => A.mul A.two a) y
  let y ← doIf (o.edge ∧ c.rank = c.size - 1) (A.updRow c x (-1) (-1) (-1) (-1) A.add fun a _ _ => a) y
  let s ← Prog.lift (A.pySq o.sampling)
  A.divide c s y

/-- `_register_multiplications` — SecondDerivative.py:91-110 -/
def sdMv : SDKind → Ctx K → Deriv K → DArr K → P K (DArr K)
  | .forward => A.sdMvForward
  | .backward => A.sdMvBackward
  | .centered => A.sdMvCentered
def sdRmv : SDKind → Ctx K → Deriv K → DArr K → P K (DArr K)
  | .forward => A.sdRmvForward
  | .backward => A.sdRmvBackward
  | .centered => A.sdRmvCentered

/-- `_matvec`, `_rmatvec` — FirstDerivative.py:129-139, SecondDerivative.py:112-122 -/
def derivApply (c : Ctx K) (o : Deriv K) (f : Ctx K → Deriv K → DArr K → P K (DArr K)) (x : DArr K) : P K (DArr K) := do
  let x ← (if x.part = .broadcast then A.toDist c x.larr .scatter 0 none none else .ret x : P K (DArr K))
  A.reshaped c o.dims none (f c o) x

/-- an operator with these methods as `Op` of a solver: `matvec` and `rmatvec` check the shape of the argument — LinearOperator.py:53-76, 89-113 -/
def derivOp (o : Deriv K) (mv rmv : Ctx K → Deriv K → DArr K → P K (DArr K)) : XOp K where
  mv c x := match x with
    | .one d => if d.gshape ≠ [o.dims.prod] then .throw .value else do
      let y ← A.derivApply c o mv d
      .ret (.one y)
    | .stack _ => .throw .attribute
  rmv c x := match x with
    | .one d => if d.gshape ≠ [o.dims.prod] then .throw .value else do
      let y ← A.derivApply c o rmv d
      .ret (.one y)
    | .stack _ => .throw .attribute

/-- `MPIFirstDerivative(dims, sampling, kind, edge, dtype=dtype)` -/
def firstDerivative (k : FDKind) (o : Deriv K) : XOp K := A.derivOp o (A.fdMv k) (A.fdRmv k)

/-- `MPISecondDerivative(dims, sampling, kind, edge, dtype=dtype)` -/
def secondDerivative (k : SDKind) (o : Deriv K) : XOp K := A.derivOp o (A.sdMv k) (A.sdRmv k)

end ArrArith
end Verif

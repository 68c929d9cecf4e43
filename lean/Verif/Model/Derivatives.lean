/-
  Model of /repo/pylops_mpi/basicoperators/FirstDerivative.py and SecondDerivative.py.

  Simplifications: exact arithmetic; `sampling` is a scalar of real dtype (division by a zero `sampling` is not
  represented faithfully, the theorems assume it is not zero); blocks of code that occur several times with different
  constants are written once (`stencil`, `accum`).
-/
import Verif.Model.LinearOperator
import Verif.NumPy.Rows

namespace Verif
open NDArray

variable {K : Type}

/-- kinds of stencils — FirstDerivative.py:108-127, SecondDerivative.py:98-110.  `order` of FirstDerivative is part of the kind. -/
inductive FDKind | forward | backward | centered3 | centered5
  deriving DecidableEq, Repr
inductive SDKind | forward | backward | centered
  deriving DecidableEq, Repr

/-- constructor arguments — FirstDerivative.py:84-99, SecondDerivative.py:74-89 -/
structure Deriv (K : Type) where
  dims : List Nat
  sampling : K
  edge : Bool
  dtype : DType

section
variable [Field K] [StarRing K]

/-- `y[index] op= v`: read `y[index]`, update in place, `__setitem__` -/
def DArr.upd (c : Ctx K) (y : DArr K) (ix : Index) (f : K → K → K) (v : NDArray K) : P K (DArr K) := do
  let t ← Prog.lift (y.larr.get ix)
  let t ← Prog.lift (t.inplace f v)
  y.setItem c ix t

/-- `y = DistributedArray(global_shape=x.global_shape, local_shapes=x.local_shapes, axis=x.axis, dtype=self.dtype)` —
    e.g. FirstDerivative.py:144-145 -/
def newLike (c : Ctx K) (t : DType) (x : DArr K) : P K (DArr K) := do
  let ls ← x.localShapes c
  mkDArr c x.gshape .scatter x.axis (some ls) none t

/-- `numpy.append(zeros((k,) + dims[1:]), v, axis=0)` if `b` (rank 0), e.g. FirstDerivative.py:178-179 -/
def padFront (b : Bool) (k : Option Int) (dims : List Nat) (v : NDArray K) : Except Err (NDArray K) :=
  match b, k with
  | true, some k => do
    let z ← zeroRows k dims.tail
    concat 0 [z, v]
  | _, _ => .ok v

/-- `numpy.append(v, zeros((k,) + dims[1:]), axis=0)` if `b` (last rank), e.g. FirstDerivative.py:148-149 -/
def padBack (b : Bool) (k : Option Int) (dims : List Nat) (v : NDArray K) : Except Err (NDArray K) :=
  match b, k with
  | true, some k => do
    let z ← zeroRows k dims.tail
    concat 0 [v, z]
  | _, _ => .ok v

/-- The block that occurs in all methods: add ghost cells to `x`, combine the ghosted rows, append `kf` rows of zeros
    in front on rank 0 and `kb` rows of zeros at the end on the last rank. -/
def stencil (c : Ctx K) (dims : List Nat) (x : DArr K) (front back : Option Nat) (φ : NDArray K → Except Err (NDArray K))
    (kf kb : Option Int) : P K (NDArray K) := do
  let g ← x.addGhostCells c front back
  let v ← Prog.lift (φ g)
  let v ← Prog.lift (padFront (c.rank = 0) kf dims v)
  Prog.lift (padBack (c.rank = c.size - 1) kb dims v)

/-- the same followed by `y[:] op= v` -/
def accum (c : Ctx K) (dims : List Nat) (x : DArr K) (front back : Option Nat) (φ : NDArray K → Except Err (NDArray K))
    (kf kb : Option Int) (f : K → K → K) (y : DArr K) : P K (DArr K) := do
  let v ← stencil c dims x front back φ kf kb
  y.upd c Index.all f v

/-- `y[:] /= s` -/
def divide (c : Ctx K) (s : K) (y : DArr K) : P K (DArr K) := y.upd c Index.all (· / ·) (scalar .real s)

/-- `ghosted[1:] - ghosted[:-1]` — FirstDerivative.py:147, 177 -/
def diff1 (g : NDArray K) : Except Err (NDArray K) := do
  let a ← g.get (Index.rows 1 none)
  let b ← g.get (Index.rows 0 (some (-1)))
  a.zip (· - ·) b

/-- `0.5 * (ghosted[2:] - ghosted[:-2])` — FirstDerivative.py:207 -/
def cent3 (g : NDArray K) : Except Err (NDArray K) := do
  let a ← g.get (Index.rows 2 none)
  let b ← g.get (Index.rows 0 (some (-2)))
  let v ← a.zip (· - ·) b
  return v.map (1 / 2 * ·)

/-- `ghosted[:-4] / 12 - 2 * ghosted[1:-3] / 3 + 2 * ghosted[3:-1] / 3 - ghosted[4:] / 12` — FirstDerivative.py:255-260 -/
def cent5 (g : NDArray K) : Except Err (NDArray K) := do
  let a ← g.get (Index.rows 0 (some (-4)))
  let b ← g.get (Index.rows 1 (some (-3)))
  let d ← g.get (Index.rows 3 (some (-1)))
  let e ← g.get (Index.rows 4 none)
  let v ← (a.map (· / 12)).zip (· - ·) (b.map (2 * · / 3))
  let v ← v.zip (· + ·) (d.map (2 * · / 3))
  v.zip (· - ·) (e.map (· / 12))

/-- `ghosted[2:] - 2 * ghosted[1:-1] + ghosted[:-2]` — SecondDerivative.py:130, 168, 207 -/
def diff2 (g : NDArray K) : Except Err (NDArray K) := do
  let a ← g.get (Index.rows 2 none)
  let b ← g.get (Index.rows 1 (some (-1)))
  let d ← g.get (Index.rows 0 (some (-2)))
  let v ← a.zip (· - ·) (b.map (2 * ·))
  v.zip (· + ·) d

/-- `m(ghosted[lo:hi])` for an elementwise function `m` -/
def part (lo : Int) (hi : Option Int) (m : K → K) (g : NDArray K) : Except Err (NDArray K) := do
  let a ← g.get (Index.rows lo hi)
  return a.map m

/-- `y[i] = Σ coef * x[j]` (assignment of a combination of rows of `x`, written out as `x[j] - x[k]` etc. in the code) -/
def rowComb (x : NDArray K) (l : List (K × Int)) : Except Err (NDArray K) :=
  match l with
  | [] => .error .protocol
  | [(a, j)] => do
    let u ← x.get (Index.row j)
    return u.map (a * ·)
  | (a, j) :: l => do
    let u ← x.get (Index.row j)
    let v ← rowComb x l
    (u.map (a * ·)).zip (· + ·) v

/-- `y[i] = Σ coef * x[j]` -/
def setRow (c : Ctx K) (x : DArr K) (i : Int) (l : List (K × Int)) (y : DArr K) : P K (DArr K) := do
  let v ← Prog.lift (rowComb x.larr l)
  y.setItem c (Index.row i) v

/-- `y[i] += Σ coef * x[j]` (`-=` in the code is written with negative coefficients) -/
def addRow (c : Ctx K) (x : DArr K) (i : Int) (l : List (K × Int)) (y : DArr K) : P K (DArr K) := do
  let v ← Prog.lift (rowComb x.larr l)
  y.upd c (Index.row i) (· + ·) v

/-- `if b: …` -/
def doIf (b : Bool) (f : DArr K → P K (DArr K)) (y : DArr K) : P K (DArr K) := if b then f y else .ret y

/-- `y[lo:hi] op= x[lo:hi]` if `b`, else `y[:] op= x[:]` — FirstDerivative.py:159-162, 194-197 -/
def addPart (c : Ctx K) (x : DArr K) (b : Bool) (lo : Int) (hi : Option Int) (f : K → K → K) (y : DArr K) : P K (DArr K) :=
  let ix := if b then Index.rows lo hi else Index.rows 0 none
  do
    let v ← Prog.lift (x.larr.get ix)
    y.upd c ix f v

/-! ### MPIFirstDerivative -/

/-- `_matvec_forward` — FirstDerivative.py:142-151 -/
def fdMvForward (c : Ctx K) (o : Deriv K) (x : DArr K) : P K (DArr K) := do
  let y ← newLike c o.dtype x
  let v ← stencil c o.dims x none (some 1) diff1 none (some 1)
  y.setAll c (v.map (· / o.sampling))

/-- `_rmatvec_forward` — FirstDerivative.py:154-169 -/
def fdRmvForward (c : Ctx K) (o : Deriv K) (x : DArr K) : P K (DArr K) := do
  let y ← newLike c o.dtype x
  let y ← y.setAll c (scalar .real 0)
  let y ← addPart c x (c.rank = c.size - 1) 0 (some (-1)) (· - ·) y
  let y ← accum c o.dims x (some 1) none (part 0 (some (-1)) id) (some 1) none (· + ·) y
  divide c o.sampling y

/-- `_matvec_backward` — FirstDerivative.py:172-181 -/
def fdMvBackward (c : Ctx K) (o : Deriv K) (x : DArr K) : P K (DArr K) := do
  let y ← newLike c o.dtype x
  let v ← stencil c o.dims x (some 1) none diff1 (some 1) none
  y.setAll c (v.map (· / o.sampling))

/-- `_rmatvec_backward` — FirstDerivative.py:184-199 -/
def fdRmvBackward (c : Ctx K) (o : Deriv K) (x : DArr K) : P K (DArr K) := do
  let y ← newLike c o.dtype x
  let y ← y.setAll c (scalar .real 0)
  let y ← accum c o.dims x none (some 1) (part 1 none id) none (some 1) (· - ·) y
  let y ← addPart c x (c.rank = 0) 1 none (· + ·) y
  divide c o.sampling y

/-- `_matvec_centered3` — FirstDerivative.py:202-219 -/
def fdMvCentered3 (c : Ctx K) (o : Deriv K) (x : DArr K) : P K (DArr K) := do
  let y ← newLike c o.dtype x
  let v ← stencil c o.dims x (some 1) (some 1) cent3 (some 1) (some (min ((len y.gshape 0 : Int) - 1) 1))
  let y ← y.setAll c v
  let y ← doIf (o.edge ∧ c.rank = 0) (setRow c x 0 [(1, 1), (-1, 0)]) y
  let y ← doIf (o.edge ∧ c.rank = c.size - 1) (setRow c x (-1) [(1, -1), (-1, -2)]) y
  divide c o.sampling y

/-- `_rmatvec_centered3` — FirstDerivative.py:222-247 -/
def fdRmvCentered3 (c : Ctx K) (o : Deriv K) (x : DArr K) : P K (DArr K) := do
  let y ← newLike c o.dtype x
  let y ← y.setAll c (scalar .real 0)
  let n0 : Int := len y.gshape 0
  let y ← accum c o.dims x none (some 2) (part 1 (some (-1)) (1 / 2 * ·)) none (some (min n0 2)) (· - ·) y
  let y ← accum c o.dims x (some 2) none (part 1 (some (-1)) (1 / 2 * ·)) (some (min n0 2)) none (· + ·) y
  let y ← doIf (o.edge ∧ c.rank = 0) (addRow c x 0 [(-1, 0)]) y
  let y ← doIf (o.edge ∧ c.rank = 0) (addRow c x 1 [(1, 0)]) y
  let y ← doIf (o.edge ∧ c.rank = c.size - 1) (addRow c x (-2) [(-1, -1)]) y
  let y ← doIf (o.edge ∧ c.rank = c.size - 1) (addRow c x (-1) [(1, -1)]) y
  divide c o.sampling y

/-- `_matvec_centered5` — FirstDerivative.py:250-274 -/
def fdMvCentered5 (c : Ctx K) (o : Deriv K) (x : DArr K) : P K (DArr K) := do
  let y ← newLike c o.dtype x
  let n0 : Int := len y.gshape 0
  let v ← stencil c o.dims x (some 2) (some 2) cent5 (some (min n0 2)) (some (min (n0 - 2) 2))
  let y ← y.setAll c v
  let y ← doIf (o.edge ∧ c.rank = 0) (setRow c x 0 [(1, 1), (-1, 0)]) y
  let y ← doIf (o.edge ∧ c.rank = 0) (setRow c x 1 [(1 / 2, 2), (-(1 / 2), 0)]) y
  let y ← doIf (o.edge ∧ c.rank = c.size - 1) (setRow c x (-1) [(1, -1), (-1, -2)]) y
  let y ← doIf (o.edge ∧ c.rank = c.size - 1) (setRow c x (-2) [(1 / 2, -1), (-(1 / 2), -3)]) y
  divide c o.sampling y

/-- `_rmatvec_centered5` — FirstDerivative.py:277-319 -/
def fdRmvCentered5 (c : Ctx K) (o : Deriv K) (x : DArr K) : P K (DArr K) := do
  let y ← newLike c o.dtype x
  let y ← y.setAll c (scalar .real 0)
  let n0 : Int := len y.gshape 0
  let y ← accum c o.dims x none (some 4) (part 2 (some (-2)) (· / 12)) none (some (min n0 4)) (· + ·) y
  let y ← accum c o.dims x (some 1) (some 3) (part 2 (some (-2)) (2 * · / 3)) (some 1) (some (min (n0 - 1) 3)) (· - ·) y
  let y ← accum c o.dims x (some 3) (some 1) (part 2 (some (-2)) (2 * · / 3)) (some (min n0 3)) (some (min (n0 - 3) 1)) (· + ·) y
  let y ← accum c o.dims x (some 4) none (part 2 (some (-2)) (· / 12)) (some (min n0 4)) none (· - ·) y
  let y ← doIf (o.edge ∧ c.rank = 0) (addRow c x 0 [(-1, 0), (-(1 / 2), 1)]) y
  let y ← doIf (o.edge ∧ c.rank = 0) (addRow c x 1 [(1, 0)]) y
  let y ← doIf (o.edge ∧ c.rank = 0) (addRow c x 2 [(1 / 2, 1)]) y
  let y ← doIf (o.edge ∧ c.rank = c.size - 1) (addRow c x (-3) [(-(1 / 2), -2)]) y
  let y ← doIf (o.edge ∧ c.rank = c.size - 1) (addRow c x (-2) [(-1, -1)]) y
  let y ← doIf (o.edge ∧ c.rank = c.size - 1) (addRow c x (-1) [(1 / 2, -2), (1, -1)]) y
  divide c o.sampling y

/-- `_register_multiplications` — FirstDerivative.py:101-127 -/
def fdMv : FDKind → Ctx K → Deriv K → DArr K → P K (DArr K)
  | .forward => fdMvForward
  | .backward => fdMvBackward
  | .centered3 => fdMvCentered3
  | .centered5 => fdMvCentered5
def fdRmv : FDKind → Ctx K → Deriv K → DArr K → P K (DArr K)
  | .forward => fdRmvForward
  | .backward => fdRmvBackward
  | .centered3 => fdRmvCentered3
  | .centered5 => fdRmvCentered5

/-- `_matvec`, `_rmatvec` — FirstDerivative.py:129-139, SecondDerivative.py:112-122: BROADCAST inputs are scattered; the
    method `f` is decorated with `reshaped` -/
def derivApply (c : Ctx K) (o : Deriv K) (f : Ctx K → Deriv K → DArr K → P K (DArr K)) (x : DArr K) : P K (DArr K) := do
  let x ← (if x.part = .broadcast then toDist c x.larr .scatter 0 none none else .ret x : P K (DArr K))
  reshaped c o.dims none (f c o) x

/-- `MPIFirstDerivative(dims, sampling, kind, edge, order, dtype=dtype)` — FirstDerivative.py:84-99 -/
def firstDerivative (k : FDKind) (o : Deriv K) : Prim K :=
  ⟨o.dims.prod, o.dims.prod, o.dtype, fun c x => derivApply c o (fdMv k) x, fun c x => derivApply c o (fdRmv k) x⟩

/-! ### MPISecondDerivative -/

/-- `_matvec_forward` — SecondDerivative.py:125-134 -/
def sdMvForward (c : Ctx K) (o : Deriv K) (x : DArr K) : P K (DArr K) := do
  let y ← newLike c o.dtype x
  let v ← stencil c o.dims x none (some 2) diff2 none (some (min (len y.gshape 0 : Int) 2))
  y.setAll c (v.map (· / o.sampling ^ 2))

/-- `_rmatvec_forward` — SecondDerivative.py:137-160 -/
def sdRmvForward (c : Ctx K) (o : Deriv K) (x : DArr K) : P K (DArr K) := do
  let y ← newLike c o.dtype x
  let y ← y.setAll c (scalar .real 0)
  let n0 : Int := len y.gshape 0
  let y ← addPart c x (c.rank = c.size - 1) 0 (some (-2)) (· + ·) y
  let y ← accum c o.dims x (some 1) (some 1) (part 0 (some (-2)) id) (some 1) (some (min 1 (n0 - 1))) (fun a b => a - 2 * b) y
  let y ← accum c o.dims x (some 2) none (part 0 (some (-2)) id) (some (min n0 2)) none (· + ·) y
  divide c (o.sampling ^ 2) y

/-- `_matvec_backward` — SecondDerivative.py:163-172 -/
def sdMvBackward (c : Ctx K) (o : Deriv K) (x : DArr K) : P K (DArr K) := do
  let y ← newLike c o.dtype x
  let v ← stencil c o.dims x (some 2) none diff2 (some (min (len y.gshape 0 : Int) 2)) none
  y.setAll c (v.map (· / o.sampling ^ 2))

/-- `_rmatvec_backward` — SecondDerivative.py:175-199 -/
def sdRmvBackward (c : Ctx K) (o : Deriv K) (x : DArr K) : P K (DArr K) := do
  let y ← newLike c o.dtype x
  let y ← y.setAll c (scalar .real 0)
  let n0 : Int := len y.gshape 0
  let y ← accum c o.dims x none (some 2) (part 2 none id) none (some (min 2 n0)) (· + ·) y
  let y ← accum c o.dims x (some 1) (some 1) (part 2 none (2 * ·)) (some 1) (some (min 1 (n0 - 1))) (· - ·) y
  let y ← addPart c x (c.rank = 0) 2 none (· + ·) y
  divide c (o.sampling ^ 2) y

/-- `_matvec_centered` — SecondDerivative.py:202-219 -/
def sdMvCentered (c : Ctx K) (o : Deriv K) (x : DArr K) : P K (DArr K) := do
  let y ← newLike c o.dtype x
  let v ← stencil c o.dims x (some 1) (some 1) diff2 (some 1) (some (min 1 ((len y.gshape 0 : Int) - 1)))
  let y ← y.setAll c v
  let y ← doIf (o.edge ∧ c.rank = 0) (setRow c x 0 [(1, 0), (-2, 1), (1, 2)]) y
  let y ← doIf (o.edge ∧ c.rank = c.size - 1) (setRow c x (-1) [(1, -3), (-2, -2), (1, -1)]) y
  divide c (o.sampling ^ 2) y

/-- `_rmatvec_centered` — SecondDerivative.py:222-256 -/
def sdRmvCentered (c : Ctx K) (o : Deriv K) (x : DArr K) : P K (DArr K) := do
  let y ← newLike c o.dtype x
  let y ← y.setAll c (scalar .real 0)
  let n0 : Int := len y.gshape 0
  let y ← accum c o.dims x none (some 2) (part 1 (some (-1)) id) none (some (min 2 n0)) (· + ·) y
  let y ← accum c o.dims x (some 1) (some 1) (part 1 (some (-1)) (2 * ·)) (some 1) (some (min 1 (n0 - 1))) (· - ·) y
  let y ← accum c o.dims x (some 2) none (part 1 (some (-1)) id) (some (min 2 n0)) none (· + ·) y
  let y ← doIf (o.edge ∧ c.rank = 0) (addRow c x 0 [(1, 0)]) y
  let y ← doIf (o.edge ∧ c.rank = 0) (addRow c x 1 [(-2, 0)]) y
  let y ← doIf (o.edge ∧ c.rank = 0) (addRow c x 2 [(1, 0)]) y
  let y ← doIf (o.edge ∧ c.rank = c.size - 1) (addRow c x (-3) [(1, -1)]) y
  let y ← doIf (o.edge ∧ c.rank = c.size - 1) (addRow c x (-2) [(-2, -1)]) y
  let y ← doIf (o.edge ∧ c.rank = c.size - 1) (addRow c x (-1) [(1, -1)]) y
  divide c (o.sampling ^ 2) y

/-- `_register_multiplications` — SecondDerivative.py:91-110 -/
def sdMv : SDKind → Ctx K → Deriv K → DArr K → P K (DArr K)
  | .forward => sdMvForward
  | .backward => sdMvBackward
  | .centered => sdMvCentered
def sdRmv : SDKind → Ctx K → Deriv K → DArr K → P K (DArr K)
  | .forward => sdRmvForward
  | .backward => sdRmvBackward
  | .centered => sdRmvCentered

/-- `MPISecondDerivative(dims, sampling, kind, edge, dtype=dtype)` — SecondDerivative.py:74-89 -/
def secondDerivative (k : SDKind) (o : Deriv K) : Prim K :=
  ⟨o.dims.prod, o.dims.prod, o.dtype, fun c x => derivApply c o (sdMv k) x, fun c x => derivApply c o (sdRmv k) x⟩

end
end Verif

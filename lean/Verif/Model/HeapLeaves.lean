/-
  The `_matvec` and `_rmatvec` of the operator classes of the library acting on the memory: BlockDiag.py, VStack.py, HStack.py,
  FirstDerivative.py, SecondDerivative.py, Laplacian.py, Gradient.py, Fredholm1.py, MDC.py and the wrapper of LinearOperator.py, with the decorator
  `reshaped` (see Model/Decorators, Stacking, Derivatives, Laplacian, Fredholm and MDC for the same methods as functions of values).

  `y[index] op= v` changes the local array of `y` through the view `y[index]` and then assigns the same values to `y[index]`; only the assignment is
  modelled.  The local operators (`LOp`) compute a new NumPy array from the value of their argument.
-/
import Verif.Model.HeapOperators
import Verif.Model.Laplacian
import Verif.Model.MDC

namespace Verif
open NDArray

variable {K : Type} [Field K] [StarRing K]

/-! ### decorators.py -/

/-- decorators.py:44-70 (see `redistribute`) -/
def hredistribute (c : Ctx K) (gshape : List Nat) (lshapes : Option (List (List Nat))) (x : Nat) : HP K Nat := do
  let d ← HP.read x
  if d.part ≠ .scatter then HP.throw .value
  else do
    let arr ← HArr.new c gshape .scatter 0 lshapes none d.dtype
    let a ← HP.read arr
    let al ← HP.lift (allgather c a.lshape.prod)
    let d ← HP.read x
    let xl ← HP.lift (allgather c d.lshape.prod)
    let dif := cumsum (List.zipWith (fun (a b : Nat) => (a : Int) - (b : Int)) al xl)
    let front := (min 0 (pyPrev dif c.rank)).natAbs
    let back := (max 0 (dif.getD c.rank 0)).toNat
    let g ← HP.lift (d.addGhostCells c (some front) (some back))
    let index := (max 0 (pyPrev dif c.rank)).toNat
    let v ← HP.lift (Prog.lift ((g.slice 0 index (al.getD c.rank 0 + index)).reshape a.lshape))
    HArr.setAll c arr v
    HP.ret arr

/-- decorators.py:43-74 (see `reshaped`) -/
def hreshaped (c : Ctx K) (gshape : List Nat) (lshapes : Option (List (List Nat))) (f : Nat → HP K Nat) (x : Nat) : HP K Nat := do
  let arr ← hredistribute c gshape lshapes x
  let y ← f arr
  let d ← HP.read y
  if d.gshape.length > 1 then HArr.ravel c y else HP.ret y

/-! ### BlockDiag.py, VStack.py, HStack.py -/

/-- BlockDiag.py:121-143 (see `blockDiagMv`) -/
def hblockDiagMv (ops : List (LOp K)) (mask : Option (List Nat)) (dt : DType) (b : Bool) (lin lout : List (List Nat)) (M : Nat) (c : Ctx K) (x : Nat) : HP K Nat := do
  let d ← HP.read x
  hreshaped c d.gshape (some lin) (fun x => do
    let y ← HArr.new c [M] .scatter 0 (some lout) mask dt
    let d ← HP.read x
    let y1 ← HP.lift (Prog.lift (applyAt b d.larr 0 ops))
    let v ← HP.lift (Prog.lift (concat 0 y1))
    HArr.setAll c y v
    HP.ret y) x

/-- BlockDiag.py:100-119 (see `mkBlockDiag`) -/
def hmkBlockDiag (c : Ctx K) (ops : List (LOp K)) (mask : Option (List Nat)) (dtype : Option DType) : HP K (HPrim K) := do
  let mops := (ops.map (·.cols)).sum
  let lm ← HP.lift (allgather c [mops])
  let nops := (ops.map (·.rows)).sum
  let ln ← HP.lift (allgather c [nops])
  let M ← HP.lift (allreduce c.world (fun a b => .ok (a + b)) nops)
  let N ← HP.lift (allreduce c.world (fun a b => .ok (a + b)) mops)
  let dt ← HP.lift (Prog.lift (opsDType ops dtype))
  HP.ret { rows := M, cols := N, mv := hblockDiagMv ops mask dt false lm ln M, rmv := hblockDiagMv ops mask dt true ln lm N }

/-- VStack.py:119-130 (see `vstackMv`) -/
def hvstackMv (ops : List (LOp K)) (dt : DType) (ln : List (List Nat)) (M : Nat) (c : Ctx K) (x : Nat) : HP K Nat := do
  let d ← HP.read x
  if ¬ d.part.isBroadcast then HP.throw .value
  else do
    let y ← HArr.new c [M] .scatter 0 (some ln) none dt
    let d ← HP.read x
    let y1 ← HP.lift (Prog.lift (ops.mapM fun o => o.apply false d.larr))
    let v ← HP.lift (Prog.lift (concat 0 y1))
    HArr.setAll c y v
    HP.ret y

/-- VStack.py:132-143 (see `vstackRmv`) -/
def hvstackRmv (ops : List (LOp K)) (dt : DType) (ln : List (List Nat)) (N : Nat) (c : Ctx K) (x : Nat) : HP K Nat := do
  let d ← HP.read x
  hreshaped c d.gshape (some ln) (fun x => do
    let y ← HArr.new c [N] .broadcast 0 none none dt
    let d ← HP.read x
    let y1 ← HP.lift (Prog.lift (applyAt true d.larr 0 ops))
    let s ← HP.lift (Prog.lift (sumRows y1))
    let t ← HP.lift (allreduce c.world (NDArray.zip (· + ·)) s)
    HArr.setAll c y t
    HP.ret y) x

/-- VStack.py:100-117 (see `mkVStack`) -/
def hmkVStack (c : Ctx K) (ops : List (LOp K)) (dtype : Option DType) : HP K (HPrim K) := do
  let nops := (ops.map (·.rows)).sum
  let ln ← HP.lift (allgather c [nops])
  let ms ← HP.lift (allgather c (ops.map (·.cols)))
  match ms.flatten with
  | [] => HP.throw .index
  | N :: rest =>
    if rest.any (· ≠ N) then HP.throw .value
    else do
      let M ← HP.lift (allreduce c.world (fun a b => .ok (a + b)) nops)
      let dt ← HP.lift (Prog.lift (opsDType ops dtype))
      HP.ret { rows := M, cols := N, mv := hvstackMv ops dt ln M, rmv := hvstackRmv ops dt ln N }

/-- HStack.py:90-106 (see `mkHStack`) -/
def hmkHStack (c : Ctx K) (ops : List (LOp K)) (dtype : Option DType) : HP K (HPrim K) := do
  let ns ← HP.lift (allgather c (ops.map (·.rows)))
  if (match ns.flatten with
    | [] => false
    | N :: rest => rest.any (· ≠ N)) then HP.throw .value
  else do
    let v ← hmkVStack c (ops.map (·.H)) dtype
    HP.ret { rows := v.cols, cols := v.rows, mv := fun c x => MOp.hrun c false (.adj (.leaf v)) x, rmv := fun c x => MOp.hrun c true (.adj (.leaf v)) x }

/-! ### FirstDerivative.py and SecondDerivative.py -/

/-- `y[index] op= v` (see `DArr.upd`) -/
def HArr.upd (c : Ctx K) (y : Nat) (ix : Index) (f : K → K → K) (v : NDArray K) : HP K Unit := do
  let d ← HP.read y
  let t ← HP.lift (Prog.lift (d.larr.get ix))
  let t ← HP.lift (Prog.lift (t.inplace f v))
  HArr.setItem c y ix t

/-- see `newLike` -/
def hnewLike (c : Ctx K) (t : DType) (x : Nat) : HP K Nat := do
  let d ← HP.read x
  let ls ← HP.lift (d.localShapes c)
  HArr.new c d.gshape .scatter d.axis (some ls) none t

/-- see `stencil` -/
def hstencil (c : Ctx K) (dims : List Nat) (x : Nat) (front back : Option Nat) (φ : NDArray K → Except Err (NDArray K)) (kf kb : Option Int) : HP K (NDArray K) := do
  let d ← HP.read x
  HP.lift (stencil c dims d front back φ kf kb)

/-- see `accum` -/
def haccum (c : Ctx K) (dims : List Nat) (x : Nat) (front back : Option Nat) (φ : NDArray K → Except Err (NDArray K)) (kf kb : Option Int) (f : K → K → K) (y : Nat) : HP K Unit := do
  let v ← hstencil c dims x front back φ kf kb
  HArr.upd c y Index.all f v

/-- `y[:] /= s` -/
def hdivide (c : Ctx K) (s : K) (y : Nat) : HP K Unit := HArr.upd c y Index.all (· / ·) (scalar .real s)

/-- `y[i] = Σ coef * x[j]` (see `setRow`) -/
def hsetRow (c : Ctx K) (x : Nat) (i : Int) (l : List (K × Int)) (y : Nat) : HP K Unit := do
  let d ← HP.read x
  let v ← HP.lift (Prog.lift (rowComb d.larr l))
  HArr.setItem c y (Index.row i) v

/-- `y[i] += Σ coef * x[j]` (see `addRow`) -/
def haddRow (c : Ctx K) (x : Nat) (i : Int) (l : List (K × Int)) (y : Nat) : HP K Unit := do
  let d ← HP.read x
  let v ← HP.lift (Prog.lift (rowComb d.larr l))
  HArr.upd c y (Index.row i) (· + ·) v

/-- `if b: …` -/
def hdoIf (b : Bool) (f : Nat → HP K Unit) (y : Nat) : HP K Unit := if b then f y else HP.ret ()

/-- see `addPart` -/
def haddPart (c : Ctx K) (x : Nat) (b : Bool) (lo : Int) (hi : Option Int) (f : K → K → K) (y : Nat) : HP K Unit := do
  let d ← HP.read x
  let v ← HP.lift (Prog.lift (d.larr.get (if b then Index.rows lo hi else Index.rows 0 none)))
  HArr.upd c y (if b then Index.rows lo hi else Index.rows 0 none) f v

/-- `_matvec_forward` — FirstDerivative.py:142-151 -/
def hfdMvForward (c : Ctx K) (o : Deriv K) (x : Nat) : HP K Nat := do
  let y ← hnewLike c o.dtype x
  let v ← hstencil c o.dims x none (some 1) diff1 none (some 1)
  HArr.setAll c y (v.map (· / o.sampling))
  HP.ret y

/-- `_rmatvec_forward` — FirstDerivative.py:154-169 -/
def hfdRmvForward (c : Ctx K) (o : Deriv K) (x : Nat) : HP K Nat := do
  let y ← hnewLike c o.dtype x
  HArr.setAll c y (scalar .real 0)
  haddPart c x (c.rank = c.size - 1) 0 (some (-1)) (· - ·) y
  haccum c o.dims x (some 1) none (part 0 (some (-1)) id) (some 1) none (· + ·) y
  hdivide c o.sampling y
  HP.ret y

/-- `_matvec_backward` — FirstDerivative.py:172-181 -/
def hfdMvBackward (c : Ctx K) (o : Deriv K) (x : Nat) : HP K Nat := do
  let y ← hnewLike c o.dtype x
  let v ← hstencil c o.dims x (some 1) none diff1 (some 1) none
  HArr.setAll c y (v.map (· / o.sampling))
  HP.ret y

/-- `_rmatvec_backward` — FirstDerivative.py:184-199 -/
def hfdRmvBackward (c : Ctx K) (o : Deriv K) (x : Nat) : HP K Nat := do
  let y ← hnewLike c o.dtype x
  HArr.setAll c y (scalar .real 0)
  haccum c o.dims x none (some 1) (part 1 none id) none (some 1) (· - ·) y
  haddPart c x (c.rank = 0) 1 none (· + ·) y
  hdivide c o.sampling y
  HP.ret y

/-- `_matvec_centered3` — FirstDerivative.py:202-219 -/
def hfdMvCentered3 (c : Ctx K) (o : Deriv K) (x : Nat) : HP K Nat := do
  let y ← hnewLike c o.dtype x
  let e ← HP.read y
  let v ← hstencil c o.dims x (some 1) (some 1) cent3 (some 1) (some (min ((len e.gshape 0 : Int) - 1) 1))
  HArr.setAll c y v
  hdoIf (o.edge ∧ c.rank = 0) (hsetRow c x 0 [(1, 1), (-1, 0)]) y
  hdoIf (o.edge ∧ c.rank = c.size - 1) (hsetRow c x (-1) [(1, -1), (-1, -2)]) y
  hdivide c o.sampling y
  HP.ret y

/-- `_rmatvec_centered3` — FirstDerivative.py:222-247 -/
def hfdRmvCentered3 (c : Ctx K) (o : Deriv K) (x : Nat) : HP K Nat := do
  let y ← hnewLike c o.dtype x
  HArr.setAll c y (scalar .real 0)
  let e ← HP.read y
  let n0 : Int := len e.gshape 0
  haccum c o.dims x none (some 2) (part 1 (some (-1)) (1 / 2 * ·)) none (some (min n0 2)) (· - ·) y
  haccum c o.dims x (some 2) none (part 1 (some (-1)) (1 / 2 * ·)) (some (min n0 2)) none (· + ·) y
  hdoIf (o.edge ∧ c.rank = 0) (haddRow c x 0 [(-1, 0)]) y
  hdoIf (o.edge ∧ c.rank = 0) (haddRow c x 1 [(1, 0)]) y
  hdoIf (o.edge ∧ c.rank = c.size - 1) (haddRow c x (-2) [(-1, -1)]) y
  hdoIf (o.edge ∧ c.rank = c.size - 1) (haddRow c x (-1) [(1, -1)]) y
  hdivide c o.sampling y
  HP.ret y

/-- `_matvec_centered5` — FirstDerivative.py:250-274 -/
def hfdMvCentered5 (c : Ctx K) (o : Deriv K) (x : Nat) : HP K Nat := do
  let y ← hnewLike c o.dtype x
  let e ← HP.read y
  let n0 : Int := len e.gshape 0
  let v ← hstencil c o.dims x (some 2) (some 2) cent5 (some (min n0 2)) (some (min (n0 - 2) 2))
  HArr.setAll c y v
  hdoIf (o.edge ∧ c.rank = 0) (hsetRow c x 0 [(1, 1), (-1, 0)]) y
  hdoIf (o.edge ∧ c.rank = 0) (hsetRow c x 1 [(1 / 2, 2), (-(1 / 2), 0)]) y
  hdoIf (o.edge ∧ c.rank = c.size - 1) (hsetRow c x (-1) [(1, -1), (-1, -2)]) y
  hdoIf (o.edge ∧ c.rank = c.size - 1) (hsetRow c x (-2) [(1 / 2, -1), (-(1 / 2), -3)]) y
  hdivide c o.sampling y
  HP.ret y

/-- `_rmatvec_centered5` — FirstDerivative.py:277-319 -/
def hfdRmvCentered5 (c : Ctx K) (o : Deriv K) (x : Nat) : HP K Nat := do
  let y ← hnewLike c o.dtype x
  HArr.setAll c y (scalar .real 0)
  let e ← HP.read y
  let n0 : Int := len e.gshape 0
  haccum c o.dims x none (some 4) (part 2 (some (-2)) (· / 12)) none (some (min n0 4)) (· + ·) y
  haccum c o.dims x (some 1) (some 3) (part 2 (some (-2)) (2 * · / 3)) (some 1) (some (min (n0 - 1) 3)) (· - ·) y
  haccum c o.dims x (some 3) (some 1) (part 2 (some (-2)) (2 * · / 3)) (some (min n0 3)) (some (min (n0 - 3) 1)) (· + ·) y
  haccum c o.dims x (some 4) none (part 2 (some (-2)) (· / 12)) (some (min n0 4)) none (· - ·) y
  hdoIf (o.edge ∧ c.rank = 0) (haddRow c x 0 [(-1, 0), (-(1 / 2), 1)]) y
  hdoIf (o.edge ∧ c.rank = 0) (haddRow c x 1 [(1, 0)]) y
  hdoIf (o.edge ∧ c.rank = 0) (haddRow c x 2 [(1 / 2, 1)]) y
  hdoIf (o.edge ∧ c.rank = c.size - 1) (haddRow c x (-3) [(-(1 / 2), -2)]) y
  hdoIf (o.edge ∧ c.rank = c.size - 1) (haddRow c x (-2) [(-1, -1)]) y
  hdoIf (o.edge ∧ c.rank = c.size - 1) (haddRow c x (-1) [(1 / 2, -2), (1, -1)]) y
  hdivide c o.sampling y
  HP.ret y

/-- `_matvec_forward` — SecondDerivative.py:125-134 -/
def hsdMvForward (c : Ctx K) (o : Deriv K) (x : Nat) : HP K Nat := do
  let y ← hnewLike c o.dtype x
  let e ← HP.read y
  let v ← hstencil c o.dims x none (some 2) diff2 none (some (min (len e.gshape 0 : Int) 2))
  HArr.setAll c y (v.map (· / o.sampling ^ 2))
  HP.ret y

/-- `_rmatvec_forward` — SecondDerivative.py:137-160 -/
def hsdRmvForward (c : Ctx K) (o : Deriv K) (x : Nat) : HP K Nat := do
  let y ← hnewLike c o.dtype x
  HArr.setAll c y (scalar .real 0)
  let e ← HP.read y
  let n0 : Int := len e.gshape 0
  haddPart c x (c.rank = c.size - 1) 0 (some (-2)) (· + ·) y
  haccum c o.dims x (some 1) (some 1) (part 0 (some (-2)) id) (some 1) (some (min 1 (n0 - 1))) (fun a b => a - 2 * b) y
  haccum c o.dims x (some 2) none (part 0 (some (-2)) id) (some (min n0 2)) none (· + ·) y
  hdivide c (o.sampling ^ 2) y
  HP.ret y

/-- `_matvec_backward` — SecondDerivative.py:163-172 -/
def hsdMvBackward (c : Ctx K) (o : Deriv K) (x : Nat) : HP K Nat := do
  let y ← hnewLike c o.dtype x
  let e ← HP.read y
  let v ← hstencil c o.dims x (some 2) none diff2 (some (min (len e.gshape 0 : Int) 2)) none
  HArr.setAll c y (v.map (· / o.sampling ^ 2))
  HP.ret y

/-- `_rmatvec_backward` — SecondDerivative.py:175-199 -/
def hsdRmvBackward (c : Ctx K) (o : Deriv K) (x : Nat) : HP K Nat := do
  let y ← hnewLike c o.dtype x
  HArr.setAll c y (scalar .real 0)
  let e ← HP.read y
  let n0 : Int := len e.gshape 0
  haccum c o.dims x none (some 2) (part 2 none id) none (some (min 2 n0)) (· + ·) y
  haccum c o.dims x (some 1) (some 1) (part 2 none (2 * ·)) (some 1) (some (min 1 (n0 - 1))) (· - ·) y
  haddPart c x (c.rank = 0) 2 none (· + ·) y
  hdivide c (o.sampling ^ 2) y
  HP.ret y

/-- `_matvec_centered` — SecondDerivative.py:202-219 -/
def hsdMvCentered (c : Ctx K) (o : Deriv K) (x : Nat) : HP K Nat := do
  let y ← hnewLike c o.dtype x
  let e ← HP.read y
  let v ← hstencil c o.dims x (some 1) (some 1) diff2 (some 1) (some (min 1 ((len e.gshape 0 : Int) - 1)))
  HArr.setAll c y v
  hdoIf (o.edge ∧ c.rank = 0) (hsetRow c x 0 [(1, 0), (-2, 1), (1, 2)]) y
  hdoIf (o.edge ∧ c.rank = c.size - 1) (hsetRow c x (-1) [(1, -3), (-2, -2), (1, -1)]) y
  hdivide c (o.sampling ^ 2) y
  HP.ret y

/-- `_rmatvec_centered` — SecondDerivative.py:222-256 -/
def hsdRmvCentered (c : Ctx K) (o : Deriv K) (x : Nat) : HP K Nat := do
  let y ← hnewLike c o.dtype x
  HArr.setAll c y (scalar .real 0)
  let e ← HP.read y
  let n0 : Int := len e.gshape 0
  haccum c o.dims x none (some 2) (part 1 (some (-1)) id) none (some (min 2 n0)) (· + ·) y
  haccum c o.dims x (some 1) (some 1) (part 1 (some (-1)) (2 * ·)) (some 1) (some (min 1 (n0 - 1))) (· - ·) y
  haccum c o.dims x (some 2) none (part 1 (some (-1)) id) (some (min 2 n0)) none (· + ·) y
  hdoIf (o.edge ∧ c.rank = 0) (haddRow c x 0 [(1, 0)]) y
  hdoIf (o.edge ∧ c.rank = 0) (haddRow c x 1 [(-2, 0)]) y
  hdoIf (o.edge ∧ c.rank = 0) (haddRow c x 2 [(1, 0)]) y
  hdoIf (o.edge ∧ c.rank = c.size - 1) (haddRow c x (-3) [(1, -1)]) y
  hdoIf (o.edge ∧ c.rank = c.size - 1) (haddRow c x (-2) [(-2, -1)]) y
  hdoIf (o.edge ∧ c.rank = c.size - 1) (haddRow c x (-1) [(1, -1)]) y
  hdivide c (o.sampling ^ 2) y
  HP.ret y

/-- FirstDerivative.py:101-127 -/
def hfdMv : FDKind → Ctx K → Deriv K → Nat → HP K Nat
  | .forward => hfdMvForward
  | .backward => hfdMvBackward
  | .centered3 => hfdMvCentered3
  | .centered5 => hfdMvCentered5
def hfdRmv : FDKind → Ctx K → Deriv K → Nat → HP K Nat
  | .forward => hfdRmvForward
  | .backward => hfdRmvBackward
  | .centered3 => hfdRmvCentered3
  | .centered5 => hfdRmvCentered5
/-- SecondDerivative.py:91-110 -/
def hsdMv : SDKind → Ctx K → Deriv K → Nat → HP K Nat
  | .forward => hsdMvForward
  | .backward => hsdMvBackward
  | .centered => hsdMvCentered
def hsdRmv : SDKind → Ctx K → Deriv K → Nat → HP K Nat
  | .forward => hsdRmvForward
  | .backward => hsdRmvBackward
  | .centered => hsdRmvCentered

/-- `DistributedArray.to_dist(x.local_array, ...)` — DistributedArray.py:306-354 (see `toDist`) -/
def HArr.toDist (c : Ctx K) (v : NDArray K) (part : Partition) (axis : Nat) (lshapes : Option (List (List Nat))) (mask : Option (List Nat)) : HP K Nat := do
  let x ← HArr.new c v.shape part axis lshapes mask v.dtype
  if part.isBroadcast then do
    HArr.setAll c x v
    HP.ret x
  else do
    let d ← HP.read x
    let ls ← HP.lift (allgather c (len d.lshape axis))
    let lo := (ls.take c.rank).sum
    let hi := (ls.take (c.rank + 1)).sum
    HArr.setAll c x (v.slice axis lo hi)
    HP.ret x

/-- FirstDerivative.py:129-139, SecondDerivative.py:112-122 (see `derivApply`) -/
def hderivApply (c : Ctx K) (o : Deriv K) (f : Ctx K → Deriv K → Nat → HP K Nat) (x : Nat) : HP K Nat := do
  let d ← HP.read x
  let x ← (if d.part = .broadcast then HArr.toDist c d.larr .scatter 0 none none else HP.ret x : HP K Nat)
  hreshaped c o.dims none (f c o) x

/-- FirstDerivative.py:84-99 -/
def hfirstDerivative (k : FDKind) (o : Deriv K) : HPrim K := ⟨o.dims.prod, o.dims.prod, fun c x => hderivApply c o (hfdMv k) x, fun c x => hderivApply c o (hfdRmv k) x⟩

/-- SecondDerivative.py:74-89 -/
def hsecondDerivative (k : SDKind) (o : Deriv K) : HPrim K := ⟨o.dims.prod, o.dims.prod, fun c x => hderivApply c o (hsdMv k) x, fun c x => hderivApply c o (hsdRmv k) x⟩

/-! ### Laplacian.py and Gradient.py -/

/-- Laplacian.py:101-123 (see `lapTerm`) -/
def hlapTerm (c : Ctx K) (sd : Serial K SDKind) (dims : List Nat) (edge : Bool) (dt : DType) (ax : Nat) (s : K) (kind : SDKind) : HP K (HPrim K) :=
  if ax = 0 then HP.ret (hsecondDerivative kind ⟨dims, s, edge, dt⟩)
  else hmkBlockDiag c [sd (localSplit c dims .scatter 0) ax s kind edge dt] none none

/-- Laplacian.py:115-123 (see `lapLoop`) -/
def hlapLoop (c : Ctx K) (sd : Serial K SDKind) (dims : List Nat) (edge : Bool) (dt : DType) : List (Nat × K × Scal K) → MOp K (HPrim K) → HP K (MOp K (HPrim K))
  | [], e => HP.ret e
  | (ax, s, w) :: l, e => do
    let p ← hlapTerm c sd dims edge dt ax s .centered
    let e ← HP.lift (Prog.lift (e.add HPrim.shape (.scaled (.leaf p) w)))
    hlapLoop c sd dims edge dt l e

/-- Laplacian.py:69-124 (see `mkLaplacian`) -/
def hmkLaplacian (c : Ctx K) (sd : Serial K SDKind) (dims axes : List Nat) (weights : List (Scal K)) (sampling : List K) (edge : Bool) (kind : SDKind) (dt : DType) : HP K (HPrim K) :=
  if axes.any (dims.length ≤ ·) then HP.throw .value
  else if ¬ (axes.length = weights.length ∧ weights.length = sampling.length) then HP.throw .value
  else match axes.zip (sampling.zip weights) with
    | [] => HP.throw .index
    | (ax, s, w) :: l => do
      let p ← hlapTerm c sd dims edge dt ax s kind
      let e ← hlapLoop c sd dims edge dt l (.scaled (.leaf p) w)
      HP.ret { rows := (e.shape HPrim.shape).1, cols := (e.shape HPrim.shape).2,
               mv := fun c x => MOp.hrun c false e x,
               rmv := fun c x => do
                 let h ← HP.lift (Prog.lift (e.H HPrim.shape))
                 MOp.hrun c false h x }

/-- Gradient.py:107-117 (see `gradLoop`) -/
def hgradLoop (c : Ctx K) (fd : Serial K FDKind) (dims : List Nat) (edge : Bool) (kind : FDKind) (dt : DType) : Nat → List K → HP K (List (MOp K (HPrim K)))
  | _, [] => HP.ret []
  | iax, s :: l => do
    let p ← hmkBlockDiag c [fd (localSplit c dims .scatter 0) iax s kind edge dt] none none
    let ops ← hgradLoop c fd dims edge kind dt (iax + 1) l
    HP.ret (.leaf p :: ops)

/-- Gradient.py:76-119 (see `mkGradient`) -/
def hmkGradient (c : Ctx K) (fd : Serial K FDKind) (dims : List Nat) (sampling : List K) (edge : Bool) (kind : FDKind) (dt : DType) : HP K (SOp K (HPrim K)) :=
  match sampling.take dims.length with
  | [] => HP.throw .index
  | s :: l => do
    let ops ← hgradLoop c fd dims edge kind dt 1 l
    if l.length + 1 < dims.length then HP.throw .index
    else do
      let e ← HP.lift (Prog.lift (SOp.mkVStack HPrim.shape (.leaf (hfirstDerivative kind ⟨dims, s, edge, dt⟩) :: ops)))
      match e with
      | .vstack l => HP.ret (.grad l)
      | e => HP.ret e

/-! ### Fredholm1.py, LinearOperator.py, MDC.py -/

/-- Fredholm1.py:109-129, 131-163 (see `fredMv`) -/
def hfredMv (o : Fred K) (b : Bool) (c : Ctx K) (x : Nat) : HP K Nat := do
  let d ← HP.read x
  if ¬ d.part.isBroadcast then HP.throw .value
  else do
    let y ← HArr.new c [o.tot * (if b then o.ny else o.nx) * o.nz] .broadcast 0 none none o.dt
    let d ← HP.read x
    let x1 ← HP.lift (Prog.lift (fredInput c o (if b then o.nx else o.ny) d.larr))
    let y1 ← HP.lift (Prog.lift (if b then fredAdj o x1 else fredFwd o x1))
    let l ← HP.lift (allgather c y1)
    let v ← HP.lift (Prog.lift (vstack l))
    HArr.setAll c y v.flatten
    HP.ret y

/-- Fredholm1.py:78-107 (see `mkFredholm`) -/
def hmkFredholm (c : Ctx K) (G : NDArray K) (nz : Nat) (saveGt usematmul : Bool) (dt : DType) : HP K (HPrim K) :=
  match G.shape with
  | [nsl, nx, ny] => do
    let nsls ← HP.lift (allgather c nsl)
    if c.rank = 0 ∧ 1 ∈ nsls then HP.throw .notImplemented
    else do
      let tot ← HP.lift (allreduce c.world (fun a b => .ok (a + b)) nsl)
      let gt ← HP.lift (Prog.lift (if saveGt then (transpose021 G).map (some ∘ aconj) else .ok none))
      let o : Fred K := ⟨G, nsl, nx, ny, nz, nsls, tot, gt, usematmul, dt⟩
      HP.ret { rows := tot * nx * nz, cols := tot * ny * nz, mv := hfredMv o false, rmv := hfredMv o true }
  | _ => HP.throw .value

/-- LinearOperator.py:78-87, 115-124 (see `wrapMv`) -/
def hwrapMv (o : LOp K) (b : Bool) (c : Ctx K) (x : Nat) : HP K Nat := do
  let d ← HP.read x
  let y ← HArr.new c [o.outDim b] d.part d.axis none none o.dtype
  let d ← HP.read x
  let v ← HP.lift (Prog.lift (o.apply b d.larr))
  HArr.setAll c y v
  HP.ret y

/-- LinearOperator.py:37-51 -/
def hwrap (o : LOp K) : HPrim K := ⟨o.rows, o.cols, hwrapMv o false, hwrapMv o true⟩

/-- MDC.py:44-69 (see `mdcChain`) -/
def hmdcChain (fft : Nat → Nat → Nat → Bool → LOp K) (nt ns nr nv nfreq : Nat) (twosided conj : Bool) (dtype : DType) (fr : HPrim K) : Except Err (MOp K (HPrim K)) :=
  let frop : MOp K (HPrim K) := if conj then .conj (.leaf fr) else .leaf fr
  let nfft := nt / 2 + 1
  let nfmax := if nfreq > nfft then nfft else nfreq
  let fop : MOp K (HPrim K) := .leaf (hwrap (fft nt nr nv twosided))
  let f1op : MOp K (HPrim K) := .leaf (hwrap (fft nt ns nv false))
  let iop : MOp K (HPrim K) := .leaf (hwrap (identityOp (nfmax * nr * nv) (nfft * nr * nv) dtype))
  let i1op : MOp K (HPrim K) := .leaf (hwrap (identityOp (nfmax * ns * nv) (nfft * ns * nv) dtype))
  do
    let f1h ← f1op.H HPrim.shape
    let i1h ← i1op.H HPrim.shape
    let m ← f1h.mul HPrim.shape i1h
    let m ← m.mul HPrim.shape frop
    let m ← m.mul HPrim.shape iop
    m.mul HPrim.shape fop

/-- MDC.py:12-74, 77-80, 174-180 (see `mkMDC`) -/
def hmkMDC (c : Ctx K) (fft : Nat → Nat → Nat → Bool → LOp K) (sqrt : Nat → K) (G : NDArray K) (nt nv nfreq : Nat) (dt dr : K)
    (twosided saveGt conj usematmul prescaled : Bool) : HP K (MOp K (HPrim K) × DType) :=
  if twosided ∧ nt % 2 = 0 then HP.throw .value
  else if G.shape.length < 3 ∨ 0 ∈ G.shape.take 3 then HP.throw .index
  else do
    let fr ← hmkFredholm c (if prescaled then G else G.map (dr * dt * sqrt nt * ·)) nv saveGt usematmul G.dtype
    let m ← HP.lift (Prog.lift (hmdcChain fft nt (len G.shape 1) (len G.shape 2) nv nfreq twosided conj G.dtype fr))
    HP.ret (m, .real)

end Verif

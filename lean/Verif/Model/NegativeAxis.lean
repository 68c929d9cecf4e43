/-
  Model of /repo/pylops_mpi/DistributedArray.py for an `axis` that is any Python integer.

  Model/DistributedArray.lean has non-negative axes only; here the axis is an integer, used as Python and NumPy use it (negative numbers count from the end), and the methods that read it are modelled again.
-/
import Verif.Model.Norm

namespace Verif
open NDArray

/-- the position meant by the index `a` in a sequence of length `n` (also: the axis meant by `axis=a` for an array of `n` dimensions); `none` if there is none -/
def normAxis (n : Nat) (a : Int) : Option Nat :=
  if 0 ≤ a then (if a.toNat < n then some a.toNat else none)
  else if (-a).toNat ≤ n then some (n - (-a).toNat) else none

/-- A `DistributedArray` on one rank together with its attribute `_axis`.  `arr.axis` is the axis that `ax` means (0 if none); the methods below do not read it. -/
structure ZArr (K : Type) where
  arr : DArr K
  ax : Int

variable {K : Type}

/-- `local_split(global_shape, base_comm, partition, axis)` — DistributedArray.py:28-57 -/
def zLocalSplit (c : Ctx K) (gshape : List Nat) (part : Partition) (ax : Int) : Except Err (List Nat) :=
  if part.isBroadcast then .ok gshape
  else match normAxis gshape.length ax with
    | none => .error .index                                 -- global_shape[axis]
    | some k =>
      if c.rank < len gshape k % c.size then .ok (gshape.set k (len gshape k / c.size + 1))
      else .ok (gshape.set k (len gshape k / c.size))

/-- `numpy.concatenate(arrays, axis)`: AxisError, which is a ValueError, if the arrays have no such axis -/
def zConcat (ax : Int) (arrays : List (NDArray K)) : Except Err (NDArray K) :=
  match arrays with
  | [] => .error .value
  | a :: _ => match normAxis a.shape.length ax with
    | none => .error .value
    | some k => concat k arrays

section
variable [Field K] [StarRing K]

/-- `_check_local_shapes` — DistributedArray.py:356-372 -/
def zCheckLocalShapes (c : Ctx K) (gshape : List Nat) (part : Partition) (ax : Int)
    (lshapes : List (List Nat)) : P K Unit :=
  if lshapes = [] then .ret ()
  else if lshapes.length ≠ c.size then .throw .value
  else
    let ls := lshapes.getD c.rank []
    if part.isBroadcast then
      (if ls ≠ gshape then .throw .value else .ret ())
    else
      match normAxis ls.length ax with
      | none => .throw .index                          -- local_shape[self.axis], :369
      | some j => do
        let tot ← allreduce c.world (fun a b => .ok (a + b)) (len ls j)
        match normAxis gshape.length ax with
        | none => .throw .index                        -- self.global_shape[self.axis], :369
        | some k =>
          if tot ≠ len gshape k ∨ ls.eraseIdx j ≠ gshape.eraseIdx k then .throw .value
          else .ret ()

/-- `DistributedArray.__init__` — DistributedArray.py:99-127: the test `len(global_shape) <= axis` lets all negative axes pass -/
def mkZ (c : Ctx K) (gshape : List Nat) (part : Partition) (ax : Int)
    (lshapes : Option (List (List Nat))) (mask : Option (List Nat)) (dt : DType) : P K (ZArr K) :=
  if (gshape.length : Int) ≤ ax then .throw .index else do
    let sub ← mkSub c mask
    zCheckLocalShapes c gshape part ax (lshapes.getD [])
    let ls ← Prog.lift (if lshapes.getD [] = [] then zLocalSplit c gshape part ax
      else .ok ((lshapes.getD []).getD c.rank []))
    .ret ⟨{ gshape := gshape, part := part, axis := (normAxis gshape.length ax).getD 0, mask := mask, sub := sub,
            lshape := ls, dtype := dt, larr := emptyArr c ls dt }, ax⟩

/-- `d[:] = v` — DistributedArray.py:132-155 (the axis is not read) -/
def ZArr.setAll (c : Ctx K) (z : ZArr K) (v : NDArray K) : P K (ZArr K) := do
  let a ← z.arr.setAll c v
  .ret ⟨a, z.ax⟩

/-- `asarray` — DistributedArray.py:288-304 -/
def ZArr.asarray (c : Ctx K) (z : ZArr K) : P K (NDArray K) :=
  if z.arr.part.isBroadcast then .ret z.arr.larr
  else do
    let l ← allgather c z.arr.larr
    Prog.lift (zConcat z.ax l)

/-- `to_dist` — DistributedArray.py:306-354 -/
def zToDist (c : Ctx K) (x : NDArray K) (part : Partition) (ax : Int)
    (lshapes : Option (List (List Nat))) (mask : Option (List Nat)) : P K (ZArr K) := do
  let d ← mkZ c x.shape part ax lshapes mask x.dtype
  if part.isBroadcast then d.setAll c x
  else match normAxis d.arr.lshape.length ax with
    | none => .throw .index                            -- dist_array.local_shape[axis], :348
    | some j => do
      let ls ← allgather c (len d.arr.lshape j)
      let lo := (ls.take c.rank).sum
      let hi := (ls.take (c.rank + 1)).sum
      match normAxis x.shape.length ax with
      | none => .throw .index                          -- slices[axis], :350
      | some k => d.setAll c (x.slice k lo hi)

/-- the constructor call shared by `__neg__`, `add`, `multiply`, `conj`, `copy`
    — DistributedArray.py:408-415, 442-449, 468-475, 578-585, 592-599 -/
def ZArr.likeMask (c : Ctx K) (z : ZArr K) (mask : Option (List Nat)) : P K (ZArr K) := do
  let ls ← z.arr.localShapes c
  mkZ c z.arr.gshape z.arr.part z.ax (some ls) mask z.arr.dtype

def ZArr.like (c : Ctx K) (z : ZArr K) : P K (ZArr K) := z.likeMask c z.arr.mask

/-- `__neg__` — DistributedArray.py:407-417 -/
def ZArr.neg (c : Ctx K) (z : ZArr K) : P K (ZArr K) := do
  let r ← z.like c
  r.setAll c (z.arr.larr.map (- ·))

/-- `add` — DistributedArray.py:437-451 (the axes are not compared) -/
def ZArr.add (c : Ctx K) (z w : ZArr K) : P K (ZArr K) := do
  z.arr.checkCompat w.arr
  let r ← z.like c
  let v ← Prog.lift (NDArray.zip (· + ·) z.arr.larr w.arr.larr)
  r.setAll c v

/-- `iadd` — DistributedArray.py:453-459 -/
def ZArr.iadd (c : Ctx K) (z w : ZArr K) : P K (ZArr K) := do
  z.arr.checkCompat w.arr
  let v ← Prog.lift (NDArray.zip (· + ·) z.arr.larr w.arr.larr)
  z.setAll c v

/-- `__sub__` — DistributedArray.py:425-426 -/
def ZArr.sub' (c : Ctx K) (z w : ZArr K) : P K (ZArr K) := do
  let m ← w.neg c
  z.add c m

/-- `__isub__` — DistributedArray.py:428-429 -/
def ZArr.isub (c : Ctx K) (z w : ZArr K) : P K (ZArr K) := do
  let m ← w.neg c
  z.iadd c m

/-- `multiply` by a distributed array — DistributedArray.py:461-482 -/
def ZArr.mul (c : Ctx K) (z w : ZArr K) : P K (ZArr K) := do
  z.arr.checkCompat w.arr
  let r ← z.like c
  let v ← Prog.lift (NDArray.zip (· * ·) z.arr.larr w.arr.larr)
  r.setAll c v

/-- `multiply` by a scalar of dtype `t` — DistributedArray.py:461-482 -/
def ZArr.smul (c : Ctx K) (z : ZArr K) (t : DType) (s : K) : P K (ZArr K) := do
  let r ← z.like c
  r.setAll c (z.arr.larr.smul t s)

/-- `conj` — DistributedArray.py:575-587 -/
def ZArr.conj (c : Ctx K) (z : ZArr K) : P K (ZArr K) := do
  let r ← z.like c
  r.setAll c (z.arr.larr.map star)

/-- `copy` — DistributedArray.py:589-601 -/
def ZArr.copy (c : Ctx K) (z : ZArr K) : P K (ZArr K) := do
  let r ← z.like c
  r.setAll c z.arr.larr

/-- `zeros_like` — DistributedArray.py:540-551 -/
def ZArr.zerosLike (c : Ctx K) (z : ZArr K) : P K (ZArr K) := do
  let r ← z.likeMask c none
  r.setAll c (NDArray.scalar .real 0)

/-- broadcast arrays are scattered on axis 0 before `dot` and `norm` — DistributedArray.py:491-494, 565-566 -/
def ZArr.toScatter (c : Ctx K) (part : Partition) (z : ZArr K) : P K (ZArr K) :=
  if part.isBroadcast then zToDist c z.arr.larr .scatter 0 none none else .ret z

/-- `dot` — DistributedArray.py:484-496 -/
def ZArr.dot (c : Ctx K) (z w : ZArr K) : P K K := do
  z.arr.checkCompat w.arr
  let x ← z.toScatter c z.arr.part
  let y ← w.toScatter c z.arr.part
  let v ← Prog.lift (NDArray.dot x.arr.larr.flatten y.arr.larr.flatten)
  let s ← allreduce z.arr.sub (fun a b => .ok ⟨a.val + b.val⟩) (Sc.mk v)
  .ret s.val

/-- `ravel` with `order="C"` — DistributedArray.py:603-627 (the result has axis 0) -/
def ZArr.ravel (c : Ctx K) (z : ZArr K) : P K (ZArr K) := do
  let ls ← z.arr.localShapes c
  let r ← mkZ c [z.arr.gshape.prod] z.arr.part 0 (some (ls.map fun s => [s.prod])) z.arr.mask z.arr.dtype
  r.setAll c z.arr.larr.flatten

/-- `numpy.take(self.local_array, arange(lo, hi), axis=self.axis)` for `0 ≤ lo ≤ hi` within the axis; AxisError, which is a ValueError, if there is no such axis -/
def ZArr.take (z : ZArr K) (lo hi : Nat) : Except Err (NDArray K) :=
  match normAxis z.arr.larr.shape.length z.ax with
  | none => .error .value
  | some k => .ok (z.arr.larr.slice k lo hi)

/-- `self.local_shape[self.axis]` -/
def ZArr.lenAx (z : ZArr K) : Except Err Nat :=
  match normAxis z.arr.lshape.length z.ax with
  | none => .error .index
  | some k => .ok (len z.arr.lshape k)

/-- `add_ghost_cells`, first half — DistributedArray.py:650-665 -/
def ZArr.ghostFront (c : Ctx K) (z : ZArr K) (front : Nat) (g : NDArray K) : P K (NDArray K) := do
  let tot ← allgather c front
  let cf := (tot ++ [0]).getD (c.rank + 1) 0
  let g ← if c.rank ≠ 0 then do
      let m ← recvFrom (α := NDArray K) (c.rank - 1) 1
      Prog.lift (zConcat z.ax [m, g])
    else (.ret g : P K (NDArray K))
  if c.rank ≠ c.size - 1 then do
    let l ← Prog.lift z.lenAx
    if cf > l then .throw .value
    else do
      let m ← Prog.lift (z.take (l - cf) l)
      sendTo (c.rank + 1) 1 m
      .ret g
  else .ret g

/-- `add_ghost_cells`, second half — DistributedArray.py:666-681 -/
def ZArr.ghostBack (c : Ctx K) (z : ZArr K) (back : Nat) (g : NDArray K) : P K (NDArray K) := do
  let tot ← allgather c back
  let cb := if c.rank = 0 then 0 else (tot ++ [0]).getD (c.rank - 1) 0
  let recvPart : P K (NDArray K) :=
    if c.rank ≠ c.size - 1 then do
      let m ← recvFrom (α := NDArray K) (c.rank + 1) 0
      Prog.lift (zConcat z.ax [g, m])
    else .ret g
  if c.rank ≠ 0 then do
    let l ← Prog.lift z.lenAx
    if cb > l then .throw .value
    else do
      let m ← Prog.lift (z.take 0 cb)
      sendTo (c.rank - 1) 0 m
      recvPart
  else recvPart

/-- `add_ghost_cells` — DistributedArray.py:629-682 -/
def ZArr.addGhostCells (c : Ctx K) (z : ZArr K) (front back : Option Nat) : P K (NDArray K) := do
  let g ← match front with
    | some f => z.ghostFront c f z.arr.larr
    | none => (.ret z.arr.larr : P K (NDArray K))
  match back with
    | some b => z.ghostBack c b g
    | none => .ret g

end

/-- `norm` — DistributedArray.py:553-573 with an integer `axis` (`_compute_vector_norm` uses the axis of the local array, of which there is one for every array that could be created) -/
noncomputable def ZArr.norm [RCLike K] (c : Ctx K) (z : ZArr K) (o : NormOrd) (axis : Int) : P K (NDArray FNum) := do
  let x ← z.toScatter c z.arr.part
  if axis = -1 then computeVectorNorm x.arr.sub x.arr.larr.flatten 0 o
  else if axis ≠ x.ax then .throw .notImplemented
  else match normAxis x.arr.larr.shape.length x.ax with
    | none => .throw .index                              -- global_shape[axis] = 1, :518
    | some k => computeVectorNorm x.arr.sub x.arr.larr k o

end Verif

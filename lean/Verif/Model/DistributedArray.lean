/-
  Model of /repo/pylops_mpi/DistributedArray.py, class `DistributedArray`.

  A `DArr` is the Python object held by one rank; each method is the program executed by one
  rank.  Methods that mutate the object return the updated object (aliasing between objects is
  modelled separately).  Not modelled: the `engine` argument (NumPy only), negative axes,
  `__repr__`.
-/
import Verif.Model.Comm

namespace Verif
open NDArray

/-- `class Partition(Enum)` — DistributedArray.py:12-25 -/
inductive Partition | broadcast | unsafeBroadcast | scatter
  deriving DecidableEq, Repr

/-- `partition in [Partition.BROADCAST, Partition.UNSAFE_BROADCAST]` -/
def Partition.isBroadcast : Partition → Bool
  | .broadcast | .unsafeBroadcast => true
  | .scatter => false

variable {K : Type}

/-- `local_split(global_shape, base_comm, partition, axis)` — DistributedArray.py:28-57 -/
def localSplit (c : Ctx K) (gshape : List Nat) (part : Partition) (axis : Nat) : List Nat :=
  if part.isBroadcast then gshape
  else if c.rank < len gshape axis % c.size then
    gshape.set axis (len gshape axis / c.size + 1)
  else
    gshape.set axis (len gshape axis / c.size)

/-- The attributes of a `DistributedArray` on one rank — DistributedArray.py:106-127.
    `sub` are the world ranks of `_sub_comm`; `larr` is `_local_array`. -/
structure DArr (K : Type) where
  gshape : List Nat
  part : Partition
  axis : Nat
  mask : Option (List Nat)
  sub : List Nat
  lshape : List Nat
  dtype : DType
  larr : NDArray K
  deriving DecidableEq

section
variable [Field K] [StarRing K]

/-- `numpy.empty(shape, dtype)`: arbitrary contents. -/
def emptyArr (c : Ctx K) (shape : List Nat) (dt : DType) : NDArray K :=
  ⟨shape, dt, (List.range shape.prod).map fun i => castTo dt (c.junk i)⟩

/-- `_check_local_shapes` — DistributedArray.py:356-372 (called with the attributes already
    set by the constructor). -/
def checkLocalShapes (c : Ctx K) (gshape : List Nat) (part : Partition) (axis : Nat)
    (lshapes : List (List Nat)) : P K Unit :=
  if lshapes = [] then .ret ()                       -- :358 empty list is falsy
  else if lshapes.length ≠ c.size then .throw .value -- :359-361
  else
    let ls := lshapes.getD c.rank []
    if part.isBroadcast then
      (if ls ≠ gshape then .throw .value else .ret ()) -- :363-365
    else
      match ls[axis]? with
      | none => .throw .index                          -- local_shape[self.axis], :369
      | some m => do
        let tot ← allreduce c.world (fun a b => .ok (a + b)) m -- :369
        if tot ≠ len gshape axis ∨ ls.eraseIdx axis ≠ gshape.eraseIdx axis then .throw .value
        else .ret ()

/-- the sub-communicator: `base_comm if mask is None else base_comm.Split(color=mask[rank], ..)`
    — DistributedArray.py:120 -/
def mkSub (c : Ctx K) (mask : Option (List Nat)) : P K (List Nat) :=
  match mask with
  | none => .ret c.world
  | some m => match m[c.rank]? with
    | none => .throw .index
    | some color => splitComm c color

/-- `DistributedArray.__init__` — DistributedArray.py:99-127.  (`partition not in Partition`,
    :111, cannot occur in the model.) -/
def mkDArr (c : Ctx K) (gshape : List Nat) (part : Partition) (axis : Nat)
    (lshapes : Option (List (List Nat))) (mask : Option (List Nat)) (dt : DType) :
    P K (DArr K) :=
  if gshape.length ≤ axis then .throw .index else do
    let sub ← mkSub c mask
    checkLocalShapes c gshape part axis (lshapes.getD [])
    let ls := if lshapes.getD [] = [] then localSplit c gshape part axis
      else (lshapes.getD []).getD c.rank []
    .ret { gshape := gshape, part := part, axis := axis, mask := mask, sub := sub,
           lshape := ls, dtype := dt, larr := emptyArr c ls dt }

/-- `__setitem__` — DistributedArray.py:132-155 -/
def DArr.setItem (c : Ctx K) (d : DArr K) (ix : Index) (v : NDArray K) : P K (DArr K) :=
  if d.part = .broadcast then do
    let v0 ← bcast c v
    let a ← Prog.lift (setIndex ix d.larr v0)
    .ret { d with larr := a }
  else do
    let a ← Prog.lift (setIndex ix d.larr v)
    .ret { d with larr := a }

/-- `d[:] = v` -/
def DArr.setAll (c : Ctx K) (d : DArr K) (v : NDArray K) : P K (DArr K) := d.setItem c Index.all v

/-- property `local_shapes` — DistributedArray.py:268-276 -/
def DArr.localShapes (c : Ctx K) (d : DArr K) : P K (List (List Nat)) := allgather c d.lshape

/-- `asarray` — DistributedArray.py:288-304 -/
def DArr.asarray (c : Ctx K) (d : DArr K) : P K (NDArray K) :=
  if d.part.isBroadcast then .ret d.larr
  else do
    let l ← allgather c d.larr
    Prog.lift (concat d.axis l)

/-- `to_dist` — DistributedArray.py:306-354 -/
def toDist (c : Ctx K) (x : NDArray K) (part : Partition) (axis : Nat)
    (lshapes : Option (List (List Nat))) (mask : Option (List Nat)) : P K (DArr K) := do
  let d ← mkDArr c x.shape part axis lshapes mask x.dtype
  if part.isBroadcast then d.setAll c x
  else do
    let ls ← allgather c (len d.lshape axis)
    let lo := (ls.take c.rank).sum           -- numpy.cumsum of [0] + ls, at rank
    let hi := (ls.take (c.rank + 1)).sum     -- ... at rank + 1
    d.setAll c (x.slice axis lo hi)

/-- `_check_partition_shape` — DistributedArray.py:374-381 — and
    `_check_mask` — DistributedArray.py:383-387 -/
def DArr.checkCompat (d e : DArr K) : P K Unit :=
  if d.part ≠ e.part then .throw .value
  else if d.lshape ≠ e.lshape then .throw .value
  else if d.mask ≠ e.mask then .throw .value
  else .ret ()

/-- the constructor call shared by `__neg__`, `add`, `multiply`, `conj`, `copy`
    — DistributedArray.py:408-415, 442-449, 468-475, 578-585, 592-599 -/
def DArr.likeMask (c : Ctx K) (d : DArr K) (mask : Option (List Nat)) : P K (DArr K) := do
  let ls ← d.localShapes c
  mkDArr c d.gshape d.part d.axis (some ls) mask d.dtype

def DArr.like (c : Ctx K) (d : DArr K) : P K (DArr K) := d.likeMask c d.mask

/-- `__neg__` — DistributedArray.py:407-417 -/
def DArr.neg (c : Ctx K) (d : DArr K) : P K (DArr K) := do
  let r ← d.like c
  r.setAll c (d.larr.map (- ·))

/-- `add` — DistributedArray.py:437-451 -/
def DArr.add (c : Ctx K) (d e : DArr K) : P K (DArr K) := do
  d.checkCompat e
  let r ← d.like c
  let v ← Prog.lift (NDArray.zip (· + ·) d.larr e.larr)
  r.setAll c v

/-- `iadd` — DistributedArray.py:453-459 -/
def DArr.iadd (c : Ctx K) (d e : DArr K) : P K (DArr K) := do
  d.checkCompat e
  let v ← Prog.lift (NDArray.zip (· + ·) d.larr e.larr)
  d.setAll c v

/-- `__sub__` — DistributedArray.py:425-426 -/
def DArr.sub' (c : Ctx K) (d e : DArr K) : P K (DArr K) := do
  let m ← e.neg c
  d.add c m

/-- `__isub__` — DistributedArray.py:428-429 -/
def DArr.isub (c : Ctx K) (d e : DArr K) : P K (DArr K) := do
  let m ← e.neg c
  d.iadd c m

/-- `multiply` by a distributed array — DistributedArray.py:461-482 -/
def DArr.mul (c : Ctx K) (d e : DArr K) : P K (DArr K) := do
  d.checkCompat e
  let r ← d.like c
  let v ← Prog.lift (NDArray.zip (· * ·) d.larr e.larr)
  r.setAll c v

/-- `multiply` by a scalar of dtype `t` — DistributedArray.py:461-482 -/
def DArr.smul (c : Ctx K) (d : DArr K) (t : DType) (s : K) : P K (DArr K) := do
  let r ← d.like c
  r.setAll c (d.larr.smul t s)

/-- `conj` — DistributedArray.py:575-587 -/
def DArr.conj (c : Ctx K) (d : DArr K) : P K (DArr K) := do
  let r ← d.like c
  r.setAll c (d.larr.map star)

/-- `copy` — DistributedArray.py:589-601 -/
def DArr.copy (c : Ctx K) (d : DArr K) : P K (DArr K) := do
  let r ← d.like c
  r.setAll c d.larr

/-- `zeros_like` — DistributedArray.py:540-551 (the mask is not passed on) -/
def DArr.zerosLike (c : Ctx K) (d : DArr K) : P K (DArr K) := do
  let r ← d.likeMask c none
  r.setAll c (NDArray.scalar .real 0)

/-- The array whose shards enter `dot` and `norm`: broadcast arrays are first scattered (on
    axis 0, without mask) — DistributedArray.py:491-494, 565-566 -/
def DArr.toScatter (c : Ctx K) (part : Partition) (d : DArr K) : P K (DArr K) :=
  if part.isBroadcast then toDist c d.larr .scatter 0 none none else .ret d

/-- `dot` — DistributedArray.py:484-496 -/
def DArr.dot (c : Ctx K) (d e : DArr K) : P K K := do
  d.checkCompat e
  let x ← d.toScatter c d.part
  let y ← e.toScatter c d.part
  let v ← Prog.lift (NDArray.dot x.larr.flatten y.larr.flatten)
  let s ← allreduce d.sub (fun a b => .ok ⟨a.val + b.val⟩) (Sc.mk v)
  .ret s.val

/-- `ravel` with `order="C"` — DistributedArray.py:603-627 -/
def DArr.ravel (c : Ctx K) (d : DArr K) : P K (DArr K) := do
  let ls ← d.localShapes c
  let r ← mkDArr c [d.gshape.prod] d.part 0 (some (ls.map fun s => [s.prod])) d.mask d.dtype
  r.setAll c d.larr.flatten

/-- `add_ghost_cells`, first half (`cells_front`) — DistributedArray.py:650-665.
    `numpy.take(a, arange(-k, 0))` for `k ≤ len` is the slice of the last `k` entries. -/
def DArr.ghostFront (c : Ctx K) (d : DArr K) (front : Nat) (g : NDArray K) : P K (NDArray K) := do
  let tot ← allgather c front
  let cf := (tot ++ [0]).getD (c.rank + 1) 0
  let g ← if c.rank ≠ 0 then do
      let m ← recvFrom (α := NDArray K) (c.rank - 1) 1
      Prog.lift (concat d.axis [m, g])
    else (.ret g : P K (NDArray K))
  if c.rank ≠ c.size - 1 then
    if cf > len d.lshape d.axis then .throw .value
    else do
      sendTo (c.rank + 1) 1 (d.larr.slice d.axis (len d.lshape d.axis - cf) (len d.lshape d.axis))
      .ret g
  else .ret g

/-- `add_ghost_cells`, second half (`cells_back`) — DistributedArray.py:666-681.
    `total_cells_back[self.rank - 1]` is `total_cells_back[-1]` (the appended 0) on rank 0. -/
def DArr.ghostBack (c : Ctx K) (d : DArr K) (back : Nat) (g : NDArray K) : P K (NDArray K) := do
  let tot ← allgather c back
  let cb := if c.rank = 0 then 0 else (tot ++ [0]).getD (c.rank - 1) 0
  let recvPart : P K (NDArray K) :=
    if c.rank ≠ c.size - 1 then do
      let m ← recvFrom (α := NDArray K) (c.rank + 1) 0
      Prog.lift (concat d.axis [g, m])
    else .ret g
  if c.rank ≠ 0 then
    if cb > len d.lshape d.axis then .throw .value
    else do
      sendTo (c.rank - 1) 0 (d.larr.slice d.axis 0 cb)
      recvPart
  else recvPart

/-- `add_ghost_cells` — DistributedArray.py:629-682 -/
def DArr.addGhostCells (c : Ctx K) (d : DArr K) (front back : Option Nat) : P K (NDArray K) := do
  let g ← match front with
    | some f => d.ghostFront c f d.larr
    | none => (.ret d.larr : P K (NDArray K))
  match back with
    | some b => d.ghostBack c b g
    | none => .ret g

end
end Verif

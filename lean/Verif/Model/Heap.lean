/-
  Memory: array objects and the NumPy buffers they own.

  The other files model a method that changes an array by a function that returns the changed array.  Here the same methods are
  programs acting on the memory of the rank, so that two names can refer to the same object and changes are seen through all of them.

  * a `DistributedArray` object is an entry of `objs`: its attributes never change after `__init__` (the code never assigns to
    them), and `_local_array` is a buffer, whose contents do change.
  * a `StackedDistributedArray` object is the list of its components (attribute `distarrays`, never reassigned by the library).
  * temporary NumPy arrays (results of expressions, messages) are values; the temporaries that `dot` and `norm` create are not
    allocated.
  * an exception keeps the changes made before it.
-/
import Verif.Model.Solvers

namespace Verif
open NDArray

variable {K : Type}

/-- an object of class `DistributedArray` — DistributedArray.py:106-127; `buf` is the address of `_local_array` -/
structure DObj where
  gshape : List Nat
  part : Partition
  axis : Nat
  mask : Option (List Nat)
  sub : List Nat
  lshape : List Nat
  dtype : DType
  buf : Nat

/-- the value of an object, given the contents of its buffer -/
def DObj.val (o : DObj) (a : NDArray K) : DArr K := ⟨o.gshape, o.part, o.axis, o.mask, o.sub, o.lshape, o.dtype, a⟩

/-- the memory of one rank -/
structure Heap (K : Type) where
  objs : List DObj
  bufs : List (NDArray K)

namespace Heap

/-- the address of the buffer of object `x` -/
def buf? (h : Heap K) (x : Nat) : Option Nat := (h.objs[x]?).map (·.buf)

/-- the value of object `x` -/
def get? (h : Heap K) (x : Nat) : Option (DArr K) := (h.objs[x]?).bind fun o => (h.bufs[o.buf]?).map o.val

/-- a new object with a new buffer (`numpy.empty` in `__init__`, DistributedArray.py:127) -/
def alloc (h : Heap K) (d : DArr K) : Heap K :=
  ⟨h.objs ++ [⟨d.gshape, d.part, d.axis, d.mask, d.sub, d.lshape, d.dtype, h.bufs.length⟩], h.bufs ++ [d.larr]⟩

/-- `buffer[...] = a` -/
def poke (h : Heap K) (b : Nat) (a : NDArray K) : Heap K := { h with bufs := h.bufs.set b a }

/-- change the contents of the buffer of object `x` -/
def write (h : Heap K) (x : Nat) (a : NDArray K) : Heap K :=
  match h.buf? x with
  | some b => h.poke b a
  | none => h

end Heap

/-- make the exception raised by a program its result -/
def Prog.attempt {M α : Type} : Prog M α → Prog M (Except Err α)
  | .ret a => .ret (.ok a)
  | .throw e => .ret (.error e)
  | .send d t v k => .send d t v k.attempt
  | .recv s t k => .recv s t fun m => (k m).attempt
  | .coll kd c v k => .coll kd c v fun ms => (k ms).attempt

/-- programs of one rank acting on its memory -/
def HP (K α : Type) : Type := Heap K → P K (Except Err α × Heap K)

namespace HP
variable {α β : Type}

def ret (a : α) : HP K α := fun h => .ret (.ok a, h)
def throw (e : Err) : HP K α := fun h => .ret (.error e, h)
def bind (m : HP K α) (k : α → HP K β) : HP K β := fun h => (m h).bind fun p => match p.1 with
  | .ok a => k a p.2
  | .error e => .ret (.error e, p.2)

instance : Monad (HP K) where
  pure := ret
  bind := bind

/-- a program that does not use the memory -/
def lift (p : P K α) : HP K α := fun h => p.attempt.bind fun o => .ret (o, h)

/-- the value of an object -/
def read (x : Nat) : HP K (DArr K) := fun h => match h.get? x with
  | some d => .ret (.ok d, h)
  | none => .ret (.error .protocol, h)

def write (x : Nat) (a : NDArray K) : HP K Unit := fun h => .ret (.ok (), h.write x a)
def alloc (d : DArr K) : HP K Nat := fun h => .ret (.ok h.objs.length, h.alloc d)

/-- the address of the local array of an object -/
def bufOf (x : Nat) : HP K Nat := fun h => .ret (.ok ((h.buf? x).getD 0), h)

/-- a new NumPy array -/
def newBuf (a : NDArray K) : HP K Nat := fun h => .ret (.ok h.bufs.length, ⟨h.objs, h.bufs ++ [a]⟩)

/-- `[f(a) for a in l]` -/
def forList (f : α → HP K β) : List α → HP K (List β)
  | [] => ret []
  | a :: l => do
    let b ← f a
    let bs ← forList f l
    ret (b :: bs)

/-- `for a in l: f(a)` -/
def forEach (f : α → HP K Unit) : List α → HP K Unit
  | [] => ret ()
  | a :: l => do
    f a
    forEach f l

end HP

section
variable [Field K] [StarRing K]

/-! ### DistributedArray -/

namespace HArr

/-- `DistributedArray(...)` — DistributedArray.py:99-127 -/
def new (c : Ctx K) (gshape : List Nat) (part : Partition) (axis : Nat) (lshapes : Option (List (List Nat))) (mask : Option (List Nat)) (dt : DType) : HP K Nat := do
  let d ← HP.lift (mkDArr c gshape part axis lshapes mask dt)
  HP.alloc d

/-- `x[index] = v` — DistributedArray.py:132-155 -/
def setItem (c : Ctx K) (x : Nat) (ix : Index) (v : NDArray K) : HP K Unit := do
  let d ← HP.read x
  let d' ← HP.lift (d.setItem c ix v)
  HP.write x d'.larr

def setAll (c : Ctx K) (x : Nat) (v : NDArray K) : HP K Unit := setItem c x Index.all v

/-- the constructor call shared by the methods below (see `DArr.likeMask`) -/
def likeMask (c : Ctx K) (x : Nat) (mask : Option (List Nat)) : HP K Nat := do
  let d ← HP.read x
  let ls ← HP.lift (d.localShapes c)
  new c d.gshape d.part d.axis (some ls) mask d.dtype

def like (c : Ctx K) (x : Nat) : HP K Nat := do
  let d ← HP.read x
  likeMask c x d.mask

/-- `__neg__` — DistributedArray.py:407-417 -/
def neg (c : Ctx K) (x : Nat) : HP K Nat := do
  let r ← like c x
  let d ← HP.read x
  setAll c r (d.larr.map (- ·))
  HP.ret r

/-- `add` — DistributedArray.py:437-451 -/
def add (c : Ctx K) (x y : Nat) : HP K Nat := do
  let d ← HP.read x
  let e ← HP.read y
  HP.lift (d.checkCompat e)
  let r ← like c x
  let d ← HP.read x
  let e ← HP.read y
  let v ← HP.lift (Prog.lift (NDArray.zip (· + ·) d.larr e.larr))
  setAll c r v
  HP.ret r

/-- `iadd` — DistributedArray.py:453-459: the object itself is returned -/
def iadd (c : Ctx K) (x y : Nat) : HP K Nat := do
  let d ← HP.read x
  let e ← HP.read y
  HP.lift (d.checkCompat e)
  let v ← HP.lift (Prog.lift (NDArray.zip (· + ·) d.larr e.larr))
  setAll c x v
  HP.ret x

/-- `__sub__` — DistributedArray.py:425-426 -/
def sub (c : Ctx K) (x y : Nat) : HP K Nat := do
  let m ← neg c y
  add c x m

/-- `__isub__` — DistributedArray.py:428-429 -/
def isub (c : Ctx K) (x y : Nat) : HP K Nat := do
  let m ← neg c y
  iadd c x m

/-- `multiply` by a distributed array — DistributedArray.py:461-482 -/
def mul (c : Ctx K) (x y : Nat) : HP K Nat := do
  let d ← HP.read x
  let e ← HP.read y
  HP.lift (d.checkCompat e)
  let r ← like c x
  let d ← HP.read x
  let e ← HP.read y
  let v ← HP.lift (Prog.lift (NDArray.zip (· * ·) d.larr e.larr))
  setAll c r v
  HP.ret r

/-- `multiply` by a scalar of dtype `t` — DistributedArray.py:461-482 -/
def smul (c : Ctx K) (x : Nat) (t : DType) (s : K) : HP K Nat := do
  let r ← like c x
  let d ← HP.read x
  setAll c r (d.larr.smul t s)
  HP.ret r

/-- `conj` — DistributedArray.py:575-587 -/
def conj (c : Ctx K) (x : Nat) : HP K Nat := do
  let r ← like c x
  let d ← HP.read x
  setAll c r (d.larr.map star)
  HP.ret r

/-- `copy` — DistributedArray.py:589-601 -/
def copy (c : Ctx K) (x : Nat) : HP K Nat := do
  let r ← like c x
  let d ← HP.read x
  setAll c r d.larr
  HP.ret r

/-- `zeros_like` — DistributedArray.py:540-551 -/
def zerosLike (c : Ctx K) (x : Nat) : HP K Nat := do
  let r ← likeMask c x none
  setAll c r (NDArray.scalar .real 0)
  HP.ret r

/-- `ravel` with `order="C"` — DistributedArray.py:603-627 -/
def ravel (c : Ctx K) (x : Nat) : HP K Nat := do
  let d ← HP.read x
  let ls ← HP.lift (d.localShapes c)
  let r ← new c [d.gshape.prod] d.part 0 (some (ls.map fun s => [s.prod])) d.mask d.dtype
  let d ← HP.read x
  setAll c r d.larr.flatten
  HP.ret r

/-- `asarray` — DistributedArray.py:288-304.  The result is the address of a NumPy buffer: that of the local array for broadcast arrays. -/
def asarray (c : Ctx K) (x : Nat) : HP K Nat := do
  let d ← HP.read x
  if d.part.isBroadcast then HP.bufOf x
  else do
    let a ← HP.lift (d.asarray c)
    HP.newBuf a

/-- `dot` — DistributedArray.py:484-496 -/
def dot (c : Ctx K) (x y : Nat) : HP K K := do
  let d ← HP.read x
  let e ← HP.read y
  HP.lift (d.dot c e)

end HArr

/-! ### StackedDistributedArray and both kinds of arrays -/

/-- a reference to a DistributedArray or a StackedDistributedArray -/
inductive XRef
  | one (x : Nat)
  | stack (l : List Nat)

/-- the DistributedArray objects that make up an array -/
def XRef.refs : XRef → List Nat
  | .one x => [x]
  | .stack l => l

namespace HStack

/-- `_check_stacked_size` — DistributedArray.py:733-743 -/
def checkSize (x y : List Nat) : HP K Unit := do
  let a ← HP.forList HP.read x
  let b ← HP.forList HP.read y
  HP.lift (SArr.checkSize a b)

/-- `copy` — DistributedArray.py:845-849 -/
def copy (c : Ctx K) (x : List Nat) : HP K (List Nat) := HP.forList (HArr.copy c) x

/-- `conj` — DistributedArray.py:839-843 -/
def conj (c : Ctx K) (x : List Nat) : HP K (List Nat) := HP.forList (HArr.conj c) x

/-- `__neg__` — DistributedArray.py:745-749 -/
def neg (c : Ctx K) (x : List Nat) : HP K (List Nat) := do
  let arr ← copy c x
  HP.forEach (fun a => do
    let d ← HP.read a
    HArr.setAll c a (d.larr.map (- ·))) arr
  HP.ret arr

/-- `add` — DistributedArray.py:769-777 -/
def add (c : Ctx K) (x y : List Nat) : HP K (List Nat) := do
  checkSize x y
  let s ← copy c x
  HP.forEach (fun t : Nat × Nat × Nat => do
    let z ← HArr.add c t.2.1 t.2.2
    let d ← HP.read z
    HArr.setAll c t.1 d.larr) (s.zip (x.zip y))
  HP.ret s

/-- `iadd` — DistributedArray.py:779-785 -/
def iadd (c : Ctx K) (x y : List Nat) : HP K (List Nat) := do
  checkSize x y
  HP.forEach (fun t : Nat × Nat => do
    let z ← HArr.add c t.1 t.2
    let d ← HP.read z
    HArr.setAll c t.1 d.larr) (x.zip y)
  HP.ret x

/-- `__sub__` — DistributedArray.py:757-758 -/
def sub (c : Ctx K) (x y : List Nat) : HP K (List Nat) := do
  let m ← neg c y
  add c x m

/-- `__isub__` — DistributedArray.py:760-761 -/
def isub (c : Ctx K) (x y : List Nat) : HP K (List Nat) := do
  let m ← neg c y
  iadd c x m

/-- `multiply` by a stacked array — DistributedArray.py:787-798 -/
def mul (c : Ctx K) (x y : List Nat) : HP K (List Nat) := do
  checkSize x y
  let s ← copy c x
  HP.forEach (fun t : Nat × Nat × Nat => do
    let z ← HArr.mul c t.2.1 t.2.2
    let d ← HP.read z
    HArr.setAll c t.1 d.larr) (s.zip (x.zip y))
  HP.ret s

/-- `multiply` by a scalar — DistributedArray.py:787-802 -/
def smul (c : Ctx K) (x : List Nat) (t : DType) (a : K) : HP K (List Nat) := do
  let s ← copy c x
  HP.forEach (fun p : Nat × Nat => do
    let z ← HArr.smul c p.2 t a
    let d ← HP.read z
    HArr.setAll c p.1 d.larr) (s.zip x)
  HP.ret s

/-- `dot` — DistributedArray.py:804-811 -/
def dot (c : Ctx K) (x y : List Nat) : HP K K := do
  let a ← HP.forList HP.read x
  let b ← HP.forList HP.read y
  HP.lift (SArr.dot c a b)

end HStack

namespace HX

/-- the value of an array -/
def read : XRef → HP K (XArr K)
  | .one x => do let d ← HP.read x; HP.ret (.one d)
  | .stack l => do let a ← HP.forList HP.read l; HP.ret (.stack a)

def copy (c : Ctx K) : XRef → HP K XRef
  | .one x => do let y ← HArr.copy c x; HP.ret (.one y)
  | .stack l => do let y ← HStack.copy c l; HP.ret (.stack y)

def neg (c : Ctx K) : XRef → HP K XRef
  | .one x => do let y ← HArr.neg c x; HP.ret (.one y)
  | .stack l => do let y ← HStack.neg c l; HP.ret (.stack y)

def conj (c : Ctx K) : XRef → HP K XRef
  | .one x => do let y ← HArr.conj c x; HP.ret (.one y)
  | .stack l => do let y ← HStack.conj c l; HP.ret (.stack y)

def add (c : Ctx K) : XRef → XRef → HP K XRef
  | .one x, .one y => do let z ← HArr.add c x y; HP.ret (.one z)
  | .stack x, .stack y => do let z ← HStack.add c x y; HP.ret (.stack z)
  | _, _ => HP.throw .attribute

/-- products of a DistributedArray and a StackedDistributedArray are not modelled -/
def mul (c : Ctx K) : XRef → XRef → HP K XRef
  | .one x, .one y => do let z ← HArr.mul c x y; HP.ret (.one z)
  | .stack x, .stack y => do let z ← HStack.mul c x y; HP.ret (.stack z)
  | _, _ => HP.throw .attribute

/-- StackedDistributedArray has no methods `zeros_like` and `ravel` -/
def zerosLike (c : Ctx K) : XRef → HP K XRef
  | .one x => do let y ← HArr.zerosLike c x; HP.ret (.one y)
  | .stack _ => HP.throw .attribute

def ravel (c : Ctx K) : XRef → HP K XRef
  | .one x => do let y ← HArr.ravel c x; HP.ret (.one y)
  | .stack _ => HP.throw .attribute

def sub (c : Ctx K) : XRef → XRef → HP K XRef
  | .one x, .one y => do let z ← HArr.sub c x y; HP.ret (.one z)
  | .stack x, .stack y => do let z ← HStack.sub c x y; HP.ret (.stack z)
  | .one _, .stack y => do let _ ← HStack.neg c y; HP.throw .attribute
  | .stack _, .one y => do let _ ← HArr.neg c y; HP.throw .attribute

def iadd (c : Ctx K) : XRef → XRef → HP K XRef
  | .one x, .one y => do let z ← HArr.iadd c x y; HP.ret (.one z)
  | .stack x, .stack y => do let z ← HStack.iadd c x y; HP.ret (.stack z)
  | _, _ => HP.throw .attribute

def isub (c : Ctx K) : XRef → XRef → HP K XRef
  | .one x, .one y => do let z ← HArr.isub c x y; HP.ret (.one z)
  | .stack x, .stack y => do let z ← HStack.isub c x y; HP.ret (.stack z)
  | .one _, .stack y => do let _ ← HStack.neg c y; HP.throw .attribute
  | .stack _, .one y => do let _ ← HArr.neg c y; HP.throw .attribute

def smul (c : Ctx K) (t : DType) (s : K) : XRef → HP K XRef
  | .one x => do let y ← HArr.smul c x t s; HP.ret (.one y)
  | .stack l => do let y ← HStack.smul c l t s; HP.ret (.stack y)

def dot (c : Ctx K) (x y : XRef) : HP K K := do
  let a ← read x
  let b ← read y
  HP.lift (a.dot c b)

end HX
end
end Verif

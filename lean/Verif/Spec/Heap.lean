/-
  What a program may do to the memory.
-/
import Verif.Model.Heap

namespace Verif

variable {K : Type}

/-- The buffer of each object exists, and different objects own different buffers.  (No method of the library lets two objects share a buffer:
    see `HP` programs in Props/C06.) -/
structure Heap.WF (h : Heap K) : Prop where
  lt : ∀ o ∈ h.objs, o.buf < h.bufs.length
  nodup : (h.objs.map (·.buf)).Nodup

/-- `h'` is a later state of the memory `h`, in which only the contents of the objects in `W` were changed: all objects still exist and own the same
    buffers, the contents of all other buffers (owned or not) are the same, and the objects created since own buffers created since. -/
structure Frame (W : List Nat) (h h' : Heap K) : Prop where
  objs : ∀ (x : Nat) (o : DObj), h.objs[x]? = some o → h'.objs[x]? = some o
  len : h.bufs.length ≤ h'.bufs.length
  same : ∀ (b : Nat) (a : NDArray K), h.bufs[b]? = some a → (∀ x ∈ W, h.buf? x ≠ some b) → h'.bufs[b]? = some a
  fresh : ∀ (x : Nat) (o : DObj), h.objs.length ≤ x → h'.objs[x]? = some o → h.bufs.length ≤ o.buf

/-- `x` is a new object: it did not exist in `h` (so that, by `Frame.fresh`, it shares no memory with anything that existed) -/
def New (h : Heap K) (x : Nat) : Prop := h.objs.length ≤ x

/-- `x` denotes an array with the value `v` -/
def HasX (h : Heap K) : XRef → XArr K → Prop
  | .one x, .one d => h.get? x = some d
  | .stack l, .stack v => List.Forall₂ (fun x d => h.get? x = some d) l v
  | _, _ => False

end Verif

/-
  The communicator operations used by PyLops-MPI, as programs of one rank.

  Simplification: `base_comm` is always `MPI.COMM_WORLD`, represented by the list of all ranks.
  Model/SubComm.lean is about other communicators: several places of the code rely on the default
  argument, e.g. `DistributedArray.to_dist(x=self.local_array)` in DistributedArray.py:491.
-/
import Verif.NumPy.Array
import Verif.NumPy.Float

namespace Verif

/-- Messages exchanged between ranks. -/
inductive Msg (K : Type)
  | nat (x : Nat)
  | int (x : Int)
  | shape (s : List Nat)
  | sc (x : K)
  | arr (a : NDArray K)
  | rarr (a : NDArray FNum)

/-- Programs of one rank. -/
abbrev P (K : Type) := Prog (Msg K)

/-- What a rank knows about its environment: the communicator (its size and the rank) and the
    arbitrary contents `junk` of uninitialised memory (`numpy.empty`). -/
structure Ctx (K : Type) where
  size : Nat
  rank : Nat
  junk : Nat → K

/-- the ranks of `MPI.COMM_WORLD` -/
def Ctx.world {K : Type} (c : Ctx K) : List Nat := List.range c.size

/-- Values that can be sent as messages. -/
class Enc (K : Type) (α : Type) where
  enc : α → Msg K
  dec : Msg K → Option α
  dec_enc : ∀ a, dec (enc a) = some a

variable {K : Type} {α : Type}

instance : Enc K Nat := ⟨.nat, fun | .nat x => some x | _ => none, fun _ => rfl⟩
instance : Enc K Int := ⟨.int, fun | .int x => some x | _ => none, fun _ => rfl⟩
instance : Enc K (List Nat) := ⟨.shape, fun | .shape x => some x | _ => none, fun _ => rfl⟩
instance instEncArr : Enc K (NDArray K) := ⟨.arr, fun | .arr x => some x | _ => none, fun _ => rfl⟩
/-- a scalar -/
structure Sc (K : Type) where
  val : K
instance : Enc K (Sc K) := ⟨fun x => .sc x.val, fun | .sc x => some ⟨x⟩ | _ => none, fun _ => rfl⟩
/-- a (real) array of float64 -/
structure RArr where
  val : NDArray FNum
instance : Enc K RArr := ⟨fun x => .rarr x.val, fun | .rarr x => some ⟨x⟩ | _ => none, fun _ => rfl⟩

/-- decode the messages of all the members -/
def decAll [Enc K α] (ms : List (Msg K)) : Except Err (List α) :=
  match ms.mapM (Enc.dec (K := K) (α := α)) with
  | some l => .ok l
  | none => .error .protocol

/-- A collective in which every member receives the list of all contributions. -/
def gather [Enc K α] (kind : CollKind) (comm : List Nat) (x : α) : P K (List α) :=
  .coll kind comm (Enc.enc x) fun ms => Prog.lift (decAll ms)

/-- `comm.allgather(x)` -/
def allgather [Enc K α] (c : Ctx K) (x : α) : P K (List α) := gather .allgather c.world x

/-- send `v` to each of the ranks, in this order -/
def sendEach {M α : Type} (tag : Nat) (v : M) : List Nat → Prog M α → Prog M α
  | [], p => p
  | q :: qs, p => .send q tag v (sendEach tag v qs p)

/-- tag of the messages of `bcast`; the tags 0 and 1 are used by `add_ghost_cells` -/
def bcastTag : Nat := 2

/-- `comm.bcast(x)` (root 0).  The root may return before the other ranks have entered `bcast` (if the messages are buffered); the other ranks wait for the root only. -/
def bcast [Enc K α] (c : Ctx K) (x : α) : P K α :=
  if c.rank = 0 then sendEach bcastTag (Enc.enc x) c.world.tail (.ret x)
  else .recv 0 bcastTag fun m => match Enc.dec (K := K) m with
    | some y => .ret y
    | none => .throw .protocol

/-- `comm.allreduce(x, op)`: reduction, in rank order, of the members' contributions. -/
def allreduce [Enc K α] (comm : List Nat) (op : α → α → Except Err α) (x : α) : P K α := do
  let l ← gather .allreduce comm x
  match l with
  | y :: ys => Prog.lift (ys.foldlM op y)
  | [] => .throw .protocol

/-- `comm.Split(color, key=rank)`: the members of the new communicator of the calling rank. -/
def splitComm (c : Ctx K) (color : Nat) : P K (List Nat) := do
  let colors ← gather .split c.world color
  .ret (c.world.filter fun q => colors.getD q 0 = color)

/-- `comm.send(x, dest, tag)` -/
def sendTo [Enc K α] (dst tag : Nat) (x : α) : P K Unit :=
  .send dst tag (Enc.enc x) (.ret ())

/-- `comm.recv(source, tag)` -/
def recvFrom [Enc K α] (src tag : Nat) : P K α :=
  .recv src tag fun m => match Enc.dec (K := K) m with
    | some x => .ret x
    | none => .throw .protocol

end Verif

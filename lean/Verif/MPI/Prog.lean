/-
  The free monad of MPI actions performed by one rank.

  Every Python function of PyLops-MPI that communicates is modelled as a value of `Prog`:
  the sequence of MPI calls the rank makes, each followed by a continuation that receives
  what the call returned.  Exceptions terminate the rank's program (`throw`): no code in
  /repo/pylops_mpi catches an exception.

  Calls modelled (mpi4py, lower-case object API unless noted):
    * `comm.send(obj, dest, tag)` / `comm.recv(source, tag)` — DistributedArray.py:655,664,677,680
    * `comm.allgather(obj)`   — DistributedArray.py:276,303,348,651,667; decorators.py:59-60; ...
    * `comm.allreduce(obj)`, `comm.Allreduce(..)` — DistributedArray.py:389-405; VStack.py:141; ...
    * `comm.bcast(obj)` (root 0) — DistributedArray.py:153
    * `comm.Split(color, key)` — DistributedArray.py:120
  All collectives except `bcast` are represented by one constructor: every member of the communicator
  contributes a value and receives the list of all members' contributions (in communicator
  order); the local result (sum, members of the same colour, ...) is computed
  from that list by the continuation.  No member can return before all members have called, because
  its result depends on all contributions.  In `bcast` this is not so; it is modelled by
  messages of the root (Model/Comm.lean).
-/
namespace Verif

/-- Python exception classes raised by the modelled code. -/
inductive Err
  | value            -- ValueError
  | index            -- IndexError
  | notImplemented   -- NotImplementedError
  | type             -- TypeError / numpy UFuncTypeError
  | assertion        -- AssertionError
  | attribute        -- AttributeError
  | zeroDiv          -- ZeroDivisionError
  | overflow         -- OverflowError
  | nonfinite        -- not an exception: the code continues with inf or nan where the model stops (Model/Solvers.lean)
  | protocol         -- a rank received a message of an unexpected kind (never happens)
  deriving DecidableEq, Repr

/-- Which collective operation is being performed. -/
inductive CollKind
  | allgather | allreduce | split | gather
  deriving DecidableEq, Repr

/-- The MPI program of one rank, exchanging messages of type `M`, returning `α`. -/
inductive Prog (M : Type) (α : Type) : Type
  | ret (a : α)
  | throw (e : Err)
  | send (dst tag : Nat) (v : M) (k : Prog M α)
  | recv (src tag : Nat) (k : M → Prog M α)
  | coll (kind : CollKind) (comm : List Nat) (v : M) (k : List M → Prog M α)

namespace Prog
variable {M α β γ : Type}

def bind : Prog M α → (α → Prog M β) → Prog M β
  | ret a, f => f a
  | throw e, _ => throw e
  | send d t v k, f => send d t v (k.bind f)
  | recv s t k, f => recv s t (fun m => (k m).bind f)
  | coll kd c v k, f => coll kd c v (fun ms => (k ms).bind f)

instance : Monad (Prog M) where
  pure := ret
  bind := bind

@[simp] theorem pure_eq (a : α) : (pure a : Prog M α) = ret a := rfl
@[simp] theorem bind_eq (p : Prog M α) (f : α → Prog M β) : p >>= f = p.bind f := rfl
@[simp] theorem ret_bind (a : α) (f : α → Prog M β) : (ret a : Prog M α).bind f = f a := rfl
@[simp] theorem throw_bind (e : Err) (f : α → Prog M β) :
    (throw e : Prog M α).bind f = throw e := rfl

@[simp] theorem bind_ret (p : Prog M α) : p.bind ret = p := by
  induction p with
  | ret a => rfl
  | throw e => rfl
  | send d t v k ih => simp [bind, ih]
  | recv s t k ih => simp [bind, ih]
  | coll kd c v k ih => simp [bind, ih]

theorem bind_assoc (p : Prog M α) (f : α → Prog M β) (g : β → Prog M γ) :
    (p.bind f).bind g = p.bind (fun a => (f a).bind g) := by
  induction p with
  | ret a => rfl
  | throw e => rfl
  | send d t v k ih => simp [bind, ih]
  | recv s t k ih => simp [bind, ih]
  | coll kd c v k ih => simp [bind, ih]

@[simp] theorem map_eq (f : α → β) (p : Prog M α) : f <$> p = p.bind (fun a => ret (f a)) := rfl

instance : LawfulMonad (Prog M) := LawfulMonad.mk'
  (id_map := fun p => by simp [Functor.map])
  (pure_bind := fun _ _ => rfl)
  (bind_assoc := fun p f g => bind_assoc p f g)

/-- A purely local computation that may raise. -/
def lift : Except Err α → Prog M α
  | .ok a => ret a
  | .error e => throw e

@[simp] theorem lift_ok (a : α) : (lift (.ok a) : Prog M α) = ret a := rfl
@[simp] theorem lift_error (e : Err) : (lift (.error e) : Prog M α) = throw e := rfl

instance : MonadLift (Except Err) (Prog M) := ⟨lift⟩
instance : MonadExcept Err (Prog M) where
  throw := throw
  tryCatch p _ := p

@[simp] theorem throw_eq (e : Err) : (MonadExcept.throw e : Prog M α) = throw e := rfl

end Prog
end Verif

/-
  What the ranks communicate: the MPI calls of each rank in an execution, and how much data it hands to them.
-/
import Verif.MPI.Runs
import Verif.Model.Solvers

namespace Verif

variable {M α : Type}

/-- an MPI call of a rank, with the message that the rank hands to it -/
inductive CommCall (M : Type)
  | send (dst tag : Nat) (v : M)
  | recv (src tag : Nat)
  | coll (kind : CollKind) (comm : List Nat) (v : M)

/-- the call that a rank is in, if it has neither returned nor raised -/
def Prog.call : Prog M α → Option (CommCall M)
  | .ret _ => none
  | .throw _ => none
  | .send d t v _ => some (.send d t v)
  | .recv s t _ => some (.recv s t)
  | .coll kd c v _ => some (.coll kd c v)

open Classical in
/-- `Logged n s s' L`: `s'` is reached from `s`, and `L r` are the calls that rank `r` has completed on the way -/
inductive Logged (n : Nat) (s : St M α) : St M α → (Nat → List (CommCall M)) → Prop
  | nil : Logged n s s fun _ => []
  | step {s' l s'' L} : Logged n s s' L → LStep n s' l s'' →
      Logged n s s'' fun r => if l.touches r then L r ++ (s'.prog r).call.toList else L r

/-- the calls completed so far and the one the rank is in -/
def callsOf (L : Nat → List (CommCall M)) (s : St M α) (r : Nat) : List (CommCall M) := L r ++ (s.prog r).call.toList

/-- the amount of data that a message contains: numbers of the field and of float arrays count, sizes and shapes do not -/
def Msg.entries {K : Type} : Msg K → Nat
  | .nat _ => 0
  | .int _ => 0
  | .shape _ => 0
  | .sc _ => 1
  | .arr a => a.data.length
  | .rarr a => a.data.length

/-- the weight of the message that the rank hands to the call -/
def CommCall.weight (w : M → Nat) : CommCall M → Nat
  | .send _ _ v => w v
  | .recv _ _ => 0
  | .coll _ _ v => w v

/-- the amount of data that the rank hands to the call -/
abbrev CommCall.entries {K : Type} (c : CommCall (Msg K)) : Nat := c.weight Msg.entries

/-- in every execution rank `r` makes at most `k` calls, to which it hands at most `v` numbers, and every call is `ok` -/
def Talks {K : Type} (n : Nat) (ps : Nat → P K α) (ok : Nat → CommCall (Msg K) → Prop) (k v : Nat → Nat) : Prop :=
  ∀ s L, Logged n (St.init ps) s L → ∀ r < n,
    (callsOf L s r).length ≤ k r ∧ ((callsOf L s r).map CommCall.entries).sum ≤ v r ∧ ∀ c ∈ callsOf L s r, ok r c

/-- in every execution rank `r` makes at most `k` calls, and every call is `ok` -/
def TalksTo {K : Type} (n : Nat) (ps : Nat → P K α) (ok : Nat → CommCall (Msg K) → Prop) (k : Nat) : Prop :=
  ∀ s L, Logged n (St.init ps) s L → ∀ r < n, (callsOf L s r).length ≤ k ∧ ∀ c ∈ callsOf L s r, ok r c

/-- a collective call with at most `v` numbers -/
def CommCall.collective {K : Type} (v : Nat) : CommCall (Msg K) → Prop
  | .coll _ _ m => m.entries ≤ v
  | _ => False

/-- rank `r` talks to the ranks `r - 1` and `r + 1` only, except for collective calls with at most `v` numbers -/
def CommCall.near {K : Type} (v r : Nat) : CommCall (Msg K) → Prop
  | .send q _ _ => q = r + 1 ∨ q + 1 = r
  | .recv q _ => q = r + 1 ∨ q + 1 = r
  | .coll _ _ m => m.entries ≤ v

/-- the same, except that messages with at most `v` numbers may be sent by rank 0 to all ranks -/
def CommCall.nearOrRoot {K : Type} (v r : Nat) : CommCall (Msg K) → Prop
  | .send q _ m => (q = r + 1 ∨ q + 1 = r) ∨ r = 0 ∧ m.entries ≤ v
  | .recv q _ => (q = r + 1 ∨ q + 1 = r) ∨ q = 0
  | .coll _ _ m => m.entries ≤ v

/-- the size of one slice of an array, perpendicular to the axis -/
def rowSize (s : List Nat) (ax : Nat) : Nat := NDArray.outer s ax * NDArray.inner s ax

/-- Whatever the rank is answered, provided the answers to collective calls satisfy `rep`: it makes at most `k` calls, the total weight
    of the messages it hands to them is at most `v`, every call is `ok`, and the result (if there is one) satisfies `Q`. -/
inductive CallsW {K : Type} (w : Msg K → Nat) (rep : CollKind → List Nat → Msg K → Prop) (ok : CommCall (Msg K) → Prop) :
    Nat → Nat → P K α → (α → Prop) → Prop
  | ret {k v a Q} : Q a → CallsW w rep ok k v (.ret a) Q
  | throw {k v e Q} : CallsW w rep ok k v (.throw e) Q
  | send {k v d t m p Q} : ok (.send d t m) → CallsW w rep ok k v p Q → CallsW w rep ok (k + 1) (v + w m) (.send d t m p) Q
  | recv {k v s t f Q} : ok (.recv s t) → (∀ m, CallsW w rep ok k v (f m) Q) → CallsW w rep ok (k + 1) v (.recv s t f) Q
  | coll {k v kd c m f Q} : ok (.coll kd c m) → (∀ ms : List (Msg K), (∀ x ∈ ms, rep kd c x) → CallsW w rep ok k v (f ms) Q) →
      CallsW w rep ok (k + 1) (v + w m) (.coll kd c m f) Q

/-- at most `k` calls, with at most `v` numbers -/
abbrev Calls {K : Type} (rep : CollKind → List Nat → Msg K → Prop) (ok : CommCall (Msg K) → Prop) (k v : Nat) (p : P K α) (Q : α → Prop) : Prop :=
  CallsW Msg.entries rep ok k v p Q

/-- at most `k` calls, whatever the answers -/
abbrev Counts {K : Type} (ok : CommCall (Msg K) → Prop) (k : Nat) (p : P K α) (Q : α → Prop) : Prop :=
  CallsW (fun _ => 0) (fun _ _ _ => True) ok k 0 p Q

variable {K : Type}

/-- the number of calls of an expression: those of the leaves and of the arithmetic with arrays -/
def MOp.calls (kl : Nat) : MOp K (Prim K) → Nat
  | leaf _ => kl
  | adj A => A.calls kl
  | trans A => A.calls kl + 6
  | prod A B => A.calls kl + B.calls kl
  | scaled A _ => A.calls kl
  | sum A B => A.calls kl + B.calls kl + 3
  | pow A p => p * A.calls kl + 3
  | conj A => A.calls kl + 6

/-- all leaves of the expression have the property -/
def MOp.leavesAre (φ : Prim K → Prop) : MOp K (Prim K) → Prop
  | leaf p => φ p
  | adj A => A.leavesAre φ
  | trans A => A.leavesAre φ
  | prod A B => A.leavesAre φ ∧ B.leavesAre φ
  | scaled A _ => A.leavesAre φ
  | sum A B => A.leavesAre φ ∧ B.leavesAre φ
  | pow A _ => A.leavesAre φ
  | conj A => A.leavesAre φ

/-- `p` makes at most `k` calls on arrays that are not BROADCAST, and returns such arrays -/
def Prim.Quiet (c : Ctx K) (ok : CommCall (Msg K) → Prop) (k : Nat) (p : Prim K) : Prop :=
  ∀ x : DArr K, x.part ≠ .broadcast →
    Counts ok k (p.mv c x) (fun y => y.part ≠ .broadcast) ∧ Counts ok k (p.rmv c x) (fun y => y.part ≠ .broadcast)

/-- an array that is not BROADCAST (and `1 ≤ m`), or a stack of at most `s` such arrays (and `s ≤ m`) -/
def XArr.Quiet (m s : Nat) : XArr K → Prop
  | .one d => d.part ≠ .broadcast ∧ 1 ≤ m
  | .stack l => (∀ d ∈ l, d.part ≠ .broadcast) ∧ l.length ≤ s ∧ s ≤ m

/-- the operator makes at most `kf` calls (forward) and `ka` calls (adjoint) on such arrays, and returns such arrays -/
def XOp.Quiet (c : Ctx K) (ok : CommCall (Msg K) → Prop) (m s kf ka : Nat) (op : XOp K) : Prop :=
  ∀ x : XArr K, x.Quiet m s → Counts ok kf (op.mv c x) (XArr.Quiet m s) ∧ Counts ok ka (op.rmv c x) (XArr.Quiet m s)

/-- the number of calls of a stacked expression -/
def SOp.calls (kl m s : Nat) : SOp K (Prim K) → Nat
  | vstack ops => (ops.map fun o => o.calls kl + 3).sum
  | grad ops => (ops.map fun o => o.calls kl + 3).sum
  | bdiag ops => (ops.map fun o => o.calls kl + 3).sum
  | adj A => A.calls kl m s
  | trans A => A.calls kl m s + 6 * m
  | prod A B => A.calls kl m s + B.calls kl m s
  | scaled A _ => A.calls kl m s + 3 * m + 3 * s
  | sum A B => A.calls kl m s + B.calls kl m s + 3 * m + 3 * s
  | pow A p => p * A.calls kl m s + 3 * m
  | conj A => A.calls kl m s + 6 * m

/-- all leaves of the expression have the property, and no stack in it has more than `s` operators -/
def SOp.leavesAre (φ : Prim K → Prop) (s : Nat) : SOp K (Prim K) → Prop
  | vstack ops => (∀ o ∈ ops, o.leavesAre φ) ∧ ops.length ≤ s
  | grad ops => (∀ o ∈ ops, o.leavesAre φ) ∧ ops.length ≤ s
  | bdiag ops => (∀ o ∈ ops, o.leavesAre φ) ∧ ops.length ≤ s
  | adj A => A.leavesAre φ s
  | trans A => A.leavesAre φ s
  | prod A B => A.leavesAre φ s ∧ B.leavesAre φ s
  | scaled A _ => A.leavesAre φ s
  | sum A B => A.leavesAre φ s ∧ B.leavesAre φ s
  | pow A _ => A.leavesAre φ s
  | conj A => A.leavesAre φ s

end Verif

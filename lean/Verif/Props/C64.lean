/- C64: results of reductions do not depend on the order in which the contributions are combined. -/
import Verif.Model.SubComm
import Verif.Proofs.Reduce
import Mathlib.Data.List.Perm.Basic

namespace Verif
open NDArray

set_option linter.unusedSectionVars false

/-! ### The specification: all ways to combine the contributions -/

/-- a way to combine the contributions with the given numbers: any bracketing, in any order -/
inductive RTree
  | leaf (i : Nat)
  | node (l r : RTree)

namespace RTree

/-- the numbers of the contributions, from left to right -/
def leaves : RTree → List Nat
  | leaf i => [i]
  | node l r => l.leaves ++ r.leaves

/-- the combination of the contributions `v` -/
def eval {α : Type} (op : α → α → Except Err α) (v : List α) : RTree → Except Err α
  | leaf i => match v[i]? with
    | some x => .ok x
    | none => .error .protocol
  | node l r => do
    let x ← l.eval op v
    let y ← r.eval op v
    op x y

end RTree

variable {K α : Type}

/-- `comm.allreduce(x, op)` of an MPI implementation that combines the contributions in the way `T`, which may depend on the contributions -/
def allreduceT [Enc K α] (T : List α → RTree) (comm : List Nat) (op : α → α → Except Err α) (x : α) : P K α := do
  let l ← gather .allreduce comm x
  match l with
  | _ :: _ => Prog.lift ((T l).eval op l)
  | [] => .throw .protocol

/-- every contribution is used once -/
def UsesAll (T : List α → RTree) : Prop := ∀ l : List α, l ≠ [] → (T l).leaves.Perm (List.range l.length)

/-! ### Combinations by an associative and commutative operation -/

/-- an operation that is associative and commutative, also in the cases in which it raises ValueError, and raises no other error -/
structure ACOp (op : α → α → Except Err α) : Prop where
  comm : ∀ a b, op a b = op b a
  assoc : ∀ a b c, (op a b >>= fun x => op x c) = (op b c >>= fun x => op a x)
  err : ∀ a b e, op a b = .error e → e = .value

section
variable {M : Type} (m : M → M → M) (d : M)

/-- from left to right -/
def fold1 : List M → M
  | [] => d
  | x :: l => l.foldl m x

variable {m d} (hc : ∀ a b, m a b = m b a) (ha : ∀ a b c, m (m a b) c = m a (m b c))
include hc ha

theorem fold1_perm {l l' : List M} (h : l.Perm l') : fold1 m d l = fold1 m d l' := by
  haveI : RightCommutative m := ⟨fun a b c => by rw [ha, ha, hc b c]⟩
  induction h with
  | nil => rfl
  | cons x h _ => exact h.foldl_eq x
  | swap x y l => simp only [fold1, List.foldl_cons, hc x y]
  | trans _ _ h1 h2 => exact h1.trans h2

omit hc in
theorem fold1_append {l l' : List M} (h : l ≠ []) (h' : l' ≠ []) : fold1 m d (l ++ l') = m (fold1 m d l) (fold1 m d l') := by
  haveI : Std.Associative m := ⟨ha⟩
  match l, l', h, h' with
  | x :: l, y :: l', _, _ =>
    show (l ++ y :: l').foldl m x = _
    rw [List.foldl_append, List.foldl_cons]
    exact List.foldl_assoc

end

section
variable {op : α → α → Except Err α}

/-- the operation on results, `none` for ValueError -/
def opt (op : α → α → Except Err α) (a b : Option α) : Option α :=
  match a, b with
  | some x, some y => (op x y).toOption
  | _, _ => none

theorem opt_comm (h : ACOp op) (a b : Option α) : opt op a b = opt op b a := by
  cases a <;> cases b <;> simp only [opt]
  rw [h.comm]

theorem opt_assoc (h : ACOp op) (a b c : Option α) : opt op (opt op a b) c = opt op a (opt op b c) := by
  cases a with
  | none => cases b <;> cases c <;> rfl
  | some x =>
    cases b with
    | none => cases c <;> rfl
    | some y =>
      cases c with
      | none => simp only [opt]; cases op x y <;> rfl
      | some z =>
        have := h.assoc x y z
        simp only [opt]
        cases e : op x y with
        | error e1 =>
          rw [e] at this
          cases e' : op y z with
          | error _ => rfl
          | ok w =>
            rw [e'] at this
            show none = (op x w).toOption
            rw [show op x w = .error e1 from this.symm]
            rfl
        | ok u =>
          rw [e] at this
          cases e' : op y z with
          | error e2 =>
            rw [e'] at this
            show (op u z).toOption = none
            rw [show op u z = .error e2 from this]
            rfl
          | ok w =>
            rw [e'] at this
            show (op u z).toOption = (op x w).toOption
            rw [show op u z = op x w from this]

theorem toOption_inj {a b : Except Err α} (h : a.toOption = b.toOption) (ha : ∀ e, a = .error e → e = .value) (hb : ∀ e, b = .error e → e = .value) : a = b := by
  cases a with
  | error e =>
    cases b with
    | error e' => rw [ha e rfl, hb e' rfl]
    | ok _ => cases h
  | ok x =>
    cases b with
    | error _ => cases h
    | ok y => cases h; rfl

theorem foldlM_toOption (op : α → α → Except Err α) (x : α) (l : List α) : (l.foldlM op x).toOption = (l.map some).foldl (opt op) (some x) := by
  have hn : ∀ l : List α, (l.map some).foldl (opt op) none = none := by
    intro l
    induction l with
    | nil => rfl
    | cons y l ih => exact ih
  induction l generalizing x with
  | nil => rfl
  | cons y l ih =>
    rw [List.foldlM_cons, List.map_cons, List.foldl_cons]
    show _ = (l.map some).foldl (opt op) (op x y).toOption
    cases e : op x y with
    | error _ => exact (hn l).symm
    | ok z => exact ih z

theorem foldlM_err (h : ACOp op) (x : α) (l : List α) : ∀ e, l.foldlM op x = .error e → e = .value := by
  induction l generalizing x with
  | nil => intro e he; cases he
  | cons y l ih =>
    intro e he
    rw [List.foldlM_cons] at he
    cases e' : op x y with
    | error e1 => rw [e'] at he; cases he; exact h.err _ _ _ e'
    | ok z => rw [e'] at he; exact ih z e he

theorem RTree.leaves_ne (t : RTree) : t.leaves ≠ [] := by
  induction t with
  | leaf i => simp [leaves]
  | node l r h _ => simp [leaves, h]

theorem RTree.eval_toOption (h : ACOp op) (v : List α) (t : RTree) (ht : ∀ i ∈ t.leaves, i < v.length) :
    (t.eval op v).toOption = fold1 (opt op) none (t.leaves.map fun i => v[i]?) := by
  induction t with
  | leaf i =>
    have hi : i < v.length := ht i (by simp [leaves])
    simp only [eval, leaves, List.map_cons, List.map_nil, fold1, List.foldl_nil, List.getElem?_eq_getElem hi]
    rfl
  | node l r hl hr =>
    have h1 := hl fun i hi => ht i (List.mem_append_left _ hi)
    have h2 := hr fun i hi => ht i (List.mem_append_right _ hi)
    rw [leaves, List.map_append, fold1_append (opt_assoc h) (by simpa using l.leaves_ne) (by simpa using r.leaves_ne), ← h1, ← h2]
    show (l.eval op v >>= fun x => r.eval op v >>= fun y => op x y).toOption = _
    cases l.eval op v with
    | error _ => cases r.eval op v <;> rfl
    | ok x =>
      cases r.eval op v with
      | error _ => rfl
      | ok y => rfl

theorem RTree.eval_err (h : ACOp op) (v : List α) (t : RTree) (ht : ∀ i ∈ t.leaves, i < v.length) : ∀ e, t.eval op v = .error e → e = .value := by
  induction t with
  | leaf i =>
    intro e he
    have hi : i < v.length := ht i (by simp [leaves])
    simp only [eval, List.getElem?_eq_getElem hi] at he
    cases he
  | node l r hl hr =>
    intro e he
    have h1 := hl fun i hi => ht i (List.mem_append_left _ hi)
    have h2 := hr fun i hi => ht i (List.mem_append_right _ hi)
    change (l.eval op v >>= fun x => r.eval op v >>= fun y => op x y) = _ at he
    cases e1 : l.eval op v with
    | error e' => rw [e1] at he; cases he; exact h1 _ e1
    | ok x =>
      rw [e1] at he
      cases e2 : r.eval op v with
      | error e' => rw [e2] at he; cases he; exact h2 _ e2
      | ok y => rw [e2] at he; exact h.err _ _ _ he

/-- every way to combine the contributions gives the same result as the combination from left to right -/
theorem RTree.eval_eq (h : ACOp op) (x : α) (l : List α) (t : RTree) (ht : t.leaves.Perm (List.range (x :: l).length)) : t.eval op (x :: l) = l.foldlM op x := by
  have hi : ∀ i ∈ t.leaves, i < (x :: l).length := fun i hi => List.mem_range.1 (ht.mem_iff.1 hi)
  refine toOption_inj ?_ (t.eval_err h _ hi) (foldlM_err h x l)
  rw [t.eval_toOption h _ hi, fold1_perm (opt_comm h) (opt_assoc h) (ht.map _), foldlM_toOption]
  have : (List.range (x :: l).length).map (fun i => (x :: l)[i]?) = some x :: l.map some := by
    refine List.ext_getElem (by simp) fun i h1 h2 => ?_
    simp only [List.length_map, List.length_range] at h1
    rw [List.getElem_map, List.getElem_range, List.getElem?_eq_getElem h1, ← List.getElem_map (f := some) (h := by simpa using h1)]
    simp only [List.map_cons]
  rw [this]
  rfl

/-- a reduction with an associative and commutative operation is the same program for all ways to combine the contributions -/
theorem allreduceT_eq [Enc K α] (h : ACOp op) {T : List α → RTree} (hT : UsesAll T) (comm : List Nat) (x : α) :
    (allreduceT T comm op x : P K α) = allreduce comm op x := by
  unfold allreduceT allreduce
  congr 1
  funext l
  cases l with
  | nil => rfl
  | cons y ys => exact congrArg Prog.lift (RTree.eval_eq h y ys _ (hT _ (by simp)))

end

/-! ### The reductions of the library -/

theorem ACOp.nat : ACOp (fun a b : Nat => .ok (a + b)) := ⟨fun a b => by rw [Nat.add_comm], fun a b c => by
  show Except.ok (a + b + c) = Except.ok (a + (b + c)); rw [Nat.add_assoc], fun _ _ _ h => by cases h⟩

theorem ACOp.sc [Field K] : ACOp (fun a b : Sc K => .ok ⟨a.val + b.val⟩) := ⟨fun a b => by rw [add_comm], fun a b c => by
  show Except.ok (Sc.mk (a.val + b.val + c.val)) = Except.ok ⟨a.val + (b.val + c.val)⟩; rw [add_assoc], fun _ _ _ h => by cases h⟩

theorem promote_comm (a b : DType) : a.promote b = b.promote a := by cases a <;> cases b <;> rfl

theorem promote_assoc (a b c : DType) : (a.promote b).promote c = a.promote (b.promote c) := by cases a <;> cases b <;> cases c <;> rfl

theorem zipWith_assoc {f : K → K → K} (ha : ∀ a b c, f (f a b) c = f a (f b c)) (l l' l'' : List K) :
    List.zipWith f (List.zipWith f l l') l'' = List.zipWith f l (List.zipWith f l' l'') := by
  induction l generalizing l' l'' with
  | nil => simp
  | cons x l ih => cases l' <;> cases l'' <;> simp [ha, ih]

theorem ACOp.zip {f : K → K → K} (hc : ∀ a b, f a b = f b a) (ha : ∀ a b c, f (f a b) c = f a (f b c)) : ACOp (NDArray.zip f) := by
  refine ⟨fun a b => ?_, fun a b c => ?_, fun a b e h => ?_⟩
  · unfold NDArray.zip
    by_cases h : a.shape = b.shape
    · rw [if_pos h, if_pos h.symm, promote_comm, List.zipWith_comm_of_comm (comm := hc), h]
    · rw [if_neg h, if_neg (Ne.symm h)]
  · unfold NDArray.zip
    by_cases h : a.shape = b.shape
    · rw [if_pos h]
      by_cases h' : b.shape = c.shape
      · rw [if_pos h']
        show (if a.shape = c.shape then _ else _) = (if a.shape = b.shape then _ else _)
        rw [if_pos (h.trans h'), if_pos h]
        simp only [promote_assoc, zipWith_assoc ha]
      · rw [if_neg h']
        exact if_neg fun h2 => h' (h.symm.trans h2)
    · rw [if_neg h]
      by_cases h' : b.shape = c.shape
      · rw [if_pos h']
        exact (if_neg h).symm
      · rw [if_neg h']; rfl
  · unfold NDArray.zip at h
    split_ifs at h
    cases h; rfl

theorem ACOp.combine {f : FNum → FNum → FNum} (hc : ∀ a b, f a b = f b a) (ha : ∀ a b c, f (f a b) c = f a (f b c)) : ACOp (combine f) := by
  have hz := ACOp.zip hc ha
  refine ⟨fun a b => ?_, fun a b c => ?_, fun a b e h => ?_⟩
  · unfold Verif.combine; rw [hz.comm]
  · have := congrArg (Except.map RArr.mk) (hz.assoc a.val b.val c.val)
    unfold Verif.combine
    cases e1 : NDArray.zip f a.val b.val with
    | error e =>
      rw [e1] at this
      cases e2 : NDArray.zip f b.val c.val with
      | error e' => rw [e2] at this; exact this
      | ok w =>
        rw [e2] at this
        change Except.error e = Except.map RArr.mk (NDArray.zip f a.val w) at this
        show Except.error e = (NDArray.zip f a.val w >>= fun z => .ok (RArr.mk z))
        rw [this]
        cases NDArray.zip f a.val w <;> rfl
    | ok u =>
      rw [e1] at this
      change Except.map RArr.mk (NDArray.zip f u c.val) = _ at this
      have e3 : (NDArray.zip f u c.val >>= fun z => (.ok (RArr.mk z) : Except Err RArr)) = Except.map RArr.mk (NDArray.zip f u c.val) := by
        cases NDArray.zip f u c.val <;> rfl
      show (NDArray.zip f u c.val >>= fun z => .ok (RArr.mk z)) = _
      rw [e3, this]
      cases e2 : NDArray.zip f b.val c.val with
      | error e' => rfl
      | ok w =>
        show Except.map RArr.mk (NDArray.zip f a.val w) = (NDArray.zip f a.val w >>= fun z => .ok (RArr.mk z))
        cases NDArray.zip f a.val w <;> rfl
  · unfold Verif.combine at h
    cases e' : NDArray.zip f a.val b.val with
    | error e1 => rw [e'] at h; cases h; exact hz.err _ _ _ e'
    | ok z => rw [e'] at h; cases h

theorem max2_comm (a b : FNum) : FNum.max2 a b = FNum.max2 b a := by cases a <;> cases b <;> simp [FNum.max2, max_comm]

theorem max2_assoc (a b c : FNum) : FNum.max2 (FNum.max2 a b) c = FNum.max2 a (FNum.max2 b c) := by cases a <;> cases b <;> cases c <;> simp [FNum.max2, max_assoc]

theorem min2_comm (a b : FNum) : FNum.min2 a b = FNum.min2 b a := by cases a <;> cases b <;> simp [FNum.min2, min_comm]

theorem min2_assoc (a b c : FNum) : FNum.min2 (FNum.min2 a b) c = FNum.min2 a (FNum.min2 b c) := by cases a <;> cases b <;> cases c <;> simp [FNum.min2, min_assoc]

section
variable {T : List Nat → RTree}

/-- **C64** (numbers of rows, of columns and of slices, totals of local sizes).  A reduction of integers by `+` is the same program for all ways to combine the contributions. -/
theorem C64_nat (hT : UsesAll T) (comm : List Nat) (x : Nat) :
    (allreduceT T comm (fun a b => .ok (a + b)) x : P K Nat) = allreduce comm (fun a b => .ok (a + b)) x := allreduceT_eq ACOp.nat hT comm x

end

section
variable [Field K] [StarRing K]

/-- `dot` — DistributedArray.py:484-496, with a reduction in the way `T` -/
def DArr.dotT (T : List (Sc K) → RTree) (c : Ctx K) (d e : DArr K) : P K K := do
  d.checkCompat e
  let x ← d.toScatter c d.part
  let y ← e.toScatter c d.part
  let v ← Prog.lift (NDArray.dot x.larr.flatten y.larr.flatten)
  let s ← allreduceT T d.sub (fun a b => .ok ⟨a.val + b.val⟩) (Sc.mk v)
  .ret s.val

/-- **C64** (`dot`).  In exact arithmetic `dot` is the same program for all ways to combine the contributions; the ways may differ from call to call and from rank to rank. -/
theorem C64_dot {T : List (Sc K) → RTree} (hT : UsesAll T) (c : Ctx K) (d e : DArr K) : d.dotT T c e = d.dot c e := by
  unfold DArr.dotT DArr.dot
  simp only [allreduceT_eq ACOp.sc hT]

/-- `MPIVStack._rmatvec` — VStack.py:132-143, with a reduction in the way `T` -/
def vstackRmvT (T : List (NDArray K) → RTree) (ops : List (LOp K)) (dt : DType) (ln : List (List Nat)) (N : Nat) (c : Ctx K) (x : DArr K) : P K (DArr K) :=
  reshaped c x.gshape (some ln) (fun x => do
    let y ← mkDArr c [N] .broadcast 0 none none dt
    let y1 ← Prog.lift (applyAt true x.larr 0 ops)
    let s ← Prog.lift (sumRows y1)
    let t ← allreduceT T c.world (NDArray.zip (· + ·)) s
    y.setAll c t) x

/-- **C64** (adjoint of MPIVStack, so MPIHStack).  The same for the sum of arrays, also when the shapes of the contributions differ. -/
theorem C64_vstack {T : List (NDArray K) → RTree} (hT : UsesAll T) (ops : List (LOp K)) (dt : DType) (ln : List (List Nat)) (N : Nat) (c : Ctx K) (x : DArr K) :
    vstackRmvT T ops dt ln N c x = vstackRmv ops dt ln N c x := by
  unfold vstackRmvT vstackRmv
  simp only [allreduceT_eq (ACOp.zip add_comm add_assoc) hT]

end

section
variable [RCLike K]

/-- `_compute_vector_norm` — DistributedArray.py:498-538, with a reduction in the way `T` -/
noncomputable def computeVectorNormT (T : List RArr → RTree) (sub : List Nat) (larr : NDArray K) (axis : Nat) (o : NormOrd) : P K (NDArray FNum) :=
  let o := match o with | .none => NormOrd.num 2 | o => o
  open Classical in
  match o with
  | .fro | .nuc | .none => .throw .value
  | .num p =>
    if p = 0 then do
      let b ← Prog.lift (reduceAxis (fun l => .ok (countNonzero l)) axis larr)
      let s ← allreduceT T sub (combine (· + ·)) (RArr.mk b)
      .ret s.val
    else do
      let b ← Prog.lift (reduceAxis (fun l => .ok (l.map (absFloatPower larr.dtype p)).sum) axis larr)
      let s ← allreduceT T sub (combine (· + ·)) (RArr.mk b)
      .ret (s.val.map (FNum.root p))
  | .inf => do
      let b ← Prog.lift (reduceAxis maxAbs axis larr)
      let s ← allreduceT T sub (combine FNum.max2) (RArr.mk b)
      .ret s.val
  | .ninf => do
      let b ← Prog.lift (reduceAxis minAbs axis larr)
      let s ← allreduceT T sub (combine FNum.min2) (RArr.mk b)
      .ret s.val

/-- **C64** (`norm`).  The same for the sums, maxima and minima of `norm`, also when there are infinities and NaN among the sums. -/
theorem C64_norm {T : List RArr → RTree} (hT : UsesAll T) (sub : List Nat) (larr : NDArray K) (axis : Nat) (o : NormOrd) :
    computeVectorNormT T sub larr axis o = computeVectorNorm sub larr axis o := by
  unfold computeVectorNormT computeVectorNorm
  simp only [allreduceT_eq (ACOp.combine max2_comm max2_assoc) hT, allreduceT_eq (ACOp.combine min2_comm min2_assoc) hT,
    allreduceT_eq (ACOp.combine (f := (· + ·)) add_comm add_assoc) hT]
  cases o <;> rfl

end

/-! ### Non-vacuity -/

/-- from right to left: contribution `n`, then `n - 1`, … -/
def RTree.down : Nat → RTree
  | 0 => .leaf 0
  | n + 1 => .node (.leaf (n + 1)) (down n)

theorem RTree.down_leaves (n : Nat) : (down n).leaves = (List.range (n + 1)).reverse := by
  induction n with
  | zero => rfl
  | succ n ih => rw [List.range_succ, List.reverse_append, ← ih]; rfl

theorem usesAll_down : UsesAll fun l : List α => RTree.down (l.length - 1) := fun l hl => by
  rw [RTree.down_leaves, Nat.sub_add_cancel (List.length_pos_iff.2 hl)]
  exact List.reverse_perm _

/-- Combining from right to left, or the second with the third first, gives the sum. -/
example : (RTree.down 2).eval (fun a b : Nat => .ok (a + b)) [1, 20, 300] = .ok 321 ∧
    (RTree.node (.node (.leaf 1) (.leaf 2)) (.leaf 0)).eval (fun a b : Nat => .ok (a + b)) [1, 20, 300] = .ok 321 := ⟨rfl, rfl⟩

/-- The associativity is needed: subtraction depends on the way. -/
example : (RTree.down 2).eval (fun a b : ℤ => .ok (a - b)) [1, 20, 300] ≠ [20, 300].foldlM (fun a b : ℤ => .ok (a - b)) 1 := by
  show Except.ok (300 - (20 - 1) : ℤ) ≠ (Except.ok (1 - 20 - 300) : Except Err ℤ)
  intro h
  cases h

end Verif

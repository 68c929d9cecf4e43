/-
  Programs with stacked arrays: the programs of Spec/Script.lean, with variables for `StackedDistributedArray`s, the operations on them, stacked operators and the solvers
  with stacked data, stacked models or both.

  Serially a stack is a list of NumPy arrays.  Stacks are made of copies of arrays and an array taken out of a stack is copied: otherwise the names would share the data (C06), and an operation
  in place on one of them would change the other.
-/
import Verif.Spec.Script
import Verif.Model.Stacked
import Verif.Model.StackedOperator
import Verif.Model.Solvers

namespace Verif

/-- serially: a NumPy array, or a list of NumPy arrays -/
inductive SNum (K : Type)
  | one (a : NDArray K)
  | stack (l : List (NDArray K))

/-- a name for an array or for a stack -/
inductive Ref
  | arr (x : Nat)
  | stk (x : Nat)

/-- operations on a stack with one operand: `-x`, `x.conj()`, `x.copy()`, `x * a` -/
inductive StackUnary (K : Type)
  | neg
  | conj
  | copy
  | smul (a : K)

/-- Programs with arrays and stacks.  `κ` names the operators of this part. -/
inductive SScript (K σ ι κ : Type)
  /-- a program with arrays only -/
  | base (s : Script K σ ι)
  /-- `z = StackedDistributedArray([x.copy(), …])` -/
  | stack (z : Nat) (x : Nat) (xs : List Nat)
  /-- `z = x[i].copy()` -/
  | item (z x : Nat) (i : σ → Nat)
  /-- `x.asarray()` -/
  | gather (x : Nat) (g : NDArray K → σ → σ)
  | unary (op : σ → StackUnary K) (z x : Nat)
  | binary (op : BinaryOp) (z x y : Nat)
  | iadd (x y : Nat)
  | isub (x y : Nat)
  /-- `x.dot(y)` -/
  | dot (x y : Nat) (g : K → σ → σ)
  /-- `x.norm()` -/
  | norm (x : Nat) (g : FNum → σ → σ)
  /-- `z = Op.matvec(x)` or `z = Op.rmatvec(x)` for an array or a stack -/
  | apply (i : κ) (b : Bool) (z : Nat) (x : Ref)
  /-- `z, iiter, cost = cg(Op, y, x, niter, tol)` -/
  | cg (i : κ) (z : Nat) (y x : Ref) (niter : σ → Int) (tol : σ → ℝ) (g : Nat → List ℝ → σ → σ)
  /-- `z, istop, iiter, r1norm, r2norm, cost = cgls(Op, y, x, niter, damp, tol)` -/
  | cgls (i : κ) (z : Nat) (y x : Ref) (niter : σ → Int) (damp tol : σ → ℝ) (g : CGLSNumbers → σ → σ)
  | seq (s t : SScript K σ ι κ)
  | ite (c : σ → Bool) (s t : SScript K σ ι κ)
  | loop (k : σ → Nat) (stop : σ → Bool) (s : SScript K σ ι κ)

/-- the variables: arrays, stacks and the rest -/
structure SVars (α σ : Type) where
  arr : Nat → Option α
  stk : Nat → Option (List α)
  loc : σ

namespace SVars
variable {α σ : Type}

def get (v : SVars α σ) (x : Nat) : Except Err α :=
  match v.arr x with
  | some a => .ok a
  | none => .error .attribute

def gets (v : SVars α σ) (x : Nat) : Except Err (List α) :=
  match v.stk x with
  | some a => .ok a
  | none => .error .attribute

/-- the arrays with the given names -/
def getAll (v : SVars α σ) : List Nat → Except Err (List α)
  | [] => .ok []
  | x :: xs => (v.get x).bind fun a => (v.getAll xs).bind fun l => .ok (a :: l)

def set (v : SVars α σ) (x : Nat) (a : α) : SVars α σ := { v with arr := fun y => if y = x then some a else v.arr y }

def sets (v : SVars α σ) (x : Nat) (a : List α) : SVars α σ := { v with stk := fun y => if y = x then some a else v.stk y }

/-- `l[i]` -/
def nth (l : List α) (i : Nat) : Except Err α :=
  match l[i]? with
  | some a => .ok a
  | none => .error .index

end SVars

namespace SNum
variable {K : Type} [RCLike K]

def parts : SNum K → List (NDArray K)
  | one a => [a]
  | stack l => l

/-- a function applied to all entries -/
def mapArr (f : K → K) (a : NDArray K) : NDArray K := ⟨a.shape, a.dtype, a.data.map f⟩

def map (f : K → K) : SNum K → SNum K
  | one a => one (mapArr f a)
  | stack l => stack (l.map (mapArr f))

/-- entry by entry for lists of arrays; the lists must have the same length and their arrays the same shapes -/
def zipAll (g : K → K → K) : List (NDArray K) → List (NDArray K) → Except Err (List (NDArray K))
  | [], [] => .ok []
  | a :: l, b :: m => (Script.elementwise g a b).bind fun e => (zipAll g l m).bind fun es => .ok (e :: es)
  | _, _ => .error .value

/-- entry by entry; an array and a stack are refused -/
def zip (g : K → K → K) : SNum K → SNum K → Except Err (SNum K)
  | one a, one b => (Script.elementwise g a b).bind fun e => .ok (one e)
  | stack l, stack m => (zipAll g l m).bind fun e => .ok (stack e)
  | _, _ => .error .attribute

/-- the sum of all entries -/
def total (l : List (NDArray K)) : K := (l.map fun a => a.data.sum).sum

/-- the Euclidean norm of all entries -/
noncomputable def length2 (l : List (NDArray K)) : ℝ := Real.sqrt ((l.map (·.data)).flatten.map fun x => ‖x‖ ^ 2).sum

def scale (a : ℝ) (x : SNum K) : SNum K := x.map (· * (a : K))

/-- the scalar product -/
def inner (x y : SNum K) : Except Err K := do
  let e ← zip (fun a b => a * star b) x y
  .ok (total e.parts)

noncomputable def norm2 (x : SNum K) : ℝ := length2 x.parts

end SNum

namespace SScript
variable {K σ ι κ : Type} [RCLike K]

/-! ### on a rank -/

def _root_.Verif.StackUnary.run (c : Ctx K) (dt : DType) (x : SArr K) : StackUnary K → P K (SArr K)
  | .neg => x.neg c
  | .conj => x.conj c
  | .copy => x.copy c
  | .smul s => x.smul c dt s

/-- for stacks -/
def _root_.Verif.BinaryOp.runs (c : Ctx K) (x y : SArr K) : BinaryOp → P K (SArr K)
  | .add => x.add c y
  | .sub => x.sub' c y
  | .mul => x.mul c y

def _root_.Verif.SVars.getX (v : SVars (DArr K) σ) : Ref → Except Err (XArr K)
  | .arr x => (v.get x).bind fun d => .ok (.one d)
  | .stk x => (v.gets x).bind fun d => .ok (.stack d)

def _root_.Verif.SVars.setX (v : SVars (DArr K) σ) (z : Nat) : XArr K → SVars (DArr K) σ
  | .one d => v.set z d
  | .stack l => v.sets z l

/-- the program on a rank -/
noncomputable def run (dt : DType) (prim : ι → Prim K) (op : κ → XOp K) (c : Ctx K) : SScript K σ ι κ → SVars (DArr K) σ → P K (SVars (DArr K) σ)
  | .base s, v => (s.run dt prim c ⟨v.arr, v.loc⟩).bind fun w => .ret ⟨w.arr, v.stk, w.loc⟩
  | .stack z x xs, v => (Prog.lift (v.getAll (x :: xs))).bind fun l => (forList (fun d => DArr.copy c d) l).bind fun l => .ret (v.sets z l)
  | .item z x i, v => (Prog.lift (v.gets x)).bind fun l => (Prog.lift (SVars.nth l (i v.loc))).bind fun d => (d.copy c).bind fun d => .ret (v.set z d)
  | .gather x g, v => (Prog.lift (v.gets x)).bind fun l => (SArr.asarray c l).bind fun a => .ret { v with loc := g a v.loc }
  | .unary op z x, v => (Prog.lift (v.gets x)).bind fun l => ((op v.loc).run c dt l).bind fun e => .ret (v.sets z e)
  | .binary op z x y, v => (Prog.lift (v.gets x)).bind fun l => (Prog.lift (v.gets y)).bind fun m => (op.runs c l m).bind fun e => .ret (v.sets z e)
  | .iadd x y, v => (Prog.lift (v.gets x)).bind fun l => (Prog.lift (v.gets y)).bind fun m => (SArr.iadd c l m).bind fun e => .ret (v.sets x e)
  | .isub x y, v => (Prog.lift (v.gets x)).bind fun l => (Prog.lift (v.gets y)).bind fun m => (SArr.isub c l m).bind fun e => .ret (v.sets x e)
  | .dot x y g, v => (Prog.lift (v.gets x)).bind fun l => (Prog.lift (v.gets y)).bind fun m => (SArr.dot c l m).bind fun s => .ret { v with loc := g s v.loc }
  | .norm x g, v => (Prog.lift (v.gets x)).bind fun l => (SArr.norm c l .none).bind fun s => .ret { v with loc := g s v.loc }
  | .apply i b z x, v => (Prog.lift (v.getX x)).bind fun d => ((if b then (op i).rmv c d else (op i).mv c d)).bind fun e => .ret (v.setX z e)
  | .cg i z y x niter tol g, v =>
    (Prog.lift (v.getX y)).bind fun d => (Prog.lift (v.getX x)).bind fun e =>
      (CGS.solve c (op i) d e (some (niter v.loc)) (tol v.loc)).bind fun q => .ret { v.setX z q.1 with loc := g q.2.1 q.2.2.1 v.loc }
  | .cgls i z y x niter damp tol g, v =>
    (Prog.lift (v.getX y)).bind fun d => (Prog.lift (v.getX x)).bind fun e =>
      (CGLSS.solve c (op i) d e (some (niter v.loc)) (damp v.loc) (tol v.loc)).bind fun q =>
        .ret { v.setX z q.x with loc := g ⟨q.istop, q.iiter, q.r1norm, q.r2norm, q.cost⟩ v.loc }
  | .seq s t, v => (s.run dt prim op c v).bind (t.run dt prim op c)
  | .ite p s t, v => if p v.loc then s.run dt prim op c v else t.run dt prim op c v
  | .loop k stop s, v => Script.runLoop (fun v => stop v.loc) (s.run dt prim op c) (k v.loc) v

/-! ### with NumPy arrays -/

def _root_.Verif.StackUnary.fn : StackUnary K → K → K
  | .neg, x => -x
  | .conj, x => star x
  | .copy, x => x
  | .smul s, x => x * s

def _root_.Verif.SVars.num (v : SVars (NDArray K) σ) : Ref → Except Err (SNum K)
  | .arr x => (v.get x).bind fun d => .ok (.one d)
  | .stk x => (v.gets x).bind fun d => .ok (.stack d)

def _root_.Verif.SVars.setNum (v : SVars (NDArray K) σ) (z : Nat) : SNum K → SVars (NDArray K) σ
  | .one d => v.set z d
  | .stack l => v.sets z l

/-- `numpy.hstack([a.flatten() for a in l])` -/
def hstack (dt : DType) (l : List (NDArray K)) : NDArray K := ⟨[(l.map (·.data)).flatten.length], dt, (l.map (·.data)).flatten⟩

/-- conjugate gradients, as in Spec/Script.lean, with stacks -/
structure CG (K : Type) where
  x : SNum K
  r : SNum K
  c : SNum K
  k : ℝ
  cost : List ℝ
  iiter : Nat

noncomputable def CG.start (A : SNum K → Except Err (SNum K)) (y x : SNum K) : Except Err (CG K) := do
  let w ← A x
  let r ← SNum.zip (· - ·) y w
  let k ← SNum.inner r r
  .ok ⟨x, r, r, ‖k‖, [Real.sqrt ‖k‖], 0⟩

noncomputable def CG.step (A : SNum K → Except Err (SNum K)) (s : CG K) : Except Err (CG K) := do
  let w ← A s.c
  let t ← SNum.inner s.c w
  let a ← Script.divide .nonfinite s.k ‖t‖
  let x ← SNum.zip (· + ·) s.x (SNum.scale a s.c)
  let r ← SNum.zip (· - ·) s.r (SNum.scale a w)
  let k ← SNum.inner r r
  let b ← Script.divide .zeroDiv ‖k‖ s.k
  let c ← SNum.zip (· + ·) r (SNum.scale b s.c)
  .ok ⟨x, r, c, ‖k‖, s.cost ++ [Real.sqrt ‖k‖], s.iiter + 1⟩

noncomputable def CG.steps (A : SNum K → Except Err (SNum K)) (tol : ℝ) : Nat → CG K → Except Err (CG K)
  | 0, s => .ok s
  | m + 1, s => if tol < s.k then (s.step A).bind (steps A tol m) else .ok s

/-- conjugate gradients for least squares, as in Spec/Script.lean, with stacks -/
structure CGLS (K : Type) where
  x : SNum K
  s : SNum K
  c : SNum K
  q : SNum K
  k : ℝ
  cost : List ℝ
  cost1 : List FNum
  iiter : Nat

noncomputable def CGLS.start (A : Bool → SNum K → Except Err (SNum K)) (damp : ℝ) (y x : SNum K) : Except Err (CGLS K) := do
  let w ← A false x
  let s ← SNum.zip (· - ·) y w
  let g ← A true s
  let r ← SNum.zip (· - ·) g (SNum.scale damp x)
  let q ← A false r
  let k ← SNum.inner r r
  let t ← SNum.inner x x
  .ok ⟨x, s, r, q, ‖k‖, [s.norm2], [FNum.sqrt (s.norm2 ^ 2 + damp * ‖t‖)], 0⟩

noncomputable def CGLS.step (A : Bool → SNum K → Except Err (SNum K)) (damp2 : ℝ) (s : CGLS K) : Except Err (CGLS K) := do
  let qq ← SNum.inner s.q s.q
  let cc ← SNum.inner s.c s.c
  let a ← Script.divide .nonfinite (s.k : K) (qq + (damp2 : K) * cc)
  let x ← SNum.zip (· + ·) s.x (SNum.scale ‖a‖ s.c)
  let s' ← SNum.zip (· - ·) s.s (SNum.scale ‖a‖ s.q)
  let g ← A true s'
  let r ← SNum.zip (· - ·) g (SNum.scale damp2 x)
  let k ← SNum.inner r r
  let b ← Script.divide .zeroDiv ‖k‖ s.k
  let c ← SNum.zip (· + ·) r (SNum.scale b s.c)
  let q ← A false c
  let t ← SNum.inner x x
  .ok ⟨x, s', c, q, ‖k‖, s.cost ++ [s'.norm2], s.cost1 ++ [FNum.sqrt (s'.norm2 ^ 2 + damp2 * ‖t‖)], s.iiter + 1⟩

noncomputable def CGLS.steps (A : Bool → SNum K → Except Err (SNum K)) (damp2 tol : ℝ) : Nat → CGLS K → Except Err (CGLS K)
  | 0, s => .ok s
  | m + 1, s => if tol < s.k then (s.step A damp2).bind (steps A damp2 tol m) else .ok s

noncomputable def CGLS.numbers (tol : ℝ) (s : CGLS K) : CGLSNumbers := ⟨if s.k < tol then 1 else 2, s.iiter, s.k, s.cost1.getLastD .nan, s.cost⟩

/-- the program with NumPy arrays -/
noncomputable def serial (dt : DType) (lv : Leaves K ι) (fn : κ → Bool → SNum K → Except Err (SNum K)) : SScript K σ ι κ → SVars (NDArray K) σ → Except Err (SVars (NDArray K) σ)
  | .base s, v => (s.serial dt lv ⟨v.arr, v.loc⟩).bind fun w => .ok ⟨w.arr, v.stk, w.loc⟩
  | .stack z x xs, v => (v.getAll (x :: xs)).bind fun l => .ok (v.sets z l)
  | .item z x i, v => (v.gets x).bind fun l => (SVars.nth l (i v.loc)).bind fun a => .ok (v.set z a)
  | .gather x g, v => (v.gets x).bind fun l => .ok { v with loc := g (hstack dt l) v.loc }
  | .unary op z x, v => (v.gets x).bind fun l => .ok (v.sets z (l.map (SNum.mapArr (op v.loc).fn)))
  | .binary op z x y, v => (v.gets x).bind fun l => (v.gets y).bind fun m => (SNum.zipAll op.fn l m).bind fun e => .ok (v.sets z e)
  | .iadd x y, v => (v.gets x).bind fun l => (v.gets y).bind fun m => (SNum.zipAll (· + ·) l m).bind fun e => .ok (v.sets x e)
  | .isub x y, v => (v.gets x).bind fun l => (v.gets y).bind fun m => (SNum.zipAll (· - ·) l m).bind fun e => .ok (v.sets x e)
  | .dot x y g, v => (v.gets x).bind fun l => (v.gets y).bind fun m => (SNum.zipAll (· * ·) l m).bind fun e => .ok { v with loc := g (SNum.total e) v.loc }
  | .norm x g, v => (v.gets x).bind fun l => .ok { v with loc := g (.fin (SNum.length2 l)) v.loc }
  | .apply i b z x, v => (v.num x).bind fun a => (fn i b a).bind fun e => .ok (v.setNum z e)
  | .cg i z y x niter tol g, v =>
    (v.num y).bind fun a => (v.num x).bind fun b =>
      ((CG.start (fn i false) a b).bind (CG.steps (fn i false) (tol v.loc) (niter v.loc).toNat)).bind fun s => .ok { v.setNum z s.x with loc := g s.iiter s.cost v.loc }
  | .cgls i z y x niter damp tol g, v =>
    (v.num y).bind fun a => (v.num x).bind fun b =>
      ((CGLS.start (fn i) (damp v.loc) a b).bind (CGLS.steps (fn i) (damp v.loc ^ 2) (tol v.loc) (niter v.loc).toNat)).bind fun s =>
        .ok { v.setNum z s.x with loc := g (s.numbers (tol v.loc)) v.loc }
  | .seq s t, v => (s.serial dt lv fn v).bind (t.serial dt lv fn)
  | .ite p s t, v => if p v.loc then s.serial dt lv fn v else t.serial dt lv fn v
  | .loop k stop s, v => Script.serialLoop (fun v => stop v.loc) (s.serial dt lv fn) (k v.loc) v

/-! ### what the ranks hold -/

/-- the ranks hold the parts of an array, scattered along the first axis in any way or BROADCAST -/
def HeldArray (n : Nat) (dt : DType) (f : Nat → DArr K) (a : NDArray K) : Prop :=
  a.dtype = dt ∧ a.data.length = a.shape.prod ∧ ∃ L, Script.Held n a.shape L ∧ ∀ r < n, f r = VSpace.vec ⟨L, dt⟩ n a.data r

/-- lists that correspond element by element -/
def ListRel {α β : Type} (n : Nat) (R : (Nat → α) → β → Prop) : (Nat → List α) → List β → Prop
  | f, [] => ∀ r < n, f r = []
  | f, b :: l => ∃ g h, R g b ∧ ListRel n R h l ∧ ∀ r < n, f r = g r :: h r

/-- the ranks hold the parts of an array or of the arrays of a stack, which may be held in different ways -/
def HeldNum (n : Nat) (dt : DType) (f : Nat → XArr K) : SNum K → Prop
  | .one a => ∃ g, HeldArray n dt g a ∧ ∀ r < n, f r = .one (g r)
  | .stack l => l ≠ [] ∧ ∃ g, ListRel n (HeldArray n dt) g l ∧ ∀ r < n, f r = .stack (g r)

/-- the ranks hold the parts of the variables -/
def SHolds (n : Nat) (dt : DType) (V : Nat → SVars (DArr K) σ) (G : SVars (NDArray K) σ) : Prop :=
  (∀ r < n, (V r).loc = G.loc) ∧
  (∀ x, match G.arr x with
    | none => ∀ r < n, (V r).arr x = none
    | some a => ∃ f, HeldArray n dt f a ∧ ∀ r < n, (V r).arr x = some (f r)) ∧
  ∀ x, match G.stk x with
    | none => ∀ r < n, (V r).stk x = none
    | some l => l ≠ [] ∧ ∃ f, ListRel n (HeldArray n dt) f l ∧ ∀ r < n, (V r).stk x = some (f r)

/-- an operator: for arrays or stacks held in any way, the right result, or some rank raises -/
def XOpOr (n : Nat) (J : Nat → Nat → K) (dt : DType) (op : Nat → XOp K) (fn : Bool → SNum K → Except Err (SNum K)) : Prop :=
  ∀ b f a, HeldNum n dt f a →
    (∃ e g, fn b a = .ok e ∧ HeldNum n dt g e ∧ Always n (fun r => if b then (op r).rmv (env n J r) (f r) else (op r).mv (env n J r) (f r)) fun r => .ok (g r)) ∨
    Raises n fun r => if b then (op r).rmv (env n J r) (f r) else (op r).mv (env n J r) (f r)

/-! ### stacked operators with NumPy arrays -/

/-- an expression of operators on vectors -/
def linear (dt : DType) (lv : Leaves K ι) (b : Bool) (e : MOp K ι) (a : NDArray K) : Except Err (NDArray K) := Script.applyTo dt (e.shape lv.sh) (fun b => den lv b e) b a

/-- one vector through several operators -/
def column (dt : DType) (lv : Leaves K ι) (a : NDArray K) : List (MOp K ι) → Except Err (List (NDArray K))
  | [] => .ok []
  | e :: es => (linear dt lv false e a).bind fun y => (column dt lv a es).bind fun l => .ok (y :: l)

/-- several vectors through as many operators -/
def blocks (dt : DType) (lv : Leaves K ι) (b : Bool) : List (NDArray K × MOp K ι) → Except Err (List (NDArray K))
  | [] => .ok []
  | t :: ts => (linear dt lv b t.2 t.1).bind fun y => (blocks dt lv b ts).bind fun l => .ok (y :: l)

/-- the sum of the results of several vectors through as many adjoints -/
def gatherSum (dt : DType) (lv : Leaves K ι) : NDArray K → List (NDArray K × MOp K ι) → Except Err (NDArray K)
  | y, [] => .ok y
  | y, t :: ts => (linear dt lv true t.2 t.1).bind fun z => (Script.elementwise (· + ·) y z).bind fun y => gatherSum dt lv y ts

/-- a vertical stack -/
def vstackNum (dt : DType) (lv : Leaves K ι) (ops : List (MOp K ι)) : Bool → SNum K → Except Err (SNum K)
  | false, .one a => (column dt lv a ops).bind fun l => .ok (.stack l)
  | true, .stack (x :: xs) => match ops with
    | e :: es => (linear dt lv true e x).bind fun y => (gatherSum dt lv y (xs.zip es)).bind fun y => .ok (.one y)
    | [] => .error .index
  | true, .stack [] => .error .index
  | _, _ => .error .attribute

/-- a block diagonal -/
def bdiagNum (dt : DType) (lv : Leaves K ι) (ops : List (MOp K ι)) (b : Bool) : SNum K → Except Err (SNum K)
  | .stack xs => (blocks dt lv b (xs.zip ops)).bind fun l => .ok (.stack l)
  | .one _ => .error .attribute

/-- vectors of the wrong length are refused, and so are stacks of arrays with different numbers of axes or the wrong total length -/
def Fits (sh : Nat × Nat) (b : Bool) : SNum K → Prop
  | .one a => a.shape = [dimOf sh b]
  | .stack l => (∀ a ∈ l, a.shape.length = (l.map fun a => a.shape.length).headD 0) ∧ (l.map fun a => a.shape.sum).sum = dimOf sh b

open Classical in
/-- expressions of stacked operators with NumPy arrays -/
noncomputable def stackedNum (dt : DType) (lv : Leaves K ι) : SOp K ι → Bool → SNum K → Except Err (SNum K)
  | .vstack ops, b, x => if Fits ((SOp.vstack ops).shape lv.sh) b x then vstackNum dt lv ops b x else .error .value
  | .grad ops, b, x => if Fits ((SOp.grad ops).shape lv.sh) b x then vstackNum dt lv ops b x else .error .value
  | .bdiag ops, b, x => if Fits ((SOp.bdiag ops).shape lv.sh) b x then bdiagNum dt lv ops b x else .error .value
  | .adj A, b, x => if Fits ((SOp.adj A).shape lv.sh) b x then stackedNum dt lv A (!b) x else .error .value
  | .trans A, b, x => if Fits ((SOp.trans A).shape lv.sh) b x then (stackedNum dt lv A (!b) (x.map star)).bind fun y => .ok (y.map star) else .error .value
  | .conj A, b, x => if Fits ((SOp.conj A).shape lv.sh) b x then (stackedNum dt lv A b (x.map star)).bind fun y => .ok (y.map star) else .error .value
  | .prod A B, false, x => if Fits ((SOp.prod A B).shape lv.sh) false x then (stackedNum dt lv B false x).bind (stackedNum dt lv A false) else .error .value
  | .prod A B, true, x => if Fits ((SOp.prod A B).shape lv.sh) true x then (stackedNum dt lv A true x).bind (stackedNum dt lv B true) else .error .value
  | .scaled A s, b, x => if Fits ((SOp.scaled A s).shape lv.sh) b x then (stackedNum dt lv A b x).bind fun y => .ok (y.map (· * (if b then s.conj else s).val)) else .error .value
  | .sum A B, b, x =>
    if Fits ((SOp.sum A B).shape lv.sh) b x then (stackedNum dt lv A b x).bind fun y => (stackedNum dt lv B b x).bind fun z => SNum.zip (· + ·) y z else .error .value
  | .pow _ _, _, _ => .error .value

/-- expressions that may stand in a program: nonempty stacks of expressions without powers and with well-formed shapes, no powers, and no complex scalars in a program with real arrays -/
def StackedExpression (dt : DType) (sh : ι → Nat × Nat) : SOp K ι → Prop
  | .vstack ops | .grad ops | .bdiag ops => ops ≠ [] ∧ ∀ e ∈ ops, Script.Expression dt e ∧ Shaped sh e
  | .adj A | .trans A | .conj A => StackedExpression dt sh A
  | .prod A B | .sum A B => StackedExpression dt sh A ∧ StackedExpression dt sh B
  | .scaled A s => StackedExpression dt sh A ∧ (dt = .real → s.dtype = .real)
  | .pow _ _ => False

/-! ### programs that do not raise -/

/-- a program whose arrays are all in the default layout -/
def Plain : SScript K σ ι κ → Prop
  | .base s => s.Plain
  | .seq s t => s.Plain ∧ t.Plain
  | .ite _ s t => s.Plain ∧ t.Plain
  | .loop _ _ s => s.Plain
  | _ => True

/-- the ranks hold the parts of an array in the default layout -/
def StandardArray (n : Nat) (dt : DType) (f : Nat → DArr K) (a : NDArray K) : Prop :=
  a.dtype = dt ∧ a.data.length = a.shape.prod ∧ ∃ L, (a.shape ≠ [] ∧ L = Script.standard n a.shape) ∧ ∀ r < n, f r = VSpace.vec ⟨L, dt⟩ n a.data r

/-- the ranks hold the parts of an array or of the arrays of a stack in the default layout -/
def StandardNum (n : Nat) (dt : DType) (f : Nat → XArr K) : SNum K → Prop
  | .one a => ∃ g, StandardArray n dt g a ∧ ∀ r < n, f r = .one (g r)
  | .stack l => l ≠ [] ∧ ∃ g, ListRel n (StandardArray n dt) g l ∧ ∀ r < n, f r = .stack (g r)

/-- the ranks hold the parts of the variables in the default layout -/
def SHoldsStandard (n : Nat) (dt : DType) (V : Nat → SVars (DArr K) σ) (G : SVars (NDArray K) σ) : Prop :=
  (∀ r < n, (V r).loc = G.loc) ∧
  (∀ x, match G.arr x with
    | none => ∀ r < n, (V r).arr x = none
    | some a => ∃ f, StandardArray n dt f a ∧ ∀ r < n, (V r).arr x = some (f r)) ∧
  ∀ x, match G.stk x with
    | none => ∀ r < n, (V r).stk x = none
    | some l => l ≠ [] ∧ ∃ f, ListRel n (StandardArray n dt) f l ∧ ∀ r < n, (V r).stk x = some (f r)

/-- an operator that returns, and gives its result in the default layout, for arrays and stacks in that layout that it accepts with NumPy arrays; for others some rank raises -/
def XOpStandard (n : Nat) (J : Nat → Nat → K) (dt : DType) (op : Nat → XOp K) (fn : Bool → SNum K → Except Err (SNum K)) : Prop :=
  ∀ b f a, StandardNum n dt f a →
    (∃ e g, fn b a = .ok e ∧ StandardNum n dt g e ∧ Always n (fun r => if b then (op r).rmv (env n J r) (f r) else (op r).mv (env n J r) (f r)) fun r => .ok (g r)) ∨
    (∃ e, fn b a = .error e) ∧ Raises n fun r => if b then (op r).rmv (env n J r) (f r) else (op r).mv (env n J r) (f r)

/-- the same with powers of the constituents -/
def StackedPower (dt : DType) (sh : ι → Nat × Nat) : SOp K ι → Prop
  | .vstack ops | .grad ops | .bdiag ops => ops ≠ [] ∧ ∀ e ∈ ops, Script.PowerExpression dt e ∧ Shaped sh e
  | .adj A | .trans A | .conj A => StackedPower dt sh A
  | .prod A B | .sum A B => StackedPower dt sh A ∧ StackedPower dt sh B
  | .scaled A s => StackedPower dt sh A ∧ (dt = .real → s.dtype = .real)
  | .pow _ _ => False

end SScript
end Verif

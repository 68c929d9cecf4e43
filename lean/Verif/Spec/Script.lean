/-
  Programs that use the library.  A script is what a user writes: it creates distributed arrays, computes with them, applies operators,
  takes inner products and norms, calls `cg` and `cgls`, gathers arrays, does anything it likes with numbers and local arrays, and has
  conditions and loops.  All ranks run the same script, and what they hold besides the distributed arrays (`σ`, any type) is the same on all ranks at the start.

  `Script.run` is the script on one rank of an MPI job, with the functions of the library; `Script.serial` is the same script on one
  machine, with NumPy arrays in place of the distributed ones.
-/
import Verif.Model.LinearOperator
import Verif.Model.Norm
import Verif.Model.Solvers
import Verif.Spec.Algebra
import Verif.Spec.FewRows
import Verif.Spec.Safe

namespace Verif
open NDArray

/-- `-x`, `x.conj()`, `x.copy()`, `x.zeros_like()`, `x * s` -/
inductive UnaryOp (K : Type)
  | neg | conj | copy | zeros | smul (s : K)

/-- `x + y`, `x - y`, `x * y` -/
inductive BinaryOp
  | add | sub | mul

/-- what `cgls` returns besides the array -/
structure CGLSNumbers where
  istop : Nat
  iiter : Nat
  r1norm : ℝ
  r2norm : FNum
  cost : List ℝ

/-- a program with variables 0, 1, 2, … for arrays, a replicated state `σ` and operators `ι` -/
inductive Script (K σ ι : Type)
  /-- any computation without distributed arrays, which may raise -/
  | pure (f : σ → Except Err σ)
  /-- `x = DistributedArray.to_dist(a)`, with `partition=Partition.BROADCAST` if `b`; `a` has the given shape and entries -/
  | dist (x : Nat) (b : Bool) (shape : σ → List Nat) (entry : σ → Nat → K)
  /-- `a = x.asarray()` -/
  | gather (x : Nat) (g : NDArray K → σ → σ)
  | unary (op : σ → UnaryOp K) (z x : Nat)
  | binary (op : BinaryOp) (z x y : Nat)
  /-- `x += y` -/
  | iadd (x y : Nat)
  /-- `x -= y` -/
  | isub (x y : Nat)
  | ravel (z x : Nat)
  /-- `s = x.dot(y)` -/
  | dot (x y : Nat) (g : K → σ → σ)
  /-- `s = x.norm()` -/
  | norm (x : Nat) (g : NDArray FNum → σ → σ)
  /-- `z = Op.matvec(x)`, or `Op.rmatvec(x)` if `b` -/
  | apply (i : ι) (b : Bool) (z x : Nat)
  /-- `z, iiter, cost = cg(Op, y, x, niter, tol)` -/
  | cg (i : ι) (z y x : Nat) (niter : σ → Int) (tol : σ → ℝ) (g : Nat → List ℝ → σ → σ)
  /-- `z, istop, iiter, r1norm, r2norm, cost = cgls(Op, y, x, niter, damp, tol)` -/
  | cgls (i : ι) (z y x : Nat) (niter : σ → Int) (damp tol : σ → ℝ) (g : CGLSNumbers → σ → σ)
  | seq (s t : Script K σ ι)
  | ite (c : σ → Bool) (s t : Script K σ ι)
  /-- `for _ in range(k): if stop: break; s` -/
  | loop (k : σ → Nat) (stop : σ → Bool) (s : Script K σ ι)

/-- the variables of a script -/
structure Vars (α σ : Type) where
  arr : Nat → Option α
  loc : σ

namespace Vars
variable {α σ : Type}

/-- NameError is modelled as AttributeError -/
def get (v : Vars α σ) (x : Nat) : Except Err α :=
  match v.arr x with
  | some a => .ok a
  | none => .error .attribute

def set (v : Vars α σ) (x : Nat) (a : α) : Vars α σ := { v with arr := fun y => if y = x then some a else v.arr y }

end Vars

/-- the array with the given shape, dtype and entries -/
def NDArray.tab {K : Type} (s : List Nat) (dt : DType) (f : Nat → K) : NDArray K := ⟨s, dt, (List.range s.prod).map f⟩

namespace Script
variable {K σ ι : Type} [RCLike K]

/-! ### on a rank -/

def _root_.Verif.UnaryOp.run (c : Ctx K) (dt : DType) (x : DArr K) : UnaryOp K → P K (DArr K)
  | .neg => x.neg c
  | .conj => x.conj c
  | .copy => x.copy c
  | .zeros => x.zerosLike c
  | .smul s => x.smul c dt s

def _root_.Verif.BinaryOp.run (c : Ctx K) (x y : DArr K) : BinaryOp → P K (DArr K)
  | .add => x.add c y
  | .sub => x.sub' c y
  | .mul => x.mul c y

/-- the array that a solver returns, which is not a stack for a solver that starts with an array -/
def _root_.Verif.XArr.array : XArr K → P K (DArr K)
  | .one d => .ret d
  | .stack _ => .throw .attribute

def runLoop {S : Type} (stop : S → Bool) (body : S → P K S) : Nat → S → P K S
  | 0, s => .ret s
  | k + 1, s => if stop s then .ret s else (body s).bind (runLoop stop body k)

/-- the script on a rank; all arrays are created with the dtype `dt` -/
noncomputable def run (dt : DType) (prim : ι → Prim K) (c : Ctx K) : Script K σ ι → Vars (DArr K) σ → P K (Vars (DArr K) σ)
  | .pure f, v => (Prog.lift (f v.loc)).bind fun s => .ret { v with loc := s }
  | .dist x b shape entry, v =>
    (toDist c (NDArray.tab (shape v.loc) dt (entry v.loc)) (if b then .broadcast else .scatter) 0 none none).bind fun d => .ret (v.set x d)
  | .gather x g, v => (Prog.lift (v.get x)).bind fun d => (d.asarray c).bind fun a => .ret { v with loc := g a v.loc }
  | .unary op z x, v => (Prog.lift (v.get x)).bind fun d => ((op v.loc).run c dt d).bind fun e => .ret (v.set z e)
  | .binary op z x y, v =>
    (Prog.lift (v.get x)).bind fun d => (Prog.lift (v.get y)).bind fun e => (op.run c d e).bind fun f => .ret (v.set z f)
  | .iadd x y, v => (Prog.lift (v.get x)).bind fun d => (Prog.lift (v.get y)).bind fun e => (d.iadd c e).bind fun f => .ret (v.set x f)
  | .isub x y, v => (Prog.lift (v.get x)).bind fun d => (Prog.lift (v.get y)).bind fun e => (d.isub c e).bind fun f => .ret (v.set x f)
  | .ravel z x, v => (Prog.lift (v.get x)).bind fun d => (d.ravel c).bind fun e => .ret (v.set z e)
  | .dot x y g, v =>
    (Prog.lift (v.get x)).bind fun d => (Prog.lift (v.get y)).bind fun e => (d.dot c e).bind fun s => .ret { v with loc := g s v.loc }
  | .norm x g, v => (Prog.lift (v.get x)).bind fun d => (d.norm c .none none).bind fun s => .ret { v with loc := g s v.loc }
  | .apply i b z x, v => (Prog.lift (v.get x)).bind fun d => (MOp.run c b (.leaf (prim i)) d).bind fun e => .ret (v.set z e)
  | .cg i z y x niter tol g, v =>
    (Prog.lift (v.get y)).bind fun d => (Prog.lift (v.get x)).bind fun e =>
      (CGS.solve c (MOp.toX (.leaf (prim i))) (.one d) (.one e) (some (niter v.loc)) (tol v.loc)).bind fun q =>
        q.1.array.bind fun f => .ret { v.set z f with loc := g q.2.1 q.2.2.1 v.loc }
  | .cgls i z y x niter damp tol g, v =>
    (Prog.lift (v.get y)).bind fun d => (Prog.lift (v.get x)).bind fun e =>
      (CGLSS.solve c (MOp.toX (.leaf (prim i))) (.one d) (.one e) (some (niter v.loc)) (damp v.loc) (tol v.loc)).bind fun q =>
        q.x.array.bind fun f => .ret { v.set z f with loc := g ⟨q.istop, q.iiter, q.r1norm, q.r2norm, q.cost⟩ v.loc }
  | .seq s t, v => (s.run dt prim c v).bind (t.run dt prim c)
  | .ite p s t, v => if p v.loc then s.run dt prim c v else t.run dt prim c v
  | .loop k stop s, v => runLoop (fun v => stop v.loc) (s.run dt prim c) (k v.loc) v

/-! ### with NumPy arrays -/

def _root_.Verif.UnaryOp.fn : UnaryOp K → K → K
  | .neg, a => -a
  | .conj, a => star a
  | .copy, a => a
  | .zeros, _ => 0
  | .smul s, a => a * s

def _root_.Verif.BinaryOp.fn : BinaryOp → K → K → K
  | .add, a, b => a + b
  | .sub, a, b => a - b
  | .mul, a, b => a * b

/-- entry by entry; arrays of different shapes are refused -/
def elementwise (f : K → K → K) (a b : NDArray K) : Except Err (NDArray K) :=
  if a.shape = b.shape then .ok ⟨a.shape, a.dtype, List.zipWith f a.data b.data⟩ else .error .value

def serialLoop {S : Type} (stop : S → Bool) (body : S → Except Err S) : Nat → S → Except Err S
  | 0, s => .ok s
  | k + 1, s => if stop s then .ok s else (body s).bind (serialLoop stop body k)

/-- `z = Op.matvec(x)` or `Op.rmatvec(x)`: vectors of the wrong length are refused -/
def applyTo (dt : DType) (sh : Nat × Nat) (fn : Bool → List K → List K) (b : Bool) (a : NDArray K) : Except Err (NDArray K) :=
  if a.shape = [dimOf sh b] then .ok ⟨[dimOf sh (!b)], dt, fn b a.data⟩ else .error .value

/-- `x * a` -/
def scaleBy (a : ℝ) (x : NDArray K) : NDArray K := ⟨x.shape, x.dtype, x.data.map (· * (a : K))⟩

/-- `np.dot(x, y.conj())` -/
def dotConj (x y : NDArray K) : Except Err K := do
  let e ← elementwise (fun a b => a * star b) x y
  .ok e.data.sum

/-- `np.linalg.norm(x)` -/
noncomputable def norm2 (x : NDArray K) : ℝ := Real.sqrt (x.data.map fun x => ‖x‖ ^ 2).sum

/-- `a / b`, with the given exception for `b = 0` -/
noncomputable def divide {F : Type} [RCLike F] (e : Err) (a b : F) : Except Err F := if b = 0 then .error e else .ok (a / b)

/-- conjugate gradients: the solution so far, the residual, the direction, the squared norm of the residual, the norms and the number of steps -/
structure SerialCG (K : Type) where
  x : NDArray K
  r : NDArray K
  c : NDArray K
  k : ℝ
  cost : List ℝ
  iiter : Nat

/-- `cg` with NumPy arrays: the start -/
noncomputable def SerialCG.start (A : NDArray K → Except Err (NDArray K)) (y x : NDArray K) : Except Err (SerialCG K) := do
  let w ← A x
  let r ← elementwise (· - ·) y w
  let k ← dotConj r r
  .ok ⟨x, r, r, ‖k‖, [Real.sqrt ‖k‖], 0⟩

/-- one step; a division by zero ends the run -/
noncomputable def SerialCG.step (A : NDArray K → Except Err (NDArray K)) (s : SerialCG K) : Except Err (SerialCG K) := do
  let w ← A s.c
  let t ← dotConj s.c w
  let a ← divide .nonfinite s.k ‖t‖
  let x ← elementwise (· + ·) s.x (scaleBy a s.c)
  let r ← elementwise (· - ·) s.r (scaleBy a w)
  let k ← dotConj r r
  let b ← divide .zeroDiv ‖k‖ s.k
  let c ← elementwise (· + ·) r (scaleBy b s.c)
  .ok ⟨x, r, c, ‖k‖, s.cost ++ [Real.sqrt ‖k‖], s.iiter + 1⟩

/-- at most `m` steps, until the squared norm of the residual is at most `tol` -/
noncomputable def SerialCG.steps (A : NDArray K → Except Err (NDArray K)) (tol : ℝ) : Nat → SerialCG K → Except Err (SerialCG K)
  | 0, s => .ok s
  | m + 1, s => if tol < s.k then (s.step A).bind (steps A tol m) else .ok s

/-- conjugate gradients for least squares -/
structure SerialCGLS (K : Type) where
  x : NDArray K
  s : NDArray K
  c : NDArray K
  q : NDArray K
  k : ℝ
  cost : List ℝ
  cost1 : List FNum
  iiter : Nat

/-- `cgls` with NumPy arrays: the start; `A b` is the operator or its adjoint -/
noncomputable def SerialCGLS.start (A : Bool → NDArray K → Except Err (NDArray K)) (damp : ℝ) (y x : NDArray K) : Except Err (SerialCGLS K) := do
  let w ← A false x
  let s ← elementwise (· - ·) y w
  let g ← A true s
  let r ← elementwise (· - ·) g (scaleBy damp x)
  let q ← A false r
  let k ← dotConj r r
  let t ← dotConj x x
  .ok ⟨x, s, r, q, ‖k‖, [norm2 s], [FNum.sqrt (norm2 s ^ 2 + damp * ‖t‖)], 0⟩

/-- one step, with the square of the argument `damp` -/
noncomputable def SerialCGLS.step (A : Bool → NDArray K → Except Err (NDArray K)) (damp2 : ℝ) (s : SerialCGLS K) : Except Err (SerialCGLS K) := do
  let qq ← dotConj s.q s.q
  let cc ← dotConj s.c s.c
  let a ← divide .nonfinite (s.k : K) (qq + (damp2 : K) * cc)
  let x ← elementwise (· + ·) s.x (scaleBy ‖a‖ s.c)
  let s' ← elementwise (· - ·) s.s (scaleBy ‖a‖ s.q)
  let g ← A true s'
  let r ← elementwise (· - ·) g (scaleBy damp2 x)
  let k ← dotConj r r
  let b ← divide .zeroDiv ‖k‖ s.k
  let c ← elementwise (· + ·) r (scaleBy b s.c)
  let q ← A false c
  let t ← dotConj x x
  .ok ⟨x, s', c, q, ‖k‖, s.cost ++ [norm2 s'], s.cost1 ++ [FNum.sqrt (norm2 s' ^ 2 + damp2 * ‖t‖)], s.iiter + 1⟩

noncomputable def SerialCGLS.steps (A : Bool → NDArray K → Except Err (NDArray K)) (damp2 tol : ℝ) : Nat → SerialCGLS K → Except Err (SerialCGLS K)
  | 0, s => .ok s
  | m + 1, s => if tol < s.k then (s.step A damp2).bind (steps A damp2 tol m) else .ok s

/-- the numbers at the end -/
noncomputable def SerialCGLS.numbers (tol : ℝ) (s : SerialCGLS K) : CGLSNumbers :=
  ⟨if s.k < tol then 1 else 2, s.iiter, s.k, s.cost1.getLastD .nan, s.cost⟩

/-- the script with NumPy arrays; `fn i b` is what the operator and its adjoint do -/
noncomputable def serial (dt : DType) (lv : Leaves K ι) : Script K σ ι → Vars (NDArray K) σ → Except Err (Vars (NDArray K) σ)
  | .pure f, v => (f v.loc).bind fun s => .ok { v with loc := s }
  | .dist x _ shape entry, v => if shape v.loc = [] then .error .index else .ok (v.set x (NDArray.tab (shape v.loc) dt (entry v.loc)))
  | .gather x g, v => (v.get x).bind fun a => .ok { v with loc := g a v.loc }
  | .unary op z x, v => (v.get x).bind fun a => .ok (v.set z ⟨a.shape, a.dtype, a.data.map (op v.loc).fn⟩)
  | .binary op z x y, v => (v.get x).bind fun a => (v.get y).bind fun b => (elementwise op.fn a b).bind fun e => .ok (v.set z e)
  | .iadd x y, v => (v.get x).bind fun a => (v.get y).bind fun b => (elementwise (· + ·) a b).bind fun e => .ok (v.set x e)
  | .isub x y, v => (v.get x).bind fun a => (v.get y).bind fun b => (elementwise (· - ·) a b).bind fun e => .ok (v.set x e)
  | .ravel z x, v => (v.get x).bind fun a => .ok (v.set z ⟨[a.shape.prod], a.dtype, a.data⟩)
  | .dot x y g, v =>
    (v.get x).bind fun a => (v.get y).bind fun b => (elementwise (· * ·) a b).bind fun e => .ok { v with loc := g e.data.sum v.loc }
  | .norm x g, v => (v.get x).bind fun a => .ok { v with loc := g ⟨[], .real, [.fin (Real.sqrt (a.data.map fun x => ‖x‖ ^ 2).sum)]⟩ v.loc }
  | .apply i b z x, v => (v.get x).bind fun a => (applyTo dt (lv.sh i) (lv.fn i) b a).bind fun e => .ok (v.set z e)
  | .cg i z y x niter tol g, v =>
    (v.get y).bind fun a => (v.get x).bind fun b =>
      (SerialCG.start (applyTo dt (lv.sh i) (lv.fn i) false) a b).bind fun s =>
        (SerialCG.steps (applyTo dt (lv.sh i) (lv.fn i) false) (tol v.loc) (niter v.loc).toNat s).bind fun s =>
          .ok { v.set z s.x with loc := g s.iiter s.cost v.loc }
  | .cgls i z y x niter damp tol g, v =>
    (v.get y).bind fun a => (v.get x).bind fun b =>
      (SerialCGLS.start (applyTo dt (lv.sh i) (lv.fn i)) (damp v.loc) a b).bind fun s =>
        (SerialCGLS.steps (applyTo dt (lv.sh i) (lv.fn i)) (damp v.loc ^ 2) (tol v.loc) (niter v.loc).toNat s).bind fun s =>
          .ok { v.set z s.x with loc := g (s.numbers (tol v.loc)) v.loc }
  | .seq s t, v => (s.serial dt lv v).bind (t.serial dt lv)
  | .ite p s t, v => if p v.loc then s.serial dt lv v else t.serial dt lv v
  | .loop k stop s, v => serialLoop (fun v => stop v.loc) (s.serial dt lv) (k v.loc) v

/-! ### what the ranks hold -/

/-- a way to hold an array of this shape: scattered along the first axis in any way, or BROADCAST -/
def Held (n : Nat) (shape : List Nat) (L : Layout) : Prop :=
  (L.WF n ∧ L.gshape = shape ∧ L.part = .scatter ∧ L.axis = 0 ∧ L.mask = none) ∨ (shape ≠ [] ∧ L = ⟨shape, .broadcast, 0, fun _ => 0, none⟩)

/-- The ranks hold the parts of the arrays `G`: each array has a layout, every rank has the part of the array that belongs to it, and the rest
    is the same on all ranks. -/
def Holds (n : Nat) (dt : DType) (V : Nat → Vars (DArr K) σ) (G : Vars (NDArray K) σ) : Prop :=
  (∀ r < n, (V r).loc = G.loc) ∧ ∀ x, match G.arr x with
    | none => ∀ r < n, (V r).arr x = none
    | some a => a.dtype = dt ∧ a.data.length = a.shape.prod ∧
        ∃ L, Held n a.shape L ∧ ∀ r < n, (V r).arr x = some (VSpace.vec ⟨L, dt⟩ n a.data r)

/-- an operator that gives the right result or raises, for vectors held in any way -/
def OpOr (n : Nat) (J : Nat → Nat → K) (dt : DType) (p : Nat → Prim K) (sh : Nat × Nat) (fn : Bool → List K → List K) : Prop :=
  (∀ r < n, (p r).shape = sh) ∧ ∀ b X, Held n [dimOf sh b] X → ∃ Y, Held n [dimOf sh (!b)] Y ∧
    ComputesOr n J (fun r c x => if b then (p r).rmv c x else (p r).mv c x) ⟨X, dt⟩ ⟨Y, dt⟩ (fn b)

/-- all operators of a script do so -/
def OpsOr (n : Nat) (J : Nat → Nat → K) (dt : DType) (prim : ι → Nat → Prim K) (lv : Leaves K ι) : Prop :=
  ∀ i, OpOr n J dt (prim i) (lv.sh i) (lv.fn i)

/-- Expressions of operators that may stand in a script: no powers (`A ** p` is wrong, without an exception, for operators whose result has another
    layout than their argument), and no complex scalars in a script with real arrays. -/
def Expression (dt : DType) : MOp K ι → Prop
  | .leaf _ => True
  | .adj A | .trans A | .conj A => Expression dt A
  | .prod A B | .sum A B => Expression dt A ∧ Expression dt B
  | .scaled A s => Expression dt A ∧ (dt = .real → s.dtype = .real)
  | .pow _ _ => False

/-- the same with powers -/
def PowerExpression (dt : DType) : MOp K ι → Prop
  | .leaf _ => True
  | .adj A | .trans A | .conj A | .pow A _ => PowerExpression dt A
  | .prod A B | .sum A B => PowerExpression dt A ∧ PowerExpression dt B
  | .scaled A s => PowerExpression dt A ∧ (dt = .real → s.dtype = .real)

/-- an expression as an operator -/
def exprPrim (prim : ι → Nat → Prim K) (sh : ι → Nat × Nat) (dt : DType) (e : MOp K ι) (r : Nat) : Prim K :=
  ⟨(e.shape sh).1, (e.shape sh).2, dt, fun c x => MOp.run c false (e.map (prim · r)) x, fun c x => MOp.run c true (e.map (prim · r)) x⟩

/-! ### scripts that do not raise -/

/-- a script whose arrays are all in the default layout: no BROADCAST arrays, no `ravel` -/
def Plain : Script K σ ι → Prop
  | .dist _ b _ _ => b = false
  | .ravel _ _ => False
  | .seq s t => s.Plain ∧ t.Plain
  | .ite _ s t => s.Plain ∧ t.Plain
  | .loop _ _ s => s.Plain
  | _ => True

/-- the layout that `to_dist` chooses -/
def standard (n : Nat) (shape : List Nat) : Layout :=
  ⟨shape, .scatter, 0, fun r => if r < len shape 0 % n then len shape 0 / n + 1 else len shape 0 / n, none⟩

/-- the ranks hold the parts of the arrays `G`, all in the default layout -/
def HoldsStandard (n : Nat) (dt : DType) (V : Nat → Vars (DArr K) σ) (G : Vars (NDArray K) σ) : Prop :=
  (∀ r < n, (V r).loc = G.loc) ∧ ∀ x, match G.arr x with
    | none => ∀ r < n, (V r).arr x = none
    | some a => a.dtype = dt ∧ a.data.length = a.shape.prod ∧ a.shape ≠ [] ∧
        ∀ r < n, (V r).arr x = some (VSpace.vec ⟨standard n a.shape, dt⟩ n a.data r)

/-- operators that do not raise for vectors in the default layout, and give the result in that layout -/
def OpsStandard (n : Nat) (J : Nat → Nat → K) (dt : DType) (prim : ι → Nat → Prim K) (lv : Leaves K ι) : Prop :=
  ∀ i, (∀ r < n, (prim i r).shape = lv.sh i) ∧ ∀ b, Computes n J (fun r c x => if b then (prim i r).rmv c x else (prim i r).mv c x)
    ⟨standard n [dimOf (lv.sh i) b], dt⟩ ⟨standard n [dimOf (lv.sh i) (!b)], dt⟩ (lv.fn i b)

end Script
end Verif

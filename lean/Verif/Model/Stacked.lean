/-
  Model of /repo/pylops_mpi/DistributedArray.py, class `StackedDistributedArray`.

  A stacked array is the list of its distributed arrays (attribute `distarrays`); `base_comm` is COMM_WORLD.
  The arrays of one stack are distinct objects.  Not modelled: `__getitem__` and `__setitem__` with index expressions
  other than those used by the methods below, `__repr__`.
-/
import Verif.Model.Norm

namespace Verif
open NDArray

variable {K : Type}

/-- `class StackedDistributedArray` — DistributedArray.py:691-712 -/
abbrev SArr (K : Type) := List (DArr K)

/-- `[f(a) for a in l]`, and loops filling a list -/
def forList {α β : Type} (f : α → P K β) : List α → P K (List β)
  | [] => .ret []
  | a :: l => do
    let b ← f a
    let bs ← forList f l
    .ret (b :: bs)

namespace SArr

/-- `_check_stacked_size` — DistributedArray.py:733-743 -/
def checkSize (x y : SArr K) : P K Unit :=
  if x.length ≠ y.length then .throw .value
  else if x.map (·.gshape) ≠ y.map (·.gshape) then .throw .value
  else .ret ()

section
variable [Field K] [StarRing K]

/-- `asarray` — DistributedArray.py:720-731; `numpy.hstack` of 1-D arrays is `numpy.concatenate` -/
def asarray (c : Ctx K) (x : SArr K) : P K (NDArray K) := do
  let l ← forList (fun d => d.asarray c) x
  Prog.lift (concat 0 (l.map (·.flatten)))

/-- `copy` — DistributedArray.py:845-849 -/
def copy (c : Ctx K) (x : SArr K) : P K (SArr K) := forList (fun d => d.copy c) x

/-- `conj` — DistributedArray.py:839-843 -/
def conj (c : Ctx K) (x : SArr K) : P K (SArr K) := forList (fun d => d.conj c) x

/-- `__neg__` — DistributedArray.py:745-749 -/
def neg (c : Ctx K) (x : SArr K) : P K (SArr K) := do
  let arr ← x.copy c
  forList (fun d => d.setAll c (d.larr.map (- ·))) arr

/-- `add` — DistributedArray.py:769-777 -/
def add (c : Ctx K) (x y : SArr K) : P K (SArr K) := do
  checkSize x y
  let s ← x.copy c
  forList (fun t : DArr K × DArr K × DArr K => do
    let z ← t.2.1.add c t.2.2
    t.1.setAll c z.larr) (s.zip (x.zip y))

/-- `iadd` — DistributedArray.py:779-785 -/
def iadd (c : Ctx K) (x y : SArr K) : P K (SArr K) := do
  checkSize x y
  forList (fun t : DArr K × DArr K => do
    let z ← t.1.add c t.2
    t.1.setAll c z.larr) (x.zip y)

/-- `__sub__` — DistributedArray.py:757-758 -/
def sub' (c : Ctx K) (x y : SArr K) : P K (SArr K) := do
  let m ← y.neg c
  x.add c m

/-- `__isub__` — DistributedArray.py:760-761 -/
def isub (c : Ctx K) (x y : SArr K) : P K (SArr K) := do
  let m ← y.neg c
  x.iadd c m

/-- `multiply` by a stacked array — DistributedArray.py:787-798 -/
def mul (c : Ctx K) (x y : SArr K) : P K (SArr K) := do
  checkSize x y
  let s ← x.copy c
  forList (fun t : DArr K × DArr K × DArr K => do
    let z ← t.2.1.mul c t.2.2
    t.1.setAll c z.larr) (s.zip (x.zip y))

/-- `multiply` by a scalar of dtype `t` — DistributedArray.py:787-802 -/
def smul (c : Ctx K) (x : SArr K) (t : DType) (a : K) : P K (SArr K) := do
  let s ← x.copy c
  forList (fun p : DArr K × DArr K => do
    let z ← p.2.smul c t a
    p.1.setAll c z.larr) (s.zip x)

/-- `dot` — DistributedArray.py:804-811 -/
def dot (c : Ctx K) (x y : SArr K) : P K K := do
  checkSize x y
  let l ← forList (fun p : DArr K × DArr K => p.1.dot c p.2) (x.zip y)
  .ret (l.foldl (· + ·) 0)

end

open Classical in
/-- `numpy.power(t, p)` for a non-negative float `t` and `p ≠ 0` -/
noncomputable def _root_.Verif.FNum.pow (p : ℝ) : FNum → FNum
  | .nan => .nan
  | .inf => if 0 < p then .inf else .fin 0
  | .fin t => if t = 0 then (if 0 < p then .fin 0 else .inf) else .fin (t ^ p)

/-- `numpy.max` / `numpy.min` of a list of floats (ValueError if empty) -/
def extremum (f : FNum → FNum → FNum) : List FNum → Except Err FNum
  | [] => .error .value
  | a :: l => .ok (l.foldl f a)

/-- `ord = 2 if ord is None else ord` -/
noncomputable def _root_.Verif.NormOrd.dflt : NormOrd → NormOrd
  | .none => .num 2
  | o => o

open Classical in
/-- combination of the component norms — DistributedArray.py:822-837 -/
noncomputable def combineNorms (norms : List FNum) (o : NormOrd) : Except Err FNum :=
  match o.dflt with
  | .fro | .nuc | .none => .error .value
  | .num p => if p = 0 then .ok norms.sum else .ok (FNum.root p (norms.map (FNum.pow p)).sum)
  | .inf => extremum FNum.max2 norms
  | .ninf => extremum FNum.min2 norms

/-- `norm` — DistributedArray.py:813-837 (`self.distarrays[0]` raises IndexError on an empty stack) -/
noncomputable def norm [RCLike K] (c : Ctx K) (x : SArr K) (o : NormOrd) : P K FNum :=
  if x = [] then .throw .index else do
    let l ← forList (fun d => d.norm c o none) x
    Prog.lift (combineNorms (l.map fun a => a.data.getD 0 .nan) o)

end SArr
end Verif

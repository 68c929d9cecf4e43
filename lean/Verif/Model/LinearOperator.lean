/-
  Model of /repo/pylops_mpi/LinearOperator.py.

  Local operators (`pylops.LinearOperator`) are arbitrary functions on flat data, `LOp`.
  A distributed operator is an expression `MOp` whose leaves are operators of their own class
  (`Prim`: `_matvec` and `_rmatvec` of that class).  Methods that return `None` (`self.Op` not set) are not
  modelled; `base_comm` is always COMM_WORLD.
-/
import Verif.Model.Decorators

namespace Verif
open NDArray

variable {K : Type}

/-- `pylops.LinearOperator` on one rank: shape, dtype, and the functions computing the forward and
    adjoint products of the flat input data. -/
structure LOp (K : Type) where
  rows : Nat
  cols : Nat
  dtype : DType
  fwd : List K → List K
  adj : List K → List K

namespace LOp

/-- input and output size in the given direction (`true`: adjoint) -/
def inDim (o : LOp K) : Bool → Nat
  | false => o.cols
  | true => o.rows
def outDim (o : LOp K) (b : Bool) : Nat := o.inDim !b
/-- the function applied in the given direction -/
def fn (o : LOp K) : Bool → List K → List K
  | false => o.fwd
  | true => o.adj

/-- `oper.matvec(x)` (`false`) / `oper.rmatvec(x)` (`true`): checks the shape of `x` -/
def apply (o : LOp K) (b : Bool) (x : NDArray K) : Except Err (NDArray K) :=
  if x.shape ≠ [o.inDim b] then .error .value
  else .ok ⟨[o.outDim b], o.dtype.promote x.dtype, o.fn b x.data⟩

/-- `oper.H` -/
def H (o : LOp K) : LOp K := ⟨o.cols, o.rows, o.dtype, o.adj, o.fwd⟩

end LOp

/-- A distributed operator of its own class: shape `(M, N)`, dtype, `_matvec` and `_rmatvec`. -/
structure Prim (K : Type) where
  rows : Nat
  cols : Nat
  dtype : DType
  mv : Ctx K → DArr K → P K (DArr K)
  rmv : Ctx K → DArr K → P K (DArr K)

/-- a Python scalar -/
structure Scal (K : Type) where
  dtype : DType
  val : K

/-- `numpy.conj(alpha)` -/
def Scal.conj [Star K] (s : Scal K) : Scal K := ⟨s.dtype, star s.val⟩

/-- Operator expressions — LinearOperator.py: `_AdjointLinearOperator` (:236), `_TransposedLinearOperator`
    (:252), `_ProductLinearOperator` (:274), `_ScaledLinearOperator` (:297), `_SumLinearOperator` (:327),
    `_PowerLinearOperator` (:355), `_ConjLinearOperator` (:383).  `ℓ` are the leaves. -/
inductive MOp (K : Type) (ℓ : Type)
  | leaf (p : ℓ)
  | adj (A : MOp K ℓ)
  | trans (A : MOp K ℓ)
  | prod (A B : MOp K ℓ)
  | scaled (A : MOp K ℓ) (s : Scal K)
  | sum (A B : MOp K ℓ)
  | pow (A : MOp K ℓ) (p : Nat)
  | conj (A : MOp K ℓ)

namespace MOp
variable {ℓ ℓ' : Type}

/-- replace the leaves -/
def map (f : ℓ → ℓ') : MOp K ℓ → MOp K ℓ'
  | leaf p => leaf (f p)
  | adj A => adj (A.map f)
  | trans A => trans (A.map f)
  | prod A B => prod (A.map f) (B.map f)
  | scaled A s => scaled (A.map f) s
  | sum A B => sum (A.map f) (B.map f)
  | pow A p => pow (A.map f) p
  | conj A => conj (A.map f)

/-- attribute `shape`, given the shapes of the leaves -/
def shape (sh : ℓ → Nat × Nat) : MOp K ℓ → Nat × Nat
  | leaf p => sh p
  | adj A => ((A.shape sh).2, (A.shape sh).1)       -- :242
  | trans A => ((A.shape sh).2, (A.shape sh).1)     -- :258
  | prod A B => ((A.shape sh).1, (B.shape sh).2)    -- :283
  | scaled A _ => A.shape sh                        -- :307
  | sum A _ => A.shape sh                           -- :338
  | pow A _ => A.shape sh                           -- :367
  | conj A => A.shape sh                            -- :391

/-- attribute `dtype`, given the dtypes of the leaves -/
def dtype (dt : ℓ → DType) : MOp K ℓ → DType
  | leaf p => dt p
  | adj A => A.dtype dt
  | trans A => A.dtype dt
  | prod A B => (A.dtype dt).promote (B.dtype dt)
  | scaled A s => (A.dtype dt).promote s.dtype
  | sum A _ => A.dtype dt
  | pow A _ => A.dtype dt
  | conj A => A.dtype dt

end MOp

abbrev Prim.shape (p : Prim K) : Nat × Nat := (p.rows, p.cols)

section
variable [Field K] [StarRing K]

/-- `y[:] *= alpha` — in-place multiplication of the local array (NumPy refuses to multiply a real
    array in place by a complex number), then `__setitem__` — LinearOperator.py:313, 319 -/
def DArr.scaleInPlace (c : Ctx K) (y : DArr K) (s : Scal K) : P K (DArr K) :=
  if y.dtype = .real ∧ s.dtype = .cplx then .throw .type
  else ({ y with larr := ⟨y.larr.shape, y.larr.dtype, y.larr.data.map (· * s.val)⟩ } : DArr K).setAll c
    ⟨y.larr.shape, y.larr.dtype, y.larr.data.map (· * s.val)⟩

/-- `for _ in range(p): res[:] = fun(res).local_array` — LinearOperator.py:371-374 -/
def powLoop (c : Ctx K) (f : DArr K → P K (DArr K)) : Nat → DArr K → P K (DArr K)
  | 0, res => .ret res
  | p + 1, res => do
    let z ← f res
    let res ← res.setAll c z.larr
    powLoop c f p res

/-- the check at the beginning of `matvec` (:71-74) and `rmatvec` (:108-111) -/
def checkDim (sh : Nat × Nat) (b : Bool) (x : DArr K) (k : P K (DArr K)) : P K (DArr K) :=
  if x.gshape ≠ [if b then sh.1 else sh.2] then .throw .value else k

namespace MOp

/-- `matvec` (`false`) and `rmatvec` (`true`) — LinearOperator.py:53-76, 89-113 and the `_matvec`
    and `_rmatvec` of the classes above. -/
def run (c : Ctx K) : Bool → MOp K (Prim K) → DArr K → P K (DArr K)
  | b, leaf p, x => checkDim p.shape b x (if b then p.rmv c x else p.mv c x)
  | b, adj A, x => checkDim ((adj A).shape Prim.shape) b x (A.run c (!b) x)                 -- :245-249
  | b, trans A, x => checkDim ((trans A).shape Prim.shape) b x (do                          -- :261-271
      let x ← x.conj c
      let y ← A.run c (!b) x
      y.conj c)
  | false, prod A B, x => checkDim ((prod A B).shape Prim.shape) false x (do                -- :286-287
      let y ← B.run c false x
      A.run c false y)
  | true, prod A B, x => checkDim ((prod A B).shape Prim.shape) true x (do                  -- :289-290
      let y ← A.run c true x
      B.run c true y)
  | b, scaled A s, x => checkDim ((scaled A s).shape Prim.shape) b x (do                    -- :310-320
      let y ← A.run c b x
      y.scaleInPlace c (if b then s.conj else s))
  | b, sum A B, x => checkDim ((sum A B).shape Prim.shape) b x (do                          -- :340-348
      let y ← A.run c b x
      let z ← B.run c b x
      y.add c z)
  | b, pow A p, x => checkDim ((pow A p).shape Prim.shape) b x (do                          -- :370-380
      let res ← x.copy c
      powLoop c (A.run c b) p res)
  | b, conj A, x => checkDim ((conj A).shape Prim.shape) b x (do                            -- :393-405
      let x ← x.conj c
      let y ← A.run c b x
      y.conj c)

variable {ℓ : Type} (sh : ℓ → Nat × Nat)

/-- `A * B` — LinearOperator.py:140-141, 277-284 -/
def mul (A B : MOp K ℓ) : Except Err (MOp K ℓ) :=
  if (A.shape sh).2 ≠ (B.shape sh).1 then .error .value else .ok (prod A B)

/-- `A + B` — LinearOperator.py:201-202, 331-338 -/
def add (A B : MOp K ℓ) : Except Err (MOp K ℓ) :=
  if A.shape sh ≠ B.shape sh then .error .value else .ok (sum A B)

/-- `-A` — LinearOperator.py:204-205 -/
def neg (A : MOp K ℓ) : MOp K ℓ := scaled A ⟨.real, -1⟩

/-- `A - B` — LinearOperator.py:207-208 -/
def sub (A B : MOp K ℓ) : Except Err (MOp K ℓ) := A.add sh B.neg

/-- `A ** p` — LinearOperator.py:198-199, 359-368 -/
def power (A : MOp K ℓ) (p : Nat) : Except Err (MOp K ℓ) :=
  if (A.shape sh).1 ≠ (A.shape sh).2 then .error .value else .ok (pow A p)

/-- `A.H` — LinearOperator.py:151-163, 210-211 and the `_adjoint` methods :292-294, :322-324, :350-352,
    :407-408 -/
def H : MOp K ℓ → Except Err (MOp K ℓ)
  | prod A B => do
    let bh ← B.H
    let ah ← A.H
    bh.mul sh ah
  | scaled A s => do
    let ah ← A.H
    return scaled ah s.conj
  | sum A B => do
    let ah ← A.H
    let bh ← B.H
    ah.add sh bh
  | conj A => do
    let ah ← A.H
    return conj ah
  | e => .ok (adj e)

end MOp
end
end Verif

/-
  The fragment of NumPy used by PyLops-MPI.

  An array is a shape, a dtype and the flat list of its elements in C order.
  Simplifications: scalars are elements of a field `K` with an involution (`star`, complex
  conjugation): no rounding, no overflow; only two dtypes are distinguished (real / complex);
  axes are non-negative; the memory layout (order, strides, views) is not represented.
-/
import Mathlib.Algebra.Star.Basic
import Mathlib.Algebra.Field.Basic
import Mathlib.Algebra.CharZero.Defs
import Mathlib.Algebra.BigOperators.Group.List.Basic
import Verif.MPI.Prog

namespace Verif

/-- dtype kinds: real floating point / complex floating point. -/
inductive DType | real | cplx
  deriving DecidableEq, Repr

/-- numpy type promotion on the two kinds -/
def DType.promote : DType → DType → DType
  | .real, .real => .real
  | _, _ => .cplx

/-- numpy.ndarray: shape, dtype, flat C-ordered data. -/
structure NDArray (K : Type) where
  shape : List Nat
  dtype : DType
  data : List K
  deriving DecidableEq, Repr

namespace NDArray
variable {K : Type}

/-! #### Chunks of a flat list -/

/-- `o`-th block of width `w` -/
def chunk (w : Nat) (l : List K) (o : Nat) : List K := (l.drop (o * w)).take w

/-- product of the dimensions before / after an axis, and the dimension itself -/
def outer (s : List Nat) (ax : Nat) : Nat := (s.take ax).prod
def len (s : List Nat) (ax : Nat) : Nat := s.getD ax 0
def inner (s : List Nat) (ax : Nat) : Nat := (s.drop (ax + 1)).prod

/-! #### Indexing along an axis -/

/-- flat data of `a[..., lo:hi, ...]` (slice on axis `ax`), bounds clamped as in Python. -/
def sliceData (s : List Nat) (ax lo hi : Nat) (d : List K) : List K :=
  (List.range (outer s ax)).flatMap fun o =>
    ((chunk (len s ax * inner s ax) d o).drop (lo * inner s ax)).take ((hi - lo) * inner s ax)

/-- `a[..., lo:hi, ...]`: basic slicing along axis `ax` (DistributedArray.py:351-353; also
    `numpy.take(a, arange(lo, hi), axis)` for in-range indices, DistributedArray.py:664,677). -/
def slice (a : NDArray K) (ax lo hi : Nat) : NDArray K :=
  { shape := a.shape.set ax (min hi (len a.shape ax) - min lo (len a.shape ax)),
    dtype := a.dtype,
    data := sliceData a.shape ax lo hi a.data }

/-- flat data of `numpy.concatenate` along axis `ax` of pieces with axis lengths `ns` and flat
    data `ds`; `out`/`inn` are the products of the other dimensions. -/
def concatData (out inn : Nat) (ps : List (Nat × List K)) : List K :=
  (List.range out).flatMap fun o => ps.flatMap fun p => chunk (p.1 * inn) p.2 o

/-- `numpy.concatenate(arrays, axis)`: all arrays must have the same dimensions off the axis,
    and there must be at least one, else ValueError. -/
def concat (ax : Nat) (arrays : List (NDArray K)) : Except Err (NDArray K) :=
  match arrays with
  | [] => .error .value
  | a :: _ =>
    if arrays.all (fun b => b.shape.length = a.shape.length ∧ b.shape.set ax 0 = a.shape.set ax 0)
        ∧ ax < a.shape.length then
      .ok { shape := a.shape.set ax (arrays.map fun b => len b.shape ax).sum,
            dtype := arrays.foldl (fun t b => t.promote b.dtype) a.dtype,
            data := concatData (outer a.shape ax) (inner a.shape ax)
              (arrays.map fun b => (len b.shape ax, b.data)) }
    else .error .value

/-! #### Broadcasting -/

/-- Broadcast flat data from shape `src` to shape `tgt` (same number of dimensions). -/
def bcastData : (tgt src : List Nat) → List K → Option (List K)
  | [], [], d => some d
  | n :: tgt, m :: src, d =>
    if m = n then
      ((List.range n).mapM fun i => bcastData tgt src (chunk src.prod d i)).map List.flatten
    else if m = 1 then
      (bcastData tgt src d).map fun e => (List.replicate n e).flatten
    else none
  | _, _, _ => none

/-- Align the shape of an assigned value with a target of `nd` dimensions: leading 1s are
    dropped or added. -/
def alignShape (nd : Nat) (s : List Nat) : List Nat :=
  if s.length ≤ nd then List.replicate (nd - s.length) 1 ++ s
  else if (s.take (s.length - nd)).all (· = 1) then s.drop (s.length - nd) else s

/-- Each axis has the length of the target or length 1. -/
def stretches : (tgt src : List Nat) → Bool
  | [], [] => true
  | n :: tgt, m :: src => (m = n || m = 1) && stretches tgt src
  | _, _ => false

/-- Data of value `v` broadcast to shape `tgt` (ValueError if not broadcastable). -/
def bcastTo (tgt : List Nat) (v : NDArray K) : Except Err (List K) :=
  if stretches tgt (alignShape tgt.length v.shape) then
    match bcastData tgt (alignShape tgt.length v.shape) v.data with
    | some d => .ok d
    | none => .error .value
  else .error .value

/-! #### Casting and assignment -/

section cast
variable [Field K] [StarRing K]

/-- Value stored when assigning `x` to an element of dtype `t`: NumPy discards the imaginary
    part (with a ComplexWarning) when assigning to a real array. -/
def castTo : DType → K → K
  | .real, x => (x + star x) / 2
  | .cplx, x => x

/-- A NumPy index expression, given an array shape, selects a result shape and the flat
    positions addressed (or raises). -/
def Index := List Nat → Except Err (List Nat × List Nat)

/-- the index `[:]` on an array with at least one dimension -/
def Index.all : Index := fun s => .ok (s, List.range s.prod)

/-- write values `vs` at positions `ps`, in order -/
def writeAt : List K → List Nat → List K → List K
  | d, p :: ps, v :: vs => writeAt (d.set p v) ps vs
  | d, _, _ => d

/-- `a[index] = v` with broadcasting and casting. -/
def setIndex (ix : Index) (a v : NDArray K) : Except Err (NDArray K) := do
  let (sh, pos) ← ix a.shape
  let d ← bcastTo sh v
  return { a with data := writeAt a.data pos (d.map (castTo a.dtype)) }

end cast

/-! #### Elementwise operations and reductions -/

/-- a 0-dimensional array (Python/NumPy scalar) -/
def scalar (t : DType) (x : K) : NDArray K := ⟨[], t, [x]⟩

/-- Elementwise binary operation of two arrays of the same shape.  PyLops-MPI compares the
    local shapes before combining two local arrays (`_check_partition_shape`), so broadcasting
    of two arrays with different shapes is not modelled (it raises here). -/
def zip (f : K → K → K) (a b : NDArray K) : Except Err (NDArray K) :=
  if a.shape = b.shape then
    .ok ⟨a.shape, a.dtype.promote b.dtype, List.zipWith f a.data b.data⟩
  else .error .value

/-- Elementwise unary operation. -/
def map (f : K → K) (a : NDArray K) : NDArray K := { a with data := a.data.map f }

/-- `a * s` for a scalar `s` of dtype `t` -/
def smul [Mul K] (a : NDArray K) (t : DType) (s : K) : NDArray K :=
  ⟨a.shape, a.dtype.promote t, a.data.map (· * s)⟩

/-- `a.flatten()` / `numpy.ravel(a)` in C order -/
def flatten (a : NDArray K) : NDArray K := ⟨[a.data.length], a.dtype, a.data⟩

/-- `numpy.dot` of two 1-D arrays (ValueError if the lengths differ) -/
def dot [Mul K] [Zero K] [Add K] (a b : NDArray K) : Except Err K :=
  if a.data.length = b.data.length then .ok (List.zipWith (· * ·) a.data b.data).sum
  else .error .value

/-- Structural well-formedness: as many elements as the shape says. -/
def WF (a : NDArray K) : Prop := a.data.length = a.shape.prod

/-- All elements are representable in dtype `t`. -/
def FitsL [Star K] (t : DType) (d : List K) : Prop := t = .real → ∀ x ∈ d, star x = x

end NDArray
end Verif

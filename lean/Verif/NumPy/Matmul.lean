/-
  The NumPy operations used by MPIFredholm1: squeeze, matmul, dot, transpose, vstack.
-/
import Verif.NumPy.Rows

namespace Verif
namespace NDArray

variable {K : Type}

/-- `a.squeeze()`: axes of length 1 are removed -/
def squeeze (a : NDArray K) : NDArray K := { a with shape := a.shape.filter (· ≠ 1) }

/-- `a[..., numpy.newaxis]` -/
def newaxis (a : NDArray K) : NDArray K := { a with shape := a.shape ++ [1] }

/-- `a[lo:hi]`: IndexError for an array without axes -/
def sliceRows (lo hi : Nat) (a : NDArray K) : Except Err (NDArray K) :=
  if a.shape = [] then .error .index else .ok (slice a 0 lo hi)

/-- `numpy.zeros(s, dtype)` -/
def zerosOf [Zero K] (s : List Nat) (t : DType) : NDArray K := ⟨s, t, List.replicate s.prod 0⟩

section
variable [Zero K] [Add K] [Mul K]

/-- flat data of the product of an `m × k` and a `k × p` matrix -/
def mmData (m k p : Nat) (A B : List K) : List K :=
  (List.range m).flatMap fun i => (List.range p).map fun z => ((List.range k).map fun j => A.getD (i * k + j) 0 * B.getD (j * p + z) 0).sum

/-- `numpy.matmul(A, B)` for a stack `A` of matrices and a stack of as many matrices, or a single matrix, `B`.  Stacks of different lengths
    (which NumPy accepts if one of them has length 1) do not occur. -/
def matmul (A B : NDArray K) : Except Err (NDArray K) :=
  match A.shape, B.shape with
  | [b, m, k], [b', k', p] =>
    if b = b' ∧ k = k' then
      .ok ⟨[b, m, p], A.dtype.promote B.dtype, (List.range b).flatMap fun i => mmData m k p (chunk (m * k) A.data i) (chunk (k * p) B.data i)⟩
    else .error .value
  | [b, m, k], [k', p] =>
    if k = k' then .ok ⟨[b, m, p], A.dtype.promote B.dtype, (List.range b).flatMap fun i => mmData m k p (chunk (m * k) A.data i) B.data⟩
    else .error .value
  | _, _ => .error .value

/-- `numpy.dot(A, B)`: products of matrices, of a matrix and a vector, of a vector and a matrix, and products with a scalar.  (The product
    of two vectors does not occur.) -/
def npDot (A B : NDArray K) : Except Err (NDArray K) :=
  match A.shape, B.shape with
  | [], s => .ok ⟨s, A.dtype.promote B.dtype, B.data.map (A.data.getD 0 0 * ·)⟩
  | s, [] => .ok ⟨s, A.dtype.promote B.dtype, A.data.map (· * B.data.getD 0 0)⟩
  | [m, k], [k', p] => if k = k' then .ok ⟨[m, p], A.dtype.promote B.dtype, mmData m k p A.data B.data⟩ else .error .value
  | [m, k], [k'] => if k = k' then .ok ⟨[m], A.dtype.promote B.dtype, mmData m k 1 A.data B.data⟩ else .error .value
  | [k], [k', p] => if k = k' then .ok ⟨[p], A.dtype.promote B.dtype, mmData 1 k p A.data B.data⟩ else .error .value
  | _, _ => .error .value

end

/-- flat data of the transpose of an `m × p` matrix -/
def trData [Zero K] (m p : Nat) (d : List K) : List K := (List.range p).flatMap fun j => (List.range m).map fun i => d.getD (i * p + j) 0

/-- `a.transpose((0, 2, 1))`: ValueError unless there are three axes -/
def transpose021 [Zero K] (a : NDArray K) : Except Err (NDArray K) :=
  match a.shape with
  | [b, m, p] => .ok ⟨[b, p, m], a.dtype, (List.range b).flatMap fun i => trData m p (chunk (m * p) a.data i)⟩
  | _ => .error .value

/-- `a.T` for at most two axes -/
def tr [Zero K] (a : NDArray K) : NDArray K :=
  match a.shape with
  | [m, p] => ⟨[p, m], a.dtype, trData m p a.data⟩
  | _ => a

/-- `numpy.atleast_2d(a)` -/
def atleast2d (a : NDArray K) : NDArray K :=
  match a.shape with
  | [] => { a with shape := [1, 1] }
  | [m] => { a with shape := [1, m] }
  | _ => a

/-- `numpy.vstack(arrays)` -/
def vstack (arrays : List (NDArray K)) : Except Err (NDArray K) := concat 0 (arrays.map atleast2d)

end NDArray
end Verif

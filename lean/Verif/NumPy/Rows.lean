/-
  NumPy operations on the rows (first axis) of an array, with Python index conventions, as used by the finite-difference
  operators.
-/
import Verif.NumPy.Array

namespace Verif
namespace NDArray

variable {K : Type}

/-- Python slice bound `i` on a sequence of length `m`: negative bounds count from the end, bounds are clamped -/
def pyBound (m : Nat) (i : Int) : Nat := if i < 0 then (m + i).toNat else min i.toNat m

/-- upper bound; `none` is an omitted bound -/
def pyUpper (m : Nat) : Option Int → Nat
  | none => m
  | some i => pyBound m i

/-- the index `[lo:hi]` on the first axis -/
def Index.rows (lo : Int) (hi : Option Int) : Index := fun s =>
  let m := len s 0
  .ok (s.set 0 (pyUpper m hi - pyBound m lo),
    (List.range ((pyUpper m hi - pyBound m lo) * inner s 0)).map (pyBound m lo * inner s 0 + ·))

/-- the index `[i]` on the first axis: IndexError if out of range -/
def Index.row (i : Int) : Index := fun s =>
  if -(len s 0 : Int) ≤ i ∧ i < len s 0 then
    .ok (s.tail, (List.range (inner s 0)).map (pyBound (len s 0) i * inner s 0 + ·))
  else .error .index

section
variable [Zero K]

/-- `a[index]` (the positions an index selects are always within the array) -/
def get (ix : Index) (a : NDArray K) : Except Err (NDArray K) := do
  let (sh, pos) ← ix a.shape
  return ⟨sh, a.dtype, pos.map fun p => a.data.getD p 0⟩

/-- `numpy.zeros((k,) + rest)` (float64): ValueError if `k` is negative -/
def zeroRows (k : Int) (rest : List Nat) : Except Err (NDArray K) :=
  if k < 0 then .error .value else .ok ⟨k.toNat :: rest, .real, List.replicate (k.toNat * rest.prod) 0⟩

end

/-- `a op= v`: NumPy refuses to write complex results into a real array -/
def inplace (f : K → K → K) (a v : NDArray K) : Except Err (NDArray K) :=
  if a.dtype = .real ∧ v.dtype = .cplx then .error .type
  else do
    let d ← bcastTo a.shape v
    return { a with data := List.zipWith f a.data d }

end NDArray
end Verif

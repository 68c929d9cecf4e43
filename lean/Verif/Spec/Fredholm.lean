/-
  Slice-wise matrix products, on one process.
-/
import Verif.Spec.Operators

namespace Verif
open NDArray

variable {K : Type}

/-- flat data of the array with shape `(a, b, c)` and entries `f k i z` -/
def tab3 (a b c : Nat) (f : Nat → Nat → Nat → K) : List K :=
  (List.range a).flatMap fun k => (List.range b).flatMap fun i => (List.range c).map fun z => f k i z

/-- entry `(k, i, z)` of the flat data of an array with shape `(_, b, c)` -/
def entry3 [Zero K] (b c : Nat) (d : List K) (k i z : Nat) : K := d.getD ((k * b + i) * c + z) 0

section
variable [Field K] [StarRing K]

/-- `d(k) = G(k) m(k)` for `T` slices: `G` has shape `(T, nx, ny)`, `m` has shape `(T, ny, nz)` -/
def fredholm (T nx ny nz : Nat) (G m : List K) : List K :=
  tab3 T nx nz fun k i z => ((List.range ny).map fun j => entry3 nx ny G k i j * entry3 ny nz m k j z).sum

/-- `m(k) = G(k)^H d(k)` -/
def fredholmAdj (T nx ny nz : Nat) (G d : List K) : List K :=
  tab3 T ny nz fun k j z => ((List.range nx).map fun i => star (entry3 nx ny G k i j) * entry3 nx nz d k i z).sum

/-- the slices `lo`, …, `lo + cnt - 1` of the flat data of an array with slices of `w` entries -/
def slab (w lo cnt : Nat) (d : List K) : List K := (d.drop (lo * w)).take (cnt * w)

end
end Verif

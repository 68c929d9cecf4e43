/-
  Slice-wise matrix products and multi-dimensional convolution on one process, with arbitrary arithmetic.
-/
import Verif.Model.FloatFredholm
import Verif.Spec.FloatOperators
import Verif.Spec.Fredholm

namespace Verif

variable {K : Type}

/-- slice `k` of the flat data of an array with slices of `w` entries -/
def sliceOf (w : Nat) (d : List K) (k : Nat) : List K := (d.drop (k * w)).take w

namespace MatArith
variable (A : MatArith K)

/-- conjugate transpose of an `m × p` matrix -/
def ctr (m p : Nat) (d : List K) : List K := (List.range (p * m)).map fun q => A.conj (d.getD (q % m * p + q / m) A.zero)

/-- product of an `m × k` and a `k × p` matrix, by `matmul` or `dot`; for `dot`, matrices with one row on the left (with one column on the right) are vectors if `vec` -/
def times (um : Bool) (w : MatCall) (tA tB : DType) (m k p : Nat) (a b : List K) : List K :=
  (List.range (m * p)).map
    (if um then A.mm w tA tB m k p a b
     else A.ndot w tA tB (if w = .plain ∧ m = 1 then [k] else [m, k]) (if w ≠ .plain ∧ p = 1 then [k] else [k, p]) a b)

/-- `G(k) x(k)` -/
def fredFwdSlice (um : Bool) (dG dx : DType) (nx ny nz : Nat) (g x : List K) : List K := A.times um .fwd dG dx nx ny nz g x

/-- `G(k)^H x(k)`: the product with the conjugate transpose of `G(k)` if it has been saved, otherwise the conjugate transpose of `x(k)^H G(k)` -/
def fredAdjSlice (sg um : Bool) (dG dx : DType) (nx ny nz : Nat) (g x : List K) : List K :=
  if sg then A.times um .saved dG dx ny nx nz (A.ctr nx ny g) x
  else A.ctr nz ny (A.times um .plain dx dG nz nx ny (A.ctr nx nz x) g)

/-- the slices of the result one after the other, stored in dtype `dt` (the version with a loop stores each slice once more) -/
def fredholm (sg um : Bool) (dG dt : DType) (T nx ny nz : Nat) (g : List K) (b : Bool) (x : SVec K) : SVec K :=
  ⟨dt, ((List.range T).flatMap fun k =>
      if b then A.fredAdjSlice sg um dG x.dt nx ny nz (sliceOf (nx * ny) g k) (sliceOf (nx * nz) x.v k)
      else A.fredFwdSlice um dG x.dt nx ny nz (sliceOf (nx * ny) g k) (sliceOf (ny * nz) x.v k)).map
    fun y => A.cast dt (if um then y else A.cast dt y)⟩

/-- the kernel that is used -/
def scaled (ps : Bool) (s : K) (g : List K) : List K := if ps then g else g.map (A.mul s)

end MatArith

namespace OpArith
variable (A : OpArith K)

/-- a serial operator on the whole vector; the result is stored in its dtype -/
def serial (o : FOp K) (b : Bool) (x : SVec K) : SVec K := ⟨o.dtype, ((if b then o.adj else o.fwd) x.dt x.v).map (A.cast o.dtype)⟩

end OpArith

namespace MatArith
variable (A : MatArith K)

/-- transform (`F`), keep frequencies (`I`), multiply by the kernel (`Fr`; with conjugations before and after if `cj`), fill up (adjoint of `I1`), transform back (adjoint of `F1`) -/
def mdc (F F1 I I1 : FOp K) (Fr : Bool → SVec K → SVec K) (cj : Bool) (x : SVec K) : SVec K :=
  let fr (y : SVec K) : SVec K := if cj then (Fr false (y.conj A.toArith)).conj A.toArith else Fr false y
  A.serial F1 true (A.serial I1 true (fr (A.serial I false (A.serial F false x))))

/-- the adjoints in reverse order -/
def mdcAdj (F F1 I I1 : FOp K) (Fr : Bool → SVec K → SVec K) (cj : Bool) (x : SVec K) : SVec K :=
  let fr (y : SVec K) : SVec K := if cj then (Fr true (y.conj A.toArith)).conj A.toArith else Fr true y
  A.serial F true (A.serial I true (fr (A.serial I1 false (A.serial F1 false x))))

end MatArith
end Verif

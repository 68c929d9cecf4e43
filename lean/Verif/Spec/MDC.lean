/-
  Multi-dimensional convolution, on one process.
-/
import Verif.Spec.Fredholm
import Verif.Spec.Algebra

namespace Verif
open NDArray

variable {K : Type} [Field K] [StarRing K]

/-- keep the first `N` entries, or add zeros up to `N` entries -/
def toSize (N : Nat) (x : List K) : List K := (List.range N).map fun i => x.getD i 0

/-- the kernel that is used: scaled by `s` unless prescaled, conjugated if `conj` -/
def mdcKernel (prescaled conj : Bool) (s : K) (g : List K) : List K :=
  (if conj then fun x => star x else id) <$> ((if prescaled then fun x => x else fun x => s * x) <$> g)

/-- transform to `nfft` frequencies (`F`), keep the first `T` of them, multiply by the kernel, fill up with zeros and transform back (`F1H`) -/
def mdc (F F1H : List K → List K) (T nfft ns nr nv : Nat) (g x : List K) : List K :=
  F1H (toSize (nfft * ns * nv) (fredholm T ns nr nv g (toSize (T * nr * nv) (F x))))

/-- the same with the adjoints of the factors in reverse order -/
def mdcAdj (FH F1 : List K → List K) (T nfft ns nr nv : Nat) (g y : List K) : List K :=
  FH (toSize (nfft * nr * nv) (fredholmAdj T ns nr nv g (toSize (T * ns * nv) (F1 y))))

/-- twice the real part of the inner product -/
def rip (u v : List K) : K := ip u v + star (ip u v)

/-- The two directions of a local operator are adjoint to each other for the real part of the inner product, when applied to real
    inputs.  (This is what holds for a Fourier transform of real data, whose output for the negative frequencies is not computed.) -/
def LOp.RealAdjoint (o : LOp K) : Prop :=
  ∀ u v, u.length = o.cols → v.length = o.rows → FitsL .real u → rip (o.fwd u) v = rip u (o.adj v)

end Verif

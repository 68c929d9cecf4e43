/-
  MPILaplacian and MPIGradient on global vectors, with arbitrary arithmetic.
-/
import Verif.Model.FloatLaplacian
import Verif.Spec.FloatDerivatives
import Verif.Spec.FloatStacked

namespace Verif

variable {K : Type}

/-- apply `f` to each of `m` consecutive rows of `w` entries -/
def perRow (w : Nat) (f : List K → List K) : Nat → List K → List K
  | 0, _ => []
  | m + 1, d => f (d.take w) ++ perRow w f m (d.drop w)

/-- Serial derivatives along an axis other than the first act on each row (an array of shape `rest`) separately: for all numbers of rows, the operator that is made for this axis, step
    and kind applies `g b t` (`b`: adjoint, `t`: dtype of the argument) to each row. -/
structure ByRows {κ : Type} (sd : FSerial K κ) (rest : List Nat) (edge : Bool) (dt : DType) (g : Bool → DType → List K → List K) (ax : Nat) (s : K) (k : κ) : Prop where
  rows : ∀ m, (sd (m :: rest) ax s k edge dt).rows = m * rest.prod
  cols : ∀ m, (sd (m :: rest) ax s k edge dt).cols = m * rest.prod
  dtype : ∀ m, (sd (m :: rest) ax s k edge dt).dtype = dt
  row : ∀ b t v, v.length = rest.prod → (g b t v).length = rest.prod
  fn : ∀ m b t v, v.length = m * rest.prod → ((sd (m :: rest) ax s k edge dt).on t).fn b v = perRow rest.prod (g b t) m v

namespace OpArith
variable (A : OpArith K)

/-- `g` on each of the `N` rows of a vector; the input has been copied and the result is stored in dtype `dt` -/
def rowsFn (dt : DType) (N w : Nat) (g : DType → List K → List K) (x : SVec K) : SVec K := ⟨dt, (perRow w (g x.dt) N (x.copy A.toArith).v).map (A.cast dt)⟩

/-- a derivative along an axis: the entries `E` for the first axis, otherwise `g` on each row -/
def axisFn (dt : DType) (N : Nat) (rest : List Nat) (ax : Nat) (E : (Nat → K) → Nat → K) (g : DType → List K → List K) (x : SVec K) : SVec K :=
  if ax = 0 then A.along dt N rest E (x.copy A.toArith) else A.rowsFn dt N rest.prod g x

/-- square of a sampling step -/
def sqOf (s : K) : K := match A.pySq s with
  | .ok s2 => s2
  | .error _ => s

/-- second derivative with step `s` and kind `k` (`true`: adjoint) along axis `ax` of an array of shape `N :: rest`; `g` are the derivatives of rows -/
def second (edge : Bool) (dt : DType) (N : Nat) (rest : List Nat) (g : Nat → K → SDKind → Bool → DType → List K → List K) (b : Bool) (ax : Nat) (s : K) (k : SDKind) : SVec K → SVec K :=
  A.axisFn dt N rest ax (fun v p => if b then A.sdEntryAdj dt edge N (A.sqOf s) v p k else A.sdEntry dt edge N (A.sqOf s) v p k) (g ax s k b)

/-- first derivative -/
def first (edge : Bool) (dt : DType) (N : Nat) (rest : List Nat) (g : Nat → K → FDKind → Bool → DType → List K → List K) (b : Bool) (ax : Nat) (s : K) (k : FDKind) : SVec K → SVec K :=
  A.axisFn dt N rest ax (fun v p => if b then A.fdEntryAdj dt edge N s v p k else A.fdEntry dt edge N s v p k) (g ax s k b)

/-- the weighted sum of the second derivatives `(axis, step, kind, weight)`, added from the first to the last -/
def lapSum (edge : Bool) (dt : DType) (N : Nat) (rest : List Nat) (g : Nat → K → SDKind → Bool → DType → List K → List K) (b : Bool) (l : List (Nat × K × SDKind × K)) (x : SVec K) : SVec K :=
  SVec.addAll A.toArith (l.map fun p => (A.second edge dt N rest g b p.1 p.2.1 p.2.2.1 x).scale A.toArith (if b then A.conj p.2.2.2 else p.2.2.2))

end OpArith

/-- the terms `(axis, step, kind, weight)` of MPILaplacian: the kind that is asked for is used for the first of them only -/
def lapTerms (kind : SDKind) (p : Nat × K × Scal K) (l : List (Nat × K × Scal K)) : List (Nat × K × SDKind × Scal K) :=
  (p.1, p.2.1, kind, p.2.2) :: l.map fun p => (p.1, p.2.1, .centered, p.2.2)

/-- an axis of an array of shape `N :: rest`, for which the serial operators act on rows if it is not the first axis -/
def AxisOk {κ : Type} (sd : FSerial K κ) (rest : List Nat) (edge : Bool) (dt : DType) (g : Nat → K → κ → Bool → DType → List K → List K) (ax : Nat) (s : K) (k : κ) : Prop :=
  ax ≤ rest.length ∧ (ax ≠ 0 → ByRows sd rest edge dt (g ax s k) ax s k)

/-- enough rows on the ranks for the second derivative (`true`: its adjoint) along the first axis, and a step whose square can be computed -/
def SecondOk (A : OpArith K) (n N : Nat) (edge b : Bool) (ax : Nat) (s : K) (k : SDKind) : Prop :=
  ax = 0 → (if b then sdRoomAdj k edge n N else sdRoom k edge n N) ∧ ∃ s2, A.pySq s = .ok s2

/-- enough rows for the first derivative along the first axis -/
def FirstOk (n N : Nat) (edge b : Bool) (k : FDKind) : Prop := if b then fdRoomAdj k edge n N else fdRoom k edge n N

end Verif

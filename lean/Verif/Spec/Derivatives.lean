/-
  Finite differences along the first axis of a global array, on one process.
-/
import Verif.Spec.Algebra
import Verif.Model.Derivatives

namespace Verif
open NDArray

variable {K : Type}

/-- flat data of the array with `m` rows of `w` entries, entry `j` of row `i` being `f i j` -/
def tab (m w : Nat) (f : Nat → Nat → K) : List K := (List.range (m * w)).map fun p => f (p / w) (p % w)

/-- entry `j` of row `i` of flat data with rows of `w` entries -/
def entry [Zero K] (w : Nat) (d : List K) (i j : Nat) : K := d.getD (i * w + j) 0

section
variable [Field K]

/-- first difference of `x 0, …, x (N - 1)` at `i` — FirstDerivative.py:60-78; with `edge`, differences of lower order are
    used where the centered stencil does not fit, otherwise the result is zero there (FirstDerivative.py:28-29) -/
def fdAt (k : FDKind) (edge : Bool) (N : Nat) (x : Nat → K) (i : Nat) : K :=
  match k with
  | .forward => if i + 1 < N then x (i + 1) - x i else 0
  | .backward => if 1 ≤ i then x i - x (i - 1) else 0
  | .centered3 =>
    if 1 ≤ i ∧ i + 1 < N then (x (i + 1) - x (i - 1)) / 2
    else if edge then if i = 0 then x 1 - x 0 else x i - x (i - 1)
    else 0
  | .centered5 =>
    if 2 ≤ i ∧ i + 2 < N then (x (i - 2) - 8 * x (i - 1) + 8 * x (i + 1) - x (i + 2)) / 12
    else if edge then
      if i = 0 then x 1 - x 0 else if i + 1 = N then x i - x (i - 1) else (x (i + 1) - x (i - 1)) / 2
    else 0

/-- second difference — SecondDerivative.py:52-68; with `edge`, one-sided at the ends -/
def sdAt (k : SDKind) (edge : Bool) (N : Nat) (x : Nat → K) (i : Nat) : K :=
  match k with
  | .forward => if i + 2 < N then x (i + 2) - 2 * x (i + 1) + x i else 0
  | .backward => if 2 ≤ i then x i - 2 * x (i - 1) + x (i - 2) else 0
  | .centered =>
    if 1 ≤ i ∧ i + 1 < N then x (i + 1) - 2 * x i + x (i - 1)
    else if edge then if i = 0 then x 0 - 2 * x 1 + x 2 else x (i - 2) - 2 * x (i - 1) + x i
    else 0

/-- apply a difference `D` along the first axis (of length `N`), divide by `s` -/
def alongRows (D : (Nat → K) → Nat → K) (s : K) (N w : Nat) (d : List K) : List K :=
  tab N w fun i j => D (fun p => entry w d p j) i / s

/-- apply `f` to each of `m` consecutive blocks of `w` entries -/
def onBlocks (w : Nat) (f : List K → List K) : Nat → List K → List K
  | 0, _ => []
  | m + 1, d => f (d.take w) ++ onBlocks w f m (d.drop w)

/-- apply a difference along the given axis of a global array of shape `dims`, divide by `s`.  The difference depends on the length of the axis. -/
def alongAxis (D : Nat → (Nat → K) → Nat → K) (s : K) : Nat → List Nat → List K → List K
  | _, [], d => d
  | 0, N :: rest, d => alongRows (D N) s N rest.prod d
  | ax + 1, N :: rest, d => onBlocks rest.prod (alongAxis D s ax rest) N d

/-- the serial operator `o` computes a difference along the axis `ax` of arrays of shape `dims`, and its adjoint -/
structure IsDeriv [StarRing K] (o : LOp K) (D : Nat → (Nat → K) → Nat → K) (s : K) (ax : Nat) (dims : List Nat) (dt : DType) : Prop where
  rows : o.rows = dims.prod
  cols : o.cols = dims.prod
  dtype : o.dtype = dt
  fwd : ∀ d, d.length = dims.prod → o.fwd d = alongAxis D s ax dims d
  adj_length : ∀ d, d.length = dims.prod → (o.adj d).length = dims.prod
  adj_real : ∀ d, d.length = dims.prod → FitsL .real d → FitsL .real (o.adj d)
  adj : o.Adjoint

end

/-- `n` ranks have enough rows of the first axis, of length `N`, for the stencil … -/
def fdRoom (k : FDKind) (edge : Bool) (n N : Nat) : Prop :=
  match k with
  | .forward | .backward => n ≤ N
  | .centered3 => (if edge then 2 * n else n) ≤ N
  | .centered5 => (if edge then 3 * n else 2 * n) ≤ N
/-- … and for its adjoint -/
def fdRoomAdj (k : FDKind) (edge : Bool) (n N : Nat) : Prop :=
  match k with
  | .forward | .backward => n ≤ N
  | .centered3 => 2 * n ≤ N ∨ n = 1 ∧ edge = false ∧ 1 ≤ N
  | .centered5 => 4 * n ≤ N ∨ n = 1 ∧ edge = false ∧ 3 ≤ N
def sdRoom (k : SDKind) (edge : Bool) (n N : Nat) : Prop :=
  match k with
  | .forward | .backward => 2 * n ≤ N ∨ n = 1 ∧ 1 ≤ N
  | .centered => (if edge then 3 * n else n) ≤ N
def sdRoomAdj (k : SDKind) (edge : Bool) (n N : Nat) : Prop :=
  match k with
  | .forward | .backward => 2 * n ≤ N ∨ n = 1 ∧ 1 ≤ N
  | .centered => if edge then 3 * n ≤ N else 2 * n ≤ N ∨ n = 1 ∧ 1 ≤ N

/-- weighted sum of second differences of an array with shape `dims`; each entry has an axis, a sampling step, a kind and a weight -/
def laplacian [Field K] (edge : Bool) (dims : List Nat) (l : List (Nat × K × SDKind × K)) (d : List K) : List K :=
  vsum dims.prod (l.map fun p => vscale p.2.2.2 (alongAxis (sdAt p.2.2.1 edge) (p.2.1 ^ 2) p.1 dims d))

/-- first differences of kind `k` of an array with shape `dims` along the axes `ax`, `ax + 1`, …, one after the other; one sampling step per axis -/
def gradient [Field K] (k : FDKind) (edge : Bool) (dims : List Nat) : Nat → List K → List K → List K
  | _, [], _ => []
  | ax, s :: l, d => alongAxis (fdAt k edge) s ax dims d ++ gradient k edge dims (ax + 1) l d

end Verif

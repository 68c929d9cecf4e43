/-
  Model of /repo/pylops_mpi/basicoperators/Laplacian.py (MPILaplacian) and Gradient.py (MPIGradient).

  The serial operators `pylops.SecondDerivative` and `pylops.FirstDerivative` applied by each rank are external: they are
  parameters `sd` and `fd` taking dims, axis, sampling, kind, edge and dtype.  Axes are non-negative (`normalize_axis_index` is
  only modelled as a range check), `dims` is non-empty.
-/
import Verif.Model.Stacking
import Verif.Model.StackedOperator
import Verif.Model.Derivatives

namespace Verif
open NDArray

variable {K : Type} [Field K] [StarRing K]

/-- constructor of a serial derivative operator -/
abbrev Serial (K κ : Type) := List Nat → Nat → K → κ → Bool → DType → LOp K

/-- one summand, without its weight — Laplacian.py:101-123: the distributed operator for axis 0, otherwise a block-diagonal operator with
    one serial operator per rank on the local shape -/
def lapTerm (c : Ctx K) (sd : Serial K SDKind) (dims : List Nat) (edge : Bool) (dt : DType) (ax : Nat) (s : K) (kind : SDKind) : P K (Prim K) :=
  if ax = 0 then .ret (secondDerivative kind ⟨dims, s, edge, dt⟩)
  else mkBlockDiag c [sd (localSplit c dims .scatter 0) ax s kind edge dt] none none

/-- the loop of Laplacian.py:115-123: `kind` is not passed on, so the default "centered" applies -/
def lapLoop (c : Ctx K) (sd : Serial K SDKind) (dims : List Nat) (edge : Bool) (dt : DType) : List (Nat × K × Scal K) → MOp K (Prim K) → P K (MOp K (Prim K))
  | [], e => .ret e
  | (ax, s, w) :: l, e => do
    let p ← lapTerm c sd dims edge dt ax s .centered
    let e ← Prog.lift (e.add Prim.shape (.scaled (.leaf p) w))
    lapLoop c sd dims edge dt l e

/-- `MPILaplacian(dims, axes, weights, sampling, edge, kind, dtype=dtype)` — Laplacian.py:69-124 -/
def mkLaplacian (c : Ctx K) (sd : Serial K SDKind) (dims axes : List Nat) (weights : List (Scal K)) (sampling : List K) (edge : Bool) (kind : SDKind)
    (dt : DType) : P K (Prim K) :=
  if axes.any (dims.length ≤ ·) then .throw .value                                                     -- :79
  else if ¬ (axes.length = weights.length ∧ weights.length = sampling.length) then .throw .value       -- :80-81
  else match axes.zip (sampling.zip weights) with
    | [] => .throw .index
    | (ax, s, w) :: l => do
      let p ← lapTerm c sd dims edge dt ax s kind
      let e ← lapLoop c sd dims edge dt l (.scaled (.leaf p) w)
      .ret { rows := (e.shape Prim.shape).1, cols := (e.shape Prim.shape).2, dtype := dt,
             mv := fun c x => MOp.run c false e x,                                                      -- :92-93
             rmv := fun c x => do
               let h ← Prog.lift (e.H Prim.shape)                                                       -- :95-96
               MOp.run c false h x }

/-- the operators of MPIGradient for the axes `iax`, `iax + 1`, … — Gradient.py:107-117 -/
def gradLoop (c : Ctx K) (fd : Serial K FDKind) (dims : List Nat) (edge : Bool) (kind : FDKind) (dt : DType) : Nat → List K → P K (List (MOp K (Prim K)))
  | _, [] => .ret []
  | iax, s :: l => do
    let p ← mkBlockDiag c [fd (localSplit c dims .scatter 0) iax s kind edge dt] none none
    let ops ← gradLoop c fd dims edge kind dt (iax + 1) l
    .ret (.leaf p :: ops)

/-- `MPIGradient(dims, sampling, edge, kind, dtype=dtype)` — Gradient.py:76-119; `kind` is forward, backward or centered with the
    default order 3.  `sampling` has one entry per axis (further entries are ignored, missing ones raise IndexError). -/
def mkGradient (c : Ctx K) (fd : Serial K FDKind) (dims : List Nat) (sampling : List K) (edge : Bool) (kind : FDKind) (dt : DType) : P K (SOp K (Prim K)) :=
  match sampling.take dims.length with
  | [] => .throw .index
  | s :: l => do
    let ops ← gradLoop c fd dims edge kind dt 1 l
    if l.length + 1 < dims.length then .throw .index
    else do
      let e ← Prog.lift (SOp.mkVStack Prim.shape (.leaf (firstDerivative kind ⟨dims, s, edge, dt⟩) :: ops))
      match e with
      | .vstack l => .ret (.grad l)
      | e => .ret e

end Verif

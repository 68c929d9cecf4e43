/-
  Laplacian.py (MPILaplacian) and Gradient.py (MPIGradient) with arbitrary arithmetic (compare Model/Laplacian.lean, where arithmetic is exact).

  The serial operators `pylops.SecondDerivative` and `pylops.FirstDerivative` are parameters `sd` and `fd` taking dims, axis, sampling, kind, edge and dtype.
-/
import Verif.Model.FloatStacked
import Verif.Model.Laplacian

namespace Verif
open NDArray

variable {K : Type}

/-- constructor of a serial derivative operator -/
abbrev FSerial (K κ : Type) := List Nat → Nat → K → κ → Bool → DType → FOp K

namespace OpArith
variable (A : OpArith K)

/-- one summand, without its weight — Laplacian.py:101-123; see `lapTerm` -/
def lapTerm (c : Ctx K) (sd : FSerial K SDKind) (dims : List Nat) (edge : Bool) (dt : DType) (ax : Nat) (s : K) (kind : SDKind) : P K (Prim K) :=
  if ax = 0 then .ret (A.sdPrim kind ⟨dims, s, edge, dt⟩)
  else A.mkBlockDiag c [sd (localSplit c dims .scatter 0) ax s kind edge dt] none none

/-- the loop of Laplacian.py:115-123: `kind` is not passed on, so the default "centered" applies -/
def lapLoop (c : Ctx K) (sd : FSerial K SDKind) (dims : List Nat) (edge : Bool) (dt : DType) : List (Nat × K × Scal K) → MOp K (Prim K) → P K (MOp K (Prim K))
  | [], e => .ret e
  | (ax, s, w) :: l, e => do
    let p ← A.lapTerm c sd dims edge dt ax s .centered
    let e ← Prog.lift (opAdd Prim.shape e (.scaled (.leaf p) w))
    lapLoop c sd dims edge dt l e

/-- `MPILaplacian(dims, axes, weights, sampling, edge, kind, dtype=dtype)` — Laplacian.py:69-124 -/
def mkLaplacian (c : Ctx K) (sd : FSerial K SDKind) (dims axes : List Nat) (weights : List (Scal K)) (sampling : List K) (edge : Bool) (kind : SDKind)
    (dt : DType) : P K (Prim K) :=
  if axes.any (dims.length ≤ ·) then .throw .value                                                     -- :79
  else if ¬ (axes.length = weights.length ∧ weights.length = sampling.length) then .throw .value       -- :80-81
  else match axes.zip (sampling.zip weights) with
    | [] => .throw .index
    | (ax, s, w) :: l => do
      let p ← A.lapTerm c sd dims edge dt ax s kind
      let e ← A.lapLoop c sd dims edge dt l (.scaled (.leaf p) w)
      .ret { rows := (e.shape Prim.shape).1, cols := (e.shape Prim.shape).2, dtype := dt,
             mv := fun c x => A.run c false e x,                                                        -- :92-93
             rmv := fun c x => do
               let h ← Prog.lift (A.opH Prim.shape e)                                                   -- :95-96
               A.run c false h x }

/-- `MPIStackedVStack(ops)` — VStack.py:173-181 -/
def mkStackedV (ops : List (MOp K (Prim K))) : Except Err (List (MOp K (Prim K))) :=
  match ops with
  | [] => .error .index
  | o :: os => if os.any fun q => (q.shape Prim.shape).2 ≠ (o.shape Prim.shape).2 then .error .value else .ok (o :: os)

/-- the operators of MPIGradient for the axes `iax`, `iax + 1`, … — Gradient.py:107-117 -/
def gradLoop (c : Ctx K) (fd : FSerial K FDKind) (dims : List Nat) (edge : Bool) (kind : FDKind) (dt : DType) : Nat → List K → P K (List (MOp K (Prim K)))
  | _, [] => .ret []
  | iax, s :: l => do
    let p ← A.mkBlockDiag c [fd (localSplit c dims .scatter 0) iax s kind edge dt] none none
    let ops ← gradLoop c fd dims edge kind dt (iax + 1) l
    .ret (.leaf p :: ops)

/-- `MPIGradient(dims, sampling, edge, kind, dtype=dtype)` — Gradient.py:76-119; see `mkGradient` -/
def mkGradient (c : Ctx K) (fd : FSerial K FDKind) (dims : List Nat) (sampling : List K) (edge : Bool) (kind : FDKind) (dt : DType) : P K (SOp K (Prim K)) :=
  match sampling.take dims.length with
  | [] => .throw .index
  | s :: l => do
    let ops ← A.gradLoop c fd dims edge kind dt 1 l
    if l.length + 1 < dims.length then .throw .index
    else do
      let ops ← Prog.lift (mkStackedV (.leaf (A.fdPrim kind ⟨dims, s, edge, dt⟩) :: ops))
      .ret (.grad ops)

end OpArith
end Verif

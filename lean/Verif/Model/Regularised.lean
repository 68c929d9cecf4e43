/-
  Model of the two regularised inversions of /repo/tutorials/poststack.py:183-202, for operators `G` (there `BDiag`) and `R` (there `LapOp`), data `d`,
  weight `eps` (there `epsR`) and starting point `x0`.

  `@` between operators is `__matmul__` → `dot` → `_ProductLinearOperator`; `*` and `@` have the same precedence and associate to the left, so
  `epsR * LapOp.H @ LapOp` is `(epsR * LapOp.H) @ LapOp`.  The weight is a Python float, whose dtype is real.
-/
import Verif.Model.Solvers
import Verif.Model.Laplacian

namespace Verif
open NDArray

variable {K ℓ : Type}

/-- `G.H @ G + eps * R.H @ R` — poststack.py:188 -/
def normalOp [Field K] [StarRing K] (sh : ℓ → Nat × Nat) (G R : MOp K ℓ) (eps : Scal K) : Except Err (MOp K ℓ) := do
  let gh ← G.H sh
  let gg ← gh.mul sh G
  let rh ← R.H sh
  let rr ← (MOp.scaled rh eps).mul sh R
  gg.add sh rr

variable [RCLike K]

/-- `cg(G.H @ G + eps * R.H @ R, G.H @ d, x0, niter, tol)` — poststack.py:188-190 -/
noncomputable def regCG (c : Ctx K) (G R : MOp K (Prim K)) (eps : ℝ) (d x0 : DArr K) (niter : Option Int) (tol : ℝ) : P K (XArr K × Nat × List ℝ × List (XArr K)) := do
  let e ← Prog.lift (normalOp Prim.shape G R ⟨.real, (eps : K)⟩)
  let gh ← Prog.lift (G.H Prim.shape)
  let y ← gh.run c false d
  CGS.solve c e.toX (.one y) (.one x0) niter tol

/-- `cgls(MPIStackedVStack([G, sqrt(eps) * R]), StackedDistributedArray([d, z]), x0, niter, tol=tol)` — poststack.py:196-202; `z` is the zero vector, `damp` is 0 -/
noncomputable def regCGLS (c : Ctx K) (G R : MOp K (Prim K)) (eps : ℝ) (d z x0 : DArr K) (niter : Option Int) (tol : ℝ) : P K (CGLSS.Result K) := do
  let st ← Prog.lift (SOp.mkVStack Prim.shape [G, .scaled R ⟨.real, (Real.sqrt eps : K)⟩])
  CGLSS.solve c st.toX (.stack [d, z]) (.one x0) niter 0 tol

/-- the inversion with the normal equations of poststack.py: `BDiag = MPIBlockDiag(ops)` (:122), `LapOp = MPILaplacian(dims, axes, weights, sampling, dtype=…)` (:186-187) and the
    call of `cg` (:188-190) -/
noncomputable def poststackCG (c : Ctx K) (ops : List (LOp K)) (sd : Serial K SDKind) (dims axes : List Nat) (weights : List (Scal K)) (sampling : List K) (edge : Bool) (kind : SDKind)
    (dt : DType) (eps : ℝ) (d x0 : DArr K) (niter : Option Int) (tol : ℝ) : P K (XArr K × Nat × List ℝ × List (XArr K)) := do
  let g ← mkBlockDiag c ops none none
  let l ← mkLaplacian c sd dims axes weights sampling edge kind dt
  regCG c (.leaf g) (.leaf l) eps d x0 niter tol

/-- the inversion with the regularised equations of poststack.py, with the same operators -/
noncomputable def poststackCGLS (c : Ctx K) (ops : List (LOp K)) (sd : Serial K SDKind) (dims axes : List Nat) (weights : List (Scal K)) (sampling : List K) (edge : Bool) (kind : SDKind)
    (dt : DType) (eps : ℝ) (d z x0 : DArr K) (niter : Option Int) (tol : ℝ) : P K (CGLSS.Result K) := do
  let g ← mkBlockDiag c ops none none
  let l ← mkLaplacian c sd dims axes weights sampling edge kind dt
  regCGLS c (.leaf g) (.leaf l) eps d z x0 niter tol

end Verif

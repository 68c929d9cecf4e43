/-
  Model of one more script of the gallery: /repo/examples/plot_derivative.py.

  The shapes `(nx, ny)` of :36, :64 and :94 are parameters (in the script (11, 21) twice and (12, 21)), and so are the flattened arrays (in the script unit impulses) and the
  serial derivatives of PyLops that MPILaplacian and MPIGradient use on the axes that are not distributed.  Floating-point types are one dtype (`real`), arithmetic is exact.
  The `.reshape(…)` of the gathered NumPy arrays and the plots are left out.  The default arguments of the constructors are written out: sampling 1, centered differences
  (of order 3), `edge=False`, `axes=(-2, -1)` (which `normalize_axis_index` makes (0, 1), Laplacian.py:78).
-/
import Verif.Model.Laplacian
import Verif.Model.Stacked

namespace Verif
open NDArray

variable {K : Type} [Field K] [StarRing K]

/-- `asarray` of a DistributedArray or a StackedDistributedArray — DistributedArray.py:288-304, 720-731 -/
def XArr.asarray (c : Ctx K) : XArr K → P K (NDArray K)
  | .one d => d.asarray c
  | .stack l => SArr.asarray c l

/-- plot_derivative.py:41-43 (and :69-71): `Op @ to_dist(x.flatten())`, gathered -/
def exDerivOne (c : Ctx K) (op : MOp K (Prim K)) (x : NDArray K) : P K (NDArray K) := do
  let xd ← toDist c x .scatter 0 none none                                                          -- :41, :69
  let y ← MOp.run c false op xd                                                                     -- :42, :70
  y.asarray c                                                                                       -- :43, :71

/-- plot_derivative.py:36-139: the arrays `y` of :43, `y` of :71, `ysym`, `yasym`, `y_grad` and `y_grad_adj` -/
def exDerivative (c : Ctx K) (sd : Serial K SDKind) (fd : Serial K FDKind) (dims₁ dims₂ dims₃ : List Nat) (x₁ x₂ x₃ : NDArray K) :
    P K (NDArray K × NDArray K × NDArray K × NDArray K × NDArray K × NDArray K) := do
  let y1 ← exDerivOne c (.leaf (firstDerivative .centered3 ⟨dims₁, 1, false, .real⟩)) x₁            -- :40-43
  let y2 ← exDerivOne c (.leaf (secondDerivative .centered ⟨dims₂, 1, false, .real⟩)) x₂            -- :68-71
  let lsym ← mkLaplacian c sd dims₃ [0, 1] [⟨.real, 1⟩, ⟨.real, 1⟩] [1, 1] false .centered .real    -- :99
  let lasym ← mkLaplacian c sd dims₃ [0, 1] [⟨.real, 3⟩, ⟨.real, 1⟩] [1, 1] false .centered .real   -- :102
  let xd ← toDist c x₃ .scatter 0 none none                                                         -- :104
  let y ← MOp.run c false (.leaf lsym) xd                                                           -- :105
  let ysym ← y.asarray c                                                                            -- :106
  let y ← MOp.run c false (.leaf lasym) xd                                                          -- :107
  let yasym ← y.asarray c                                                                           -- :108
  let gop ← mkGradient c fd dims₃ [1, 1] false .centered3 .real                                     -- :132
  let y ← SOp.run c false gop (.one xd)                                                             -- :134
  let ygrad ← XArr.asarray c y                                                                      -- :136
  let gopH ← Prog.lift (gop.H Prim.shape)                                                           -- :137
  let z ← SOp.run c false gopH y                                                                    -- :137
  let ygradadj ← XArr.asarray c z                                                                   -- :139
  .ret (y1, y2, ysym, yasym, ygrad, ygradadj)

end Verif

/-
  Model of one more script of the gallery: /repo/examples/plot_mdc.py.

  The kernel `Gwav_fft` of :85 and the model `m` of :84 are parameters, and so are the numbers of samples, receivers and frequencies, the sampling step (0.004), the Fourier transform of PyLops
  and `numpy.sqrt`.  Printing, the `.reshape(…)` of the gathered arrays and the plots are left out.  The default arguments of MPIMDC are written out (`saveGt=True, conj=False,
  usematmul=False, prescaled=False`).
-/
import Verif.Model.Tutorials

namespace Verif
open NDArray

variable {K : Type} [RCLike K]

/-- plot_mdc.py:95-128: the arrays `d` and `madj`; the lines :95-103 are those of mdd.py -/
def exMdc (c : Ctx K) (fft : Nat → Nat → Nat → Bool → LOp K) (sqrt : Nat → K) (G : NDArray K) (nt nx nf : Nat) (dt : K) (m : NDArray K) : P K (NDArray K × NDArray K) := do
  let G ← mddKernel c nf G                                                                                    -- :95-103
  let op ← mkMDC c fft sqrt G (2 * nt - 1) 1 nf dt 1 true true false false false                              -- :112-114
  let md ← bcastArr c ((2 * nt - 1) * nx * 1) .real m                                                         -- :117-120
  let dd ← MOp.run c false op.1 md                                                                            -- :122
  let d ← dd.asarray c                                                                                        -- :123
  let oph ← Prog.lift (op.1.H Prim.shape)                                                                     -- :127
  let madjd ← MOp.run c false oph dd
  let madj ← madjd.asarray c                                                                                  -- :128
  .ret (areal d, areal madj)

end Verif

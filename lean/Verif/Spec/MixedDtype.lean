/- Vectors stored with a dtype. -/
import Verif.Spec.Solvers
import Verif.Model.Solvers

namespace Verif
open NDArray

variable {K : Type} [RCLike K]

/-- the vector that is left when `x` is stored in an array of dtype `dt`: arrays of real dtype keep the real parts -/
noncomputable def storeAs {N : Nat} : DType → Vec K N → Vec K N
  | .real, x => WithLp.toLp 2 fun i => (RCLike.re (x i) : K)
  | .cplx, x => x

/-- the space of vectors with layout `L` and dtype `dt` -/
def sp (L : Layout) (dt : DType) : XSpace := .one ⟨L, dt⟩

/-- data of dtype `dy`, start vector of dtype `dx`; the operator gives vectors of dtype `dA`; its quadratic form has values of dtype `dy` -/
structure CGMixed {N : Nat} (n : Nat) (J : Nat → Nat → K) (op : Nat → XOp K) (L : Layout) (dx dy dA : DType) (A : Vec K N → Vec K N) (y x0 : Vec K N) : Prop where
  wf : L.WF n
  mask : L.mask = none
  actsx : Acts n J (fun r => (op r).mv) (sp L dx) (sp L dA) A
  actsy : Acts n J (fun r => (op r).mv) (sp L dy) (sp L dA) A
  y : (sp L dy).Has y
  x0 : (sp L dx).Has x0
  form : ∀ c, (sp L dy).Has c → inner K c (storeAs dy (A c)) = inner K c (A c)

/-- data of complex dtype, start vector of dtype `dx`; the operator and its adjoint give vectors of complex dtype -/
structure CGLSMixed {M N : Nat} (n : Nat) (J : Nat → Nat → K) (op : Nat → XOp K) (L L' : Layout) (dx : DType) (A : Vec K M → Vec K N) (B : Vec K N → Vec K M) (y : Vec K N) (x0 : Vec K M) : Prop where
  wf : L.WF n
  wf' : L'.WF n
  mask : L.mask = none
  mask' : L'.mask = none
  actsx : Acts n J (fun r => (op r).mv) (sp L dx) (sp L' .cplx) A
  acts : Acts n J (fun r => (op r).mv) (sp L .cplx) (sp L' .cplx) A
  ractsy : Acts n J (fun r => (op r).rmv) (sp L' .cplx) (sp L .cplx) B
  y : (sp L' .cplx).Has y
  x0 : (sp L dx).Has x0

/-- a real vector as a vector with entries in `K` -/
noncomputable def ofRealVec {N : Nat} (v : Vec ℝ N) : Vec K N := WithLp.toLp 2 fun i => (v i : K)

end Verif

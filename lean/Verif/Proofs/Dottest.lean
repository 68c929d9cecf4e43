import Verif.Model.Dottest
import Verif.Proofs.Algebra
import Verif.Proofs.Stacking

set_option linter.unusedSectionVars false

namespace Verif
open NDArray

variable {K : Type} [Field K] [StarRing K] [CharZero K] {n : Nat} {J : Nat → Nat → K}

theorem near_refl (n : Nat) (L : Layout) : Near n L L := fun _ _ => ⟨psum_mono _ (by omega), psum_mono _ (by omega)⟩

/-- If the two directions of an operator give `y` and `x`, the dot test compares `⟨y, v⟩` and `⟨u, x⟩`. -/
theorem runs_dotPair {op : Nat → MOp K (Prim K)} {S T S' T' : VSpace} {u v x y : List K} (hS : S.L.WF n) (hT : T.L.WF n) (hS' : S'.L.WF n)
    (hT' : T'.L.WF n) (hu : S.Mem u) (hv : T.Mem v) (hx : S'.Mem x) (hy : T'.Mem y)
    (eS : S'.L.gshape.prod = S.L.gshape.prod) (eT : T'.L.gshape.prod = T.L.gshape.prod)
    (h1 : Runs n (fun r => MOp.run (env n J r) false (op r) (S.vec n u r)) (fun r => .ok (T'.vec n y r)))
    (h2 : Runs n (fun r => MOp.run (env n J r) true (op r) (T.vec n v r)) (fun r => .ok (S'.vec n x r))) :
    Runs n (fun r => dotPair (env n J r) (op r) (S.vec n u r) (T.vec n v r)) (fun _ => .ok (ip y v, ip u x)) := by
  unfold dotPair
  simp only [Prog.bind_eq]
  refine Runs.bind_ok h1 (Runs.bind_ok h2 (Runs.bind_ok (runs_asarray_vec hT' hy) (Runs.bind_ok (runs_asarray_vec hT hv) ?_)))
  have e1 : vdot (⟨T'.L.gshape, T'.dt, y⟩ : NDArray K) ⟨T.L.gshape, T.dt, v⟩ = .ok (ip y v) := by
    unfold vdot; rw [if_neg (by simp [hy.1, hv.1, eT])]; rfl
  have e2 : vdot (⟨S.L.gshape, S.dt, u⟩ : NDArray K) ⟨S'.L.gshape, S'.dt, x⟩ = .ok (ip u x) := by
    unfold vdot; rw [if_neg (by simp [hx.1, hu.1, eS])]; rfl
  rw [e1]
  simp only [Prog.lift_ok, Prog.ret_bind]
  refine Runs.bind_ok (runs_asarray_vec hS hu) (Runs.bind_ok (runs_asarray_vec hS' hx) ?_)
  rw [e2]
  simp only [Prog.lift_ok, Prog.ret_bind]
  exact Runs.ret _

end Verif

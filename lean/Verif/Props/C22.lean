/- C22: dimension mismatch is rejected. -/
import Verif.Proofs.Stacking

namespace Verif
open NDArray

variable {K : Type} [Field K] [StarRing K] {n : Nat}

/-- **C22**.  `matvec` (`b = false`) and `rmatvec` (`b = true`) of any operator expression of shape `(M, N)` raise ValueError on all
    ranks, in all executions, if the global shape of the input is not `(N,)`, respectively `(M,)`.  The leaves are
    arbitrary programs. -/
theorem C22_mismatch (e : Nat → MOp K (Prim K)) (J : Nat → Nat → K) (x : Nat → DArr K) (b : Bool) {M N : Nat}
    (hs : ∀ r < n, (e r).shape Prim.shape = (M, N)) (h : ∀ r < n, (x r).gshape ≠ [if b then M else N]) :
    Always n (fun r => (e r).run (env n J r) b (x r)) (fun _ => .error .value) := by
  refine Runs.always ((Runs.throw fun _ => Err.value).congr (fun r hr => ?_) fun _ _ => rfl)
  have hx := h r hr
  have hsr := hs r hr
  cases he : e r <;> cases b <;> rw [he] at hsr <;> simp only [MOp.shape, Prim.shape] at hsr <;>
    simp only [MOp.run, checkDim, MOp.shape, Prim.shape, hsr] <;> rw [if_pos] <;> simp_all

/-- … and an input of the right shape is not rejected by this check. -/
theorem C22_match (e : MOp K (Prim K)) (c : Ctx K) (x : DArr K) (b : Bool) {M N : Nat} (hs : e.shape Prim.shape = (M, N))
    (h : x.gshape = [if b then M else N]) (k : P K (DArr K)) : checkDim (e.shape Prim.shape) b x k = k := by
  unfold checkDim
  rw [hs, if_neg (by simp [h])]

/-- Non-vacuity: a 3×2 operator and a vector with 3 entries on two ranks. -/
example : Always 2 (fun r => (MOp.leaf (⟨3, 2, .real, fun _ x => .ret x, fun _ x => .ret x⟩ : Prim ℚ)).run (env 2 (fun _ _ => 0) r) false
      (VSpace.vec ⟨.lin 3 fun r => if r = 0 then 2 else 1, .real⟩ 2 [1, 2, 3] r)) (fun _ => .error .value) :=
  C22_mismatch (fun _ => .leaf _) _ _ false (M := 3) (N := 2) (fun _ _ => rfl) (fun r _ => by simp [VSpace.vec, Layout.fam, Layout.lin])

end Verif

/- C02: the default split is a balanced partition. -/
import Verif.Proofs.Array
import Mathlib.Data.Rat.Star

namespace Verif
open NDArray

variable {K : Type}

/-- **C02** (scatter). -/
theorem C02_scatter (n : Nat) (hn : 0 < n) (J : Nat → Nat → K) (g : List Nat) (axis : Nat)
    (hax : axis < g.length) :
    -- the extents along the axis add up to the global extent
    ((List.range n).map fun r => (localSplit (env n J r) g .scatter axis).getD axis 0).sum
        = g.getD axis 0 ∧
    -- they differ by at most one, larger parts first
    (∀ r q, r ≤ q → q < n →
      (localSplit (env n J q) g .scatter axis).getD axis 0
          ≤ (localSplit (env n J r) g .scatter axis).getD axis 0 ∧
      (localSplit (env n J r) g .scatter axis).getD axis 0
          ≤ (localSplit (env n J q) g .scatter axis).getD axis 0 + 1) ∧
    -- all other dimensions are those of the global shape
    (∀ r, (localSplit (env n J r) g .scatter axis).length = g.length ∧
      ∀ i ≠ axis, (localSplit (env n J r) g .scatter axis)[i]? = g[i]?) := by
  have key : ∀ r, localSplit (env n J r) g .scatter axis
      = g.set axis (if r < len g axis % n then len g axis / n + 1 else len g axis / n) := by
    intro r
    unfold localSplit
    simp only [env_rank, env_size, Partition.isBroadcast]
    by_cases h : r < len g axis % n <;> simp [h]
  have kx : ∀ r, (localSplit (env n J r) g .scatter axis).getD axis 0 = balanced (len g axis) n r := by
    intro r
    rw [key]; exact len_set hax
  refine ⟨?_, ?_, ?_⟩
  · simp only [kx]
    rw [← psum_eq_sum, psum_balanced_total _ hn]; rfl
  · intro r q hrq _
    simp only [kx, balanced]
    split_ifs <;> omega
  · intro r
    rw [key]
    exact ⟨by simp, fun i hi => List.getElem?_set_ne (Ne.symm hi)⟩

/-- **C02** (broadcast partitions). -/
theorem C02_broadcast (n : Nat) (J : Nat → Nat → K) (g : List Nat) (axis r : Nat) (part : Partition)
    (hp : part ≠ .scatter) : localSplit (env n J r) g part axis = g := by
  cases part <;> simp_all [localSplit, Partition.isBroadcast]

/-- **C02**, observed on the constructed array: construction without `local_shapes` succeeds and
    gives every rank the balanced shape. -/
theorem C02_constructor [Field K] [StarRing K] [CharZero K] (n : Nat) (hn : 0 < n) (J : Nat → Nat → K) (g : List Nat)
    (part : Partition) (axis : Nat) (hax : axis < g.length) (dt : DType) :
    Always n (fun r => do
        let d ← mkDArr (env n J r) g part axis none none dt
        .ret (d.lshape, d.larr.shape))
      (fun r => .ok (localSplit (env n J r) g part axis, localSplit (env n J r) g part axis)) := by
  have hL : (Layout.mk g part axis (balanced (len g axis) n) none).WF n :=
    ⟨hax, fun _ => psum_balanced_total _ hn, by simp⟩
  refine (Runs.bind_ok (runs_mkDArr_none hL (fun _ => rfl)) ?_).always
  refine Runs.congr (Runs.ret _) (fun _ _ => rfl) (fun r _ => ?_)
  simp only [localSplit_eq]
  rfl

/-- Non-vacuity: 7 entries over 3 ranks. -/
example : (List.range 3).map (fun r => localSplit (env 3 (fun _ _ => (0 : ℚ)) r) [7, 2] .scatter 0)
    = [[3, 2], [2, 2], [2, 2]] := by decide

end Verif

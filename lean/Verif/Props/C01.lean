/- C01: distributing and gathering an array is the identity. -/
import Verif.Spec.Shapes
import Mathlib.Data.Rat.Star

namespace Verif
open NDArray

variable {K : Type} [Field K] [StarRing K] [CharZero K]

theorem roundtrip_aux {n : Nat} {J : Nat → Nat → K} {L : Layout} {x : NDArray K} (hL : L.WF n)
    (hsh : x.shape = L.gshape) (hx : x.WF) :
    Runs n (fun r => (L.fam n x.dtype (L.piece x.data) r).asarray (env n J r)) (fun _ => .ok x) := by
  have hd : x.data.length = L.gshape.prod := by rw [← hsh]; exact hx
  have hx' : (⟨L.gshape, x.dtype, x.data⟩ : NDArray K) = x := by rw [← hsh]
  by_cases hb : L.part.isBroadcast = true
  · refine Runs.congr (runs_asarray_bcast hb) (fun _ _ => rfl) (fun r _ => ?_)
    simp only [Layout.piece, if_pos hb, hx']
  · refine Runs.congr (runs_asarray hL (isBroadcast_false hb)) (fun _ _ => rfl) (fun r _ => ?_)
    rw [Layout.global, global_piece hL hd, hx']

/-- **C01** (custom local shapes).  For every array `x`, partition, axis, mask and valid
    `local_shapes`, on any number of ranks and whatever the contents of uninitialised memory,
    every execution of `to_dist` followed by `asarray` returns `x` on every rank. -/
theorem C01_roundtrip_shapes (n : Nat) (J : Nat → Nat → K) (x : NDArray K) (part : Partition)
    (axis : Nat) (ls : List (List Nat)) (mask : Option (List Nat))
    (hx : x.WF) (hf : FitsL x.dtype x.data) (hax : axis < x.shape.length)
    (hls : ValidShapes n x.shape part axis ls) (hm : ∀ m, mask = some m → n ≤ m.length) :
    Always n (fun r => do
        let d ← toDist (env n J r) x part axis (some ls) mask
        d.asarray (env n J r))
      (fun _ => .ok x) := by
  have hL := hls.wf (mask := mask) hax hm
  have h1 := runs_toDist (J := J) hL (x := x) rfl hx hf
  rw [hls.lshape] at h1
  exact (Runs.bind_ok h1 (roundtrip_aux hL rfl hx)).always

/-- **C01** (default local shapes). -/
theorem C01_roundtrip_default (n : Nat) (J : Nat → Nat → K) (x : NDArray K) (part : Partition)
    (axis : Nat) (mask : Option (List Nat))
    (hx : x.WF) (hf : FitsL x.dtype x.data) (hax : axis < x.shape.length)
    (hm : ∀ m, mask = some m → n ≤ m.length) :
    Always n (fun r => do
        let d ← toDist (env n J r) x part axis none mask
        d.asarray (env n J r))
      (fun _ => .ok x) := by
  rcases Nat.eq_zero_or_pos n with rfl | hn
  · exact Runs.of_zero.always
  have hL : (Layout.mk x.shape part axis (balanced (len x.shape axis) n) mask).WF n :=
    ⟨hax, fun _ => psum_balanced_total _ hn, hm⟩
  have h1 := runs_toDist_none (J := J) hL (x := x) (fun _ => rfl) rfl hx hf
  exact (Runs.bind_ok h1 (roundtrip_aux hL rfl hx)).always

/-- Non-vacuity: a 2×3 array scattered along axis 1 over three ranks, one of which gets nothing. -/
example : Always 3 (fun r => do
      let d ← toDist (env 3 (fun r i => (r + i : ℚ)) r) ⟨[2, 3], .real, [1, 2, 3, 4, 5, 6]⟩ .scatter 1
        (some [[2, 2], [2, 0], [2, 1]]) (some [0, 1, 0])
      d.asarray (env 3 (fun r i => (r + i : ℚ)) r))
    (fun _ => .ok ⟨[2, 3], .real, [1, 2, 3, 4, 5, 6]⟩) := by
  apply C01_roundtrip_shapes
  · rfl
  · intro _ x _; rfl
  · decide
  · refine ⟨rfl, by simp, fun _ s hs => ?_, fun _ => rfl⟩
    simp only [List.mem_cons, List.not_mem_nil, or_false] at hs
    rcases hs with rfl | rfl | rfl <;> refine ⟨rfl, fun i hi => ?_⟩ <;>
      match i, hi with
      | 0, _ => rfl
      | i + 2, _ => rfl
  · rintro m ⟨⟩; decide

end Verif

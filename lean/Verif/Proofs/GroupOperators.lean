/- `MPIBlockDiag` on arrays with a mask: each group of ranks applies the block-diagonal matrix of its own blocks. -/
import Verif.Proofs.Groups
import Verif.Proofs.SolverExample

set_option linter.unusedSectionVars false

namespace Verif
open NDArray

variable {K : Type} [RCLike K] {n : Nat} {J : Nat → Nat → K} {b : Bool} {ops : Nat → List (LOp K)} {dx dt : DType} {mask : Option (List Nat)}

/-- the blocks of the ranks of colour `γ`, in rank order -/
def groupOps (L : Layout) (n : Nat) (ops : Nat → List (LOp K)) (γ : Nat) : List (LOp K) := ((List.range n).filter fun q => L.color q = γ).flatMap ops

theorem groupOps_eq (L : Layout) (n : Nat) (ops : Nat → List (LOp K)) (γ : Nat) : groupOps L n ops γ = allOps n fun q => if L.color q = γ then ops q else [] := by
  unfold groupOps allOps
  induction n with
  | zero => rfl
  | succ k ih =>
    rw [List.range_succ, List.filter_append, List.flatMap_append, List.flatMap_append, ih]
    congr 1
    by_cases h : L.color k = γ <;> simp [h]

theorem psum_group (b : Bool) (n : Nat) (ops : Nat → List (LOp K)) (γ k : Nat) :
    psum (fun q => inSum b (if (inL b n ops mask).color q = γ then ops q else [])) k = (inL b n ops mask).gsize γ k := by
  induction k with
  | zero => simp [psum, Layout.gsize]
  | succ k ih =>
    rw [gsize_succ, psum, ih, lshape_lin]
    congr 1
    split_ifs <;> simp [inSum]

theorem color_inL (b c : Bool) : (inL b n ops mask).color = (inL c n ops mask).color := rfl

theorem blockDiag_gpiece (hok : ∀ o ∈ allOps n ops, o.Ok b dx dt) {x : Nat → List K} {r : Nat} (hr : r < n)
    (hx : (x ((inL b n ops mask).color r)).length = (inL b n ops mask).gsize ((inL b n ops mask).color r) n) :
    (inL (!b) n ops mask).gpiece (fun γ => blockDiag b (groupOps (inL b n ops mask) n ops γ) (x γ)) r = blockDiag b (ops r) ((inL b n ops mask).gpiece x r) := by
  set γ := (inL b n ops mask).color r with hγ
  have hγ' : (inL (!b) n ops mask).color r = γ := rfl
  have hok' : ∀ o ∈ allOps n (fun q => if (inL b n ops mask).color q = γ then ops q else []), o.Ok b dx dt := fun o ho => by
    simp only [allOps, List.mem_flatMap] at ho
    obtain ⟨q, hq, ho⟩ := ho
    split_ifs at ho
    · exact hok o (by simp only [allOps, List.mem_flatMap]; exact ⟨q, hq, ho⟩)
    · simp at ho
  have h := blockDiag_part (b := b) hok' (d := x γ) (by rw [hx, inSum_allOps, psum_group]) hr
  have e : (if (inL b n ops mask).color r = γ then ops r else []) = ops r := if_pos rfl
  simp only [e] at h
  rw [psum_group] at h
  have e2 : psum (fun q => outSum b (if (inL b n ops mask).color q = γ then ops q else [])) r = (inL (!b) n ops mask).gsize γ r := psum_group (!b) n ops γ r
  rw [e2] at h
  unfold Layout.gpiece
  rw [hγ', ← hγ, lshape_lin, lshape_lin]
  simp only [List.prod_cons, List.prod_nil, Nat.mul_one]
  rw [groupOps_eq]
  exact h

theorem length_flat {a : Nat → List K} {s : Nat → Nat} (h : ∀ r < n, (a r).length = s r) : ((List.range n).flatMap a).length = psum s n := by
  induction n with
  | zero => simp [psum]
  | succ k ih => rw [List.range_succ, List.flatMap_append, List.length_append, ih fun r hr => h r (by omega), psum]; simp [h k (by omega)]

theorem part_flat {a : Nat → List K} {s : Nat → Nat} (h : ∀ r < n, (a r).length = s r) {r : Nat} (hr : r < n) :
    (((List.range n).flatMap a).drop (psum s r)).take (s r) = a r := by
  obtain ⟨k, rfl⟩ : ∃ k, n = r + (1 + k) := ⟨n - r - 1, by omega⟩
  rw [List.range_add, List.flatMap_append, ← length_flat (fun q hq => h q (by omega)), List.drop_left, Nat.add_comm 1 k, List.range_succ_eq_map]
  simp only [List.map_cons, List.flatMap_cons, Nat.add_zero]
  rw [← h r hr, List.take_left]

/-- **MPIBlockDiag with a mask.** -/
theorem gacts_blockDiag {M N : Nat → Nat} {A : ∀ γ, Vec K (M γ) → Vec K (N γ)} (hok : ∀ o ∈ allOps n ops, o.Ok b dx dt) (hne : ∀ r < n, ops r ≠ [])
    (hm : ∀ m, mask = some m → n ≤ m.length) (hA : ∀ r < n, ∀ v, FitsL dx (toL v) → toL (A ((inL b n ops mask).color r) v) = blockDiag b (groupOps (inL b n ops mask) n ops ((inL b n ops mask).color r)) (toL v)) :
    GActs n J (fun r => (MOp.toX (.leaf (bdPrim n ops mask dt r))).dir b) ⟨inL b n ops mask, dx⟩ ⟨inL (!b) n ops mask, dt⟩ A := by
  intro x hx
  let L := inL b n ops mask
  let L' := inL (!b) n ops mask
  let px := L.gpiece fun γ => toL (x γ)
  let d := (List.range n).flatMap px
  have hlen : ∀ r < n, (px r).length = inSum b (ops r) := fun r hr => by
    have := length_gpiece (L := L) (x := fun γ => toL (x γ)) hr (hx r hr).1
    rw [lshape_lin] at this
    simpa using this
  have hd : d.length = inSum b (allOps n ops) := by rw [length_flat hlen, inSum_allOps]
  have hfd : FitsL dx d := fun h z hz => by
    obtain ⟨q, hq, hz⟩ := List.mem_flatMap.1 hz
    exact (hx q (by simpa using hq)).2 h z (List.mem_of_mem_drop (List.mem_of_mem_take hz))
  have hpx : ∀ r < n, L.piece d r = px r := fun r hr => by
    rw [show L.piece d r = _ from piece_lin (inSum_allOps b n ops).symm hd r, part_flat hlen hr]
  have hok' : ∀ γ, ∀ o ∈ groupOps L n ops γ, o.Ok b dx dt := fun γ o ho => by
    simp only [groupOps, List.mem_flatMap, List.mem_filter] at ho
    obtain ⟨q, hq, ho⟩ := ho
    exact hok o (by simp only [allOps, List.mem_flatMap]; exact ⟨q, hq.1, ho⟩)
  have hin : ∀ r < n, inSum b (groupOps L n ops (L.color r)) = (toL (x (L.color r))).length := fun r hr => by
    rw [(hx r hr).1, groupOps_eq, inSum_allOps, psum_group]
  have hgl : ∀ r < n, (toL (A (L.color r) (x (L.color r)))).length = L'.gsize (L.color r) n := fun r hr => by
    rw [hA r hr _ (hx r hr).2, length_blockDiag (hok' _) (hin r hr).le, groupOps_eq]
    exact (inSum_allOps (!b) n _).trans (psum_group (!b) n ops _ n)
  have hpiece : ∀ r < n, L'.piece (blockDiag b (allOps n ops) d) r = L'.gpiece (fun γ => toL (A γ (x γ))) r := fun r hr => by
    rw [show L'.piece _ r = _ from piece_lin (inSum_allOps (!b) n ops).symm (length_blockDiag hok hd.ge) r]
    refine (blockDiag_part hok hd hr).trans ?_
    rw [part_flat hlen hr]
    have e : L'.gpiece (fun γ => toL (A γ (x γ))) r = L'.gpiece (fun γ => blockDiag b (groupOps L n ops γ) (toL (x γ))) r := by
      have : toL (A (L'.color r) (x (L'.color r))) = blockDiag b (groupOps L n ops (L'.color r)) (toL (x (L'.color r))) := hA r hr _ (hx r hr).2
      unfold Layout.gpiece
      simp only [this]
    rw [e]
    exact (blockDiag_gpiece hok (x := fun γ => toL (x γ)) hr (hx r hr).1).symm
  refine ⟨fun r hr => ⟨hgl r hr, ?_⟩, ?_⟩
  · show FitsL dt (toL (A (L.color r) (x (L.color r))))
    rw [hA r hr _ (hx r hr).2]
    exact fits_blockDiag (hok' _) (hin r hr).le (hx r hr).2
  · let lv : Leaves K Unit := ⟨fun _ => (inSum true (allOps n ops), inSum false (allOps n ops)), fun _ b => blockDiag b (allOps n ops)⟩
    have ht := typed_blockDiag (lv := lv) (J := J) (n := n) (prim := fun _ => bdPrim n ops mask dt) (i := ()) (b := b) (dx := dx) (dt := dt) (ops := ops) (fun _ => rfl) rfl rfl hok hne hm
    have h2 := (typed_computes (e := .leaf ()) ht d ⟨by simpa [Layout.lin] using hd, hfd⟩).2.runs
    refine ((Runs.map_ok XArr.one h2).congr (fun r hr => ?_) fun r hr => ?_).always
    · have : VSpace.vec ⟨L, dx⟩ n d r = VSpace.gvec ⟨L, dx⟩ n (fun γ => toL (x γ)) r := fam_congr (hpx r hr)
      show _ = XOp.dir _ b _ (.one (VSpace.gvec ⟨L, dx⟩ n (fun γ => toL (x γ)) r))
      rw [← this]
      cases b <;> rfl
    · have : VSpace.vec ⟨L', dt⟩ n (blockDiag b (allOps n ops) d) r = VSpace.gvec ⟨L', dt⟩ n (fun γ => toL (A γ (x γ))) r := fam_congr (hpiece r hr)
      show Except.ok (XArr.one (VSpace.vec ⟨L', dt⟩ n (blockDiag b (allOps n ops) d) r)) = _
      rw [this]
      rfl

end Verif

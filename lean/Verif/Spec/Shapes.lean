/- Specification of valid `local_shapes` arguments, independent of the model. -/
import Verif.Spec.Layout
import Verif.Proofs.Array

namespace Verif
open NDArray

/-- `ls` is a valid `local_shapes` argument: one shape per rank; for a broadcast partition each
    equals the global shape; for SCATTER the shapes agree with the global shape off the axis and
    their extents along the axis sum to the global extent. -/
structure ValidShapes (n : Nat) (gshape : List Nat) (part : Partition) (axis : Nat)
    (ls : List (List Nat)) : Prop where
  count : ls.length = n
  bcast : part ≠ .scatter → ∀ s ∈ ls, s = gshape
  dims : part = .scatter → ∀ s ∈ ls, s.length = gshape.length ∧ ∀ i ≠ axis, s[i]? = gshape[i]?
  sum : part = .scatter → (ls.map fun s => s.getD axis 0).sum = gshape.getD axis 0

/-- the layout described by a list of local shapes -/
def Layout.ofShapes (gshape : List Nat) (part : Partition) (axis : Nat) (ls : List (List Nat))
    (mask : Option (List Nat)) : Layout :=
  ⟨gshape, part, axis, fun r => (ls.getD r []).getD axis 0, mask⟩

theorem ValidShapes.lshape {n gshape part axis ls mask} (h : ValidShapes n gshape part axis ls) :
    (List.range n).map (Layout.ofShapes gshape part axis ls mask).lshape = ls := by
  apply List.ext_getElem (by simp [h.count])
  intro r h1 h2
  have hget : ls.getD r [] = ls[r] := by simp [List.getD_eq_getElem?_getD, h2]
  simp only [List.getElem_map, List.getElem_range]
  by_cases hp : part = .scatter
  · rw [lshape_scatter hp]
    obtain ⟨h3, h4⟩ := h.dims hp ls[r] (List.getElem_mem h2)
    apply List.ext_getElem?
    intro i
    simp only [Layout.ofShapes, hget]
    by_cases hi : i = axis
    · subst hi
      rw [List.getElem?_set_self', List.getD_eq_getElem?_getD]
      by_cases hlt : i < gshape.length
      · rw [List.getElem?_eq_getElem hlt, List.getElem?_eq_getElem (by omega)]; rfl
      · rw [List.getElem?_eq_none (by omega), List.getElem?_eq_none (by omega)]; rfl
    · rw [List.getElem?_set_ne (Ne.symm hi), h4 i hi]
  · have hb : part.isBroadcast = true := by cases part <;> simp_all [Partition.isBroadcast]
    rw [lshape_bcast hb]
    exact (h.bcast hp _ (List.getElem_mem h2)).symm

theorem ValidShapes.wf {n gshape part axis ls} {mask : Option (List Nat)} (h : ValidShapes n gshape part axis ls)
    (hax : axis < gshape.length) (hm : ∀ m, mask = some m → n ≤ m.length) :
    (Layout.ofShapes gshape part axis ls mask).WF n := by
  refine ⟨hax, fun hp => ?_, hm⟩
  have := h.sum hp
  unfold len Layout.ofShapes
  rw [← this, psum_eq_sum]
  congr 1
  apply List.ext_getElem (by simp [h.count])
  intro r h1 h2
  have h3 : r < ls.length := by simpa using h2
  simp [List.getD_eq_getElem?_getD, h3]

end Verif

/- C19: the constructor validates custom local shapes. -/
import Verif.Proofs.History
import Mathlib.Data.Rat.Star

namespace Verif
open NDArray

set_option linter.unusedSectionVars false

variable {K : Type} [Field K] [StarRing K] [CharZero K] {n : Nat} {J : Nat → Nat → K}

theorem eraseIdx_eq_iff {s g : List Nat} {axis : Nat} (hs : axis < s.length) (hg : axis < g.length) :
    s.eraseIdx axis = g.eraseIdx axis ↔ s.length = g.length ∧ ∀ i ≠ axis, s[i]? = g[i]? := by
  constructor
  · intro e1
    have e2 : s.length = g.length := by
      have := congrArg List.length e1
      rw [List.length_eraseIdx, List.length_eraseIdx, if_pos hs, if_pos hg] at this
      omega
    refine ⟨e2, fun i hi => ?_⟩
    rcases Nat.lt_or_gt_of_ne hi with hlt' | hgt
    · have := congrArg (·[i]?) e1
      simpa [List.getElem?_eraseIdx, hlt'] using this
    · have := congrArg (·[i - 1]?) e1
      have h5 : ¬ i - 1 < axis := by omega
      have h6 : i - 1 + 1 = i := by omega
      simpa [List.getElem?_eraseIdx, h5, h6] using this
  · rintro ⟨_, h⟩
    apply List.ext_getElem?
    intro i
    simp only [List.getElem?_eraseIdx]
    split_ifs with h1
    · exact h i (by omega)
    · exact h (i + 1) (by omega)

/-- The local shapes are acceptable to rank `r`: one shape per rank; broadcast: the rank's own shape
    is the global shape; SCATTER: the extents along the axis sum to the global extent and the
    rank's own shape agrees with the global shape on all other axes. -/
def ShapesOkOn (n : Nat) (gshape : List Nat) (part : Partition) (axis : Nat) (ls : List (List Nat)) (r : Nat) : Prop :=
  ls.length = n ∧
  (part ≠ .scatter → ls.getD r [] = gshape) ∧
  (part = .scatter → (ls.map fun s => s.getD axis 0).sum = gshape.getD axis 0 ∧
    (ls.getD r []).length = gshape.length ∧ ∀ i ≠ axis, (ls.getD r [])[i]? = gshape[i]?)

/-- **C19** (axis).  An axis out of range raises IndexError on every rank. -/
theorem C19_axis_out_of_range (g : List Nat) (part : Partition) (axis : Nat) (lso : Option (List (List Nat)))
    (mask : Option (List Nat)) (dt : DType) (h : g.length ≤ axis) :
    Always n (fun r => mkDArr (env n J r) g part axis lso mask dt) (fun _ => .error .index) := by
  refine (Runs.congr (Runs.throw fun _ => .index) (fun r _ => ?_) (fun _ _ => rfl)).always
  rw [mkDArr, if_pos h]

open Classical in
/-- **C19** (local shapes), partial.  Construction with a non-empty list of local shapes raises
    ValueError on exactly the ranks to which the shapes are not acceptable; on the others it returns
    an array with the requested local shape.  Missing: SCATTER with a local shape that has no
    dimension `axis` (see `C19_short_shape`: that rank raises IndexError, not ValueError). -/
theorem C19_local_shapes_partial (g : List Nat) (part : Partition) (axis : Nat) (ls : List (List Nat))
    (mask : Option (List Nat)) (dt : DType) (hax : axis < g.length) (hne : ls ≠ [])
    (hm : ∀ m, mask = some m → n ≤ m.length)
    (hdim : part = .scatter → ∀ s ∈ ls, axis < s.length) :
    Always n (fun r => do
        let d ← mkDArr (env n J r) g part axis (some ls) mask dt
        .ret (d.gshape, d.part, d.axis, d.mask, d.lshape, d.larr.shape))
      (fun r => if ShapesOkOn n g part axis ls r then
        .ok (g, part, axis, mask, ls.getD r [], ls.getD r []) else .error .value) := by
  apply Runs.always
  unfold mkDArr
  simp only [if_neg (Nat.not_le.2 hax), Prog.bind_eq, Option.getD_some, Prog.bind_assoc, if_neg hne]
  refine Runs.bind_ok (runs_mkSub (L := Layout.mk g part axis (fun _ => 0) mask) (J := J) hm) ?_
  have hcheck : Runs n (fun r => checkLocalShapes (env n J r) g part axis ls)
      (fun r => if ShapesOkOn n g part axis ls r then .ok () else .error .value) := by
    unfold checkLocalShapes
    simp only [if_neg hne, env_size, env_rank]
    by_cases hlen : ls.length = n
    swap
    · simp only [ne_eq, hlen, not_false_eq_true, if_true]
      refine Runs.congr (Runs.throw fun _ => .value) (fun _ _ => rfl) (fun r _ => ?_)
      rw [if_neg (fun h => hlen h.1)]
    simp only [ne_eq, hlen, not_true_eq_false, if_false]
    by_cases hb : part.isBroadcast = true
    · have hns : part ≠ .scatter := by rintro rfl; simp [Partition.isBroadcast] at hb
      simp only [if_pos hb]
      refine Runs.congr (Runs.lift _) (fun r _ => ?_) (fun _ _ => rfl)
      by_cases h : ls.getD r [] = g
      · have : ShapesOkOn n g part axis ls r := ⟨hlen, fun _ => h, fun hp => absurd hp hns⟩
        simp only [this, if_true, h, not_true_eq_false, if_false]; rfl
      · have : ¬ ShapesOkOn n g part axis ls r := fun h' => h (h'.2.1 hns)
        simp only [this, if_false, h, not_false_eq_true, if_true]; rfl
    · have hp := isBroadcast_false hb
      simp only [if_neg hb]
      have hget : ∀ r (hr : r < n), ls.getD r [] = ls[r]'(by omega) := by
        intro r hr; simp [List.getD_eq_getElem?_getD, hlen, hr]
      have hlt : ∀ r < n, axis < (ls.getD r []).length := by
        intro r hr; rw [hget r hr]; exact hdim hp _ (List.getElem_mem _)
      have hsum : psum (fun r => (ls.getD r []).getD axis 0) n = (ls.map fun s => s.getD axis 0).sum := by
        rw [psum_eq_sum]
        congr 1
        apply List.ext_getElem (by simp [hlen])
        intro r h1 h2
        have h3 : r < n := by simpa using h1
        simp only [List.getElem_map, List.getElem_range, hget r h3]
      refine Runs.congr (ps := fun r => ((allreduce (env n J r).world (fun a b => .ok (a + b)) ((ls.getD r []).getD axis 0)).bind
        fun tot => if tot ≠ len g axis ∨ (ls.getD r []).eraseIdx axis ≠ g.eraseIdx axis
          then .throw .value else .ret ())) (runs_allreduce_nat (J := J) (v := fun r => (ls.getD r []).getD axis 0) (Runs.lift (M := Msg K) (n := n)
            (fun r => if ShapesOkOn n g part axis ls r then .ok () else .error .value) |>.congr
            (fun r hr => ?_) (fun _ _ => rfl))) ?_ (fun _ _ => rfl)
      · rw [hsum]
        have e : ShapesOkOn n g part axis ls r ↔
            ((ls.map fun s => s.getD axis 0).sum = len g axis ∧ (ls.getD r []).eraseIdx axis = g.eraseIdx axis) := by
          rw [eraseIdx_eq_iff (hlt r hr) hax]
          constructor
          · intro h; exact ⟨(h.2.2 hp).1, (h.2.2 hp).2⟩
          · intro h; exact ⟨hlen, fun h' => absurd hp h', fun _ => h⟩
        by_cases h : ShapesOkOn n g part axis ls r
        · have h' := e.1 h
          rw [if_pos h, if_neg]
          · rfl
          · rintro (h1 | h1)
            · exact h1 h'.1
            · exact h1 h'.2
        · have h' := mt e.2 h
          rw [if_neg h, if_pos]
          · rfl
          · rcases not_and_or.1 h' with h1 | h1
            · exact .inl h1
            · exact .inr h1
      · intro r hr
        have : (ls.getD r [])[axis]? = some ((ls.getD r []).getD axis 0) := by
          rw [List.getD_eq_getElem?_getD (l := ls.getD r []), List.getElem?_eq_getElem (hlt r hr)]; rfl
        simp only [this]; rfl
  refine Runs.bind hcheck ?_
  refine Runs.congr (Runs.lift _) (fun r _ => ?_) (fun _ _ => rfl)
  by_cases h : ShapesOkOn n g part axis ls r
  · simp [h, emptyArr]
  · simp [h]

/-- The case excluded above: on two ranks, SCATTER along axis 1 of shape (1, 2) with local shapes
    (1, 1) and (1): rank 1 raises IndexError and rank 0 waits forever. -/
theorem C19_short_shape :
    Ends 2 (fun r => do
        let d ← mkDArr (env 2 (fun _ _ => (0 : ℚ)) r) [1, 2] .scatter 1 (some [[1, 1], [1]]) none .real
        .ret d.lshape)
      (fun r => if r = 0 then none else some (.error .index)) := by
  refine Ends.of_blocked .refl fun r hr => ?_
  match r, hr with
  | 0, _ =>
    right
    refine ⟨.allreduce, [0, 1], _, _, rfl, 1, by simp, ?_⟩
    intro v' k' h
    cases h
  | 1, _ => rfl

/-- Non-vacuity: shapes acceptable to rank 0 but not to rank 1; and shapes acceptable to both. -/
example : ShapesOkOn 2 [3, 2] .scatter 0 [[1, 2], [2, 5]] 0 ∧ ¬ ShapesOkOn 2 [3, 2] .scatter 0 [[1, 2], [2, 5]] 1 ∧
    ∀ r < 2, ShapesOkOn 2 [3, 2] .scatter 0 [[1, 2], [2, 2]] r := by
  refine ⟨⟨rfl, by simp, fun _ => ⟨rfl, rfl, fun i hi => ?_⟩⟩, fun h => ?_, fun r hr => ⟨rfl, by simp, fun _ => ⟨rfl, ?_, fun i hi => ?_⟩⟩⟩
  · match i, hi with
    | 1, _ => rfl
    | i + 2, _ => simp
  · have := (h.2.2 rfl).2.2 1 (by decide)
    simp at this
  · match r, hr with
    | 0, _ => rfl
    | 1, _ => rfl
  · match r, hr, i, hi with
    | 0, _, 1, _ => rfl
    | 0, _, i + 2, _ => simp
    | 1, _, 1, _ => rfl
    | 1, _, i + 2, _ => simp

end Verif

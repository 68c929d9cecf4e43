/-
  The finite-difference methods on blocks of rows: every rank obtains its rows of the serial result.
-/
import Verif.Proofs.Stencil
import Verif.Spec.Derivatives
import Verif.Proofs.UnifyIdx

namespace Verif
open NDArray
set_option linter.unusedSectionVars false

variable {K : Type} [Field K] [StarRing K] [CharZero K]
variable {n N : Nat} {J : Nat → Nat → K} {rest : List Nat} {sizes : Nat → Nat} {dt dx : DType} {F : Nat → Nat → K} {s : K} {edge : Bool}

theorem feq {a b j : Nat} (h : a = b) : F a j = F b j := by rw [h]

theorem fit_glob (hF : Fit dx F) (r : Nat) : Fit dx (glob sizes F r) := fun h i j => hF h _ _

/-- length of a block -/
macro "blklen" hs:term:max h:term:max : tactic => `(tactic| (
  intro r hr
  have hp := pos_rows $hs $h hr
  obtain ⟨h1, h2, h3, h4, h5, h6, h7⟩ := hp
  simp only [pf, pb, gf, gb, Option.getD]
  split_ifs <;> omega))

theorem star_ofNat' (m : Nat) [m.AtLeastTwo] : star (OfNat.ofNat m : K) = OfNat.ofNat m := by simp

theorem runs_fdMvForward (hs : psum sizes n = N) (hN : 1 ≤ N) (hc : n = 1 ∨ ∀ r < n, 1 ≤ sizes r) (hdt : dt = .real → dx = .real) (hF : Fit dx F)
    (hsr : star s = s) :
    Runs n (fun r => fdMvForward (env n J r) ⟨N :: rest, s, edge, dt⟩ (rfam n N rest sizes dx (glob sizes F) r))
      (fun r => .ok (rfam n N rest sizes dt (glob sizes fun p j => fdAt .forward edge N (fun q => F q j) p / s) r)) := by
  unfold fdMvForward
  simp only [Prog.bind_eq]
  refine Runs.bind_ok (runs_newLike hs) ?_
  refine Runs.bind_ok (runs_stencil hs (room_rows hc (by simp) (by simp)) combines_diff1 (by simp) (by simp)) ?_
  simp only [map_rows]
  refine (runs_set_rows _ (fun r hr => ?_) (fun r h i j => ?_) ?_).congr (fun _ _ => rfl) fun r hr => ?_
  · exact length_junk r
  · have := fit_blk (n := n) (sizes := sizes) (front := none) (back := some 1) (k := 1) (kf := none) hF (ψ := fun g i j => g (1 + i) j - g (0 + i) j)
      (fun g hg i j => by simp [hg]) r (hdt h) i j
    rw [star_div₀, this, hsr]
  · blklen hs hc
  · congr 1
    refine rfam_congr fun i hi j _ => ?_
    congr 1
    obtain ⟨h1, h2, h3, h4, h5, h6, h7⟩ := pos_rows (sizes := sizes) hs hc hr
    simp only [blk, pf, gf, gb, Option.getD, fdAt, glob]
    split_ifs <;> first | omega | rfl | exact congrArg₂ _ (feq (by omega)) (feq (by omega))


/-- transposed first difference -/
def fdAdj (k : FDKind) (edge : Bool) (N : Nat) (v : Nat → K) (p : Nat) : K :=
  match k with
  | .forward => (if 1 ≤ p then v (p - 1) else 0) - if p + 1 < N then v p else 0
  | .backward => (if 1 ≤ p then v p else 0) - if p + 1 < N then v (p + 1) else 0
  | .centered3 => 1 / 2 * (if 2 ≤ p then v (p - 1) else 0) - 1 / 2 * (if p + 2 < N then v (p + 1) else 0)
      + if edge then
        (if p = 1 then v 0 else 0) - (if p = 0 then v 0 else 0) + (if p + 1 = N then v (N - 1) else 0) - (if p + 2 = N then v (N - 1) else 0) else 0
  | .centered5 => 1 / 12 * (if p + 4 < N then v (p + 2) else 0) - 2 / 3 * (if 1 ≤ p ∧ p + 3 < N then v (p + 1) else 0)
      + 2 / 3 * (if 3 ≤ p ∧ p + 1 < N then v (p - 1) else 0) - 1 / 12 * (if 4 ≤ p then v (p - 2) else 0)
      + if edge then
        (if p = 1 then v 0 else 0) - (if p = 0 then v 0 else 0) + (if p + 1 = N then v (N - 1) else 0) - (if p + 2 = N then v (N - 1) else 0)
          + 1 / 2 * ((if p = 2 then v 1 else 0) - (if p = 0 then v 1 else 0) + (if p + 1 = N then v (N - 2) else 0) - (if p + 3 = N then v (N - 2) else 0)) else 0

theorem pyUpper_m1 (m : Nat) : pyUpper m (some (-1)) = m - 1 := pyUpper_neg m 1 (by omega)
theorem pyUpper_m2 (m : Nat) : pyUpper m (some (-2)) = m - 2 := pyUpper_neg m 2 (by omega)
theorem pyUpper_none (m : Nat) : pyUpper m none = m := rfl
theorem pyBound_0 (m : Nat) : pyBound m 0 = 0 := rfl
theorem pyBound_1 (m : Nat) : pyBound m 1 = min 1 m := pyBound_nat m 1
theorem pyBound_2 (m : Nat) : pyBound m 2 = min 2 m := pyBound_nat m 2
theorem pyBound_m1 (m : Nat) : pyBound m (-1) = m - 1 := pyBound_neg m 1 (by omega)
theorem pyBound_m2 (m : Nat) : pyBound m (-2) = m - 2 := pyBound_neg m 2 (by omega)
theorem pyBound_m3 (m : Nat) : pyBound m (-3) = m - 3 := pyBound_neg m 3 (by omega)

theorem hop_add : dt = .real → ∀ a b : K, star a = a → star b = b → star (a + b) = a + b := fun _ a b ha hb => by rw [star_add, ha, hb]
theorem hop_sub : dt = .real → ∀ a b : K, star a = a → star b = b → star (a - b) = a - b := fun _ a b ha hb => by rw [star_sub, ha, hb]

theorem runs_fdRmvForward (hs : psum sizes n = N) (hN : 1 ≤ N) (hc : n = 1 ∨ ∀ r < n, 1 ≤ sizes r) (hdt : dt = .real → dx = .real) (hF : Fit dx F)
    (hsr : star s = s) :
    Runs n (fun r => fdRmvForward (env n J r) ⟨N :: rest, s, edge, dt⟩ (rfam n N rest sizes dx (glob sizes F) r))
      (fun r => .ok (rfam n N rest sizes dt (glob sizes fun p j => fdAdj .forward edge N (fun q => F q j) p / s) r)) := by
  unfold fdRmvForward
  simp only [Prog.bind_eq]
  refine Runs.bind_ok (runs_newLike hs) ?_
  refine Runs.bind_ok (runs_zero _ fun r _ => length_junk r) ?_
  obtain ⟨e1, f1⟩ := runs_addPart (n := n) (N := N) (J := J) (rest := rest) (sizes := sizes) (f := fun _ _ _ => (0 : K)) hdt hop_sub (fun r h i j => star_zero _) (fit_glob (sizes := sizes) hF)
    (fun r => decide (r = n - 1)) 0 (some (-1))
  refine Runs.bind_ok e1 ?_
  obtain ⟨e2, f2⟩ := runs_accum (N := N) (J := J) (rest := rest) hs (room_rows hc (front := some 1) (back := none) (by simp) (by simp)) (combines_part 0 (some (-1)) id 1 (fun m => by rw [pyUpper_m1]; omega))
    (kf := some 1) (kb := none) (by simp) (by simp) hdt hop_add f1 hF (fun g hg i j => hg _ _) (by blklen hs hc)
  refine Runs.bind_ok e2 ?_
  refine (runs_divide (fun _ => hsr) f2).congr (fun _ _ => rfl) fun r hr => ?_
  congr 1
  refine rfam_congr fun i hi j _ => ?_
  refine congrArg (· / s) ?_
  obtain ⟨h1, h2, h3, h4, h5, h6, h7⟩ := pos_rows (sizes := sizes) hs hc hr
  have hb : blk n sizes (some 1) none 1 (some 1) (fun g i j => id (g (0 + i) j)) F r i j
      = if 1 ≤ psum sizes r + i then F (psum sizes r + i - 1) j else 0 := by
    simp only [blk, pf, gf, gb, Option.getD, id]
    split_ifs <;> first | omega | rfl | exact feq (by omega)
  rw [hb]
  have ht : (if decide (r = n - 1) = true → pyBound (sizes r) 0 ≤ i ∧ i < pyUpper (sizes r) (some (-1)) then
      0 - glob sizes F r i j else 0) = - if psum sizes r + i + 1 < N then F (psum sizes r + i) j else 0 := by
    simp only [pyUpper_m1, decide_eq_true_eq, pyBound_0, glob, imp_iff_not_or]
    split_ifs <;> first | omega | (simp; done)
  rw [ht]
  simp only [fdAdj, glob]
  ring


theorem runs_fdMvBackward (hs : psum sizes n = N) (hN : 1 ≤ N) (hc : n = 1 ∨ ∀ r < n, 1 ≤ sizes r) (hdt : dt = .real → dx = .real) (hF : Fit dx F)
    (hsr : star s = s) :
    Runs n (fun r => fdMvBackward (env n J r) ⟨N :: rest, s, edge, dt⟩ (rfam n N rest sizes dx (glob sizes F) r))
      (fun r => .ok (rfam n N rest sizes dt (glob sizes fun p j => fdAt .backward edge N (fun q => F q j) p / s) r)) := by
  unfold fdMvBackward
  simp only [Prog.bind_eq]
  refine Runs.bind_ok (runs_newLike hs) ?_
  refine Runs.bind_ok (runs_stencil hs (room_rows hc (by simp) (by simp)) combines_diff1 (by simp) (by simp)) ?_
  simp only [map_rows]
  refine (runs_set_rows _ (fun r hr => length_junk r) (fun r h i j => ?_) (by blklen hs hc)).congr (fun _ _ => rfl) fun r hr => ?_
  · have := fit_blk (n := n) (sizes := sizes) (front := some 1) (back := none) (k := 1) (kf := some 1) hF (ψ := fun g i j => g (1 + i) j - g (0 + i) j)
      (fun g hg i j => by simp [hg]) r (hdt h) i j
    rw [star_div₀, this, hsr]
  · congr 1
    refine rfam_congr fun i hi j _ => ?_
    congr 1
    obtain ⟨h1, h2, h3, h4, h5, h6, h7⟩ := pos_rows (sizes := sizes) hs hc hr
    simp only [blk, pf, gf, gb, Option.getD, fdAt, glob]
    split_ifs <;> first | omega | rfl | (unify_idx F; ring1)

theorem runs_fdRmvBackward (hs : psum sizes n = N) (hN : 1 ≤ N) (hc : n = 1 ∨ ∀ r < n, 1 ≤ sizes r) (hdt : dt = .real → dx = .real) (hF : Fit dx F)
    (hsr : star s = s) :
    Runs n (fun r => fdRmvBackward (env n J r) ⟨N :: rest, s, edge, dt⟩ (rfam n N rest sizes dx (glob sizes F) r))
      (fun r => .ok (rfam n N rest sizes dt (glob sizes fun p j => fdAdj .backward edge N (fun q => F q j) p / s) r)) := by
  unfold fdRmvBackward
  simp only [Prog.bind_eq]
  refine Runs.bind_ok (runs_newLike hs) ?_
  refine Runs.bind_ok (runs_zero _ fun r _ => length_junk r) ?_
  obtain ⟨e1, f1⟩ := runs_accum (N := N) (J := J) (rest := rest) hs (room_rows hc (front := none) (back := some 1) (by simp) (by simp)) (combines_part 1 none id 1 (fun m => by rw [pyUpper_none]; omega))
    (kf := none) (kb := some 1) (by simp) (by simp) hdt hop_sub (f := fun _ _ _ => (0 : K)) (fun r h i j => star_zero _) hF (fun g hg i j => hg _ _) (by blklen hs hc)
  refine Runs.bind_ok e1 ?_
  obtain ⟨e2, f2⟩ := runs_addPart (n := n) (N := N) (J := J) (rest := rest) (sizes := sizes) hdt hop_add f1 (fit_glob (sizes := sizes) hF)
    (fun r => decide (r = 0)) 1 none
  refine Runs.bind_ok e2 ?_
  refine (runs_divide (fun _ => hsr) f2).congr (fun _ _ => rfl) fun r hr => ?_
  congr 1
  refine rfam_congr fun i hi j _ => ?_
  refine congrArg (· / s) ?_
  obtain ⟨h1, h2, h3, h4, h5, h6, h7⟩ := pos_rows (sizes := sizes) hs hc hr
  have hb : blk n sizes none (some 1) 1 none (fun g i j => id (g (1 + i) j)) F r i j
      = if psum sizes r + i + 1 < N then F (psum sizes r + i + 1) j else 0 := by
    simp only [blk, pf, gf, gb, Option.getD, id]
    split_ifs <;> first | omega | rfl | exact feq (by omega)
  rw [hb]
  simp only [pyUpper_none, decide_eq_true_eq, pyBound_1, glob, imp_iff_not_or, fdAdj]
  split_ifs <;> first | omega | ring

/-- enough rows at both ends for the rows computed by `edge` -/
def EdgeRoom (n : Nat) (sizes : Nat → Nat) (edge : Bool) (c : Nat) : Prop := edge = true → ∀ r < n, r = 0 ∨ r = n - 1 → c ≤ sizes r

theorem pos_edge (hs : psum sizes n = N) {c : Nat} (he : EdgeRoom n sizes edge c) (h : edge = true) {r : Nat} (hr : r < n) :
    (r ≠ 0 → c ≤ psum sizes r) ∧ (r ≠ n - 1 → psum sizes r + sizes r + c ≤ N) := by
  constructor
  · intro h0
    have h1 := he h 0 (by omega) (Or.inl rfl)
    have h2 : psum sizes 1 ≤ psum sizes r := psum_mono _ (by omega)
    have h3 : psum sizes 1 = 0 + sizes 0 := rfl
    omega
  · intro h0
    have h1 := he h (n - 1) (by omega) (Or.inr rfl)
    have h2 : psum sizes (r + 1) ≤ psum sizes (n - 1) := psum_mono _ (by omega)
    have h3 : psum sizes (r + 1) = psum sizes r + sizes r := rfl
    have h4 : psum sizes (n - 1 + 1) = psum sizes (n - 1) + sizes (n - 1) := rfl
    rw [show n - 1 + 1 = n by omega, hs] at h4
    omega

theorem runs_fdMvCentered3 (hs : psum sizes n = N) (hN : 1 ≤ N) (hc : n = 1 ∨ ∀ r < n, 1 ≤ sizes r) (he : EdgeRoom n sizes edge 2)
    (hdt : dt = .real → dx = .real) (hF : Fit dx F) (hsr : star s = s) :
    Runs n (fun r => fdMvCentered3 (env n J r) ⟨N :: rest, s, edge, dt⟩ (rfam n N rest sizes dx (glob sizes F) r))
      (fun r => .ok (rfam n N rest sizes dt (glob sizes fun p j => fdAt .centered3 edge N (fun q => F q j) p / s) r)) := by
  unfold fdMvCentered3
  simp only [Prog.bind_eq]
  refine Runs.bind_ok (runs_newLike hs) ?_
  have hN' : ((len (N :: rest) 0 : Nat) : Int) = N := by simp [len]
  refine Runs.bind_ok (runs_stencil hs (room_rows hc (by simp) (by simp)) combines_cent3 (by simp) (kb := some (min ((N : Int) - 1) 1)) (by simp; omega)) ?_
  have f0 : ∀ r, Fit dt (blk n sizes (some 1) (some 1) 2 (some 1) (fun g i j => 1 / 2 * (g (2 + i) j - g (0 + i) j)) F r) := fun r h => 
    fit_blk (n := n) (sizes := sizes) (front := some 1) (back := some 1) (k := 2) (kf := some 1) hF (fun g hg i j => by simp [hg]) r (hdt h)
  refine Runs.bind_ok (runs_set_rows _ (fun r hr => length_junk r) f0 (by blklen hs hc)) ?_
  obtain ⟨e1, f1⟩ := runs_setRow (n := n) (N := N) (J := J) (rest := rest) (sizes := sizes) hdt f0 (fit_glob (sizes := sizes) hF)
    (fun r => decide (edge = true ∧ r = 0)) 0 [(1, 1), (-1, 0)] (by simp) (by simp) (fun r hr h => by
      have h' := of_decide_eq_true h
      have := he h'.1 r hr (by first | exact Or.inl h'.2 | exact Or.inr h'.2)
      simp; omega)
  refine Runs.bind_ok e1 ?_
  obtain ⟨e2, f2⟩ := runs_setRow (n := n) (N := N) (J := J) (rest := rest) (sizes := sizes) hdt f1 (fit_glob (sizes := sizes) hF)
    (fun r => decide (edge = true ∧ r = n - 1)) (-1) [(1, -1), (-1, -2)] (by simp) (by simp) (fun r hr h => by
      have h' := of_decide_eq_true h
      have := he h'.1 r hr (by first | exact Or.inl h'.2 | exact Or.inr h'.2)
      simp; omega)
  refine Runs.bind_ok e2 ?_
  refine (runs_divide (fun _ => hsr) f2).congr (fun _ _ => rfl) fun r hr => ?_
  congr 1
  refine rfam_congr fun i hi j _ => ?_
  refine congrArg (· / s) ?_
  obtain ⟨h1, h2, h3, h4, h5, h6, h7⟩ := pos_rows (sizes := sizes) hs hc hr
  have he' := fun h => he h r hr
  simp only [blk, pf, gf, gb, Option.getD, fdAt, glob, decide_eq_true_eq, pyBound_0, pyBound_1, pyBound_m1, pyBound_m2, comb, List.map_cons, List.map_nil, List.sum_cons, List.sum_nil]
  cases edge
  · simp only [Bool.false_eq_true, false_and, if_false]
    split_ifs <;> first | omega | rfl | (unify_idx F; ring1)
  · have he' := he' rfl
    simp only [true_and, if_true]
    split_ifs <;> first | omega | rfl | (unify_idx F; ring1)


theorem ite_add_zero' {c : Prop} [Decidable c] (a b : K) : (if c then a + b else a) = a + if c then b else 0 := by split_ifs <;> simp

/-- hypotheses of a row update at an end -/
macro "edgerow" he:term:max : tactic => `(tactic| (
  intro r hr h
  have h' := of_decide_eq_true h
  have := $he h'.1 r hr (by first | exact Or.inl h'.2 | exact Or.inr h'.2)
  simp
  omega))

theorem runs_fdRmvCentered3 (hs : psum sizes n = N) (hN : 1 ≤ N) (hc : n = 1 ∨ ∀ r < n, 2 ≤ sizes r) (he : EdgeRoom n sizes edge 2)
    (hdt : dt = .real → dx = .real) (hF : Fit dx F) (hsr : star s = s) :
    Runs n (fun r => fdRmvCentered3 (env n J r) ⟨N :: rest, s, edge, dt⟩ (rfam n N rest sizes dx (glob sizes F) r))
      (fun r => .ok (rfam n N rest sizes dt (glob sizes fun p j => fdAdj .centered3 edge N (fun q => F q j) p / s) r)) := by
  unfold fdRmvCentered3
  simp only [Prog.bind_eq]
  refine Runs.bind_ok (runs_newLike hs) ?_
  refine Runs.bind_ok (runs_zero _ fun r _ => length_junk r) ?_
  obtain ⟨e1, f1⟩ := runs_accum (N := N) (J := J) (rest := rest) hs (room_rows hc (front := none) (back := some 2) (by simp) (by simp))
    (combines_part 1 (some (-1)) (1 / 2 * ·) 2 (fun m => by rw [pyUpper_m1]; omega))
    (kf := none) (kb := some (min (N : Int) 2)) (by simp) (by simp) hdt hop_sub (f := fun _ _ _ => (0 : K)) (fun r h i j => star_zero _) hF
    (fun g hg i j => by simp [hg]) (by blklen hs hc)
  refine Runs.bind_ok e1 ?_
  obtain ⟨e2, f2⟩ := runs_accum (N := N) (J := J) (rest := rest) hs (room_rows hc (front := some 2) (back := none) (by simp) (by simp))
    (combines_part 1 (some (-1)) (1 / 2 * ·) 2 (fun m => by rw [pyUpper_m1]; omega))
    (kf := some (min (N : Int) 2)) (kb := none) (by simp) (by simp) hdt hop_add f1 hF
    (fun g hg i j => by simp [hg]) (by blklen hs hc)
  refine Runs.bind_ok e2 ?_
  obtain ⟨e3, f3⟩ := runs_addRow (n := n) (N := N) (J := J) (rest := rest) (sizes := sizes) hdt f2 (fit_glob (sizes := sizes) hF)
    (fun r => decide (edge = true ∧ r = 0)) 0 [(-1, 0)] (by simp) (by simp) (by edgerow he)
  refine Runs.bind_ok e3 ?_
  obtain ⟨e4, f4⟩ := runs_addRow (n := n) (N := N) (J := J) (rest := rest) (sizes := sizes) hdt f3 (fit_glob (sizes := sizes) hF)
    (fun r => decide (edge = true ∧ r = 0)) 1 [(1, 0)] (by simp) (by simp) (by edgerow he)
  refine Runs.bind_ok e4 ?_
  obtain ⟨e5, f5⟩ := runs_addRow (n := n) (N := N) (J := J) (rest := rest) (sizes := sizes) hdt f4 (fit_glob (sizes := sizes) hF)
    (fun r => decide (edge = true ∧ r = n - 1)) (-2) [(-1, -1)] (by simp) (by simp) (by edgerow he)
  refine Runs.bind_ok e5 ?_
  obtain ⟨e6, f6⟩ := runs_addRow (n := n) (N := N) (J := J) (rest := rest) (sizes := sizes) hdt f5 (fit_glob (sizes := sizes) hF)
    (fun r => decide (edge = true ∧ r = n - 1)) (-1) [(1, -1)] (by simp) (by simp) (by edgerow he)
  refine Runs.bind_ok e6 ?_
  refine (runs_divide (fun _ => hsr) f6).congr (fun _ _ => rfl) fun r hr => ?_
  clear e1 e2 e3 e4 e5 e6 f1 f2 f3 f4 f5 f6
  congr 1
  refine rfam_congr fun i hi j _ => ?_
  refine congrArg (· / s) ?_
  obtain ⟨h1, h2, h3, h4, h5, h6, h7⟩ := pos_rows (sizes := sizes) hs hc hr
  have he' := fun h => he h r hr
  have hb1 : blk n sizes none (some 2) 2 none (fun g i j => 1 / 2 * (g (1 + i) j)) F r i j
      = 1 / 2 * if psum sizes r + i + 2 < N then F (psum sizes r + i + 1) j else 0 := by
    simp only [blk, pf, gf, gb, Option.getD]
    split_ifs <;> first | omega | (unify_idx F; ring1)
  have hb2 : blk n sizes (some 2) none 2 (some (min (N : Int) 2)) (fun g i j => 1 / 2 * (g (1 + i) j)) F r i j
      = 1 / 2 * if 2 ≤ psum sizes r + i then F (psum sizes r + i - 1) j else 0 := by
    simp only [blk, pf, gf, gb, Option.getD]
    split_ifs <;> first | omega | (unify_idx F; ring1)
  simp only [hb1, hb2, fdAdj, glob, decide_eq_true_eq, pyBound_0, pyBound_1, pyBound_m1, pyBound_m2, comb, List.map_cons, List.map_nil, List.sum_cons, List.sum_nil,
    ite_add_zero', add_zero]
  cases edge
  · simp only [Bool.false_eq_true, false_and, if_false]
    ring
  · have he' := he' rfl
    simp only [true_and, if_true]
    have t1 : (if r = 0 ∧ i = 0 then -1 * F (psum sizes r) j else 0) = - if psum sizes r + i = 0 then F 0 j else 0 := by
      split_ifs <;> first | omega | (unify_idx F; ring1)
    have t2 : (if r = 0 ∧ i = min 1 (sizes r) then 1 * F (psum sizes r) j else 0) = if psum sizes r + i = 1 then F 0 j else 0 := by
      split_ifs <;> first | omega | (unify_idx F; ring1)
    have t3 : (if r = n - 1 ∧ i = sizes r - 2 then -1 * F (psum sizes r + (sizes r - 1)) j else 0) = - if psum sizes r + i + 2 = N then F (N - 1) j else 0 := by
      split_ifs <;> first | omega | (unify_idx F; ring1)
    have t4 : (if r = n - 1 ∧ i = sizes r - 1 then 1 * F (psum sizes r + (sizes r - 1)) j else 0) = if psum sizes r + i + 1 = N then F (N - 1) j else 0 := by
      split_ifs <;> first | omega | (unify_idx F; ring1)
    rw [t1, t2, t3, t4]
    ring


theorem pyBound_m4 (m : Nat) : pyBound m (-4) = m - 4 := pyBound_neg m 4 (by omega)

theorem runs_fdMvCentered5 (hs : psum sizes n = N) (hN : 2 ≤ N) (hc : n = 1 ∨ ∀ r < n, 2 ≤ sizes r) (he : EdgeRoom n sizes edge 3)
    (hdt : dt = .real → dx = .real) (hF : Fit dx F) (hsr : star s = s) :
    Runs n (fun r => fdMvCentered5 (env n J r) ⟨N :: rest, s, edge, dt⟩ (rfam n N rest sizes dx (glob sizes F) r))
      (fun r => .ok (rfam n N rest sizes dt (glob sizes fun p j => fdAt .centered5 edge N (fun q => F q j) p / s) r)) := by
  unfold fdMvCentered5
  simp only [Prog.bind_eq]
  refine Runs.bind_ok (runs_newLike hs) ?_
  refine Runs.bind_ok (runs_stencil hs (room_rows hc (by simp) (by simp)) combines_cent5 (kf := some (min (N : Int) 2)) (by simp) (kb := some (min ((N : Int) - 2) 2)) (by simp; omega)) ?_
  have f0 : ∀ r, Fit dt (blk n sizes (some 2) (some 2) 4 (some (min (N : Int) 2)) (fun g i j => g (0 + i) j / 12 - 2 * g (1 + i) j / 3 + 2 * g (3 + i) j / 3 - g (4 + i) j / 12) F r) := fun r h =>
    fit_blk (n := n) (sizes := sizes) (front := some 2) (back := some 2) (k := 4) (kf := some (min (N : Int) 2)) hF (fun g hg i j => by simp [hg]) r (hdt h)
  refine Runs.bind_ok (runs_set_rows _ (fun r hr => length_junk r) f0 (by blklen hs hc)) ?_
  obtain ⟨e1, f1⟩ := runs_setRow (n := n) (N := N) (J := J) (rest := rest) (sizes := sizes) hdt f0 (fit_glob (sizes := sizes) hF)
    (fun r => decide (edge = true ∧ r = 0)) 0 [(1, 1), (-1, 0)] (by simp) (by simp) (by edgerow he)
  refine Runs.bind_ok e1 ?_
  obtain ⟨e2, f2⟩ := runs_setRow (n := n) (N := N) (J := J) (rest := rest) (sizes := sizes) hdt f1 (fit_glob (sizes := sizes) hF)
    (fun r => decide (edge = true ∧ r = 0)) 1 [(1 / 2, 2), (-(1 / 2), 0)] (by simp) (by simp) (by edgerow he)
  refine Runs.bind_ok e2 ?_
  obtain ⟨e3, f3⟩ := runs_setRow (n := n) (N := N) (J := J) (rest := rest) (sizes := sizes) hdt f2 (fit_glob (sizes := sizes) hF)
    (fun r => decide (edge = true ∧ r = n - 1)) (-1) [(1, -1), (-1, -2)] (by simp) (by simp) (by edgerow he)
  refine Runs.bind_ok e3 ?_
  obtain ⟨e4, f4⟩ := runs_setRow (n := n) (N := N) (J := J) (rest := rest) (sizes := sizes) hdt f3 (fit_glob (sizes := sizes) hF)
    (fun r => decide (edge = true ∧ r = n - 1)) (-2) [(1 / 2, -1), (-(1 / 2), -3)] (by simp) (by simp) (by edgerow he)
  refine Runs.bind_ok e4 ?_
  refine (runs_divide (fun _ => hsr) f4).congr (fun _ _ => rfl) fun r hr => ?_
  clear e1 e2 e3 e4 f1 f2 f3 f4 f0
  congr 1
  refine rfam_congr fun i hi j _ => ?_
  refine congrArg (· / s) ?_
  obtain ⟨h1, h2, h3, h4, h5, h6, h7⟩ := pos_rows (sizes := sizes) hs hc hr
  have he' := fun h => he h r hr
  have hb : blk n sizes (some 2) (some 2) 4 (some (min (N : Int) 2)) (fun g i j => g (0 + i) j / 12 - 2 * g (1 + i) j / 3 + 2 * g (3 + i) j / 3 - g (4 + i) j / 12) F r i j
      = if 2 ≤ psum sizes r + i ∧ psum sizes r + i + 2 < N then
        (F (psum sizes r + i - 2) j - 8 * F (psum sizes r + i - 1) j + 8 * F (psum sizes r + i + 1) j - F (psum sizes r + i + 2) j) / 12 else 0 := by
    simp only [blk, pf, gf, gb, Option.getD]
    split_ifs <;> first | omega | rfl | (unify_idx F; ring1)
  simp only [hb, fdAt, glob, decide_eq_true_eq, pyBound_0, pyBound_1, pyBound_2, pyBound_m1, pyBound_m2, pyBound_m3, comb, List.map_cons, List.map_nil, List.sum_cons, List.sum_nil]
  cases edge
  · simp only [Bool.false_eq_true, false_and, if_false]
  · have he' := he' rfl
    simp only [true_and, if_true]
    split_ifs <;> first | omega | rfl | (unify_idx F; ring1)

theorem runs_fdRmvCentered5 (hs : psum sizes n = N) (hN : 3 ≤ N) (hc : n = 1 ∨ ∀ r < n, 4 ≤ sizes r) (he : EdgeRoom n sizes edge 3)
    (hdt : dt = .real → dx = .real) (hF : Fit dx F) (hsr : star s = s) :
    Runs n (fun r => fdRmvCentered5 (env n J r) ⟨N :: rest, s, edge, dt⟩ (rfam n N rest sizes dx (glob sizes F) r))
      (fun r => .ok (rfam n N rest sizes dt (glob sizes fun p j => fdAdj .centered5 edge N (fun q => F q j) p / s) r)) := by
  unfold fdRmvCentered5
  simp only [Prog.bind_eq]
  refine Runs.bind_ok (runs_newLike hs) ?_
  refine Runs.bind_ok (runs_zero _ fun r _ => length_junk r) ?_
  obtain ⟨e1, f1⟩ := runs_accum (N := N) (J := J) (rest := rest) hs (room_rows hc (front := none) (back := some 4) (by simp) (by simp))
    (combines_part 2 (some (-2)) (· / 12) 4 (fun m => by rw [pyUpper_m2]; omega))
    (kf := none) (kb := some (min (N : Int) 4)) (by simp) (by simp) hdt hop_add (f := fun _ _ _ => (0 : K)) (fun r h i j => star_zero _) hF
    (fun g hg i j => by simp [hg]) (by blklen hs hc)
  refine Runs.bind_ok e1 ?_
  obtain ⟨e2, f2⟩ := runs_accum (N := N) (J := J) (rest := rest) hs (room_rows hc (front := some 1) (back := some 3) (by simp) (by simp))
    (combines_part 2 (some (-2)) (2 * · / 3) 4 (fun m => by rw [pyUpper_m2]; omega))
    (kf := some 1) (kb := some (min ((N : Int) - 1) 3)) (by simp) (by simp; omega) hdt hop_sub f1 hF
    (fun g hg i j => by simp [hg]) (by blklen hs hc)
  refine Runs.bind_ok e2 ?_
  obtain ⟨e3, f3⟩ := runs_accum (N := N) (J := J) (rest := rest) hs (room_rows hc (front := some 3) (back := some 1) (by simp) (by simp))
    (combines_part 2 (some (-2)) (2 * · / 3) 4 (fun m => by rw [pyUpper_m2]; omega))
    (kf := some (min (N : Int) 3)) (kb := some (min ((N : Int) - 3) 1)) (by simp) (by simp; omega) hdt hop_add f2 hF
    (fun g hg i j => by simp [hg]) (by blklen hs hc)
  refine Runs.bind_ok e3 ?_
  obtain ⟨e4, f4⟩ := runs_accum (N := N) (J := J) (rest := rest) hs (room_rows hc (front := some 4) (back := none) (by simp) (by simp))
    (combines_part 2 (some (-2)) (· / 12) 4 (fun m => by rw [pyUpper_m2]; omega))
    (kf := some (min (N : Int) 4)) (kb := none) (by simp) (by simp) hdt hop_sub f3 hF
    (fun g hg i j => by simp [hg]) (by blklen hs hc)
  refine Runs.bind_ok e4 ?_
  obtain ⟨e5, f5⟩ := runs_addRow (n := n) (N := N) (J := J) (rest := rest) (sizes := sizes) hdt f4 (fit_glob (sizes := sizes) hF)
    (fun r => decide (edge = true ∧ r = 0)) 0 [(-1, 0), (-(1 / 2), 1)] (by simp) (by simp) (by edgerow he)
  refine Runs.bind_ok e5 ?_
  obtain ⟨e6, f6⟩ := runs_addRow (n := n) (N := N) (J := J) (rest := rest) (sizes := sizes) hdt f5 (fit_glob (sizes := sizes) hF)
    (fun r => decide (edge = true ∧ r = 0)) 1 [(1, 0)] (by simp) (by simp) (by edgerow he)
  refine Runs.bind_ok e6 ?_
  obtain ⟨e7, f7⟩ := runs_addRow (n := n) (N := N) (J := J) (rest := rest) (sizes := sizes) hdt f6 (fit_glob (sizes := sizes) hF)
    (fun r => decide (edge = true ∧ r = 0)) 2 [(1 / 2, 1)] (by simp) (by simp) (by edgerow he)
  refine Runs.bind_ok e7 ?_
  obtain ⟨e8, f8⟩ := runs_addRow (n := n) (N := N) (J := J) (rest := rest) (sizes := sizes) hdt f7 (fit_glob (sizes := sizes) hF)
    (fun r => decide (edge = true ∧ r = n - 1)) (-3) [(-(1 / 2), -2)] (by simp) (by simp) (by edgerow he)
  refine Runs.bind_ok e8 ?_
  obtain ⟨e9, f9⟩ := runs_addRow (n := n) (N := N) (J := J) (rest := rest) (sizes := sizes) hdt f8 (fit_glob (sizes := sizes) hF)
    (fun r => decide (edge = true ∧ r = n - 1)) (-2) [(-1, -1)] (by simp) (by simp) (by edgerow he)
  refine Runs.bind_ok e9 ?_
  obtain ⟨e10, f10⟩ := runs_addRow (n := n) (N := N) (J := J) (rest := rest) (sizes := sizes) hdt f9 (fit_glob (sizes := sizes) hF)
    (fun r => decide (edge = true ∧ r = n - 1)) (-1) [(1 / 2, -2), (1, -1)] (by simp) (by simp) (by edgerow he)
  refine Runs.bind_ok e10 ?_
  refine (runs_divide (fun _ => hsr) f10).congr (fun _ _ => rfl) fun r hr => ?_
  clear e1 e2 e3 e4 e5 e6 f1 f2 f3 f4 f5 f6 e7 e8 e9 e10 f7 f8 f9 f10
  congr 1
  refine rfam_congr fun i hi j _ => ?_
  refine congrArg (· / s) ?_
  obtain ⟨h1, h2, h3, h4, h5, h6, h7⟩ := pos_rows (sizes := sizes) hs hc hr
  have he' := fun h => he h r hr
  have hb1 : blk n sizes none (some 4) 4 none (fun g i j => (g (2 + i) j) / 12) F r i j
      = 1 / 12 * if psum sizes r + i + 4 < N then F (psum sizes r + i + 2) j else 0 := by
    simp only [blk, pf, gf, gb, Option.getD]
    split_ifs <;> first | omega | (unify_idx F; ring1)
  have hb2 : blk n sizes (some 1) (some 3) 4 (some 1) (fun g i j => 2 * (g (2 + i) j) / 3) F r i j
      = 2 / 3 * if 1 ≤ psum sizes r + i ∧ psum sizes r + i + 3 < N then F (psum sizes r + i + 1) j else 0 := by
    simp only [blk, pf, gf, gb, Option.getD]
    split_ifs <;> first | omega | (unify_idx F; ring1)
  have hb3 : blk n sizes (some 3) (some 1) 4 (some (min (N : Int) 3)) (fun g i j => 2 * (g (2 + i) j) / 3) F r i j
      = 2 / 3 * if 3 ≤ psum sizes r + i ∧ psum sizes r + i + 1 < N then F (psum sizes r + i - 1) j else 0 := by
    simp only [blk, pf, gf, gb, Option.getD]
    split_ifs <;> first | omega | (unify_idx F; ring1)
  have hb4 : blk n sizes (some 4) none 4 (some (min (N : Int) 4)) (fun g i j => (g (2 + i) j) / 12) F r i j
      = 1 / 12 * if 4 ≤ psum sizes r + i then F (psum sizes r + i - 2) j else 0 := by
    simp only [blk, pf, gf, gb, Option.getD]
    split_ifs <;> first | omega | (unify_idx F; ring1)
  simp only [hb1, hb2, hb3, hb4, fdAdj, glob, decide_eq_true_eq, pyBound_0, pyBound_1, pyBound_2, pyBound_m1, pyBound_m2, pyBound_m3, comb, List.map_cons, List.map_nil,
    List.sum_cons, List.sum_nil, ite_add_zero', add_zero]
  cases edge
  · simp only [Bool.false_eq_true, false_and, if_false]
    ring
  · have he' := he' rfl
    simp only [true_and, if_true]
    have t1 : (if r = 0 ∧ i = 0 then -1 * F (psum sizes r) j + -(1 / 2) * F (psum sizes r + min 1 (sizes r)) j else 0)
        = - (if psum sizes r + i = 0 then F 0 j else 0) - 1 / 2 * if psum sizes r + i = 0 then F 1 j else 0 := by
      split_ifs <;> first | omega | (unify_idx F; ring1)
    have t2 : (if r = 0 ∧ i = min 1 (sizes r) then 1 * F (psum sizes r) j else 0) = if psum sizes r + i = 1 then F 0 j else 0 := by
      split_ifs <;> first | omega | (unify_idx F; ring1)
    have t3 : (if r = 0 ∧ i = min 2 (sizes r) then 1 / 2 * F (psum sizes r + min 1 (sizes r)) j else 0) = 1 / 2 * if psum sizes r + i = 2 then F 1 j else 0 := by
      split_ifs <;> first | omega | (unify_idx F; ring1)
    have t4 : (if r = n - 1 ∧ i = sizes r - 3 then -(1 / 2) * F (psum sizes r + (sizes r - 2)) j else 0) = - (1 / 2 * if psum sizes r + i + 3 = N then F (N - 2) j else 0) := by
      split_ifs <;> first | omega | (unify_idx F; ring1)
    have t5 : (if r = n - 1 ∧ i = sizes r - 2 then -1 * F (psum sizes r + (sizes r - 1)) j else 0) = - if psum sizes r + i + 2 = N then F (N - 1) j else 0 := by
      split_ifs <;> first | omega | (unify_idx F; ring1)
    have t6 : (if r = n - 1 ∧ i = sizes r - 1 then 1 / 2 * F (psum sizes r + (sizes r - 2)) j + 1 * F (psum sizes r + (sizes r - 1)) j else 0)
        = (1 / 2 * if psum sizes r + i + 1 = N then F (N - 2) j else 0) + if psum sizes r + i + 1 = N then F (N - 1) j else 0 := by
      split_ifs <;> first | omega | (unify_idx F; ring1)
    rw [t1, t2, t3, t4, t5, t6]
    ring

end Verif

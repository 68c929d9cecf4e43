/-
  The second-difference methods on blocks of rows: every rank obtains its rows of the serial result.
-/
import Verif.Proofs.FirstDerivative

namespace Verif
open NDArray
set_option linter.unusedSectionVars false

variable {K : Type} [Field K] [StarRing K] [CharZero K]
variable {n N : Nat} {J : Nat → Nat → K} {rest : List Nat} {sizes : Nat → Nat} {dt dx : DType} {F : Nat → Nat → K} {s : K} {edge : Bool}

/-- transposed second difference -/
def sdAdj (k : SDKind) (edge : Bool) (N : Nat) (v : Nat → K) (p : Nat) : K :=
  match k with
  | .forward => (if 2 ≤ p then v (p - 2) else 0) - 2 * (if 1 ≤ p ∧ p + 1 < N then v (p - 1) else 0) + if p + 2 < N then v p else 0
  | .backward => (if 2 ≤ p then v p else 0) - 2 * (if 1 ≤ p ∧ p + 1 < N then v (p + 1) else 0) + if p + 2 < N then v (p + 2) else 0
  | .centered => (if 2 ≤ p then v (p - 1) else 0) - 2 * (if 1 ≤ p ∧ p + 1 < N then v p else 0) + (if p + 2 < N then v (p + 1) else 0)
      + if edge then
        (if p = 0 then v 0 else 0) - 2 * (if p = 1 then v 0 else 0) + (if p = 2 then v 0 else 0)
          + (if p + 3 = N then v (N - 1) else 0) - 2 * (if p + 2 = N then v (N - 1) else 0) + (if p + 1 = N then v (N - 1) else 0) else 0

theorem star_sq (hsr : star s = s) : star (s ^ 2) = s ^ 2 := by rw [star_pow, hsr]
theorem hop_sub2 : dt = .real → ∀ a b : K, star a = a → star b = b → star (a - 2 * b) = a - 2 * b := fun _ a b ha hb => by simp [ha, hb]

theorem runs_sdMvForward (hs : psum sizes n = N) (hN : 1 ≤ N) (hc : n = 1 ∨ ∀ r < n, 2 ≤ sizes r) (hdt : dt = .real → dx = .real) (hF : Fit dx F)
    (hsr : star s = s) :
    Runs n (fun r => sdMvForward (env n J r) ⟨N :: rest, s, edge, dt⟩ (rfam n N rest sizes dx (glob sizes F) r))
      (fun r => .ok (rfam n N rest sizes dt (glob sizes fun p j => sdAt .forward edge N (fun q => F q j) p / s ^ 2) r)) := by
  unfold sdMvForward
  simp only [Prog.bind_eq]
  refine Runs.bind_ok (runs_newLike hs) ?_
  refine Runs.bind_ok (runs_stencil hs (room_rows hc (by simp) (by simp)) combines_diff2 (kf := none) (by simp) (kb := (some (min (N : Int) 2))) (by simp)) ?_
  simp only [map_rows]
  refine (runs_set_rows _ (fun r hr => length_junk r) (fun r h i j => ?_) (by blklen hs hc)).congr (fun _ _ => rfl) fun r hr => ?_
  · have := fit_blk (n := n) (sizes := sizes) (front := none) (back := (some 2)) (k := 2) (kf := none) hF (ψ := fun g i j => g (2 + i) j - 2 * g (1 + i) j + g (0 + i) j)
      (fun g hg i j => by simp [hg]) r (hdt h) i j
    rw [star_div₀, this, star_sq hsr]
  congr 1
  refine rfam_congr fun i hi j _ => ?_
  refine congrArg (· / s ^ 2) ?_
  obtain ⟨h1, h2, h3, h4, h5, h6, h7⟩ := pos_rows (sizes := sizes) hs hc hr
  simp only [blk, pf, gf, gb, Option.getD, sdAt, glob]
  split_ifs <;> first | omega | rfl | (unify_idx F; ring1)

theorem runs_sdMvBackward (hs : psum sizes n = N) (hN : 1 ≤ N) (hc : n = 1 ∨ ∀ r < n, 2 ≤ sizes r) (hdt : dt = .real → dx = .real) (hF : Fit dx F)
    (hsr : star s = s) :
    Runs n (fun r => sdMvBackward (env n J r) ⟨N :: rest, s, edge, dt⟩ (rfam n N rest sizes dx (glob sizes F) r))
      (fun r => .ok (rfam n N rest sizes dt (glob sizes fun p j => sdAt .backward edge N (fun q => F q j) p / s ^ 2) r)) := by
  unfold sdMvBackward
  simp only [Prog.bind_eq]
  refine Runs.bind_ok (runs_newLike hs) ?_
  refine Runs.bind_ok (runs_stencil hs (room_rows hc (by simp) (by simp)) combines_diff2 (kf := (some (min (N : Int) 2))) (by simp) (kb := none) (by simp)) ?_
  simp only [map_rows]
  refine (runs_set_rows _ (fun r hr => length_junk r) (fun r h i j => ?_) (by blklen hs hc)).congr (fun _ _ => rfl) fun r hr => ?_
  · have := fit_blk (n := n) (sizes := sizes) (front := (some 2)) (back := none) (k := 2) (kf := (some (min (N : Int) 2))) hF (ψ := fun g i j => g (2 + i) j - 2 * g (1 + i) j + g (0 + i) j)
      (fun g hg i j => by simp [hg]) r (hdt h) i j
    rw [star_div₀, this, star_sq hsr]
  congr 1
  refine rfam_congr fun i hi j _ => ?_
  refine congrArg (· / s ^ 2) ?_
  obtain ⟨h1, h2, h3, h4, h5, h6, h7⟩ := pos_rows (sizes := sizes) hs hc hr
  simp only [blk, pf, gf, gb, Option.getD, sdAt, glob]
  split_ifs <;> first | omega | rfl | (unify_idx F; ring1)

theorem runs_sdRmvForward (hs : psum sizes n = N) (hN : 1 ≤ N) (hc : n = 1 ∨ ∀ r < n, 2 ≤ sizes r) (hdt : dt = .real → dx = .real) (hF : Fit dx F)
    (hsr : star s = s) :
    Runs n (fun r => sdRmvForward (env n J r) ⟨N :: rest, s, edge, dt⟩ (rfam n N rest sizes dx (glob sizes F) r))
      (fun r => .ok (rfam n N rest sizes dt (glob sizes fun p j => sdAdj .forward edge N (fun q => F q j) p / s ^ 2) r)) := by
  unfold sdRmvForward
  simp only [Prog.bind_eq]
  refine Runs.bind_ok (runs_newLike hs) ?_
  refine Runs.bind_ok (runs_zero _ fun r _ => length_junk r) ?_
  obtain ⟨e1, f1⟩ := runs_addPart (n := n) (N := N) (J := J) (rest := rest) (sizes := sizes) (f := fun _ _ _ => (0 : K)) hdt hop_add (fun r h i j => star_zero _) (fit_glob (sizes := sizes) hF)
    (fun r => decide (r = n - 1)) 0 (some (-2))
  refine Runs.bind_ok e1 ?_
  obtain ⟨e2, f2⟩ := runs_accum (N := N) (J := J) (rest := rest) hs (room_rows hc (front := some 1) (back := some 1) (by simp) (by simp))
    (combines_part 0 (some (-2)) id 2 (fun m => by rw [pyUpper_m2]; omega))
    (kf := some 1) (kb := some (min 1 ((N : Int) - 1))) (by simp) (by simp; omega) hdt hop_sub2 f1 hF
    (fun g hg i j => by simp [hg]) (by blklen hs hc)
  refine Runs.bind_ok e2 ?_
  obtain ⟨e3, f3⟩ := runs_accum (N := N) (J := J) (rest := rest) hs (room_rows hc (front := some 2) (back := none) (by simp) (by simp))
    (combines_part 0 (some (-2)) id 2 (fun m => by rw [pyUpper_m2]; omega))
    (kf := some (min (N : Int) 2)) (kb := none) (by simp) (by simp) hdt hop_add f2 hF
    (fun g hg i j => by simp [hg]) (by blklen hs hc)
  refine Runs.bind_ok e3 ?_
  refine (runs_divide (fun _ => star_sq hsr) f3).congr (fun _ _ => rfl) fun r hr => ?_
  clear e1 e2 e3 f1 f2 f3
  congr 1
  refine rfam_congr fun i hi j _ => ?_
  refine congrArg (· / s ^ 2) ?_
  obtain ⟨h1, h2, h3, h4, h5, h6, h7⟩ := pos_rows (sizes := sizes) hs hc hr
  have hb1 : blk n sizes (some 1) (some 1) 2 (some 1) (fun g i j => id (g (0 + i) j)) F r i j
      = if 1 ≤ psum sizes r + i ∧ psum sizes r + i + 1 < N then F (psum sizes r + i - 1) j else 0 := by
    simp only [blk, pf, gf, gb, Option.getD, id]
    split_ifs <;> first | omega | rfl | (unify_idx F; ring1)
  have hb2 : blk n sizes (some 2) none 2 (some (min (N : Int) 2)) (fun g i j => id (g (0 + i) j)) F r i j
      = if 2 ≤ psum sizes r + i then F (psum sizes r + i - 2) j else 0 := by
    simp only [blk, pf, gf, gb, Option.getD, id]
    split_ifs <;> first | omega | rfl | (unify_idx F; ring1)
  have ht : (if decide (r = n - 1) = true → pyBound (sizes r) 0 ≤ i ∧ i < pyUpper (sizes r) (some (-2)) then
      0 + glob sizes F r i j else 0) = if psum sizes r + i + 2 < N then F (psum sizes r + i) j else 0 := by
    simp only [pyUpper_m2, decide_eq_true_eq, pyBound_0, glob, imp_iff_not_or]
    split_ifs <;> first | omega | (simp; done)
  rw [ht, hb1, hb2]
  simp only [sdAdj, glob]
  ring

theorem runs_sdRmvBackward (hs : psum sizes n = N) (hN : 1 ≤ N) (hc : n = 1 ∨ ∀ r < n, 2 ≤ sizes r) (hdt : dt = .real → dx = .real) (hF : Fit dx F)
    (hsr : star s = s) :
    Runs n (fun r => sdRmvBackward (env n J r) ⟨N :: rest, s, edge, dt⟩ (rfam n N rest sizes dx (glob sizes F) r))
      (fun r => .ok (rfam n N rest sizes dt (glob sizes fun p j => sdAdj .backward edge N (fun q => F q j) p / s ^ 2) r)) := by
  unfold sdRmvBackward
  simp only [Prog.bind_eq]
  refine Runs.bind_ok (runs_newLike hs) ?_
  refine Runs.bind_ok (runs_zero _ fun r _ => length_junk r) ?_
  obtain ⟨e1, f1⟩ := runs_accum (N := N) (J := J) (rest := rest) hs (room_rows hc (front := none) (back := some 2) (by simp) (by simp))
    (combines_part 2 none id 2 (fun m => by rw [pyUpper_none]; omega))
    (kf := none) (kb := some (min 2 (N : Int))) (by simp) (by simp) hdt hop_add (f := fun _ _ _ => (0 : K)) (fun r h i j => star_zero _) hF
    (fun g hg i j => by simp [hg]) (by blklen hs hc)
  refine Runs.bind_ok e1 ?_
  obtain ⟨e2, f2⟩ := runs_accum (N := N) (J := J) (rest := rest) hs (room_rows hc (front := some 1) (back := some 1) (by simp) (by simp))
    (combines_part 2 none (2 * ·) 2 (fun m => by rw [pyUpper_none]; omega))
    (kf := some 1) (kb := some (min 1 ((N : Int) - 1))) (by simp) (by simp; omega) hdt hop_sub f1 hF
    (fun g hg i j => by simp [hg]) (by blklen hs hc)
  refine Runs.bind_ok e2 ?_
  obtain ⟨e3, f3⟩ := runs_addPart (n := n) (N := N) (J := J) (rest := rest) (sizes := sizes) hdt hop_add f2 (fit_glob (sizes := sizes) hF)
    (fun r => decide (r = 0)) 2 none
  refine Runs.bind_ok e3 ?_
  refine (runs_divide (fun _ => star_sq hsr) f3).congr (fun _ _ => rfl) fun r hr => ?_
  clear e1 e2 e3 f1 f2 f3
  congr 1
  refine rfam_congr fun i hi j _ => ?_
  refine congrArg (· / s ^ 2) ?_
  obtain ⟨h1, h2, h3, h4, h5, h6, h7⟩ := pos_rows (sizes := sizes) hs hc hr
  have hb1 : blk n sizes none (some 2) 2 none (fun g i j => id (g (2 + i) j)) F r i j
      = if psum sizes r + i + 2 < N then F (psum sizes r + i + 2) j else 0 := by
    simp only [blk, pf, gf, gb, Option.getD, id]
    split_ifs <;> first | omega | rfl | (unify_idx F; ring1)
  have hb2 : blk n sizes (some 1) (some 1) 2 (some 1) (fun g i j => 2 * (g (2 + i) j)) F r i j
      = 2 * if 1 ≤ psum sizes r + i ∧ psum sizes r + i + 1 < N then F (psum sizes r + i + 1) j else 0 := by
    simp only [blk, pf, gf, gb, Option.getD, id]
    split_ifs <;> first | omega | rfl | (unify_idx F; ring1)
  simp only [hb1, hb2, pyUpper_none, decide_eq_true_eq, pyBound_2, imp_iff_not_or, ite_add_zero', sdAdj, glob]
  have ht : (if ¬r = 0 ∨ min 2 (sizes r) ≤ i ∧ i < sizes r then F (psum sizes r + i) j else 0) = if 2 ≤ psum sizes r + i then F (psum sizes r + i) j else 0 := by
    split_ifs <;> first | omega | rfl
  rw [ht]
  ring

theorem runs_sdMvCentered (hs : psum sizes n = N) (hN : 1 ≤ N) (hc : n = 1 ∨ ∀ r < n, 1 ≤ sizes r) (he : EdgeRoom n sizes edge 3) (hdt : dt = .real → dx = .real) (hF : Fit dx F)
    (hsr : star s = s) :
    Runs n (fun r => sdMvCentered (env n J r) ⟨N :: rest, s, edge, dt⟩ (rfam n N rest sizes dx (glob sizes F) r))
      (fun r => .ok (rfam n N rest sizes dt (glob sizes fun p j => sdAt .centered edge N (fun q => F q j) p / s ^ 2) r)) := by
  unfold sdMvCentered
  simp only [Prog.bind_eq]
  refine Runs.bind_ok (runs_newLike hs) ?_
  refine Runs.bind_ok (runs_stencil hs (room_rows hc (by simp) (by simp)) combines_diff2 (kf := some 1) (by simp) (kb := (some (min 1 ((N : Int) - 1)))) (by simp; omega)) ?_
  have f0 : ∀ r, Fit dt (blk n sizes (some 1) (some 1) 2 (some 1) (fun g i j => g (2 + i) j - 2 * g (1 + i) j + g (0 + i) j) F r) := fun r h =>
    fit_blk (n := n) (sizes := sizes) (front := some 1) (back := some 1) (k := 2) (kf := some 1) hF (fun g hg i j => by simp [hg]) r (hdt h)
  refine Runs.bind_ok (runs_set_rows _ (fun r hr => length_junk r) f0 (by blklen hs hc)) ?_
  obtain ⟨e1, f1⟩ := runs_setRow (n := n) (N := N) (J := J) (rest := rest) (sizes := sizes) hdt f0 (fit_glob (sizes := sizes) hF)
    (fun r => decide (edge = true ∧ r = 0)) 0 [(1, 0), (-2, 1), (1, 2)] (by simp) (by simp) (by edgerow he)
  refine Runs.bind_ok e1 ?_
  obtain ⟨e2, f2⟩ := runs_setRow (n := n) (N := N) (J := J) (rest := rest) (sizes := sizes) hdt f1 (fit_glob (sizes := sizes) hF)
    (fun r => decide (edge = true ∧ r = n - 1)) (-1) [(1, -3), (-2, -2), (1, -1)] (by simp) (by simp) (by edgerow he)
  refine Runs.bind_ok e2 ?_
  refine (runs_divide (fun _ => star_sq hsr) f2).congr (fun _ _ => rfl) fun r hr => ?_
  clear e1 e2 f1 f2 f0
  congr 1
  refine rfam_congr fun i hi j _ => ?_
  refine congrArg (· / s ^ 2) ?_
  obtain ⟨h1, h2, h3, h4, h5, h6, h7⟩ := pos_rows (sizes := sizes) hs hc hr
  have he' := fun h => he h r hr
  have hb : blk n sizes (some 1) (some 1) 2 (some 1) (fun g i j => g (2 + i) j - 2 * g (1 + i) j + g (0 + i) j) F r i j
      = if 1 ≤ psum sizes r + i ∧ psum sizes r + i + 1 < N then F (psum sizes r + i + 1) j - 2 * F (psum sizes r + i) j + F (psum sizes r + i - 1) j else 0 := by
    simp only [blk, pf, gf, gb, Option.getD, id]
    split_ifs <;> first | omega | rfl | (unify_idx F; ring1)
  simp only [hb, sdAt, glob, decide_eq_true_eq, pyBound_0, pyBound_1, pyBound_2, pyBound_m1, pyBound_m2, pyBound_m3, comb, List.map_cons, List.map_nil, List.sum_cons, List.sum_nil]
  cases edge
  · simp only [Bool.false_eq_true, false_and, if_false]
  · have he' := he' rfl
    obtain ⟨p1, p2⟩ := pos_edge hs he rfl hr
    simp only [true_and, if_true]
    split_ifs <;> first | omega | rfl | (unify_idx F; ring1)

theorem runs_sdRmvCentered (hs : psum sizes n = N) (hN : 1 ≤ N) (hc : n = 1 ∨ ∀ r < n, 2 ≤ sizes r) (he : EdgeRoom n sizes edge 3) (hdt : dt = .real → dx = .real) (hF : Fit dx F)
    (hsr : star s = s) :
    Runs n (fun r => sdRmvCentered (env n J r) ⟨N :: rest, s, edge, dt⟩ (rfam n N rest sizes dx (glob sizes F) r))
      (fun r => .ok (rfam n N rest sizes dt (glob sizes fun p j => sdAdj .centered edge N (fun q => F q j) p / s ^ 2) r)) := by
  unfold sdRmvCentered
  simp only [Prog.bind_eq]
  refine Runs.bind_ok (runs_newLike hs) ?_
  refine Runs.bind_ok (runs_zero _ fun r _ => length_junk r) ?_
  obtain ⟨e1, f1⟩ := runs_accum (N := N) (J := J) (rest := rest) hs (room_rows hc (front := none) (back := some 2) (by simp) (by simp))
    (combines_part 1 (some (-1)) id 2 (fun m => by rw [pyUpper_m1]; omega))
    (kf := none) (kb := some (min 2 (N : Int))) (by simp) (by simp) hdt hop_add (f := fun _ _ _ => (0 : K)) (fun r h i j => star_zero _) hF
    (fun g hg i j => by simp [hg]) (by blklen hs hc)
  refine Runs.bind_ok e1 ?_
  obtain ⟨e2, f2⟩ := runs_accum (N := N) (J := J) (rest := rest) hs (room_rows hc (front := some 1) (back := some 1) (by simp) (by simp))
    (combines_part 1 (some (-1)) (2 * ·) 2 (fun m => by rw [pyUpper_m1]; omega))
    (kf := some 1) (kb := some (min 1 ((N : Int) - 1))) (by simp) (by simp; omega) hdt hop_sub f1 hF
    (fun g hg i j => by simp [hg]) (by blklen hs hc)
  refine Runs.bind_ok e2 ?_
  obtain ⟨e3, f3⟩ := runs_accum (N := N) (J := J) (rest := rest) hs (room_rows hc (front := some 2) (back := none) (by simp) (by simp))
    (combines_part 1 (some (-1)) id 2 (fun m => by rw [pyUpper_m1]; omega))
    (kf := some (min 2 (N : Int))) (kb := none) (by simp) (by simp) hdt hop_add f2 hF
    (fun g hg i j => by simp [hg]) (by blklen hs hc)
  refine Runs.bind_ok e3 ?_
  obtain ⟨e4, f4⟩ := runs_addRow (n := n) (N := N) (J := J) (rest := rest) (sizes := sizes) hdt f3 (fit_glob (sizes := sizes) hF)
    (fun r => decide (edge = true ∧ r = 0)) 0 [(1, 0)] (by simp) (by simp) (by edgerow he)
  refine Runs.bind_ok e4 ?_
  obtain ⟨e5, f5⟩ := runs_addRow (n := n) (N := N) (J := J) (rest := rest) (sizes := sizes) hdt f4 (fit_glob (sizes := sizes) hF)
    (fun r => decide (edge = true ∧ r = 0)) 1 [(-2, 0)] (by simp) (by simp) (by edgerow he)
  refine Runs.bind_ok e5 ?_
  obtain ⟨e6, f6⟩ := runs_addRow (n := n) (N := N) (J := J) (rest := rest) (sizes := sizes) hdt f5 (fit_glob (sizes := sizes) hF)
    (fun r => decide (edge = true ∧ r = 0)) 2 [(1, 0)] (by simp) (by simp) (by edgerow he)
  refine Runs.bind_ok e6 ?_
  obtain ⟨e7, f7⟩ := runs_addRow (n := n) (N := N) (J := J) (rest := rest) (sizes := sizes) hdt f6 (fit_glob (sizes := sizes) hF)
    (fun r => decide (edge = true ∧ r = n - 1)) (-3) [(1, -1)] (by simp) (by simp) (by edgerow he)
  refine Runs.bind_ok e7 ?_
  obtain ⟨e8, f8⟩ := runs_addRow (n := n) (N := N) (J := J) (rest := rest) (sizes := sizes) hdt f7 (fit_glob (sizes := sizes) hF)
    (fun r => decide (edge = true ∧ r = n - 1)) (-2) [(-2, -1)] (by simp) (by simp) (by edgerow he)
  refine Runs.bind_ok e8 ?_
  obtain ⟨e9, f9⟩ := runs_addRow (n := n) (N := N) (J := J) (rest := rest) (sizes := sizes) hdt f8 (fit_glob (sizes := sizes) hF)
    (fun r => decide (edge = true ∧ r = n - 1)) (-1) [(1, -1)] (by simp) (by simp) (by edgerow he)
  refine Runs.bind_ok e9 ?_
  refine (runs_divide (fun _ => star_sq hsr) f9).congr (fun _ _ => rfl) fun r hr => ?_
  clear e1 e2 e3 e4 e5 e6 f1 f2 f3 f4 f5 f6 e7 e8 e9 f7 f8 f9
  congr 1
  refine rfam_congr fun i hi j _ => ?_
  refine congrArg (· / s ^ 2) ?_
  obtain ⟨h1, h2, h3, h4, h5, h6, h7⟩ := pos_rows (sizes := sizes) hs hc hr
  have he' := fun h => he h r hr
  have hb1 : blk n sizes none (some 2) 2 none (fun g i j => id (g (1 + i) j)) F r i j
      = if psum sizes r + i + 2 < N then F (psum sizes r + i + 1) j else 0 := by
    simp only [blk, pf, gf, gb, Option.getD, id]
    split_ifs <;> first | omega | rfl | (unify_idx F; ring1)
  have hb2 : blk n sizes (some 1) (some 1) 2 (some 1) (fun g i j => 2 * (g (1 + i) j)) F r i j
      = 2 * if 1 ≤ psum sizes r + i ∧ psum sizes r + i + 1 < N then F (psum sizes r + i) j else 0 := by
    simp only [blk, pf, gf, gb, Option.getD, id]
    split_ifs <;> first | omega | rfl | (unify_idx F; ring1)
  have hb3 : blk n sizes (some 2) none 2 (some (min 2 (N : Int))) (fun g i j => id (g (1 + i) j)) F r i j
      = if 2 ≤ psum sizes r + i then F (psum sizes r + i - 1) j else 0 := by
    simp only [blk, pf, gf, gb, Option.getD, id]
    split_ifs <;> first | omega | rfl | (unify_idx F; ring1)
  simp only [hb1, hb2, hb3, sdAdj, glob, decide_eq_true_eq, pyBound_0, pyBound_1, pyBound_2, pyBound_m1, pyBound_m2, pyBound_m3, comb, List.map_cons, List.map_nil,
    List.sum_cons, List.sum_nil, ite_add_zero', add_zero]
  cases edge
  · simp only [Bool.false_eq_true, false_and, if_false]
    ring
  · have he' := he' rfl
    obtain ⟨p1, p2⟩ := pos_edge hs he rfl hr
    simp only [true_and, if_true]
    have t1 : (if r = 0 ∧ i = 0 then 1 * F (psum sizes r) j else 0) = if psum sizes r + i = 0 then F 0 j else 0 := by
      split_ifs <;> first | omega | (unify_idx F; ring1)
    have t2 : (if r = 0 ∧ i = min 1 (sizes r) then -2 * F (psum sizes r) j else 0) = -2 * if psum sizes r + i = 1 then F 0 j else 0 := by
      split_ifs <;> first | omega | (unify_idx F; ring1)
    have t3 : (if r = 0 ∧ i = min 2 (sizes r) then 1 * F (psum sizes r) j else 0) = if psum sizes r + i = 2 then F 0 j else 0 := by
      split_ifs <;> first | omega | (unify_idx F; ring1)
    have t4 : (if r = n - 1 ∧ i = sizes r - 3 then 1 * F (psum sizes r + (sizes r - 1)) j else 0) = if psum sizes r + i + 3 = N then F (N - 1) j else 0 := by
      split_ifs <;> first | omega | (unify_idx F; ring1)
    have t5 : (if r = n - 1 ∧ i = sizes r - 2 then -2 * F (psum sizes r + (sizes r - 1)) j else 0) = -2 * if psum sizes r + i + 2 = N then F (N - 1) j else 0 := by
      split_ifs <;> first | omega | (unify_idx F; ring1)
    have t6 : (if r = n - 1 ∧ i = sizes r - 1 then 1 * F (psum sizes r + (sizes r - 1)) j else 0) = if psum sizes r + i + 1 = N then F (N - 1) j else 0 := by
      split_ifs <;> first | omega | (unify_idx F; ring1)
    rw [t1, t2, t3, t4, t5, t6]
    ring

end Verif

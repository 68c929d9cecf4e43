/- The derivative methods when some ranks have too few rows: what is still right, what raises and what is silently wrong. -/
import Verif.Proofs.Methods
import Verif.Spec.FewRows

namespace Verif
open NDArray Relation
set_option linter.unusedSectionVars false

variable {K : Type} [Field K] [StarRing K] [CharZero K]
variable {n N : Nat} {J : Nat → Nat → K} {rest : List Nat} {sizes : Nat → Nat} {dt dx : DType} {F : Nat → Nat → K} {s : K} {edge : Bool}

/-! ### the last rank may have fewer rows -/

/-- position of a block when all ranks but the last have at least `c` rows -/
structure PosB (n r o m N c : Nat) : Prop where
  lt : r < n
  le : o + m ≤ N
  first : r = 0 → o = 0
  last : r = n - 1 → o + m = N
  before : r ≠ 0 → c ≤ o
  many : r ≠ n - 1 → c ≤ m

theorem posB_rows (hs : psum sizes n = N) {c : Nat} (hc : ∀ r, r + 1 < n → c ≤ sizes r) {r : Nat} (hr : r < n) : PosB n r (psum sizes r) (sizes r) N c where
  lt := hr
  le := off_rows_le hs hr
  first := by rintro rfl; rfl
  last := by
    rintro h
    have : psum sizes (r + 1) = psum sizes r + sizes r := rfl
    rw [← this, show r + 1 = n by omega, hs]
  before := by
    intro h0
    have h1 := hc (r - 1) (by omega)
    have : psum sizes (r - 1 + 1) = psum sizes (r - 1) + sizes (r - 1) := rfl
    rw [show r - 1 + 1 = r by omega] at this
    omega
  many := fun h => hc r (by omega)

theorem roomB_rows {c : Nat} (hc : ∀ r, r + 1 < n → c ≤ sizes r) {front : Option Nat} (hf : front.getD 0 ≤ c) : Room n sizes front none :=
  fun r hr => ⟨hf.trans (hc r hr), Nat.zero_le _⟩

/-- length of a block -/
macro "blklenB" hs:term:max h:term:max : tactic => `(tactic| (
  intro r hr
  have hp := posB_rows $hs $h hr
  obtain ⟨h1, h2, h3, h4, h5, h6⟩ := hp
  simp only [pf, pb, gf, gb, Option.getD]
  split_ifs <;> omega))

theorem runs_fdMvBackward' (hs : psum sizes n = N) (hN : 1 ≤ N) (hc : ∀ r, r + 1 < n → 1 ≤ sizes r) (hdt : dt = .real → dx = .real) (hF : Fit dx F)
    (hsr : star s = s) :
    Runs n (fun r => fdMvBackward (env n J r) ⟨N :: rest, s, edge, dt⟩ (rfam n N rest sizes dx (glob sizes F) r))
      (fun r => .ok (rfam n N rest sizes dt (glob sizes fun p j => fdAt .backward edge N (fun q => F q j) p / s) r)) := by
  unfold fdMvBackward
  simp only [Prog.bind_eq]
  refine Runs.bind_ok (runs_newLike hs) ?_
  refine Runs.bind_ok (runs_stencil hs (roomB_rows hc (by simp)) combines_diff1 (by simp) (by simp)) ?_
  simp only [map_rows]
  refine (runs_set_rows _ (fun r hr => length_junk r) (fun r h i j => ?_) (by blklenB hs hc)).congr (fun _ _ => rfl) fun r hr => ?_
  · have := fit_blk (n := n) (sizes := sizes) (front := some 1) (back := none) (k := 1) (kf := some 1) hF (ψ := fun g i j => g (1 + i) j - g (0 + i) j)
      (fun g hg i j => by simp [hg]) r (hdt h) i j
    rw [star_div₀, this, hsr]
  · congr 1
    refine rfam_congr fun i hi j _ => ?_
    congr 1
    obtain ⟨h1, h2, h3, h4, h5, h6⟩ := posB_rows (sizes := sizes) hs hc hr
    simp only [blk, pf, gf, gb, Option.getD, fdAt, glob]
    split_ifs <;> first | omega | rfl | (unify_idx F; ring1)

theorem runs_sdMvBackward' (hs : psum sizes n = N) (hN : 1 ≤ N) (hc : ∀ r, r + 1 < n → 2 ≤ sizes r) (hdt : dt = .real → dx = .real) (hF : Fit dx F)
    (hsr : star s = s) :
    Runs n (fun r => sdMvBackward (env n J r) ⟨N :: rest, s, edge, dt⟩ (rfam n N rest sizes dx (glob sizes F) r))
      (fun r => .ok (rfam n N rest sizes dt (glob sizes fun p j => sdAt .backward edge N (fun q => F q j) p / s ^ 2) r)) := by
  unfold sdMvBackward
  simp only [Prog.bind_eq]
  refine Runs.bind_ok (runs_newLike hs) ?_
  refine Runs.bind_ok (runs_stencil hs (roomB_rows hc (by simp)) combines_diff2 (kf := (some (min (N : Int) 2))) (by simp) (kb := none) (by simp)) ?_
  simp only [map_rows]
  refine (runs_set_rows _ (fun r hr => length_junk r) (fun r h i j => ?_) (by blklenB hs hc)).congr (fun _ _ => rfl) fun r hr => ?_
  · have := fit_blk (n := n) (sizes := sizes) (front := (some 2)) (back := none) (k := 2) (kf := (some (min (N : Int) 2))) hF (ψ := fun g i j => g (2 + i) j - 2 * g (1 + i) j + g (0 + i) j)
      (fun g hg i j => by simp [hg]) r (hdt h) i j
    rw [star_div₀, this, star_sq hsr]
  congr 1
  refine rfam_congr fun i hi j _ => ?_
  refine congrArg (· / s ^ 2) ?_
  obtain ⟨h1, h2, h3, h4, h5, h6⟩ := posB_rows (sizes := sizes) hs hc hr
  simp only [blk, pf, gf, gb, Option.getD, sdAt, glob]
  split_ifs <;> first | omega | rfl | (unify_idx F; ring1)

theorem runs_fdRmvForward' (hs : psum sizes n = N) (hN : 1 ≤ N) (hc : ∀ r, r + 1 < n → 1 ≤ sizes r) (h0 : sizes (n - 1) = 0) (hdt : dt = .real → dx = .real)
    (hF : Fit dx F) (hsr : star s = s) :
    Runs n (fun r => fdRmvForward (env n J r) ⟨N :: rest, s, edge, dt⟩ (rfam n N rest sizes dx (glob sizes F) r))
      (fun r => .ok (rfam n N rest sizes dt (glob sizes fun p j => fdAdjWrong (fun q => F q j) p / s) r)) := by
  unfold fdRmvForward
  simp only [Prog.bind_eq]
  refine Runs.bind_ok (runs_newLike hs) ?_
  refine Runs.bind_ok (runs_zero _ fun r _ => length_junk r) ?_
  obtain ⟨e1, f1⟩ := runs_addPart (n := n) (N := N) (J := J) (rest := rest) (sizes := sizes) (f := fun _ _ _ => (0 : K)) hdt hop_sub (fun r h i j => star_zero _) (fit_glob (sizes := sizes) hF)
    (fun r => decide (r = n - 1)) 0 (some (-1))
  refine Runs.bind_ok e1 ?_
  have hlen : ∀ r < n, r = 0 → r = n - 1 → 1 ≤ N → False := by
    intro r hr h1 h2 h3
    have : n = 1 := by omega
    subst this
    have : psum sizes 1 = 0 := by simpa [psum] using h0
    omega
  obtain ⟨e2, f2⟩ := runs_accum (N := N) (J := J) (rest := rest) hs (roomB_rows hc (front := some 1) (by simp)) (combines_part 0 (some (-1)) id 1 (fun m => by rw [pyUpper_m1]; omega))
    (kf := some 1) (kb := none) (by simp) (by simp) hdt hop_add f1 hF (fun g hg i j => hg _ _) (by
      intro r hr
      have := hlen r hr
      obtain ⟨h1, h2, h3, h4, h5, h6⟩ := posB_rows hs hc hr
      simp only [pf, pb, gf, gb, Option.getD]
      split_ifs <;> omega)
  refine Runs.bind_ok e2 ?_
  refine (runs_divide (fun _ => hsr) f2).congr (fun _ _ => rfl) fun r hr => ?_
  congr 1
  refine rfam_congr fun i hi j _ => ?_
  refine congrArg (· / s) ?_
  obtain ⟨h1, h2, h3, h4, h5, h6⟩ := posB_rows (sizes := sizes) hs hc hr
  have hne : r ≠ n - 1 := by rintro rfl; omega
  have hb : blk n sizes (some 1) none 1 (some 1) (fun g i j => id (g (0 + i) j)) F r i j
      = if 1 ≤ psum sizes r + i then F (psum sizes r + i - 1) j else 0 := by
    simp only [blk, pf, gf, gb, Option.getD, id]
    split_ifs <;> first | omega | rfl | exact feq (by omega)
  rw [hb]
  simp only [decide_eq_true_eq, hne, false_imp_iff, if_true, fdAdjWrong, glob]
  ring

theorem runs_sdRmvForward' (hs : psum sizes n = N) (hn : 2 ≤ n) (hc : ∀ r, r + 1 < n → 2 ≤ sizes r) (h0 : sizes (n - 1) = 1) (hdt : dt = .real → dx = .real)
    (hF : Fit dx F) (hsr : star s = s) :
    Runs n (fun r => sdRmvForward (env n J r) ⟨N :: rest, s, edge, dt⟩ (rfam n N rest sizes dx (glob sizes F) r))
      (fun r => .ok (rfam n N rest sizes dt (glob sizes fun p j => sdAdjWrong N (fun q => F q j) p / s ^ 2) r)) := by
  have hc1 : n = 1 ∨ ∀ r < n, 1 ≤ sizes r := .inr fun r hr => by
    by_cases h : r + 1 < n
    · have := hc r h; omega
    · rw [show r = n - 1 by omega, h0]
  have hN : 1 ≤ N := by
    have := (posB_rows hs hc (r := n - 1) (by omega)).last rfl
    omega
  unfold sdRmvForward
  simp only [Prog.bind_eq]
  refine Runs.bind_ok (runs_newLike hs) ?_
  refine Runs.bind_ok (runs_zero _ fun r _ => length_junk r) ?_
  obtain ⟨e1, f1⟩ := runs_addPart (n := n) (N := N) (J := J) (rest := rest) (sizes := sizes) (f := fun _ _ _ => (0 : K)) hdt hop_add (fun r h i j => star_zero _) (fit_glob (sizes := sizes) hF)
    (fun r => decide (r = n - 1)) 0 (some (-2))
  refine Runs.bind_ok e1 ?_
  obtain ⟨e2, f2⟩ := runs_accum (N := N) (J := J) (rest := rest) hs (room_rows hc1 (front := some 1) (back := some 1) (by simp) (by simp))
    (combines_part 0 (some (-2)) id 2 (fun m => by rw [pyUpper_m2]; omega))
    (kf := some 1) (kb := some (min 1 ((N : Int) - 1))) (by simp) (by simp; omega) hdt hop_sub2 f1 hF
    (fun g hg i j => by simp [hg]) (by blklen hs hc1)
  refine Runs.bind_ok e2 ?_
  obtain ⟨e3, f3⟩ := runs_accum (N := N) (J := J) (rest := rest) hs (roomB_rows hc (front := some 2) (by simp))
    (combines_part 0 (some (-2)) id 2 (fun m => by rw [pyUpper_m2]; omega))
    (kf := some (min (N : Int) 2)) (kb := none) (by simp) (by simp) hdt hop_add f2 hF
    (fun g hg i j => by simp [hg]) (by blklenB hs hc)
  refine Runs.bind_ok e3 ?_
  refine (runs_divide (fun _ => star_sq hsr) f3).congr (fun _ _ => rfl) fun r hr => ?_
  clear e1 e2 e3 f1 f2 f3
  congr 1
  refine rfam_congr fun i hi j _ => ?_
  refine congrArg (· / s ^ 2) ?_
  obtain ⟨h1, h2, h3, h4, h5, h6⟩ := posB_rows (sizes := sizes) hs hc hr
  obtain ⟨-, -, -, -, -, g6, g7⟩ := pos_rows (sizes := sizes) hs hc1 hr
  have hl : r = n - 1 → sizes r = 1 := by rintro rfl; exact h0
  have hb1 : blk n sizes (some 1) (some 1) 2 (some 1) (fun g i j => id (g (0 + i) j)) F r i j
      = if 1 ≤ psum sizes r + i ∧ psum sizes r + i + 1 < N then F (psum sizes r + i - 1) j else 0 := by
    simp only [blk, pf, gf, gb, Option.getD, id]
    split_ifs <;> first | omega | rfl | (unify_idx F; ring1)
  have hb2 : blk n sizes (some 2) none 2 (some (min (N : Int) 2)) (fun g i j => id (g (0 + i) j)) F r i j
      = if 2 ≤ psum sizes r + i then F (psum sizes r + i - 2) j else 0 := by
    simp only [blk, pf, gf, gb, Option.getD, id]
    split_ifs <;> first | omega | rfl | (unify_idx F; ring1)
  have ht : (if decide (r = n - 1) = true → pyBound (sizes r) 0 ≤ i ∧ i < pyUpper (sizes r) (some (-2)) then
      0 + glob sizes F r i j else 0) = if psum sizes r + i + 1 < N then F (psum sizes r + i) j else 0 := by
    simp only [pyUpper_m2, decide_eq_true_eq, pyBound_0, glob, imp_iff_not_or]
    split_ifs <;> first | omega | (simp; done)
  rw [ht, hb1, hb2]
  simp only [sdAdjWrong, glob]
  ring

/-! ### rows that do not exist -/

theorem get_row_raises {m : Nat} {f : Nat → Nat → K} {i : Int} (h : ¬ (-(m : Int) ≤ i ∧ i < m)) : (rowsArr m rest dt f).get (Index.row i) = .error .index := by
  unfold NDArray.get Index.row
  have : ¬ (-(len (rowsArr m rest dt f).shape 0 : Int) ≤ i ∧ i < len (rowsArr m rest dt f).shape 0) := h
  simp only [if_neg this]
  rfl

theorem rowComb_raises {m : Nat} {g : Nat → Nat → K} {l : List (K × Int)} (hl : ∃ p ∈ l, ¬ (-(m : Int) ≤ p.2 ∧ p.2 < m)) :
    rowComb (rowsArr m rest dx g) l = .error .index := by
  induction l with
  | nil => simp at hl
  | cons p l ih =>
    by_cases h : -(m : Int) ≤ p.2 ∧ p.2 < m
    · have hl' : ∃ p ∈ l, ¬ (-(m : Int) ≤ p.2 ∧ p.2 < m) := by
        obtain ⟨q, hq, h'⟩ := hl
        rcases List.mem_cons.1 hq with rfl | hq
        · exact absurd h h'
        · exact ⟨q, hq, h'⟩
      cases l with
      | nil => simp at hl'
      | cons q l =>
        rw [rowComb, ih hl', get_row h.1 h.2]
        · rfl
        · intro h
          cases h
    · cases l with
      | nil => simp only [rowComb, get_row_raises h]; rfl
      | cons q l =>
        rw [rowComb, get_row_raises h]
        · rfl
        · intro h
          cases h

variable {f g : Nat → Nat → Nat → K} {r : Nat} {i : Int} {l : List (K × Int)}

theorem setRow_raises (hl : ∃ p ∈ l, ¬ (-(sizes r : Int) ≤ p.2 ∧ p.2 < sizes r)) (y : DArr K) :
    setRow (env n J r) (rfam n N rest sizes dx g r) i l y = .throw .index := by
  unfold setRow
  simp only [Prog.bind_eq, rfam_larr]
  rw [rowComb_raises hl]
  rfl

theorem setRow_ret (hdt : dt = .real → dx = .real) (hg : ∀ r, Fit dx (g r)) (hl : l ≠ []) (hstar : ∀ p ∈ l, star p.1 = p.1)
    (h1 : -(sizes r : Int) ≤ i ∧ i < sizes r) (h2 : ∀ p ∈ l, -(sizes r : Int) ≤ p.2 ∧ p.2 < sizes r) :
    ∃ f', setRow (env n J r) (rfam n N rest sizes dx g r) i l (rfam n N rest sizes dt f r) = .ret (rfam n N rest sizes dt f' r) := by
  unfold setRow
  simp only [Prog.bind_eq, rfam_larr]
  rw [rowComb_rows hl h2, Prog.lift_ok, Prog.ret_bind, setItem_rfam, set_row h1.1 h1.2 (fit_comb hdt (hg r) hstar), Prog.lift_ok, Prog.ret_bind, rfam_with]
  exact ⟨fun _ => _, rfl⟩

theorem addRow_raises (hl : l ≠ []) (h2 : ∀ p ∈ l, -(sizes r : Int) ≤ p.2 ∧ p.2 < sizes r) (h1 : ¬ (-(sizes r : Int) ≤ i ∧ i < sizes r)) :
    addRow (env n J r) (rfam n N rest sizes dx g r) i l (rfam n N rest sizes dt f r) = .throw .index := by
  unfold addRow DArr.upd
  simp only [Prog.bind_eq, rfam_larr]
  rw [rowComb_rows hl h2, Prog.lift_ok, Prog.ret_bind, get_row_raises h1]
  rfl

theorem rankEnds_throw {α : Type} {ps : Nat → P K α} {m : Nat} {e : Err} (h : ps m = .throw e) : RankEnds n ps m (.error e) :=
  RankEnds.of_steps .refl h

/-- a negative number of rows to append -/
theorem stencil_raises_pad (hs : psum sizes n = N) (hn : 0 < n) {front back : Option Nat} (hroom : Room n sizes front back) {φ : NDArray K → Except Err (NDArray K)}
    {k : Nat} {ψ : (Nat → Nat → K) → Nat → Nat → K} (hφ : Combines rest φ k ψ) {kf : Option Int} {z : Int} (hkf : ∀ i, kf = some i → 0 ≤ i) (hz : z < 0) :
    RankEnds n (fun r => stencil (env n J r) (N :: rest) (rfam n N rest sizes dt (glob sizes F) r) front back φ kf (some z)) (n - 1) (.error .value) := by
  unfold stencil
  simp only [Prog.bind_eq]
  refine rankEnds_bind_ok (by omega) (runs_ghost_rows hs hroom) (rankEnds_throw ?_)
  rw [hφ, Prog.lift_ok, Prog.ret_bind, padFront_rows hkf, Prog.lift_ok, Prog.ret_bind]
  simp [padBack, zeroRows, hz, bind, Except.bind]

theorem fdMvCentered3_raises (hs : psum sizes n = N) (hn : 0 < n) (hN : 1 ≤ N) (hc : n = 1 ∨ ∀ r < n, 1 ≤ sizes r) (h2 : sizes (n - 1) < 2)
    (hdt : dt = .real → dx = .real) (hF : Fit dx F) :
    RankEnds n (fun r => fdMvCentered3 (env n J r) ⟨N :: rest, s, true, dt⟩ (rfam n N rest sizes dx (glob sizes F) r)) (n - 1) (.error .index) := by
  have hm : n - 1 < n := by omega
  unfold fdMvCentered3
  simp only [Prog.bind_eq]
  refine rankEnds_bind_ok hm (runs_newLike hs) ?_
  refine rankEnds_bind_ok hm (runs_stencil hs (room_rows hc (by simp) (by simp)) combines_cent3 (by simp) (kb := some (min ((N : Int) - 1) 1)) (by simp; omega)) ?_
  have f0 : ∀ r, Fit dt (blk n sizes (some 1) (some 1) 2 (some 1) (fun g i j => 1 / 2 * (g (2 + i) j - g (0 + i) j)) F r) := fun r h =>
    fit_blk (n := n) (sizes := sizes) (front := some 1) (back := some 1) (k := 2) (kf := some 1) hF (fun g hg i j => by simp [hg]) r (hdt h)
  refine rankEnds_bind_ok hm (runs_set_rows _ (fun r hr => length_junk r) f0 (by blklen hs hc)) (rankEnds_throw ?_)
  by_cases h1 : n = 1
  · subst h1
    simp only [env_rank, doIf, and_self, decide_true, if_true, show (1 : Nat) - 1 = 0 from rfl] at h2 ⊢
    rw [setRow_raises ⟨(1, 1), by simp, by simp; omega⟩]
    rfl
  · have h0 : n - 1 ≠ 0 := by omega
    simp only [env_rank, env_size, doIf, h0, and_self, and_false, decide_true, decide_false, if_true, Bool.false_eq_true, if_false, Prog.ret_bind]
    rw [setRow_raises ⟨(-1, -2), by simp, by simp; omega⟩]
    rfl

theorem fdMvCentered5_raises (hs : psum sizes n = N) (hn : 0 < n) (hN : 2 ≤ N) (hc : n = 1 ∨ ∀ r < n, 2 ≤ sizes r) (h2 : sizes (n - 1) = 2)
    (hdt : dt = .real → dx = .real) (hF : Fit dx F) :
    RankEnds n (fun r => fdMvCentered5 (env n J r) ⟨N :: rest, s, true, dt⟩ (rfam n N rest sizes dx (glob sizes F) r)) (n - 1) (.error .index) := by
  have hm : n - 1 < n := by omega
  unfold fdMvCentered5
  simp only [Prog.bind_eq]
  refine rankEnds_bind_ok hm (runs_newLike hs) ?_
  refine rankEnds_bind_ok hm (runs_stencil hs (room_rows hc (by simp) (by simp)) combines_cent5 (kf := some (min (N : Int) 2)) (by simp) (kb := some (min ((N : Int) - 2) 2)) (by simp; omega)) ?_
  have f0 : ∀ r, Fit dt (blk n sizes (some 2) (some 2) 4 (some (min (N : Int) 2)) (fun g i j => g (0 + i) j / 12 - 2 * g (1 + i) j / 3 + 2 * g (3 + i) j / 3 - g (4 + i) j / 12) F r) := fun r h =>
    fit_blk (n := n) (sizes := sizes) (front := some 2) (back := some 2) (k := 4) (kf := some (min (N : Int) 2)) hF (fun g hg i j => by simp [hg]) r (hdt h)
  refine rankEnds_bind_ok hm (runs_set_rows _ (fun r hr => length_junk r) f0 (by blklen hs hc)) (rankEnds_throw ?_)
  by_cases h1 : n = 1
  · subst h1
    simp only [env_rank, doIf, and_self, decide_true, if_true, show (1 : Nat) - 1 = 0 from rfl] at h2 ⊢
    obtain ⟨f', e⟩ := setRow_ret (n := 1) (N := N) (J := J) (rest := rest) (sizes := sizes) (r := 0) (i := 0) (l := [(1, 1), (-1, 0)]) hdt (fit_glob (sizes := sizes) hF)
      (f := blk 1 sizes (some 2) (some 2) 4 (some (min (N : Int) 2)) (fun g i j => g (0 + i) j / 12 - 2 * g (1 + i) j / 3 + 2 * g (3 + i) j / 3 - g (4 + i) j / 12) F)
      (by simp) (by simp) (by simp; omega) (by simp; omega)
    rw [e, Prog.ret_bind, setRow_raises ⟨(1 / 2, 2), by simp, by simp; omega⟩]
    rfl
  · have h0 : n - 1 ≠ 0 := by omega
    simp only [env_rank, env_size, doIf, h0, and_self, and_false, decide_true, decide_false, if_true, Bool.false_eq_true, if_false, Prog.ret_bind]
    obtain ⟨f', e⟩ := setRow_ret (n := n) (N := N) (J := J) (rest := rest) (sizes := sizes) (r := n - 1) (i := -1) (l := [(1, -1), (-1, -2)]) hdt (fit_glob (sizes := sizes) hF)
      (f := blk n sizes (some 2) (some 2) 4 (some (min (N : Int) 2)) (fun g i j => g (0 + i) j / 12 - 2 * g (1 + i) j / 3 + 2 * g (3 + i) j / 3 - g (4 + i) j / 12) F)
      (by simp) (by simp) (by simp; omega) (by simp; omega)
    rw [e, Prog.ret_bind, setRow_raises ⟨(-(1 / 2), -3), by simp, by simp; omega⟩]
    rfl

theorem sdMvCentered_raises (hs : psum sizes n = N) (hn : 0 < n) (hN : 1 ≤ N) (hc : n = 1 ∨ ∀ r < n, 1 ≤ sizes r) (h2 : sizes (n - 1) < 3)
    (hdt : dt = .real → dx = .real) (hF : Fit dx F) :
    RankEnds n (fun r => sdMvCentered (env n J r) ⟨N :: rest, s, true, dt⟩ (rfam n N rest sizes dx (glob sizes F) r)) (n - 1) (.error .index) := by
  have hm : n - 1 < n := by omega
  unfold sdMvCentered
  simp only [Prog.bind_eq]
  refine rankEnds_bind_ok hm (runs_newLike hs) ?_
  refine rankEnds_bind_ok hm (runs_stencil hs (room_rows hc (by simp) (by simp)) combines_diff2 (by simp) (kb := some (min 1 ((N : Int) - 1))) (by simp; omega)) ?_
  have f0 : ∀ r, Fit dt (blk n sizes (some 1) (some 1) 2 (some 1) (fun g i j => g (2 + i) j - 2 * g (1 + i) j + g (0 + i) j) F r) := fun r h =>
    fit_blk (n := n) (sizes := sizes) (front := some 1) (back := some 1) (k := 2) (kf := some 1) hF (fun g hg i j => by simp [hg]) r (hdt h)
  refine rankEnds_bind_ok hm (runs_set_rows _ (fun r hr => length_junk r) f0 (by blklen hs hc)) (rankEnds_throw ?_)
  by_cases h1 : n = 1
  · subst h1
    simp only [env_rank, doIf, and_self, decide_true, if_true, show (1 : Nat) - 1 = 0 from rfl] at h2 ⊢
    rw [setRow_raises ⟨(1, 2), by simp, by simp; omega⟩]
    rfl
  · have h0 : n - 1 ≠ 0 := by omega
    simp only [env_rank, env_size, doIf, h0, and_self, and_false, decide_true, decide_false, if_true, Bool.false_eq_true, if_false, Prog.ret_bind]
    rw [setRow_raises ⟨(1, -3), by simp, by simp; omega⟩]
    rfl

theorem fdMvCentered5_raises_one (hs : psum sizes 1 = 1) :
    RankEnds 1 (fun r => fdMvCentered5 (env 1 J r) ⟨1 :: rest, s, edge, dt⟩ (rfam 1 1 rest sizes dx (glob sizes F) r)) 0 (.error .value) := by
  unfold fdMvCentered5
  simp only [Prog.bind_eq]
  refine rankEnds_bind_ok (by omega) (runs_newLike hs) ?_
  exact RankEnds.bind_error (stencil_raises_pad hs (by omega) (fun r hr => by omega) combines_cent5 (kf := some (min ((1 : Nat) : Int) 2)) (z := min (((1 : Nat) : Int) - 2) 2)
    (by simp) (by simp)) _

/-! ### the adjoints -/

/-- an adjoint method that starts with a stencil for which some rank has too few rows -/
theorem methodAdj_raises (hs : psum sizes n = N) {front back : Option Nat} (hroom : ¬ Room n sizes front back) (φ : NDArray K → Except Err (NDArray K))
    (kf kb : DArr K → Option Int) (op : K → K → K) (g : Nat → DArr K → DArr K → P K (DArr K)) :
    ∃ m < n, RankEnds n (fun r => (newLike (env n J r) dt (rfam n N rest sizes dx (glob sizes F) r)).bind fun y => (y.setAll (env n J r) (scalar .real 0)).bind fun y =>
      (accum (env n J r) (N :: rest) (rfam n N rest sizes dx (glob sizes F) r) front back φ (kf y) (kb y) op y).bind (g r y)) m (.error .value) := by
  obtain ⟨m, hm, h⟩ := ghost_rows_raises (J := J) (rest := rest) (dt := dx) (F := F) hs hroom
  refine ⟨m, hm, rankEnds_bind_ok hm (runs_newLike hs) (rankEnds_bind_ok hm (runs_zero _ fun r _ => length_junk r) ?_)⟩
  refine RankEnds.bind_error (ps := fun r => accum (env n J r) (N :: rest) (rfam n N rest sizes dx (glob sizes F) r) front back φ
    (kf (rfam n N rest sizes dt (fun _ _ _ => 0) r)) (kb (rfam n N rest sizes dt (fun _ _ _ => 0) r)) op (rfam n N rest sizes dt (fun _ _ _ => 0) r)) ?_ _
  unfold accum stencil
  simp only [Prog.bind_eq, Prog.bind_assoc]
  exact h.bind_error _

theorem fdRmvForward_raises (hs : psum sizes n = N) (hroom : ¬ Room n sizes (some 1) none) (hdt : dt = .real → dx = .real) (hF : Fit dx F) :
    ∃ m < n, RankEnds n (fun r => fdRmvForward (env n J r) ⟨N :: rest, s, edge, dt⟩ (rfam n N rest sizes dx (glob sizes F) r)) m (.error .value) := by
  obtain ⟨m, hm, h⟩ := ghost_rows_raises (J := J) (rest := rest) (dt := dx) (F := F) hs hroom
  refine ⟨m, hm, ?_⟩
  unfold fdRmvForward
  simp only [Prog.bind_eq]
  refine rankEnds_bind_ok hm (runs_newLike hs) ?_
  refine rankEnds_bind_ok hm (runs_zero _ fun r _ => length_junk r) ?_
  obtain ⟨e1, f1⟩ := runs_addPart (n := n) (N := N) (J := J) (rest := rest) (sizes := sizes) (f := fun _ _ _ => (0 : K)) hdt hop_sub (fun r h i j => star_zero _) (fit_glob (sizes := sizes) hF)
    (fun r => decide (r = n - 1)) 0 (some (-1))
  refine rankEnds_bind_ok hm e1 ?_
  unfold accum stencil
  simp only [Prog.bind_eq, Prog.bind_assoc]
  exact h.bind_error _

theorem sdRmvForward_raises (hs : psum sizes n = N) (hn : 2 ≤ n) (hN : 1 ≤ N) (hroom : ¬ Room n sizes (some 2) none) (hdt : dt = .real → dx = .real) (hF : Fit dx F)
    (hc : (∀ r < n, 1 ≤ sizes r) ∨ ¬ Room n sizes (some 1) (some 1)) :
    ∃ m < n, RankEnds n (fun r => sdRmvForward (env n J r) ⟨N :: rest, s, edge, dt⟩ (rfam n N rest sizes dx (glob sizes F) r)) m (.error .value) := by
  unfold sdRmvForward
  simp only [Prog.bind_eq]
  obtain ⟨e1, f1⟩ := runs_addPart (n := n) (N := N) (J := J) (rest := rest) (sizes := sizes) (f := fun _ _ _ => (0 : K)) hdt hop_add (fun r h i j => star_zero _) (fit_glob (sizes := sizes) hF)
    (fun r => decide (r = n - 1)) 0 (some (-2))
  rcases hc with hc | hc
  · replace hc : n = 1 ∨ ∀ r < n, 1 ≤ sizes r := .inr hc
    obtain ⟨m, hm, h⟩ := ghost_rows_raises (J := J) (rest := rest) (dt := dx) (F := F) hs hroom
    refine ⟨m, hm, ?_⟩
    refine rankEnds_bind_ok hm (runs_newLike hs) ?_
    refine rankEnds_bind_ok hm (runs_zero _ fun r _ => length_junk r) ?_
    refine rankEnds_bind_ok hm e1 ?_
    obtain ⟨e2, f2⟩ := runs_accum (N := N) (J := J) (rest := rest) hs (room_rows hc (front := some 1) (back := some 1) (by simp) (by simp))
      (combines_part 0 (some (-2)) id 2 (fun m => by rw [pyUpper_m2]; omega))
      (kf := some 1) (kb := some (min 1 ((N : Int) - 1))) (by simp) (by simp; omega) hdt hop_sub2 f1 hF
      (fun g hg i j => by simp [hg]) (by blklen hs hc)
    refine rankEnds_bind_ok hm e2 ?_
    unfold accum stencil
    simp only [Prog.bind_eq, Prog.bind_assoc]
    exact h.bind_error _
  · obtain ⟨m, hm, h⟩ := ghost_rows_raises (J := J) (rest := rest) (dt := dx) (F := F) hs hc
    refine ⟨m, hm, ?_⟩
    refine rankEnds_bind_ok hm (runs_newLike hs) ?_
    refine rankEnds_bind_ok hm (runs_zero _ fun r _ => length_junk r) ?_
    refine rankEnds_bind_ok hm e1 ?_
    unfold accum stencil
    simp only [Prog.bind_eq, Prog.bind_assoc]
    exact h.bind_error _

theorem fdRmvCentered3_raises (hE : edge = true) (hs : psum sizes 1 = 1) (hdt : dt = .real → dx = .real) (hF : Fit dx F) :
    RankEnds 1 (fun r => fdRmvCentered3 (env 1 J r) ⟨1 :: rest, s, edge, dt⟩ (rfam 1 1 rest sizes dx (glob sizes F) r)) 0 (.error .index) := by
  have hm : 0 < 1 := by omega
  have h0 : sizes 0 = 1 := by simpa [psum] using hs
  have hc : 1 = 1 ∨ ∀ r < 1, 2 ≤ sizes r := .inl rfl
  unfold fdRmvCentered3
  simp only [Prog.bind_eq]
  refine rankEnds_bind_ok hm (runs_newLike hs) ?_
  refine rankEnds_bind_ok hm (runs_zero _ fun r _ => length_junk r) ?_
  obtain ⟨e1, f1⟩ := runs_accum (N := 1) (J := J) (rest := rest) hs (room_rows hc (front := none) (back := some 2) (by simp) (by simp))
    (combines_part 1 (some (-1)) (1 / 2 * ·) 2 (fun m => by rw [pyUpper_m1]; omega))
    (kf := none) (kb := some (min ((1 : Nat) : Int) 2)) (by simp) (by simp) hdt hop_sub (f := fun _ _ _ => (0 : K)) (fun r h i j => star_zero _) hF
    (fun g hg i j => by simp [hg]) (by blklen hs hc)
  refine rankEnds_bind_ok hm e1 ?_
  obtain ⟨e2, f2⟩ := runs_accum (N := 1) (J := J) (rest := rest) hs (room_rows hc (front := some 2) (back := none) (by simp) (by simp))
    (combines_part 1 (some (-1)) (1 / 2 * ·) 2 (fun m => by rw [pyUpper_m1]; omega))
    (kf := some (min ((1 : Nat) : Int) 2)) (kb := none) (by simp) (by simp) hdt hop_add f1 hF
    (fun g hg i j => by simp [hg]) (by blklen hs hc)
  refine rankEnds_bind_ok hm e2 ?_
  obtain ⟨e3, f3⟩ := runs_addRow (n := 1) (N := 1) (J := J) (rest := rest) (sizes := sizes) hdt f2 (fit_glob (sizes := sizes) hF)
    (fun r => decide (edge = true ∧ r = 0)) 0 [(-1, 0)] (by simp) (by simp) (by
      intro r hr _
      obtain rfl : r = 0 := by omega
      simp; omega)
  refine rankEnds_bind_ok hm e3 (rankEnds_throw ?_)
  simp only [env_rank, doIf, hE, and_self, decide_true, if_true]
  rw [addRow_raises (by simp) (by simp; omega) (by simp; omega)]
  rfl

theorem fdRmvCentered5_raises (hs : psum sizes 1 = N) (hN : 1 ≤ N) (hN3 : N < 3) (hdt : dt = .real → dx = .real) (hF : Fit dx F) :
    RankEnds 1 (fun r => fdRmvCentered5 (env 1 J r) ⟨N :: rest, s, edge, dt⟩ (rfam 1 N rest sizes dx (glob sizes F) r)) 0 (.error .value) := by
  have hm : 0 < 1 := by omega
  have hc : 1 = 1 ∨ ∀ r < 1, 4 ≤ sizes r := .inl rfl
  unfold fdRmvCentered5
  simp only [Prog.bind_eq]
  refine rankEnds_bind_ok hm (runs_newLike hs) ?_
  refine rankEnds_bind_ok hm (runs_zero _ fun r _ => length_junk r) ?_
  obtain ⟨e1, f1⟩ := runs_accum (N := N) (J := J) (rest := rest) hs (room_rows hc (front := none) (back := some 4) (by simp) (by simp))
    (combines_part 2 (some (-2)) (· / 12) 4 (fun m => by rw [pyUpper_m2]; omega))
    (kf := none) (kb := some (min (N : Int) 4)) (by simp) (by simp) hdt hop_add (f := fun _ _ _ => (0 : K)) (fun r h i j => star_zero _) hF
    (fun g hg i j => by simp [hg]) (by blklen hs hc)
  refine rankEnds_bind_ok hm e1 ?_
  obtain ⟨e2, f2⟩ := runs_accum (N := N) (J := J) (rest := rest) hs (room_rows hc (front := some 1) (back := some 3) (by simp) (by simp))
    (combines_part 2 (some (-2)) (2 * · / 3) 4 (fun m => by rw [pyUpper_m2]; omega))
    (kf := some 1) (kb := some (min ((N : Int) - 1) 3)) (by simp) (by simp; omega) hdt hop_sub f1 hF
    (fun g hg i j => by simp [hg]) (by blklen hs hc)
  refine rankEnds_bind_ok hm e2 ?_
  unfold accum
  simp only [Prog.bind_eq, Prog.bind_assoc]
  exact RankEnds.bind_error (stencil_raises_pad hs (by omega) (room_rows hc (front := some 3) (back := some 1) (by simp) (by simp))
    (combines_part 2 (some (-2)) (2 * · / 3) 4 (fun m => by rw [pyUpper_m2]; omega)) (kf := some (min (N : Int) 3)) (z := min ((N : Int) - 3) 1)
    (by simp) (by omega)) _

theorem sdRmvCentered_raises (hE : edge = true) (hs : psum sizes n = N) (hn : 0 < n) (hN : 1 ≤ N) (hc : n = 1 ∨ ∀ r < n, 2 ≤ sizes r) (h2 : sizes (n - 1) < 3)
    (hdt : dt = .real → dx = .real) (hF : Fit dx F) :
    RankEnds n (fun r => sdRmvCentered (env n J r) ⟨N :: rest, s, edge, dt⟩ (rfam n N rest sizes dx (glob sizes F) r)) (n - 1) (.error .index) := by
  have hm : n - 1 < n := by omega
  have hl : 1 ≤ sizes (n - 1) := by
    rcases hc with rfl | hc
    · have : sizes 0 = N := by simpa [psum] using hs
      show 1 ≤ sizes 0
      omega
    · have := hc (n - 1) hm
      omega
  unfold sdRmvCentered
  simp only [Prog.bind_eq]
  refine rankEnds_bind_ok hm (runs_newLike hs) ?_
  refine rankEnds_bind_ok hm (runs_zero _ fun r _ => length_junk r) ?_
  obtain ⟨e1, f1⟩ := runs_accum (N := N) (J := J) (rest := rest) hs (room_rows hc (front := none) (back := some 2) (by simp) (by simp))
    (combines_part 1 (some (-1)) id 2 (fun m => by rw [pyUpper_m1]; omega))
    (kf := none) (kb := some (min 2 (N : Int))) (by simp) (by simp) hdt hop_add (f := fun _ _ _ => (0 : K)) (fun r h i j => star_zero _) hF
    (fun g hg i j => by simp [hg]) (by blklen hs hc)
  refine rankEnds_bind_ok hm e1 ?_
  obtain ⟨e2, f2⟩ := runs_accum (N := N) (J := J) (rest := rest) hs (room_rows hc (front := some 1) (back := some 1) (by simp) (by simp))
    (combines_part 1 (some (-1)) (2 * ·) 2 (fun m => by rw [pyUpper_m1]; omega))
    (kf := some 1) (kb := some (min 1 ((N : Int) - 1))) (by simp) (by simp; omega) hdt hop_sub f1 hF
    (fun g hg i j => by simp [hg]) (by blklen hs hc)
  refine rankEnds_bind_ok hm e2 ?_
  obtain ⟨e3, f3⟩ := runs_accum (N := N) (J := J) (rest := rest) hs (room_rows hc (front := some 2) (back := none) (by simp) (by simp))
    (combines_part 1 (some (-1)) id 2 (fun m => by rw [pyUpper_m1]; omega))
    (kf := some (min 2 (N : Int))) (kb := none) (by simp) (by simp) hdt hop_add f2 hF
    (fun g hg i j => by simp [hg]) (by blklen hs hc)
  refine rankEnds_bind_ok hm e3 ?_
  have hl0 : 1 ≤ sizes 0 := by
    rcases hc with rfl | hc
    · exact hl
    · have := hc 0 hn
      omega
  obtain ⟨e4, f4⟩ := runs_addRow (n := n) (N := N) (J := J) (rest := rest) (sizes := sizes) hdt f3 (fit_glob (sizes := sizes) hF)
    (fun r => decide (edge = true ∧ r = 0)) 0 [(1, 0)] (by simp) (by simp) (by
      intro r hr h
      obtain rfl : r = 0 := (of_decide_eq_true h).2
      simp; omega)
  refine rankEnds_bind_ok hm e4 ?_
  by_cases h1 : n = 1
  · subst h1
    simp only [show (1 : Nat) - 1 = 0 from rfl] at h2 hl ⊢
    by_cases h3 : sizes 0 = 1
    · refine rankEnds_throw ?_
      simp only [env_rank, doIf, hE, and_self, decide_true, if_true]
      rw [addRow_raises (by simp) (by simp; omega) (by simp; omega)]
      rfl
    · obtain ⟨e5, f5⟩ := runs_addRow (n := 1) (N := N) (J := J) (rest := rest) (sizes := sizes) hdt f4 (fit_glob (sizes := sizes) hF)
        (fun r => decide (edge = true ∧ r = 0)) 1 [(-2, 0)] (by simp) (by simp) (by
          intro r hr h
          obtain rfl : r = 0 := (of_decide_eq_true h).2
          simp; omega)
      refine rankEnds_bind_ok hm e5 (rankEnds_throw ?_)
      simp only [env_rank, doIf, hE, and_self, decide_true, if_true]
      rw [addRow_raises (by simp) (by simp; omega) (by simp; omega)]
      rfl
  · refine rankEnds_throw ?_
    have h0 : n - 1 ≠ 0 := by omega
    simp only [env_rank, env_size, doIf, hE, h0, and_self, and_false, decide_true, decide_false, if_true, Bool.false_eq_true, if_false, Prog.ret_bind]
    rw [addRow_raises (by simp) (by simp; omega) (by simp; omega)]
    rfl

/-! ### rows split by `local_split` -/

theorem balanced_ge' {c : Nat} (h : c * n ≤ N + 1) {r : Nat} (hr : r + 1 < n) : c ≤ balanced N n r := by
  have hn : 0 < n := by omega
  by_cases h' : c * n ≤ N
  · exact balanced_ge hn h' r
  · have h4 := Nat.div_add_mod N n
    have h5 := Nat.mod_lt N hn
    have e : n * c = c * n := Nat.mul_comm _ _
    obtain ⟨c, rfl⟩ : ∃ c', c = c' + 1 := ⟨c - 1, by rcases c with _ | c <;> simp at h' ⊢⟩
    have h6 : N / n = c := by
      refine Nat.div_eq_of_lt_le ?_ ?_
      · rw [Nat.add_mul] at h h'; omega
      · omega
    rw [h6] at h4
    rw [Nat.mul_add] at e
    unfold balanced
    rw [if_pos (by omega)]
    omega

theorem balanced_last' {c : Nat} (hn : 0 < n) (h : (c + 1) * n = N + 1) : balanced N n (n - 1) = c := by
  have h4 := Nat.div_add_mod N n
  have h5 := Nat.mod_lt N hn
  rw [Nat.add_mul] at h
  have h6 : N / n = c := Nat.div_eq_of_lt_le (by omega) (by rw [Nat.add_mul]; omega)
  rw [h6, Nat.mul_comm] at h4
  unfold balanced
  rw [if_neg (by omega), h6]

/-- some rank raises an exception in every execution that goes on long enough, whatever the input -/
def MethodRaises (n N : Nat) (rest : List Nat) (J : Nat → Nat → K) (o : Deriv K) (f : Ctx K → Deriv K → DArr K → P K (DArr K)) (dx : DType) : Prop :=
  ∀ F, Fit dx F → ∃ m < n, ∃ e, RankEnds n (fun r => f (env n J r) o (rfam n N rest (balanced N n) dx (glob (balanced N n) F) r)) m (.error e)

theorem total_fd (k : FDKind) (hn : 0 < n) (hN : 1 ≤ N) (hdt : dt = .real → dx = .real) (hs : star s = s) :
    Method n N rest J ⟨N :: rest, s, edge, dt⟩ (fdMv k) (fdAt k edge N) s dx ∨ MethodRaises n N rest J ⟨N :: rest, s, edge, dt⟩ (fdMv k) dx := by
  have ht := psum_balanced_total N hn
  by_cases hroom : fdRoom k edge n N
  · exact .inl (method_fd k hn hroom hdt hs)
  cases k with
  | forward =>
    have h : ¬ n ≤ N := hroom
    refine .inr fun F hF => ?_
    obtain ⟨m, hm, h⟩ := method_raises (J := J) (rest := rest) (dt := dt) (dx := dx) (F := F) ht (no_room (by omega) (c := 1) (by omega)) _ _ _ _
    exact ⟨m, hm, _, h⟩
  | backward =>
    have h : ¬ n ≤ N := hroom
    by_cases h1 : N + 1 < n
    · refine .inr fun F hF => ?_
      obtain ⟨m, hm, h⟩ := method_raises (J := J) (rest := rest) (dt := dt) (dx := dx) (F := F) ht (no_room' (by omega) (c := 1) (by omega)) _ _ _ _
      exact ⟨m, hm, _, h⟩
    · exact .inl fun F hF => ⟨(conj_fdAt .backward).fit hdt hF hs, runs_fdMvBackward' ht hN (fun r hr => balanced_ge' (by omega) hr) hdt hF hs⟩
  | centered3 =>
    have h : ¬ (if edge then 2 * n else n) ≤ N := hroom
    refine .inr fun F hF => ?_
    by_cases h1 : N < n
    · obtain ⟨m, hm, h⟩ := method_raises (J := J) (rest := rest) (dt := dt) (dx := dx) (F := F) ht (no_room (by omega) (c := 1) (by omega)) _ _ _ _
      exact ⟨m, hm, _, h⟩
    · cases edge with
      | false => simp at h; omega
      | true => exact ⟨n - 1, by omega, _, fdMvCentered3_raises ht hn hN (.inr fun r _ => balanced_ge hn (by omega) r)
          (balanced_last hn (by simp at h; omega)) hdt hF⟩
  | centered5 =>
    have h : ¬ (if edge then 3 * n else 2 * n) ≤ N := hroom
    refine .inr fun F hF => ?_
    by_cases h1 : N < 2 * n
    · by_cases h2 : n = 1
      · subst h2
        obtain rfl : N = 1 := by omega
        exact ⟨0, by omega, _, fdMvCentered5_raises_one ht⟩
      · obtain ⟨m, hm, h⟩ := method_raises (J := J) (rest := rest) (dt := dt) (dx := dx) (F := F) ht (no_room (by omega) (c := 2) (by omega)) _ _ _ _
        exact ⟨m, hm, _, h⟩
    · cases edge with
      | false => simp at h; omega
      | true =>
        have h3 : balanced N n (n - 1) < 3 := balanced_last hn (by simp at h; omega)
        have h4 : 2 ≤ balanced N n (n - 1) := balanced_ge hn (by omega) _
        exact ⟨n - 1, by omega, _, fdMvCentered5_raises ht hn (by omega) (.inr fun r _ => balanced_ge hn (by omega) r) (by omega) hdt hF⟩

theorem total_sd (k : SDKind) (hn : 0 < n) (hN : 1 ≤ N) (hdt : dt = .real → dx = .real) (hs : star s = s) :
    Method n N rest J ⟨N :: rest, s, edge, dt⟩ (sdMv k) (sdAt k edge N) (s ^ 2) dx ∨ MethodRaises n N rest J ⟨N :: rest, s, edge, dt⟩ (sdMv k) dx := by
  have ht := psum_balanced_total N hn
  by_cases hroom : sdRoom k edge n N
  · exact .inl (method_sd k hn hroom hdt hs)
  cases k with
  | forward =>
    have h : ¬ (2 * n ≤ N ∨ n = 1 ∧ 1 ≤ N) := hroom
    refine .inr fun F hF => ?_
    obtain ⟨m, hm, h⟩ := method_raises (J := J) (rest := rest) (dt := dt) (dx := dx) (F := F) ht (no_room (by omega) (c := 2) (by omega)) _ _ _ _
    exact ⟨m, hm, _, h⟩
  | backward =>
    have h : ¬ (2 * n ≤ N ∨ n = 1 ∧ 1 ≤ N) := hroom
    by_cases h1 : N + 1 < 2 * n
    · refine .inr fun F hF => ?_
      obtain ⟨m, hm, h⟩ := method_raises (J := J) (rest := rest) (dt := dt) (dx := dx) (F := F) ht (no_room' (by omega) (c := 2) (by omega)) _ _ _ _
      exact ⟨m, hm, _, h⟩
    · exact .inl fun F hF => ⟨(conj_sdAt .backward).fit hdt hF (star_sq hs), runs_sdMvBackward' ht hN (fun r hr => balanced_ge' (by omega) hr) hdt hF hs⟩
  | centered =>
    have h : ¬ (if edge then 3 * n else n) ≤ N := hroom
    refine .inr fun F hF => ?_
    by_cases h1 : N < n
    · obtain ⟨m, hm, h⟩ := method_raises (J := J) (rest := rest) (dt := dt) (dx := dx) (F := F) ht (no_room (by omega) (c := 1) (by omega)) _ _ _ _
      exact ⟨m, hm, _, h⟩
    · cases edge with
      | false => simp at h; omega
      | true => exact ⟨n - 1, by omega, _, sdMvCentered_raises ht hn hN (.inr fun r _ => balanced_ge hn (by omega) r)
          (balanced_last hn (by simp at h; omega)) hdt hF⟩

theorem total_fdAdj (k : FDKind) (hn : 0 < n) (hN : 1 ≤ N) (hsil : ¬ fdSilent k edge n N) (hdt : dt = .real → dx = .real) :
    fdRoomAdj k edge n N ∨ MethodRaises n N rest J ⟨N :: rest, s, edge, dt⟩ (fdRmv k) dx := by
  have ht := psum_balanced_total N hn
  by_cases hroom : fdRoomAdj k edge n N
  · exact .inl hroom
  refine .inr fun F hF => ?_
  cases k with
  | forward =>
    have h : ¬ n ≤ N := hroom
    have h' : ¬ (2 ≤ n ∧ N + 1 = n) := hsil
    obtain ⟨m, hm, h⟩ := fdRmvForward_raises (J := J) (rest := rest) (dt := dt) (s := s) (edge := edge) ht (no_room' (by omega) (c := 1) (by omega)) hdt hF
    exact ⟨m, hm, _, h⟩
  | backward =>
    have h : ¬ n ≤ N := hroom
    obtain ⟨m, hm, h⟩ := methodAdj_raises (J := J) (rest := rest) (dt := dt) (dx := dx) (F := F) ht (no_room (by omega) (c := 1) (by omega)) _ _ _ _ _
    exact ⟨m, hm, _, h⟩
  | centered3 =>
    have h : ¬ (2 * n ≤ N ∨ n = 1 ∧ edge = false ∧ 1 ≤ N) := hroom
    by_cases h1 : n = 1
    · subst h1
      obtain rfl : N = 1 := by omega
      cases edge with
      | false => simp at h
      | true => exact ⟨0, by omega, _, fdRmvCentered3_raises rfl ht hdt hF⟩
    · obtain ⟨m, hm, h⟩ := methodAdj_raises (J := J) (rest := rest) (dt := dt) (dx := dx) (F := F) ht (no_room (by omega) (c := 2) (by omega)) _ _ _ _ _
      exact ⟨m, hm, _, h⟩
  | centered5 =>
    have h : ¬ (4 * n ≤ N ∨ n = 1 ∧ edge = false ∧ 3 ≤ N) := hroom
    have h' : ¬ (edge = true ∧ n = 1 ∧ N = 3) := hsil
    by_cases h1 : n = 1
    · subst h1
      refine ⟨0, by omega, _, fdRmvCentered5_raises ht hN ?_ hdt hF⟩
      cases edge <;> simp at h h' <;> omega
    · obtain ⟨m, hm, h⟩ := methodAdj_raises (J := J) (rest := rest) (dt := dt) (dx := dx) (F := F) ht (no_room (by omega) (c := 4) (by omega)) _ _ _ _ _
      exact ⟨m, hm, _, h⟩

theorem total_sdAdj (k : SDKind) (hn : 0 < n) (hN : 1 ≤ N) (hsil : ¬ sdSilent k n N) (hdt : dt = .real → dx = .real) :
    sdRoomAdj k edge n N ∨ MethodRaises n N rest J ⟨N :: rest, s, edge, dt⟩ (sdRmv k) dx := by
  have ht := psum_balanced_total N hn
  by_cases hroom : sdRoomAdj k edge n N
  · exact .inl hroom
  refine .inr fun F hF => ?_
  cases k with
  | forward =>
    have h : ¬ (2 * n ≤ N ∨ n = 1 ∧ 1 ≤ N) := hroom
    have h' : ¬ (2 ≤ n ∧ N + 1 = 2 * n) := hsil
    obtain ⟨m, hm, h⟩ := sdRmvForward_raises (J := J) (rest := rest) (dt := dt) (s := s) (edge := edge) ht (by omega) hN (no_room' (by omega) (c := 2) (by omega)) hdt hF (by
      by_cases h2 : n ≤ N
      · exact .inl fun r _ => balanced_ge hn (by omega) r
      · exact .inr (no_room (by omega) (by omega)))
    exact ⟨m, hm, _, h⟩
  | backward =>
    have h : ¬ (2 * n ≤ N ∨ n = 1 ∧ 1 ≤ N) := hroom
    obtain ⟨m, hm, h⟩ := methodAdj_raises (J := J) (rest := rest) (dt := dt) (dx := dx) (F := F) ht (no_room (by omega) (c := 2) (by omega)) _ _ _ _ _
    exact ⟨m, hm, _, h⟩
  | centered =>
    have h : ¬ (if edge then 3 * n ≤ N else 2 * n ≤ N ∨ n = 1 ∧ 1 ≤ N) := hroom
    by_cases h1 : 2 * n ≤ N ∨ n = 1
    · have hE : edge = true := by
        cases edge with
        | false => simp at h; omega
        | true => rfl
      rw [if_pos hE] at h
      exact ⟨n - 1, by omega, _, sdRmvCentered_raises hE ht hn hN (h1.symm.imp id fun h r _ => balanced_ge hn h r) (balanced_last hn (by omega)) hdt hF⟩
    · obtain ⟨m, hm, h⟩ := methodAdj_raises (J := J) (rest := rest) (dt := dt) (dx := dx) (F := F) ht (no_room (by omega) (c := 2) (by omega)) _ _ _ _ _
      exact ⟨m, hm, _, h⟩

/-! ### redistribution included -/

variable {X : Layout}

theorem deriv_raises_scatter (hn : 0 < n) {o : Deriv K} (ho : o.dims = N :: rest) {f : Ctx K → Deriv K → DArr K → P K (DArr K)}
    (hf : MethodRaises n N rest J o f dx) (hc : Conform n X (.slab n N rest)) {d : List K} (hd : VSpace.Mem ⟨X, dx⟩ d) :
    ∃ m < n, ∃ e, RankEnds n (fun r => derivApply (env n J r) o f (VSpace.vec ⟨X, dx⟩ n d r)) m (.error e) := by
  by_cases hX : Near n X (.slab n N rest)
  · have hs := psum_balanced_total N hn
    have hlen : d.length = N * rest.prod := by rw [hd.1]; show X.gshape.prod = _; rw [hc.X1]; simp [Layout.rows]
    obtain ⟨m, hm, e, h⟩ := hf (entry rest.prod d) (fit_entry hd.2)
    refine ⟨m, hm, e, ?_⟩
    have hp : ∀ r, ¬ (VSpace.vec ⟨X, dx⟩ n d r : DArr K).part = .broadcast := fun r => by
      show ¬ X.part = .broadcast
      rw [hc.scX]; decide
    unfold derivApply reshaped
    simp only [Prog.bind_eq, if_neg (hp _), Prog.ret_bind, ho]
    refine rankEnds_bind_ok hm (runs_redistribute hc (LShapesOf.makes (.inr ⟨rfl, rfl⟩) hc) hX hd) ?_
    refine RankEnds.bind_error (RankEnds.congr_prog h (fun r hr => ?_) hm) _
    rw [vec_rows' hs hr hlen]
  · obtain ⟨m, hm, h⟩ := deriv_raises (J := J) ho f hc hX hd
    exact ⟨m, hm, _, h⟩

theorem deriv_raises_all (hn : 0 < n) {o : Deriv K} (ho : o.dims = N :: rest) {f : Ctx K → Deriv K → DArr K → P K (DArr K)}
    (hf : MethodRaises n N rest J o f dx) {d : List K} (hd : VSpace.Mem ⟨.all (N * rest.prod), dx⟩ d) :
    ∃ m < n, ∃ e, RankEnds n (fun r => derivApply (env n J r) o f (VSpace.vec ⟨.all (N * rest.prod), dx⟩ n d r)) m (.error e) := by
  by_cases hX : Near n (.lin (N * rest.prod) (balanced (N * rest.prod) n)) (.slab n N rest)
  · have hs := psum_balanced_total N hn
    have hlen : d.length = N * rest.prod := by rw [hd.1]; simp [Layout.all]
    have hw : (Layout.lin (N * rest.prod) (balanced (N * rest.prod) n)).WF n :=
      ⟨by simp [Layout.lin], fun _ => by simpa [Layout.lin, len] using psum_balanced_total _ hn, by simp [Layout.lin]⟩
    have hc : Conform n (.lin (N * rest.prod) (balanced (N * rest.prod) n)) (.slab n N rest) :=
      ⟨hw, rows_wf hs, by simp [Layout.lin, Layout.rows], rfl, rfl, rfl, rfl, rfl⟩
    obtain ⟨m, hm, e, h⟩ := hf (entry rest.prod d) (fit_entry hd.2)
    refine ⟨m, hm, e, ?_⟩
    have hp : ∀ r, (VSpace.vec ⟨.all (N * rest.prod), dx⟩ n d r : DArr K).part = .broadcast := fun r => rfl
    unfold derivApply reshaped
    simp only [Prog.bind_eq, if_pos (hp _), ho]
    have h1 := runs_toDist_none (J := J) (L := .lin (N * rest.prod) (balanced (N * rest.prod) n)) (x := ⟨[N * rest.prod], dx, d⟩) hw
      (fun _ => by simp [Layout.lin, len]) rfl (by simpa [NDArray.WF] using hlen) hd.2
    refine rankEnds_bind_ok hm h1 ?_
    refine rankEnds_bind_ok hm (runs_redistribute hc (LShapesOf.makes (.inr ⟨rfl, rfl⟩) hc) hX ⟨by simpa [Layout.lin] using hlen, hd.2⟩) ?_
    refine RankEnds.bind_error (RankEnds.congr_prog h (fun r hr => ?_) hm) _
    rw [vec_rows' hs hr hlen]
  · obtain ⟨m, hm, h⟩ := deriv_raises_bcast (J := J) hn ho f hX hd
    exact ⟨m, hm, _, h⟩

theorem deriv_raises_in (hn : 0 < n) {o : Deriv K} (ho : o.dims = N :: rest) {f : Ctx K → Deriv K → DArr K → P K (DArr K)}
    (hf : MethodRaises n N rest J o f dx) (hX : VecIn n (N * rest.prod) X) {d : List K} (hd : VSpace.Mem ⟨X, dx⟩ d) :
    ∃ m < n, ∃ e, RankEnds n (fun r => derivApply (env n J r) o f (VSpace.vec ⟨X, dx⟩ n d r)) m (.error e) := by
  rcases hX with ⟨hw, hg, hp⟩ | rfl
  · exact deriv_raises_scatter hn ho hf (conform_slab hn hw hg hp) hd
  · exact deriv_raises_all hn ho hf hd

theorem deriv_total (hn : 0 < n) {o : Deriv K} (ho : o.dims = N :: rest) {f : Ctx K → Deriv K → DArr K → P K (DArr K)} {D : (Nat → K) → Nat → K} {t : K}
    (hf : Method n N rest J o f D t dx ∨ MethodRaises n N rest J o f dx) (hX : VecIn n (N * rest.prod) X) {d : List K} (hd : VSpace.Mem ⟨X, dx⟩ d) :
    Always n (fun r => derivApply (env n J r) o f (VSpace.vec ⟨X, dx⟩ n d r))
        (fun r => .ok (VSpace.vec ⟨.flat n N rest, o.dtype⟩ n (alongRows D t N rest.prod d) r)) ∨
      ∃ m < n, ∃ e, RankEnds n (fun r => derivApply (env n J r) o f (VSpace.vec ⟨X, dx⟩ n d r)) m (.error e) := by
  rcases hX with ⟨hw, hg, hp⟩ | rfl
  · have hc := conform_slab (rest := rest) hn hw hg hp
    rcases hf with hf | hf
    · by_cases hN : Near n X (.slab n N rest)
      · exact .inl (deriv_scatter (J := J) hn ho hf hc hN d hd).2
      · obtain ⟨m, hm, h⟩ := deriv_raises (J := J) ho f hc hN hd
        exact .inr ⟨m, hm, _, h⟩
    · exact .inr (deriv_raises_scatter hn ho hf hc hd)
  · rcases hf with hf | hf
    · by_cases hN : Near n (.lin (N * rest.prod) (balanced (N * rest.prod) n)) (.slab n N rest)
      · exact .inl (deriv_bcast (J := J) hn ho hf hN d hd).2
      · obtain ⟨m, hm, h⟩ := deriv_raises_bcast (J := J) hn ho f hN hd
        exact .inr ⟨m, hm, _, h⟩
    · exact .inr (deriv_raises_all hn ho hf hd)

end Verif

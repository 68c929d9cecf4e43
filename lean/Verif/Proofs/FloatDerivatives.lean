/- The finite-difference methods with arbitrary arithmetic: each entry is the result of the operations in Spec/FloatDerivatives.lean on the entries of the same column. -/
import Verif.Proofs.FloatStencil
import Verif.Proofs.FirstDerivative
import Verif.Proofs.SecondDerivative

namespace Verif
open NDArray

variable {K : Type} (A : ArrArith K)
variable {n N : Nat} {J : Nat → Nat → K} {rest : List Nat} {sizes : Nat → Nat} {dt dx : DType} {F : Nat → Nat → K} {s s2 : K} {edge : Bool}

/-- entries of a block -/
macro "ablkeq" hs:term:max h:term:max F:ident : tactic => `(tactic| (
  intro r hr i hi j
  obtain ⟨h1, h2, h3, h4, h5, h6, h7⟩ := pos_rows $hs $h hr
  simp only [ablk, pf, gf, gb, Option.getD, ArrArith.orZero, id]
  split_ifs <;> first | omega | rfl | (unify_idx $F; rfl)))

/-- hypotheses of a row at an end: where it is -/
macro "arow" hs:term:max he:term:max : tactic => `(tactic| (
  intro r hr h
  have h' := of_decide_eq_true h
  have hr' := $he h'.1 r hr (by first | exact Or.inl h'.2 | exact Or.inr h'.2)
  obtain ⟨h1, h2, h3, h4, h5, h6, h7⟩ := pos_rows (c := 0) $hs (Or.inr fun _ _ => Nat.zero_le _) hr
  have h8 := h'.2
  simp only [RowIs, AtRow, pyBound_0, pyBound_1, pyBound_2, pyBound_m1, pyBound_m2, pyBound_m3]
  refine ⟨⟨⟨?_, ?_⟩, fun q hq => ⟨fun e => ?_, fun e => ?_⟩⟩, ⟨⟨?_, ?_⟩, ?_⟩, ⟨⟨?_, ?_⟩, ?_⟩, ⟨⟨?_, ?_⟩, ?_⟩⟩ <;> omega))

/-- hypotheses of a row at an end: other ranks do not have it -/
macro "anorow" hs:term:max he:term:max : tactic => `(tactic| (
  intro r hr h hed q hq
  have h' := of_decide_eq_false h
  have hr' := pos_edge $hs $he hed hr
  simp only [hed, true_and] at h'
  have := off_rows_le $hs hr
  omega))

theorem a_fdMvForward (hs : psum sizes n = N) (hN : 1 ≤ N) (hc : n = 1 ∨ ∀ r < n, 1 ≤ sizes r) :
    Runs n (fun r => A.fdMvForward (env n J r) ⟨N :: rest, s, edge, dt⟩ (rfam n N rest sizes dx (glob sizes F) r))
      (fun r => .ok (rfam n N rest sizes dt (glob sizes fun p j => A.fdEntry dt edge N s (fun q => F q j) p .forward) r)) := by
  unfold ArrArith.fdMvForward
  simp only [Prog.bind_eq]
  refine Runs.bind_ok (a_newLike A.toArith hs) ?_
  refine Runs.bind_ok (a_stencil A.toArith hs (room_rows hc (front := none) (back := some 1) (by simp) (by simp)) (acombines_diff1 A) (kf := none) (kb := some 1) (by simp) (by simp) (by blklen hs hc)
    (B := fun p j => A.orZero (p + 1 < N) (A.sub (F (p + 1) j) (F p j))) (by ablkeq hs hc F)) ?_
  simp only [map_rows]
  exact a_set_rows A.toArith (G := fun p j => A.div (A.orZero (p + 1 < N) (A.sub (F (p + 1) j) (F p j))) s) fun r _ => length_aJunk A.toArith r

theorem a_fdMvBackward (hs : psum sizes n = N) (hN : 1 ≤ N) (hc : n = 1 ∨ ∀ r < n, 1 ≤ sizes r) :
    Runs n (fun r => A.fdMvBackward (env n J r) ⟨N :: rest, s, edge, dt⟩ (rfam n N rest sizes dx (glob sizes F) r))
      (fun r => .ok (rfam n N rest sizes dt (glob sizes fun p j => A.fdEntry dt edge N s (fun q => F q j) p .backward) r)) := by
  unfold ArrArith.fdMvBackward
  simp only [Prog.bind_eq]
  refine Runs.bind_ok (a_newLike A.toArith hs) ?_
  refine Runs.bind_ok (a_stencil A.toArith hs (room_rows hc (front := some 1) (back := none) (by simp) (by simp)) (acombines_diff1 A) (kf := some 1) (kb := none) (by simp) (by simp) (by blklen hs hc)
    (B := fun p j => A.orZero (1 ≤ p) (A.sub (F p j) (F (p - 1) j))) (by ablkeq hs hc F)) ?_
  simp only [map_rows]
  exact a_set_rows A.toArith (G := fun p j => A.div (A.orZero (1 ≤ p) (A.sub (F p j) (F (p - 1) j))) s) fun r _ => length_aJunk A.toArith r

theorem a_fdMvCentered3 (hs : psum sizes n = N) (hN : 1 ≤ N) (hc : n = 1 ∨ ∀ r < n, 1 ≤ sizes r) (he : EdgeRoom n sizes edge 2) :
    Runs n (fun r => A.fdMvCentered3 (env n J r) ⟨N :: rest, s, edge, dt⟩ (rfam n N rest sizes dx (glob sizes F) r))
      (fun r => .ok (rfam n N rest sizes dt (glob sizes fun p j => A.fdEntry dt edge N s (fun q => F q j) p .centered3) r)) := by
  unfold ArrArith.fdMvCentered3
  simp only [Prog.bind_eq]
  refine Runs.bind_ok (a_newLike A.toArith hs) ?_
  refine Runs.bind_ok (a_stencil A.toArith hs (room_rows hc (front := some 1) (back := some 1) (by simp) (by simp)) (acombines_cent3 A) (kf := some 1) (kb := some (min ((N : Int) - 1) 1)) (by simp) (by simp; omega) (by blklen hs hc)
    (B := fun p j => A.orZero (1 ≤ p ∧ p + 1 < N) (A.mul A.half (A.sub (F (p + 1) j) (F (p - 1) j)))) (by ablkeq hs hc F)) ?_
  refine Runs.bind_ok (a_set_rows A.toArith fun r _ => length_aJunk A.toArith r) ?_
  refine Runs.bind_ok (a_setRow A.toArith (b := fun r => decide (edge = true ∧ r = 0)) (edge := edge) (zp := 0) (zi := 1) (zj := 0) (zk := 0) (i := 1) (j := 0) (k := 0)
    (h := fun a b _ => A.sub a b) (c := fun q => q = 0) (fun r _ h => (of_decide_eq_true h).1) (by arow hs he) (by anorow hs he)) ?_
  refine Runs.bind_ok (a_setRow A.toArith (b := fun r => decide (edge = true ∧ r = n - 1)) (edge := edge) (zp := (-1)) (zi := (-1)) (zj := (-2)) (zk := (-2)) (i := N - 1) (j := N - 2) (k := N - 2)
    (h := fun a b _ => A.sub a b) (c := fun q => q + 1 = N) (fun r _ h => (of_decide_eq_true h).1) (by arow hs he) (by anorow hs he)) ?_
  refine (a_upd_scalar A.toArith (s := s) (op := A.div)).congr (fun _ _ => rfl) fun r hr => ?_
  congr 1
  refine rfam_congr fun i hi j _ => ?_
  simp only [glob, ArrArith.fdEntry, ArrArith.step, ArrArith.orZero, if_true]
  have hle := off_rows_le hs hr
  cases edge
  · simp only [Bool.false_eq_true, false_and, if_false]
  · have he0 := he rfl 0 (by omega) (Or.inl rfl)
    have hN2 : 2 ≤ N := he0.trans (by have := off_rows_le hs (show 0 < n by omega); omega)
    simp only [true_and]
    split_ifs <;> first | omega | rfl | (unify_idx F; rfl)

theorem a_fdMvCentered5 (hs : psum sizes n = N) (hN : 2 ≤ N) (hc : n = 1 ∨ ∀ r < n, 2 ≤ sizes r) (he : EdgeRoom n sizes edge 3) :
    Runs n (fun r => A.fdMvCentered5 (env n J r) ⟨N :: rest, s, edge, dt⟩ (rfam n N rest sizes dx (glob sizes F) r))
      (fun r => .ok (rfam n N rest sizes dt (glob sizes fun p j => A.fdEntry dt edge N s (fun q => F q j) p .centered5) r)) := by
  unfold ArrArith.fdMvCentered5
  simp only [Prog.bind_eq]
  refine Runs.bind_ok (a_newLike A.toArith hs) ?_
  refine Runs.bind_ok (a_stencil A.toArith hs (room_rows hc (front := some 2) (back := some 2) (by simp) (by simp)) (acombines_cent5 A) (kf := some (min (N : Int) 2)) (kb := some (min ((N : Int) - 2) 2)) (by simp) (by simp; omega) (by blklen hs hc)
    (B := fun p j => A.orZero (2 ≤ p ∧ p + 2 < N) (A.sub (A.add (A.sub (A.div (F (p - 2) j) A.twelve) (A.div (A.mul A.two (F (p - 1) j)) A.three)) (A.div (A.mul A.two (F (p + 1) j)) A.three)) (A.div (F (p + 2) j) A.twelve))) (by ablkeq hs hc F)) ?_
  refine Runs.bind_ok (a_set_rows A.toArith fun r _ => length_aJunk A.toArith r) ?_
  refine Runs.bind_ok (a_setRow A.toArith (b := fun r => decide (edge = true ∧ r = 0)) (edge := edge) (zp := 0) (zi := 1) (zj := 0) (zk := 0) (i := 1) (j := 0) (k := 0)
    (h := fun a b _ => A.sub a b) (c := fun q => q = 0) (fun r _ h => (of_decide_eq_true h).1) (by arow hs he) (by anorow hs he)) ?_
  refine Runs.bind_ok (a_setRow A.toArith (b := fun r => decide (edge = true ∧ r = 0)) (edge := edge) (zp := 1) (zi := 2) (zj := 0) (zk := 0) (i := 2) (j := 0) (k := 0)
    (h := fun a b _ => A.mul A.half (A.sub a b)) (c := fun q => q = 1) (fun r _ h => (of_decide_eq_true h).1) (by arow hs he) (by anorow hs he)) ?_
  refine Runs.bind_ok (a_setRow A.toArith (b := fun r => decide (edge = true ∧ r = n - 1)) (edge := edge) (zp := (-1)) (zi := (-1)) (zj := (-2)) (zk := (-2)) (i := N - 1) (j := N - 2) (k := N - 2)
    (h := fun a b _ => A.sub a b) (c := fun q => q + 1 = N) (fun r _ h => (of_decide_eq_true h).1) (by arow hs he) (by anorow hs he)) ?_
  refine Runs.bind_ok (a_setRow A.toArith (b := fun r => decide (edge = true ∧ r = n - 1)) (edge := edge) (zp := (-2)) (zi := (-1)) (zj := (-3)) (zk := (-3)) (i := N - 1) (j := N - 3) (k := N - 3)
    (h := fun a b _ => A.mul A.half (A.sub a b)) (c := fun q => q + 2 = N) (fun r _ h => (of_decide_eq_true h).1) (by arow hs he) (by anorow hs he)) ?_
  refine (a_upd_scalar A.toArith (s := s) (op := A.div)).congr (fun _ _ => rfl) fun r hr => ?_
  congr 1
  refine rfam_congr fun i hi j _ => ?_
  simp only [glob, ArrArith.fdEntry, ArrArith.step, ArrArith.orZero, if_true]
  have hle := off_rows_le hs hr
  cases edge
  · simp only [Bool.false_eq_true, false_and, if_false]
  · have he0 := he rfl 0 (by omega) (Or.inl rfl)
    have hN2 : 3 ≤ N := he0.trans (by have := off_rows_le hs (show 0 < n by omega); omega)
    simp only [true_and]
    split_ifs <;> first | omega | rfl | (unify_idx F; rfl)

theorem a_sdMvForward (hs : psum sizes n = N) (hN : 1 ≤ N) (hc : n = 1 ∨ ∀ r < n, 2 ≤ sizes r) :
    Runs n (fun r => A.sdMvForward (env n J r) ⟨N :: rest, s, edge, dt⟩ (rfam n N rest sizes dx (glob sizes F) r))
      (fun r => (A.pySq s).map fun s2 => (rfam n N rest sizes dt (glob sizes fun p j => A.sdEntry dt edge N s2 (fun q => F q j) p .forward) r)) := by
  unfold ArrArith.sdMvForward
  simp only [Prog.bind_eq]
  refine Runs.bind_ok (a_newLike A.toArith hs) ?_
  refine Runs.bind_ok (a_stencil A.toArith hs (room_rows hc (front := none) (back := some 2) (by simp) (by simp)) (acombines_diff2 A) (kf := none) (kb := some (min (N : Int) 2)) (by simp) (by simp) (by blklen hs hc)
    (B := fun p j => A.orZero (p + 2 < N) (A.add (A.sub (F (p + 2) j) (A.mul A.two (F (p + 1) j))) (F p j))) (by ablkeq hs hc F)) ?_
  cases hq : A.pySq s with
  | error e => exact Runs.throw (fun _ => e)
  | ok s2 =>
  simp only [Prog.lift_ok, Prog.ret_bind]
  simp only [map_rows]
  exact a_set_rows A.toArith (G := fun p j => A.div (A.orZero (p + 2 < N) (A.add (A.sub (F (p + 2) j) (A.mul A.two (F (p + 1) j))) (F p j))) s2) fun r _ => length_aJunk A.toArith r

theorem a_sdMvBackward (hs : psum sizes n = N) (hN : 1 ≤ N) (hc : n = 1 ∨ ∀ r < n, 2 ≤ sizes r) :
    Runs n (fun r => A.sdMvBackward (env n J r) ⟨N :: rest, s, edge, dt⟩ (rfam n N rest sizes dx (glob sizes F) r))
      (fun r => (A.pySq s).map fun s2 => (rfam n N rest sizes dt (glob sizes fun p j => A.sdEntry dt edge N s2 (fun q => F q j) p .backward) r)) := by
  unfold ArrArith.sdMvBackward
  simp only [Prog.bind_eq]
  refine Runs.bind_ok (a_newLike A.toArith hs) ?_
  refine Runs.bind_ok (a_stencil A.toArith hs (room_rows hc (front := some 2) (back := none) (by simp) (by simp)) (acombines_diff2 A) (kf := some (min (N : Int) 2)) (kb := none) (by simp) (by simp) (by blklen hs hc)
    (B := fun p j => A.orZero (2 ≤ p) (A.add (A.sub (F p j) (A.mul A.two (F (p - 1) j))) (F (p - 2) j))) (by ablkeq hs hc F)) ?_
  cases hq : A.pySq s with
  | error e => exact Runs.throw (fun _ => e)
  | ok s2 =>
  simp only [Prog.lift_ok, Prog.ret_bind]
  simp only [map_rows]
  exact a_set_rows A.toArith (G := fun p j => A.div (A.orZero (2 ≤ p) (A.add (A.sub (F p j) (A.mul A.two (F (p - 1) j))) (F (p - 2) j))) s2) fun r _ => length_aJunk A.toArith r

theorem a_sdMvCentered (hs : psum sizes n = N) (hN : 1 ≤ N) (hc : n = 1 ∨ ∀ r < n, 1 ≤ sizes r) (he : EdgeRoom n sizes edge 3) :
    Runs n (fun r => A.sdMvCentered (env n J r) ⟨N :: rest, s, edge, dt⟩ (rfam n N rest sizes dx (glob sizes F) r))
      (fun r => (A.pySq s).map fun s2 => (rfam n N rest sizes dt (glob sizes fun p j => A.sdEntry dt edge N s2 (fun q => F q j) p .centered) r)) := by
  unfold ArrArith.sdMvCentered
  simp only [Prog.bind_eq]
  refine Runs.bind_ok (a_newLike A.toArith hs) ?_
  refine Runs.bind_ok (a_stencil A.toArith hs (room_rows hc (front := some 1) (back := some 1) (by simp) (by simp)) (acombines_diff2 A) (kf := some 1) (kb := some (min 1 ((N : Int) - 1))) (by simp) (by simp; omega) (by blklen hs hc)
    (B := fun p j => A.orZero (1 ≤ p ∧ p + 1 < N) (A.add (A.sub (F (p + 1) j) (A.mul A.two (F p j))) (F (p - 1) j))) (by ablkeq hs hc F)) ?_
  refine Runs.bind_ok (a_set_rows A.toArith fun r _ => length_aJunk A.toArith r) ?_
  refine Runs.bind_ok (a_setRow A.toArith (b := fun r => decide (edge = true ∧ r = 0)) (edge := edge) (zp := 0) (zi := 0) (zj := 1) (zk := 2) (i := 0) (j := 1) (k := 2)
    (h := fun a b d => A.add (A.sub a (A.mul A.two b)) d) (c := fun q => q = 0) (fun r _ h => (of_decide_eq_true h).1) (by arow hs he) (by anorow hs he)) ?_
  refine Runs.bind_ok (a_setRow A.toArith (b := fun r => decide (edge = true ∧ r = n - 1)) (edge := edge) (zp := (-1)) (zi := (-3)) (zj := (-2)) (zk := (-1)) (i := N - 3) (j := N - 2) (k := N - 1)
    (h := fun a b d => A.add (A.sub a (A.mul A.two b)) d) (c := fun q => q + 1 = N) (fun r _ h => (of_decide_eq_true h).1) (by arow hs he) (by anorow hs he)) ?_
  cases hq : A.pySq s with
  | error e => exact Runs.throw (fun _ => e)
  | ok s2 =>
  simp only [Prog.lift_ok, Prog.ret_bind]
  refine (a_upd_scalar A.toArith (s := s2) (op := A.div)).congr (fun _ _ => rfl) fun r hr => ?_
  congr 1
  refine rfam_congr fun i hi j _ => ?_
  simp only [glob, ArrArith.sdEntry, ArrArith.step, ArrArith.orZero, if_true]
  have hle := off_rows_le hs hr
  cases edge
  · simp only [Bool.false_eq_true, false_and, if_false]
  · have he0 := he rfl 0 (by omega) (Or.inl rfl)
    have hN2 : 3 ≤ N := he0.trans (by have := off_rows_le hs (show 0 < n by omega); omega)
    simp only [true_and]
    split_ifs <;> first | omega | rfl | (unify_idx F; rfl)

theorem a_fdRmvForward (hs : psum sizes n = N) (hN : 1 ≤ N) (hc : n = 1 ∨ ∀ r < n, 1 ≤ sizes r) (hdt : dt = .real → dx = .real) :
    Runs n (fun r => A.fdRmvForward (env n J r) ⟨N :: rest, s, edge, dt⟩ (rfam n N rest sizes dx (glob sizes F) r))
      (fun r => .ok (rfam n N rest sizes dt (glob sizes fun p j => A.fdEntryAdj dt edge N s (fun q => F q j) p .forward) r)) := by
  unfold ArrArith.fdRmvForward
  simp only [Prog.bind_eq]
  refine Runs.bind_ok (a_newLike A.toArith hs) ?_
  refine Runs.bind_ok (a_zero A.toArith fun r _ => length_aJunk A.toArith r) ?_
  refine Runs.bind_ok (a_addPart A.toArith hdt (op := A.sub) (fun r => decide (r = n - 1)) 0 (some (-1)) (c := fun p => p + 1 < N) (fun r hr i hi => by
    obtain ⟨h1, h2, h3, h4, h5, h6, h7⟩ := pos_rows hs hc hr
    simp only [pyUpper_m1, pyUpper_m2, pyUpper_none, decide_eq_true_eq, pyBound_0, pyBound_1, pyBound_2, imp_iff_not_or]
    omega)) ?_
  refine Runs.bind_ok (a_accum A.toArith hs (room_rows hc (front := some 1) (back := none) (by simp) (by simp))
    (combines_rowsOf A.toArith 0 (some (-1)) id 1 fun m => by rw [pyUpper_m1]; omega) (kf := some 1) (kb := none) (by simp) (by simp) (by blklen hs hc)
    (B := fun p j => A.orZero (1 ≤ p) (F (p - 1) j)) (by ablkeq hs hc F) hdt (op := A.add)) ?_
  refine (a_upd_scalar A.toArith (s := s) (op := A.div)).congr (fun _ _ => rfl) fun r hr => ?_
  simp only [ArrArith.fdEntryAdj, ArrArith.step, ArrArith.orZero, if_true]

theorem a_fdRmvBackward (hs : psum sizes n = N) (hN : 1 ≤ N) (hc : n = 1 ∨ ∀ r < n, 1 ≤ sizes r) (hdt : dt = .real → dx = .real) :
    Runs n (fun r => A.fdRmvBackward (env n J r) ⟨N :: rest, s, edge, dt⟩ (rfam n N rest sizes dx (glob sizes F) r))
      (fun r => .ok (rfam n N rest sizes dt (glob sizes fun p j => A.fdEntryAdj dt edge N s (fun q => F q j) p .backward) r)) := by
  unfold ArrArith.fdRmvBackward
  simp only [Prog.bind_eq]
  refine Runs.bind_ok (a_newLike A.toArith hs) ?_
  refine Runs.bind_ok (a_zero A.toArith fun r _ => length_aJunk A.toArith r) ?_
  refine Runs.bind_ok (a_accum A.toArith hs (room_rows hc (front := none) (back := some 1) (by simp) (by simp))
    (combines_rowsOf A.toArith 1 none id 1 fun m => by rw [pyUpper_none]; omega) (kf := none) (kb := some 1) (by simp) (by simp) (by blklen hs hc)
    (B := fun p j => A.orZero (p + 1 < N) (F (p + 1) j)) (by ablkeq hs hc F) hdt (op := A.sub)) ?_
  refine Runs.bind_ok (a_addPart A.toArith hdt (op := A.add) (fun r => decide (r = 0)) 1 none (c := fun p => 1 ≤ p) (fun r hr i hi => by
    obtain ⟨h1, h2, h3, h4, h5, h6, h7⟩ := pos_rows hs hc hr
    simp only [pyUpper_m1, pyUpper_m2, pyUpper_none, decide_eq_true_eq, pyBound_0, pyBound_1, pyBound_2, imp_iff_not_or]
    omega)) ?_
  refine (a_upd_scalar A.toArith (s := s) (op := A.div)).congr (fun _ _ => rfl) fun r hr => ?_
  simp only [ArrArith.fdEntryAdj, ArrArith.step, ArrArith.orZero, if_true]

theorem a_fdRmvCentered3 (hs : psum sizes n = N) (hN : 1 ≤ N) (hc : n = 1 ∨ ∀ r < n, 2 ≤ sizes r) (he : EdgeRoom n sizes edge 2) (hdt : dt = .real → dx = .real) :
    Runs n (fun r => A.fdRmvCentered3 (env n J r) ⟨N :: rest, s, edge, dt⟩ (rfam n N rest sizes dx (glob sizes F) r))
      (fun r => .ok (rfam n N rest sizes dt (glob sizes fun p j => A.fdEntryAdj dt edge N s (fun q => F q j) p .centered3) r)) := by
  unfold ArrArith.fdRmvCentered3
  simp only [Prog.bind_eq]
  refine Runs.bind_ok (a_newLike A.toArith hs) ?_
  refine Runs.bind_ok (a_zero A.toArith fun r _ => length_aJunk A.toArith r) ?_
  refine Runs.bind_ok (a_accum A.toArith hs (room_rows hc (front := none) (back := some 2) (by simp) (by simp))
    (combines_rowsOf A.toArith 1 (some (-1)) (A.mul A.half) 2 fun m => by rw [pyUpper_m1]; omega) (kf := none) (kb := some (min (N : Int) 2)) (by simp) (by simp) (by blklen hs hc)
    (B := fun p j => A.orZero (p + 2 < N) (A.mul A.half (F (p + 1) j))) (by ablkeq hs hc F) hdt (op := A.sub)) ?_
  refine Runs.bind_ok (a_accum A.toArith hs (room_rows hc (front := some 2) (back := none) (by simp) (by simp))
    (combines_rowsOf A.toArith 1 (some (-1)) (A.mul A.half) 2 fun m => by rw [pyUpper_m1]; omega) (kf := some (min (N : Int) 2)) (kb := none) (by simp) (by simp) (by blklen hs hc)
    (B := fun p j => A.orZero (2 ≤ p) (A.mul A.half (F (p - 1) j))) (by ablkeq hs hc F) hdt (op := A.add)) ?_
  refine Runs.bind_ok (a_updRow A.toArith hdt (b := fun r => decide (edge = true ∧ r = 0)) (edge := edge) (zp := 0) (zi := 0) (zj := 0) (zk := 0) (i := 0) (j := 0) (k := 0)
    (op := A.sub) (h := fun a _ _ => a) (c := fun q => q = 0) (fun r _ h => (of_decide_eq_true h).1) (by arow hs he) (by anorow hs he)) ?_
  refine Runs.bind_ok (a_updRow A.toArith hdt (b := fun r => decide (edge = true ∧ r = 0)) (edge := edge) (zp := 1) (zi := 0) (zj := 0) (zk := 0) (i := 0) (j := 0) (k := 0)
    (op := A.add) (h := fun a _ _ => a) (c := fun q => q = 1) (fun r _ h => (of_decide_eq_true h).1) (by arow hs he) (by anorow hs he)) ?_
  refine Runs.bind_ok (a_updRow A.toArith hdt (b := fun r => decide (edge = true ∧ r = n - 1)) (edge := edge) (zp := (-2)) (zi := (-1)) (zj := (-1)) (zk := (-1)) (i := N - 1) (j := N - 1) (k := N - 1)
    (op := A.sub) (h := fun a _ _ => a) (c := fun q => q + 2 = N) (fun r _ h => (of_decide_eq_true h).1) (by arow hs he) (by anorow hs he)) ?_
  refine Runs.bind_ok (a_updRow A.toArith hdt (b := fun r => decide (edge = true ∧ r = n - 1)) (edge := edge) (zp := (-1)) (zi := (-1)) (zj := (-1)) (zk := (-1)) (i := N - 1) (j := N - 1) (k := N - 1)
    (op := A.add) (h := fun a _ _ => a) (c := fun q => q + 1 = N) (fun r _ h => (of_decide_eq_true h).1) (by arow hs he) (by anorow hs he)) ?_
  refine (a_upd_scalar A.toArith (s := s) (op := A.div)).congr (fun _ _ => rfl) fun r hr => ?_
  simp only [ArrArith.fdEntryAdj, ArrArith.step, ArrArith.orZero, if_true]

theorem a_fdRmvCentered5 (hs : psum sizes n = N) (hN : 3 ≤ N) (hc : n = 1 ∨ ∀ r < n, 4 ≤ sizes r) (he : EdgeRoom n sizes edge 3) (hdt : dt = .real → dx = .real) :
    Runs n (fun r => A.fdRmvCentered5 (env n J r) ⟨N :: rest, s, edge, dt⟩ (rfam n N rest sizes dx (glob sizes F) r))
      (fun r => .ok (rfam n N rest sizes dt (glob sizes fun p j => A.fdEntryAdj dt edge N s (fun q => F q j) p .centered5) r)) := by
  unfold ArrArith.fdRmvCentered5
  simp only [Prog.bind_eq]
  refine Runs.bind_ok (a_newLike A.toArith hs) ?_
  refine Runs.bind_ok (a_zero A.toArith fun r _ => length_aJunk A.toArith r) ?_
  refine Runs.bind_ok (a_accum A.toArith hs (room_rows hc (front := none) (back := some 4) (by simp) (by simp))
    (combines_rowsOf A.toArith 2 (some (-2)) (A.div · A.twelve) 4 fun m => by rw [pyUpper_m2]; omega) (kf := none) (kb := some (min (N : Int) 4)) (by simp) (by simp) (by blklen hs hc)
    (B := fun p j => A.orZero (p + 4 < N) (A.div (F (p + 2) j) A.twelve)) (by ablkeq hs hc F) hdt (op := A.add)) ?_
  refine Runs.bind_ok (a_accum A.toArith hs (room_rows hc (front := some 1) (back := some 3) (by simp) (by simp))
    (combines_rowsOf A.toArith 2 (some (-2)) (fun x => A.div (A.mul A.two x) A.three) 4 fun m => by rw [pyUpper_m2]; omega) (kf := some 1) (kb := some (min ((N : Int) - 1) 3)) (by simp) (by simp; omega) (by blklen hs hc)
    (B := fun p j => A.orZero (1 ≤ p ∧ p + 3 < N) (A.div (A.mul A.two (F (p + 1) j)) A.three)) (by ablkeq hs hc F) hdt (op := A.sub)) ?_
  refine Runs.bind_ok (a_accum A.toArith hs (room_rows hc (front := some 3) (back := some 1) (by simp) (by simp))
    (combines_rowsOf A.toArith 2 (some (-2)) (fun x => A.div (A.mul A.two x) A.three) 4 fun m => by rw [pyUpper_m2]; omega) (kf := some (min (N : Int) 3)) (kb := some (min ((N : Int) - 3) 1)) (by simp) (by simp; omega) (by blklen hs hc)
    (B := fun p j => A.orZero (3 ≤ p ∧ p + 1 < N) (A.div (A.mul A.two (F (p - 1) j)) A.three)) (by ablkeq hs hc F) hdt (op := A.add)) ?_
  refine Runs.bind_ok (a_accum A.toArith hs (room_rows hc (front := some 4) (back := none) (by simp) (by simp))
    (combines_rowsOf A.toArith 2 (some (-2)) (A.div · A.twelve) 4 fun m => by rw [pyUpper_m2]; omega) (kf := some (min (N : Int) 4)) (kb := none) (by simp) (by simp) (by blklen hs hc)
    (B := fun p j => A.orZero (4 ≤ p) (A.div (F (p - 2) j) A.twelve)) (by ablkeq hs hc F) hdt (op := A.sub)) ?_
  refine Runs.bind_ok (a_updRow A.toArith hdt (b := fun r => decide (edge = true ∧ r = 0)) (edge := edge) (zp := 0) (zi := 0) (zj := 1) (zk := 1) (i := 0) (j := 1) (k := 1)
    (op := A.sub) (h := fun a b _ => A.add a (A.mul A.half b)) (c := fun q => q = 0) (fun r _ h => (of_decide_eq_true h).1) (by arow hs he) (by anorow hs he)) ?_
  refine Runs.bind_ok (a_updRow A.toArith hdt (b := fun r => decide (edge = true ∧ r = 0)) (edge := edge) (zp := 1) (zi := 0) (zj := 0) (zk := 0) (i := 0) (j := 0) (k := 0)
    (op := A.add) (h := fun a _ _ => a) (c := fun q => q = 1) (fun r _ h => (of_decide_eq_true h).1) (by arow hs he) (by anorow hs he)) ?_
  refine Runs.bind_ok (a_updRow A.toArith hdt (b := fun r => decide (edge = true ∧ r = 0)) (edge := edge) (zp := 2) (zi := 1) (zj := 1) (zk := 1) (i := 1) (j := 1) (k := 1)
    (op := A.add) (h := fun a _ _ => A.mul A.half a) (c := fun q => q = 2) (fun r _ h => (of_decide_eq_true h).1) (by arow hs he) (by anorow hs he)) ?_
  refine Runs.bind_ok (a_updRow A.toArith hdt (b := fun r => decide (edge = true ∧ r = n - 1)) (edge := edge) (zp := (-3)) (zi := (-2)) (zj := (-2)) (zk := (-2)) (i := N - 2) (j := N - 2) (k := N - 2)
    (op := A.sub) (h := fun a _ _ => A.mul A.half a) (c := fun q => q + 3 = N) (fun r _ h => (of_decide_eq_true h).1) (by arow hs he) (by anorow hs he)) ?_
  refine Runs.bind_ok (a_updRow A.toArith hdt (b := fun r => decide (edge = true ∧ r = n - 1)) (edge := edge) (zp := (-2)) (zi := (-1)) (zj := (-1)) (zk := (-1)) (i := N - 1) (j := N - 1) (k := N - 1)
    (op := A.sub) (h := fun a _ _ => a) (c := fun q => q + 2 = N) (fun r _ h => (of_decide_eq_true h).1) (by arow hs he) (by anorow hs he)) ?_
  refine Runs.bind_ok (a_updRow A.toArith hdt (b := fun r => decide (edge = true ∧ r = n - 1)) (edge := edge) (zp := (-1)) (zi := (-2)) (zj := (-1)) (zk := (-1)) (i := N - 2) (j := N - 1) (k := N - 1)
    (op := A.add) (h := fun a b _ => A.add (A.mul A.half a) b) (c := fun q => q + 1 = N) (fun r _ h => (of_decide_eq_true h).1) (by arow hs he) (by anorow hs he)) ?_
  refine (a_upd_scalar A.toArith (s := s) (op := A.div)).congr (fun _ _ => rfl) fun r hr => ?_
  simp only [ArrArith.fdEntryAdj, ArrArith.step, ArrArith.orZero, if_true]

theorem a_sdRmvForward (hs : psum sizes n = N) (hN : 1 ≤ N) (hc : n = 1 ∨ ∀ r < n, 2 ≤ sizes r) (hdt : dt = .real → dx = .real) :
    Runs n (fun r => A.sdRmvForward (env n J r) ⟨N :: rest, s, edge, dt⟩ (rfam n N rest sizes dx (glob sizes F) r))
      (fun r => (A.pySq s).map fun s2 => (rfam n N rest sizes dt (glob sizes fun p j => A.sdEntryAdj dt edge N s2 (fun q => F q j) p .forward) r)) := by
  unfold ArrArith.sdRmvForward
  simp only [Prog.bind_eq]
  refine Runs.bind_ok (a_newLike A.toArith hs) ?_
  refine Runs.bind_ok (a_zero A.toArith fun r _ => length_aJunk A.toArith r) ?_
  refine Runs.bind_ok (a_addPart A.toArith hdt (op := A.add) (fun r => decide (r = n - 1)) 0 (some (-2)) (c := fun p => p + 2 < N) (fun r hr i hi => by
    obtain ⟨h1, h2, h3, h4, h5, h6, h7⟩ := pos_rows hs hc hr
    simp only [pyUpper_m1, pyUpper_m2, pyUpper_none, decide_eq_true_eq, pyBound_0, pyBound_1, pyBound_2, imp_iff_not_or]
    omega)) ?_
  refine Runs.bind_ok (a_accum A.toArith hs (room_rows hc (front := some 1) (back := some 1) (by simp) (by simp))
    (combines_rowsOf A.toArith 0 (some (-2)) id 2 fun m => by rw [pyUpper_m2]; omega) (kf := some 1) (kb := some (min 1 ((N : Int) - 1))) (by simp) (by simp; omega) (by blklen hs hc)
    (B := fun p j => A.orZero (1 ≤ p ∧ p + 1 < N) (F (p - 1) j)) (by ablkeq hs hc F) hdt (op := fun a b => A.sub a (A.mul A.two b))) ?_
  refine Runs.bind_ok (a_accum A.toArith hs (room_rows hc (front := some 2) (back := none) (by simp) (by simp))
    (combines_rowsOf A.toArith 0 (some (-2)) id 2 fun m => by rw [pyUpper_m2]; omega) (kf := some (min (N : Int) 2)) (kb := none) (by simp) (by simp) (by blklen hs hc)
    (B := fun p j => A.orZero (2 ≤ p) (F (p - 2) j)) (by ablkeq hs hc F) hdt (op := A.add)) ?_
  cases hq : A.pySq s with
  | error e => exact Runs.throw (fun _ => e)
  | ok s2 =>
  simp only [Prog.lift_ok, Prog.ret_bind]
  refine (a_upd_scalar A.toArith (s := s2) (op := A.div)).congr (fun _ _ => rfl) fun r hr => ?_
  simp only [ArrArith.sdEntryAdj, ArrArith.step, ArrArith.orZero, if_true]
  rfl

theorem a_sdRmvBackward (hs : psum sizes n = N) (hN : 1 ≤ N) (hc : n = 1 ∨ ∀ r < n, 2 ≤ sizes r) (hdt : dt = .real → dx = .real) :
    Runs n (fun r => A.sdRmvBackward (env n J r) ⟨N :: rest, s, edge, dt⟩ (rfam n N rest sizes dx (glob sizes F) r))
      (fun r => (A.pySq s).map fun s2 => (rfam n N rest sizes dt (glob sizes fun p j => A.sdEntryAdj dt edge N s2 (fun q => F q j) p .backward) r)) := by
  unfold ArrArith.sdRmvBackward
  simp only [Prog.bind_eq]
  refine Runs.bind_ok (a_newLike A.toArith hs) ?_
  refine Runs.bind_ok (a_zero A.toArith fun r _ => length_aJunk A.toArith r) ?_
  refine Runs.bind_ok (a_accum A.toArith hs (room_rows hc (front := none) (back := some 2) (by simp) (by simp))
    (combines_rowsOf A.toArith 2 none id 2 fun m => by rw [pyUpper_none]; omega) (kf := none) (kb := some (min 2 (N : Int))) (by simp) (by simp) (by blklen hs hc)
    (B := fun p j => A.orZero (p + 2 < N) (F (p + 2) j)) (by ablkeq hs hc F) hdt (op := A.add)) ?_
  refine Runs.bind_ok (a_accum A.toArith hs (room_rows hc (front := some 1) (back := some 1) (by simp) (by simp))
    (combines_rowsOf A.toArith 2 none (A.mul A.two) 2 fun m => by rw [pyUpper_none]; omega) (kf := some 1) (kb := some (min 1 ((N : Int) - 1))) (by simp) (by simp; omega) (by blklen hs hc)
    (B := fun p j => A.orZero (1 ≤ p ∧ p + 1 < N) (A.mul A.two (F (p + 1) j))) (by ablkeq hs hc F) hdt (op := A.sub)) ?_
  refine Runs.bind_ok (a_addPart A.toArith hdt (op := A.add) (fun r => decide (r = 0)) 2 none (c := fun p => 2 ≤ p) (fun r hr i hi => by
    obtain ⟨h1, h2, h3, h4, h5, h6, h7⟩ := pos_rows hs hc hr
    simp only [pyUpper_m1, pyUpper_m2, pyUpper_none, decide_eq_true_eq, pyBound_0, pyBound_1, pyBound_2, imp_iff_not_or]
    omega)) ?_
  cases hq : A.pySq s with
  | error e => exact Runs.throw (fun _ => e)
  | ok s2 =>
  simp only [Prog.lift_ok, Prog.ret_bind]
  refine (a_upd_scalar A.toArith (s := s2) (op := A.div)).congr (fun _ _ => rfl) fun r hr => ?_
  simp only [ArrArith.sdEntryAdj, ArrArith.step, ArrArith.orZero, if_true]
  rfl

theorem a_sdRmvCentered (hs : psum sizes n = N) (hN : 1 ≤ N) (hc : n = 1 ∨ ∀ r < n, 2 ≤ sizes r) (he : EdgeRoom n sizes edge 3) (hdt : dt = .real → dx = .real) :
    Runs n (fun r => A.sdRmvCentered (env n J r) ⟨N :: rest, s, edge, dt⟩ (rfam n N rest sizes dx (glob sizes F) r))
      (fun r => (A.pySq s).map fun s2 => (rfam n N rest sizes dt (glob sizes fun p j => A.sdEntryAdj dt edge N s2 (fun q => F q j) p .centered) r)) := by
  unfold ArrArith.sdRmvCentered
  simp only [Prog.bind_eq]
  refine Runs.bind_ok (a_newLike A.toArith hs) ?_
  refine Runs.bind_ok (a_zero A.toArith fun r _ => length_aJunk A.toArith r) ?_
  refine Runs.bind_ok (a_accum A.toArith hs (room_rows hc (front := none) (back := some 2) (by simp) (by simp))
    (combines_rowsOf A.toArith 1 (some (-1)) id 2 fun m => by rw [pyUpper_m1]; omega) (kf := none) (kb := some (min 2 (N : Int))) (by simp) (by simp) (by blklen hs hc)
    (B := fun p j => A.orZero (p + 2 < N) (F (p + 1) j)) (by ablkeq hs hc F) hdt (op := A.add)) ?_
  refine Runs.bind_ok (a_accum A.toArith hs (room_rows hc (front := some 1) (back := some 1) (by simp) (by simp))
    (combines_rowsOf A.toArith 1 (some (-1)) (A.mul A.two) 2 fun m => by rw [pyUpper_m1]; omega) (kf := some 1) (kb := some (min 1 ((N : Int) - 1))) (by simp) (by simp; omega) (by blklen hs hc)
    (B := fun p j => A.orZero (1 ≤ p ∧ p + 1 < N) (A.mul A.two (F p j))) (by ablkeq hs hc F) hdt (op := A.sub)) ?_
  refine Runs.bind_ok (a_accum A.toArith hs (room_rows hc (front := some 2) (back := none) (by simp) (by simp))
    (combines_rowsOf A.toArith 1 (some (-1)) id 2 fun m => by rw [pyUpper_m1]; omega) (kf := some (min 2 (N : Int))) (kb := none) (by simp) (by simp) (by blklen hs hc)
    (B := fun p j => A.orZero (2 ≤ p) (F (p - 1) j)) (by ablkeq hs hc F) hdt (op := A.add)) ?_
  refine Runs.bind_ok (a_updRow A.toArith hdt (b := fun r => decide (edge = true ∧ r = 0)) (edge := edge) (zp := 0) (zi := 0) (zj := 0) (zk := 0) (i := 0) (j := 0) (k := 0)
    (op := A.add) (h := fun a _ _ => a) (c := fun q => q = 0) (fun r _ h => (of_decide_eq_true h).1) (by arow hs he) (by anorow hs he)) ?_
  refine Runs.bind_ok (a_updRow A.toArith hdt (b := fun r => decide (edge = true ∧ r = 0)) (edge := edge) (zp := 1) (zi := 0) (zj := 0) (zk := 0) (i := 0) (j := 0) (k := 0)
    (op := A.sub) (h := fun a _ _ => A.mul A.two a) (c := fun q => q = 1) (fun r _ h => (of_decide_eq_true h).1) (by arow hs he) (by anorow hs he)) ?_
  refine Runs.bind_ok (a_updRow A.toArith hdt (b := fun r => decide (edge = true ∧ r = 0)) (edge := edge) (zp := 2) (zi := 0) (zj := 0) (zk := 0) (i := 0) (j := 0) (k := 0)
    (op := A.add) (h := fun a _ _ => a) (c := fun q => q = 2) (fun r _ h => (of_decide_eq_true h).1) (by arow hs he) (by anorow hs he)) ?_
  refine Runs.bind_ok (a_updRow A.toArith hdt (b := fun r => decide (edge = true ∧ r = n - 1)) (edge := edge) (zp := (-3)) (zi := (-1)) (zj := (-1)) (zk := (-1)) (i := N - 1) (j := N - 1) (k := N - 1)
    (op := A.add) (h := fun a _ _ => a) (c := fun q => q + 3 = N) (fun r _ h => (of_decide_eq_true h).1) (by arow hs he) (by anorow hs he)) ?_
  refine Runs.bind_ok (a_updRow A.toArith hdt (b := fun r => decide (edge = true ∧ r = n - 1)) (edge := edge) (zp := (-2)) (zi := (-1)) (zj := (-1)) (zk := (-1)) (i := N - 1) (j := N - 1) (k := N - 1)
    (op := A.sub) (h := fun a _ _ => A.mul A.two a) (c := fun q => q + 2 = N) (fun r _ h => (of_decide_eq_true h).1) (by arow hs he) (by anorow hs he)) ?_
  refine Runs.bind_ok (a_updRow A.toArith hdt (b := fun r => decide (edge = true ∧ r = n - 1)) (edge := edge) (zp := (-1)) (zi := (-1)) (zj := (-1)) (zk := (-1)) (i := N - 1) (j := N - 1) (k := N - 1)
    (op := A.add) (h := fun a _ _ => a) (c := fun q => q + 1 = N) (fun r _ h => (of_decide_eq_true h).1) (by arow hs he) (by anorow hs he)) ?_
  cases hq : A.pySq s with
  | error e => exact Runs.throw (fun _ => e)
  | ok s2 =>
  simp only [Prog.lift_ok, Prog.ret_bind]
  refine (a_upd_scalar A.toArith (s := s2) (op := A.div)).congr (fun _ _ => rfl) fun r hr => ?_
  simp only [ArrArith.sdEntryAdj, ArrArith.step, ArrArith.orZero, if_true]
  rfl

end Verif

/- Operator expressions with arbitrary arithmetic. -/
import Verif.Spec.FloatOperators
import Verif.Proofs.BlockSolvers

namespace Verif
open NDArray

variable {K ι : Type} (A : OpArith K) {n : Nat} {J : Nat → Nat → K} {prim : ι → Nat → Prim K} {sh : ι → Nat × Nat} {lf : ι → Bool → SVec K → SVec K}

/-- size of the input in direction `b` -/
abbrev inOf (s : Nat × Nat) (b : Bool) : Nat := if b then s.1 else s.2

structure Accepts.Facts (n : Nat) (prim : ι → Nat → Prim K) (b : Bool) (e : MOp K ι) (s : Nat × Nat) (S T : VSpace) : Prop where
  hS : S.L.WF n ∧ S.L.mask = none
  hT : T.L.WF n ∧ T.L.mask = none
  gS : S.L.gshape = [inOf s b]
  gT : T.L.gshape = [inOf s (!b)]
  shape : ∀ r < n, (e.map (prim · r)).shape Prim.shape = s

theorem inOf_swap (s : Nat × Nat) (b : Bool) : inOf (s.2, s.1) b = inOf s (!b) := by cases b <;> rfl

theorem Accepts.facts {e : MOp K ι} : ∀ {b : Bool} {S T : VSpace}, Accepts n J prim sh lf b e S T → Accepts.Facts n prim b e (e.shape sh) S T := by
  induction e with
  | leaf i =>
    intro b S T h
    obtain ⟨h1, h2, h3, h4, h5, -⟩ := h
    exact ⟨h2, h3, h4, by rw [h5]; cases b <;> rfl, h1⟩
  | adj e ih =>
    intro b S T h
    have f := ih (b := !b) h
    exact ⟨f.hS, f.hT, by rw [MOp.shape, inOf_swap, f.gS], by rw [MOp.shape, inOf_swap, f.gT], fun r hr => by simp [MOp.map, MOp.shape, f.shape r hr]⟩
  | trans e ih =>
    intro b S T h
    have f := ih (b := !b) h
    exact ⟨f.hS, f.hT, by rw [MOp.shape, inOf_swap, f.gS], by rw [MOp.shape, inOf_swap, f.gT], fun r hr => by simp [MOp.map, MOp.shape, f.shape r hr]⟩
  | prod e f ihe ihf =>
    intro b S T h
    cases b with
    | false =>
      obtain ⟨U, hf, he⟩ := h
      have h1 := ihf hf
      have h2 := ihe he
      exact ⟨h1.hS, h2.hT, h1.gS, h2.gT, fun r hr => by simp [MOp.map, MOp.shape, h1.shape r hr, h2.shape r hr]⟩
    | true =>
      obtain ⟨U, he, hf⟩ := h
      have h1 := ihf hf
      have h2 := ihe he
      exact ⟨h2.hS, h1.hT, h2.gS, h1.gT, fun r hr => by simp [MOp.map, MOp.shape, h1.shape r hr, h2.shape r hr]⟩
  | scaled e s ih =>
    intro b S T h
    have f := ih (b := b) h.1
    exact ⟨f.hS, f.hT, f.gS, f.gT, fun r hr => by simp [MOp.map, MOp.shape, f.shape r hr]⟩
  | sum e f ihe ihf =>
    intro b S T h
    have f := ihe (b := b) h.1
    exact ⟨f.hS, f.hT, f.gS, f.gT, fun r hr => by simp [MOp.map, MOp.shape, f.shape r hr]⟩
  | pow e p ih =>
    intro b S T h
    obtain ⟨rfl, t, h⟩ := h
    have f := ih (b := b) h
    exact ⟨f.hS, f.hS, f.gS, f.gT, fun r hr => by simp [MOp.map, MOp.shape, f.shape r hr]⟩
  | conj e ih =>
    intro b S T h
    have f := ih (b := b) h
    exact ⟨f.hS, f.hT, f.gS, f.gT, fun r hr => by simp [MOp.map, MOp.shape, f.shape r hr]⟩

theorem f_check {s : Nat × Nat} {b : Bool} {L : Layout} {x : SVec K} {k : Nat → P K (DArr K)} {ρ : Nat → Except Err (DArr K)} {shs : Nat → Nat × Nat}
    (hs : ∀ r < n, shs r = s) (hg : L.gshape = [inOf s b]) (h : Runs n k ρ) : Runs n (fun r => OpArith.check (shs r) b (x.dpart L n r) (k r)) ρ := by
  refine h.congr (fun r hr => ?_) fun _ _ => rfl
  unfold OpArith.check
  rw [hs r hr, if_neg]
  exact not_not.2 hg

theorem f_scale {L : Layout} {x : SVec K} {s : Scal K} (hL : L.WF n) (hx : x.v.length = L.gshape.prod) (hs : x.dt = .real → s.dtype = .real) :
    Runs n (fun r => A.scaleInPlace (env n J r) (x.dpart L n r) s) (fun r => .ok ((x.scale A.toArith s.val).dpart L n r)) := by
  refine (b_set A.toArith (J := J) (dt := x.dt) (dt' := x.dt) (a := fun r => (L.piece x.v r).map (A.mul · s.val)) (w := x.v.map (A.mul · s.val)) hL
    (fun r hr => by rw [List.length_map, a_length_piece hL hx hr]) (by simpa using hx)).congr (fun r _ => ?_) fun r _ => ?_
  · have hd : (x.dpart L n r).dtype = x.dt := rfl
    unfold OpArith.scaleInPlace
    rw [if_neg]
    · rw [a_piece_map]
      rfl
    · rw [hd]
      rintro ⟨h1, h2⟩
      rw [hs h1] at h2
      cases h2
  · simp [SVec.dpart, SVec.scale, SVec.map, List.map_map]
    rfl

theorem f_pow {L : Layout} {dt t : DType} (hL : L.WF n) {mv : Nat → Ctx K → DArr K → P K (DArr K)} {F : SVec K → SVec K} (h : TakesTo n J mv ⟨L, dt⟩ ⟨L, t⟩ F) (p : Nat) :
    ∀ {x : SVec K}, x.v.length = L.gshape.prod → x.dt = dt →
      ((fun y => (⟨dt, (F y).v.map (A.cast dt)⟩ : SVec K))^[p] x).dt = dt ∧ ((fun y => (⟨dt, (F y).v.map (A.cast dt)⟩ : SVec K))^[p] x).v.length = L.gshape.prod ∧
      Runs n (fun r => A.powLoop (env n J r) (mv r (env n J r)) p (x.dpart L n r)) (fun r => .ok (((fun y => (⟨dt, (F y).v.map (A.cast dt)⟩ : SVec K))^[p] x).dpart L n r)) := by
  induction p with
  | zero => intro x hx hd; exact ⟨hd, hx, Runs.ret _⟩
  | succ p ih =>
    intro x hx hd
    have hF := h.length x hx hd
    obtain ⟨i1, i2, i3⟩ := ih (x := ⟨dt, (F x).v.map (A.cast dt)⟩) (by simpa using hF) rfl
    rw [Function.iterate_succ_apply]
    refine ⟨i1, i2, ?_⟩
    simp only [OpArith.powLoop, Prog.bind_eq]
    refine Runs.bind_ok (h.runs x hx hd).runs ?_
    refine Runs.bind_ok (a := fun r => (⟨dt, (F x).v.map (A.cast dt)⟩ : SVec K).dpart L n r) ?_ i3
    refine (b_set A.toArith (J := J) (dt := dt) (dt' := (F x).dt) (a := L.piece x.v) (w := (F x).v) hL (fun r hr => a_length_piece hL hx hr) hF).congr (fun r _ => ?_) fun r _ => rfl
    rw [← hd]
    rfl

theorem TakesTo.intro {mv : Nat → Ctx K → DArr K → P K (DArr K)} {S T : VSpace} {F : SVec K → SVec K}
    (h : ∀ x : SVec K, x.v.length = S.L.gshape.prod → x.dt = S.dt → (F x).dt = T.dt ∧ (F x).v.length = T.L.gshape.prod ∧
      Runs n (fun r => mv r (env n J r) (x.dpart S.L n r)) (fun r => .ok ((F x).dpart T.L n r))) : TakesTo n J mv S T F :=
  ⟨fun x h1 h2 => (h x h1 h2).1, fun x h1 h2 => (h x h1 h2).2.1, fun x h1 h2 => (h x h1 h2).2.2.always⟩

theorem TakesTo.run {mv : Nat → Ctx K → DArr K → P K (DArr K)} {S T : VSpace} {F : SVec K → SVec K} (h : TakesTo n J mv S T F) {x : SVec K} (h1 : x.v.length = S.L.gshape.prod)
    (h2 : x.dt = S.dt) : Runs n (fun r => mv r (env n J r) (x.dpart S.L n r)) (fun r => .ok ((F x).dpart T.L n r)) := (h.runs x h1 h2).runs

theorem accepts_takes {e : MOp K ι} : ∀ {b : Bool} {S T : VSpace}, Accepts n J prim sh lf b e S T →
    TakesTo n J (fun r c x => A.run c b (e.map (prim · r)) x) S T (A.eval lf b e) := by
  induction e with
  | leaf i =>
    intro b S T h
    have f := Accepts.facts h
    have k := h.2.2.2.2.2
    refine TakesTo.intro fun x hx hd => ⟨k.dtype x hx hd, k.length x hx hd, ?_⟩
    refine (f_check (b := b) (x := x) f.shape f.gS (k.run hx hd)).congr (fun r _ => ?_) fun _ _ => rfl
    simp only [MOp.map, OpArith.run, MOp.shape]
  | adj e ih =>
    intro b S T h
    have f := Accepts.facts (e := .adj e) h
    have k := ih (b := !b) h
    refine TakesTo.intro fun x hx hd => ⟨k.dtype x hx hd, k.length x hx hd, ?_⟩
    refine (f_check (b := b) (x := x) f.shape f.gS (k.run hx hd)).congr (fun r _ => ?_) fun _ _ => rfl
    simp only [MOp.map, OpArith.run]
  | trans e ih =>
    intro b S T h
    have f := Accepts.facts (e := .trans e) h
    have k := ih (b := !b) h
    refine TakesTo.intro fun x hx hd => ?_
    have hx' := SVec.length_conj A.toArith hx
    have hy := k.length _ hx' hd
    refine ⟨k.dtype _ hx' hd, SVec.length_conj A.toArith hy, ?_⟩
    refine (f_check (b := b) (x := x) f.shape f.gS (Runs.bind_ok (k := fun r x => (A.run (env n J r) (!b) (e.map (prim · r)) x).bind fun y => A.dconj (env n J r) y)
      (b_conj A.toArith (J := J) f.hS.1 f.hS.2 hx) (Runs.bind_ok (k.run hx' hd) (b_conj A.toArith (J := J) f.hT.1 f.hT.2 hy)))).congr (fun r _ => ?_) fun _ _ => rfl
    simp only [MOp.map, OpArith.run, Prog.bind_eq]
  | prod e g ihe ihg =>
    intro b S T h
    have f := Accepts.facts (e := .prod e g) h
    cases b with
    | false =>
      obtain ⟨U, hg, he⟩ := h
      have k1 := ihg hg
      have k2 := ihe he
      refine TakesTo.intro fun x hx hd => ?_
      have hx' := k1.length x hx hd
      have hd' := k1.dtype x hx hd
      refine ⟨k2.dtype _ hx' hd', k2.length _ hx' hd', ?_⟩
      refine (f_check (b := false) (x := x) f.shape f.gS (Runs.bind_ok (k1.run hx hd) (k2.run hx' hd'))).congr (fun r _ => ?_) fun _ _ => rfl
      simp only [MOp.map, OpArith.run, Prog.bind_eq]
    | true =>
      obtain ⟨U, he, hg⟩ := h
      have k1 := ihe he
      have k2 := ihg hg
      refine TakesTo.intro fun x hx hd => ?_
      have hx' := k1.length x hx hd
      have hd' := k1.dtype x hx hd
      refine ⟨k2.dtype _ hx' hd', k2.length _ hx' hd', ?_⟩
      refine (f_check (b := true) (x := x) f.shape f.gS (Runs.bind_ok (k1.run hx hd) (k2.run hx' hd'))).congr (fun r _ => ?_) fun _ _ => rfl
      simp only [MOp.map, OpArith.run, Prog.bind_eq]
  | scaled e s ih =>
    intro b S T h
    have f := Accepts.facts (e := .scaled e s) h
    have k := ih (b := b) h.1
    refine TakesTo.intro fun x hx hd => ?_
    have hy := k.length x hx hd
    have ht := k.dtype x hx hd
    have ev : (if b then A.conjScal s else s).val = if b then A.conj s.val else s.val := by cases b <;> rfl
    have et : (if b then A.conjScal s else s).dtype = s.dtype := by cases b <;> rfl
    refine ⟨ht, SVec.length_scale A.toArith _ hy, ?_⟩
    refine (f_check (b := b) (x := x) f.shape f.gS (Runs.bind_ok (k := fun r y => A.scaleInPlace (env n J r) y (if b then A.conjScal s else s)) (k.run hx hd)
      (f_scale A (J := J) f.hT.1 hy (fun h' => by rw [et]; exact h.2 (ht ▸ h'))))).congr (fun r _ => ?_) fun r _ => ?_
    · simp only [MOp.map, OpArith.run, Prog.bind_eq]
    · rw [ev]
      simp only [OpArith.eval]
  | sum e g ihe ihg =>
    intro b S T h
    have f := Accepts.facts (e := .sum e g) h
    obtain ⟨he, t, hg⟩ := h
    have k1 := ihe he
    have k2 := ihg hg
    refine TakesTo.intro fun x hx hd => ?_
    have h1 := k1.length x hx hd
    have h2 := k2.length x hx hd
    refine ⟨k1.dtype x hx hd, SVec.length_add A.toArith h1 h2, ?_⟩
    refine (f_check (b := b) (x := x) f.shape f.gS (Runs.bind_ok (k := fun r y => (A.run (env n J r) b (g.map (prim · r)) (x.dpart S.L n r)).bind fun z => A.dadd (env n J r) y z)
      (k1.run hx hd) (Runs.bind_ok (k2.run hx hd) (b_add A.toArith (J := J) f.hT.1 f.hT.2 h1 h2)))).congr (fun r _ => ?_) fun r _ => ?_
    · simp only [MOp.map, OpArith.run, Prog.bind_eq]
    · simp only [OpArith.eval]
  | pow e p ih =>
    intro b S T h
    have f := Accepts.facts (e := .pow e p) h
    obtain ⟨rfl, t, he⟩ := h
    refine TakesTo.intro fun x hx hd => ?_
    obtain ⟨i1, i2, i3⟩ := f_pow A (p := p) f.hS.1 (ih he) (x := x.copy A.toArith) (SVec.length_copy A.toArith hx) hd
    have ee : A.eval lf b (.pow e p) x = (fun y => (⟨S.dt, (A.eval lf b e y).v.map (A.cast S.dt)⟩ : SVec K))^[p] (x.copy A.toArith) := by
      simp only [OpArith.eval, hd]
    rw [ee]
    refine ⟨i1, i2, ?_⟩
    refine (f_check (b := b) (x := x) f.shape f.gS (Runs.bind_ok (b_copy A.toArith (J := J) f.hS.1 f.hS.2 hx) i3)).congr (fun r _ => ?_) fun r _ => rfl
    simp only [MOp.map, OpArith.run, Prog.bind_eq]
  | conj e ih =>
    intro b S T h
    have f := Accepts.facts (e := .conj e) h
    have k := ih (b := b) h
    refine TakesTo.intro fun x hx hd => ?_
    have hx' := SVec.length_conj A.toArith hx
    have hy := k.length _ hx' hd
    refine ⟨?_, ?_, ?_⟩
    · simp only [OpArith.eval]
      exact k.dtype _ hx' hd
    · simp only [OpArith.eval]
      exact SVec.length_conj A.toArith hy
    refine (f_check (b := b) (x := x) f.shape f.gS (Runs.bind_ok (k := fun r x => (A.run (env n J r) b (e.map (prim · r)) x).bind fun y => A.dconj (env n J r) y)
      (b_conj A.toArith (J := J) f.hS.1 f.hS.2 hx) (Runs.bind_ok (k.run hx' hd) (b_conj A.toArith (J := J) f.hT.1 f.hT.2 hy)))).congr (fun r _ => ?_) fun r _ => ?_
    · simp only [MOp.map, OpArith.run, Prog.bind_eq]
    · simp only [OpArith.eval]

end Verif

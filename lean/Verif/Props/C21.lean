/- C21: operators redistribute their input. -/
import Verif.Proofs.Redistribute
import Verif.MPI.Bind
import Verif.MPI.Sim

namespace Verif
open NDArray Relation

variable {K : Type} [Field K] [StarRing K] [CharZero K] {n : Nat} {J : Nat → Nat → K} {X X' T : Layout} {dt : DType}

/-- the `local_shapes` argument describes the layout `T`: given explicitly, or missing and `T` balanced -/
def LShapesOf (n : Nat) (T : Layout) (ls : Option (List (List Nat))) : Prop :=
  ls = some ((List.range n).map T.lshape) ∨ ls = none ∧ T.sizes = balanced (len T.gshape 0) n

theorem LShapesOf.makes {ls : Option (List (List Nat))} (h : LShapesOf n T ls) (hc : Conform n X T) : Makes n J T dt ls := by
  rcases h with rfl | ⟨rfl, hb⟩
  · exact makes_some hc.wfT hc.scT hc.axT hc.mT
  · exact makes_none hc.wfT hc.scT hc.axT hc.mT hb

/-- **C21**.  If the boundaries of the two layouts are near, all ranks obtain, in every execution, their
    part in the layout `T` of the same global vector `d`. -/
theorem C21_redistribute (hc : Conform n X T) (hn : Near n X T) {ls} (hls : LShapesOf n T ls) {d : List K} (hd : VSpace.Mem ⟨X, dt⟩ d) :
    Always n (fun r => redistribute (env n J r) T.gshape ls (VSpace.vec ⟨X, dt⟩ n d r)) (fun r => .ok (VSpace.vec ⟨T, dt⟩ n d r)) :=
  (runs_redistribute hc (hls.makes hc) hn hd).always

/-- **C21**.  Otherwise some rank raises ValueError, in every execution. -/
theorem C21_raises (hc : Conform n X T) (hn : ¬ Near n X T) {ls} (hls : LShapesOf n T ls) {d : List K} (hd : VSpace.Mem ⟨X, dt⟩ d) :
    ∃ r < n, RankEnds n (fun r => redistribute (env n J r) T.gshape ls (VSpace.vec ⟨X, dt⟩ n d r)) r (.error .value) := by
  have hgood := good_vec (S := ⟨X, dt⟩) hc.wfX hd
  have pre : ∀ {r}, r < n → RankEnds n (fun r => (X.fam n dt (X.piece d) r).addGhostCells (env n J r) ((some (rdFront X T)).map (· r))
      ((some (rdBack X T)).map (· r))) r (.error .value) →
      RankEnds n (fun r => redistribute (env n J r) T.gshape ls (VSpace.vec ⟨X, dt⟩ n d r)) r (.error .value) := by
    intro r hr h
    obtain ⟨qs, h1, h2⟩ := (runs_redistPre (J := J) hc (hls.makes hc) d).bind_steps (redistPost n J X dt d)
    refine (RankEnds.before h1 ?_).congr_prog (fun r _ => (redistribute_eq hc ls d r).symm) hr
    refine RankEnds.congr_prog (h.bind_error fun r g =>
        (Prog.lift ((g.slice 0 (psum T.cnt r - psum X.cnt r) (T.cnt r + (psum T.cnt r - psum X.cnt r))).reshape (T.lshape r))).bind fun v =>
        (T.fam n dt (junkData J T dt) r).setAll (env n J r) v) (fun q hq => ?_) hr
    rw [h2 q hq, post_eq hc hq]
  have hX : ∀ r, psum X.cnt (r + 1) = psum X.cnt r + X.sizes r := fun r => by rw [← cntX hc r]; rfl
  by_cases hf : ∀ r, r + 1 < n → psum X.cnt r ≤ psum T.cnt (r + 1)
  · have hb : ∃ r, r + 1 < n ∧ psum X.cnt (r + 2) < psum T.cnt (r + 1) := by
      by_contra hcon
      push Not at hcon
      exact hn fun r hr => ⟨hf r hr, hcon r hr⟩
    obtain ⟨m, hm, hbad⟩ := hb
    refine ⟨m + 1, hm, pre hm (ghost_raises_back (J := J) (b := rdBack X T) hc.wfX hc.scX hgood.length hm (fun f hf' r hr h1 => ?_) fun h => ?_)⟩
    · injection hf' with hf'; subst hf'
      have := hf r h1
      have := hX r
      unfold rdFront
      omega
    · have h1 := h (by omega)
      have h2 := hX (m + 1)
      unfold rdBack at h1
      rw [show m + 1 - 1 + 1 = m + 1 by omega] at h1
      rw [show m + 2 = m + 1 + 1 by omega] at hbad
      omega
  · have hex : ∃ r, r + 1 < n ∧ psum T.cnt (r + 1) < psum X.cnt r := by push Not at hf; exact hf
    classical
    have hspec := Nat.find_spec hex
    have hmin := fun m => Nat.find_min hex (m := m)
    set m := Nat.find hex
    refine ⟨m, by omega, pre (by omega) (ghost_raises_front (J := J) (f := rdFront X T) hc.wfX hc.scX hgood.length _ (by omega) (fun r hr h1 => ?_) fun h => ?_)⟩
    · have := hmin r hr
      have h2 := hX r
      unfold rdFront
      have : ¬ psum T.cnt (r + 1) < psum X.cnt r := fun h => this ⟨h1, h⟩
      omega
    · have h1 := h hspec.1
      have h2 := hX m
      unfold rdFront at h1
      omega

/-- **C21** (safety).  Whatever the two layouts are: at any point of any execution, a rank that has obtained an array has
    obtained its part of the same global vector, and a rank that has raised has raised ValueError. -/
theorem C21_safe (hc : Conform n X T) {ls} (hls : LShapesOf n T ls) {d : List K} (hd : VSpace.Mem ⟨X, dt⟩ d) {s}
    (hs : Run n (St.init fun r => redistribute (env n J r) T.gshape ls (VSpace.vec ⟨X, dt⟩ n d r)) s) {r : Nat} (hr : r < n) :
    (∀ y, s.prog r = .ret y → y = VSpace.vec ⟨T, dt⟩ n d r) ∧ ∀ e, s.prog r = .throw e → e = .value :=
  ⟨fun y hy => redistribute_safe hc (hls.makes hc) hd hs hr (o := .ok y) hy,
   fun e he => (redistribute_safe hc (hls.makes hc) hd hs hr (o := .error e) he).1⟩

/-- **C21**.  The decorated operator behaves like the operator applied to the redistributed vector … -/
theorem C21_operator (hc : Conform n X T) (hn : Near n X T) {ls} (hls : LShapesOf n T ls) {d : List K} (hd : VSpace.Mem ⟨X, dt⟩ d)
    {f : Nat → DArr K → P K (DArr K)} {ρ : Nat → Except Err (DArr K)} :
    Always n (fun r => reshaped (env n J r) T.gshape ls (f r) (VSpace.vec ⟨X, dt⟩ n d r)) ρ ↔
    Always n (fun r => do
      let y ← f r (VSpace.vec ⟨T, dt⟩ n d r)
      if y.gshape.length > 1 then y.ravel (env n J r) else .ret y) ρ := by
  obtain ⟨qs, h1, h2⟩ := (runs_redistribute (J := J) hc (hls.makes hc) hn hd).bind_steps
    (fun r a => ((f r a).bind fun y => if y.gshape.length > 1 then y.ravel (env n J r) else .ret y))
  exact ⟨fun h => (h.after h1).congr_prog h2, fun h => (h.congr_prog fun r hr => (h2 r hr).symm).of_steps h1⟩

/-- … so its result does not depend on how the input was split (any two splits near the one the operator needs). -/
theorem C21_independent (hc : Conform n X T) (hn : Near n X T) (hc' : Conform n X' T) (hn' : Near n X' T) {ls} (hls : LShapesOf n T ls)
    {d : List K} (hd : VSpace.Mem ⟨X, dt⟩ d) {f : Nat → DArr K → P K (DArr K)} {ρ : Nat → Except Err (DArr K)}
    (h : Always n (fun r => reshaped (env n J r) T.gshape ls (f r) (VSpace.vec ⟨X, dt⟩ n d r)) ρ) :
    Always n (fun r => reshaped (env n J r) T.gshape ls (f r) (VSpace.vec ⟨X', dt⟩ n d r)) ρ :=
  (C21_operator hc' hn' hls ⟨by rw [hd.1]; simp [hc.X1, hc'.X1], hd.2⟩).2 ((C21_operator hc hn hls hd).1 h)

omit [CharZero K] in
/-- Inputs that are not scattered are rejected on all ranks. -/
theorem C21_rejects {S : VSpace} (hp : S.L.part ≠ .scatter) {ls} {gs : Nat → List Nat} {d : List K} {f : Nat → DArr K → P K (DArr K)} :
    Always n (fun r => reshaped (env n J r) (gs r) ls (f r) (S.vec n d r)) (fun _ => .error .value) := by
  refine Runs.always ((Runs.throw fun _ => Err.value).congr (fun r _ => ?_) fun _ _ => rfl)
  unfold reshaped redistribute
  have : (S.vec n d r : DArr K).part ≠ .scatter := hp
  rw [if_pos this]
  rfl

/-- (0, …, 9) split 2 + 3 + 5, needed as 4 + 2 + 4 -/
def splitA : Layout := .lin 10 fun r => if r = 0 then 2 else if r = 1 then 3 else 5
def splitB : Layout := .lin 10 fun r => if r = 1 then 2 else 4
def splitC : Layout := .lin 10 fun r => if r = 2 then 10 else 0

theorem conform_ex {s t : Nat → Nat} (hs : psum s 3 = 10) (ht : psum t 3 = 10) : Conform 3 (.lin 10 s) (.lin 10 t) :=
  ⟨⟨by simp [Layout.lin], fun _ => by simpa [Layout.lin, len] using hs, by simp [Layout.lin]⟩,
   ⟨by simp [Layout.lin], fun _ => by simpa [Layout.lin, len] using ht, by simp [Layout.lin]⟩, by simp [Layout.lin], rfl, rfl, rfl, rfl, rfl⟩

/-- Non-vacuity: the hypotheses hold for the splits above … -/
example : Always 3 (fun r => redistribute (env 3 (fun _ _ => 0) r) [10] (some [[4], [2], [4]])
      (VSpace.vec ⟨splitA, .real⟩ 3 ((List.range 10).map fun i => (i : ℚ)) r))
    (fun r => .ok (VSpace.vec ⟨splitB, .real⟩ 3 ((List.range 10).map fun i => (i : ℚ)) r)) :=
  C21_redistribute (X := splitA) (T := splitB) (conform_ex (by decide) (by decide)) (by
    intro r hr
    match r, hr with
    | 0, _ => decide
    | 1, _ => decide) (.inl (by decide)) ⟨by simp [splitA, Layout.lin], fun _ x _ => by simp⟩

/-- … and a split that is too far away raises. -/
example : ∃ r < 3, RankEnds 3 (fun r => redistribute (env 3 (fun _ _ => 0) r) [10] (some [[4], [2], [4]])
      (VSpace.vec ⟨splitC, .real⟩ 3 ((List.range 10).map fun i => (i : ℚ)) r)) r (.error .value) :=
  C21_raises (X := splitC) (T := splitB) (conform_ex (by decide) (by decide)) (by
    intro h
    exact absurd (h 0 (by omega)).2 (by decide)) (.inl (by decide)) ⟨by simp [splitC, Layout.lin], fun _ x _ => by simp⟩

end Verif

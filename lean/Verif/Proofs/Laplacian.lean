/- MPILaplacian: the expression that is built, and what it computes. -/
import Verif.Proofs.AxisOps
import Verif.Props.C32
import Verif.Props.C28

namespace Verif
open NDArray
set_option linter.unusedSectionVars false

variable {K : Type} [Field K] [StarRing K] [CharZero K]

/-- the adjoint expression of the distributed operators -/
theorem H_map {ι : Type} {sh : ι → Nat × Nat} {f : ι → Prim K} (hf : ∀ i, (f i).shape = sh i) {e : MOp K ι} :
    ∀ {e' : MOp K ι}, e.H sh = .ok e' → (e.map f).H Prim.shape = .ok (e'.map f) := by
  have hm : ∀ q : MOp K ι, (q.map f).shape Prim.shape = q.shape sh := fun q => shape_map (lv := ⟨sh, fun _ _ x => x⟩) (prim := fun i _ => f i) (r := 0) q hf
  induction e with
  | leaf i => intro e' h; obtain rfl := (Except.ok.inj h).symm; rfl
  | adj A ih => intro e' h; obtain rfl := (Except.ok.inj h).symm; rfl
  | trans A ih => intro e' h; obtain rfl := (Except.ok.inj h).symm; rfl
  | pow A p ih => intro e' h; obtain rfl := (Except.ok.inj h).symm; rfl
  | prod A B ihA ihB =>
    intro e' h
    simp only [MOp.H, bind, Except.bind] at h
    cases hb : B.H sh with
    | error x => rw [hb] at h; cases h
    | ok b =>
      cases ha : A.H sh with
      | error x => rw [hb, ha] at h; cases h
      | ok a =>
        rw [hb, ha] at h
        simp only [MOp.map, MOp.H, bind, Except.bind, ihA ha, ihB hb]
        dsimp only at h ⊢
        unfold MOp.mul at h ⊢
        rw [hm, hm]
        by_cases hc : (MOp.shape sh b).2 ≠ (MOp.shape sh a).1
        · rw [if_pos hc] at h; cases h
        · rw [if_neg hc] at h ⊢
          obtain rfl := (Except.ok.inj h).symm
          rfl
  | scaled A s ih =>
    intro e' h
    simp only [MOp.H, bind, Except.bind] at h
    cases ha : A.H sh with
    | error x => rw [ha] at h; cases h
    | ok a =>
      rw [ha] at h
      obtain rfl := (Except.ok.inj h).symm
      simp only [MOp.map, MOp.H, bind, Except.bind, ih ha]
      rfl
  | sum A B ihA ihB =>
    intro e' h
    simp only [MOp.H, bind, Except.bind] at h
    cases ha : A.H sh with
    | error x => rw [ha] at h; cases h
    | ok a =>
      cases hb : B.H sh with
      | error x => rw [ha, hb] at h; cases h
      | ok b =>
        rw [ha, hb] at h
        simp only [MOp.map, MOp.H, bind, Except.bind, ihA ha, ihB hb]
        dsimp only at h ⊢
        unfold MOp.add at h ⊢
        rw [hm, hm]
        by_cases hc : MOp.shape sh a ≠ MOp.shape sh b
        · rw [if_pos hc] at h; cases h
        · rw [if_neg hc] at h ⊢
          obtain rfl := (Except.ok.inj h).symm
          rfl
  | conj A ih =>
    intro e' h
    simp only [MOp.H, bind, Except.bind] at h
    cases ha : A.H sh with
    | error x => rw [ha] at h; cases h
    | ok a =>
      rw [ha] at h
      obtain rfl := (Except.ok.inj h).symm
      simp only [MOp.map, MOp.H, bind, Except.bind, ih ha]
      rfl

/-- a summand of the Laplacian -/
structure LTerm (K : Type) where
  ax : Nat
  s : K
  k : SDKind

variable (sd : Serial K SDKind) (n N : Nat) (rest : List Nat) (edge : Bool) (dt : DType)

/-- the serial operators of a summand -/
def LTerm.ops (t : LTerm K) (r : Nat) : LOp K := sd (balanced N n r :: rest) t.ax t.s t.k edge dt

/-- what is needed of a summand: enough rows for axis 0, correct serial operators for the other axes -/
structure LTerm.Good (t : LTerm K) : Prop where
  s0 : t.s ≠ 0
  sr : star t.s = t.s
  room : t.ax = 0 → sdRoom t.k edge n N ∧ sdRoomAdj t.k edge n N
  serial : ∀ a, t.ax = a + 1 → a < rest.length ∧ ∀ r, IsDeriv (t.ops sd n N rest edge dt r) (sdAt t.k edge) (t.s ^ 2) (a + 1) (balanced N n r :: rest) dt

/-- second difference of the kind of the summand along its axis -/
def LTerm.fwd (t : LTerm K) : List K → List K := alongAxis (sdAt t.k edge) (t.s ^ 2) t.ax (N :: rest)

open Classical in
noncomputable def lapLeaves : Leaves K (LTerm K) where
  sh _ := (N * rest.prod, N * rest.prod)
  fn t b d :=
    if t.Good sd n N rest edge dt then
      if b then if t.ax = 0 then alongRows (sdAdj t.k edge N) (t.s ^ 2) N rest.prod d else blockDiag true (allOps n fun r => [t.ops sd n N rest edge dt r]) d
      else t.fwd N rest edge d
    else d

open Classical in
noncomputable def lapPrim (t : LTerm K) (r : Nat) : Prim K :=
  if t.Good sd n N rest edge dt then
    if t.ax = 0 then secondDerivative t.k ⟨N :: rest, t.s, edge, dt⟩ else bdPrim n (fun r => [t.ops sd n N rest edge dt r]) none dt r
  else ⟨N * rest.prod, N * rest.prod, dt, fun _ x => .ret x, fun _ x => .ret x⟩

variable {sd n N rest edge dt} {J : Nat → Nat → K} {dx : DType} {X : Layout} {t : LTerm K}

theorem sd_conj (k : SDKind) : ∀ N, Conj (sdAt (K := K) k edge N) := fun _ => conj_sdAt k

theorem LTerm.fwd_zero (h : t.ax = 0) : t.fwd N rest edge = alongRows (sdAt t.k edge N) (t.s ^ 2) N rest.prod := by
  funext d
  unfold LTerm.fwd
  rw [h, alongAxis]

theorem lapPrim_shape (hn : 0 < n) (t : LTerm K) (r : Nat) : (lapPrim sd n N rest edge dt t r).shape = (lapLeaves sd n N rest edge dt).sh t := by
  unfold lapPrim lapLeaves
  split_ifs with h h0
  · simp [Prim.shape, secondDerivative]
  · obtain ⟨a, ha⟩ : ∃ a, t.ax = a + 1 := ⟨t.ax - 1, by omega⟩
    have ho : SerialOk (t.ops sd n N rest edge dt) (sdAt t.k edge) (t.s ^ 2) a n N rest dt := (h.serial a ha).2
    have h1 := congrArg Layout.gshape (ho.inL hn true)
    have h2 := congrArg Layout.gshape (ho.inL hn false)
    simp only [Layout.lin, List.cons.injEq, and_true] at h1 h2
    simp [Prim.shape, bdPrim, outSum, h1, h2]
  · rfl

theorem lap_sized (hn : 0 < n) : (lapLeaves sd n N rest edge dt).Sized := by
  intro t b d hd
  have hd : d.length = N * rest.prod := by cases b <;> simpa [dimOf, lapLeaves] using hd
  have e : dimOf ((lapLeaves sd n N rest edge dt).sh t) (!b) = N * rest.prod := by cases b <;> rfl
  rw [e]
  unfold lapLeaves
  dsimp only
  split_ifs with h hb h0
  · simp [alongRows]
  · obtain ⟨a, ha⟩ : ∃ a, t.ax = a + 1 := ⟨t.ax - 1, by omega⟩
    exact SerialOk.adj_length (ax := a) (D := sdAt t.k edge) (s := t.s ^ 2) (dt := dt) (h.serial a ha).2 hn (h.serial a ha).1 (sd_conj _) (star_sq h.sr) hd
  · have hax : t.ax < (N :: rest).length := by
      cases e : t.ax with
      | zero => simp
      | succ a => simpa using (h.serial a e).1
    exact (length_alongAxis hax (by simpa using hd)).trans (by simp)
  · exact hd

theorem lap_adjoint (hn : 0 < n) : (lapLeaves sd n N rest edge dt).Adjoint := by
  intro t u v hu hv
  change u.length = N * rest.prod at hu
  change v.length = N * rest.prod at hv
  unfold lapLeaves
  dsimp only
  by_cases h : t.Good sd n N rest edge dt
  · simp only [if_pos h, if_true, Bool.false_eq_true, if_false]
    by_cases h0 : t.ax = 0
    · rw [if_pos h0, LTerm.fwd_zero h0]
      exact C32_transpose t.k hn (h.room h0).2 h.sr hu hv
    · rw [if_neg h0]
      obtain ⟨a, ha⟩ : ∃ a, t.ax = a + 1 := ⟨t.ax - 1, by omega⟩
      have := SerialOk.adjoint (ax := a) (D := sdAt t.k edge) (s := t.s ^ 2) (dt := dt) (h.serial a ha).2 hn (h.serial a ha).1 (sd_conj _) (star_sq h.sr) hu hv
      rw [← ha] at this
      exact this
  · simp only [if_neg h]

theorem lap_typed (hn : 0 < n) (hdt : dt = .real → dx = .real) (hX : X.WF n) (hg : X.gshape = [N * rest.prod]) (hp : X.part = .scatter)
    (hN : Near n X (.slab n N rest)) (ht : t.Good sd n N rest edge dt) (b : Bool) :
    Typed (lapLeaves sd n N rest edge dt) n J (lapPrim sd n N rest edge dt) b (.leaf t) ⟨X, dx⟩ ⟨.flat n N rest, dt⟩ := by
  refine ⟨fun r _ => lapPrim_shape hn t r, hX, flat_wf hn, ?_, ?_, ?_⟩
  · cases b <;> exact hg
  · cases b <;> rfl
  · by_cases h0 : t.ax = 0
    · have e : (lapLeaves sd n N rest edge dt).fn t b = alongRows ((if b then sdAdj t.k edge N else sdAt t.k edge N)) (t.s ^ 2) N rest.prod := by
        funext d
        unfold lapLeaves
        cases b
        · simp [if_pos ht, LTerm.fwd_zero h0]
        · simp [if_pos ht, h0]
      rw [e]
      have hm : Method n N rest J ⟨N :: rest, t.s, edge, dt⟩ (if b then sdRmv t.k else sdMv t.k) (if b then sdAdj t.k edge N else sdAt t.k edge N) (t.s ^ 2) dx := by
        cases b
        · exact method_sd t.k hn (ht.room h0).1 hdt ht.sr
        · exact method_sdAdj t.k hn (ht.room h0).2 hdt ht.sr
      have h := deriv_scatter (J := J) hn (o := ⟨N :: rest, t.s, edge, dt⟩) rfl hm (conform_slab hn hX hg hp) hN
      intro d hd
      refine ⟨(h d hd).1, (h d hd).2.congr_prog fun r _ => ?_⟩
      simp only [lapPrim, if_pos ht, if_pos h0, secondDerivative]
      cases b <;> rfl
    · obtain ⟨a, ha⟩ : ∃ a, t.ax = a + 1 := ⟨t.ax - 1, by omega⟩
      have ho : SerialOk (t.ops sd n N rest edge dt) (sdAt t.k edge) (t.s ^ 2) a n N rest dt := (ht.serial a ha).2
      have h := ho.computes (J := J) (dx := dx) (X := X) hn (ht.serial a ha).1 (sd_conj _) (star_sq ht.sr) hdt hX hg hp hN b
      intro d hd
      have e : (lapLeaves sd n N rest edge dt).fn t b d =
          (if b then blockDiag true (allOps n fun r => [t.ops sd n N rest edge dt r]) else alongAxis (sdAt t.k edge) (t.s ^ 2) (a + 1) (N :: rest)) d := by
        unfold lapLeaves
        cases b
        · simp [if_pos ht, LTerm.fwd, ha]
        · simp [if_pos ht, h0]
      rw [e]
      refine ⟨(h d hd).1, (h d hd).2.congr_prog fun r _ => ?_⟩
      simp only [lapPrim, if_pos ht, if_neg h0]

/-- the expression that is built from summands -/
def lapExpr : MOp K (LTerm K) → List (LTerm K × Scal K) → MOp K (LTerm K)
  | e, [] => e
  | e, (t, w) :: l => lapExpr (.sum e (.scaled (.leaf t) w)) l

theorem lapExpr_typed (hn : 0 < n) (hdt : dt = .real → dx = .real) (hX : X.WF n) (hg : X.gshape = [N * rest.prod]) (hp : X.part = .scatter)
    (hN : Near n X (.slab n N rest)) {l : List (LTerm K × Scal K)} (hl : ∀ p ∈ l, p.1.Good sd n N rest edge dt ∧ (dt = .real → p.2.dtype = .real ∧ star p.2.val = p.2.val))
    {b : Bool} {e : MOp K (LTerm K)} (he : Typed (lapLeaves sd n N rest edge dt) n J (lapPrim sd n N rest edge dt) b e ⟨X, dx⟩ ⟨.flat n N rest, dt⟩) :
    Typed (lapLeaves sd n N rest edge dt) n J (lapPrim sd n N rest edge dt) b (lapExpr e l) ⟨X, dx⟩ ⟨.flat n N rest, dt⟩ := by
  induction l generalizing e with
  | nil => exact he
  | cons p l ih =>
    obtain ⟨t, w⟩ := p
    have hp' := hl (t, w) (by simp)
    exact ih (fun p hp => hl p (by simp [hp])) ⟨he, lap_typed hn hdt hX hg hp hN hp'.1 b, hp'.2⟩

theorem lapExpr_shape {e : MOp K (LTerm K)} (he : e.shape (lapLeaves sd n N rest edge dt).sh = (N * rest.prod, N * rest.prod)) (l : List (LTerm K × Scal K)) :
    (lapExpr e l).shape (lapLeaves sd n N rest edge dt).sh = (N * rest.prod, N * rest.prod) := by
  induction l generalizing e with
  | nil => exact he
  | cons p l ih => exact ih he

theorem lapExpr_shaped {e : MOp K (LTerm K)} (h : Shaped (lapLeaves sd n N rest edge dt).sh e) (he : e.shape (lapLeaves sd n N rest edge dt).sh = (N * rest.prod, N * rest.prod))
    (l : List (LTerm K × Scal K)) : Shaped (lapLeaves sd n N rest edge dt).sh (lapExpr e l) := by
  induction l generalizing e with
  | nil => exact h
  | cons p l ih => exact ih ⟨h, trivial, he⟩ he

theorem lapExpr_den (hn : 0 < n) {e : MOp K (LTerm K)} {d : List K} (hd : d.length = N * rest.prod) (hl : (den (lapLeaves sd n N rest edge dt) false e d).length = N * rest.prod)
    {l : List (LTerm K × Scal K)} (hg : ∀ p ∈ l, p.1.Good sd n N rest edge dt) :
    den (lapLeaves sd n N rest edge dt) false (lapExpr e l) d =
      vadd (den (lapLeaves sd n N rest edge dt) false e d) (vsum (N * rest.prod) (l.map fun p => vscale p.2.val (p.1.fwd N rest edge d))) := by
  induction l generalizing e with
  | nil => exact (vadd_zero hl).symm
  | cons p l ih =>
    obtain ⟨t, w⟩ := p
    have ht := hg (t, w) (by simp)
    have e1 : den (lapLeaves sd n N rest edge dt) false (.sum e (.scaled (.leaf t) w)) d
        = vadd (den (lapLeaves sd n N rest edge dt) false e d) (vscale w.val (t.fwd N rest edge d)) := by
      simp only [den]
      congr 2
      simp [lapLeaves, if_pos ht]
    have hl2 : (vscale w.val (t.fwd N rest edge d)).length = N * rest.prod := by
      have := lap_sized (sd := sd) (edge := edge) (dt := dt) (N := N) (rest := rest) hn t false d hd
      simp only [lapLeaves, if_pos ht, Bool.false_eq_true, if_false] at this
      simpa [vscale, dimOf] using this
    rw [lapExpr, ih (by rw [e1, length_vadd, hl, hl2, Nat.min_self]) (fun p hp => hg p (by simp [hp])), e1, List.map_cons, vsum_cons, vadd_assoc]

theorem runs_lapTerm (ht : t.Good sd n N rest edge dt) :
    Runs n (fun r => lapTerm (env n J r) sd (N :: rest) edge dt t.ax t.s t.k) (fun r => .ok (lapPrim sd n N rest edge dt t r)) := by
  unfold lapTerm
  by_cases h0 : t.ax = 0
  · simp only [if_pos h0]
    exact (Runs.ret _).congr (fun _ _ => rfl) fun r _ => by simp [lapPrim, if_pos ht, if_pos h0]
  · simp only [if_neg h0, localSplit_env]
    obtain ⟨a, ha⟩ : ∃ a, t.ax = a + 1 := ⟨t.ax - 1, by omega⟩
    have h := runs_mkBlockDiag (J := J) (mask := none) (n := n) (dtype := none) (dt := dt) (ops := fun r => [t.ops sd n N rest edge dt r]) (fun r _ => by
      simp [opsDType, ((ht.serial a ha).2 r).dtype])
    exact h.congr (fun _ _ => rfl) fun r _ => by simp [lapPrim, if_pos ht, if_neg h0]

theorem runs_lapLoop (hn : 0 < n) {l : List (Nat × K × Scal K)} (hl : ∀ p ∈ l, LTerm.Good sd n N rest edge dt ⟨p.1, p.2.1, .centered⟩) {e : MOp K (LTerm K)}
    (he : e.shape (lapLeaves sd n N rest edge dt).sh = (N * rest.prod, N * rest.prod)) :
    Runs n (fun r => lapLoop (env n J r) sd (N :: rest) edge dt l (e.map (lapPrim sd n N rest edge dt · r)))
      (fun r => .ok ((lapExpr e (l.map fun p => (⟨p.1, p.2.1, .centered⟩, p.2.2))).map (lapPrim sd n N rest edge dt · r))) := by
  induction l generalizing e with
  | nil => exact Runs.ret _
  | cons p l ih =>
    obtain ⟨ax, s, w⟩ := p
    simp only [lapLoop, Prog.bind_eq]
    have ht := hl (ax, s, w) (by simp)
    refine Runs.bind_ok (runs_lapTerm ht) ?_
    refine (ih (fun p hp => hl p (by simp [hp])) (e := .sum e (.scaled (.leaf ⟨ax, s, .centered⟩) w)) he).congr (fun r _ => ?_) fun _ _ => rfl
    have hsh : (e.map (lapPrim sd n N rest edge dt · r)).shape Prim.shape = (N * rest.prod, N * rest.prod) := by
      rw [shape_map (lv := lapLeaves sd n N rest edge dt) (prim := lapPrim sd n N rest edge dt) e fun t => lapPrim_shape hn t r, he]
    have hsh2 : (MOp.scaled (.leaf (lapPrim sd n N rest edge dt ⟨ax, s, .centered⟩ r)) w : MOp K (Prim K)).shape Prim.shape = (N * rest.prod, N * rest.prod) :=
      lapPrim_shape hn _ r
    unfold MOp.add
    rw [if_neg (by rw [hsh, hsh2]; simp)]
    rfl

end Verif

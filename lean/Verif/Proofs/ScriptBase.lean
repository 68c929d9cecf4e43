/-
  The operations of a script.
-/
import Verif.Spec.Script
import Verif.Proofs.SafeOps
import Verif.Proofs.History2
import Verif.Proofs.Methods
import Verif.Props.C09
import Verif.Props.C16
import Verif.Props.C17

namespace Verif
namespace Script
open NDArray
set_option linter.unusedSectionVars false

variable {K σ ι : Type} [RCLike K] {n : Nat} {J : Nat → Nat → K} {dt : DType}

theorem Held.wf (hn : 0 < n) {s : List Nat} {L : Layout} (h : Held n s L) : L.WF n := by
  rcases h with ⟨h, -⟩ | ⟨hs, rfl⟩
  · exact h
  · exact ⟨List.length_pos_iff.mpr hs, (fun h => by cases h), (fun _ h => by cases h)⟩

theorem Held.shape {s : List Nat} {L : Layout} (h : Held n s L) : L.gshape = s := by
  rcases h with ⟨-, h, -⟩ | ⟨-, rfl⟩
  · exact h
  · rfl

theorem Held.mask {s : List Nat} {L : Layout} (h : Held n s L) : L.mask = none := by
  rcases h with ⟨-, -, -, -, h⟩ | ⟨-, rfl⟩
  · exact h
  · rfl

theorem Held.axis {s : List Nat} {L : Layout} (h : Held n s L) : L.axis = 0 := by
  rcases h with ⟨-, -, -, h, -⟩ | ⟨-, rfl⟩
  · exact h
  · rfl

theorem Held.ne_nil {s : List Nat} {L : Layout} (h : Held n s L) : s ≠ [] := by
  rcases h with ⟨h, rfl, -⟩ | ⟨h, -⟩
  · exact List.length_pos_iff.mp (Nat.lt_of_le_of_lt (Nat.zero_le _) h.axis_lt)
  · exact h

theorem Held.mem (hdt : dt = .real → ∀ k : K, star k = k) {s : List Nat} {L : Layout} (h : Held n s L) {d : List K} (hd : d.length = s.prod) :
    VSpace.Mem ⟨L, dt⟩ d := ⟨by rw [hd, ← h.shape], fun h x _ => hdt h x⟩

/-- arrays whose parts pass the checks on all ranks are held in the same way -/
theorem held_eq (hn : 0 < n) {s s' : List Nat} {L L' : Layout} (h : Held n s L) (h' : Held n s' L') {d d' : List K}
    (hc : ∀ r < n, Compatible (VSpace.vec ⟨L, dt⟩ n d r) (VSpace.vec ⟨L', dt⟩ n d' r)) :
    s = s' ∧ ∀ (e : List K) (r), r < n → VSpace.vec ⟨L', dt⟩ n e r = VSpace.vec ⟨L, dt⟩ n e r := by
  have hp : L.part = L'.part := (hc 0 hn).1
  rcases h with ⟨w, rfl, p, ax, m⟩ | ⟨hs, rfl⟩
  · rcases h' with ⟨w', rfl, p', ax', m'⟩ | ⟨hs', rfl⟩
    · obtain ⟨g, part, axis, sz, mask⟩ := L
      obtain ⟨g', part', axis', sz', mask'⟩ := L'
      dsimp only at p ax m p' ax' m'
      subst p ax m p' ax' m'
      have hl : ∀ r < n, g.set 0 (sz r) = g'.set 0 (sz' r) := fun r hr => (hc r hr).2.1
      have h1 := w.axis_lt
      have h2 := w'.axis_lt
      dsimp only at h1 h2
      cases g with
      | nil => simp at h1
      | cons a g =>
        cases g' with
        | nil => simp at h2
        | cons a' g' =>
          have hsz : ∀ r < n, sz r = sz' r := fun r hr => (List.cons.inj (hl r hr)).1
          have hg : g = g' := (List.cons.inj (hl 0 hn)).2
          have hps : ∀ r ≤ n, psum sz r = psum sz' r := by
            intro r
            induction r with
            | zero => intro _; rfl
            | succ r ih => intro hr; simp only [psum]; rw [ih (by omega), hsz r (by omega)]
          have ha : a = a' := by
            have e1 := w.sum rfl
            have e2 := w'.sum rfl
            simp only [len] at e1 e2
            have := hps n le_rfl
            simp at e1 e2
            omega
          subst ha hg
          refine ⟨rfl, fun e r hr => ?_⟩
          simp only [VSpace.vec, Layout.fam, Layout.lshape, Layout.piece, Layout.members, hsz r hr, hps r hr.le, hps (r + 1) hr]
    · rw [p] at hp
      cases hp
  · rcases h' with ⟨w', rfl, p', ax', m'⟩ | ⟨hs', rfl⟩
    · rw [p'] at hp
      cases hp
    · have h0 : s = s' := (hc 0 hn).2.1
      subst h0
      exact ⟨rfl, fun _ _ _ => rfl⟩

/-- what the ranks do, and what the script does with NumPy arrays -/
def Outcome (n : Nat) (dt : DType) (ps : Nat → P K (Vars (DArr K) σ)) (res : Except Err (Vars (NDArray K) σ)) : Prop :=
  (∃ G, res = .ok G ∧ ∃ V, Holds n dt V G ∧ Runs n ps fun r => .ok (V r)) ∨ Raises n ps

theorem Outcome.congr {ps qs : Nat → P K (Vars (DArr K) σ)} {res : Except Err (Vars (NDArray K) σ)} (h : Outcome n dt ps res)
    (e : ∀ r < n, ps r = qs r) : Outcome n dt qs res := by
  rcases h with ⟨G, h1, V, h2, h3⟩ | h
  · exact .inl ⟨G, h1, V, h2, h3.congr e fun _ _ => rfl⟩
  · exact .inr (h.congr e)

theorem Outcome.bind {ps : Nat → P K (Vars (DArr K) σ)} {res : Except Err (Vars (NDArray K) σ)} (h : Outcome n dt ps res)
    {k : Nat → Vars (DArr K) σ → P K (Vars (DArr K) σ)} {kk : Vars (NDArray K) σ → Except Err (Vars (NDArray K) σ)}
    (hk : ∀ V G, Holds n dt V G → Outcome n dt (fun r => k r (V r)) (kk G)) : Outcome n dt (fun r => (ps r).bind (k r)) (res.bind kk) := by
  rcases h with ⟨G, rfl, V, h2, h3⟩ | h
  · rcases hk V G h2 with ⟨G', e1, V', e2, e3⟩ | h
    · exact .inl ⟨G', e1, V', e2, Runs.bind_ok h3 e3⟩
    · obtain ⟨m, hm, er, h⟩ := h
      exact .inr ⟨m, hm, er, rankEnds_bind_ok hm h3 h⟩
  · exact .inr (h.bind k)

theorem outcome_error (hn : 0 < n) (e : Err) (res : Except Err (Vars (NDArray K) σ)) : Outcome n dt (fun _ => .throw e) res :=
  .inr (Raises.of_runs hn (Runs.throw fun _ => e))

/-- reading a variable -/
theorem outcome_get (hn : 0 < n) {V : Nat → Vars (DArr K) σ} {G : Vars (NDArray K) σ} (h : Holds n dt V G) (x : Nat)
    {k : Nat → DArr K → P K (Vars (DArr K) σ)} {kk : NDArray K → Except Err (Vars (NDArray K) σ)}
    (hk : ∀ (s : List Nat) (d : List K) (L : Layout), d.length = s.prod → Held n s L →
      Outcome n dt (fun r => k r (VSpace.vec ⟨L, dt⟩ n d r)) (kk ⟨s, dt, d⟩)) :
    Outcome n dt (fun r => (Prog.lift ((V r).get x)).bind (k r)) ((G.get x).bind kk) := by
  have hx := h.2 x
  unfold Vars.get
  cases hG : G.arr x with
  | none =>
    rw [hG] at hx
    refine (outcome_error hn .attribute _).congr fun r hr => ?_
    rw [hx r hr]
    rfl
  | some a =>
    rw [hG] at hx
    obtain ⟨s, t, d⟩ := a
    obtain ⟨rfl, h2, L, h3, h4⟩ := hx
    refine (hk s d L h2 h3).congr fun r hr => ?_
    rw [h4 r hr]
    rfl

/-- storing an array -/
theorem outcome_set {V : Nat → Vars (DArr K) σ} {G : Vars (NDArray K) σ} (h : Holds n dt V G) (z : Nat) {s : List Nat} {d : List K} {L : Layout}
    (hd : d.length = s.prod) (hL : Held n s L) {ps : Nat → P K (DArr K)} (hr : RunsOr n ps fun r => .ok (VSpace.vec ⟨L, dt⟩ n d r)) :
    Outcome n dt (fun r => (ps r).bind fun e => .ret ((V r).set z e)) (.ok (G.set z ⟨s, dt, d⟩)) := by
  rcases hr with hr | hr
  · refine .inl ⟨_, rfl, fun r => (V r).set z (VSpace.vec ⟨L, dt⟩ n d r), ⟨h.1, fun x => ?_⟩, Runs.bind_ok hr (Runs.ret _)⟩
    by_cases hx : x = z
    · subst hx
      have e : (G.set x ⟨s, dt, d⟩).arr x = some ⟨s, dt, d⟩ := by simp [Vars.set]
      rw [e]
      exact ⟨rfl, hd, L, hL, fun r _ => by simp [Vars.set]⟩
    · simp only [Vars.set, if_neg hx]
      exact h.2 x
  · exact .inr (hr.bind _)

/-- a number that all ranks get -/
theorem outcome_loc {V : Nat → Vars (DArr K) σ} {G : Vars (NDArray K) σ} (h : Holds n dt V G) {α : Type} {ps : Nat → P K α} {a : α}
    (g : α → σ → σ) (hr : RunsOr n ps fun _ => .ok a) :
    Outcome n dt (fun r => (ps r).bind fun s => .ret { V r with loc := g s (V r).loc }) (.ok { G with loc := g a G.loc }) := by
  rcases hr with hr | hr
  · exact .inl ⟨_, rfl, fun r => { V r with loc := g a (V r).loc }, ⟨fun r hr => congrArg (g a) (h.1 r hr), h.2⟩, Runs.bind_ok hr (Runs.ret _)⟩
  · exact .inr (hr.bind _)

/-- two operands -/
theorem outcome_pair (hn : 0 < n) (hdt : dt = .real → ∀ k : K, star k = k) {α : Type} {s s' : List Nat} {d d' : List K} {L L' : Layout}
    (hd : d.length = s.prod) (hd' : d'.length = s'.prod) (hL : Held n s L) (hL' : Held n s' L') (f : K → K → K)
    {ps : Nat → DArr K → DArr K → P K α} {k : Nat → α → P K (Vars (DArr K) σ)} {kk : NDArray K → Except Err (Vars (NDArray K) σ)}
    (hbad : (∃ r < n, ¬ Compatible (VSpace.vec ⟨L, dt⟩ n d r) (VSpace.vec ⟨L', dt⟩ n d' r)) →
      Raises n fun r => ps r (VSpace.vec ⟨L, dt⟩ n d r) (VSpace.vec ⟨L', dt⟩ n d' r))
    (hgood : d'.length = s.prod → VSpace.Mem ⟨L, dt⟩ d → VSpace.Mem ⟨L, dt⟩ d' → (List.zipWith f d d').length = s.prod →
      Outcome n dt (fun r => (ps r (VSpace.vec ⟨L, dt⟩ n d r) (VSpace.vec ⟨L, dt⟩ n d' r)).bind (k r)) (kk ⟨s, dt, List.zipWith f d d'⟩)) :
    Outcome n dt (fun r => (ps r (VSpace.vec ⟨L, dt⟩ n d r) (VSpace.vec ⟨L', dt⟩ n d' r)).bind (k r))
      ((elementwise f ⟨s, dt, d⟩ ⟨s', dt, d'⟩).bind kk) := by
  by_cases hc : ∀ r < n, Compatible (VSpace.vec ⟨L, dt⟩ n d r) (VSpace.vec ⟨L', dt⟩ n d' r)
  · obtain ⟨rfl, he⟩ := held_eq hn hL hL' hc
    have := hgood hd' (hL.mem hdt hd) (hL.mem hdt hd') (by rw [List.length_zipWith, hd, hd', Nat.min_self])
    unfold elementwise
    rw [if_pos rfl]
    exact this.congr fun r hr => by rw [he d' r hr]
  · exact .inr ((hbad (by push Not at hc; exact hc)).bind _)

theorem raises_at {α : Type} {ps : Nat → P K α} {e : Err} (h : ∃ r < n, ps r = .throw e) : Raises n ps := by
  obtain ⟨r, hr, h⟩ := h
  exact ⟨r, hr, e, RankEnds.of_steps .refl (by rw [h]; rfl)⟩

theorem raises_neg {α : Type} {S : VSpace} (hS : S.L.WF n) {d : List K} (hd : S.Mem d) {y : Nat → DArr K} {f : Nat → DArr K → DArr K → P K α}
    (hf : ∀ r d e, ¬ Compatible d e → f r d e = .throw .value) (h : ∃ r < n, ¬ Compatible (y r) (S.vec n d r)) :
    Raises n fun r => ((S.vec n d r).neg (env n J r)).bind fun e => f r (y r) e := by
  obtain ⟨q, hq, h⟩ := h
  have hc : ¬ Compatible (y q) (S.vec n (d.map (- ·)) q) := h
  exact ⟨q, hq, .value, rankEnds_bind_ok hq (runs_neg_vec (J := J) hS hd) (RankEnds.of_steps .refl (by rw [hf _ _ _ hc]; rfl))⟩

theorem runs_zerosLike_vec {S : VSpace} (hL : S.L.WF n) (hm : S.L.mask = none) {d : List K} (hd : S.Mem d) :
    Runs n (fun r => (S.vec n d r).zerosLike (env n J r)) (fun r => .ok (S.vec n (d.map fun _ => 0) r)) := by
  refine (runs_zerosLike hL).congr (fun _ _ => rfl) fun r hr => ?_
  have e : S.L.unmask = S.L := by
    obtain ⟨⟨_, _, _, _, m⟩, _⟩ := S
    dsimp only at hm
    subst hm
    rfl
  rw [e, vec_congr (S := S) (d := d.map fun _ => 0)]
  rw [piece_map, ← (good_vec hL hd).length r hr, List.map_const']

theorem runs_mul_vec {S : VSpace} (hL : S.L.WF n) {d e : List K} (hd : S.Mem d) (he : S.Mem e) :
    Runs n (fun r => (S.vec n d r).mul (env n J r) (S.vec n e r)) (fun r => .ok (S.vec n (List.zipWith (· * ·) d e) r)) :=
  (runs_mul hL (good_vec hL hd) (good_vec hL he)).congr (fun _ _ => rfl) fun r _ => by
    rw [vec_congr (piece_zip _ (hd.1.trans he.1.symm) r).symm]

theorem ravel_held (hn : 0 < n) {s : List Nat} {L : Layout} (h : Held n s L) {d : List K} (hd : d.length = s.prod)
    (hdt : dt = .real → ∀ k : K, star k = k) :
    ∃ L', Held n [s.prod] L' ∧ Runs n (fun r => (VSpace.vec ⟨L, dt⟩ n d r).ravel (env n J r)) fun r => .ok (VSpace.vec ⟨L', dt⟩ n d r) := by
  have hw := h.wf hn
  have hm := h.mem hdt hd
  have hg := good_vec hw hm
  have h0 := runs_ravel (J := J) (dt := dt) hw hg.length
  have hsync : ∀ r < n, (L.sync (L.piece d) r).map (castTo dt) = L.piece d r := fun r hr => by
    rw [sync_eq hg.consistent hr, castTo_of_fits (hg.fits r hr)]
  rcases h with ⟨hw, rfl, hp, hax, hmask⟩ | ⟨hs, rfl⟩
  · refine ⟨L.ravel, .inl ⟨ravel_wf hw, rfl, hp, rfl, hmask⟩, h0.congr (fun _ _ => rfl) fun r hr => ?_⟩
    congr 1
    refine fam_congr ?_
    rw [hsync r hr, piece_axis0 hw hp hax hd, piece_axis0 (ravel_wf hw) hp rfl (by rw [hd]; simp [Layout.ravel])]
    have e : ∀ r, (L.lshape r).prod = L.sizes r * inner L.gshape 0 := fun r => by
      rw [length_lshape_prod hw hp, hax, show outer L.gshape 0 = 1 by simp [outer], one_mul]
    have e1 : inner L.ravel.gshape 0 = 1 := rfl
    have e2 : L.ravel.sizes = fun r => L.sizes r * inner L.gshape 0 := funext e
    rw [e1, e2, psum_mul, mul_one, mul_one]
  · refine ⟨⟨[s.prod], .broadcast, 0, fun _ => 0, none⟩, .inr ⟨by simp, rfl⟩, h0.congr (fun _ _ => rfl) fun r hr => ?_⟩
    simp only [Layout.fam, hsync r hr]
    rfl

theorem runs_unary (hdt : dt = .real → ∀ k : K, star k = k) {L : Layout} (hw : L.WF n) (hm : L.mask = none) {d : List K}
    (hd : VSpace.Mem ⟨L, dt⟩ d) (op : UnaryOp K) :
    Runs n (fun r => op.run (env n J r) dt (VSpace.vec ⟨L, dt⟩ n d r)) fun r => .ok (VSpace.vec ⟨L, dt⟩ n (d.map op.fn) r) := by
  cases op with
  | neg => exact runs_neg_vec hw hd
  | conj => exact runs_conj_vec hw hd
  | copy =>
    rw [show (UnaryOp.copy : UnaryOp K).fn = id from rfl, List.map_id]
    exact runs_copy_vec hw hd
  | zeros => exact runs_zerosLike_vec hw hm hd
  | smul s => exact runs_smul_vec hw (fun h => hdt h s) hd

theorem runs_binary {L : Layout} (hw : L.WF n) {d e : List K} (hd : VSpace.Mem ⟨L, dt⟩ d) (he : VSpace.Mem ⟨L, dt⟩ e) (op : BinaryOp) :
    Runs n (fun r => op.run (env n J r) (VSpace.vec ⟨L, dt⟩ n d r) (VSpace.vec ⟨L, dt⟩ n e r))
      fun r => .ok (VSpace.vec ⟨L, dt⟩ n (List.zipWith op.fn d e) r) := by
  cases op with
  | add => exact runs_add_vec hw hd he
  | sub => exact runs_sub_vec hw hd he
  | mul => exact runs_mul_vec hw hd he

theorem raises_binary {S S' : VSpace} (hS' : S'.L.WF n) {d e : List K} (he : S'.Mem e) (op : BinaryOp)
    (h : ∃ r < n, ¬ Compatible (S.vec n d r) (S'.vec n e r)) : Raises n fun r => op.run (env n J r) (S.vec n d r) (S'.vec n e r) := by
  classical
  cases op with
  | add =>
    obtain ⟨r, hr, h⟩ := h
    exact raises_at ⟨r, hr, show DArr.add _ _ _ = Prog.throw .value by simp [DArr.add, checkCompat_eq, h]⟩
  | mul =>
    obtain ⟨r, hr, h⟩ := h
    exact raises_at ⟨r, hr, show DArr.mul _ _ _ = Prog.throw .value by simp [DArr.mul, checkCompat_eq, h]⟩
  | sub => exact raises_neg (f := fun r d e => d.add (env n J r) e) hS' he (fun r d e h => by simp [DArr.add, checkCompat_eq, h]) h

theorem runs_norm_vec {S : VSpace} (hL : S.L.WF n) (hm : S.L.mask = none) {d : List K} (hd : S.Mem d) :
    Runs n (fun r => (S.vec n d r).norm (env n J r) .none none) fun _ => .ok ⟨[], .real, [.fin (Real.sqrt (d.map fun x => ‖x‖ ^ 2).sum)]⟩ := by
  have hga : S.L.part.isBroadcast = true → ∀ r < n, S.L.piece d r = S.L.piece d 0 := fun h r _ => by simp [Layout.piece, h]
  refine (C09_euclidean (J := J) hL hm (good_vec hL hd) hga).runs.congr (fun _ _ => rfl) fun r _ => ?_
  rw [show (S.L.global n S.dt (S.L.piece d)).data = d from global_piece hL hd.1]

theorem standard_held (hn : 0 < n) {s : List Nat} (hs : s ≠ []) : Held n s (standard n s) :=
  .inl ⟨⟨List.length_pos_iff.mpr hs, fun _ => psum_balanced_total _ hn, (fun _ h => by cases h)⟩, rfl, rfl, rfl, rfl⟩

end Script
end Verif

/-
  Scripts give what they give with NumPy arrays, or some rank raises.
-/
import Verif.Proofs.ScriptSolvers

namespace Verif
namespace Script
open NDArray
set_option linter.unusedSectionVars false

variable {K σ ι : Type} [RCLike K] {n : Nat} {J : Nat → Nat → K} {dt : DType}
theorem holds_set {V : Nat → Vars (DArr K) σ} {G : Vars (NDArray K) σ} (h : Holds n dt V G) (z : Nat) {f : Nat → DArr K} {a : NDArray K} (hf : Rep true n dt f a)
    {l : Nat → σ} {l' : σ} (hl : ∀ r < n, l r = l') : Holds n dt (fun r => { (V r).set z (f r) with loc := l r }) { G.set z a with loc := l' } := by
  refine ⟨hl, fun x => ?_⟩
  by_cases hx : x = z
  · subst hx
    have e : (G.set x a).arr x = some a := by simp [Vars.set]
    dsimp only
    rw [e]
    obtain ⟨h1, h2, L, h3, h4⟩ := hf
    exact ⟨h1, h2, L, h3, fun r hr => by simp [Vars.set, h4 r hr]⟩
  · simp only [Vars.set, if_neg hx]
    exact h.2 x

theorem outcome_read (hn : 0 < n) {V : Nat → Vars (DArr K) σ} {G : Vars (NDArray K) σ} (h : Holds n dt V G) (x : Nat)
    {k : Nat → DArr K → P K (Vars (DArr K) σ)} {kk : NDArray K → Except Err (Vars (NDArray K) σ)}
    (hk : ∀ f a, Rep true n dt f a → Outcome n dt (fun r => k r (f r)) (kk a)) : Outcome n dt (fun r => (Prog.lift ((V r).get x)).bind (k r)) ((G.get x).bind kk) :=
  outcome_get hn h x fun s d L hd hL => hk _ _ ⟨rfl, hd, L, hL, fun _ _ => rfl⟩

theorem outcome_bind {A B : Type} {R : (Nat → A) → B → Prop} {ps : Nat → P K A} {res : Except Err B} (h : Out n true R ps res) {k : Nat → A → P K (Vars (DArr K) σ)}
    {kk : B → Except Err (Vars (NDArray K) σ)} (hk : ∀ a b, R a b → Outcome n dt (fun r => k r (a r)) (kk b)) :
    Outcome n dt (fun r => (ps r).bind (k r)) (res.bind kk) := by
  rcases h with ⟨b, rfl, a, h2, h3⟩ | ⟨-, h⟩
  · rcases hk a b h2 with ⟨G', e1, V', e2, e3⟩ | ⟨m, hm, er, h⟩
    · exact .inl ⟨G', e1, V', e2, Runs.bind_ok h3 e3⟩
    · exact .inr ⟨m, hm, er, rankEnds_bind_ok hm h3 h⟩
  · exact .inr (h.bind k)

variable {prim : ι → Nat → Prim K} {lv : Leaves K ι}

theorem script_outcome (hn : 0 < n) (hdt : dt = .real → ∀ k : K, star k = k) (hops : OpsOr n J dt prim lv) (p : Script K σ ι) :
    ∀ V G, Holds n dt V G → Outcome n dt (fun r => p.run dt (prim · r) (env n J r) (V r)) (p.serial dt lv G) := by
  classical
  induction p with
  | pure f =>
    intro V G h
    unfold Script.run Script.serial
    cases hf : f G.loc with
    | error e => exact (outcome_error hn e _).congr fun r hr => by rw [h.1 r hr, hf]; rfl
    | ok s => exact .inl ⟨_, rfl, fun r => { V r with loc := s }, ⟨fun _ _ => rfl, h.2⟩, (Runs.ret _).congr (fun r hr => by rw [h.1 r hr, hf]; rfl) fun _ _ => rfl⟩
  | dist x b shape entry =>
    intro V G h
    unfold Script.run Script.serial
    by_cases hs : shape G.loc = []
    · rw [if_pos hs]
      refine (outcome_error hn .index _).congr fun r hr => ?_
      rw [h.1 r hr]
      simp [toDist, NDArray.tab, hs, mkDArr]
    · rw [if_neg hs]
      obtain ⟨L, hL, hp, ha, hb, hm⟩ : ∃ L, Held n (shape G.loc) L ∧ L.part = (if b then .broadcast else .scatter) ∧ L.axis = 0 ∧
          (L.part = .scatter → L.sizes = balanced (len L.gshape L.axis) n) ∧ L.mask = none := by
        cases b with
        | true => exact ⟨⟨shape G.loc, .broadcast, 0, fun _ => 0, none⟩, .inr ⟨hs, rfl⟩, rfl, rfl, (fun h => by cases h), rfl⟩
        | false => exact ⟨⟨shape G.loc, .scatter, 0, balanced (len (shape G.loc) 0) n, none⟩, .inl ⟨⟨List.length_pos_iff.mpr hs,
            fun _ => psum_balanced_total _ hn, (fun _ h => by cases h)⟩, rfl, rfl, rfl, rfl⟩, rfl, rfl, fun _ => rfl, rfl⟩
      have h1 := runs_toDist_none (J := J) (hL.wf hn) (x := NDArray.tab (shape G.loc) dt (entry G.loc)) hb hL.shape.symm (by simp [NDArray.WF, NDArray.tab])
        (fun h x _ => hdt h x)
      rw [hp, ha, hm] at h1
      refine (outcome_set h x (s := shape G.loc) (d := (List.range (shape G.loc).prod).map (entry G.loc)) (by simp) hL (Runs.or h1)).congr fun r hr => ?_
      rw [h.1 r hr]
  | gather x g =>
    intro V G h
    refine outcome_get hn h x fun s d L hd hL => ?_
    have := runs_asarray_vec (J := J) (hL.wf hn) (hL.mem hdt hd)
    rw [show VSpace.L ⟨L, dt⟩ = L from rfl, hL.shape] at this
    exact outcome_loc h g this.or
  | unary op z x =>
    intro V G h
    refine outcome_get hn h x fun s d L hd hL => ?_
    have := runs_unary (J := J) hdt (hL.wf hn) hL.mask (hL.mem hdt hd) (op G.loc)
    refine (outcome_set h z (by rw [List.length_map, hd]) hL this.or).congr fun r hr => ?_
    rw [h.1 r hr]
  | binary op z x y =>
    intro V G h
    refine outcome_get hn h x fun s d L hd hL => ?_
    refine outcome_get hn h y fun s' d' L' hd' hL' => ?_
    refine outcome_pair hn hdt hd hd' hL hL' op.fn (ps := fun r d e => op.run (env n J r) d e)
      (fun hb => raises_binary (hL'.wf hn) (hL'.mem hdt hd') op hb) fun _ m1 m2 hl => ?_
    exact outcome_set h z hl hL (runs_binary (hL.wf hn) m1 m2 op).or
  | iadd x y =>
    intro V G h
    refine outcome_get hn h x fun s d L hd hL => ?_
    refine outcome_get hn h y fun s' d' L' hd' hL' => ?_
    refine outcome_pair hn hdt hd hd' hL hL' (· + ·) (ps := fun r d e => d.iadd (env n J r) e) (fun hb => ?_) fun _ m1 m2 hl => ?_
    · obtain ⟨r, hr, hb⟩ := hb
      exact raises_at ⟨r, hr, show DArr.iadd _ _ _ = Prog.throw .value by simp [DArr.iadd, checkCompat_eq, hb]⟩
    · exact outcome_set h x hl hL (runs_iadd_vec (hL.wf hn) m1 m2).or
  | isub x y =>
    intro V G h
    refine outcome_get hn h x fun s d L hd hL => ?_
    refine outcome_get hn h y fun s' d' L' hd' hL' => ?_
    refine outcome_pair hn hdt hd hd' hL hL' (· - ·) (ps := fun r d e => d.isub (env n J r) e) (fun hb => ?_) fun _ m1 m2 hl => ?_
    · exact raises_neg (f := fun r d e => d.iadd (env n J r) e) (hL'.wf hn) (hL'.mem hdt hd') (fun r d e h => by simp [DArr.iadd, checkCompat_eq, h]) hb
    · exact outcome_set h x hl hL (runs_isub_vec (hL.wf hn) m1 m2).or
  | ravel z x =>
    intro V G h
    refine outcome_get hn h x fun s d L hd hL => ?_
    obtain ⟨L', h1, h2⟩ := ravel_held (J := J) hn hL hd hdt
    exact outcome_set h z (by simpa using hd) h1 h2.or
  | dot x y g =>
    intro V G h
    refine outcome_get hn h x fun s d L hd hL => ?_
    refine outcome_get hn h y fun s' d' L' hd' hL' => ?_
    refine outcome_pair hn hdt hd hd' hL hL' (· * ·) (ps := fun r d e => d.dot (env n J r) e) (fun hb => ?_) fun _ m1 m2 hl => ?_
    · obtain ⟨r, hr, hb⟩ := hb
      exact raises_at ⟨r, hr, show DArr.dot _ _ _ = Prog.throw .value by simp [DArr.dot, checkCompat_eq, hb]⟩
    · exact outcome_loc h g (runs_dot_vec (hL.wf hn) hL.mask m1 m2).or
  | norm x g =>
    intro V G h
    refine outcome_get hn h x fun s d L hd hL => ?_
    exact outcome_loc h g (runs_norm_vec (hL.wf hn) hL.mask (hL.mem hdt hd)).or
  | apply i b z x =>
    intro V G h
    refine outcome_read hn h x fun f a hf => ?_
    exact outcome_bind (OpOr.rep ⟨hn, hdt⟩ (hops i) b f a hf) fun e a' he => .inl ⟨_, rfl, _, holds_set h z he h.1, Runs.ret _⟩
  | cg i z y x niter tol g =>
    intro V G h
    refine outcome_read hn h y fun f a hf => ?_
    refine outcome_read hn h x fun f' a' hf' => ?_
    have := out_cg ⟨hn, hdt⟩ (OpOr.rep ⟨hn, hdt⟩ (hops i)) (y := fun r => .one (f r)) (x := fun r => .one (f' r)) ⟨f, hf, fun _ _ => rfl⟩ ⟨f', hf', fun _ _ => rfl⟩
      (niter G.loc) (tol G.loc)
    rw [← ebind_assoc]
    refine (outcome_bind this (k := fun r q => q.1.array.bind fun e => .ret { (V r).set z e with loc := g q.2.1 q.2.2.1 (V r).loc }) fun w s hw => ?_).congr fun r hr => ?_
    · obtain ⟨⟨e, he, hx⟩, hw⟩ := hw
      refine .inl ⟨_, rfl, _, holds_set h z he (l := fun _ => g s.iiter s.cost G.loc) fun _ _ => rfl, (Runs.ret _).congr (fun r hr => ?_) fun _ _ => rfl⟩
      rw [show (w r).1 = _ from hx r hr, (hw r hr).1, (hw r hr).2, h.1 r hr]
      rfl
    · rw [h.1 r hr]
  | cgls i z y x niter damp tol g =>
    intro V G h
    refine outcome_read hn h y fun f a hf => ?_
    refine outcome_read hn h x fun f' a' hf' => ?_
    have := out_cgls ⟨hn, hdt⟩ (OpOr.rep ⟨hn, hdt⟩ (hops i)) (y := fun r => .one (f r)) (x := fun r => .one (f' r)) ⟨f, hf, fun _ _ => rfl⟩ ⟨f', hf', fun _ _ => rfl⟩
      (niter G.loc) (damp G.loc) (tol G.loc)
    rw [← ebind_assoc]
    refine (outcome_bind this (k := fun r q => q.x.array.bind fun e => .ret { (V r).set z e with loc := g ⟨q.istop, q.iiter, q.r1norm, q.r2norm, q.cost⟩ (V r).loc }) fun w s hw => ?_).congr fun r hr => ?_
    · obtain ⟨⟨e, he, hx⟩, hw⟩ := hw
      refine .inl ⟨_, rfl, _, holds_set h z he (l := fun _ => g (s.numbers (tol G.loc)) G.loc) fun _ _ => rfl, (Runs.ret _).congr (fun r hr => ?_) fun _ _ => rfl⟩
      rw [show (w r).x = _ from hx r hr, hw r hr, h.1 r hr]
      rfl
    · rw [h.1 r hr]
  | seq s t ihs iht => exact fun V G h => (ihs V G h).bind iht
  | ite c s t ihs iht =>
    intro V G h
    unfold Script.run Script.serial
    cases hc : c G.loc with
    | true => exact (ihs V G h).congr fun r hr => by rw [h.1 r hr, hc]; rfl
    | false => exact (iht V G h).congr fun r hr => by rw [h.1 r hr, hc]; rfl
  | loop k stop s ih =>
    intro V G h
    have key : ∀ k V G, Holds n dt V G → Outcome n dt (fun r => runLoop (fun v : Vars (DArr K) σ => stop v.loc) (s.run dt (prim · r) (env n J r)) k (V r))
        (serialLoop (fun v : Vars (NDArray K) σ => stop v.loc) (s.serial dt lv) k G) := by
      intro k
      induction k with
      | zero => exact fun V G h => .inl ⟨G, rfl, V, h, Runs.ret _⟩
      | succ k ihk =>
        intro V G h
        unfold runLoop serialLoop
        cases hc : stop G.loc with
        | true => exact .inl ⟨G, by simp, V, h, (Runs.ret V).congr (fun r hr => by rw [h.1 r hr, hc]; rfl) fun _ _ => rfl⟩
        | false => exact ((ih V G h).bind ihk).congr fun r hr => by rw [h.1 r hr, hc]; rfl
    unfold Script.run Script.serial
    exact (key (k G.loc) V G h).congr fun r hr => by rw [h.1 r hr]

/-! ### scripts that do not raise -/

/-- what the ranks do if the script returns with NumPy arrays -/
def Good (n : Nat) (dt : DType) (ps : Nat → P K (Vars (DArr K) σ)) (res : Except Err (Vars (NDArray K) σ)) : Prop :=
  ∀ G, res = .ok G → ∃ V, HoldsStandard n dt V G ∧ Runs n ps fun r => .ok (V r)

theorem Good.congr {ps qs : Nat → P K (Vars (DArr K) σ)} {res : Except Err (Vars (NDArray K) σ)} (h : Good n dt ps res)
    (e : ∀ r < n, ps r = qs r) : Good n dt qs res := fun G hG => by
  obtain ⟨V, h2, h3⟩ := h G hG
  exact ⟨V, h2, h3.congr e fun _ _ => rfl⟩

theorem Good.bind {ps : Nat → P K (Vars (DArr K) σ)} {res : Except Err (Vars (NDArray K) σ)} (h : Good n dt ps res)
    {k : Nat → Vars (DArr K) σ → P K (Vars (DArr K) σ)} {kk : Vars (NDArray K) σ → Except Err (Vars (NDArray K) σ)}
    (hk : ∀ V G, HoldsStandard n dt V G → Good n dt (fun r => k r (V r)) (kk G)) : Good n dt (fun r => (ps r).bind (k r)) (res.bind kk) := by
  intro G' hG'
  cases res with
  | error e => cases hG'
  | ok G =>
    obtain ⟨V, h2, h3⟩ := h G rfl
    obtain ⟨V', e1, e2⟩ := hk V G h2 G' hG'
    exact ⟨V', e1, Runs.bind_ok h3 e2⟩

theorem good_get {V : Nat → Vars (DArr K) σ} {G : Vars (NDArray K) σ} (h : HoldsStandard n dt V G) (x : Nat)
    {k : Nat → DArr K → P K (Vars (DArr K) σ)} {kk : NDArray K → Except Err (Vars (NDArray K) σ)}
    (hk : ∀ (s : List Nat) (d : List K), d.length = s.prod → s ≠ [] →
      Good n dt (fun r => k r (VSpace.vec ⟨standard n s, dt⟩ n d r)) (kk ⟨s, dt, d⟩)) :
    Good n dt (fun r => (Prog.lift ((V r).get x)).bind (k r)) ((G.get x).bind kk) := by
  have hx := h.2 x
  unfold Vars.get
  cases hG : G.arr x with
  | none => intro G' h; cases h
  | some a =>
    rw [hG] at hx
    obtain ⟨s, t, d⟩ := a
    obtain ⟨rfl, h2, h3, h4⟩ := hx
    refine (hk s d h2 h3).congr fun r hr => ?_
    rw [h4 r hr]
    rfl

theorem good_set {V : Nat → Vars (DArr K) σ} {G : Vars (NDArray K) σ} (h : HoldsStandard n dt V G) (z : Nat) {s : List Nat} {d : List K}
    (hd : d.length = s.prod) (hs : s ≠ []) {ps : Nat → P K (DArr K)} (hr : Runs n ps fun r => .ok (VSpace.vec ⟨standard n s, dt⟩ n d r)) :
    Good n dt (fun r => (ps r).bind fun e => .ret ((V r).set z e)) (.ok (G.set z ⟨s, dt, d⟩)) := by
  intro G' hG'
  obtain rfl := Except.ok.inj hG'
  refine ⟨fun r => (V r).set z (VSpace.vec ⟨standard n s, dt⟩ n d r), ⟨h.1, fun x => ?_⟩, Runs.bind_ok hr (Runs.ret _)⟩
  by_cases hx : x = z
  · subst hx
    have e : (G.set x ⟨s, dt, d⟩).arr x = some ⟨s, dt, d⟩ := by simp [Vars.set]
    rw [e]
    exact ⟨rfl, hd, hs, fun r _ => by simp [Vars.set]⟩
  · simp only [Vars.set, if_neg hx]
    exact h.2 x

theorem good_loc {V : Nat → Vars (DArr K) σ} {G : Vars (NDArray K) σ} (h : HoldsStandard n dt V G) {α : Type} {ps : Nat → P K α} {a : α}
    (g : α → σ → σ) (hr : Runs n ps fun _ => .ok a) :
    Good n dt (fun r => (ps r).bind fun s => .ret { V r with loc := g s (V r).loc }) (.ok { G with loc := g a G.loc }) := by
  intro G' hG'
  obtain rfl := Except.ok.inj hG'
  exact ⟨fun r => { V r with loc := g a (V r).loc }, ⟨fun r hr => congrArg (g a) (h.1 r hr), h.2⟩, Runs.bind_ok hr (Runs.ret _)⟩

theorem good_pair (hn : 0 < n) (hdt : dt = .real → ∀ k : K, star k = k) {s s' : List Nat} {d d' : List K}
    (hd : d.length = s.prod) (hd' : d'.length = s'.prod) (hs : s ≠ []) (f : K → K → K)
    {ps : Nat → DArr K → DArr K → P K (Vars (DArr K) σ)} {kk : NDArray K → Except Err (Vars (NDArray K) σ)}
    (hgood : VSpace.Mem ⟨standard n s, dt⟩ d → VSpace.Mem ⟨standard n s, dt⟩ d' → (List.zipWith f d d').length = s.prod →
      Good n dt (fun r => ps r (VSpace.vec ⟨standard n s, dt⟩ n d r) (VSpace.vec ⟨standard n s, dt⟩ n d' r)) (kk ⟨s, dt, List.zipWith f d d'⟩)) :
    Good n dt (fun r => ps r (VSpace.vec ⟨standard n s, dt⟩ n d r) (VSpace.vec ⟨standard n s', dt⟩ n d' r))
      ((elementwise f ⟨s, dt, d⟩ ⟨s', dt, d'⟩).bind kk) := by
  unfold elementwise
  by_cases h : s = s'
  · subst h
    rw [if_pos rfl]
    have hL := standard_held hn hs
    exact hgood (hL.mem hdt hd) (hL.mem hdt hd') (by rw [List.length_zipWith, hd, hd', Nat.min_self])
  · intro G hG
    rw [if_neg h] at hG
    cases hG

theorem goods_set {V : Nat → Vars (DArr K) σ} {G : Vars (NDArray K) σ} (h : HoldsStandard n dt V G) (z : Nat) {f : Nat → DArr K} {a : NDArray K} (hf : Rep false n dt f a)
    {l : Nat → σ} {l' : σ} (hl : ∀ r < n, l r = l') : HoldsStandard n dt (fun r => { (V r).set z (f r) with loc := l r }) { G.set z a with loc := l' } := by
  refine ⟨hl, fun x => ?_⟩
  by_cases hx : x = z
  · subst hx
    have e : (G.set x a).arr x = some a := by simp [Vars.set]
    dsimp only
    rw [e]
    obtain ⟨h1, h2, L, ⟨h3, rfl⟩, h4⟩ := hf
    exact ⟨h1, h2, h3, fun r hr => by simp [Vars.set, h4 r hr]⟩
  · simp only [Vars.set, if_neg hx]
    exact h.2 x

theorem good_read {V : Nat → Vars (DArr K) σ} {G : Vars (NDArray K) σ} (h : HoldsStandard n dt V G) (x : Nat)
    {k : Nat → DArr K → P K (Vars (DArr K) σ)} {kk : NDArray K → Except Err (Vars (NDArray K) σ)}
    (hk : ∀ f a, Rep false n dt f a → Good n dt (fun r => k r (f r)) (kk a)) : Good n dt (fun r => (Prog.lift ((V r).get x)).bind (k r)) ((G.get x).bind kk) :=
  good_get h x fun s d hd hs => hk _ _ ⟨rfl, hd, standard n s, ⟨hs, rfl⟩, fun _ _ => rfl⟩

theorem good_bind {A B : Type} {R : (Nat → A) → B → Prop} {ps : Nat → P K A} {res : Except Err B} (h : Out n false R ps res) {k : Nat → A → P K (Vars (DArr K) σ)}
    {kk : B → Except Err (Vars (NDArray K) σ)} (hk : ∀ a b, R a b → Good n dt (fun r => k r (a r)) (kk b)) :
    Good n dt (fun r => (ps r).bind (k r)) (res.bind kk) := by
  rcases h with ⟨b, rfl, a, h2, h3⟩ | ⟨h | ⟨e, rfl⟩, -⟩
  · intro G' hG'
    obtain ⟨V', e2, e3⟩ := hk a b h2 G' hG'
    exact ⟨V', e2, Runs.bind_ok h3 e3⟩
  · cases h
  · intro G' hG'
    cases hG'

theorem good_ret {V : Nat → Vars (DArr K) σ} {G : Vars (NDArray K) σ} (h : HoldsStandard n dt V G) {ps : Nat → P K (Vars (DArr K) σ)} (e : ∀ r < n, ps r = .ret (V r)) :
    Good n dt ps (.ok G) := fun G' hG' => by
  obtain rfl := Except.ok.inj hG'
  exact ⟨V, h, (Runs.ret V).congr (fun r hr => (e r hr).symm) fun _ _ => rfl⟩

theorem script_good (hn : 0 < n) (hdt : dt = .real → ∀ k : K, star k = k) (hops : OpsStandard n J dt prim lv) (p : Script K σ ι) (hp : p.Plain) :
    ∀ V G, HoldsStandard n dt V G → Good n dt (fun r => p.run dt (prim · r) (env n J r) (V r)) (p.serial dt lv G) := by
  induction p with
  | pure f =>
    intro V G h
    unfold Script.run Script.serial
    cases hf : f G.loc with
    | error e => intro G' h; cases h
    | ok s =>
      intro G' hG'
      obtain rfl := Except.ok.inj hG'
      exact ⟨fun r => { V r with loc := s }, ⟨fun _ _ => rfl, h.2⟩, (Runs.ret _).congr (fun r hr => by rw [h.1 r hr, hf]; rfl) fun _ _ => rfl⟩
  | dist x b shape entry =>
    intro V G h
    obtain rfl : b = false := hp
    unfold Script.run Script.serial
    by_cases hs : shape G.loc = []
    · rw [if_pos hs]
      intro G' h
      cases h
    · rw [if_neg hs]
      have hL := standard_held hn hs
      have h1 := runs_toDist_none (J := J) (hL.wf hn) (x := NDArray.tab (shape G.loc) dt (entry G.loc)) (fun _ => rfl) hL.shape.symm
        (by simp [NDArray.WF, NDArray.tab]) (fun h x _ => hdt h x)
      refine (good_set h x (s := shape G.loc) (d := (List.range (shape G.loc).prod).map (entry G.loc)) (by simp) hs h1).congr fun r hr => ?_
      rw [h.1 r hr]
      rfl
  | gather x g =>
    intro V G h
    refine good_get h x fun s d hd hs => ?_
    have hL := standard_held hn hs
    exact good_loc h g (runs_asarray_vec (J := J) (hL.wf hn) (hL.mem hdt hd))
  | unary op z x =>
    intro V G h
    refine good_get h x fun s d hd hs => ?_
    have hL := standard_held hn hs
    have := runs_unary (J := J) hdt (hL.wf hn) hL.mask (hL.mem hdt hd) (op G.loc)
    refine (good_set h z (by rw [List.length_map, hd]) hs this).congr fun r hr => ?_
    rw [h.1 r hr]
  | binary op z x y =>
    intro V G h
    refine good_get h x fun s d hd hs => ?_
    refine good_get h y fun s' d' hd' _ => ?_
    refine good_pair hn hdt hd hd' hs op.fn (ps := fun r d e => (op.run (env n J r) d e).bind fun f => .ret ((V r).set z f)) fun m1 m2 hl => ?_
    exact good_set h z hl hs (runs_binary ((standard_held hn hs).wf hn) m1 m2 op)
  | iadd x y =>
    intro V G h
    refine good_get h x fun s d hd hs => ?_
    refine good_get h y fun s' d' hd' _ => ?_
    refine good_pair hn hdt hd hd' hs (· + ·) (ps := fun r d e => (d.iadd (env n J r) e).bind fun f => .ret ((V r).set x f)) fun m1 m2 hl => ?_
    exact good_set h x hl hs (runs_iadd_vec ((standard_held hn hs).wf hn) m1 m2)
  | isub x y =>
    intro V G h
    refine good_get h x fun s d hd hs => ?_
    refine good_get h y fun s' d' hd' _ => ?_
    refine good_pair hn hdt hd hd' hs (· - ·) (ps := fun r d e => (d.isub (env n J r) e).bind fun f => .ret ((V r).set x f)) fun m1 m2 hl => ?_
    exact good_set h x hl hs (runs_isub_vec ((standard_held hn hs).wf hn) m1 m2)
  | ravel z x => exact hp.elim
  | dot x y g =>
    intro V G h
    refine good_get h x fun s d hd hs => ?_
    refine good_get h y fun s' d' hd' _ => ?_
    refine good_pair hn hdt hd hd' hs (· * ·) (ps := fun r d e => (d.dot (env n J r) e).bind fun s => .ret { V r with loc := g s (V r).loc })
      fun m1 m2 hl => ?_
    exact good_loc h g (runs_dot_vec ((standard_held hn hs).wf hn) rfl m1 m2)
  | norm x g =>
    intro V G h
    refine good_get h x fun s d hd hs => ?_
    have hL := standard_held hn hs
    exact good_loc h g (runs_norm_vec (hL.wf hn) hL.mask (hL.mem hdt hd))
  | apply i b z x =>
    intro V G h
    refine good_read h x fun f a hf => ?_
    exact good_bind (OpsStandard.rep ⟨hn, hdt⟩ hops i b f a hf) fun e a' he => good_ret (goods_set h z he h.1) fun _ _ => rfl
  | cg i z y x niter tol g =>
    intro V G h
    refine good_read h y fun f a hf => ?_
    refine good_read h x fun f' a' hf' => ?_
    have := out_cg ⟨hn, hdt⟩ (OpsStandard.rep ⟨hn, hdt⟩ hops i) (y := fun r => .one (f r)) (x := fun r => .one (f' r)) ⟨f, hf, fun _ _ => rfl⟩ ⟨f', hf', fun _ _ => rfl⟩
      (niter G.loc) (tol G.loc)
    rw [← ebind_assoc]
    refine (good_bind this (k := fun r q => q.1.array.bind fun e => .ret { (V r).set z e with loc := g q.2.1 q.2.2.1 (V r).loc }) fun w s hw => ?_).congr fun r hr => ?_
    · obtain ⟨⟨e, he, hx⟩, hw⟩ := hw
      refine good_ret (goods_set h z he (l := fun _ => g s.iiter s.cost G.loc) fun _ _ => rfl) fun r hr => ?_
      rw [show (w r).1 = _ from hx r hr, (hw r hr).1, (hw r hr).2, h.1 r hr]
      rfl
    · rw [h.1 r hr]
  | cgls i z y x niter damp tol g =>
    intro V G h
    refine good_read h y fun f a hf => ?_
    refine good_read h x fun f' a' hf' => ?_
    have := out_cgls ⟨hn, hdt⟩ (OpsStandard.rep ⟨hn, hdt⟩ hops i) (y := fun r => .one (f r)) (x := fun r => .one (f' r)) ⟨f, hf, fun _ _ => rfl⟩ ⟨f', hf', fun _ _ => rfl⟩
      (niter G.loc) (damp G.loc) (tol G.loc)
    rw [← ebind_assoc]
    refine (good_bind this (k := fun r q => q.x.array.bind fun e => .ret { (V r).set z e with loc := g ⟨q.istop, q.iiter, q.r1norm, q.r2norm, q.cost⟩ (V r).loc }) fun w s hw => ?_).congr fun r hr => ?_
    · obtain ⟨⟨e, he, hx⟩, hw⟩ := hw
      refine good_ret (goods_set h z he (l := fun _ => g (s.numbers (tol G.loc)) G.loc) fun _ _ => rfl) fun r hr => ?_
      rw [show (w r).x = _ from hx r hr, hw r hr, h.1 r hr]
      rfl
    · rw [h.1 r hr]
  | seq s t ihs iht => exact fun V G h => (ihs hp.1 V G h).bind (iht hp.2)
  | ite c s t ihs iht =>
    intro V G h
    unfold Script.run Script.serial
    cases hc : c G.loc with
    | true => exact (ihs hp.1 V G h).congr fun r hr => by rw [h.1 r hr, hc]; rfl
    | false => exact (iht hp.2 V G h).congr fun r hr => by rw [h.1 r hr, hc]; rfl
  | loop k stop s ih =>
    intro V G h
    have key : ∀ k V G, HoldsStandard n dt V G →
        Good n dt (fun r => runLoop (fun v : Vars (DArr K) σ => stop v.loc) (s.run dt (prim · r) (env n J r)) k (V r))
          (serialLoop (fun v : Vars (NDArray K) σ => stop v.loc) (s.serial dt lv) k G) := by
      intro k
      induction k with
      | zero =>
        intro V G h G' hG'
        obtain rfl := Except.ok.inj hG'
        exact ⟨V, h, Runs.ret _⟩
      | succ k ihk =>
        intro V G h
        unfold runLoop serialLoop
        cases hc : stop G.loc with
        | true =>
          intro G' hG'
          obtain rfl := Except.ok.inj hG'
          exact ⟨V, h, (Runs.ret V).congr (fun r hr => by rw [h.1 r hr, hc]; rfl) fun _ _ => rfl⟩
        | false => exact ((ih hp V G h).bind ihk).congr fun r hr => by rw [h.1 r hr, hc]; rfl
    unfold Script.run Script.serial
    exact (key (k G.loc) V G h).congr fun r hr => by rw [h.1 r hr]

end Script
end Verif

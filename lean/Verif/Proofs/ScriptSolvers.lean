/-
  `cg` and `cgls` on distributed arrays give what they give on NumPy arrays, or some rank raises.  With `may = true` the arrays are held in any way, and ranks may raise although nothing is wrong with
  the NumPy arrays; with `may = false` all arrays are in the default layout, and ranks raise only if there is an exception with NumPy arrays.
-/
import Verif.Proofs.ScriptBase

namespace Verif
namespace Script
open NDArray
set_option linter.unusedSectionVars false

variable {K : Type} [RCLike K] {n : Nat} {J : Nat → Nat → K} {dt : DType} {may : Bool}
variable {A B A' B' : Type}

/-- what the ranks do, and what is done with NumPy arrays -/
def Out (n : Nat) (may : Bool) (R : (Nat → A) → B → Prop) (ps : Nat → P K A) (res : Except Err B) : Prop :=
  (∃ b, res = .ok b ∧ ∃ a, R a b ∧ Runs n ps fun r => .ok (a r)) ∨ ((may = true ∨ ∃ e, res = .error e) ∧ Raises n ps)

theorem Out.congr {R : (Nat → A) → B → Prop} {ps qs : Nat → P K A} {res : Except Err B} (h : Out n may R ps res) (e : ∀ r < n, ps r = qs r) :
    Out n may R qs res := by
  rcases h with ⟨b, h1, a, h2, h3⟩ | ⟨h1, h⟩
  · exact .inl ⟨b, h1, a, h2, h3.congr e fun _ _ => rfl⟩
  · exact .inr ⟨h1, h.congr e⟩

theorem Out.mono {R R' : (Nat → A) → B → Prop} {ps : Nat → P K A} {res : Except Err B} (h : Out n may R ps res) (hR : ∀ a b, R a b → R' a b) : Out n may R' ps res := by
  rcases h with ⟨b, h1, a, h2, h3⟩ | h
  · exact .inl ⟨b, h1, a, hR _ _ h2, h3⟩
  · exact .inr h

theorem Out.bindOk {R : (Nat → A) → B → Prop} {R' : (Nat → A') → B' → Prop} {ps : Nat → P K A} {res : Except Err B} (h : Out n may R ps res)
    {k : Nat → A → P K A'} {kk : B → Except Err B'} (hk : ∀ a b, res = .ok b → R a b → Out n may R' (fun r => k r (a r)) (kk b)) :
    Out n may R' (fun r => (ps r).bind (k r)) (res.bind kk) := by
  rcases h with ⟨b, rfl, a, h2, h3⟩ | ⟨h1, h⟩
  · rcases hk a b rfl h2 with ⟨b', e1, a', e2, e3⟩ | ⟨h1, m, hm, er, h⟩
    · exact .inl ⟨b', e1, a', e2, Runs.bind_ok h3 e3⟩
    · exact .inr ⟨h1, m, hm, er, rankEnds_bind_ok hm h3 h⟩
  · refine .inr ⟨?_, h.bind k⟩
    rcases h1 with h1 | ⟨e, rfl⟩
    · exact .inl h1
    · exact .inr ⟨e, rfl⟩

theorem Out.bind {R : (Nat → A) → B → Prop} {R' : (Nat → A') → B' → Prop} {ps : Nat → P K A} {res : Except Err B} (h : Out n may R ps res)
    {k : Nat → A → P K A'} {kk : B → Except Err B'} (hk : ∀ a b, R a b → Out n may R' (fun r => k r (a r)) (kk b)) :
    Out n may R' (fun r => (ps r).bind (k r)) (res.bind kk) := h.bindOk fun a b _ => hk a b

/-- an operation of the library that has no counterpart with NumPy arrays or cannot fail there -/
theorem Out.step {R : (Nat → A) → B → Prop} {R' : (Nat → A') → B' → Prop} {ps : Nat → P K A} {b : B} (h : Out n may R ps (.ok b))
    {k : Nat → A → P K A'} {res : Except Err B'} (hk : ∀ a, R a b → Out n may R' (fun r => k r (a r)) res) : Out n may R' (fun r => (ps r).bind (k r)) res := by
  rcases h with ⟨b', h0, a, h2, h3⟩ | ⟨h1, h⟩
  · obtain rfl := Except.ok.inj h0
    rcases hk a h2 with ⟨c, e1, a', e2, e3⟩ | ⟨h1, m, hm, er, h⟩
    · exact .inl ⟨c, e1, a', e2, Runs.bind_ok h3 e3⟩
    · exact .inr ⟨h1, m, hm, er, rankEnds_bind_ok hm h3 h⟩
  · refine .inr ⟨?_, h.bind k⟩
    rcases h1 with h1 | ⟨e, h1⟩
    · exact .inl h1
    · cases h1

/-- the same on all ranks -/
def Same (n : Nat) (a : Nat → A) (b : A) : Prop := ∀ r < n, a r = b

theorem Out.bindSame {R' : (Nat → A') → B' → Prop} {ps : Nat → P K A} {res : Except Err A} (h : Out n may (Same n) ps res)
    {k : Nat → A → P K A'} {kk : A → Except Err B'} (hk : ∀ b, Out n may R' (fun r => k r b) (kk b)) : Out n may R' (fun r => (ps r).bind (k r)) (res.bind kk) :=
  h.bind fun _ b h => (hk b).congr fun r hr => by rw [h r hr]

theorem Out.stepSame {R' : (Nat → A') → B' → Prop} {ps : Nat → P K A} {b : A} (h : Out n may (Same n) ps (.ok b))
    {k : Nat → A → P K A'} {res : Except Err B'} (hk : Out n may R' (fun r => k r b) res) : Out n may R' (fun r => (ps r).bind (k r)) res :=
  h.step fun _ h => hk.congr fun r hr => by rw [h r hr]

theorem Out.ret {R : (Nat → A) → B → Prop} {a : Nat → A} {b : B} (h : R a b) : Out n may R (fun r => (.ret (a r) : P K A)) (.ok b) := .inl ⟨b, rfl, a, h, Runs.ret a⟩

theorem Out.throw (hn : 0 < n) {R : (Nat → A) → B → Prop} (e e' : Err) : Out n may R (fun _ => (.throw e : P K A)) (.error e') :=
  .inr ⟨.inr ⟨e', rfl⟩, Raises.of_runs hn (Runs.throw fun _ => e)⟩

/-- how an array is held -/
def Lay (may : Bool) (n : Nat) (s : List Nat) (L : Layout) : Prop := if may then Held n s L else s ≠ [] ∧ L = standard n s

theorem Lay.held (hn : 0 < n) {s : List Nat} {L : Layout} (h : Lay may n s L) : Held n s L := by
  cases may with
  | true => exact h
  | false =>
    obtain ⟨h1, rfl⟩ := h
    exact standard_held hn h1

/-- the ranks hold the parts of an array -/
def Rep (may : Bool) (n : Nat) (dt : DType) (f : Nat → DArr K) (a : NDArray K) : Prop :=
  a.dtype = dt ∧ a.data.length = a.shape.prod ∧ ∃ L, Lay may n a.shape L ∧ ∀ r < n, f r = VSpace.vec ⟨L, dt⟩ n a.data r

theorem out_rep {s : List Nat} {d : List K} {L : Layout} (hd : d.length = s.prod) (hL : Lay may n s L) {ps : Nat → P K (DArr K)}
    (h : Runs n ps fun r => .ok (VSpace.vec ⟨L, dt⟩ n d r)) : Out n may (Rep may n dt) ps (.ok ⟨s, dt, d⟩) :=
  .inl ⟨_, rfl, fun r => VSpace.vec ⟨L, dt⟩ n d r, ⟨rfl, hd, L, hL, fun _ _ => rfl⟩, h⟩

/-- the hypotheses on the data that all theorems share -/
structure Setting (n : Nat) (K : Type) [RCLike K] (dt : DType) : Prop where
  pos : 0 < n
  real : dt = .real → ∀ k : K, star k = k

variable (hS : Setting n K dt)
include hS

theorem out_unary (op : UnaryOp K) {f : Nat → DArr K} {a : NDArray K} (h : Rep may n dt f a) :
    Out n may (Rep may n dt) (fun r => op.run (env n J r) dt (f r)) (.ok ⟨a.shape, a.dtype, a.data.map op.fn⟩) := by
  obtain ⟨s, t, d⟩ := a
  obtain ⟨rfl, h2, L, h3, h4⟩ := h
  have hL := h3.held hS.pos
  refine (out_rep (d := d.map op.fn) (by rw [List.length_map, h2]) h3 (runs_unary (J := J) hS.real (hL.wf hS.pos) hL.mask (hL.mem hS.real h2) op)).congr fun r hr => ?_
  rw [h4 r hr]

theorem out_fmul (v : ℝ) {f : Nat → DArr K} {a : NDArray K} (h : Rep may n dt f a) :
    Out n may (Rep may n dt) (fun r => (f r).smul (env n J r) .real (v : K)) (.ok (scaleBy v a)) := by
  obtain ⟨s, t, d⟩ := a
  obtain ⟨rfl, h2, L, h3, h4⟩ := h
  have hL := h3.held hS.pos
  refine (out_rep (d := d.map (· * (v : K))) (by rw [List.length_map, h2]) h3
    (runs_smul_vec (J := J) (t := .real) (hL.wf hS.pos) (fun h => hS.real h _) (hL.mem hS.real h2))).congr fun r hr => ?_
  rw [h4 r hr]

/-- two operands -/
theorem out_pair (g : K → K → K) {f f' : Nat → DArr K} {a a' : NDArray K} (h : Rep may n dt f a) (h' : Rep may n dt f' a')
    {R : (Nat → A) → B → Prop} {ps : Nat → DArr K → DArr K → P K A} {kk : NDArray K → Except Err B}
    (hbad : ∀ (s s' : List Nat) (L L' : Layout) (d d' : List K), Held n s L → Held n s' L' → d.length = s.prod → d'.length = s'.prod →
      (∃ r < n, ¬ Compatible (VSpace.vec ⟨L, dt⟩ n d r) (VSpace.vec ⟨L', dt⟩ n d' r)) → Raises n fun r => ps r (VSpace.vec ⟨L, dt⟩ n d r) (VSpace.vec ⟨L', dt⟩ n d' r))
    (hgood : ∀ (s : List Nat) (L : Layout) (d d' : List K), Lay may n s L → d.length = s.prod → d'.length = s.prod → VSpace.Mem ⟨L, dt⟩ d → VSpace.Mem ⟨L, dt⟩ d' →
      (List.zipWith g d d').length = s.prod → Out n may R (fun r => ps r (VSpace.vec ⟨L, dt⟩ n d r) (VSpace.vec ⟨L, dt⟩ n d' r)) (kk ⟨s, dt, List.zipWith g d d'⟩)) :
    Out n may R (fun r => ps r (f r) (f' r)) ((elementwise g a a').bind kk) := by
  obtain ⟨s, t, d⟩ := a
  obtain ⟨rfl, h2, L, h3, h4⟩ := h
  obtain ⟨s', t', d'⟩ := a'
  obtain ⟨h1', h2', L', h3', h4'⟩ := h'
  dsimp only at h1' h2 h3 h4 h2' h3' h4'
  subst h1'
  have hL := h3.held hS.pos
  have hL' := h3'.held hS.pos
  refine Out.congr (ps := fun r => ps r (VSpace.vec ⟨L, t'⟩ n d r) (VSpace.vec ⟨L', t'⟩ n d' r)) ?_ fun r hr => by rw [h4 r hr, h4' r hr]
  by_cases hc : ∀ r < n, Compatible (VSpace.vec ⟨L, t'⟩ n d r) (VSpace.vec ⟨L', t'⟩ n d' r)
  · obtain ⟨rfl, he⟩ := held_eq hS.pos hL hL' hc
    have := hgood s L d d' h3 h2 h2' (hL.mem hS.real h2) (hL.mem hS.real h2') (by rw [List.length_zipWith, h2, h2', Nat.min_self])
    unfold elementwise
    rw [if_pos rfl]
    exact this.congr fun r hr => by rw [he d' r hr]
  · refine .inr ⟨?_, hbad s s' L L' d d' hL hL' h2 h2' (by push Not at hc; exact hc)⟩
    cases may with
    | true => exact .inl rfl
    | false =>
      obtain ⟨-, rfl⟩ := h3
      obtain ⟨-, rfl⟩ := h3'
      refine .inr ⟨.value, ?_⟩
      have : s ≠ s' := fun e => by
        subst e
        exact hc fun r _ => ⟨rfl, rfl, rfl⟩
      unfold elementwise
      rw [if_neg this]
      rfl

theorem out_arr (g : K → K → K) {f f' : Nat → DArr K} {a a' : NDArray K} (h : Rep may n dt f a) (h' : Rep may n dt f' a') {ps : Nat → DArr K → DArr K → P K (DArr K)}
    (hbad : ∀ (s s' : List Nat) (L L' : Layout) (d d' : List K), Held n s L → Held n s' L' → d.length = s.prod → d'.length = s'.prod →
      (∃ r < n, ¬ Compatible (VSpace.vec ⟨L, dt⟩ n d r) (VSpace.vec ⟨L', dt⟩ n d' r)) → Raises n fun r => ps r (VSpace.vec ⟨L, dt⟩ n d r) (VSpace.vec ⟨L', dt⟩ n d' r))
    (hgood : ∀ (L : Layout) (d d' : List K), L.WF n → VSpace.Mem ⟨L, dt⟩ d → VSpace.Mem ⟨L, dt⟩ d' →
      Runs n (fun r => ps r (VSpace.vec ⟨L, dt⟩ n d r) (VSpace.vec ⟨L, dt⟩ n d' r)) fun r => .ok (VSpace.vec ⟨L, dt⟩ n (List.zipWith g d d') r)) :
    Out n may (Rep may n dt) (fun r => ps r (f r) (f' r)) (elementwise g a a') := by
  have := out_pair hS g h h' (kk := .ok) hbad fun s L d d' h3 _ _ m1 m2 hl => out_rep hl h3 (hgood L d d' ((h3.held hS.pos).wf hS.pos) m1 m2)
  cases he : elementwise g a a' with
  | error e => rw [he] at this; exact this
  | ok b => rw [he] at this; exact this

theorem out_add {f f' : Nat → DArr K} {a a' : NDArray K} (h : Rep may n dt f a) (h' : Rep may n dt f' a') :
    Out n may (Rep may n dt) (fun r => (f r).add (env n J r) (f' r)) (elementwise (· + ·) a a') :=
  out_arr hS _ h h' (ps := fun r d e => d.add (env n J r) e) (fun _ _ L L' d d' _ h2 _ h4 hb => raises_binary (J := J) (S := ⟨L, dt⟩) (S' := ⟨L', dt⟩) (h2.wf hS.pos) (h2.mem hS.real h4) .add hb)
    fun _ _ _ w m1 m2 => runs_add_vec w m1 m2

theorem out_sub {f f' : Nat → DArr K} {a a' : NDArray K} (h : Rep may n dt f a) (h' : Rep may n dt f' a') :
    Out n may (Rep may n dt) (fun r => (f r).sub' (env n J r) (f' r)) (elementwise (· - ·) a a') :=
  out_arr hS _ h h' (ps := fun r d e => d.sub' (env n J r) e) (fun _ _ L L' d d' _ h2 _ h4 hb => raises_binary (J := J) (S := ⟨L, dt⟩) (S' := ⟨L', dt⟩) (h2.wf hS.pos) (h2.mem hS.real h4) .sub hb)
    fun _ _ _ w m1 m2 => runs_sub_vec w m1 m2

theorem out_iadd {f f' : Nat → DArr K} {a a' : NDArray K} (h : Rep may n dt f a) (h' : Rep may n dt f' a') :
    Out n may (Rep may n dt) (fun r => (f r).iadd (env n J r) (f' r)) (elementwise (· + ·) a a') := by
  classical
  refine out_arr hS _ h h' (ps := fun r d e => d.iadd (env n J r) e) (fun _ _ L L' d d' _ h2 _ h4 hb => ?_) fun _ _ _ w m1 m2 => runs_iadd_vec w m1 m2
  obtain ⟨r, hr, hb⟩ := hb
  exact raises_at ⟨r, hr, show DArr.iadd _ _ _ = Prog.throw .value by simp [DArr.iadd, checkCompat_eq, hb]⟩

theorem out_isub {f f' : Nat → DArr K} {a a' : NDArray K} (h : Rep may n dt f a) (h' : Rep may n dt f' a') :
    Out n may (Rep may n dt) (fun r => (f r).isub (env n J r) (f' r)) (elementwise (· - ·) a a') := by
  classical
  refine out_arr hS _ h h' (ps := fun r d e => d.isub (env n J r) e) (fun _ _ L L' d d' _ h2 _ h4 hb => ?_) fun _ _ _ w m1 m2 => runs_isub_vec w m1 m2
  exact raises_neg (S := ⟨L', dt⟩) (f := fun r d e => d.iadd (env n J r) e) (h2.wf hS.pos) (h2.mem hS.real h4) (fun r d e h => by simp [DArr.iadd, checkCompat_eq, h]) hb

theorem out_dot {f f' : Nat → DArr K} {a a' : NDArray K} (h : Rep may n dt f a) (h' : Rep may n dt f' a') :
    Out n may (Same n) (fun r => (f r).dot (env n J r) (f' r)) ((elementwise (· * ·) a a').bind fun e => .ok e.data.sum) := by
  classical
  refine out_pair hS _ h h' (ps := fun r d e => d.dot (env n J r) e) (fun _ _ L L' d d' _ h2 _ h4 hb => ?_) fun s L d d' h3 _ _ m1 m2 _ => ?_
  · obtain ⟨r, hr, hb⟩ := hb
    exact raises_at ⟨r, hr, show DArr.dot _ _ _ = Prog.throw .value by simp [DArr.dot, checkCompat_eq, hb]⟩
  · have hL := h3.held hS.pos
    exact .inl ⟨_, rfl, fun _ => _, fun _ _ => rfl, runs_dot_vec (J := J) (hL.wf hS.pos) hL.mask m1 m2⟩

theorem out_norm {f : Nat → DArr K} {a : NDArray K} (h : Rep may n dt f a) :
    Out n may (Same n) (fun r => (f r).norm (env n J r) .none none) (.ok ⟨[], .real, [.fin (norm2 a)]⟩) := by
  obtain ⟨s, t, d⟩ := a
  obtain ⟨rfl, h2, L, h3, h4⟩ := h
  have hL := h3.held hS.pos
  exact .inl ⟨_, rfl, fun _ => _, fun _ _ => rfl, (runs_norm_vec (J := J) (hL.wf hS.pos) hL.mask (hL.mem hS.real h2)).congr (fun r hr => by rw [h4 r hr]) fun _ _ => rfl⟩

omit hS

/-- an operator: the right result, or a rank raises -/
def OpRep (may : Bool) (n : Nat) (J : Nat → Nat → K) (dt : DType) (p : Nat → Prim K) (sh : Nat × Nat) (fn : Bool → List K → List K) : Prop :=
  ∀ b f a, Rep may n dt f a → Out n may (Rep may n dt) (fun r => MOp.run (env n J r) b (.leaf (p r)) (f r)) (applyTo dt sh fn b a)

theorem checkDim_ok {p : Prim K} {sh : Nat × Nat} (hsh : p.shape = sh) (b : Bool) {L : Layout} (hL : L.gshape = [dimOf sh b]) (c : Ctx K) (d : List K) (r : Nat) :
    (if b then p.rmv c (VSpace.vec ⟨L, dt⟩ n d r) else p.mv c (VSpace.vec ⟨L, dt⟩ n d r)) = MOp.run c b (.leaf p) (VSpace.vec ⟨L, dt⟩ n d r) := by
  unfold MOp.run Verif.checkDim
  have e0 : (VSpace.vec (K := K) ⟨L, dt⟩ n d r).gshape = [if b then p.shape.1 else p.shape.2] := by
    rw [hsh]
    exact hL
  exact (if_neg (not_not.mpr e0)).symm

theorem checkDim_bad (hn : 0 < n) {R : (Nat → DArr K) → NDArray K → Prop} {p : Nat → Prim K} {sh : Nat × Nat} (hsh : ∀ r < n, (p r).shape = sh) (b : Bool) {L : Layout} (hL : L.gshape ≠ [dimOf sh b])
    (d : List K) : Out n may R (fun r => MOp.run (env n J r) b (.leaf (p r)) (VSpace.vec ⟨L, dt⟩ n d r)) (.error .value) := by
  refine (Out.throw hn .value .value).congr fun r hr => ?_
  unfold MOp.run Verif.checkDim
  rw [if_pos]
  rw [hsh r hr]
  exact hL

theorem OpOr.rep (hS : Setting n K dt) {p : Nat → Prim K} {sh : Nat × Nat} {fn : Bool → List K → List K} (h : OpOr n J dt p sh fn) : OpRep true n J dt p sh fn := by
  rintro b f ⟨s, t, d⟩ ⟨rfl, h2, L, h3, h4⟩
  obtain ⟨hsh, ho⟩ := h
  have hL : Held n s L := h3
  refine Out.congr (ps := fun r => MOp.run (env n J r) b (.leaf (p r)) (VSpace.vec ⟨L, t⟩ n d r)) ?_ fun r hr => by rw [h4 r hr]
  unfold applyTo
  by_cases hs : s = [dimOf sh b]
  · subst hs
    rw [if_pos rfl]
    obtain ⟨Y, hY, hC⟩ := ho b L hL
    obtain ⟨hm, hr⟩ := hC d (hL.mem hS.real h2)
    have e := fun r hr => checkDim_ok (dt := t) (n := n) (hsh r hr) b hL.shape (env n J r) d r
    rcases hr with hr | hr
    · exact out_rep (may := true) (s := [dimOf sh !b]) (by rw [hm.1]; exact congrArg List.prod hY.shape) hY (hr.runs.congr e fun _ _ => rfl)
    · exact .inr ⟨.inl rfl, hr.congr e⟩
  · rw [if_neg hs]
    exact checkDim_bad hS.pos hsh b (fun h => hs (hL.shape.symm.trans h)) d

theorem OpsStandard.rep {ι : Type} (hS : Setting n K dt) {prim : ι → Nat → Prim K} {lv : Leaves K ι} (h : OpsStandard n J dt prim lv) (i : ι) :
    OpRep false n J dt (prim i) (lv.sh i) (lv.fn i) := by
  rintro b f ⟨s, t, d⟩ ⟨rfl, h2, L, ⟨h3, rfl⟩, h4⟩
  obtain ⟨hsh, ho⟩ := h i
  have hL := standard_held hS.pos h3
  refine Out.congr (ps := fun r => MOp.run (env n J r) b (.leaf (prim i r)) (VSpace.vec ⟨standard n s, t⟩ n d r)) ?_ fun r hr => by rw [h4 r hr]
  unfold applyTo
  by_cases hs : s = [dimOf (lv.sh i) b]
  · subst hs
    rw [if_pos rfl]
    obtain ⟨hm, hr⟩ := ho b d (hL.mem hS.real h2)
    exact out_rep (may := false) (s := [dimOf (lv.sh i) !b]) hm.1 ⟨by simp, rfl⟩ (hr.runs.congr (fun r hr => checkDim_ok (dt := t) (n := n) (hsh r hr) b hL.shape (env n J r) d r) fun _ _ => rfl)
  · rw [if_neg hs]
    exact checkDim_bad hS.pos hsh b (fun h => hs (hL.shape.symm.trans h)) d

/-- the same for the arrays of the solvers -/
def RepX (may : Bool) (n : Nat) (dt : DType) (f : Nat → XArr K) (a : NDArray K) : Prop := ∃ g, Rep may n dt g a ∧ ∀ r < n, f r = .one (g r)

theorem out_one {ps : Nat → P K (DArr K)} {res : Except Err (NDArray K)} (h : Out n may (Rep may n dt) ps res) :
    Out n may (RepX may n dt) (fun r => (ps r).bind fun y => .ret (.one y)) res := by
  have := h.bind (R' := RepX may n dt) (k := fun _ y => .ret (.one y)) (kk := .ok) fun a b h => Out.ret (R := RepX may n dt) (a := fun r => XArr.one (a r)) ⟨a, h, fun _ _ => rfl⟩
  cases res <;> exact this

theorem dotConj_eq (a b : NDArray K) : dotConj a b = (elementwise (· * ·) a ⟨b.shape, b.dtype, b.data.map star⟩).bind fun e => .ok e.data.sum := by
  unfold dotConj elementwise
  dsimp only
  split
  · show Except.ok _ = Except.ok _
    rw [List.zipWith_map_right]
  · rfl

section
variable (hS : Setting n K dt) {f f' : Nat → XArr K} {a a' : NDArray K} (h : RepX may n dt f a) (h' : RepX may n dt f' a')
include hS h

theorem outx_copy : Out n may (RepX may n dt) (fun r => (f r).copy (env n J r)) (.ok a) := by
  obtain ⟨g, hg, h⟩ := h
  have := out_unary (J := J) hS .copy hg
  rw [show (UnaryOp.copy : UnaryOp K).fn = id from rfl, List.map_id] at this
  exact (out_one this).congr fun r hr => by rw [h r hr]; rfl

theorem outx_conj : Out n may (RepX may n dt) (fun r => (f r).conj (env n J r)) (.ok ⟨a.shape, a.dtype, a.data.map star⟩) := by
  obtain ⟨g, hg, h⟩ := h
  exact (out_one (out_unary (J := J) hS .conj hg)).congr fun r hr => by rw [h r hr]; rfl

theorem outx_fmul (v : ℝ) : Out n may (RepX may n dt) (fun r => XArr.fmul (env n J r) v (f r)) (.ok (scaleBy v a)) := by
  obtain ⟨g, hg, h⟩ := h
  exact (out_one (out_fmul (J := J) hS v hg)).congr fun r hr => by rw [h r hr]; rfl

theorem outx_norm : Out n may (Same n) (fun r => (f r).norm (env n J r)) (.ok (.fin (norm2 a))) := by
  obtain ⟨g, hg, h⟩ := h
  exact ((out_norm (J := J) hS hg).stepSame (k := fun _ a => .ret (a.data.getD 0 .nan)) (Out.ret (a := fun _ => _) fun _ _ => rfl)).congr fun r hr => by rw [h r hr]; rfl

theorem outx_op {p : Nat → Prim K} {sh : Nat × Nat} {fn : Bool → List K → List K} (ho : OpRep may n J dt p sh fn) :
    Out n may (RepX may n dt) (fun r => (MOp.toX (.leaf (p r))).mv (env n J r) (f r)) (applyTo dt sh fn false a) := by
  obtain ⟨g, hg, h⟩ := h
  exact (out_one (ho false g a hg)).congr fun r hr => by rw [h r hr]; rfl

theorem outx_adj {p : Nat → Prim K} {sh : Nat × Nat} {fn : Bool → List K → List K} (ho : OpRep may n J dt p sh fn) :
    Out n may (RepX may n dt) (fun r => (MOp.toX (.leaf (p r))).rmv (env n J r) (f r)) (applyTo dt sh fn true a) := by
  obtain ⟨g, hg, h⟩ := h
  exact (out_one (ho true g a hg)).congr fun r hr => by rw [h r hr]; rfl

include h'

theorem outx_add : Out n may (RepX may n dt) (fun r => (f r).add (env n J r) (f' r)) (elementwise (· + ·) a a') := by
  obtain ⟨g, hg, h⟩ := h
  obtain ⟨g', hg', h'⟩ := h'
  exact (out_one (out_add (J := J) hS hg hg')).congr fun r hr => by rw [h r hr, h' r hr]; rfl

theorem outx_sub : Out n may (RepX may n dt) (fun r => (f r).sub' (env n J r) (f' r)) (elementwise (· - ·) a a') := by
  obtain ⟨g, hg, h⟩ := h
  obtain ⟨g', hg', h'⟩ := h'
  exact (out_one (out_sub (J := J) hS hg hg')).congr fun r hr => by rw [h r hr, h' r hr]; rfl

theorem outx_iadd : Out n may (RepX may n dt) (fun r => (f r).iadd (env n J r) (f' r)) (elementwise (· + ·) a a') := by
  obtain ⟨g, hg, h⟩ := h
  obtain ⟨g', hg', h'⟩ := h'
  exact (out_one (out_iadd (J := J) hS hg hg')).congr fun r hr => by rw [h r hr, h' r hr]; rfl

theorem outx_isub : Out n may (RepX may n dt) (fun r => (f r).isub (env n J r) (f' r)) (elementwise (· - ·) a a') := by
  obtain ⟨g, hg, h⟩ := h
  obtain ⟨g', hg', h'⟩ := h'
  exact (out_one (out_isub (J := J) hS hg hg')).congr fun r hr => by rw [h r hr, h' r hr]; rfl

theorem outx_dotConj : Out n may (Same n) (fun r => ((f' r).conj (env n J r)).bind fun y => (f r).dot (env n J r) y) (dotConj a a') := by
  refine Out.step (outx_conj (J := J) hS h') fun g' hg' => ?_
  obtain ⟨g, hg, h⟩ := h
  obtain ⟨e, he, h'⟩ := hg'
  rw [dotConj_eq]
  exact (out_dot (J := J) hS hg he).congr fun r hr => by rw [h r hr, h' r hr]; rfl

theorem outx_absDot {R' : (Nat → A') → B' → Prop} {k : Nat → ℝ → P K A'} {kk : K → Except Err B'} (hk : ∀ v, Out n may R' (fun r => k r ‖v‖) (kk v)) :
    Out n may R' (fun r => (absDot (env n J r) (f r) (f' r)).bind (k r)) ((dotConj a a').bind kk) := by
  refine ((outx_dotConj (J := J) hS h h').bindSame (k := fun r v => k r ‖v‖) hk).congr fun r _ => ?_
  unfold absDot
  simp only [Prog.bind_eq, Prog.bind_assoc]
  rfl

end

/-! ### CG -/

theorem ebind {α β : Type} (x : Except Err α) (f : α → Except Err β) : (x >>= f) = x.bind f := rfl

theorem ebind_assoc {α β γ : Type} (x : Except Err α) (f : α → Except Err β) (g : β → Except Err γ) : (x.bind f).bind g = x.bind fun a => (f a).bind g := by cases x <;> rfl

theorem ebind_ok {α β : Type} {x : Except Err α} {f : α → Except Err β} {b : β} : x.bind f = .ok b ↔ ∃ a, x = .ok a ∧ f a = .ok b := by
  cases x with
  | error e => exact ⟨(fun h => by cases h), fun ⟨_, h, _⟩ => (by cases h)⟩
  | ok a => exact ⟨fun h => ⟨a, rfl, h⟩, fun ⟨_, h, h'⟩ => (by cases h; exact h')⟩

theorem cgStep_iiter {A : NDArray K → Except Err (NDArray K)} {s s' : SerialCG K} (h : s.step A = .ok s') : s'.iiter = s.iiter + 1 := by
  simp only [SerialCG.step, ebind, ebind_ok] at h
  obtain ⟨_, -, _, -, _, -, _, -, _, -, _, -, _, -, _, -, h⟩ := h
  obtain rfl := Except.ok.inj h
  rfl

/-- what CG keeps -/
structure CGRep (may : Bool) (n : Nat) (dt : DType) (tol : ℝ) (q : Nat → CGS K × XArr K) (s : SerialCG K) : Prop where
  x : RepX may n dt (fun r => (q r).2) s.x
  r : RepX may n dt (fun r => (q r).1.r) s.r
  c : RepX may n dt (fun r => (q r).1.c) s.c
  k : ∀ r < n, (q r).1.kold = s.k
  cost : ∀ r < n, (q r).1.cost = s.cost
  iiter : ∀ r < n, (q r).1.iiter = s.iiter
  tol : ∀ r < n, (q r).1.tol = tol

section
variable (hS : Setting n K dt) {p : Nat → Prim K} {sh : Nat × Nat} {fn : Bool → List K → List K} (ho : OpRep may n J dt p sh fn)
include hS ho

theorem out_cgStart {y x : Nat → XArr K} {a b : NDArray K} (hy : RepX may n dt y a) (hx : RepX may n dt x b) (niter : Option Int) (tol : ℝ) :
    Out n may (CGRep may n dt tol) (fun r => CGS.setup (env n J r) (MOp.toX (.leaf (p r))) (y r) (x r) niter tol) (SerialCG.start (applyTo dt sh fn false) a b) := by
  unfold CGS.setup SerialCG.start
  simp only [Prog.bind_eq, ebind]
  refine Out.step (outx_copy hS hx) fun x1 hx1 => ?_
  refine Out.bind (outx_op hS hx1 ho) fun w1 w hw => ?_
  refine Out.bind (outx_sub hS hy hw) fun r1 r hr => ?_
  refine Out.step (outx_copy hS hr) fun c1 hc1 => ?_
  exact outx_absDot hS hr hr fun k => Out.ret ⟨hx1, hr, hc1, fun _ _ => rfl, fun _ _ => rfl, fun _ _ => rfl, fun _ _ => rfl⟩

theorem out_cgStep {tol : ℝ} {q : Nat → CGS K × XArr K} {s : SerialCG K} (h : CGRep may n dt tol q s) :
    Out n may (CGRep may n dt tol) (fun r => CGS.step (env n J r) (MOp.toX (.leaf (p r))) (q r).1 (q r).2) (s.step (applyTo dt sh fn false)) := by
  unfold CGS.step SerialCG.step
  simp only [Prog.bind_eq, ebind]
  refine Out.bind (outx_op hS h.c ho) fun w1 w hw => ?_
  refine outx_absDot hS h.c hw fun t => ?_
  unfold divide
  by_cases ht : ‖t‖ = 0
  · simp only [if_pos ht]
    exact Out.throw hS.pos _ _
  simp only [if_neg ht]
  refine Out.congr (ps := fun r => Prog.bind (.ret (s.k / ‖t‖)) _) ?_ fun r hr => by rw [h.k r hr]
  refine Out.stepSame (Out.ret (R := Same n) (a := fun _ => s.k / ‖t‖) fun _ _ => rfl) ?_
  show Out _ _ _ _ (Except.bind (Except.ok _) _)
  refine Out.step (outx_fmul hS h.c _) fun a1 ha1 => ?_
  refine Out.bind (outx_iadd hS h.x ha1) fun x1 x hx => ?_
  refine Out.step (outx_fmul hS hw _) fun a2 ha2 => ?_
  refine Out.bind (outx_isub hS h.r ha2) fun r1 r hr => ?_
  refine outx_absDot hS hr hr fun k => ?_
  unfold pyDiv
  by_cases hk : s.k = 0
  · simp only [if_pos hk]
    exact Out.throw hS.pos _ _
  simp only [if_neg hk]
  refine Out.stepSame (Out.ret (R := Same n) (a := fun _ => ‖k‖ / s.k) fun _ _ => rfl) ?_
  show Out _ _ _ _ (Except.bind (Except.ok _) _)
  refine Out.step (outx_fmul hS h.c _) fun a3 ha3 => ?_
  refine Out.bind (outx_add hS hr ha3) fun c1 c hc => ?_
  exact Out.ret ⟨hx, hr, hc, fun _ _ => rfl, fun r hr => by rw [h.cost r hr], fun r hr => by rw [h.iiter r hr], h.tol⟩

theorem out_cgLoop {tol : ℝ} (niter : Int) (m : Nat) : ∀ {q : Nat → CGS K × XArr K} {s : SerialCG K} (tr : Nat → List (XArr K)), CGRep may n dt tol q s → m = (niter - s.iiter).toNat →
    Out n may (fun w => CGRep may n dt tol fun r => ((w r).1, (w r).2.1)) (fun r => CGS.loop (env n J r) (MOp.toX (.leaf (p r))) niter m (q r).1 (q r).2 (tr r))
      (s.steps (applyTo dt sh fn false) tol m) := by
  induction m with
  | zero =>
    intro q s tr h _
    unfold CGS.loop SerialCG.steps
    exact Out.ret (K := K) (R := fun w => CGRep may n dt tol fun r => ((w r).1, (w r).2.1)) (a := fun r => ((q r).1, (q r).2, tr r)) h
  | succ m ih =>
    intro q s tr h hm
    unfold CGS.loop SerialCG.steps
    have hc : ∀ r < n, (((q r).1.iiter : Int) < niter ∧ (q r).1.kold > (q r).1.tol) ↔ tol < s.k := by
      intro r hr
      rw [h.iiter r hr, h.k r hr, h.tol r hr]
      exact ⟨fun h => h.2, fun h => ⟨by omega, h⟩⟩
    by_cases ht : tol < s.k
    · rw [if_pos ht]
      refine Out.congr (ps := fun r => (CGS.step (env n J r) (MOp.toX (.leaf (p r))) (q r).1 (q r).2).bind fun p' => CGS.loop (env n J r) (MOp.toX (.leaf (p r))) niter m p'.1 p'.2 (tr r ++ [p'.2]))
        ?_ fun r hr => by rw [if_pos ((hc r hr).2 ht)]; rfl
      refine Out.bindOk (out_cgStep hS ho h) fun q' s' hs h' => ?_
      have e := cgStep_iiter hs
      exact ih (fun r => tr r ++ [(q' r).2]) h' (by omega)
    · rw [if_neg ht]
      refine Out.congr (ps := fun r => (.ret ((q r).1, (q r).2, tr r) : P K _)) ?_ fun r hr => by rw [if_neg (fun h => ht ((hc r hr).1 h))]
      exact Out.ret (K := K) (R := fun w => CGRep may n dt tol fun r => ((w r).1, (w r).2.1)) (a := fun r => ((q r).1, (q r).2, tr r)) h

/-- `cg` -/
theorem out_cg {y x : Nat → XArr K} {a b : NDArray K} (hy : RepX may n dt y a) (hx : RepX may n dt x b) (niter : Int) (tol : ℝ) :
    Out n may (fun w s => RepX may n dt (fun r => (w r).1) s.x ∧ ∀ r < n, (w r).2.1 = s.iiter ∧ (w r).2.2.1 = s.cost)
      (fun r => CGS.solve (env n J r) (MOp.toX (.leaf (p r))) (y r) (x r) (some niter) tol)
      ((SerialCG.start (applyTo dt sh fn false) a b).bind (SerialCG.steps (applyTo dt sh fn false) tol niter.toNat)) := by
  unfold CGS.solve
  simp only [Prog.bind_eq]
  refine Out.bindOk (out_cgStart hS ho hy hx (some niter) tol) fun q s hs h => ?_
  have e0 : s.iiter = 0 := by
    simp only [SerialCG.start, ebind, ebind_ok] at hs
    obtain ⟨_, -, _, -, _, -, hs⟩ := hs
    obtain rfl := Except.ok.inj hs
    rfl
  have e1 : ∀ r < n, ((niter - (q r).1.iiter).toNat : Nat) = niter.toNat := fun r hr => by rw [h.iiter r hr, e0]; simp
  have := out_cgLoop hS ho niter niter.toNat (fun _ => []) h (by rw [e0]; simp)
  have h2 := this.bind (R' := fun w (s : SerialCG K) => RepX may n dt (fun r => (w r).1) s.x ∧ ∀ r < n, (w r).2.1 = s.iiter ∧ (w r).2.2.1 = s.cost)
    (k := fun _ w => .ret (w.2.1, w.1.iiter, w.1.cost, w.2.2)) (kk := .ok) fun w s h => Out.ret (K := K)
      (R := fun w (s : SerialCG K) => RepX may n dt (fun r => (w r).1) s.x ∧ ∀ r < n, (w r).2.1 = s.iiter ∧ (w r).2.2.1 = s.cost)
      (a := fun r => ((w r).2.1, (w r).1.iiter, (w r).1.cost, (w r).2.2)) ⟨h.x, fun r hr => ⟨h.iiter r hr, h.cost r hr⟩⟩
  have e2 : ∀ res : Except Err (SerialCG K), res.bind .ok = res := fun res => by cases res <;> rfl
  rw [e2] at h2
  refine h2.congr fun r hr => ?_
  unfold CGS.run
  simp only [e1 r hr]

end

/-! ### CGLS -/

/-- what CGLS keeps -/
structure CGLSRep (may : Bool) (n : Nat) (dt : DType) (damp2 tol : ℝ) (w : Nat → CGLSS K × XArr K) (z : SerialCGLS K) : Prop where
  x : RepX may n dt (fun r => (w r).2) z.x
  s : RepX may n dt (fun r => (w r).1.s) z.s
  c : RepX may n dt (fun r => (w r).1.c) z.c
  q : RepX may n dt (fun r => (w r).1.q) z.q
  k : ∀ r < n, (w r).1.kold = z.k
  cost : ∀ r < n, (w r).1.cost = z.cost
  cost1 : ∀ r < n, (w r).1.cost1 = z.cost1
  iiter : ∀ r < n, (w r).1.iiter = z.iiter
  tol : ∀ r < n, (w r).1.tol = tol
  damp : ∀ r < n, (w r).1.damp = damp2
  length : z.cost1.length = z.iiter + 1

theorem cglsStep_iiter {A : Bool → NDArray K → Except Err (NDArray K)} {damp2 : ℝ} {s s' : SerialCGLS K} (h : s.step A damp2 = .ok s') : s'.iiter = s.iiter + 1 := by
  simp only [SerialCGLS.step, ebind, ebind_ok] at h
  obtain ⟨_, -, _, -, _, -, _, -, _, -, _, -, _, -, _, -, _, -, _, -, _, -, _, -, h⟩ := h
  obtain rfl := Except.ok.inj h
  rfl

section
variable (hS : Setting n K dt) {p : Nat → Prim K} {sh : Nat × Nat} {fn : Bool → List K → List K} (ho : OpRep may n J dt p sh fn)
include hS ho

theorem out_cglsStart {y x : Nat → XArr K} {a b : NDArray K} (hy : RepX may n dt y a) (hx : RepX may n dt x b) (niter : Option Int) (damp tol : ℝ) :
    Out n may (CGLSRep may n dt (damp ^ 2) tol) (fun r => CGLSS.setup (env n J r) (MOp.toX (.leaf (p r))) (y r) (x r) niter damp tol)
      (SerialCGLS.start (applyTo dt sh fn) damp a b) := by
  unfold CGLSS.setup SerialCGLS.start
  simp only [Prog.bind_eq, ebind]
  refine Out.step (outx_copy hS hx) fun x1 hx1 => ?_
  refine Out.bind (outx_op hS hx1 ho) fun w1 w hw => ?_
  refine Out.bind (outx_sub hS hy hw) fun s1 s hs => ?_
  refine Out.step (outx_fmul hS hx1 damp) fun d1 hd1 => ?_
  refine Out.bind (outx_adj hS hs ho) fun g1 g hg => ?_
  refine Out.bind (outx_sub hS hg hd1) fun r1 r hr => ?_
  refine Out.step (outx_copy hS hr) fun c1 hc1 => ?_
  refine Out.bind (outx_op hS hc1 ho) fun q1 q hq => ?_
  refine outx_absDot hS hr hr fun k => ?_
  refine Out.stepSame (outx_norm hS hs) ?_
  unfold FNum.toFloat
  refine Out.stepSame (Out.ret (R := Same n) (a := fun _ => norm2 s) fun _ _ => rfl) ?_
  refine outx_absDot hS hx1 hx1 fun t => ?_
  exact Out.ret ⟨hx1, hs, hc1, hq, fun _ _ => rfl, fun _ _ => rfl, fun _ _ => rfl, fun _ _ => rfl, fun _ _ => rfl, fun _ _ => rfl, rfl⟩

theorem out_cglsStep {damp2 tol : ℝ} {q : Nat → CGLSS K × XArr K} {s : SerialCGLS K} (h : CGLSRep may n dt damp2 tol q s) :
    Out n may (CGLSRep may n dt damp2 tol) (fun r => CGLSS.step (env n J r) (MOp.toX (.leaf (p r))) (q r).1 (q r).2) (s.step (applyTo dt sh fn) damp2) := by
  have e : ∀ r < n, (q r).1 = { (q r).1 with kold := s.k, damp := damp2 } := fun r hr => by
    rw [← h.k r hr, ← h.damp r hr]
  refine Out.congr (ps := fun r => CGLSS.step (env n J r) (MOp.toX (.leaf (p r))) { (q r).1 with kold := s.k, damp := damp2 } (q r).2) ?_ fun r hr => by rw [← e r hr]
  unfold CGLSS.step SerialCGLS.step
  simp only [Prog.bind_eq, ebind]
  have A1 := fun {R' : (Nat → CGLSS K × XArr K) → SerialCGLS K → Prop} {f : Nat → XArr K} {a : NDArray K} (h : RepX may n dt f a) {k : Nat → K → P K (CGLSS K × XArr K)}
    {kk : K → Except Err (SerialCGLS K)} (hk : ∀ v, Out n may R' (fun r => k r v) (kk v)) => ((outx_dotConj (J := J) hS h h).bindSame hk)
  simp only [Prog.bind_assoc] at A1
  refine A1 h.q fun qq => ?_
  refine A1 h.c fun cc => ?_
  unfold divide npDiv
  by_cases ht : qq + (damp2 : K) * cc = 0
  · simp only [if_pos ht]
    exact Out.throw hS.pos _ _
  simp only [if_neg ht]
  refine Out.stepSame (Out.ret (R := Same n) (a := fun _ => (s.k : K) / (qq + (damp2 : K) * cc)) fun _ _ => rfl) ?_
  show Out _ _ _ _ (Except.bind (Except.ok _) _)
  refine Out.step (outx_fmul hS h.c _) fun a1 ha1 => ?_
  refine Out.bind (outx_iadd hS h.x ha1) fun x1 x hx => ?_
  refine Out.step (outx_fmul hS h.q _) fun a2 ha2 => ?_
  refine Out.bind (outx_isub hS h.s ha2) fun s1 s' hs => ?_
  refine Out.step (outx_fmul hS hx damp2) fun d1 hd1 => ?_
  refine Out.bind (outx_adj hS hs ho) fun g1 g hg => ?_
  refine Out.bind (outx_sub hS hg hd1) fun r1 r hr => ?_
  refine outx_absDot hS hr hr fun k => ?_
  unfold pyDiv
  by_cases hk : s.k = 0
  · simp only [if_pos hk]
    exact Out.throw hS.pos _ _
  simp only [if_neg hk]
  refine Out.stepSame (Out.ret (R := Same n) (a := fun _ => ‖k‖ / s.k) fun _ _ => rfl) ?_
  show Out _ _ _ _ (Except.bind (Except.ok _) _)
  refine Out.step (outx_fmul hS h.c _) fun a3 ha3 => ?_
  refine Out.bind (outx_add hS hr ha3) fun c1 c hc => ?_
  refine Out.bind (outx_op hS hc ho) fun q1 q' hq => ?_
  refine Out.stepSame (outx_norm hS hs) ?_
  unfold FNum.toFloat
  refine Out.stepSame (Out.ret (R := Same n) (a := fun _ => norm2 s') fun _ _ => rfl) ?_
  refine outx_absDot hS hx hx fun t => ?_
  exact Out.ret ⟨hx, hs, hc, hq, fun _ _ => rfl, fun r hr => by rw [h.cost r hr], fun r hr => by rw [h.cost1 r hr], fun r hr => by rw [h.iiter r hr], h.tol, fun _ _ => rfl,
    by simp [h.length]⟩

theorem out_cglsLoop {damp2 tol : ℝ} (niter : Int) (m : Nat) : ∀ {q : Nat → CGLSS K × XArr K} {s : SerialCGLS K} (tr : Nat → List (XArr K)), CGLSRep may n dt damp2 tol q s →
    m = (niter - s.iiter).toNat →
    Out n may (fun w => CGLSRep may n dt damp2 tol fun r => ((w r).1, (w r).2.1)) (fun r => CGLSS.loop (env n J r) (MOp.toX (.leaf (p r))) niter m (q r).1 (q r).2 (tr r))
      (s.steps (applyTo dt sh fn) damp2 tol m) := by
  induction m with
  | zero =>
    intro q s tr h _
    unfold CGLSS.loop SerialCGLS.steps
    exact Out.ret (K := K) (R := fun w => CGLSRep may n dt damp2 tol fun r => ((w r).1, (w r).2.1)) (a := fun r => ((q r).1, (q r).2, tr r)) h
  | succ m ih =>
    intro q s tr h hm
    unfold CGLSS.loop SerialCGLS.steps
    have hc : ∀ r < n, (((q r).1.iiter : Int) < niter ∧ (q r).1.kold > (q r).1.tol) ↔ tol < s.k := by
      intro r hr
      rw [h.iiter r hr, h.k r hr, h.tol r hr]
      exact ⟨fun h => h.2, fun h => ⟨by omega, h⟩⟩
    by_cases ht : tol < s.k
    · rw [if_pos ht]
      refine Out.congr
        (ps := fun r => (CGLSS.step (env n J r) (MOp.toX (.leaf (p r))) (q r).1 (q r).2).bind fun p' => CGLSS.loop (env n J r) (MOp.toX (.leaf (p r))) niter m p'.1 p'.2 (tr r ++ [p'.2]))
        ?_ fun r hr => by rw [if_pos ((hc r hr).2 ht)]; rfl
      refine Out.bindOk (out_cglsStep hS ho h) fun q' s' hs h' => ?_
      have e := cglsStep_iiter hs
      exact ih (fun r => tr r ++ [(q' r).2]) h' (by omega)
    · rw [if_neg ht]
      refine Out.congr (ps := fun r => (.ret ((q r).1, (q r).2, tr r) : P K _)) ?_ fun r hr => by rw [if_neg (fun h => ht ((hc r hr).1 h))]
      exact Out.ret (K := K) (R := fun w => CGLSRep may n dt damp2 tol fun r => ((w r).1, (w r).2.1)) (a := fun r => ((q r).1, (q r).2, tr r)) h

/-- `cgls` -/
theorem out_cgls {y x : Nat → XArr K} {a b : NDArray K} (hy : RepX may n dt y a) (hx : RepX may n dt x b) (niter : Int) (damp tol : ℝ) :
    Out n may (fun (w : Nat → CGLSS.Result K) (s : SerialCGLS K) => RepX may n dt (fun r => (w r).x) s.x ∧
        ∀ r < n, (⟨(w r).istop, (w r).iiter, (w r).r1norm, (w r).r2norm, (w r).cost⟩ : CGLSNumbers) = s.numbers tol)
      (fun r => CGLSS.solve (env n J r) (MOp.toX (.leaf (p r))) (y r) (x r) (some niter) damp tol)
      ((SerialCGLS.start (applyTo dt sh fn) damp a b).bind (SerialCGLS.steps (applyTo dt sh fn) (damp ^ 2) tol niter.toNat)) := by
  unfold CGLSS.solve
  simp only [Prog.bind_eq]
  refine Out.bindOk (out_cglsStart hS ho hy hx (some niter) damp tol) fun q s hs h => ?_
  have e0 : s.iiter = 0 := by
    simp only [SerialCGLS.start, ebind, ebind_ok] at hs
    obtain ⟨_, -, _, -, _, -, _, -, _, -, _, -, _, -, hs⟩ := hs
    obtain rfl := Except.ok.inj hs
    rfl
  have e1 : ∀ r < n, ((niter - (q r).1.iiter).toNat : Nat) = niter.toNat := fun r hr => by rw [h.iiter r hr, e0]; simp
  have := out_cglsLoop hS ho niter niter.toNat (fun _ => []) h (by rw [e0]; simp)
  have h2 := this.bind (R' := fun (w : Nat → CGLSS.Result K) (s : SerialCGLS K) => RepX may n dt (fun r => (w r).x) s.x ∧
        ∀ r < n, (⟨(w r).istop, (w r).iiter, (w r).r1norm, (w r).r2norm, (w r).cost⟩ : CGLSNumbers) = s.numbers tol)
    (k := fun _ w => CGLSS.finalize w.1 w.2.1 w.2.2) (kk := .ok) fun w s h => by
      have hl := h.length
      refine Out.congr (ps := fun r => (.ret ⟨(w r).2.1, if s.k < tol then 1 else 2, s.iiter, s.k, s.cost1.getLastD .nan, s.cost, (w r).2.2⟩ : P K (CGLSS.Result K))) ?_ fun r hr => ?_
      · exact Out.ret ⟨h.x, fun r hr => rfl⟩
      · unfold CGLSS.finalize
        have hc1 := h.cost1 r hr
        have hi := h.iiter r hr
        have hk := h.k r hr
        have ht := h.tol r hr
        have hco := h.cost r hr
        dsimp only at hc1 hi hk ht hco
        have e : (w r).1.cost1[(w r).1.iiter]? = some (s.cost1.getLastD .nan) := by
          rw [hc1, hi, show s.iiter = s.cost1.length - 1 by omega, ← List.getLast?_eq_getElem?]
          cases hcc : s.cost1 with
          | nil => rw [hcc] at hl; simp at hl
          | cons a l => simp [List.getLast?_cons, List.getLastD_eq_getLast?]
        rw [e]
        simp only [hk, ht, hi, hco]
  have e2 : ∀ res : Except Err (SerialCGLS K), res.bind .ok = res := fun res => by cases res <;> rfl
  rw [e2] at h2
  refine h2.congr fun r hr => ?_
  unfold CGLSS.run
  simp only [e1 r hr]

end

end Script
end Verif

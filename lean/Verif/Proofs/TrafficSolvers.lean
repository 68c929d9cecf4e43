/-
  The number of calls made by operator expressions and by the solvers.
-/
import Verif.Proofs.TrafficOps

namespace Verif
open NDArray

variable {K α β : Type} {ok : CommCall (Msg K) → Prop}

theorem Counts.step {k k1 : Nat} {p : P K α} {f : α → P K β} {Q : α → Prop} {R : β → Prop} (h : Counts ok k1 p Q) (hk : k1 ≤ k)
    (hf : ∀ a, Q a → Counts ok (k - k1) (f a) R) : Counts ok k (p.bind f) R := CallsW.step h hk le_rfl hf

theorem Counts.more {k k' : Nat} {p : P K α} {Q Q' : α → Prop} (h : Counts ok k p Q) (hk : k ≤ k') (hQ : ∀ a, Q a → Q' a) :
    Counts ok k' p Q' := h.mono hk le_rfl hQ

/-! ### operator expressions -/

section
variable [Field K] [StarRing K]

theorem counts_conj (hok : SizesOK ok) {c : Ctx K} {d : DArr K} (hd : d.part ≠ .broadcast) :
    Counts ok 3 (d.conj c) fun e => e.part ≠ .broadcast := (calls_conj hok hd).counts.more le_rfl fun _ h => h ▸ hd

theorem counts_copy (hok : SizesOK ok) {c : Ctx K} {d : DArr K} (hd : d.part ≠ .broadcast) :
    Counts ok 3 (d.copy c) fun e => e.part ≠ .broadcast := (calls_copy hok hd).counts.more le_rfl fun _ h => h ▸ hd

theorem counts_neg (hok : SizesOK ok) {c : Ctx K} {d : DArr K} (hd : d.part ≠ .broadcast) :
    Counts ok 3 (d.neg c) fun e => e.part ≠ .broadcast := (calls_neg hok hd).counts.more le_rfl fun _ h => h ▸ hd

theorem counts_smul (hok : SizesOK ok) {c : Ctx K} {d : DArr K} (hd : d.part ≠ .broadcast) (t : DType) (s : K) :
    Counts ok 3 (d.smul c t s) fun e => e.part ≠ .broadcast := (calls_smul hok hd t s).counts.more le_rfl fun _ h => h ▸ hd

theorem counts_add (hok : SizesOK ok) {c : Ctx K} {d e : DArr K} (hd : d.part ≠ .broadcast) :
    Counts ok 3 (d.add c e) fun e => e.part ≠ .broadcast := (calls_add hok hd).counts.more le_rfl fun _ h => h ▸ hd

theorem counts_sub (hok : SizesOK ok) {c : Ctx K} {d e : DArr K} (hd : d.part ≠ .broadcast) (he : e.part ≠ .broadcast) :
    Counts ok 6 (d.sub' c e) fun e => e.part ≠ .broadcast := (calls_sub hok hd he).counts.more le_rfl fun _ h => h ▸ hd

theorem counts_iadd {c : Ctx K} {d e : DArr K} (hd : d.part ≠ .broadcast) :
    Counts ok 0 (d.iadd c e) fun e => e.part ≠ .broadcast := (calls_iadd hd).counts.more le_rfl fun _ h => h ▸ hd

theorem counts_isub (hok : SizesOK ok) {c : Ctx K} {d e : DArr K} (hd : d.part ≠ .broadcast) (he : e.part ≠ .broadcast) :
    Counts ok 3 (d.isub c e) fun e => e.part ≠ .broadcast := (calls_isub hok hd he).counts.more le_rfl fun _ h => h ▸ hd

theorem counts_setAll {c : Ctx K} {d : DArr K} (hd : d.part ≠ .broadcast) (v : NDArray K) :
    Counts ok 0 (d.setAll c v) fun e => e.part ≠ .broadcast := (calls_setAll hd v).counts.more le_rfl fun _ h => h.part ▸ hd

theorem counts_powLoop {c : Ctx K} {f : DArr K → P K (DArr K)} {k : Nat}
    (hf : ∀ x : DArr K, x.part ≠ .broadcast → Counts ok k (f x) fun y => y.part ≠ .broadcast) :
    ∀ (p : Nat) (res : DArr K), res.part ≠ .broadcast → Counts ok (p * k) (powLoop c f p res) fun y => y.part ≠ .broadcast
  | 0, _, h => .ret h
  | p + 1, res, h => by
    simp only [powLoop, Prog.bind_eq]
    refine Counts.step (hf res h) (by rw [Nat.succ_mul]; omega) fun z _ => ?_
    refine Counts.step (counts_setAll h z.larr) (Nat.zero_le _) fun r hr => ?_
    exact (counts_powLoop hf p r hr).more (by rw [Nat.succ_mul]; omega) fun _ => id

theorem counts_expr {c : Ctx K} (hok : SizesOK ok) {kl : Nat} (e : MOp K (Prim K)) (he : e.leavesAre (Prim.Quiet c ok kl)) :
    ∀ (b : Bool) (x : DArr K), x.part ≠ .broadcast → Counts ok (e.calls kl) (MOp.run c b e x) fun y => y.part ≠ .broadcast := by
  have hcheck : ∀ (sh : Nat × Nat) (b : Bool) (x : DArr K) (p : P K (DArr K)) (k : Nat), Counts ok k p (fun y => y.part ≠ .broadcast) →
      Counts ok k (checkDim sh b x p) fun y => y.part ≠ .broadcast := by
    intro sh b x p k h
    unfold checkDim
    by_cases hd : x.gshape ≠ [if b then sh.1 else sh.2]
    · rw [if_pos hd]; exact .throw
    · rw [if_neg hd]; exact h
  induction e with
  | leaf p =>
    intro b x hx
    unfold MOp.run
    refine hcheck _ _ _ _ _ ?_
    cases b
    · exact (he x hx).1
    · exact (he x hx).2
  | adj A ih =>
    intro b x hx
    unfold MOp.run
    exact hcheck _ _ _ _ _ (ih he (!b) x hx)
  | trans A ih =>
    intro b x hx
    unfold MOp.run
    refine hcheck _ _ _ _ _ ?_
    simp only [Prog.bind_eq, MOp.calls]
    refine Counts.step (counts_conj hok hx) (by omega) fun z hz => ?_
    refine Counts.step (ih he (!b) z hz) (by omega) fun y hy => ?_
    exact (counts_conj hok hy).more (by omega) fun _ => id
  | prod A B iA iB =>
    intro b x hx
    cases b
    · unfold MOp.run
      refine hcheck _ _ _ _ _ ?_
      simp only [Prog.bind_eq, MOp.calls]
      refine Counts.step (iB he.2 false x hx) (by omega) fun y hy => ?_
      exact (iA he.1 false y hy).more (by omega) fun _ => id
    · unfold MOp.run
      refine hcheck _ _ _ _ _ ?_
      simp only [Prog.bind_eq, MOp.calls]
      refine Counts.step (iA he.1 true x hx) (by omega) fun y hy => ?_
      exact (iB he.2 true y hy).more (by omega) fun _ => id
  | scaled A s ih =>
    intro b x hx
    unfold MOp.run
    refine hcheck _ _ _ _ _ ?_
    simp only [Prog.bind_eq, MOp.calls]
    refine Counts.step (ih he b x hx) le_rfl fun y hy => ?_
    unfold DArr.scaleInPlace
    generalize (if b then s.conj else s) = s'
    split
    · exact .throw
    · refine (counts_setAll ?_ _).more (by omega) fun _ => id
      exact hy
  | sum A B iA iB =>
    intro b x hx
    unfold MOp.run
    refine hcheck _ _ _ _ _ ?_
    simp only [Prog.bind_eq, MOp.calls]
    refine Counts.step (iA he.1 b x hx) (by omega) fun y hy => ?_
    refine Counts.step (iB he.2 b x hx) (by omega) fun z hz => ?_
    exact (counts_add hok hy).more (by omega) fun _ => id
  | pow A p ih =>
    intro b x hx
    unfold MOp.run
    refine hcheck _ _ _ _ _ ?_
    simp only [Prog.bind_eq, MOp.calls]
    refine Counts.step (counts_copy hok hx) (by omega) fun y hy => ?_
    exact (counts_powLoop (fun z hz => ih he b z hz) p y hy).more (by omega) fun _ => id
  | conj A ih =>
    intro b x hx
    unfold MOp.run
    refine hcheck _ _ _ _ _ ?_
    simp only [Prog.bind_eq, MOp.calls]
    refine Counts.step (counts_conj hok hx) (by omega) fun z hz => ?_
    refine Counts.step (ih he b z hz) (by omega) fun y hy => ?_
    exact (counts_conj hok hy).more (by omega) fun _ => id

end

/-! ### arrays and stacks -/

theorem counts_forList {γ δ : Type} {f : γ → P K δ} {k : Nat} {A : γ → Prop} {Q : δ → Prop} (h : ∀ a, A a → Counts ok k (f a) Q) :
    ∀ l : List γ, (∀ a ∈ l, A a) → Counts ok (k * l.length) (forList f l) fun bs => (∀ b ∈ bs, Q b) ∧ bs.length = l.length
  | [], _ => .ret ⟨by simp, rfl⟩
  | a :: l, hl => by
    simp only [forList, Prog.bind_eq, List.length_cons, Nat.mul_succ]
    refine Counts.step (h a (hl a (by simp))) (by omega) fun b hb => ?_
    refine Counts.step (counts_forList h l fun a ha => hl a (by simp [ha])) (by omega) fun bs hbs => ?_
    refine .ret ⟨fun x hx => ?_, by rw [List.length_cons, hbs.2]⟩
    rcases List.mem_cons.mp hx with rfl | hx
    · exact hb
    · exact hbs.1 x hx

/-- the arrays of the list are not BROADCAST -/
abbrev AllQuiet (l : List (DArr K)) : Prop := ∀ d ∈ l, d.part ≠ .broadcast

section
variable [Field K] [StarRing K]

theorem counts_scopy (hok : SizesOK ok) {c : Ctx K} {x : SArr K} (hx : AllQuiet x) :
    Counts ok (3 * x.length) (x.copy c) fun y => AllQuiet y ∧ y.length = x.length :=
  counts_forList (A := fun d : DArr K => d.part ≠ .broadcast) (fun _ hd => counts_copy hok hd) x hx

theorem counts_sconj (hok : SizesOK ok) {c : Ctx K} {x : SArr K} (hx : AllQuiet x) :
    Counts ok (3 * x.length) (x.conj c) fun y => AllQuiet y ∧ y.length = x.length :=
  counts_forList (A := fun d : DArr K => d.part ≠ .broadcast) (fun _ hd => counts_conj hok hd) x hx

theorem counts_sneg (hok : SizesOK ok) {c : Ctx K} {x : SArr K} (hx : AllQuiet x) :
    Counts ok (3 * x.length) (x.neg c) fun y => AllQuiet y ∧ y.length = x.length := by
  unfold SArr.neg
  simp only [Prog.bind_eq]
  refine Counts.step (counts_scopy hok hx) le_rfl fun y hy => ?_
  exact (counts_forList (A := fun d : DArr K => d.part ≠ .broadcast) (k := 0) (fun _ hd => counts_setAll hd _) y hy.1).more (by omega)
    fun z hz => ⟨hz.1, hz.2.trans hy.2⟩

omit [Field K] [StarRing K] in
theorem counts_checkSize (x y : SArr K) : Counts ok 0 (SArr.checkSize x y) fun _ => x.length = y.length := by
  unfold SArr.checkSize
  split
  · exact .throw
  · rename_i h
    split
    · exact .throw
    · exact .ret (not_not.mp h)

theorem counts_sadd (hok : SizesOK ok) {c : Ctx K} {x y : SArr K} (hx : AllQuiet x) :
    Counts ok (6 * x.length) (x.add c y) fun z => AllQuiet z ∧ z.length ≤ x.length := by
  unfold SArr.add
  simp only [Prog.bind_eq]
  refine Counts.step (counts_checkSize x y) (by omega) fun _ hl => ?_
  refine Counts.step (counts_scopy hok hx) (by omega) fun s hs => ?_
  have hlen : (s.zip (x.zip y)).length ≤ x.length := by simp
  refine (counts_forList (A := fun t : DArr K × DArr K × DArr K => t.1.part ≠ .broadcast ∧ t.2.1.part ≠ .broadcast) (k := 3)
    (Q := fun z : DArr K => z.part ≠ .broadcast) (fun t ht => ?_) (s.zip (x.zip y)) fun t ht => ?_).more ?_ fun z hz => ⟨hz.1, by omega⟩
  · refine Counts.step (counts_add hok ht.2) le_rfl fun z _ => ?_
    exact (counts_setAll ht.1 _).more (by omega) fun _ => id
  · obtain ⟨a, b, e⟩ := t
    have h1 := List.of_mem_zip ht
    exact ⟨hs.1 _ h1.1, hx _ (List.of_mem_zip h1.2).1⟩
  · have := Nat.mul_le_mul_left 3 hlen
    omega

theorem counts_siadd (hok : SizesOK ok) {c : Ctx K} {x y : SArr K} (hx : AllQuiet x) :
    Counts ok (3 * x.length) (x.iadd c y) fun z => AllQuiet z ∧ z.length ≤ x.length := by
  unfold SArr.iadd
  simp only [Prog.bind_eq]
  refine Counts.step (counts_checkSize x y) (by omega) fun _ hl => ?_
  have hlen : (x.zip y).length ≤ x.length := by simp
  refine (counts_forList (A := fun t : DArr K × DArr K => t.1.part ≠ .broadcast) (k := 3)
    (Q := fun z : DArr K => z.part ≠ .broadcast) (fun t ht => ?_) (x.zip y) fun t ht => ?_).more ?_ fun z hz => ⟨hz.1, by omega⟩
  · refine Counts.step (counts_add hok ht) le_rfl fun z _ => ?_
    exact (counts_setAll ht _).more (by omega) fun _ => id
  · obtain ⟨a, b⟩ := t
    exact hx _ (List.of_mem_zip ht).1
  · have := Nat.mul_le_mul_left 3 hlen
    omega

theorem counts_ssmul (hok : SizesOK ok) {c : Ctx K} {x : SArr K} (hx : AllQuiet x) (t : DType) (a : K) :
    Counts ok (6 * x.length) (x.smul c t a) fun z => AllQuiet z ∧ z.length ≤ x.length := by
  unfold SArr.smul
  simp only [Prog.bind_eq]
  refine Counts.step (counts_scopy hok hx) (by omega) fun s hs => ?_
  have hlen : (s.zip x).length ≤ x.length := by simp
  refine (counts_forList (A := fun t : DArr K × DArr K => t.1.part ≠ .broadcast ∧ t.2.part ≠ .broadcast) (k := 3)
    (Q := fun z : DArr K => z.part ≠ .broadcast) (fun p hp => ?_) (s.zip x) fun p hp => ?_).more ?_ fun z hz => ⟨hz.1, by omega⟩
  · refine Counts.step (counts_smul hok hp.2 t a) le_rfl fun z _ => ?_
    exact (counts_setAll hp.1 _).more (by omega) fun _ => id
  · obtain ⟨a, b⟩ := p
    have h1 := List.of_mem_zip hp
    exact ⟨hs.1 _ h1.1, hx _ h1.2⟩
  · have := Nat.mul_le_mul_left 3 hlen
    omega

theorem counts_sdot (hok : NumbersOK ok) {c : Ctx K} {x y : SArr K} : Counts ok (3 * x.length) (x.dot c y) fun _ => True := by
  unfold SArr.dot
  simp only [Prog.bind_eq]
  refine Counts.step (counts_checkSize x y) (by omega) fun _ hl => ?_
  have hlen : (x.zip y).length ≤ x.length := by simp
  refine Counts.step (counts_forList (A := fun _ => True) (k := 3) (Q := fun _ => True) (fun p _ => (calls_dot hok c p.1 p.2).counts)
    (x.zip y) fun _ _ => trivial) ?_ fun l _ => .ret trivial
  have := Nat.mul_le_mul_left 3 hlen
  omega

variable {m s : Nat}

theorem counts_xcopy (hok : SizesOK ok) {c : Ctx K} {x : XArr K} (hx : x.Quiet m s) : Counts ok (3 * m) (x.copy c) (XArr.Quiet m s) := by
  cases x with
  | one d =>
    obtain ⟨hd, h1⟩ := hx
    exact Counts.step (counts_copy hok hd) (by omega) fun y hy => .ret ⟨hy, h1⟩
  | stack l =>
    obtain ⟨hl, h1, h2⟩ := hx
    exact Counts.step (counts_scopy hok hl) (by omega) fun y hy => .ret ⟨hy.1, by omega, h2⟩

theorem counts_xconj (hok : SizesOK ok) {c : Ctx K} {x : XArr K} (hx : x.Quiet m s) : Counts ok (3 * m) (x.conj c) (XArr.Quiet m s) := by
  cases x with
  | one d =>
    obtain ⟨hd, h1⟩ := hx
    exact Counts.step (counts_conj hok hd) (by omega) fun y hy => .ret ⟨hy, h1⟩
  | stack l =>
    obtain ⟨hl, h1, h2⟩ := hx
    exact Counts.step (counts_sconj hok hl) (by omega) fun y hy => .ret ⟨hy.1, by omega, h2⟩

theorem counts_xadd (hok : SizesOK ok) {c : Ctx K} {x y : XArr K} (hx : x.Quiet m s) :
    Counts ok (3 * m + 3 * s) (x.add c y) (XArr.Quiet m s) := by
  cases x with
  | one d =>
    obtain ⟨hd, h1⟩ := hx
    cases y with
    | one e => exact Counts.step (counts_add hok hd) (by omega) fun y hy => .ret ⟨hy, h1⟩
    | stack k => exact .throw
  | stack l =>
    obtain ⟨hl, h1, h2⟩ := hx
    cases y with
    | one e => exact .throw
    | stack k => exact Counts.step (counts_sadd hok hl) (by omega) fun y hy => .ret ⟨hy.1, by omega, h2⟩

theorem counts_xiadd (hok : SizesOK ok) {c : Ctx K} {x y : XArr K} (hx : x.Quiet m s) :
    Counts ok (3 * s) (x.iadd c y) (XArr.Quiet m s) := by
  cases x with
  | one d =>
    obtain ⟨hd, h1⟩ := hx
    cases y with
    | one e => exact Counts.step (counts_iadd hd) (by omega) fun y hy => .ret ⟨hy, h1⟩
    | stack k => exact .throw
  | stack l =>
    obtain ⟨hl, h1, h2⟩ := hx
    cases y with
    | one e => exact .throw
    | stack k => exact Counts.step (counts_siadd hok hl) (by omega) fun y hy => .ret ⟨hy.1, by omega, h2⟩

theorem counts_xsub (hok : SizesOK ok) {c : Ctx K} {x y : XArr K} (hx : x.Quiet m s) (hy : y.Quiet m s) :
    Counts ok (6 * m + 3 * s) (x.sub' c y) (XArr.Quiet m s) := by
  cases x with
  | one d =>
    obtain ⟨hd, h1⟩ := hx
    cases y with
    | one e => exact Counts.step (counts_sub hok hd hy.1) (by omega) fun y hy => .ret ⟨hy, h1⟩
    | stack k => obtain ⟨hk, h3, h4⟩ := hy; exact Counts.step (counts_sneg hok hk) (by omega) fun _ _ => .throw
  | stack l =>
    obtain ⟨hl, h1, h2⟩ := hx
    cases y with
    | one e => obtain ⟨he, h3⟩ := hy; exact Counts.step (counts_neg hok he) (by omega) fun _ _ => .throw
    | stack k =>
      obtain ⟨hk, h3, h4⟩ := hy
      refine Counts.step (k1 := 3 * m + 6 * s) ?_ (by omega) fun y hy => .ret (hy : XArr.Quiet m s (.stack y))
      exact Counts.step (counts_sneg hok hk) (by omega) fun z _ => (counts_sadd hok hl).more (by omega) fun y hy => ⟨hy.1, by omega, h2⟩

theorem counts_xisub (hok : SizesOK ok) {c : Ctx K} {x y : XArr K} (hx : x.Quiet m s) (hy : y.Quiet m s) :
    Counts ok (3 * m + 3 * s) (x.isub c y) (XArr.Quiet m s) := by
  cases x with
  | one d =>
    obtain ⟨hd, h1⟩ := hx
    cases y with
    | one e => exact Counts.step (counts_isub hok hd hy.1) (by omega) fun y hy => .ret ⟨hy, h1⟩
    | stack k => obtain ⟨hk, h3, h4⟩ := hy; exact Counts.step (counts_sneg hok hk) (by omega) fun _ _ => .throw
  | stack l =>
    obtain ⟨hl, h1, h2⟩ := hx
    cases y with
    | one e => obtain ⟨he, h3⟩ := hy; exact Counts.step (counts_neg hok he) (by omega) fun _ _ => .throw
    | stack k =>
      obtain ⟨hk, h3, h4⟩ := hy
      refine Counts.step (k1 := 3 * m + 3 * s) ?_ (by omega) fun y hy => .ret (hy : XArr.Quiet m s (.stack y))
      exact Counts.step (counts_sneg hok hk) (by omega) fun z _ => (counts_siadd hok hl).more (by omega) fun y hy => ⟨hy.1, by omega, h2⟩

theorem counts_xsmul (hok : SizesOK ok) {c : Ctx K} {x : XArr K} (hx : x.Quiet m s) (t : DType) (a : K) :
    Counts ok (3 * m + 3 * s) (x.smul c t a) (XArr.Quiet m s) := by
  cases x with
  | one d =>
    obtain ⟨hd, h1⟩ := hx
    exact Counts.step (counts_smul hok hd t a) (by omega) fun y hy => .ret ⟨hy, h1⟩
  | stack l =>
    obtain ⟨hl, h1, h2⟩ := hx
    exact Counts.step (counts_ssmul hok hl t a) (by omega) fun y hy => .ret ⟨hy.1, by omega, h2⟩

theorem counts_xdot (hok : NumbersOK ok) {c : Ctx K} {x y : XArr K} (hx : x.Quiet m s) : Counts ok (3 * m) (x.dot c y) fun _ => True := by
  cases x with
  | one d =>
    obtain ⟨hd, h1⟩ := hx
    cases y with
    | one e => exact (calls_dot hok c d e).counts.more (by omega) fun _ => id
    | stack k => exact .throw
  | stack l =>
    obtain ⟨hl, h1, h2⟩ := hx
    cases y with
    | one e => exact .throw
    | stack k => exact (counts_sdot hok).more (by omega) fun _ => id

end

/-! ### solvers -/

theorem MOp.quiet_toX [Field K] [StarRing K] {c : Ctx K} (hok : SizesOK ok) {kl m : Nat} (hm : 1 ≤ m) {e : MOp K (Prim K)}
    (he : e.leavesAre (Prim.Quiet c ok kl)) (s : Nat) : (MOp.toX e).Quiet c ok m s (e.calls kl) (e.calls kl) := by
  intro x hx
  cases x with
  | one d =>
    exact ⟨Counts.step (counts_expr hok e he false d hx.1) le_rfl fun y hy => .ret ⟨hy, hm⟩,
      Counts.step (counts_expr hok e he true d hx.1) le_rfl fun y hy => .ret ⟨hy, hm⟩⟩
  | stack l => exact ⟨.throw, .throw⟩

section
variable [RCLike K] {m s kf ka : Nat}

theorem counts_absDot (hok : NumbersOK ok) {c : Ctx K} {x y : XArr K} (hx : x.Quiet m s) (hy : y.Quiet m s) :
    Counts ok (6 * m) (absDot c x y) fun _ => True := by
  unfold absDot
  simp only [Prog.bind_eq]
  refine Counts.step (counts_xconj hok.sizes.sizes hy) (by omega) fun z _ => ?_
  exact Counts.step (counts_xdot hok hx) (by omega) fun v _ => .ret trivial

theorem counts_xnorm (hok : NumbersOK ok) {c : Ctx K} {x : XArr K} (hx : x.Quiet m s) : Counts ok (2 * m) (x.norm c) fun _ => True := by
  cases x with
  | one d =>
    obtain ⟨hd, h1⟩ := hx
    exact Counts.step (calls_norm hok c d .none).counts (by omega) fun _ _ => .ret trivial
  | stack l =>
    obtain ⟨hl, h1, h2⟩ := hx
    show Counts ok (2 * m) (SArr.norm c l .none) fun _ => True
    unfold SArr.norm
    split
    · exact .throw
    · simp only [Prog.bind_eq]
      refine Counts.step (counts_forList (A := fun _ => True) (k := 2) (Q := fun _ => True) (fun d _ => (calls_norm hok c d .none).counts)
        l fun _ _ => trivial) (by omega) fun _ _ => ?_
      exact (CallsW.lift fun _ _ => trivial).mono (by omega) le_rfl fun _ => id

theorem counts_toFloat (v : FNum) : Counts ok 0 (v.toFloat : P K ℝ) fun _ => True := by
  cases v
  case fin => exact .ret trivial
  all_goals exact .throw

theorem counts_cgSetup (hok : NumbersOK ok) {c : Ctx K} {op : XOp K} (hop : op.Quiet c ok m s kf ka) {y x0 : XArr K} (hy : y.Quiet m s)
    (hx : x0.Quiet m s) (niter : Option Int) (tol : ℝ) :
    Counts ok (18 * m + 3 * s + kf) (CGS.setup c op y x0 niter tol) fun p => (p.1.r.Quiet m s ∧ p.1.c.Quiet m s) ∧ p.2.Quiet m s ∧ p.1.iiter = 0 := by
  have hs := hok.sizes.sizes
  unfold CGS.setup
  simp only [Prog.bind_eq]
  refine Counts.step (counts_xcopy hs hx) (by omega) fun x hx => ?_
  refine Counts.step (hop x hx).1 (by omega) fun ax hax => ?_
  refine Counts.step (counts_xsub hs hy hax) (by omega) fun r hr => ?_
  refine Counts.step (counts_xcopy hs hr) (by omega) fun cc hcc => ?_
  refine Counts.step (counts_absDot hok hr hr) (by omega) fun kold _ => ?_
  exact .ret ⟨⟨hr, hcc⟩, hx, rfl⟩

theorem counts_cgStep (hok : NumbersOK ok) {c : Ctx K} {op : XOp K} (hop : op.Quiet c ok m s kf ka) {st : CGS K} {x : XArr K}
    (hst : st.r.Quiet m s ∧ st.c.Quiet m s) (hx : x.Quiet m s) :
    Counts ok (27 * m + 18 * s + kf) (CGS.step c op st x) fun p => (p.1.r.Quiet m s ∧ p.1.c.Quiet m s) ∧ p.2.Quiet m s := by
  have hs := hok.sizes.sizes
  unfold CGS.step pyDiv XArr.fmul
  simp only [Prog.bind_eq]
  refine Counts.step (hop _ hst.2).1 (by omega) fun opc ho => ?_
  refine Counts.step (counts_absDot hok hst.2 ho) (by omega) fun copc _ => ?_
  split
  · exact .throw
  simp only [Prog.ret_bind]
  refine Counts.step (counts_xsmul hs hst.2 _ _) (by omega) fun ac _ => ?_
  refine Counts.step (counts_xiadd hs hx) (by omega) fun x hx => ?_
  refine Counts.step (counts_xsmul hs ho _ _) (by omega) fun ao hao => ?_
  refine Counts.step (counts_xisub hs hst.1 hao) (by omega) fun r hr => ?_
  refine Counts.step (counts_absDot hok hr hr) (by omega) fun k _ => ?_
  split
  · exact .throw
  simp only [Prog.ret_bind]
  refine Counts.step (counts_xsmul hs hst.2 _ _) (by omega) fun bc _ => ?_
  refine Counts.step (counts_xadd hs hr) (by omega) fun cc hcc => ?_
  exact .ret ⟨⟨hr, hcc⟩, hx⟩

theorem counts_cgLoop (hok : NumbersOK ok) {c : Ctx K} {op : XOp K} (hop : op.Quiet c ok m s kf ka) (niter : Int) :
    ∀ (k : Nat) (st : CGS K) (x : XArr K) (tr : List (XArr K)), (st.r.Quiet m s ∧ st.c.Quiet m s) → x.Quiet m s →
      Counts ok (k * (27 * m + 18 * s + kf)) (CGS.loop c op niter k st x tr) fun _ => True
  | 0, _, _, _, _, _ => .ret trivial
  | k + 1, st, x, tr, hst, hx => by
    unfold CGS.loop
    split
    · simp only [Prog.bind_eq]
      rw [Nat.succ_mul]
      refine Counts.step (counts_cgStep hok hop hst hx) (by omega) fun p hp => ?_
      exact (counts_cgLoop hok hop niter k p.1 p.2 _ hp.1 hp.2).more (by omega) fun _ => id
    · exact .ret trivial

theorem counts_cg (hok : NumbersOK ok) {c : Ctx K} {op : XOp K} (hop : op.Quiet c ok m s kf ka) {y x0 : XArr K} (hy : y.Quiet m s)
    (hx : x0.Quiet m s) (niter : Nat) (tol : ℝ) :
    Counts ok (18 * m + 3 * s + kf + niter * (27 * m + 18 * s + kf)) (CGS.solve c op y x0 (some niter) tol) fun _ => True := by
  unfold CGS.solve
  simp only [Prog.bind_eq]
  refine Counts.step (counts_cgSetup hok hop hy hx _ tol) (by omega) fun p hp => ?_
  refine Counts.step (k1 := niter * (27 * m + 18 * s + kf)) (Q := fun _ => True) ?_ (by omega) fun _ _ => .ret trivial
  unfold CGS.run
  simp only [hp.2.2]
  exact counts_cgLoop hok hop _ niter p.1 p.2 [] hp.1 hp.2.1

/-- the arrays of a state of CGLS -/
abbrev CGLSS.Quiet (m s : Nat) (st : CGLSS K) : Prop := st.s.Quiet m s ∧ st.c.Quiet m s ∧ st.q.Quiet m s

theorem counts_cglsSetup (hok : NumbersOK ok) {c : Ctx K} {op : XOp K} (hop : op.Quiet c ok m s kf ka) {y x0 : XArr K} (hy : y.Quiet m s)
    (hx : x0.Quiet m s) (niter : Option Int) (damp tol : ℝ) :
    Counts ok (35 * m + 9 * s + 2 * kf + ka) (CGLSS.setup c op y x0 niter damp tol) fun p => p.1.Quiet m s ∧ p.2.Quiet m s ∧ p.1.iiter = 0 := by
  have hs := hok.sizes.sizes
  unfold CGLSS.setup XArr.fmul
  simp only [Prog.bind_eq]
  refine Counts.step (counts_xcopy hs hx) (by omega) fun x hx => ?_
  refine Counts.step (hop x hx).1 (by omega) fun ax hax => ?_
  refine Counts.step (counts_xsub hs hy hax) (by omega) fun sv hsv => ?_
  refine Counts.step (counts_xsmul hs hx _ _) (by omega) fun dx hdx => ?_
  refine Counts.step (hop sv hsv).2 (by omega) fun rs hrs => ?_
  refine Counts.step (counts_xsub hs hrs hdx) (by omega) fun r hr => ?_
  refine Counts.step (counts_xcopy hs hr) (by omega) fun cc hcc => ?_
  refine Counts.step (hop cc hcc).1 (by omega) fun q hq => ?_
  refine Counts.step (counts_absDot hok hr hr) (by omega) fun kold _ => ?_
  refine Counts.step (counts_xnorm hok hsv) (by omega) fun v _ => ?_
  refine Counts.step (counts_toFloat v) (by omega) fun cost0 _ => ?_
  refine Counts.step (counts_absDot hok hx hx) (by omega) fun xx _ => ?_
  exact .ret ⟨⟨hsv, hcc, hq⟩, hx, rfl⟩

theorem counts_cglsStep (hok : NumbersOK ok) {c : Ctx K} {op : XOp K} (hop : op.Quiet c ok m s kf ka) {st : CGLSS K} {x : XArr K}
    (hst : st.Quiet m s) (hx : x.Quiet m s) :
    Counts ok (50 * m + 24 * s + kf + ka) (CGLSS.step c op st x) fun p => p.1.Quiet m s ∧ p.2.Quiet m s := by
  have hs := hok.sizes.sizes
  obtain ⟨h1, h2, h3⟩ := hst
  unfold CGLSS.step pyDiv npDiv XArr.fmul
  simp only [Prog.bind_eq]
  refine Counts.step (counts_xconj hs h3) (by omega) fun qc _ => ?_
  refine Counts.step (counts_xdot hok h3) (by omega) fun qq _ => ?_
  refine Counts.step (counts_xconj hs h2) (by omega) fun ccj _ => ?_
  refine Counts.step (counts_xdot hok h2) (by omega) fun cc _ => ?_
  split
  · exact .throw
  simp only [Prog.ret_bind]
  refine Counts.step (counts_xsmul hs h2 _ _) (by omega) fun ac _ => ?_
  refine Counts.step (counts_xiadd hs hx) (by omega) fun x hx => ?_
  refine Counts.step (counts_xsmul hs h3 _ _) (by omega) fun aq haq => ?_
  refine Counts.step (counts_xisub hs h1 haq) (by omega) fun sv hsv => ?_
  refine Counts.step (counts_xsmul hs hx _ _) (by omega) fun dx hdx => ?_
  refine Counts.step (hop sv hsv).2 (by omega) fun rs hrs => ?_
  refine Counts.step (counts_xsub hs hrs hdx) (by omega) fun r hr => ?_
  refine Counts.step (counts_absDot hok hr hr) (by omega) fun k _ => ?_
  split
  · exact .throw
  simp only [Prog.ret_bind]
  refine Counts.step (counts_xsmul hs h2 _ _) (by omega) fun bc _ => ?_
  refine Counts.step (counts_xadd hs hr) (by omega) fun cn hcn => ?_
  refine Counts.step (hop cn hcn).1 (by omega) fun q hq => ?_
  refine Counts.step (counts_xnorm hok hsv) (by omega) fun v _ => ?_
  refine Counts.step (counts_toFloat v) (by omega) fun ck _ => ?_
  refine Counts.step (counts_absDot hok hx hx) (by omega) fun xx _ => ?_
  exact .ret ⟨⟨hsv, hcn, hq⟩, hx⟩

theorem counts_cglsLoop (hok : NumbersOK ok) {c : Ctx K} {op : XOp K} (hop : op.Quiet c ok m s kf ka) (niter : Int) :
    ∀ (k : Nat) (st : CGLSS K) (x : XArr K) (tr : List (XArr K)), st.Quiet m s → x.Quiet m s →
      Counts ok (k * (50 * m + 24 * s + kf + ka)) (CGLSS.loop c op niter k st x tr) fun _ => True
  | 0, _, _, _, _, _ => .ret trivial
  | k + 1, st, x, tr, hst, hx => by
    unfold CGLSS.loop
    split
    · simp only [Prog.bind_eq]
      rw [Nat.succ_mul]
      refine Counts.step (counts_cglsStep hok hop hst hx) (by omega) fun p hp => ?_
      exact (counts_cglsLoop hok hop niter k p.1 p.2 _ hp.1 hp.2).more (by omega) fun _ => id
    · exact .ret trivial

theorem counts_cgls (hok : NumbersOK ok) {c : Ctx K} {op : XOp K} (hop : op.Quiet c ok m s kf ka) {y x0 : XArr K} (hy : y.Quiet m s)
    (hx : x0.Quiet m s) (niter : Nat) (damp tol : ℝ) :
    Counts ok (35 * m + 9 * s + 2 * kf + ka + niter * (50 * m + 24 * s + kf + ka)) (CGLSS.solve c op y x0 (some niter) damp tol) fun _ => True := by
  unfold CGLSS.solve
  simp only [Prog.bind_eq]
  refine Counts.step (counts_cglsSetup hok hop hy hx _ damp tol) (by omega) fun p hp => ?_
  refine Counts.step (k1 := niter * (50 * m + 24 * s + kf + ka)) (Q := fun _ => True) ?_ (by omega) fun q _ => ?_
  · unfold CGLSS.run
    simp only [hp.2.2]
    exact counts_cglsLoop hok hop _ niter p.1 p.2 [] hp.1 hp.2.1
  · unfold CGLSS.finalize
    split
    · exact .ret trivial
    · exact .throw

end
end Verif

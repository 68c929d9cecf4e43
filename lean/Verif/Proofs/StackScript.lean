/-
  Programs with stacks give what they give with NumPy arrays, or some rank raises.
-/
import Verif.Proofs.StackScriptSolvers

namespace Verif
namespace SScript
open NDArray Script
set_option linter.unusedSectionVars false

variable {K σ ι κ : Type} [RCLike K] {n : Nat} {J : Nat → Nat → K} {dt : DType} {may : Bool}

/-- a stack with at least one array -/
def RepL (may : Bool) (n : Nat) (dt : DType) (f : Nat → List (DArr K)) (l : List (NDArray K)) : Prop := l ≠ [] ∧ ListRel n (Rep may n dt) f l

/-- what the ranks hold -/
def RepV (may : Bool) (n : Nat) (dt : DType) (V : Nat → SVars (DArr K) σ) (G : SVars (NDArray K) σ) : Prop :=
  (∀ r < n, (V r).loc = G.loc) ∧
  (∀ x, match G.arr x with
    | none => ∀ r < n, (V r).arr x = none
    | some a => ∃ f, Rep may n dt f a ∧ ∀ r < n, (V r).arr x = some (f r)) ∧
  ∀ x, match G.stk x with
    | none => ∀ r < n, (V r).stk x = none
    | some l => l ≠ [] ∧ ∃ f, ListRel n (Rep may n dt) f l ∧ ∀ r < n, (V r).stk x = some (f r)

/-- the same for the arrays -/
def RepB (may : Bool) (n : Nat) (dt : DType) (V : Nat → Vars (DArr K) σ) (G : Vars (NDArray K) σ) : Prop :=
  (∀ r < n, (V r).loc = G.loc) ∧ ∀ x, match G.arr x with
    | none => ∀ r < n, (V r).arr x = none
    | some a => ∃ f, Rep may n dt f a ∧ ∀ r < n, (V r).arr x = some (f r)

theorem out_error (hn : 0 < n) {A B : Type} {R : (Nat → A) → B → Prop} (e : Err) : Out n may R (fun _ => (Prog.lift (.error e) : P K A)) (.error e) := Out.throw hn e e

section
variable {V : Nat → SVars (DArr K) σ} {G : SVars (NDArray K) σ} (h : RepV may n dt V G)
include h

theorem out_get (hn : 0 < n) (x : Nat) : Out n may (Rep may n dt) (fun r => (Prog.lift ((V r).get x) : P K (DArr K))) (G.get x) := by
  have hx := h.2.1 x
  unfold SVars.get
  cases hG : G.arr x with
  | none =>
    rw [hG] at hx
    exact (out_error hn .attribute).congr fun r hr => by rw [hx r hr]
  | some a =>
    rw [hG] at hx
    obtain ⟨f, hf, hx⟩ := hx
    exact (Out.ret (K := K) (R := Rep may n dt) (a := f) hf).congr fun r hr => by rw [hx r hr]; rfl

theorem out_gets (hn : 0 < n) (x : Nat) : Out n may (RepL may n dt) (fun r => (Prog.lift ((V r).gets x) : P K (SArr K))) (G.gets x) := by
  have hx := h.2.2 x
  unfold SVars.gets
  cases hG : G.stk x with
  | none =>
    rw [hG] at hx
    exact (out_error hn .attribute).congr fun r hr => by rw [hx r hr]
  | some a =>
    rw [hG] at hx
    obtain ⟨hl, f, hf, hx⟩ := hx
    exact (Out.ret (K := K) (R := RepL may n dt) (a := f) ⟨hl, hf⟩).congr fun r hr => by rw [hx r hr]; rfl

theorem out_getAll (hn : 0 < n) (xs : List Nat) : Out n may (ListRel n (Rep may n dt)) (fun r => (Prog.lift ((V r).getAll xs) : P K (SArr K))) (G.getAll xs) := by
  induction xs with
  | nil => exact out_nil.congr fun _ _ => rfl
  | cons x xs ih =>
    refine (out_cons (out_get h hn x) ih).congr fun r _ => ?_
    show _ = Prog.lift (((V r).get x).bind fun a => ((V r).getAll xs).bind fun l => .ok (a :: l))
    cases (V r).get x with
    | error e => rfl
    | ok a => cases (V r).getAll xs <;> rfl

theorem out_getX (hn : 0 < n) (x : Ref) : Out n may (RepS may n dt) (fun r => (Prog.lift ((V r).getX x) : P K (XArr K))) (G.num x) := by
  cases x with
  | arr x =>
    refine ((out_get h hn x).bind (k := fun _ d => .ret (.one d)) fun f a hf => Out.ret (K := K) (R := RepS may n dt) (a := fun r => .one (f r)) (.mkOne hf)).congr fun r _ => ?_
    unfold SVars.getX
    dsimp only
    cases (V r).get x <;> rfl
  | stk x =>
    refine ((out_gets h hn x).bind (k := fun _ d => .ret (.stack d)) fun f a hf => Out.ret (K := K) (R := RepS may n dt) (a := fun r => .stack (f r)) (.mkStack hf.1 hf.2)).congr fun r _ => ?_
    unfold SVars.getX
    dsimp only
    cases (V r).gets x <;> rfl

theorem holds_loc {l : Nat → σ} {l' : σ} (hl : ∀ r < n, l r = l') : RepV may n dt (fun r => { V r with loc := l r }) { G with loc := l' } := ⟨hl, h.2.1, h.2.2⟩

theorem holds_set' (z : Nat) {f : Nat → DArr K} {a : NDArray K} (hf : Rep may n dt f a) : RepV may n dt (fun r => (V r).set z (f r)) (G.set z a) := by
  refine ⟨h.1, fun x => ?_, h.2.2⟩
  by_cases hx : x = z
  · subst hx
    simp only [SVars.set, if_true]
    exact ⟨f, hf, fun _ _ => rfl⟩
  · simp only [SVars.set, if_neg hx]
    exact h.2.1 x

theorem holds_sets (z : Nat) {f : Nat → List (DArr K)} {l : List (NDArray K)} (hf : RepL may n dt f l) : RepV may n dt (fun r => (V r).sets z (f r)) (G.sets z l) := by
  refine ⟨h.1, h.2.1, fun x => ?_⟩
  by_cases hx : x = z
  · subst hx
    simp only [SVars.sets, if_true]
    exact ⟨hf.1, f, hf.2, fun _ _ => rfl⟩
  · simp only [SVars.sets, if_neg hx]
    exact h.2.2 x

theorem RepV.congr {V' : Nat → SVars (DArr K) σ} (e : ∀ r < n, V' r = V r) : RepV may n dt V' G := by
  refine ⟨fun r hr => by rw [e r hr]; exact h.1 r hr, fun x => ?_, fun x => ?_⟩
  · have h2 := h.2.1 x
    cases hG : G.arr x with
    | none => rw [hG] at h2; exact fun r hr => by rw [e r hr]; exact h2 r hr
    | some b =>
      rw [hG] at h2
      obtain ⟨f', h3, h4⟩ := h2
      exact ⟨f', h3, fun r hr => by rw [e r hr]; exact h4 r hr⟩
  · have h2 := h.2.2 x
    cases hG : G.stk x with
    | none => rw [hG] at h2; exact fun r hr => by rw [e r hr]; exact h2 r hr
    | some b =>
      rw [hG] at h2
      obtain ⟨h0, f', h3, h4⟩ := h2
      exact ⟨h0, f', h3, fun r hr => by rw [e r hr]; exact h4 r hr⟩

theorem holds_setX (z : Nat) {f : Nat → XArr K} {a : SNum K} (hf : RepS may n dt f a) : RepV may n dt (fun r => (V r).setX z (f r)) (G.setNum z a) := by
  cases a with
  | one a =>
    obtain ⟨g, hg, e⟩ := hf
    exact RepV.congr (holds_set' h z hg) fun r hr => by rw [e r hr]; rfl
  | stack l =>
    obtain ⟨hl, g, hg, e⟩ := hf
    exact RepV.congr (holds_sets h z ⟨hl, hg⟩) fun r hr => by rw [e r hr]; rfl

/-- the end of an operation that stores a stack -/
theorem out_sets (z : Nat) {ps : Nat → P K (SArr K)} {res : Except Err (List (NDArray K))} (hp : Out n may (RepL may n dt) ps res) :
    Out n may (RepV may n dt) (fun r => (ps r).bind fun e => .ret ((V r).sets z e)) (res.bind fun e => .ok (G.sets z e)) :=
  hp.bind fun f l hl => Out.ret (K := K) (R := RepV may n dt) (a := fun r => (V r).sets z (f r)) (holds_sets h z hl)

/-- the end of an operation that gives a number -/
theorem out_number {C : Type} (g : C → σ → σ) {ps : Nat → P K C} {res : Except Err C} (hp : Out n may (Same n) ps res) :
    Out n may (RepV may n dt) (fun r => (ps r).bind fun s => .ret { V r with loc := g s (V r).loc }) (res.bind fun s => .ok { G with loc := g s G.loc }) :=
  hp.bind fun f s hs => Out.ret (K := K) (R := RepV may n dt) (a := fun r => { V r with loc := g (f r) (V r).loc })
    (holds_loc (l := fun r => g (f r) (V r).loc) (l' := g s G.loc) h fun r hr => by rw [hs r hr, h.1 r hr])

end

theorem repl_of {ps : Nat → P K (SArr K)} {res : Except Err (List (NDArray K))} (hp : Out n may (ListRel n (Rep may n dt)) ps res) (hne : ∀ l, res = .ok l → l ≠ []) :
    Out n may (RepL may n dt) ps res := by
  rcases hp with ⟨b, h1, a, h2, h3⟩ | h
  · exact .inl ⟨b, h1, a, ⟨hne b h1, h2⟩, h3⟩
  · exact .inr h

variable {prim : ι → Nat → Prim K} {lv : Leaves K ι} {op : κ → Nat → XOp K} {fn : κ → Bool → SNum K → Except Err (SNum K)}

theorem XOpOr.rep {op : Nat → XOp K} {fn : Bool → SNum K → Except Err (SNum K)} (h : XOpOr n J dt op fn) : XRep true n J dt op fn := by
  intro b f a hf
  have hf' : HeldNum n dt f a := by
    cases a with
    | one a => exact hf
    | stack l => exact hf
  rcases h b f a hf' with ⟨e, g, h1, h2, h3⟩ | h
  · refine .inl ⟨e, h1, g, ?_, h3.runs⟩
    cases e with
    | one a => exact h2
    | stack l => exact h2
  · exact .inr ⟨.inl rfl, h⟩

theorem XRep.or {op : Nat → XOp K} {fn : Bool → SNum K → Except Err (SNum K)} (h : XRep true n J dt op fn) : XOpOr n J dt op fn := by
  intro b f a hf
  have hf' : RepS true n dt f a := by
    cases a with
    | one a => exact hf
    | stack l => exact hf
  rcases h b f a hf' with ⟨e, h1, g, h2, h3⟩ | ⟨-, h⟩
  · refine .inl ⟨e, g, h1, ?_, h3.always⟩
    cases e with
    | one a => exact h2
    | stack l => exact h2
  · exact .inr h

theorem XOpStandard.rep {op : Nat → XOp K} {fn : Bool → SNum K → Except Err (SNum K)} (h : XOpStandard n J dt op fn) : XRep false n J dt op fn := by
  intro b f a hf
  have hf' : StandardNum n dt f a := by
    cases a with
    | one a => exact hf
    | stack l => exact hf
  rcases h b f a hf' with ⟨e, g, h1, h2, h3⟩ | ⟨h0, h⟩
  · refine .inl ⟨e, h1, g, ?_, h3.runs⟩
    cases e with
    | one a => exact h2
    | stack l => exact h2
  · exact .inr ⟨.inr h0, h⟩

theorem XRep.standard {op : Nat → XOp K} {fn : Bool → SNum K → Except Err (SNum K)} (h : XRep false n J dt op fn) : XOpStandard n J dt op fn := by
  intro b f a hf
  have hf' : RepS false n dt f a := by
    cases a with
    | one a => exact hf
    | stack l => exact hf
  rcases h b f a hf' with ⟨e, h1, g, h2, h3⟩ | ⟨h0 | h0, h⟩
  · refine .inl ⟨e, g, h1, ?_, h3.always⟩
    cases e with
    | one a => exact h2
    | stack l => exact h2
  · cases h0
  · exact .inr ⟨h0, h⟩

theorem shape_holds {V : Nat → SVars (DArr K) σ} {G : SVars (NDArray K) σ} : SHolds n dt V G ↔ RepV true n dt V G := Iff.rfl

theorem standard_holds {V : Nat → SVars (DArr K) σ} {G : SVars (NDArray K) σ} : SHoldsStandard n dt V G ↔ RepV false n dt V G := Iff.rfl

theorem repB_true {V : Nat → Vars (DArr K) σ} {G : Vars (NDArray K) σ} : RepB true n dt V G ↔ Holds n dt V G := by
  refine and_congr_right fun _ => forall_congr' fun x => ?_
  cases hG : G.arr x with
  | none => exact Iff.rfl
  | some a =>
    refine ⟨fun ⟨f, ⟨h1, h2, L, h3, h4⟩, h5⟩ => ⟨h1, h2, L, h3, fun r hr => by rw [h5 r hr, h4 r hr]⟩, fun ⟨h1, h2, L, h3, h4⟩ => ⟨_, ⟨h1, h2, L, h3, fun _ _ => rfl⟩, h4⟩⟩

theorem repB_false {V : Nat → Vars (DArr K) σ} {G : Vars (NDArray K) σ} : RepB false n dt V G ↔ HoldsStandard n dt V G := by
  refine and_congr_right fun _ => forall_congr' fun x => ?_
  cases hG : G.arr x with
  | none => exact Iff.rfl
  | some a =>
    refine ⟨fun ⟨f, ⟨h1, h2, L, ⟨h3, h3'⟩, h4⟩, h5⟩ => ⟨h1, h2, h3, fun r hr => by rw [h5 r hr, h4 r hr, h3']⟩, fun ⟨h1, h2, h3, h4⟩ => ⟨_, ⟨h1, h2, _, ⟨h3, rfl⟩, fun _ _ => rfl⟩, h4⟩⟩

theorem repB_held (hn : 0 < n) {V : Nat → Vars (DArr K) σ} {G : Vars (NDArray K) σ} (h : RepB may n dt V G) : Holds n dt V G := by
  refine repB_true.1 ⟨h.1, fun x => ?_⟩
  have := h.2 x
  cases hG : G.arr x with
  | none => rw [hG] at this; exact this
  | some a =>
    rw [hG] at this
    obtain ⟨f, ⟨h1, h2, L, h3, h4⟩, h5⟩ := this
    exact ⟨f, ⟨h1, h2, L, h3.held hn, h4⟩, h5⟩

/-- programs with arrays only -/
theorem out_base (hS : Setting n K dt) (hops : OpsOr n J dt prim lv) (hstd : may = false → OpsStandard n J dt prim lv) (s : Script K σ ι) (hs : may = false → s.Plain)
    {V : Nat → Vars (DArr K) σ} {G : Vars (NDArray K) σ} (h : RepB may n dt V G) :
    Out n may (RepB may n dt) (fun r => s.run dt (prim · r) (env n J r) (V r)) (s.serial dt lv G) := by
  have h1 := script_outcome hS.pos hS.real hops s _ _ (repB_held hS.pos h)
  cases may with
  | true =>
    rcases h1 with ⟨G', e1, V', e2, e3⟩ | h
    · exact .inl ⟨G', e1, V', repB_true.2 e2, e3⟩
    · exact .inr ⟨.inl rfl, h⟩
  | false =>
    cases hse : s.serial dt lv G with
    | error e =>
      rw [hse] at h1
      rcases h1 with ⟨G', e1, -⟩ | h
      · cases e1
      · exact .inr ⟨.inr ⟨e, rfl⟩, h⟩
    | ok G' =>
      obtain ⟨V', e2, e3⟩ := script_good hS.pos hS.real (hstd rfl) s (hs rfl) _ _ (repB_false.1 h) G' hse
      exact .inl ⟨G', rfl, V', repB_false.2 e2, e3⟩

theorem outl_unary (hS : Setting n K dt) (u : StackUnary K) {f : Nat → List (DArr K)} {l : List (NDArray K)} (h : RepL may n dt f l) :
    Out n may (RepL may n dt) (fun r => u.run (env n J r) dt (f r)) (.ok (l.map (SNum.mapArr u.fn))) := by
  have key : Out n may (ListRel n (Rep may n dt)) (fun r => u.run (env n J r) dt (f r)) (.ok (l.map (SNum.mapArr u.fn))) := by
    cases u with
    | neg => exact outl_neg hS h.2
    | conj => exact outl_conj hS h.2
    | copy =>
      have e : l.map (SNum.mapArr (StackUnary.copy : StackUnary K).fn) = l := by
        rw [show SNum.mapArr (StackUnary.copy : StackUnary K).fn = id from funext fun a => mapArr_id a, List.map_id]
      rw [e]
      exact outl_copy hS h.2
    | smul s => exact outl_smul hS h.2
  exact repl_of key fun m e => by obtain rfl := Except.ok.inj e; exact map_ne_nil h.1

theorem outl_binary (hS : Setting n K dt) (u : BinaryOp) {f f' : Nat → List (DArr K)} {l l' : List (NDArray K)} (h : RepL may n dt f l) (h' : RepL may n dt f' l') :
    Out n may (RepL may n dt) (fun r => u.runs (env n J r) (f r) (f' r)) (SNum.zipAll u.fn l l') := by
  have key : Out n may (ListRel n (Rep may n dt)) (fun r => u.runs (env n J r) (f r) (f' r)) (SNum.zipAll u.fn l l') := by
    cases u with
    | add => exact outl_add hS h.2 h'.2
    | sub => exact outl_sub hS h.2 h'.2
    | mul => exact outl_mul hS h.2 h'.2
  exact repl_of key fun m e => zipAll_ne h.1 e

theorem sscript_out (hS : Setting n K dt) (hops : OpsOr n J dt prim lv) (hstd : may = false → OpsStandard n J dt prim lv) (hx : ∀ i, XRep may n J dt (op i) (fn i)) (p : SScript K σ ι κ)
    (hp : may = false → p.Plain) :
    ∀ V G, RepV may n dt V G → Out n may (RepV may n dt) (fun r => p.run dt (prim · r) (op · r) (env n J r) (V r)) (p.serial dt lv fn G) := by
  have hn := hS.pos
  induction p with
  | base s =>
    intro V G h
    exact (out_base hS hops hstd s hp (V := fun r => ⟨(V r).arr, (V r).loc⟩) (G := ⟨G.arr, G.loc⟩) ⟨h.1, h.2.1⟩).bind fun W H hW =>
      Out.ret (K := K) (R := RepV may n dt) (a := fun r => ⟨(W r).arr, (V r).stk, (W r).loc⟩) ⟨hW.1, hW.2, h.2.2⟩
  | stack z x xs =>
    intro V G h
    refine (out_getAll h hn (x :: xs)).bindOk fun f l hl hf => ?_
    have hne : l ≠ [] := by
      unfold SVars.getAll at hl
      obtain ⟨a, -, hl⟩ := ebind_ok.1 hl
      obtain ⟨b, -, hl⟩ := ebind_ok.1 hl
      obtain rfl := Except.ok.inj hl
      simp
    exact Out.step (outl_copy (J := J) hS hf) fun g hg => Out.ret (K := K) (R := RepV may n dt) (a := fun r => (V r).sets z (g r)) (holds_sets h z ⟨hne, hg⟩)
  | item z x i =>
    intro V G h
    refine (out_gets h hn x).bind fun f l hf => ?_
    have hi := hf.2.nth (i G.loc)
    unfold SVars.nth
    cases hl : l[i G.loc]? with
    | none =>
      rw [hl] at hi
      exact (Out.throw hn .index .index).congr fun r hr => by rw [h.1 r hr, hi r hr]; rfl
    | some a =>
      rw [hl] at hi
      obtain ⟨g, hg, hi⟩ := hi
      have h1 := out_unary (J := J) hS .copy hg
      rw [mapArr_id] at h1
      have h2 := h1.step (R' := RepV may n dt) (k := fun r d => .ret ((V r).set z d)) (res := .ok (G.set z a)) fun g' hg' =>
        Out.ret (K := K) (R := RepV may n dt) (a := fun r => (V r).set z (g' r)) (holds_set' h z hg')
      exact h2.congr fun r hr => by rw [h.1 r hr, hi r hr]; rfl
  | gather x g =>
    intro V G h
    exact (out_gets h hn x).bind fun f l hf => out_number h g (outl_asarray hS hf.1 hf.2)
  | unary u z x =>
    intro V G h
    exact (out_gets h hn x).bind fun f l hf => (out_sets h z (outl_unary (J := J) hS (u G.loc) hf)).congr fun r hr => by rw [h.1 r hr]
  | binary u z x y =>
    intro V G h
    exact (out_gets h hn x).bind fun f l hf => (out_gets h hn y).bind fun f' l' hf' => out_sets h z (outl_binary hS u hf hf')
  | iadd x y =>
    intro V G h
    exact (out_gets h hn x).bind fun f l hf => (out_gets h hn y).bind fun f' l' hf' => out_sets h x (repl_of (outl_iadd hS hf.2 hf'.2) fun m e => zipAll_ne hf.1 e)
  | isub x y =>
    intro V G h
    exact (out_gets h hn x).bind fun f l hf => (out_gets h hn y).bind fun f' l' hf' => out_sets h x (repl_of (outl_isub hS hf.2 hf'.2) fun m e => zipAll_ne hf.1 e)
  | dot x y g =>
    intro V G h
    refine (out_gets h hn x).bind fun f l hf => (out_gets h hn y).bind fun f' l' hf' => ?_
    have := out_number h g (outl_dot (J := J) hS hf.2 hf'.2)
    rw [ebind_assoc] at this
    exact this
  | norm x g =>
    intro V G h
    exact (out_gets h hn x).bind fun f l hf => out_number h g (outl_norm hS hf.1 hf.2)
  | apply i b z x =>
    intro V G h
    exact (out_getX h hn x).bind fun f a hf => (hx i b f a hf).bind fun g e he =>
      Out.ret (K := K) (R := RepV may n dt) (a := fun r => (V r).setX z (g r)) (holds_setX h z he)
  | cg i z y x niter tol g =>
    intro V G h
    refine (out_getX h hn y).bind fun f a hf => (out_getX h hn x).bind fun f' a' hf' => ?_
    have := (out_cg hS (hx i) hf hf' (niter G.loc) (tol G.loc)).bind (R' := RepV may n dt) (k := fun r q => .ret { (V r).setX z q.1 with loc := g q.2.1 q.2.2.1 (V r).loc })
      (kk := fun s => .ok { G.setNum z s.x with loc := g s.iiter s.cost G.loc }) fun w s hw =>
        Out.ret (K := K) (R := RepV may n dt) (a := fun r => { (V r).setX z (w r).1 with loc := g (w r).2.1 (w r).2.2.1 (V r).loc })
          (holds_loc (holds_setX h z hw.1) fun r hr => by rw [(hw.2 r hr).1, (hw.2 r hr).2, h.1 r hr])
    exact this.congr fun r hr => by rw [h.1 r hr]
  | cgls i z y x niter damp tol g =>
    intro V G h
    refine (out_getX h hn y).bind fun f a hf => (out_getX h hn x).bind fun f' a' hf' => ?_
    have := (out_cgls hS (hx i) hf hf' (niter G.loc) (damp G.loc) (tol G.loc)).bind (R' := RepV may n dt)
      (k := fun r q => .ret { (V r).setX z q.x with loc := g ⟨q.istop, q.iiter, q.r1norm, q.r2norm, q.cost⟩ (V r).loc })
      (kk := fun s => .ok { G.setNum z s.x with loc := g (s.numbers (tol G.loc)) G.loc }) fun w s hw =>
        Out.ret (K := K) (R := RepV may n dt) (a := fun r => { (V r).setX z (w r).x with loc := g ⟨(w r).istop, (w r).iiter, (w r).r1norm, (w r).r2norm, (w r).cost⟩ (V r).loc })
          (holds_loc (holds_setX h z hw.1) fun r hr => by rw [hw.2 r hr, h.1 r hr])
    exact this.congr fun r hr => by rw [h.1 r hr]
  | seq s t ihs iht =>
    intro V G h
    exact (ihs (fun e => (hp e).1) V G h).bind fun W H hW => iht (fun e => (hp e).2) W H hW
  | ite c s t ihs iht =>
    intro V G h
    unfold SScript.run SScript.serial
    cases hc : c G.loc with
    | true => exact (ihs (fun e => (hp e).1) V G h).congr fun r hr => by rw [h.1 r hr, hc]; rfl
    | false => exact (iht (fun e => (hp e).2) V G h).congr fun r hr => by rw [h.1 r hr, hc]; rfl
  | loop k stop s ih =>
    intro V G h
    have key : ∀ k V G, RepV may n dt V G → Out n may (RepV may n dt) (fun r => runLoop (fun v : SVars (DArr K) σ => stop v.loc) (s.run dt (prim · r) (op · r) (env n J r)) k (V r))
        (serialLoop (fun v : SVars (NDArray K) σ => stop v.loc) (s.serial dt lv fn) k G) := by
      intro k
      induction k with
      | zero => exact fun V G h => Out.ret (K := K) (R := RepV may n dt) (a := V) h
      | succ k ihk =>
        intro V G h
        unfold runLoop serialLoop
        cases hc : stop G.loc with
        | true => exact (Out.ret (K := K) (R := RepV may n dt) (a := V) h).congr fun r hr => by rw [h.1 r hr, hc]; rfl
        | false => exact ((ih hp V G h).bind fun W H hW => ihk W H hW).congr fun r hr => by rw [h.1 r hr, hc]; rfl
    unfold SScript.run SScript.serial
    exact (key (k G.loc) V G h).congr fun r hr => by rw [h.1 r hr]

end SScript
end Verif

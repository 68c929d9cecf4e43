/-
  C93: programs with stacked arrays and stacked operators compute what they compute with NumPy arrays.
-/
import Verif.Proofs.StackScript
import Verif.Props.C92

namespace Verif
namespace SScript
open NDArray Script
set_option linter.unusedSectionVars false

variable {K σ ι κ : Type} [RCLike K] {n : Nat} {J : Nat → Nat → K} {dt : DType} {may : Bool} {prim : ι → Nat → Prim K} {lv : Leaves K ι} {op : κ → Nat → XOp K}
  {fn : κ → Bool → SNum K → Except Err (SNum K)}

/-! ### programs -/

/-- **C93** (programs).  Let the operators give the right result or raise.  A program with arrays and stacks that are held in any way:
    * If the program raises with NumPy arrays, some rank raises, in all executions.
    * If it returns, then either all ranks return and hold the parts of its arrays and stacks and whatever else it keeps, in all executions, or some rank raises, in all executions. -/
theorem C93_script (hn : 0 < n) (hdt : dt = .real → ∀ k : K, star k = k) (hops : OpsOr n J dt prim lv) (hx : ∀ i, XOpOr n J dt (op i) (fn i)) (p : SScript K σ ι κ)
    {V : Nat → SVars (DArr K) σ} {G : SVars (NDArray K) σ} (h : SHolds n dt V G) :
    let ps r := p.run dt (prim · r) (op · r) (env n J r) (V r)
    (∀ e, p.serial dt lv fn G = .error e → Raises n ps) ∧
    ∀ G', p.serial dt lv fn G = .ok G' → (∃ V', SHolds n dt V' G' ∧ Always n ps fun r => .ok (V' r)) ∨ Raises n ps := by
  intro ps
  rcases sscript_out (may := true) ⟨hn, hdt⟩ hops (fun h => by cases h) (fun i => (hx i).rep) p (fun h => by cases h) V G h with ⟨G1, h1, V1, h2, h3⟩ | ⟨-, hr⟩
  · refine ⟨fun e he => (by rw [h1] at he; cases he), fun G' hG => .inl ⟨V1, ?_, h3.always⟩⟩
    rw [h1] at hG
    obtain rfl := Except.ok.inj hG
    exact h2
  · exact ⟨fun _ _ => hr, fun _ _ => .inr hr⟩

/-- **C93** (results).  A program that starts without arrays: if all ranks return in some execution, then the program returns with NumPy arrays, and all ranks have its numbers, its gathered arrays and
    whatever else it keeps, in all executions. -/
theorem C93_results (hn : 0 < n) (hdt : dt = .real → ∀ k : K, star k = k) (hops : OpsOr n J dt prim lv) (hx : ∀ i, XOpOr n J dt (op i) (fn i)) (p : SScript K σ ι κ) (s : σ)
    {V : Nat → SVars (DArr K) σ} (hc : Completes n (fun r => p.run dt (prim · r) (op · r) (env n J r) ⟨fun _ => none, fun _ => none, s⟩) V) :
    ∃ G', p.serial dt lv fn ⟨fun _ => none, fun _ => none, s⟩ = .ok G' ∧ SHolds n dt V G' ∧
      Always n (fun r => p.run dt (prim · r) (op · r) (env n J r) ⟨fun _ => none, fun _ => none, s⟩) fun r => .ok (V r) := by
  obtain ⟨st, hst, hret⟩ := hc
  rcases sscript_out (may := true) ⟨hn, hdt⟩ hops (fun h => by cases h) (fun i => (hx i).rep) p (fun h => by cases h) (fun _ => ⟨fun _ => none, fun _ => none, s⟩) ⟨fun _ => none, fun _ => none, s⟩ ⟨fun _ _ => rfl, fun _ _ _ => rfl, fun _ _ _ => rfl⟩ with
    ⟨G1, h1, V1, h2, h3⟩ | ⟨-, m, hm, e, he⟩
  · have e1 := h3.completes ⟨st, hst, hret⟩
    exact ⟨G1, h1, RepV.congr h2 e1, (h3.congr (fun _ _ => rfl) fun r hr => by rw [e1 r hr]).always⟩
  · cases (he st hst).2 (.ok (V m)) (hret m hm)

/-- **C93** (programs that do not raise).  Let the operators also return for arrays and stacks in the default layout that they accept with NumPy arrays, and give their results in that layout.  A
    program that neither makes BROADCAST arrays nor calls `ravel`, on arrays and stacks in the default layout: if it returns with NumPy arrays, all ranks return, in all executions, and hold the parts of
    its arrays and stacks in the default layout; if it raises, some rank raises, in all executions. -/
theorem C93_plain (hn : 0 < n) (hdt : dt = .real → ∀ k : K, star k = k) (ho : OpsOr n J dt prim lv) (hops : OpsStandard n J dt prim lv) (hx : ∀ i, XOpStandard n J dt (op i) (fn i))
    (p : SScript K σ ι κ) (hp : p.Plain) {V : Nat → SVars (DArr K) σ} {G : SVars (NDArray K) σ} (h : SHoldsStandard n dt V G) :
    let ps r := p.run dt (prim · r) (op · r) (env n J r) (V r)
    (∀ e, p.serial dt lv fn G = .error e → Raises n ps) ∧
    ∀ G', p.serial dt lv fn G = .ok G' → ∃ V', SHoldsStandard n dt V' G' ∧ Always n ps fun r => .ok (V' r) := by
  intro ps
  rcases sscript_out (may := false) ⟨hn, hdt⟩ ho (fun _ => hops) (fun i => (hx i).rep) p (fun _ => hp) V G h with ⟨G1, h1, V1, h2, h3⟩ | ⟨h0 | ⟨e, h0⟩, hr⟩
  · refine ⟨fun e he => (by rw [h1] at he; cases he), fun G' hG => ⟨V1, ?_, h3.always⟩⟩
    rw [h1] at hG
    obtain rfl := Except.ok.inj hG
    exact h2
  · cases h0
  · exact ⟨fun _ _ => hr, fun G' hG => by rw [h0] at hG; cases hG⟩

theorem C93_plain_iff (hn : 0 < n) (hdt : dt = .real → ∀ k : K, star k = k) (ho : OpsOr n J dt prim lv) (hops : OpsStandard n J dt prim lv) (hx : ∀ i, XOpStandard n J dt (op i) (fn i))
    (p : SScript K σ ι κ) (hp : p.Plain) {V : Nat → SVars (DArr K) σ} {G : SVars (NDArray K) σ} (h : SHoldsStandard n dt V G) :
    Raises n (fun r => p.run dt (prim · r) (op · r) (env n J r) (V r)) ↔ ∃ e, p.serial dt lv fn G = .error e := by
  have h1 := C93_plain hn hdt ho hops hx p hp h
  constructor
  · intro hr
    cases hs : p.serial dt lv fn G with
    | error e => exact ⟨e, rfl⟩
    | ok G' =>
      obtain ⟨V', -, h2⟩ := h1.2 G' hs
      exact (C83_exclusive h2 hr).elim
  · rintro ⟨e, he⟩
    exact h1.1 e he

/-- **C93** (number of ranks).  Two jobs run the same program with different numbers of ranks and with operators that are distributed differently but are the same operators.  If both return, then the
    numbers, the gathered arrays and whatever else the program keeps are the same on all ranks of both jobs, and all arrays and stacks have the same entries. -/
theorem C93_ranks (hdt : dt = .real → ∀ k : K, star k = k) {n m : Nat} (hn : 0 < n) (hm : 0 < m) {J J' : Nat → Nat → K} {prim prim' : ι → Nat → Prim K} {op op' : κ → Nat → XOp K}
    (hops : OpsOr n J dt prim lv) (hops' : OpsOr m J' dt prim' lv) (hx : ∀ i, XOpOr n J dt (op i) (fn i)) (hx' : ∀ i, XOpOr m J' dt (op' i) (fn i)) (p : SScript K σ ι κ) (s : σ)
    {V V' : Nat → SVars (DArr K) σ} (hc : Completes n (fun r => p.run dt (prim · r) (op · r) (env n J r) ⟨fun _ => none, fun _ => none, s⟩) V)
    (hc' : Completes m (fun r => p.run dt (prim' · r) (op' · r) (env m J' r) ⟨fun _ => none, fun _ => none, s⟩) V') :
    (∀ q < n, ∀ r < m, (V q).loc = (V' r).loc) ∧ ∃ G, SHolds n dt V G ∧ SHolds m dt V' G := by
  obtain ⟨G, h1, h2, -⟩ := C93_results hn hdt hops hx p s hc
  obtain ⟨G', h1', h2', -⟩ := C93_results hm hdt hops' hx' p s hc'
  obtain rfl := Except.ok.inj (h1.symm.trans h1')
  exact ⟨fun q hq r hr => (h2.1 q hq).trans (h2'.1 r hr).symm, G, h2, h2'⟩

/-! ### operators -/

/-- an expression of operators on vectors -/
def LinRep (may : Bool) (n : Nat) (J : Nat → Nat → K) (dt : DType) (prim : ι → Nat → Prim K) (lv : Leaves K ι) (e : MOp K ι) : Prop :=
  ∀ b f a, Rep may n dt f a → Out n may (Rep may n dt) (fun r => MOp.run (env n J r) b (e.map (prim · r)) (f r)) (linear dt lv b e a)

theorem lin_or (hS : Setting n K dt) (hops : OpsOr n J dt prim lv) {e : MOp K ι} (he : Expression dt e) (hs : Shaped lv.sh e) : LinRep true n J dt prim lv e := fun b f a h =>
  (OpOr.rep hS (C91_expr hS.pos hS.real hops e he hs) b f a h).congr fun r hr => C91_wrap (fun i => (hops i).1) e (env n J r) b (f r) hr

theorem lin_standard (hS : Setting n K dt) (hops : OpsStandard n J dt prim lv) {e : MOp K ι} (he : PowerExpression dt e) (hs : Shaped lv.sh e) : LinRep false n J dt prim lv e := fun b f a h =>
  ((C91_expr_standard hS.pos hS.real hops (fun _ : Unit => e) (fun _ => he) fun _ => hs).rep hS () b f a h).congr fun r hr =>
    C91_wrap (fun i => (hops i).1) e (env n J r) b (f r) hr

/-- the constituents of an expression -/
def Parts (Q : MOp K ι → Prop) : SOp K ι → Prop
  | .vstack ops | .grad ops | .bdiag ops => ops ≠ [] ∧ ∀ e ∈ ops, Q e
  | .adj A | .trans A | .conj A => Parts Q A
  | .prod A B | .sum A B => Parts Q A ∧ Parts Q B
  | .scaled A _ => Parts Q A
  | .pow _ _ => False

theorem parts_or (hS : Setting n K dt) (hops : OpsOr n J dt prim lv) {e : SOp K ι} (he : StackedExpression dt lv.sh e) : Parts (LinRep true n J dt prim lv) e := by
  induction e with
  | vstack ops => exact ⟨he.1, fun e h => lin_or hS hops (he.2 e h).1 (he.2 e h).2⟩
  | grad ops => exact ⟨he.1, fun e h => lin_or hS hops (he.2 e h).1 (he.2 e h).2⟩
  | bdiag ops => exact ⟨he.1, fun e h => lin_or hS hops (he.2 e h).1 (he.2 e h).2⟩
  | adj A ih => exact ih he
  | trans A ih => exact ih he
  | conj A ih => exact ih he
  | prod A B ihA ihB => exact ⟨ihA he.1, ihB he.2⟩
  | sum A B ihA ihB => exact ⟨ihA he.1, ihB he.2⟩
  | scaled A s ih => exact ih he.1
  | pow A p => exact he.elim

theorem parts_standard (hS : Setting n K dt) (hops : OpsStandard n J dt prim lv) {e : SOp K ι} (he : StackedPower dt lv.sh e) : Parts (LinRep false n J dt prim lv) e := by
  induction e with
  | vstack ops => exact ⟨he.1, fun e h => lin_standard hS hops (he.2 e h).1 (he.2 e h).2⟩
  | grad ops => exact ⟨he.1, fun e h => lin_standard hS hops (he.2 e h).1 (he.2 e h).2⟩
  | bdiag ops => exact ⟨he.1, fun e h => lin_standard hS hops (he.2 e h).1 (he.2 e h).2⟩
  | adj A ih => exact ih he
  | trans A ih => exact ih he
  | conj A ih => exact ih he
  | prod A B ihA ihB => exact ⟨ihA he.1, ihB he.2⟩
  | sum A B ihA ihB => exact ⟨ihA he.1, ihB he.2⟩
  | scaled A s ih => exact ih he.1
  | pow A p => exact he.elim

theorem sop_shape (hp : ∀ i, ∀ r < n, (prim i r).shape = lv.sh i) (e : SOp K ι) {r : Nat} (hr : r < n) : (e.map (prim · r)).shape Prim.shape = e.shape lv.sh := by
  have key : ∀ o : MOp K ι, (o.map (prim · r)).shape Prim.shape = o.shape lv.sh := fun o => expr_shape hp o hr
  induction e with
  | vstack ops => simp only [SOp.map, SOp.shape, SOp.vshape, List.map_map, Function.comp_def, key]
  | grad ops => simp only [SOp.map, SOp.shape, SOp.vshape, List.map_map, Function.comp_def, key]
  | bdiag ops => simp only [SOp.map, SOp.shape, List.map_map, Function.comp_def, key]
  | adj A ih => simp only [SOp.map, SOp.shape, ih]
  | trans A ih => simp only [SOp.map, SOp.shape, ih]
  | conj A ih => simp only [SOp.map, SOp.shape, ih]
  | prod A B ihA ihB => simp only [SOp.map, SOp.shape, ihA, ihB]
  | sum A B ihA ihB => simp only [SOp.map, SOp.shape, ihA]
  | scaled A s ih => simp only [SOp.map, SOp.shape, ih]
  | pow A p ih => simp only [SOp.map, SOp.shape, ih]

open Classical in
theorem checkDim_fits (hn : 0 < n) (sh : Nat × Nat) (b : Bool) {f : Nat → XArr K} {a : SNum K} (h : RepS may n dt f a) {r : Nat} (hr : r < n) (k : P K (XArr K)) :
    SOp.checkDim sh b (f r) k = if Fits sh b a then k else .throw .value := by
  have hd : (if b then sh.1 else sh.2) = dimOf sh b := rfl
  cases a with
  | one a =>
    obtain ⟨g, hg, h⟩ := h
    rw [h r hr]
    unfold SOp.checkDim Fits
    dsimp only
    rw [rep_gshape hn hg r hr, hd]
    by_cases e : a.shape = [dimOf sh b]
    · rw [if_neg (not_not.2 e), if_pos e]
    · rw [if_pos e, if_neg e]
  | stack l =>
    obtain ⟨-, g, hg, h⟩ := h
    rw [h r hr]
    have e0 := hg.map (fun g b hb => rep_gshape hn hb) r hr
    have e1 : (g r).map (fun d => d.gshape.length) = l.map fun a => a.shape.length := by
      have := congrArg (List.map List.length) e0
      simpa only [List.map_map, Function.comp_def] using this
    have e2 : (g r).map (fun d => d.gshape.sum) = l.map fun a => a.shape.sum := by
      have := congrArg (List.map List.sum) e0
      simpa only [List.map_map, Function.comp_def] using this
    have e3 : ((g r).any fun d => d.gshape.length ≠ (((g r).map fun e => e.gshape.length).headD 0)) = (l.any fun a => a.shape.length ≠ ((l.map fun a => a.shape.length).headD 0)) := by
      rw [e1]
      have h1 := List.any_map (f := fun d : DArr K => d.gshape.length) (l := g r) (p := fun x => decide (x ≠ (l.map fun a => a.shape.length).headD 0))
      have h2 := List.any_map (f := fun a : NDArray K => a.shape.length) (l := l) (p := fun x => decide (x ≠ (l.map fun a => a.shape.length).headD 0))
      rw [e1] at h1
      exact h1.symm.trans h2
    unfold SOp.checkDim Fits
    dsimp only
    rw [e2, e3, hd]
    by_cases h1 : ∀ a ∈ l, a.shape.length = (l.map fun a => a.shape.length).headD 0
    · rw [if_neg (by simpa using h1)]
      by_cases h2 : (l.map fun a => a.shape.sum).sum = dimOf sh b
      · rw [if_neg (not_not.2 h2), if_pos ⟨h1, h2⟩]
      · rw [if_pos h2, if_neg fun h => h2 h.2]
    · rw [if_pos (by simpa using h1), if_neg fun h => h1 h.1]

open Classical in
/-- the check of the sizes -/
theorem out_checkDim (hn : 0 < n) {sh : Nat × Nat} {sh' : Nat → Nat × Nat} (hsh : ∀ r < n, sh' r = sh) {b : Bool} {f : Nat → XArr K} {a : SNum K} (ha : RepS may n dt f a) {k : Nat → P K (XArr K)}
    {R : (Nat → XArr K) → SNum K → Prop} {res : Except Err (SNum K)} (h : Out n may R k res) :
    Out n may R (fun r => SOp.checkDim (sh' r) b (f r) (k r)) (if Fits sh b a then res else .error .value) := by
  by_cases hc : Fits sh b a
  · rw [if_pos hc]
    exact h.congr fun r hr => by rw [hsh r hr, checkDim_fits hn sh b ha hr, if_pos hc]
  · rw [if_neg hc]
    exact (Out.throw hn .value .value).congr fun r hr => by rw [hsh r hr, checkDim_fits hn sh b ha hr, if_neg hc]

theorem out_column {ops : List (MOp K ι)} (ho : ∀ e ∈ ops, LinRep may n J dt prim lv e) {f : Nat → DArr K} {a : NDArray K}
    (h : Rep may n dt f a) :
    Out n may (ListRel n (Rep may n dt)) (fun r => forList (fun o => MOp.run (env n J r) false o (f r)) (ops.map (MOp.map (prim · r)))) (column dt lv a ops) := by
  induction ops with
  | nil => exact out_nil
  | cons e ops ih =>
    exact out_cons (ho e (by simp) false _ _ h) (ih fun e he => ho e (by simp [he]))

theorem out_blocks (b : Bool) : ∀ {ops : List (MOp K ι)} (_ : ∀ e ∈ ops, LinRep may n J dt prim lv e)
    {f : Nat → List (DArr K)} {l : List (NDArray K)} (_ : ListRel n (Rep may n dt) f l),
    Out n may (ListRel n (Rep may n dt)) (fun r => forList (fun t : DArr K × MOp K (Prim K) => MOp.run (env n J r) b t.2 t.1) ((f r).zip (ops.map (MOp.map (prim · r)))))
      (blocks dt lv b (l.zip ops))
  | [], _, f, l, h => by
    simp only [List.map_nil, List.zip_nil_right]
    exact out_nil
  | e :: ops, ho, f, [], h => out_nil.congr fun r hr => by rw [h r hr]; rfl
  | e :: ops, ho, f, a :: l, ⟨g, t, h1, h2, h3⟩ =>
    (out_cons (ho e (by simp) b _ _ h1) (out_blocks b (fun e he => ho e (by simp [he])) h2)).congr fun r hr => by rw [h3 r hr]; rfl

theorem out_gatherSum (hS : Setting n K dt) : ∀ {ops : List (MOp K ι)} (_ : ∀ e ∈ ops, LinRep may n J dt prim lv e)
    {f : Nat → List (DArr K)} {l : List (NDArray K)} (_ : ListRel n (Rep may n dt) f l) {y : Nat → DArr K} {a : NDArray K} (_ : Rep may n dt y a),
    Out n may (Rep may n dt) (fun r => SOp.vsLoop (env n J r) (y r) ((f r).zip (ops.map (MOp.map (prim · r))))) (gatherSum dt lv a (l.zip ops))
  | [], _, f, l, h, y, a, hy => by
    simp only [List.map_nil, List.zip_nil_right]
    exact Out.ret (a := y) hy
  | e :: ops, ho, f, [], h, y, a, hy => (Out.ret (K := K) (R := Rep may n dt) (a := y) hy).congr fun r hr => by rw [h r hr]; rfl
  | e :: ops, ho, f, b :: l, ⟨g, t, h1, h2, h3⟩, y, a, hy => by
    refine Out.congr (ps := fun r => (MOp.run (env n J r) true (e.map (prim · r)) (g r)).bind fun z => ((y r).add (env n J r) z).bind fun y =>
      SOp.vsLoop (env n J r) y ((t r).zip (ops.map (MOp.map (prim · r))))) ?_ fun r hr => by rw [h3 r hr]; rfl
    exact (ho e (by simp) true _ _ h1).bind fun z c hz => (out_add hS hy hz).bind fun y' a' hy' =>
      out_gatherSum hS (fun e he => ho e (by simp [he])) h2 hy'

theorem column_length {a : NDArray K} : ∀ {ops : List (MOp K ι)} {l : List (NDArray K)}, column dt lv a ops = .ok l → l.length = ops.length
  | [], l, h => by obtain rfl := Except.ok.inj h; rfl
  | e :: ops, l, h => by
    unfold column at h
    obtain ⟨y, -, h⟩ := ebind_ok.1 h
    obtain ⟨m, h1, h⟩ := ebind_ok.1 h
    obtain rfl := Except.ok.inj h
    rw [List.length_cons, column_length h1, List.length_cons]

theorem blocks_length {b : Bool} : ∀ {ts : List (NDArray K × MOp K ι)} {l : List (NDArray K)}, blocks dt lv b ts = .ok l → l.length = ts.length
  | [], l, h => by obtain rfl := Except.ok.inj h; rfl
  | e :: ops, l, h => by
    unfold blocks at h
    obtain ⟨y, -, h⟩ := ebind_ok.1 h
    obtain ⟨m, h1, h⟩ := ebind_ok.1 h
    obtain rfl := Except.ok.inj h
    rw [List.length_cons, blocks_length h1, List.length_cons]

theorem out_vstack (hS : Setting n K dt) {ops : List (MOp K ι)} (hne : ops ≠ []) (ho : ∀ e ∈ ops, LinRep may n J dt prim lv e) (b : Bool)
    {f : Nat → XArr K} {a : SNum K} (h : RepS may n dt f a) :
    Out n may (RepS may n dt) (fun r => if b then SOp.vsRmv (env n J r) (ops.map (MOp.map (prim · r))) (f r) else SOp.vsMv (env n J r) (ops.map (MOp.map (prim · r))) (f r))
      (vstackNum dt lv ops b a) := by
  have hn := hS.pos
  cases b with
  | false =>
    cases a with
    | one a =>
      obtain ⟨g, hg, h⟩ := h
      refine (outs_stack (out_column ho hg) fun l hl e => ?_).congr fun r hr => by rw [h r hr]; rfl
      have := column_length hl
      rw [e] at this
      exact hne (List.length_eq_zero_iff.1 this.symm)
    | stack l =>
      obtain ⟨-, g, hg, h⟩ := h
      exact (Out.throw hn .attribute .attribute).congr fun r hr => by rw [h r hr]; rfl
  | true =>
    cases a with
    | one a =>
      obtain ⟨g, hg, h⟩ := h
      exact (Out.throw hn .attribute .attribute).congr fun r hr => by rw [h r hr]; rfl
    | stack l =>
      obtain ⟨hl, g, hg, h⟩ := h
      cases l with
      | nil => exact absurd rfl hl
      | cons x xs =>
        obtain ⟨u, t, h1, h2, h3⟩ := hg
        cases ops with
        | nil => exact absurd rfl hne
        | cons e es =>
          have h4 := (ho e (by simp) true _ _ h1).bind (R' := RepS may n dt)
            (k := fun r y => (SOp.vsLoop (env n J r) y ((t r).zip (es.map (MOp.map (prim · r))))).bind fun y => .ret (.one y))
            (kk := fun y => (gatherSum dt lv y (xs.zip es)).bind fun y => .ok (.one y)) fun y c hy => (out_gatherSum hS (ops := es) (fun e he => ho e (by simp [he])) h2 hy).bind
            (R' := RepS may n dt) (k := fun _ y => .ret (.one y)) (kk := fun y => .ok (.one y)) fun y c hy => Out.ret (K := K) (R := RepS may n dt) (a := fun r => .one (y r)) (.mkOne hy)
          exact h4.congr fun r hr => by rw [h r hr, h3 r hr]; rfl

theorem out_bdiag (hS : Setting n K dt) {ops : List (MOp K ι)} (hne : ops ≠ []) (ho : ∀ e ∈ ops, LinRep may n J dt prim lv e) (b : Bool)
    {f : Nat → XArr K} {a : SNum K} (h : RepS may n dt f a) :
    Out n may (RepS may n dt) (fun r => SOp.bdMv (env n J r) b (ops.map (MOp.map (prim · r))) (f r)) (bdiagNum dt lv ops b a) := by
  cases a with
  | one a =>
    obtain ⟨g, hg, h⟩ := h
    exact (Out.throw hS.pos .attribute .attribute).congr fun r hr => by rw [h r hr]; rfl
  | stack l =>
    obtain ⟨hl, g, hg, h⟩ := h
    refine (outs_stack (out_blocks b ho hg) fun m hm e => ?_).congr fun r hr => by rw [h r hr]; rfl
    have := blocks_length hm
    rw [e] at this
    cases l with
    | nil => exact hl rfl
    | cons _ _ => cases ops with
      | nil => exact hne rfl
      | cons _ _ => simp at this

theorem out_stacked (hS : Setting n K dt) (hp : ∀ i, ∀ r < n, (prim i r).shape = lv.sh i) (e : SOp K ι) (he : Parts (LinRep may n J dt prim lv) e) :
    ∀ (b : Bool) {f : Nat → XArr K} {a : SNum K}, RepS may n dt f a →
    Out n may (RepS may n dt) (fun r => SOp.run (env n J r) b (e.map (prim · r)) (f r)) (stackedNum dt lv e b a) := by
  have key := fun (e : SOp K ι) (r : Nat) (hr : r < n) => sop_shape hp e hr
  induction e with
  | vstack ops =>
    intro b f a h
    have := key (.vstack ops)
    simp only [SOp.map, SOp.run, stackedNum] at this ⊢
    exact out_checkDim hS.pos this h (out_vstack hS he.1 he.2 b h)
  | grad ops =>
    intro b f a h
    have := key (.grad ops)
    simp only [SOp.map, SOp.run, stackedNum] at this ⊢
    exact out_checkDim hS.pos this h (out_vstack hS he.1 he.2 b h)
  | bdiag ops =>
    intro b f a h
    have := key (.bdiag ops)
    simp only [SOp.map, SOp.run, stackedNum] at this ⊢
    exact out_checkDim hS.pos this h (out_bdiag hS he.1 he.2 b h)
  | adj A ih =>
    intro b f a h
    have := key (.adj A)
    simp only [SOp.map, SOp.run, stackedNum] at this ⊢
    exact out_checkDim hS.pos this h (ih he (!b) h)
  | trans A ih =>
    intro b f a h
    have := key (.trans A)
    simp only [SOp.map, SOp.run, stackedNum, Prog.bind_eq] at this ⊢
    exact out_checkDim hS.pos this h (Out.step (outs_conj hS h) fun x hx => (ih he (!b) hx).bind fun y c hy => outs_conj hS hy)
  | conj A ih =>
    intro b f a h
    have := key (.conj A)
    simp only [SOp.map, SOp.run, stackedNum, Prog.bind_eq] at this ⊢
    exact out_checkDim hS.pos this h (Out.step (outs_conj hS h) fun x hx => (ih he b hx).bind fun y c hy => outs_conj hS hy)
  | prod A B ihA ihB =>
    intro b f a h
    have := key (.prod A B)
    cases b with
    | false =>
      simp only [SOp.map, SOp.run, stackedNum, Prog.bind_eq] at this ⊢
      exact out_checkDim hS.pos this h ((ihB he.2 false h).bind fun y c hy => ihA he.1 false hy)
    | true =>
      simp only [SOp.map, SOp.run, stackedNum, Prog.bind_eq] at this ⊢
      exact out_checkDim hS.pos this h ((ihA he.1 true h).bind fun y c hy => ihB he.2 true hy)
  | scaled A s ih =>
    intro b f a h
    have := key (.scaled A s)
    simp only [SOp.map, SOp.run, stackedNum, Prog.bind_eq] at this ⊢
    exact out_checkDim hS.pos this h ((ih he b h).bind fun y c hy => outs_smul hS hy _ _)
  | sum A B ihA ihB =>
    intro b f a h
    have := key (.sum A B)
    simp only [SOp.map, SOp.run, stackedNum, Prog.bind_eq] at this ⊢
    exact out_checkDim hS.pos this h ((ihA he.1 b h).bind fun y c hy => (ihB he.2 b h).bind fun z d hz => outs_add hS hy hz)
  | pow A p => exact he.elim

/-- **C93** (stacked operators).  `MPIStackedVStack`, `MPIStackedBlockDiag`, `MPIGradient` and expressions of them give the right result or raise, if their constituents do. -/
theorem C93_stacked (hn : 0 < n) (hdt : dt = .real → ∀ k : K, star k = k) (hops : OpsOr n J dt prim lv) (e : SOp K ι) (he : StackedExpression dt lv.sh e) :
    XOpOr n J dt (fun r => (e.map (prim · r)).toX) (stackedNum dt lv e) :=
  XRep.or fun b f a h => by cases b <;> exact out_stacked ⟨hn, hdt⟩ (fun i => (hops i).1) e (parts_or ⟨hn, hdt⟩ hops he) _ h

/-- **C93** (stacked operators, default layout).  In the default layout they raise only where they raise with NumPy arrays. -/
theorem C93_stacked_standard (hn : 0 < n) (hdt : dt = .real → ∀ k : K, star k = k) (hops : OpsStandard n J dt prim lv) (e : SOp K ι) (he : StackedPower dt lv.sh e) :
    XOpStandard n J dt (fun r => (e.map (prim · r)).toX) (stackedNum dt lv e) :=
  XRep.standard fun b f a h => by cases b <;> exact out_stacked ⟨hn, hdt⟩ (fun i => (hops i).1) e (parts_standard ⟨hn, hdt⟩ hops he) _ h

/-- operators on vectors, that refuse stacks -/
def plainNum (dt : DType) (lv : Leaves K ι) (e : MOp K ι) (b : Bool) : SNum K → Except Err (SNum K)
  | .one a => (linear dt lv b e a).bind fun y => .ok (.one y)
  | .stack _ => .error .attribute

theorem out_plain (hn : 0 < n) {e : MOp K ι} (he : LinRep may n J dt prim lv e) : XRep may n J dt (fun r => (e.map (prim · r)).toX) (plainNum dt lv e) := fun b f a h => by
  cases a with
  | one a =>
    obtain ⟨g, hg, h⟩ := h
    exact (outs_one (he b _ _ hg)).congr fun r hr => by rw [h r hr]; cases b <;> rfl
  | stack l =>
    obtain ⟨-, g, hg, h⟩ := h
    exact (Out.throw hn .attribute .attribute).congr fun r hr => by rw [h r hr]; cases b <;> rfl

/-- **C93** (operators on vectors).  Expressions of operators on vectors do so, too. -/
theorem C93_linear (hn : 0 < n) (hdt : dt = .real → ∀ k : K, star k = k) (hops : OpsOr n J dt prim lv) (e : MOp K ι) (he : Expression dt e) (hs : Shaped lv.sh e) :
    XOpOr n J dt (fun r => (e.map (prim · r)).toX) (plainNum dt lv e) := XRep.or (out_plain hn (lin_or ⟨hn, hdt⟩ hops he hs))

/-- **C93** (operators on vectors, default layout). -/
theorem C93_linear_standard (hn : 0 < n) (hdt : dt = .real → ∀ k : K, star k = k) (hops : OpsStandard n J dt prim lv) (e : MOp K ι) (he : PowerExpression dt e) (hs : Shaped lv.sh e) :
    XOpStandard n J dt (fun r => (e.map (prim · r)).toX) (plainNum dt lv e) := XRep.standard (out_plain hn (lin_standard ⟨hn, hdt⟩ hops he hs))

/-! ### MPIGradient -/

section
variable {fd : Serial K FDKind} {N : Nat} {rest : List Nat} {k : FDKind} {edge : Bool}

/-- the first differences along the axes, and their adjoints -/
noncomputable def axisLeaves (k : FDKind) (edge : Bool) (dims : List Nat) (s : List K) : Leaves K (Fin s.length) where
  sh _ := (dims.prod, dims.prod)
  fn i b := if b then Script.adjointOf dims.prod (alongAxis (fdAt k edge) s[i] i dims) else alongAxis (fdAt k edge) s[i] i dims

/-- one difference for each sampling step -/
def gradOf (m : Nat) : SOp K (Fin m) := .grad ((List.finRange m).map .leaf)

/-- `MPIGradient(dims, sampling, kind, edge, dtype=dtype)` and its `matvec` or `rmatvec` -/
def gradX (fd : Serial K FDKind) (dims : List Nat) (s : List K) (edge : Bool) (k : FDKind) (dt : DType) : XOp K := ⟨gradRun fd dims s edge k dt false, gradRun fd dims s edge k dt true⟩

theorem gterms_eq (l : List K) : gterms 0 l = (List.finRange l.length).map fun i => ⟨i, l[i]⟩ := by
  have key : ∀ (l : List K) (ax i : Nat) (h : i < (gterms ax l).length) (h' : i < l.length), (gterms ax l)[i] = ⟨ax + i, l[i]⟩ := by
    intro l
    induction l with
    | nil => intro ax i h h'; simp at h'
    | cons s l ih =>
      intro ax i h h'
      cases i with
      | zero => rfl
      | succ i =>
        simp only [gterms, List.getElem_cons_succ]
        rw [ih (ax + 1) i _ (by simpa using h')]
        congr 1
        omega
  refine List.ext_getElem (by simp [length_gterms]) fun i h1 h2 => ?_
  rw [key l 0 i h1 (by simpa using h2)]
  simp

theorem axis_or (hn : 0 < n) (hN : 1 ≤ N) (hs : ¬ fdSilent k edge n N) {t : GTerm K} (h : t.Fits fd n N rest k edge dt) :
    OpOr n J dt (gradPart fd n N rest k edge dt t) (N * rest.prod, N * rest.prod)
      fun b => if b then Script.adjointOf (N * rest.prod) (alongAxis (fdAt k edge) t.s t.ax (N :: rest)) else alongAxis (fdAt k edge) t.s t.ax (N :: rest) := by
  have e : (gradFns fd n N rest k edge dt).fn t false = alongAxis (fdAt k edge) t.s t.ax (N :: rest) := by
    funext d
    simp [gradFns, if_pos h, GTerm.fwd]
  have h1 : OpOr n J dt (gradPart fd n N rest k edge dt t) (N * rest.prod, N * rest.prod)
      fun b => if b then (gradFns fd n N rest k edge dt).fn t true else alongAxis (fdAt k edge) t.s t.ax (N :: rest) := by
    refine ⟨fun r _ => gradPart_shape hn t r, fun b X hX => ⟨.flat n N rest, .inl ⟨flat_wf hn, ?_, rfl, rfl, rfl⟩, ?_⟩⟩
    · cases b <;> rfl
    · have h2 := (grad_safe (J := J) (dx := dt) (b := b) hn hN (fun h => h) (X := X) (by cases b <;> exact hX.vecIn) h fun _ _ => hs).2.2.2.2.2
      cases b with
      | false => rw [e] at h2; exact h2
      | true => exact h2
  refine h1.adjointOf fun u v hu hv => ?_
  have := gradFns_adjoint (fd := fd) (n := n) (N := N) (rest := rest) (k := k) (edge := edge) (dt := dt) hn t u v hu hv
  rw [e] at this
  exact this

/-- **C93** (MPIGradient).  MPIGradient, constructed and applied to an array or, in the adjoint, to a stack, gives the right result or raises, but for the numbers of rows where a kind is silently
    wrong (see C65).  The result does not depend on the number of ranks. -/
theorem C93_gradient (hn : 0 < n) (hdt : dt = .real → ∀ k : K, star k = k) (hN : 1 ≤ N) (hs : ¬ fdSilent k edge n N) {s : List K} (h : GradFits fd n N rest k edge dt s) :
    XOpOr n J dt (fun _ => gradX fd (N :: rest) s edge k dt) (stackedNum dt (axisLeaves k edge (N :: rest) s) (gradOf s.length)) := by
  have hp : OpsOr n J dt (fun i : Fin s.length => gradPart fd n N rest k edge dt ⟨i, s[i]⟩) (axisLeaves k edge (N :: rest) s) := fun i => by
    have := axis_or (J := J) hn hN hs (h.2 ⟨i, s[i]⟩ (by rw [gterms_eq]; exact List.mem_map.2 ⟨i, List.mem_finRange i, rfl⟩))
    simpa only [axisLeaves, List.prod_cons] using this
  have h0 : (List.finRange s.length).map (MOp.leaf (K := K)) ≠ [] := by
    intro e
    have := congrArg List.length e
    simp [h.1] at this
  have hx := C93_stacked (J := J) hn hdt hp (gradOf s.length) ⟨h0, fun e he => by obtain ⟨i, -, rfl⟩ := List.mem_map.1 he; exact ⟨trivial, trivial⟩⟩
  have hm := runs_mkGradFits (J := J) hn h
  have em : ∀ r, (SOp.grad (K := K) ((gterms 0 s).map .leaf)).map (gradPart fd n N rest k edge dt · r) = (gradOf (K := K) s.length).map (fun i : Fin s.length => gradPart fd n N rest k edge dt ⟨i, s[i]⟩ r) := by
    intro r
    simp only [gradOf, SOp.map, gterms_eq, List.map_map, Function.comp_def, MOp.map]
  intro b f a ha
  rcases hx b f a ha with ⟨e, g, h1, h2, h3⟩ | h1
  · refine .inl ⟨e, g, h1, h2, ?_⟩
    have := Runs.bind_ok (k := fun r op => SOp.run (env n J r) b op (f r)) hm (h3.runs.congr (fun r _ => by rw [em r]; cases b <;> rfl) fun _ _ => rfl)
    exact (this.congr (fun r _ => by cases b <;> rfl) fun _ _ => rfl).always
  · refine .inr ?_
    have := Raises.after (k := fun r op => SOp.run (env n J r) b op (f r)) hm (h1.congr fun r _ => by rw [em r]; cases b <;> rfl)
    exact this.congr fun r _ => by cases b <;> rfl

end

/-- **C93** (number of ranks, default layout).  In the default layout a program raises on `n` ranks if and only if it raises on `m` ranks. -/
theorem C93_ranks_plain (hdt : dt = .real → ∀ k : K, star k = k) {n m : Nat} (hn : 0 < n) (hm : 0 < m) {J J' : Nat → Nat → K} {prim prim' : ι → Nat → Prim K} {op op' : κ → Nat → XOp K}
    (ho : OpsOr n J dt prim lv) (ho' : OpsOr m J' dt prim' lv) (hops : OpsStandard n J dt prim lv) (hops' : OpsStandard m J' dt prim' lv) (hx : ∀ i, XOpStandard n J dt (op i) (fn i))
    (hx' : ∀ i, XOpStandard m J' dt (op' i) (fn i)) (p : SScript K σ ι κ) (hp : p.Plain) (s : σ) :
    Raises n (fun r => p.run dt (prim · r) (op · r) (env n J r) ⟨fun _ => none, fun _ => none, s⟩) ↔
      Raises m (fun r => p.run dt (prim' · r) (op' · r) (env m J' r) ⟨fun _ => none, fun _ => none, s⟩) := by
  rw [C93_plain_iff hn hdt ho hops hx p hp (V := fun _ => ⟨fun _ => none, fun _ => none, s⟩) (G := ⟨fun _ => none, fun _ => none, s⟩) ⟨fun _ _ => rfl, fun _ _ _ => rfl, fun _ _ _ => rfl⟩,
    C93_plain_iff hm hdt ho' hops' hx' p hp (V := fun _ => ⟨fun _ => none, fun _ => none, s⟩) (G := ⟨fun _ => none, fun _ => none, s⟩) ⟨fun _ _ => rfl, fun _ _ _ => rfl, fun _ _ _ => rfl⟩]

/-! ### examples -/

/-- two block diagonal operators on top of each other -/
def twoRows : SOp ℝ Unit := .vstack [.leaf (), .leaf ()]

/-- `cgls(MPIStackedVStack([Op, Op]), StackedDistributedArray([y, zeros]), zeros, niter)`, then the solution is gathered -/
noncomputable def stackScript (N : Nat) (y : Nat → ℝ) (niter : Int) : SScript ℝ (Option CGLSNumbers × List ℝ) Unit Unit :=
  .seq (.base (.dist 0 false (fun _ => [N]) fun _ => y)) <|
  .seq (.base (.unary (fun _ => .zeros) 1 0)) <|
  .seq (.stack 0 0 [1]) <|
  .seq (.cgls () 2 (.stk 0) (.arr 1) (fun _ => niter) (fun _ => 0) (fun _ => 0) fun q s => (some q, s.2)) <|
  .base (.gather 2 fun a s => (s.1, a.data))

theorem twoRows_mv (a b : ℝ) : stackedNum .real ⟨fun _ : Unit => (2, 2), fun _ b => blockDiag b (allOps 2 doubles)⟩ twoRows false (.one ⟨[2], .real, [a, b]⟩) =
    .ok (.stack [⟨[2], .real, [2 * a, 2 * b]⟩, ⟨[2], .real, [2 * a, 2 * b]⟩]) := by
  norm_num [applyTo, Except.bind, dimOf, List.range_succ, blockDiag_doubles, stackedNum, Fits, twoRows, SOp.shape, SOp.vshape, MOp.shape, vstackNum, column, linear, den]

theorem twoRows_rmv (a b c d : ℝ) : stackedNum .real ⟨fun _ : Unit => (2, 2), fun _ b => blockDiag b (allOps 2 doubles)⟩ twoRows true
    (.stack [⟨[2], .real, [a, b]⟩, ⟨[2], .real, [c, d]⟩]) = .ok (.one ⟨[2], .real, [2 * a + 2 * c, 2 * b + 2 * d]⟩) := by
  norm_num [applyTo, Except.bind, dimOf, List.range_succ, blockDiag_doubles, stackedNum, Fits, twoRows, SOp.shape, SOp.vshape, MOp.shape, vstackNum, gatherSum, linear, den, elementwise]

/-- With NumPy arrays and the operator 2 I: one iteration, residual norms √10 and √5, solution (1/4, 3/4). -/
theorem serial_stack : ((stackScript 2 (fun i => if i = 0 then 1 else 3) 5).serial .real
    ⟨fun _ : Unit => (2, 2), fun _ b => blockDiag b (allOps 2 doubles)⟩ (fun _ : Unit => stackedNum .real ⟨fun _ : Unit => (2, 2), fun _ b => blockDiag b (allOps 2 doubles)⟩ twoRows)
    ⟨fun _ => none, fun _ => none, (none, [])⟩).map (fun v => (v.loc.1.map (·.cost), v.loc.2)) = .ok (some [√10, √5], [1 / 4, 3 / 4]) := by
  have e : Int.toNat 5 = 4 + 1 := rfl
  norm_num [e, stackScript, SScript.serial, Script.serial, CGLS.start, CGLS.step, CGLS.steps, CGLS.numbers, Script.divide, ebind, Vars.get, Vars.set, NDArray.tab, elementwise, Except.bind, Except.map,
    UnaryOp.fn, BinaryOp.fn, List.range_succ, SVars.get, SVars.gets, SVars.getAll, SVars.set, SVars.sets, SVars.num, SVars.setNum, SNum.zip, SNum.zipAll, SNum.inner,
    SNum.scale, SNum.map, SNum.mapArr, SNum.norm2, SNum.length2, SNum.total, SNum.parts, twoRows_mv, twoRows_rmv, List.replicate_succ]

/-- On 2 ranks, in all executions, both ranks have this. -/
example (J : Nat → Nat → ℝ) : ∃ V : Nat → SVars (DArr ℝ) (Option CGLSNumbers × List ℝ), (∀ r < 2, ((V r).loc.1.map (·.cost), (V r).loc.2) = (some [√10, √5], [1 / 4, 3 / 4])) ∧
    Always 2 (fun r => (stackScript 2 (fun i => if i = 0 then 1 else 3) 5).run .real (fun _ => bdPrim 2 doubles none .real r)
      (fun _ : Unit => (twoRows.map fun _ => bdPrim 2 doubles none .real r).toX) (env 2 J r) ⟨fun _ => none, fun _ => none, (none, [])⟩) fun r => .ok (V r) := by
  have h := serial_stack
  have h0 : OpsStandard 2 J .real (fun _ : Unit => bdPrim 2 doubles none .real) _ := C90_blockDiag_standard (ι := Unit) (ops := fun _ => doubles) (by decide) (fun _ _ _ h => doubles_ok h)
    (fun _ _ _ => by simp [doubles]) (by intro _ b r; cases b <;> rfl)
  have h1 : OpsOr 2 J .real (fun _ : Unit => bdPrim 2 doubles none .real) ⟨fun _ : Unit => (2, 2), fun _ b => blockDiag b (allOps 2 doubles)⟩ := fun _ =>
    C90_blockDiag (ops := doubles) (by decide) (fun _ _ h => doubles_ok h) (fun _ _ => by simp [doubles])
  cases hs : (stackScript 2 (fun i => if i = 0 then 1 else 3) 5).serial .real ⟨fun _ : Unit => (2, 2), fun _ b => blockDiag b (allOps 2 doubles)⟩
      (fun _ : Unit => stackedNum .real ⟨fun _ : Unit => (2, 2), fun _ b => blockDiag b (allOps 2 doubles)⟩ twoRows) ⟨fun _ => none, fun _ => none, (none, [])⟩ with
  | error e => rw [hs] at h; cases h
  | ok G =>
    rw [hs] at h
    obtain ⟨V, h3, h2⟩ := (C93_plain (J := J) (n := 2) (by decide) (fun _ _ => rfl) h1 h0
      (fun _ : Unit => C93_stacked_standard (by decide) (fun _ _ => rfl) h0 twoRows ⟨by simp, by simp [PowerExpression, Shaped]⟩)
      (stackScript 2 (fun i => if i = 0 then 1 else 3) 5) (by simp [stackScript, SScript.Plain, Script.Plain]) (V := fun _ => ⟨fun _ => none, fun _ => none, (none, [])⟩)
      (G := ⟨fun _ => none, fun _ => none, (none, [])⟩) ⟨fun _ _ => rfl, fun _ _ _ => rfl, fun _ _ _ => rfl⟩).2 G hs
    exact ⟨V, fun r hr => by rw [h3.1 r hr]; exact Except.ok.inj h, h2⟩

/-- serial operators that compute the differences and their transposes -/
noncomputable def realFD : Serial ℝ FDKind := fun dims ax s k edge dt => refOp (fdAt k edge) (fdAdj k edge) s ax dims dt

/-- The hypotheses of `C93_gradient` hold for arrays of shape (2, 3) on 3 ranks, one of which has no row. -/
example (J : Nat → Nat → ℝ) : XOpOr 3 J .real (fun _ => gradX realFD [2, 3] [2, 5] true .centered3 .real) (stackedNum .real (axisLeaves .centered3 true [2, 3] [2, 5]) (gradOf 2)) := by
  refine C93_gradient (by decide) (fun _ _ => rfl) (by decide) (by simp [fdSilent]) ⟨rfl, fun t ht => ?_⟩
  simp only [gterms, List.mem_cons, List.not_mem_nil, or_false] at ht
  rcases ht with rfl | rfl
  · exact ⟨by norm_num, rfl, fun a h => by cases h⟩
  · refine ⟨by norm_num, rfl, fun a ha => ⟨by change 1 = a + 1 at ha; simp; omega, fun r => ?_⟩⟩
    change 1 = a + 1 at ha
    obtain rfl : a = 0 := by omega
    refine refOp_isDeriv (fun M hM => ?_) (fun M => conj_fdAt _) (fun M => conj_fdAdj _) rfl (by simp)
    obtain rfl : M = 3 := by simpa using hM.symm
    exact transpose_centered3 fun _ => by decide

end SScript
end Verif

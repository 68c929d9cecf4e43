/-
  The operations and the solvers for arrays and stacks.
-/
import Verif.Proofs.StackScriptBase

namespace Verif
namespace SScript
open NDArray Script
set_option linter.unusedSectionVars false

variable {K σ ι κ : Type} [RCLike K] {n : Nat} {J : Nat → Nat → K} {dt : DType} {may : Bool}
variable {A B A' B' : Type}

/-- the ranks hold an array or a stack -/
def RepS (may : Bool) (n : Nat) (dt : DType) (f : Nat → XArr K) : SNum K → Prop
  | .one a => ∃ g, Rep may n dt g a ∧ ∀ r < n, f r = .one (g r)
  | .stack l => l ≠ [] ∧ ∃ g, ListRel n (Rep may n dt) g l ∧ ∀ r < n, f r = .stack (g r)

theorem RepS.mkOne {f : Nat → DArr K} {a : NDArray K} (h : Rep may n dt f a) : RepS may n dt (fun r => .one (f r)) (.one a) := ⟨f, h, fun _ _ => rfl⟩

theorem RepS.mkStack {f : Nat → List (DArr K)} {l : List (NDArray K)} (hl : l ≠ []) (h : ListRel n (Rep may n dt) f l) : RepS may n dt (fun r => .stack (f r)) (.stack l) :=
  ⟨hl, f, h, fun _ _ => rfl⟩

/-- an operator -/
def XRep (may : Bool) (n : Nat) (J : Nat → Nat → K) (dt : DType) (op : Nat → XOp K) (fn : Bool → SNum K → Except Err (SNum K)) : Prop :=
  ∀ b f a, RepS may n dt f a → Out n may (RepS may n dt) (fun r => if b then (op r).rmv (env n J r) (f r) else (op r).mv (env n J r) (f r)) (fn b a)

theorem outs_one {ps : Nat → P K (DArr K)} {res : Except Err (NDArray K)} (h : Out n may (Rep may n dt) ps res) :
    Out n may (RepS may n dt) (fun r => (ps r).bind fun y => .ret (.one y)) (res.bind fun e => .ok (.one e)) :=
  h.bind fun f a h => Out.ret (K := K) (R := RepS may n dt) (a := fun r => XArr.one (f r)) (.mkOne h)

theorem outs_stack {ps : Nat → P K (SArr K)} {res : Except Err (List (NDArray K))} (h : Out n may (ListRel n (Rep may n dt)) ps res) (hne : ∀ l, res = .ok l → l ≠ []) :
    Out n may (RepS may n dt) (fun r => (ps r).bind fun y => .ret (.stack y)) (res.bind fun e => .ok (.stack e)) :=
  h.bindOk fun f l hl h => Out.ret (K := K) (R := RepS may n dt) (a := fun r => XArr.stack (f r)) (.mkStack (hne l hl) h)

theorem map_ne_nil {f : K → K} {l : List (NDArray K)} (h : l ≠ []) : l.map (SNum.mapArr f) ≠ [] := by simpa using h

theorem zipAll_ne {g : K → K → K} {l m e : List (NDArray K)} (hl : l ≠ []) (h : SNum.zipAll g l m = .ok e) : e ≠ [] := by
  have := zipAll_length h
  intro he
  rw [he] at this
  exact hl (List.length_eq_zero_iff.1 this.symm)

theorem mapArr_id (a : NDArray K) : (⟨a.shape, a.dtype, a.data.map (UnaryOp.copy : UnaryOp K).fn⟩ : NDArray K) = a := by
  rw [show (UnaryOp.copy : UnaryOp K).fn = id from rfl, List.map_id]

section
variable (hS : Setting n K dt) {f f' : Nat → XArr K} {a a' : SNum K} (h : RepS may n dt f a) (h' : RepS may n dt f' a')
include hS h

theorem outs_copy : Out n may (RepS may n dt) (fun r => (f r).copy (env n J r)) (.ok a) := by
  cases a with
  | one a =>
    obtain ⟨g, hg, h⟩ := h
    have := out_unary (J := J) hS .copy hg
    rw [mapArr_id] at this
    exact (outs_one this).congr fun r hr => by rw [h r hr]; rfl
  | stack l =>
    obtain ⟨hl, g, hg, h⟩ := h
    exact (outs_stack (outl_copy (J := J) hS hg) fun m e => by obtain rfl := Except.ok.inj e; exact hl).congr fun r hr => by rw [h r hr]; rfl

theorem outs_conj : Out n may (RepS may n dt) (fun r => (f r).conj (env n J r)) (.ok (a.map star)) := by
  cases a with
  | one a =>
    obtain ⟨g, hg, h⟩ := h
    exact (outs_one (out_unary (J := J) hS .conj hg)).congr fun r hr => by rw [h r hr]; rfl
  | stack l =>
    obtain ⟨hl, g, hg, h⟩ := h
    exact (outs_stack (outl_conj (J := J) hS hg) fun m e => by obtain rfl := Except.ok.inj e; exact map_ne_nil hl).congr fun r hr => by rw [h r hr]; rfl

theorem outs_smul (t : DType) (s : K) : Out n may (RepS may n dt) (fun r => (f r).smul (env n J r) t s) (.ok (a.map (· * s))) := by
  cases a with
  | one a =>
    obtain ⟨g, hg, h⟩ := h
    exact (outs_one (out_smul_rep (J := J) hS hg)).congr fun r hr => by rw [h r hr]; rfl
  | stack l =>
    obtain ⟨hl, g, hg, h⟩ := h
    exact (outs_stack (outl_smul (J := J) hS hg) fun m e => by obtain rfl := Except.ok.inj e; exact map_ne_nil hl).congr fun r hr => by rw [h r hr]; rfl

theorem outs_fmul (v : ℝ) : Out n may (RepS may n dt) (fun r => XArr.fmul (env n J r) v (f r)) (.ok (SNum.scale v a)) := outs_smul hS h .real (v : K)

/-- `-y` before an operation that raises -/
theorem outs_neg_throw {R : (Nat → A) → B → Prop} (e e' : Err) :
    Out n may R (fun r => match f r with
      | .one d => (d.neg (env n J r)).bind fun _ => (.throw e : P K A)
      | .stack m => (SArr.neg (env n J r) m).bind fun _ => .throw e) (.error e') := by
  cases a with
  | one a =>
    obtain ⟨g, hg, h⟩ := h
    exact (Out.step (out_unary (J := J) hS .neg hg) fun _ _ => Out.throw hS.pos e e').congr fun r hr => by rw [h r hr]; rfl
  | stack l =>
    obtain ⟨hl, g, hg, h⟩ := h
    exact (Out.step (outl_neg (J := J) hS hg) fun _ _ => Out.throw hS.pos e e').congr fun r hr => by rw [h r hr]

theorem outs_norm : Out n may (Same n) (fun r => (f r).norm (env n J r)) (.ok (.fin a.norm2)) := by
  cases a with
  | one a =>
    obtain ⟨g, hg, h⟩ := h
    have := (out_norm (J := J) hS hg).stepSame (R' := Same n) (k := fun _ a => .ret (a.data.getD 0 .nan)) (Out.ret (R := Same n) (a := fun _ => _) (b := .fin (Script.norm2 a)) fun _ _ => rfl)
    rw [show SNum.norm2 (.one a) = Script.norm2 a by simp [SNum.norm2, SNum.length2, SNum.parts, Script.norm2]]
    exact this.congr fun r hr => by rw [h r hr]; rfl
  | stack l =>
    obtain ⟨hl, g, hg, h⟩ := h
    exact (outl_norm (J := J) hS hl hg).congr fun r hr => by rw [h r hr]; rfl

theorem outs_op {op : Nat → XOp K} {fn : Bool → SNum K → Except Err (SNum K)} (ho : XRep may n J dt op fn) :
    Out n may (RepS may n dt) (fun r => (op r).mv (env n J r) (f r)) (fn false a) := ho false f a h

theorem outs_adj {op : Nat → XOp K} {fn : Bool → SNum K → Except Err (SNum K)} (ho : XRep may n J dt op fn) :
    Out n may (RepS may n dt) (fun r => (op r).rmv (env n J r) (f r)) (fn true a) := ho true f a h

include h'

theorem outs_add : Out n may (RepS may n dt) (fun r => (f r).add (env n J r) (f' r)) (SNum.zip (· + ·) a a') := by
  cases a with
  | one a => cases a' with
    | one a' =>
      obtain ⟨g, hg, h⟩ := h
      obtain ⟨g', hg', h'⟩ := h'
      exact (outs_one (out_add (J := J) hS hg hg')).congr fun r hr => by rw [h r hr, h' r hr]; rfl
    | stack l' =>
      obtain ⟨g, hg, h⟩ := h
      obtain ⟨-, g', hg', h'⟩ := h'
      exact (Out.throw hS.pos .attribute .attribute).congr fun r hr => by rw [h r hr, h' r hr]; rfl
  | stack l => cases a' with
    | one a' =>
      obtain ⟨-, g, hg, h⟩ := h
      obtain ⟨g', hg', h'⟩ := h'
      exact (Out.throw hS.pos .attribute .attribute).congr fun r hr => by rw [h r hr, h' r hr]; rfl
    | stack l' =>
      obtain ⟨hl, g, hg, h⟩ := h
      obtain ⟨-, g', hg', h'⟩ := h'
      exact (outs_stack (outl_add (J := J) hS hg hg') fun m e => zipAll_ne hl e).congr fun r hr => by rw [h r hr, h' r hr]; rfl

theorem outs_iadd : Out n may (RepS may n dt) (fun r => (f r).iadd (env n J r) (f' r)) (SNum.zip (· + ·) a a') := by
  cases a with
  | one a => cases a' with
    | one a' =>
      obtain ⟨g, hg, h⟩ := h
      obtain ⟨g', hg', h'⟩ := h'
      exact (outs_one (out_iadd (J := J) hS hg hg')).congr fun r hr => by rw [h r hr, h' r hr]; rfl
    | stack l' =>
      obtain ⟨g, hg, h⟩ := h
      obtain ⟨-, g', hg', h'⟩ := h'
      exact (Out.throw hS.pos .attribute .attribute).congr fun r hr => by rw [h r hr, h' r hr]; rfl
  | stack l => cases a' with
    | one a' =>
      obtain ⟨-, g, hg, h⟩ := h
      obtain ⟨g', hg', h'⟩ := h'
      exact (Out.throw hS.pos .attribute .attribute).congr fun r hr => by rw [h r hr, h' r hr]; rfl
    | stack l' =>
      obtain ⟨hl, g, hg, h⟩ := h
      obtain ⟨-, g', hg', h'⟩ := h'
      exact (outs_stack (outl_iadd (J := J) hS hg hg') fun m e => zipAll_ne hl e).congr fun r hr => by rw [h r hr, h' r hr]; rfl

theorem outs_sub : Out n may (RepS may n dt) (fun r => (f r).sub' (env n J r) (f' r)) (SNum.zip (· - ·) a a') := by
  cases a with
  | one a => cases a' with
    | one a' =>
      obtain ⟨g, hg, h⟩ := h
      obtain ⟨g', hg', h'⟩ := h'
      exact (outs_one (out_sub (J := J) hS hg hg')).congr fun r hr => by rw [h r hr, h' r hr]; rfl
    | stack l' =>
      have := outs_neg_throw (J := J) hS h' (R := RepS (K := K) may n dt) .attribute .attribute
      obtain ⟨g, hg, h⟩ := h
      obtain ⟨-, g', hg', h'⟩ := h'
      exact this.congr fun r hr => by rw [h r hr, h' r hr]; rfl
  | stack l => cases a' with
    | one a' =>
      have := outs_neg_throw (J := J) hS h' (R := RepS (K := K) may n dt) .attribute .attribute
      obtain ⟨-, g, hg, h⟩ := h
      obtain ⟨g', hg', h'⟩ := h'
      exact this.congr fun r hr => by rw [h r hr, h' r hr]; rfl
    | stack l' =>
      obtain ⟨hl, g, hg, h⟩ := h
      obtain ⟨-, g', hg', h'⟩ := h'
      exact (outs_stack (outl_sub (J := J) hS hg hg') fun m e => zipAll_ne hl e).congr fun r hr => by rw [h r hr, h' r hr]; rfl

theorem outs_isub : Out n may (RepS may n dt) (fun r => (f r).isub (env n J r) (f' r)) (SNum.zip (· - ·) a a') := by
  cases a with
  | one a => cases a' with
    | one a' =>
      obtain ⟨g, hg, h⟩ := h
      obtain ⟨g', hg', h'⟩ := h'
      exact (outs_one (out_isub (J := J) hS hg hg')).congr fun r hr => by rw [h r hr, h' r hr]; rfl
    | stack l' =>
      have := outs_neg_throw (J := J) hS h' (R := RepS (K := K) may n dt) .attribute .attribute
      obtain ⟨g, hg, h⟩ := h
      obtain ⟨-, g', hg', h'⟩ := h'
      exact this.congr fun r hr => by rw [h r hr, h' r hr]; rfl
  | stack l => cases a' with
    | one a' =>
      have := outs_neg_throw (J := J) hS h' (R := RepS (K := K) may n dt) .attribute .attribute
      obtain ⟨-, g, hg, h⟩ := h
      obtain ⟨g', hg', h'⟩ := h'
      exact this.congr fun r hr => by rw [h r hr, h' r hr]; rfl
    | stack l' =>
      obtain ⟨hl, g, hg, h⟩ := h
      obtain ⟨-, g', hg', h'⟩ := h'
      exact (outs_stack (outl_isub (J := J) hS hg hg') fun m e => zipAll_ne hl e).congr fun r hr => by rw [h r hr, h' r hr]; rfl

theorem outs_dotConj : Out n may (Same n) (fun r => ((f' r).conj (env n J r)).bind fun y => (f r).dot (env n J r) y) (SNum.inner a a') := by
  refine Out.step (outs_conj (J := J) hS h') fun g' hg' => ?_
  cases a with
  | one a => cases a' with
    | one a' =>
      obtain ⟨g, hg, h⟩ := h
      obtain ⟨e, he, h'⟩ := hg'
      have : SNum.inner (.one a) (.one a') = Script.dotConj a a' := by
        unfold SNum.inner Script.dotConj SNum.zip
        simp only [ebind]
        cases elementwise (fun a b => a * star b) a a' with
        | error e => rfl
        | ok e =>
          show Except.ok (SNum.total (SNum.parts (.one e))) = Except.ok _
          simp [SNum.total, SNum.parts]
      rw [this, dotConj_eq]
      exact (out_dot (J := J) hS hg he).congr fun r hr => by rw [h r hr, h' r hr]; rfl
    | stack l' =>
      obtain ⟨g, hg, h⟩ := h
      obtain ⟨-, e, he, h'⟩ := hg'
      exact (Out.throw hS.pos .attribute .attribute).congr fun r hr => by rw [h r hr, h' r hr]; rfl
  | stack l => cases a' with
    | one a' =>
      obtain ⟨-, g, hg, h⟩ := h
      obtain ⟨e, he, h'⟩ := hg'
      exact (Out.throw hS.pos .attribute .attribute).congr fun r hr => by rw [h r hr, h' r hr]; rfl
    | stack l' =>
      obtain ⟨hl, g, hg, h⟩ := h
      obtain ⟨-, e, he, h'⟩ := hg'
      have : SNum.inner (.stack l) (.stack l') = (SNum.zipAll (· * ·) l (l'.map (SNum.mapArr star))).bind fun e => .ok (SNum.total e) := by
        rw [zipAll_map (· * ·) (fun a b => a * star b) star fun _ _ => rfl]
        unfold SNum.inner SNum.zip
        simp only [ebind]
        cases SNum.zipAll (fun a b => a * star b) l l' <;> rfl
      rw [this]
      exact (outl_dot (J := J) hS hg he).congr fun r hr => by rw [h r hr, h' r hr]; rfl

theorem outs_absDot {R' : (Nat → A') → B' → Prop} {k : Nat → ℝ → P K A'} {kk : K → Except Err B'} (hk : ∀ v, Out n may R' (fun r => k r ‖v‖) (kk v)) :
    Out n may R' (fun r => (absDot (env n J r) (f r) (f' r)).bind (k r)) ((SNum.inner a a').bind kk) := by
  refine ((outs_dotConj (J := J) hS h h').bindSame (k := fun r v => k r ‖v‖) hk).congr fun r _ => ?_
  unfold absDot
  simp only [Prog.bind_eq, Prog.bind_assoc]
  rfl

end

/-! ### CG -/

theorem cgStep_iiter {A : SNum K → Except Err (SNum K)} {s s' : CG K} (h : s.step A = .ok s') : s'.iiter = s.iiter + 1 := by
  simp only [CG.step, ebind, ebind_ok] at h
  obtain ⟨_, -, _, -, _, -, _, -, _, -, _, -, _, -, _, -, h⟩ := h
  obtain rfl := Except.ok.inj h
  rfl

/-- what CG keeps -/
structure CGRep (may : Bool) (n : Nat) (dt : DType) (tol : ℝ) (q : Nat → CGS K × XArr K) (s : CG K) : Prop where
  x : RepS may n dt (fun r => (q r).2) s.x
  r : RepS may n dt (fun r => (q r).1.r) s.r
  c : RepS may n dt (fun r => (q r).1.c) s.c
  k : ∀ r < n, (q r).1.kold = s.k
  cost : ∀ r < n, (q r).1.cost = s.cost
  iiter : ∀ r < n, (q r).1.iiter = s.iiter
  tol : ∀ r < n, (q r).1.tol = tol

section
variable (hS : Setting n K dt) {op : Nat → XOp K} {fn : Bool → SNum K → Except Err (SNum K)} (ho : XRep may n J dt op fn)
include hS ho

theorem out_cgStart {y x : Nat → XArr K} {a b : SNum K} (hy : RepS may n dt y a) (hx : RepS may n dt x b) (niter : Option Int) (tol : ℝ) :
    Out n may (CGRep may n dt tol) (fun r => CGS.setup (env n J r) (op r) (y r) (x r) niter tol) (CG.start (fn false) a b) := by
  unfold CGS.setup CG.start
  simp only [Prog.bind_eq, ebind]
  refine Out.step (outs_copy hS hx) fun x1 hx1 => ?_
  refine Out.bind (outs_op hS hx1 ho) fun w1 w hw => ?_
  refine Out.bind (outs_sub hS hy hw) fun r1 r hr => ?_
  refine Out.step (outs_copy hS hr) fun c1 hc1 => ?_
  exact outs_absDot hS hr hr fun k => Out.ret ⟨hx1, hr, hc1, fun _ _ => rfl, fun _ _ => rfl, fun _ _ => rfl, fun _ _ => rfl⟩

theorem out_cgStep {tol : ℝ} {q : Nat → CGS K × XArr K} {s : CG K} (h : CGRep may n dt tol q s) :
    Out n may (CGRep may n dt tol) (fun r => CGS.step (env n J r) (op r) (q r).1 (q r).2) (s.step (fn false)) := by
  unfold CGS.step CG.step
  simp only [Prog.bind_eq, ebind]
  refine Out.bind (outs_op hS h.c ho) fun w1 w hw => ?_
  refine outs_absDot hS h.c hw fun t => ?_
  unfold Script.divide
  by_cases ht : ‖t‖ = 0
  · simp only [if_pos ht]
    exact Out.throw hS.pos _ _
  simp only [if_neg ht]
  refine Out.congr (ps := fun r => Prog.bind (.ret (s.k / ‖t‖)) _) ?_ fun r hr => by rw [h.k r hr]
  refine Out.stepSame (Out.ret (R := Same n) (a := fun _ => s.k / ‖t‖) fun _ _ => rfl) ?_
  show Out _ _ _ _ (Except.bind (Except.ok _) _)
  refine Out.step (outs_fmul hS h.c _) fun a1 ha1 => ?_
  refine Out.bind (outs_iadd hS h.x ha1) fun x1 x hx => ?_
  refine Out.step (outs_fmul hS hw _) fun a2 ha2 => ?_
  refine Out.bind (outs_isub hS h.r ha2) fun r1 r hr => ?_
  refine outs_absDot hS hr hr fun k => ?_
  unfold pyDiv
  by_cases hk : s.k = 0
  · simp only [if_pos hk]
    exact Out.throw hS.pos _ _
  simp only [if_neg hk]
  refine Out.stepSame (Out.ret (R := Same n) (a := fun _ => ‖k‖ / s.k) fun _ _ => rfl) ?_
  show Out _ _ _ _ (Except.bind (Except.ok _) _)
  refine Out.step (outs_fmul hS h.c _) fun a3 ha3 => ?_
  refine Out.bind (outs_add hS hr ha3) fun c1 c hc => ?_
  exact Out.ret ⟨hx, hr, hc, fun _ _ => rfl, fun r hr => by rw [h.cost r hr], fun r hr => by rw [h.iiter r hr], h.tol⟩

theorem out_cgLoop {tol : ℝ} (niter : Int) (m : Nat) : ∀ {q : Nat → CGS K × XArr K} {s : CG K} (tr : Nat → List (XArr K)), CGRep may n dt tol q s → m = (niter - s.iiter).toNat →
    Out n may (fun w => CGRep may n dt tol fun r => ((w r).1, (w r).2.1)) (fun r => CGS.loop (env n J r) (op r) niter m (q r).1 (q r).2 (tr r))
      (s.steps (fn false) tol m) := by
  induction m with
  | zero =>
    intro q s tr h _
    unfold CGS.loop CG.steps
    exact Out.ret (K := K) (R := fun w => CGRep may n dt tol fun r => ((w r).1, (w r).2.1)) (a := fun r => ((q r).1, (q r).2, tr r)) h
  | succ m ih =>
    intro q s tr h hm
    unfold CGS.loop CG.steps
    have hc : ∀ r < n, (((q r).1.iiter : Int) < niter ∧ (q r).1.kold > (q r).1.tol) ↔ tol < s.k := by
      intro r hr
      rw [h.iiter r hr, h.k r hr, h.tol r hr]
      exact ⟨fun h => h.2, fun h => ⟨by omega, h⟩⟩
    by_cases ht : tol < s.k
    · rw [if_pos ht]
      refine Out.congr (ps := fun r => (CGS.step (env n J r) (op r) (q r).1 (q r).2).bind fun p' => CGS.loop (env n J r) (op r) niter m p'.1 p'.2 (tr r ++ [p'.2]))
        ?_ fun r hr => by rw [if_pos ((hc r hr).2 ht)]; rfl
      refine Out.bindOk (out_cgStep hS ho h) fun q' s' hs h' => ?_
      have e := cgStep_iiter hs
      exact ih (fun r => tr r ++ [(q' r).2]) h' (by omega)
    · rw [if_neg ht]
      refine Out.congr (ps := fun r => (.ret ((q r).1, (q r).2, tr r) : P K _)) ?_ fun r hr => by rw [if_neg (fun h => ht ((hc r hr).1 h))]
      exact Out.ret (K := K) (R := fun w => CGRep may n dt tol fun r => ((w r).1, (w r).2.1)) (a := fun r => ((q r).1, (q r).2, tr r)) h

/-- `cg` -/
theorem out_cg {y x : Nat → XArr K} {a b : SNum K} (hy : RepS may n dt y a) (hx : RepS may n dt x b) (niter : Int) (tol : ℝ) :
    Out n may (fun w s => RepS may n dt (fun r => (w r).1) s.x ∧ ∀ r < n, (w r).2.1 = s.iiter ∧ (w r).2.2.1 = s.cost)
      (fun r => CGS.solve (env n J r) (op r) (y r) (x r) (some niter) tol)
      ((CG.start (fn false) a b).bind (CG.steps (fn false) tol niter.toNat)) := by
  unfold CGS.solve
  simp only [Prog.bind_eq]
  refine Out.bindOk (out_cgStart hS ho hy hx (some niter) tol) fun q s hs h => ?_
  have e0 : s.iiter = 0 := by
    simp only [CG.start, ebind, ebind_ok] at hs
    obtain ⟨_, -, _, -, _, -, hs⟩ := hs
    obtain rfl := Except.ok.inj hs
    rfl
  have e1 : ∀ r < n, ((niter - (q r).1.iiter).toNat : Nat) = niter.toNat := fun r hr => by rw [h.iiter r hr, e0]; simp
  have := out_cgLoop hS ho niter niter.toNat (fun _ => []) h (by rw [e0]; simp)
  have h2 := this.bind (R' := fun w (s : CG K) => RepS may n dt (fun r => (w r).1) s.x ∧ ∀ r < n, (w r).2.1 = s.iiter ∧ (w r).2.2.1 = s.cost)
    (k := fun _ w => .ret (w.2.1, w.1.iiter, w.1.cost, w.2.2)) (kk := .ok) fun w s h => Out.ret (K := K)
      (R := fun w (s : CG K) => RepS may n dt (fun r => (w r).1) s.x ∧ ∀ r < n, (w r).2.1 = s.iiter ∧ (w r).2.2.1 = s.cost)
      (a := fun r => ((w r).2.1, (w r).1.iiter, (w r).1.cost, (w r).2.2)) ⟨h.x, fun r hr => ⟨h.iiter r hr, h.cost r hr⟩⟩
  have e2 : ∀ res : Except Err (CG K), res.bind .ok = res := fun res => by cases res <;> rfl
  rw [e2] at h2
  refine h2.congr fun r hr => ?_
  unfold CGS.run
  simp only [e1 r hr]

end

/-! ### CGLS -/

/-- what CGLS keeps -/
structure CGLSRep (may : Bool) (n : Nat) (dt : DType) (damp2 tol : ℝ) (w : Nat → CGLSS K × XArr K) (z : CGLS K) : Prop where
  x : RepS may n dt (fun r => (w r).2) z.x
  s : RepS may n dt (fun r => (w r).1.s) z.s
  c : RepS may n dt (fun r => (w r).1.c) z.c
  q : RepS may n dt (fun r => (w r).1.q) z.q
  k : ∀ r < n, (w r).1.kold = z.k
  cost : ∀ r < n, (w r).1.cost = z.cost
  cost1 : ∀ r < n, (w r).1.cost1 = z.cost1
  iiter : ∀ r < n, (w r).1.iiter = z.iiter
  tol : ∀ r < n, (w r).1.tol = tol
  damp : ∀ r < n, (w r).1.damp = damp2
  length : z.cost1.length = z.iiter + 1

theorem cglsStep_iiter {A : Bool → SNum K → Except Err (SNum K)} {damp2 : ℝ} {s s' : CGLS K} (h : s.step A damp2 = .ok s') : s'.iiter = s.iiter + 1 := by
  simp only [CGLS.step, ebind, ebind_ok] at h
  obtain ⟨_, -, _, -, _, -, _, -, _, -, _, -, _, -, _, -, _, -, _, -, _, -, _, -, h⟩ := h
  obtain rfl := Except.ok.inj h
  rfl

section
variable (hS : Setting n K dt) {op : Nat → XOp K} {fn : Bool → SNum K → Except Err (SNum K)} (ho : XRep may n J dt op fn)
include hS ho

theorem out_cglsStart {y x : Nat → XArr K} {a b : SNum K} (hy : RepS may n dt y a) (hx : RepS may n dt x b) (niter : Option Int) (damp tol : ℝ) :
    Out n may (CGLSRep may n dt (damp ^ 2) tol) (fun r => CGLSS.setup (env n J r) (op r) (y r) (x r) niter damp tol)
      (CGLS.start fn damp a b) := by
  unfold CGLSS.setup CGLS.start
  simp only [Prog.bind_eq, ebind]
  refine Out.step (outs_copy hS hx) fun x1 hx1 => ?_
  refine Out.bind (outs_op hS hx1 ho) fun w1 w hw => ?_
  refine Out.bind (outs_sub hS hy hw) fun s1 s hs => ?_
  refine Out.step (outs_fmul hS hx1 damp) fun d1 hd1 => ?_
  refine Out.bind (outs_adj hS hs ho) fun g1 g hg => ?_
  refine Out.bind (outs_sub hS hg hd1) fun r1 r hr => ?_
  refine Out.step (outs_copy hS hr) fun c1 hc1 => ?_
  refine Out.bind (outs_op hS hc1 ho) fun q1 q hq => ?_
  refine outs_absDot hS hr hr fun k => ?_
  refine Out.stepSame (outs_norm hS hs) ?_
  unfold FNum.toFloat
  refine Out.stepSame (Out.ret (R := Same n) (a := fun _ => SNum.norm2 s) fun _ _ => rfl) ?_
  refine outs_absDot hS hx1 hx1 fun t => ?_
  exact Out.ret ⟨hx1, hs, hc1, hq, fun _ _ => rfl, fun _ _ => rfl, fun _ _ => rfl, fun _ _ => rfl, fun _ _ => rfl, fun _ _ => rfl, rfl⟩

theorem out_cglsStep {damp2 tol : ℝ} {q : Nat → CGLSS K × XArr K} {s : CGLS K} (h : CGLSRep may n dt damp2 tol q s) :
    Out n may (CGLSRep may n dt damp2 tol) (fun r => CGLSS.step (env n J r) (op r) (q r).1 (q r).2) (s.step fn damp2) := by
  have e : ∀ r < n, (q r).1 = { (q r).1 with kold := s.k, damp := damp2 } := fun r hr => by
    rw [← h.k r hr, ← h.damp r hr]
  refine Out.congr (ps := fun r => CGLSS.step (env n J r) (op r) { (q r).1 with kold := s.k, damp := damp2 } (q r).2) ?_ fun r hr => by rw [← e r hr]
  unfold CGLSS.step CGLS.step
  simp only [Prog.bind_eq, ebind]
  have A1 := fun {R' : (Nat → CGLSS K × XArr K) → CGLS K → Prop} {f : Nat → XArr K} {a : SNum K} (h : RepS may n dt f a) {k : Nat → K → P K (CGLSS K × XArr K)}
    {kk : K → Except Err (CGLS K)} (hk : ∀ v, Out n may R' (fun r => k r v) (kk v)) => ((outs_dotConj (J := J) hS h h).bindSame hk)
  simp only [Prog.bind_assoc] at A1
  refine A1 h.q fun qq => ?_
  refine A1 h.c fun cc => ?_
  unfold Script.divide npDiv
  by_cases ht : qq + (damp2 : K) * cc = 0
  · simp only [if_pos ht]
    exact Out.throw hS.pos _ _
  simp only [if_neg ht]
  refine Out.stepSame (Out.ret (R := Same n) (a := fun _ => (s.k : K) / (qq + (damp2 : K) * cc)) fun _ _ => rfl) ?_
  show Out _ _ _ _ (Except.bind (Except.ok _) _)
  refine Out.step (outs_fmul hS h.c _) fun a1 ha1 => ?_
  refine Out.bind (outs_iadd hS h.x ha1) fun x1 x hx => ?_
  refine Out.step (outs_fmul hS h.q _) fun a2 ha2 => ?_
  refine Out.bind (outs_isub hS h.s ha2) fun s1 s' hs => ?_
  refine Out.step (outs_fmul hS hx damp2) fun d1 hd1 => ?_
  refine Out.bind (outs_adj hS hs ho) fun g1 g hg => ?_
  refine Out.bind (outs_sub hS hg hd1) fun r1 r hr => ?_
  refine outs_absDot hS hr hr fun k => ?_
  unfold pyDiv
  by_cases hk : s.k = 0
  · simp only [if_pos hk]
    exact Out.throw hS.pos _ _
  simp only [if_neg hk]
  refine Out.stepSame (Out.ret (R := Same n) (a := fun _ => ‖k‖ / s.k) fun _ _ => rfl) ?_
  show Out _ _ _ _ (Except.bind (Except.ok _) _)
  refine Out.step (outs_fmul hS h.c _) fun a3 ha3 => ?_
  refine Out.bind (outs_add hS hr ha3) fun c1 c hc => ?_
  refine Out.bind (outs_op hS hc ho) fun q1 q' hq => ?_
  refine Out.stepSame (outs_norm hS hs) ?_
  unfold FNum.toFloat
  refine Out.stepSame (Out.ret (R := Same n) (a := fun _ => SNum.norm2 s') fun _ _ => rfl) ?_
  refine outs_absDot hS hx hx fun t => ?_
  exact Out.ret ⟨hx, hs, hc, hq, fun _ _ => rfl, fun r hr => by rw [h.cost r hr], fun r hr => by rw [h.cost1 r hr], fun r hr => by rw [h.iiter r hr], h.tol, fun _ _ => rfl,
    by simp [h.length]⟩

theorem out_cglsLoop {damp2 tol : ℝ} (niter : Int) (m : Nat) : ∀ {q : Nat → CGLSS K × XArr K} {s : CGLS K} (tr : Nat → List (XArr K)), CGLSRep may n dt damp2 tol q s →
    m = (niter - s.iiter).toNat →
    Out n may (fun w => CGLSRep may n dt damp2 tol fun r => ((w r).1, (w r).2.1)) (fun r => CGLSS.loop (env n J r) (op r) niter m (q r).1 (q r).2 (tr r))
      (s.steps fn damp2 tol m) := by
  induction m with
  | zero =>
    intro q s tr h _
    unfold CGLSS.loop CGLS.steps
    exact Out.ret (K := K) (R := fun w => CGLSRep may n dt damp2 tol fun r => ((w r).1, (w r).2.1)) (a := fun r => ((q r).1, (q r).2, tr r)) h
  | succ m ih =>
    intro q s tr h hm
    unfold CGLSS.loop CGLS.steps
    have hc : ∀ r < n, (((q r).1.iiter : Int) < niter ∧ (q r).1.kold > (q r).1.tol) ↔ tol < s.k := by
      intro r hr
      rw [h.iiter r hr, h.k r hr, h.tol r hr]
      exact ⟨fun h => h.2, fun h => ⟨by omega, h⟩⟩
    by_cases ht : tol < s.k
    · rw [if_pos ht]
      refine Out.congr
        (ps := fun r => (CGLSS.step (env n J r) (op r) (q r).1 (q r).2).bind fun p' => CGLSS.loop (env n J r) (op r) niter m p'.1 p'.2 (tr r ++ [p'.2]))
        ?_ fun r hr => by rw [if_pos ((hc r hr).2 ht)]; rfl
      refine Out.bindOk (out_cglsStep hS ho h) fun q' s' hs h' => ?_
      have e := cglsStep_iiter hs
      exact ih (fun r => tr r ++ [(q' r).2]) h' (by omega)
    · rw [if_neg ht]
      refine Out.congr (ps := fun r => (.ret ((q r).1, (q r).2, tr r) : P K _)) ?_ fun r hr => by rw [if_neg (fun h => ht ((hc r hr).1 h))]
      exact Out.ret (K := K) (R := fun w => CGLSRep may n dt damp2 tol fun r => ((w r).1, (w r).2.1)) (a := fun r => ((q r).1, (q r).2, tr r)) h

/-- `cgls` -/
theorem out_cgls {y x : Nat → XArr K} {a b : SNum K} (hy : RepS may n dt y a) (hx : RepS may n dt x b) (niter : Int) (damp tol : ℝ) :
    Out n may (fun (w : Nat → CGLSS.Result K) (s : CGLS K) => RepS may n dt (fun r => (w r).x) s.x ∧
        ∀ r < n, (⟨(w r).istop, (w r).iiter, (w r).r1norm, (w r).r2norm, (w r).cost⟩ : CGLSNumbers) = s.numbers tol)
      (fun r => CGLSS.solve (env n J r) (op r) (y r) (x r) (some niter) damp tol)
      ((CGLS.start fn damp a b).bind (CGLS.steps fn (damp ^ 2) tol niter.toNat)) := by
  unfold CGLSS.solve
  simp only [Prog.bind_eq]
  refine Out.bindOk (out_cglsStart hS ho hy hx (some niter) damp tol) fun q s hs h => ?_
  have e0 : s.iiter = 0 := by
    simp only [CGLS.start, ebind, ebind_ok] at hs
    obtain ⟨_, -, _, -, _, -, _, -, _, -, _, -, _, -, hs⟩ := hs
    obtain rfl := Except.ok.inj hs
    rfl
  have e1 : ∀ r < n, ((niter - (q r).1.iiter).toNat : Nat) = niter.toNat := fun r hr => by rw [h.iiter r hr, e0]; simp
  have := out_cglsLoop hS ho niter niter.toNat (fun _ => []) h (by rw [e0]; simp)
  have h2 := this.bind (R' := fun (w : Nat → CGLSS.Result K) (s : CGLS K) => RepS may n dt (fun r => (w r).x) s.x ∧
        ∀ r < n, (⟨(w r).istop, (w r).iiter, (w r).r1norm, (w r).r2norm, (w r).cost⟩ : CGLSNumbers) = s.numbers tol)
    (k := fun _ w => CGLSS.finalize w.1 w.2.1 w.2.2) (kk := .ok) fun w s h => by
      have hl := h.length
      refine Out.congr (ps := fun r => (.ret ⟨(w r).2.1, if s.k < tol then 1 else 2, s.iiter, s.k, s.cost1.getLastD .nan, s.cost, (w r).2.2⟩ : P K (CGLSS.Result K))) ?_ fun r hr => ?_
      · exact Out.ret ⟨h.x, fun r hr => rfl⟩
      · unfold CGLSS.finalize
        have hc1 := h.cost1 r hr
        have hi := h.iiter r hr
        have hk := h.k r hr
        have ht := h.tol r hr
        have hco := h.cost r hr
        dsimp only at hc1 hi hk ht hco
        have e : (w r).1.cost1[(w r).1.iiter]? = some (s.cost1.getLastD .nan) := by
          rw [hc1, hi, show s.iiter = s.cost1.length - 1 by omega, ← List.getLast?_eq_getElem?]
          cases hcc : s.cost1 with
          | nil => rw [hcc] at hl; simp at hl
          | cons a l => simp [List.getLast?_cons, List.getLastD_eq_getLast?]
        rw [e]
        simp only [hk, ht, hi, hco]
  have e2 : ∀ res : Except Err (CGLS K), res.bind .ok = res := fun res => by cases res <;> rfl
  rw [e2] at h2
  refine h2.congr fun r hr => ?_
  unfold CGLSS.run
  simp only [e1 r hr]

end

end SScript
end Verif

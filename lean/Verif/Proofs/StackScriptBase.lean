/-
  Operations on stacks give what they give with lists of NumPy arrays, or some rank raises.
-/
import Verif.Proofs.Script
import Verif.Proofs.Stacked
import Verif.Proofs.StackedNorm
import Verif.Spec.StackScript

namespace Verif
namespace SScript
open NDArray Script
set_option linter.unusedSectionVars false

variable {K σ ι κ : Type} [RCLike K] {n : Nat} {J : Nat → Nat → K} {dt : DType} {may : Bool}
variable {A B A' B' : Type}

/-! ### lists -/

/-- a function on all elements, that may fail -/
def emap (f : A → Except Err B) : List A → Except Err (List B)
  | [] => .ok []
  | a :: l => (f a).bind fun b => (emap f l).bind fun bs => .ok (b :: bs)

theorem ListRel.length {R : (Nat → A) → B → Prop} {f : Nat → List A} {l : List B} (h : ListRel n R f l) : ∀ r < n, (f r).length = l.length := by
  induction l generalizing f with
  | nil => exact fun r hr => by rw [h r hr]; rfl
  | cons b l ih =>
    obtain ⟨g, t, -, h2, h3⟩ := h
    exact fun r hr => by rw [h3 r hr, List.length_cons, ih h2 r hr, List.length_cons]

theorem ListRel.congr {R : (Nat → A) → B → Prop} {f f' : Nat → List A} {l : List B} (h : ListRel n R f l) (e : ∀ r < n, f' r = f r) : ListRel n R f' l := by
  cases l with
  | nil => exact fun r hr => (e r hr).trans (h r hr)
  | cons b l =>
    obtain ⟨g, t, h1, h2, h3⟩ := h
    exact ⟨g, t, h1, h2, fun r hr => (e r hr).trans (h3 r hr)⟩

theorem ListRel.same {f : Nat → List A} {l : List A} (h : ListRel n (Same n) f l) : Same n f l := by
  induction l generalizing f with
  | nil => exact h
  | cons b l ih =>
    obtain ⟨g, t, h1, h2, h3⟩ := h
    exact fun r hr => by rw [h3 r hr, h1 r hr, ih h2 r hr]

theorem ListRel.map {R : (Nat → A) → B → Prop} {f : Nat → List A} {l : List B} (h : ListRel n R f l) {u : A → A'} {v : B → A'} (huv : ∀ g b, R g b → ∀ r < n, u (g r) = v b) :
    ∀ r < n, (f r).map u = l.map v := by
  induction l generalizing f with
  | nil => exact fun r hr => by rw [h r hr]; rfl
  | cons b l ih =>
    obtain ⟨g, t, h1, h2, h3⟩ := h
    exact fun r hr => by rw [h3 r hr, List.map_cons, List.map_cons, huv _ _ h1 r hr, ih h2 r hr]

theorem ListRel.nth {R : (Nat → A) → B → Prop} {f : Nat → List A} {l : List B} (h : ListRel n R f l) (i : Nat) :
    match l[i]? with
    | none => ∀ r < n, (f r)[i]? = none
    | some b => ∃ g, R g b ∧ ∀ r < n, (f r)[i]? = some (g r) := by
  induction l generalizing f i with
  | nil => exact fun r hr => by rw [h r hr]; rfl
  | cons b l ih =>
    obtain ⟨g, t, h1, h2, h3⟩ := h
    cases i with
    | zero => exact ⟨g, h1, fun r hr => by rw [h3 r hr]; rfl⟩
    | succ i =>
      have := ih h2 i
      rw [List.getElem?_cons_succ]
      cases hl : l[i]? with
      | none => rw [hl] at this; exact fun r hr => by rw [h3 r hr]; exact this r hr
      | some b' =>
        rw [hl] at this
        obtain ⟨g', e1, e2⟩ := this
        exact ⟨g', e1, fun r hr => by rw [h3 r hr]; exact e2 r hr⟩

theorem out_nil {R : (Nat → A) → B → Prop} : Out n may (ListRel n R) (fun _ => (.ret [] : P K (List A))) (.ok []) := Out.ret (a := fun _ => []) fun _ _ => rfl

theorem out_cons {R : (Nat → A) → B → Prop} {ps : Nat → P K A} {qs : Nat → P K (List A)} {x : Except Err B} {y : Except Err (List B)} (h1 : Out n may R ps x)
    (h2 : Out n may (ListRel n R) qs y) :
    Out n may (ListRel n R) (fun r => (ps r).bind fun b => (qs r).bind fun bs => .ret (b :: bs)) (x.bind fun b => y.bind fun bs => .ok (b :: bs)) :=
  h1.bind fun g b hb => h2.bind (k := fun r bs => .ret (g r :: bs)) fun t l hl => Out.ret (a := fun r => g r :: t r) ⟨g, t, hb, hl, fun _ _ => rfl⟩

/-- a loop over a list -/
theorem out_for {R : (Nat → A) → B → Prop} {R' : (Nat → A') → B' → Prop} {F : Nat → A → P K A'} {G : B → Except Err B'}
    (hF : ∀ g b, R g b → Out n may R' (fun r => F r (g r)) (G b)) {f : Nat → List A} {l : List B} (h : ListRel n R f l) :
    Out n may (ListRel n R') (fun r => forList (F r) (f r)) (emap G l) := by
  induction l generalizing f with
  | nil => exact out_nil.congr fun r hr => by rw [h r hr]; rfl
  | cons b l ih =>
    obtain ⟨g, t, h1, h2, h3⟩ := h
    exact (out_cons (hF g b h1) (ih h2)).congr fun r hr => by rw [h3 r hr]; rfl

theorem emap_ok {f : A → B} (l : List A) : emap (fun a => .ok (f a)) l = .ok (l.map f) := by
  induction l with
  | nil => rfl
  | cons a l ih => unfold emap; rw [ih]; rfl

/-- a loop over two lists of the same length -/
theorem out_for2 {R : (Nat → DArr K) → NDArray K → Prop} {F : Nat → DArr K × DArr K → P K (DArr K)} {u : K → K → K}
    (hF : ∀ g g' b b', R g b → R g' b' → Out n may R (fun r => F r (g r, g' r)) (elementwise u b b')) :
    ∀ {f f' : Nat → List (DArr K)} {l l' : List (NDArray K)}, ListRel n R f l → ListRel n R f' l' → l.length = l'.length →
    Out n may (ListRel n R) (fun r => forList (F r) ((f r).zip (f' r))) (SNum.zipAll u l l')
  | f, f', [], [], h, h', _ => out_nil.congr fun r hr => by rw [h r hr, h' r hr]; rfl
  | f, f', b :: l, b' :: l', ⟨g, t, h1, h2, h3⟩, ⟨g', t', h1', h2', h3'⟩, hl =>
    (out_cons (hF g g' b b' h1 h1') (out_for2 hF h2 h2' (Nat.succ.inj hl))).congr fun r hr => by rw [h3 r hr, h3' r hr]; rfl

theorem out_dots {R : (Nat → DArr K) → NDArray K → Prop} {F : Nat → DArr K × DArr K → P K K} {u : NDArray K → NDArray K → Except Err K}
    (hF : ∀ g g' b b', R g b → R g' b' → Out n may (Same n) (fun r => F r (g r, g' r)) (u b b')) :
    ∀ {f f' : Nat → List (DArr K)} {l l' : List (NDArray K)}, ListRel n R f l → ListRel n R f' l' → l.length = l'.length →
    Out n may (ListRel n (Same n)) (fun r => forList (F r) ((f r).zip (f' r))) (emap (fun t : NDArray K × NDArray K => u t.1 t.2) (l.zip l'))
  | f, f', [], [], h, h', _ => out_nil.congr fun r hr => by rw [h r hr, h' r hr]; rfl
  | f, f', b :: l, b' :: l', ⟨g, t, h1, h2, h3⟩, ⟨g', t', h1', h2', h3'⟩, hl =>
    (out_cons (hF g g' b b' h1 h1') (out_dots hF h2 h2' (Nat.succ.inj hl))).congr fun r hr => by rw [h3 r hr, h3' r hr]; rfl

theorem forList_zip_self {F : A × A → P K B} (x : List A) : forList F (x.zip x) = forList (fun a => F (a, a)) x := by
  induction x with
  | nil => rfl
  | cons a x ih => simp only [List.zip_cons_cons, forList, ih]

theorem forList_zip_zip {F : A × A × A' → P K B} (x : List A) : ∀ y : List A', forList F (x.zip (x.zip y)) = forList (fun t : A × A' => F (t.1, t.1, t.2)) (x.zip y) := by
  induction x with
  | nil => exact fun _ => rfl
  | cons a x ih =>
    intro y
    cases y with
    | nil => rfl
    | cons b y => simp only [List.zip_cons_cons, forList, ih]

/-! ### serial facts -/

theorem zipAll_shapes {g : K → K → K} : ∀ {l m e : List (NDArray K)}, SNum.zipAll g l m = .ok e → l.map (·.shape) = m.map (·.shape)
  | [], [], _, _ => rfl
  | [], _ :: _, _, h => by cases h
  | _ :: _, [], _, h => by cases h
  | a :: l, b :: m, e, h => by
    unfold SNum.zipAll at h
    obtain ⟨x, h1, h⟩ := ebind_ok.1 h
    obtain ⟨y, h2, -⟩ := ebind_ok.1 h
    unfold elementwise at h1
    split at h1
    · rename_i hs
      simp only [List.map_cons, hs, zipAll_shapes h2]
    · cases h1

theorem zipAll_length {g : K → K → K} {l m e : List (NDArray K)} (h : SNum.zipAll g l m = .ok e) : e.length = l.length := by
  induction l generalizing m e with
  | nil => cases m with
    | nil => obtain rfl := Except.ok.inj h; rfl
    | cons b m => cases h
  | cons a l ih => cases m with
    | nil => cases h
    | cons b m =>
      unfold SNum.zipAll at h
      obtain ⟨x, h1, h⟩ := ebind_ok.1 h
      obtain ⟨y, h2, h⟩ := ebind_ok.1 h
      obtain rfl := Except.ok.inj h
      rw [List.length_cons, ih h2, List.length_cons]

theorem zipAll_map (g g' : K → K → K) (f : K → K) (hg : ∀ a b, g a (f b) = g' a b) : ∀ l m : List (NDArray K), SNum.zipAll g l (m.map (SNum.mapArr f)) = SNum.zipAll g' l m
  | [], [] => rfl
  | [], _ :: _ => rfl
  | _ :: _, [] => rfl
  | a :: l, b :: m => by
    have e : elementwise g a (SNum.mapArr f b) = elementwise g' a b := by
      unfold elementwise SNum.mapArr
      dsimp only
      rw [List.zipWith_map_right]
      simp only [hg]
    simp only [List.map_cons, SNum.zipAll, e, zipAll_map g g' f hg l m]

theorem total_cons (a : NDArray K) (l : List (NDArray K)) : SNum.total (a :: l) = a.data.sum + SNum.total l := by simp [SNum.total]

/-- the sums of the parts -/
theorem zipAll_total (g : K → K → K) : ∀ {l m : List (NDArray K)}, l.length = m.length →
    (emap (fun t : NDArray K × NDArray K => (elementwise g t.1 t.2).bind fun e => .ok e.data.sum) (l.zip m)).bind (fun s => Except.ok s.sum) =
      (SNum.zipAll g l m).bind fun e => .ok (SNum.total e)
  | [], [], _ => rfl
  | a :: l, b :: m, h => by
    have ih := zipAll_total g (Nat.succ.inj h)
    simp only [List.zip_cons_cons, emap, SNum.zipAll]
    cases h1 : elementwise g a b with
    | error e => rfl
    | ok x =>
      cases h2 : SNum.zipAll g l m with
      | error e =>
        rw [h2] at ih
        cases h3 : emap (fun t : NDArray K × NDArray K => (elementwise g t.1 t.2).bind fun e => .ok e.data.sum) (l.zip m) with
        | error e' => rw [h3] at ih; exact ih
        | ok y => rw [h3] at ih; cases ih
      | ok y =>
        rw [h2] at ih
        cases h3 : emap (fun t : NDArray K × NDArray K => (elementwise g t.1 t.2).bind fun e => .ok e.data.sum) (l.zip m) with
        | error e' => rw [h3] at ih; cases ih
        | ok s =>
          rw [h3] at ih
          have ih : s.sum = SNum.total y := Except.ok.inj ih
          show Except.ok _ = Except.ok _
          rw [total_cons, List.sum_cons, ih]

/-! ### the operations -/

variable (hS : Setting n K dt)
include hS

/-- overwriting the first operand by the result -/
theorem out_store {u : K → K → K} (op : BinaryOp) (hu : op.fn = u) {g g' : Nat → DArr K} {a a' : NDArray K} (h : Rep may n dt g a) (h' : Rep may n dt g' a') :
    Out n may (Rep may n dt) (fun r => (op.run (env n J r) (g r) (g' r)).bind fun z => (g r).setAll (env n J r) z.larr) (elementwise u a a') := by
  subst hu
  refine out_arr hS _ h h' (ps := fun r d e => (op.run (env n J r) d e).bind fun z => d.setAll (env n J r) z.larr) (fun _ _ L L' d d' _ h2 _ h4 hb => ?_) fun L d d' w m1 m2 => ?_
  · exact (raises_binary (J := J) (S := ⟨L, dt⟩) (S' := ⟨L', dt⟩) (h2.wf hS.pos) (h2.mem hS.real h4) op hb).bind _
  · have hm : VSpace.Mem ⟨L, dt⟩ (List.zipWith op.fn d d') := ⟨by rw [List.length_zipWith, m1.1, m2.1, Nat.min_self], fun h x _ => hS.real h x⟩
    refine Runs.bind_ok (a := fun r => VSpace.vec ⟨L, dt⟩ n (List.zipWith op.fn d d') r) ?_ (runs_set_vec (S := ⟨L, dt⟩) w m1 hm)
    cases op with
    | add => exact runs_add_vec w m1 m2
    | sub => exact runs_sub_vec w m1 m2
    | mul => exact runs_mul_vec w m1 m2

/-- a copy is the same -/
theorem runs_copy_rep {g : Nat → DArr K} {a : NDArray K} (h : Rep may n dt g a) : Runs n (fun r => (g r).copy (env n J r)) fun r => .ok (g r) := by
  obtain ⟨-, h2, L, h3, h4⟩ := h
  have hL := h3.held hS.pos
  exact (runs_copy_vec (J := J) (S := ⟨L, dt⟩) (hL.wf hS.pos) (hL.mem hS.real h2)).congr (fun r hr => by rw [h4 r hr]) fun r hr => by rw [h4 r hr]

theorem runs_copy_list {f : Nat → List (DArr K)} {l : List (NDArray K)} (h : ListRel n (Rep may n dt) f l) : Runs n (fun r => SArr.copy (env n J r) (f r)) fun r => .ok (f r) := by
  induction l generalizing f with
  | nil => exact runs_forList_nil.congr (fun r hr => by rw [h r hr]; rfl) fun r hr => by rw [h r hr]
  | cons b l ih =>
    obtain ⟨g, t, h1, h2, h3⟩ := h
    exact (runs_forList_cons (runs_copy_rep (J := J) hS h1) (ih h2)).congr (fun r hr => by rw [h3 r hr]; rfl) fun r hr => by rw [h3 r hr]

/-- an operation after a copy -/
theorem out_copied {R' : (Nat → A') → B' → Prop} {f : Nat → List (DArr K)} {l : List (NDArray K)} (h : ListRel n (Rep may n dt) f l) {k : Nat → SArr K → P K A'} {res : Except Err B'}
    (hk : Out n may R' (fun r => k r (f r)) res) : Out n may R' (fun r => (SArr.copy (env n J r) (f r)).bind (k r)) res := by
  refine Out.step (R := fun g (_ : Unit) => ∀ r < n, g r = f r) (b := ()) (.inl ⟨(), rfl, f, fun _ _ => rfl, runs_copy_list hS h⟩) fun g hg => hk.congr fun r hr => by rw [hg r hr]

theorem outl_copy {f : Nat → List (DArr K)} {l : List (NDArray K)} (h : ListRel n (Rep may n dt) f l) : Out n may (ListRel n (Rep may n dt)) (fun r => SArr.copy (env n J r) (f r)) (.ok l) :=
  .inl ⟨l, rfl, f, h, runs_copy_list hS h⟩

theorem outl_conj {f : Nat → List (DArr K)} {l : List (NDArray K)} (h : ListRel n (Rep may n dt) f l) :
    Out n may (ListRel n (Rep may n dt)) (fun r => SArr.conj (env n J r) (f r)) (.ok (l.map (SNum.mapArr star))) := by
  rw [← emap_ok]
  exact out_for (F := fun r d => d.conj (env n J r)) (fun g b hb => out_unary (J := J) hS .conj hb) h

theorem outl_neg {f : Nat → List (DArr K)} {l : List (NDArray K)} (h : ListRel n (Rep may n dt) f l) :
    Out n may (ListRel n (Rep may n dt)) (fun r => SArr.neg (env n J r) (f r)) (.ok (l.map (SNum.mapArr fun x => -x))) := by
  unfold SArr.neg
  simp only [Prog.bind_eq]
  refine out_copied hS h ?_
  rw [← emap_ok]
  refine out_for (F := fun r d => d.setAll (env n J r) (d.larr.map (- ·))) (fun g b hb => ?_) h
  obtain ⟨s, t, d⟩ := b
  obtain ⟨rfl, h2, L, h3, h4⟩ := hb
  have hL := h3.held hS.pos
  have hm := hL.mem (dt := t) hS.real h2
  refine (out_rep (d := d.map (- ·)) (by rw [List.length_map, h2]) h3
    (runs_new_vec (J := J) (S := ⟨L, t⟩) (v := fun r => (VSpace.vec ⟨L, t⟩ n d r).larr.map (- ·)) (hL.wf hS.pos) (mem_neg hm) (fun _ _ => rfl) (fun r _ => (piece_map _ d r).symm) (L.piece d)
      (fun r hr => (good_vec (S := ⟨L, t⟩) (hL.wf hS.pos) hm).length r hr))).congr fun r hr => ?_
  rw [h4 r hr]
  rfl

theorem out_smul_rep {t : DType} {s : K} {g : Nat → DArr K} {a : NDArray K} (h : Rep may n dt g a) :
    Out n may (Rep may n dt) (fun r => (g r).smul (env n J r) t s) (.ok (SNum.mapArr (· * s) a)) := by
  obtain ⟨_, t', d⟩ := a
  obtain ⟨rfl, h2, L, h3, h4⟩ := h
  have hL := h3.held hS.pos
  refine (out_rep (d := d.map (· * s)) (by rw [List.length_map, h2]) h3
    (runs_smul_vec (J := J) (S := ⟨L, t'⟩) (t := t) (hL.wf hS.pos) (fun h => hS.real h _) (hL.mem hS.real h2))).congr fun r hr => ?_
  rw [h4 r hr]

theorem outl_smul {t : DType} {s : K} {f : Nat → List (DArr K)} {l : List (NDArray K)} (h : ListRel n (Rep may n dt) f l) :
    Out n may (ListRel n (Rep may n dt)) (fun r => SArr.smul (env n J r) (f r) t s) (.ok (l.map (SNum.mapArr (· * s)))) := by
  unfold SArr.smul
  simp only [Prog.bind_eq]
  refine out_copied hS h ?_
  simp only [forList_zip_self]
  rw [← emap_ok]
  refine out_for (F := fun r d => (DArr.smul (env n J r) d t s).bind fun z => d.setAll (env n J r) z.larr) (fun g b hb => ?_) h
  obtain ⟨_, t', d⟩ := b
  obtain ⟨rfl, h2, L, h3, h4⟩ := hb
  have hL := h3.held hS.pos
  have hm := hL.mem (dt := t') hS.real h2
  have hm' : VSpace.Mem ⟨L, t'⟩ (d.map (· * s)) := ⟨by rw [List.length_map, hm.1], fun h x _ => hS.real h x⟩
  have h5 : Runs n (fun r => (DArr.smul (env n J r) (VSpace.vec ⟨L, t'⟩ n d r) t s).bind fun z => (VSpace.vec ⟨L, t'⟩ n d r).setAll (env n J r) z.larr)
      fun r => .ok (VSpace.vec ⟨L, t'⟩ n (d.map (· * s)) r) :=
    Runs.bind_ok (a := fun r => VSpace.vec ⟨L, t'⟩ n (d.map (· * s)) r) (runs_smul_vec (J := J) (S := ⟨L, t'⟩) (t := t) (hL.wf hS.pos) (fun h => hS.real h _) hm)
      (runs_set_vec (S := ⟨L, t'⟩) (hL.wf hS.pos) hm hm')
  have h6 := out_rep (may := may) (s := _) (by rw [List.length_map, h2]) h3 h5
  exact h6.congr fun r hr => by rw [h4 r hr]

omit hS in
theorem rep_gshape (hn : 0 < n) {g : Nat → DArr K} {a : NDArray K} (h : Rep may n dt g a) : ∀ r < n, (g r).gshape = a.shape := by
  obtain ⟨-, -, L, h3, h4⟩ := h
  exact fun r hr => by rw [h4 r hr]; exact (h3.held hn).shape

/-- after the check of the sizes -/
theorem out_checked {f f' : Nat → List (DArr K)} {l l' : List (NDArray K)} (h : ListRel n (Rep may n dt) f l) (h' : ListRel n (Rep may n dt) f' l')
    {R' : (Nat → A') → B' → Prop} {k : Nat → P K A'} {u : K → K → K} {kk : List (NDArray K) → Except Err B'}
    (hk : l.length = l'.length → Out n may R' k ((SNum.zipAll u l l').bind kk)) :
    Out n may R' (fun r => (SArr.checkSize (f r) (f' r)).bind fun _ => k r) ((SNum.zipAll u l l').bind kk) := by
  have e1 := h.map fun g b hb => rep_gshape hS.pos hb
  have e2 := h'.map fun g b hb => rep_gshape hS.pos hb
  by_cases hs : l.map (·.shape) = l'.map (·.shape)
  · have hl : l.length = l'.length := by simpa using congrArg List.length hs
    refine (hk hl).congr fun r hr => ?_
    unfold SArr.checkSize
    rw [if_neg (not_not.2 (by rw [h.length r hr, h'.length r hr, hl])), if_neg (not_not.2 (by rw [e1 r hr, e2 r hr, hs]))]
    rfl
  · have : ∃ e, SNum.zipAll u l l' = .error e := by
      cases hz : SNum.zipAll u l l' with
      | error e => exact ⟨e, rfl⟩
      | ok z => exact absurd (zipAll_shapes hz) hs
    obtain ⟨e, he⟩ := this
    rw [he]
    refine (Out.throw hS.pos .value e).congr fun r hr => ?_
    unfold SArr.checkSize
    have e3 : ¬ (f r).map (·.gshape) = (f' r).map (·.gshape) := by rw [e1 r hr, e2 r hr]; exact hs
    by_cases e4 : (f r).length ≠ (f' r).length
    · rw [if_pos e4]; rfl
    · rw [if_neg e4, if_pos e3]; rfl

omit hS in
theorem ebind_pure {α : Type} (x : Except Err α) : x.bind .ok = x := by cases x <;> rfl

theorem outl_stored (op : BinaryOp) {f f' : Nat → List (DArr K)} {l l' : List (NDArray K)} (h : ListRel n (Rep may n dt) f l) (h' : ListRel n (Rep may n dt) f' l') (hl : l.length = l'.length) :
    Out n may (ListRel n (Rep may n dt)) (fun r => forList (fun t : DArr K × DArr K => (op.run (env n J r) t.1 t.2).bind fun z => t.1.setAll (env n J r) z.larr) ((f r).zip (f' r)))
      ((SNum.zipAll op.fn l l').bind .ok) := by
  rw [ebind_pure]
  exact out_for2 (F := fun r t => (op.run (env n J r) t.1 t.2).bind fun z => t.1.setAll (env n J r) z.larr) (fun g g' b b' hb hb' => out_store hS op rfl hb hb') h h' hl

section
variable {f f' : Nat → List (DArr K)} {l l' : List (NDArray K)} (h : ListRel n (Rep may n dt) f l) (h' : ListRel n (Rep may n dt) f' l')
include h h'

theorem outl_add : Out n may (ListRel n (Rep may n dt)) (fun r => SArr.add (env n J r) (f r) (f' r)) (SNum.zipAll (· + ·) l l') := by
  rw [← ebind_pure (SNum.zipAll _ l l')]
  unfold SArr.add
  simp only [Prog.bind_eq]
  refine out_checked hS h h' fun hl => ?_
  refine out_copied hS h ?_
  simp only [forList_zip_zip]
  exact outl_stored hS .add h h' hl

theorem outl_mul : Out n may (ListRel n (Rep may n dt)) (fun r => SArr.mul (env n J r) (f r) (f' r)) (SNum.zipAll (· * ·) l l') := by
  rw [← ebind_pure (SNum.zipAll _ l l')]
  unfold SArr.mul
  simp only [Prog.bind_eq]
  refine out_checked hS h h' fun hl => ?_
  refine out_copied hS h ?_
  simp only [forList_zip_zip]
  exact outl_stored hS .mul h h' hl

theorem outl_iadd : Out n may (ListRel n (Rep may n dt)) (fun r => SArr.iadd (env n J r) (f r) (f' r)) (SNum.zipAll (· + ·) l l') := by
  rw [← ebind_pure (SNum.zipAll _ l l')]
  unfold SArr.iadd
  simp only [Prog.bind_eq]
  exact out_checked hS h h' fun hl => outl_stored hS .add h h' hl

theorem outl_sub : Out n may (ListRel n (Rep may n dt)) (fun r => SArr.sub' (env n J r) (f r) (f' r)) (SNum.zipAll (· - ·) l l') := by
  unfold SArr.sub'
  simp only [Prog.bind_eq]
  refine Out.step (outl_neg hS h') fun m hm => ?_
  rw [← zipAll_map (· + ·) (· - ·) (fun x => -x) fun a b => (sub_eq_add_neg a b).symm]
  exact outl_add hS h hm

theorem outl_isub : Out n may (ListRel n (Rep may n dt)) (fun r => SArr.isub (env n J r) (f r) (f' r)) (SNum.zipAll (· - ·) l l') := by
  unfold SArr.isub
  simp only [Prog.bind_eq]
  refine Out.step (outl_neg hS h') fun m hm => ?_
  rw [← zipAll_map (· + ·) (· - ·) (fun x => -x) fun a b => (sub_eq_add_neg a b).symm]
  exact outl_iadd hS h hm

theorem outl_dot : Out n may (Same n) (fun r => SArr.dot (env n J r) (f r) (f' r)) ((SNum.zipAll (· * ·) l l').bind fun e => .ok (SNum.total e)) := by
  unfold SArr.dot
  simp only [Prog.bind_eq]
  refine out_checked hS h h' fun hl => ?_
  rw [← zipAll_total _ hl]
  refine (out_dots (F := fun r t => t.1.dot (env n J r) t.2) (fun g g' b b' hb hb' => out_dot hS hb hb') h h' hl).bind fun s s' hs => ?_
  refine Out.ret (a := fun r => (s r).foldl (· + ·) 0) fun r hr => ?_
  dsimp only
  rw [hs.same r hr, List.sum_eq_foldl]

end

theorem outl_norm {f : Nat → List (DArr K)} {l : List (NDArray K)} (hne : l ≠ []) (h : ListRel n (Rep may n dt) f l) :
    Out n may (Same n) (fun r => SArr.norm (env n J r) (f r) .none) (.ok (.fin (SNum.length2 l))) := by
  have h0 : ∀ r < n, f r ≠ [] := fun r hr e => hne (List.length_eq_zero_iff.1 (by rw [← h.length r hr, e]; rfl))
  refine Out.congr (ps := fun r => (forList (fun d => DArr.norm (env n J r) d .none none) (f r)).bind fun s => Prog.lift (SArr.combineNorms (s.map fun a => a.data.getD 0 .nan) .none)) ?_
    fun r hr => by unfold SArr.norm; rw [if_neg (h0 r hr)]; rfl
  have h1 := out_for (may := may) (F := fun r d => DArr.norm (env n J r) d .none none) (R' := Same n) (G := fun a => .ok (⟨[], .real, [.fin (Script.norm2 a)]⟩ : NDArray FNum)) (fun g b hb => out_norm hS hb) h
  rw [emap_ok] at h1
  refine h1.step fun s hs => ?_
  have e : SArr.combineNorms (l.map fun a => FNum.fin (Script.norm2 a)) .none = .ok (.fin (SNum.length2 l)) := by
    have := combineNorms_flatten (K := K) (o := .none) (ds := l.map (·.data)) (by simpa using hne) ⟨by simp, by simp⟩ (fun h => absurd h (by simp [NormOrd.extremal]))
    rw [List.map_map] at this
    exact this
  refine Out.congr (ps := fun _ => .ret (.fin (SNum.length2 l))) (Out.ret (a := fun _ => _) fun _ _ => rfl) fun r hr => ?_
  rw [hs.same r hr, List.map_map]
  show _ = Prog.lift (SArr.combineNorms (l.map fun a => FNum.fin (Script.norm2 a)) .none)
  rw [e]
  rfl

theorem outl_asarray {f : Nat → List (DArr K)} {l : List (NDArray K)} (hne : l ≠ []) (h : ListRel n (Rep may n dt) f l) :
    Out n may (Same n) (fun r => SArr.asarray (env n J r) (f r)) (.ok (hstack dt l)) := by
  have hd : ∀ a ∈ l, a.dtype = dt := by
    clear hne
    induction l generalizing f with
    | nil => simp
    | cons b l ih =>
      obtain ⟨g, t, h1, h2, -⟩ := h
      intro a ha
      rcases List.mem_cons.1 ha with rfl | ha
      · exact h1.1
      · exact ih h2 a ha
  unfold SArr.asarray
  simp only [Prog.bind_eq]
  have h1 := out_for (may := may) (R' := Same n) (F := fun r d => DArr.asarray (env n J r) d) (G := fun a => .ok a) (fun g b hb => by
    obtain ⟨s, t, d⟩ := b
    obtain ⟨rfl, h2, L, h3, h4⟩ := hb
    have hL := h3.held hS.pos
    refine .inl ⟨_, rfl, fun _ => _, fun _ _ => rfl, (runs_asarray_vec (J := J) (S := ⟨L, t⟩) (hL.wf hS.pos) (hL.mem hS.real h2)).congr (fun r hr => by rw [h4 r hr]) fun _ _ => by rw [show (VSpace.L ⟨L, t⟩).gshape = s from hL.shape]⟩) h
  rw [emap_ok, List.map_id'] at h1
  refine h1.step fun s hs => ?_
  cases l with
  | nil => exact absurd rfl hne
  | cons a l =>
    have e := concat_flat a l
    have e2 : ∀ m : List (NDArray K), (∀ b ∈ m, b.dtype = dt) → m.foldl (fun t b => t.promote b.dtype) dt = dt := by
      intro m
      induction m with
      | nil => intro _; rfl
      | cons b m ih => intro hm; rw [List.foldl_cons, hm b (by simp), show dt.promote dt = dt by cases dt <;> rfl, ih fun c hc => hm c (by simp [hc])]
    rw [show a.dtype = dt from hd a (by simp), e2 _ hd] at e
    refine Out.congr (ps := fun _ => .ret (hstack dt (a :: l))) (Out.ret (a := fun _ => _) fun _ _ => rfl) fun r hr => ?_
    rw [hs.same r hr, e]
    rfl

end SScript
end Verif

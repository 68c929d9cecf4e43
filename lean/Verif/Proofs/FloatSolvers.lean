/-
  Stacked arrays and solvers with arbitrary arithmetic keep the ranks in step.
-/
import Verif.Proofs.FloatArray

namespace Verif
open NDArray

variable {K : Type} {α β ι : Type}
variable (A : Arith K) {n : Nat} {J : Nat → Nat → K} {g may : Prop}

/-! ### stacks -/

theorem tog_forList {R : ι → (Nat → α) → Prop} {R' : ι → (Nat → β) → Prop} {f : Nat → α → P K β} {is : List ι} {ds : List (Nat → α)} (h : List.Forall₂ R is ds)
    (hf : ∀ i ∈ is, ∀ d, R i d → Tog n may (fun r => f r (d r)) (R' i)) :
    Tog n may (fun r => forList (f r) (ds.map (· r))) (fun y => ∃ es, List.Forall₂ R' is es ∧ y = fun r => es.map (· r)) := by
  induction h with
  | nil => exact Tog.ret (Q := fun y => ∃ es, List.Forall₂ R' [] es ∧ y = fun r => es.map (· r)) (a := fun _ => []) ⟨[], .nil, rfl⟩
  | @cons i d is ds hd _ ih =>
    simp only [List.map_cons, forList, Prog.bind_eq]
    refine (hf i (by simp) d hd).bind fun b hb => ?_
    refine (ih fun j hj => hf j (by simp [hj])).bind ?_
    rintro _ ⟨es, he, rfl⟩
    exact Tog.ret (Q := fun y => ∃ es, List.Forall₂ R' (i :: is) es ∧ y = fun r => es.map (· r)) (a := fun r => b r :: es.map (· r)) ⟨b :: es, .cons hb he, rfl⟩

/-- pairing two lists -/
theorem famZip {R : ι → (Nat → α) → Prop} {R' : ι → (Nat → β) → Prop} {is : List ι} {ds : List (Nat → α)} {es : List (Nat → β)} (h : List.Forall₂ R is ds)
    (h' : List.Forall₂ R' is es) : ∃ ts : List (Nat → α × β), List.Forall₂ (fun i t => R i (fun r => (t r).1) ∧ R' i fun r => (t r).2) is ts ∧
      ∀ r, ts.map (· r) = (ds.map (· r)).zip (es.map (· r)) := by
  induction h generalizing es with
  | nil => cases h'; exact ⟨[], .nil, fun _ => rfl⟩
  | @cons i d is ds hd _ ih =>
    cases h' with
    | @cons _ e _ es he h' =>
      obtain ⟨ts, h1, h2⟩ := ih h'
      exact ⟨(fun r => (d r, e r)) :: ts, .cons ⟨hd, he⟩ h1, fun r => by simp [h2]⟩

section
variable {Ls : List Layout} {ds es : List (Nat → DArr K)}

theorem s_copy (hL : ∀ L ∈ Ls, L.WF n ∧ L.mask = none) (hd : List.Forall₂ (Fam n g) Ls ds) :
    Tog n may (fun r => A.scopy (env n J r) (ds.map (· r))) (fun y => ∃ es, List.Forall₂ (FamB n g) Ls es ∧ y = fun r => es.map (· r)) :=
  tog_forList hd fun L h _ hd => a_copy A (hL L h).1 (hL L h).2 hd

theorem forall₂_fam (h : List.Forall₂ (FamB n g) Ls ds) : List.Forall₂ (Fam n g) Ls ds := h.imp fun _ _ h => h.fam

theorem s_conj (hL : ∀ L ∈ Ls, L.WF n ∧ L.mask = none) (hd : List.Forall₂ (Fam n g) Ls ds) :
    Tog n may (fun r => A.sconj (env n J r) (ds.map (· r))) (fun y => ∃ es, List.Forall₂ (Fam n g) Ls es ∧ y = fun r => es.map (· r)) :=
  tog_forList hd fun L h _ hd => a_conj A (hL L h).1 (hL L h).2 hd

theorem s_neg (hL : ∀ L ∈ Ls, L.WF n ∧ L.mask = none) (hd : List.Forall₂ (Fam n g) Ls ds) :
    Tog n may (fun r => A.sneg (env n J r) (ds.map (· r))) (fun y => ∃ es, List.Forall₂ (Fam n g) Ls es ∧ y = fun r => es.map (· r)) := by
  unfold Arith.sneg
  simp only [Prog.bind_eq]
  refine (s_copy A hL hd).bind ?_
  rintro _ ⟨es, he, rfl⟩
  replace he := forall₂_fam he
  exact tog_forList (f := fun r d => A.setAll (env n J r) d (d.larr.map A.neg)) he fun _ _ _ hd => a_assign_neg A hd

theorem forall₂_gshape (hd : List.Forall₂ (Fam n g) Ls ds) {r : Nat} (hr : r < n) : (ds.map (· r)).map (·.gshape) = Ls.map (·.gshape) := by
  induction hd with
  | nil => rfl
  | cons h _ ih =>
    obtain ⟨dt, a, _, _, h⟩ := h
    simp only [List.map_cons, ih, h r hr]
    rfl

theorem s_checkSize (hd : List.Forall₂ (Fam n g) Ls ds) (he : List.Forall₂ (Fam n g) Ls es) {r : Nat} (hr : r < n) :
    SArr.checkSize (ds.map (· r)) (es.map (· r)) = .ret () := by
  unfold SArr.checkSize
  rw [if_neg (by simp [← hd.length_eq, ← he.length_eq]), if_neg (by rw [forall₂_gshape hd hr, forall₂_gshape he hr]; simp)]

theorem s_add (hL : ∀ L ∈ Ls, L.WF n ∧ L.mask = none) (hd : List.Forall₂ (Fam n g) Ls ds) (he : List.Forall₂ (Fam n g) Ls es) :
    Tog n may (fun r => A.sadd (env n J r) (ds.map (· r)) (es.map (· r))) (fun y => ∃ es, List.Forall₂ (Fam n g) Ls es ∧ y = fun r => es.map (· r)) := by
  have key : Tog n may (fun r => (A.scopy (env n J r) (ds.map (· r))).bind fun s => forList (fun t : DArr K × DArr K × DArr K =>
      (A.dadd (env n J r) t.2.1 t.2.2).bind fun z => A.setAll (env n J r) t.1 z.larr) (s.zip ((ds.map (· r)).zip (es.map (· r)))))
      (fun y => ∃ es, List.Forall₂ (Fam n g) Ls es ∧ y = fun r => es.map (· r)) := by
    refine (s_copy A hL hd).bind ?_
    rintro _ ⟨ss, hs, rfl⟩
    replace hs := forall₂_fam hs
    obtain ⟨ts, h1, h2⟩ := famZip hd he
    obtain ⟨us, h3, h4⟩ := famZip hs h1
    simp only [← h2, ← h4]
    refine tog_forList (f := fun r (t : DArr K × DArr K × DArr K) => (A.dadd (env n J r) t.2.1 t.2.2).bind fun z => A.setAll (env n J r) t.1 z.larr) h3 fun L h t ht => ?_
    exact (a_add A (hL L h).1 (hL L h).2 ht.2.1 ht.2.2).bind fun z hz => (a_assign A ht.1 hz).imp fun _ h => h.fam
  exact key.congr fun r hr => by simp only [Arith.sadd, Prog.bind_eq, s_checkSize hd he hr, Prog.ret_bind]

theorem s_iadd (hL : ∀ L ∈ Ls, L.WF n ∧ L.mask = none) (hd : List.Forall₂ (Fam n g) Ls ds) (he : List.Forall₂ (Fam n g) Ls es) :
    Tog n may (fun r => A.siadd (env n J r) (ds.map (· r)) (es.map (· r))) (fun y => ∃ es, List.Forall₂ (FamB n g) Ls es ∧ y = fun r => es.map (· r)) := by
  have key : Tog n may (fun r => forList (fun t : DArr K × DArr K =>
      (A.dadd (env n J r) t.1 t.2).bind fun z => A.setAll (env n J r) t.1 z.larr) ((ds.map (· r)).zip (es.map (· r))))
      (fun y => ∃ es, List.Forall₂ (FamB n g) Ls es ∧ y = fun r => es.map (· r)) := by
    obtain ⟨ts, h1, h2⟩ := famZip hd he
    simp only [← h2]
    refine tog_forList (f := fun r (t : DArr K × DArr K) => (A.dadd (env n J r) t.1 t.2).bind fun z => A.setAll (env n J r) t.1 z.larr) h1 fun L h t ht => ?_
    exact (a_add A (hL L h).1 (hL L h).2 ht.1 ht.2).bind fun z hz => a_assign A ht.1 hz
  exact key.congr fun r hr => by simp only [Arith.siadd, Prog.bind_eq, s_checkSize hd he hr, Prog.ret_bind]

theorem s_sub (hL : ∀ L ∈ Ls, L.WF n ∧ L.mask = none) (hd : List.Forall₂ (Fam n g) Ls ds) (he : List.Forall₂ (Fam n g) Ls es) :
    Tog n may (fun r => A.ssub (env n J r) (ds.map (· r)) (es.map (· r))) (fun y => ∃ es, List.Forall₂ (Fam n g) Ls es ∧ y = fun r => es.map (· r)) := by
  unfold Arith.ssub
  simp only [Prog.bind_eq]
  refine (s_neg A hL he).bind ?_
  rintro _ ⟨ms, hm, rfl⟩
  exact s_add A hL hd hm

theorem s_isub (hL : ∀ L ∈ Ls, L.WF n ∧ L.mask = none) (hd : List.Forall₂ (Fam n g) Ls ds) (he : List.Forall₂ (Fam n g) Ls es) :
    Tog n may (fun r => A.sisub (env n J r) (ds.map (· r)) (es.map (· r))) (fun y => ∃ es, List.Forall₂ (Fam n g) Ls es ∧ y = fun r => es.map (· r)) := by
  unfold Arith.sisub
  simp only [Prog.bind_eq]
  refine (s_neg A hL he).bind ?_
  rintro _ ⟨ms, hm, rfl⟩
  exact (s_iadd A hL hd hm).imp fun _ ⟨es, he, h⟩ => ⟨es, forall₂_fam he, h⟩

theorem s_smul (t : DType) (a : K) (hL : ∀ L ∈ Ls, L.WF n ∧ L.mask = none) (hd : List.Forall₂ (Fam n g) Ls ds) :
    Tog n may (fun r => A.ssmul (env n J r) (ds.map (· r)) t a) (fun y => ∃ es, List.Forall₂ (Fam n g) Ls es ∧ y = fun r => es.map (· r)) := by
  unfold Arith.ssmul
  simp only [Prog.bind_eq]
  refine (s_copy A hL hd).bind ?_
  rintro _ ⟨ss, hs, rfl⟩
  replace hs := forall₂_fam hs
  obtain ⟨us, h3, h4⟩ := famZip hs hd
  simp only [← h4]
  refine tog_forList (f := fun r (p : DArr K × DArr K) => (A.dsmul (env n J r) p.2 t a).bind fun z => A.setAll (env n J r) p.1 z.larr) h3 fun L h t ht => ?_
  exact (a_smul A _ a (hL L h).1 (hL L h).2 ht.2).bind fun z hz => (a_assign A ht.1 hz).imp fun _ h => h.fam

theorem forall₂_same {es : List (Nat → K)} (h : List.Forall₂ (fun (_ : Layout) e => Same e) Ls es) : ∃ cs : List K, ∀ r, es.map (· r) = cs := by
  induction h with
  | nil => exact ⟨[], fun _ => rfl⟩
  | cons h _ ih =>
    obtain ⟨c, rfl⟩ := h
    obtain ⟨cs, ih⟩ := ih
    exact ⟨c :: cs, fun r => by simp [ih]⟩

theorem s_dot (hL : ∀ L ∈ Ls, L.WF n ∧ L.mask = none) (hd : List.Forall₂ (Fam n g) Ls ds) (he : List.Forall₂ (Fam n g) Ls es) :
    Tog n may (fun r => A.sdot (env n J r) (ds.map (· r)) (es.map (· r))) Same := by
  have key : Tog n may (fun r => (forList (fun p : DArr K × DArr K => A.ddot (env n J r) p.1 p.2) ((ds.map (· r)).zip (es.map (· r)))).bind
      fun l => .ret (l.foldl A.add A.zero)) Same := by
    obtain ⟨ts, h1, h2⟩ := famZip hd he
    simp only [← h2]
    refine Tog.bind (tog_forList (R' := fun _ e => Same e) (f := fun r (p : DArr K × DArr K) => A.ddot (env n J r) p.1 p.2) h1
      fun L h t ht => a_dot A (hL L h).1 (hL L h).2 ht.1 ht.2) ?_
    rintro _ ⟨es, he, rfl⟩
    obtain ⟨cs, hc⟩ := forall₂_same he
    simp only [hc]
    exact Tog.ret ⟨_, rfl⟩
  exact key.congr fun r hr => by simp only [Arith.sdot, Prog.bind_eq, s_checkSize hd he hr, Prog.ret_bind]

theorem s_norm (hne : ¬ may → Ls ≠ []) (hL : ∀ L ∈ Ls, L.WF n ∧ L.mask = none) (hd : List.Forall₂ (Fam n g) Ls ds) : Tog n may (fun r => A.snorm (env n J r) (ds.map (· r))) Same := by
  cases hd with
  | nil => exact Tog.throw (by_contra fun h => hne h rfl) _
  | @cons L d Ls ds h hd =>
    have key : Tog n may (fun r => (forList (fun d => A.dnorm (env n J r) d) ((d :: ds).map (· r))).bind fun l => .ret (A.stackNorm l)) Same := by
      refine Tog.bind (tog_forList (R' := fun _ e => Same e) (f := fun r d => A.dnorm (env n J r) d) (List.Forall₂.cons h hd)
        fun L h t ht => a_norm A (hL L h).1 (hL L h).2 ht) ?_
      rintro _ ⟨es, he, rfl⟩
      obtain ⟨cs, hc⟩ := forall₂_same he
      simp only [hc]
      exact Tog.ret ⟨_, rfl⟩
    exact key.congr fun r hr => rfl

end

/-! ### both classes -/

section
variable {S : XLayout} {x y : Nat → XArr K}

/-- the arrays of the ranks as stacks of families -/
theorem xfam_stack {Ls : List Layout} {f : Nat → P K (SArr K)} (h : Tog n may f fun y => ∃ es, List.Forall₂ (Fam n g) Ls es ∧ y = fun r => es.map (· r)) :
    Tog n may (fun r => (f r).bind fun y => .ret (.stack y)) (XFam n g (.stack Ls)) := by
  refine h.bind ?_
  rintro _ ⟨es, he, rfl⟩
  exact Tog.ret ⟨es, he, fun _ _ => rfl⟩

theorem xfam_one {L : Layout} {f : Nat → P K (DArr K)} (h : Tog n may f (Fam n g L)) : Tog n may (fun r => (f r).bind fun y => .ret (.one y)) (XFam n g (.one L)) :=
  h.bind fun y hy => Tog.ret ⟨y, hy, fun _ _ => rfl⟩

/-- an array of the layout whose BROADCAST arrays hold the same values on all ranks -/
def XFamB (n : Nat) (g : Prop) (S : XLayout) (x : Nat → XArr K) : Prop := XFam n g S x ∧ ∀ r < n, (x r).replicas = (x 0).replicas

theorem xfamB_one {L : Layout} {f : Nat → P K (DArr K)} (h : Tog n may f (FamB n g L)) : Tog n may (fun r => (f r).bind fun y => .ret (.one y)) (XFamB n g (.one L)) := by
  refine h.bind fun y hy => Tog.ret ⟨⟨y, hy.fam, fun _ _ => rfl⟩, fun r hr => ?_⟩
  obtain ⟨dt, a, _, h2, h3⟩ := hy
  have h0 := h3 0 (by omega)
  simp only [XArr.replicas, h3 r hr, h0]
  by_cases hb : L.part = .broadcast
  · simp only [Layout.fam, hb, if_true, h2 (.inr hb) (isBroadcast_of_broadcast hb) r hr]
  · simp [Layout.fam, hb]

theorem xfamB_stack {Ls : List Layout} {f : Nat → P K (SArr K)} (h : Tog n may f fun y => ∃ es, List.Forall₂ (FamB n g) Ls es ∧ y = fun r => es.map (· r)) :
    Tog n may (fun r => (f r).bind fun y => .ret (.stack y)) (XFamB n g (.stack Ls)) := by
  refine h.bind ?_
  rintro _ ⟨es, he, rfl⟩
  refine Tog.ret ⟨⟨es, forall₂_fam he, fun _ _ => rfl⟩, fun r hr => ?_⟩
  simp only [XArr.replicas]
  clear h
  induction he with
  | nil => rfl
  | @cons L y Ls es hy _ ih =>
    obtain ⟨dt, a, _, h2, h3⟩ := hy
    have h0 := h3 0 (by omega)
    simp only [List.map_cons, List.filter_cons, h3 r hr, h0]
    by_cases hb : L.part = .broadcast
    · simp only [Layout.fam, hb, decide_true, if_true, List.map_cons, ih, h2 (.inr hb) (isBroadcast_of_broadcast hb) r hr]
    · simpa [Layout.fam, hb] using ih

theorem x_copy (hS : S.WF n) (hx : XFam n g S x) : Tog n may (fun r => A.copy (env n J r) (x r)) (XFamB n g S) := by
  cases S with
  | one L =>
    obtain ⟨d, hd, hx⟩ := hx
    exact (xfamB_one (a_copy A hS.1 hS.2 hd)).congr fun r hr => by rw [hx r hr]; rfl
  | stack Ls =>
    obtain ⟨d, hd, hx⟩ := hx
    exact (xfamB_stack (s_copy A hS hd)).congr fun r hr => by rw [hx r hr]; rfl

theorem x_conj (hS : S.WF n) (hx : XFam n g S x) : Tog n may (fun r => A.conjX (env n J r) (x r)) (XFam n g S) := by
  cases S with
  | one L =>
    obtain ⟨d, hd, hx⟩ := hx
    exact (xfam_one (a_conj A hS.1 hS.2 hd)).congr fun r hr => by rw [hx r hr]; rfl
  | stack Ls =>
    obtain ⟨d, hd, hx⟩ := hx
    exact (xfam_stack (s_conj A hS hd)).congr fun r hr => by rw [hx r hr]; rfl

theorem x_fmul (a : K) (hS : S.WF n) (hx : XFam n g S x) : Tog n may (fun r => A.fmulX (env n J r) a (x r)) (XFam n g S) := by
  cases S with
  | one L =>
    obtain ⟨d, hd, hx⟩ := hx
    exact (xfam_one (a_smul A .real a hS.1 hS.2 hd)).congr fun r hr => by rw [hx r hr]; rfl
  | stack Ls =>
    obtain ⟨d, hd, hx⟩ := hx
    exact (xfam_stack (s_smul A .real a hS hd)).congr fun r hr => by rw [hx r hr]; rfl

theorem x_add (hS : S.WF n) (hx : XFam n g S x) (hy : XFam n g S y) : Tog n may (fun r => A.addX (env n J r) (x r) (y r)) (XFam n g S) := by
  cases S with
  | one L =>
    obtain ⟨d, hd, hx⟩ := hx
    obtain ⟨e, he, hy⟩ := hy
    exact (xfam_one (a_add A hS.1 hS.2 hd he)).congr fun r hr => by rw [hx r hr, hy r hr]; rfl
  | stack Ls =>
    obtain ⟨d, hd, hx⟩ := hx
    obtain ⟨e, he, hy⟩ := hy
    exact (xfam_stack (s_add A hS hd he)).congr fun r hr => by rw [hx r hr, hy r hr]; rfl

theorem x_sub (hS : S.WF n) (hx : XFam n g S x) (hy : XFam n g S y) : Tog n may (fun r => A.subX (env n J r) (x r) (y r)) (XFam n g S) := by
  cases S with
  | one L =>
    obtain ⟨d, hd, hx⟩ := hx
    obtain ⟨e, he, hy⟩ := hy
    exact (xfam_one (a_sub A hS.1 hS.2 hd he)).congr fun r hr => by rw [hx r hr, hy r hr]; rfl
  | stack Ls =>
    obtain ⟨d, hd, hx⟩ := hx
    obtain ⟨e, he, hy⟩ := hy
    exact (xfam_stack (s_sub A hS hd he)).congr fun r hr => by rw [hx r hr, hy r hr]; rfl

theorem x_iadd (hS : S.WF n) (hx : XFam n g S x) (hy : XFam n g S y) : Tog n may (fun r => A.iaddX (env n J r) (x r) (y r)) (XFamB n g S) := by
  cases S with
  | one L =>
    obtain ⟨d, hd, hx⟩ := hx
    obtain ⟨e, he, hy⟩ := hy
    exact (xfamB_one (a_iadd A hd he)).congr fun r hr => by rw [hx r hr, hy r hr]; rfl
  | stack Ls =>
    obtain ⟨d, hd, hx⟩ := hx
    obtain ⟨e, he, hy⟩ := hy
    exact (xfamB_stack (s_iadd A hS hd he)).congr fun r hr => by rw [hx r hr, hy r hr]; rfl

theorem x_isub (hS : S.WF n) (hx : XFam n g S x) (hy : XFam n g S y) : Tog n may (fun r => A.isubX (env n J r) (x r) (y r)) (XFam n g S) := by
  cases S with
  | one L =>
    obtain ⟨d, hd, hx⟩ := hx
    obtain ⟨e, he, hy⟩ := hy
    exact (xfam_one (a_isub A hS.1 hS.2 hd he)).congr fun r hr => by rw [hx r hr, hy r hr]; rfl
  | stack Ls =>
    obtain ⟨d, hd, hx⟩ := hx
    obtain ⟨e, he, hy⟩ := hy
    exact (xfam_stack (s_isub A hS hd he)).congr fun r hr => by rw [hx r hr, hy r hr]; rfl

theorem x_dot (hS : S.WF n) (hx : XFam n g S x) (hy : XFam n g S y) : Tog n may (fun r => A.dotX (env n J r) (x r) (y r)) Same := by
  cases S with
  | one L =>
    obtain ⟨d, hd, hx⟩ := hx
    obtain ⟨e, he, hy⟩ := hy
    exact (a_dot A hS.1 hS.2 hd he).congr fun r hr => by rw [hx r hr, hy r hr]; rfl
  | stack Ls =>
    obtain ⟨d, hd, hx⟩ := hx
    obtain ⟨e, he, hy⟩ := hy
    exact (s_dot A hS hd he).congr fun r hr => by rw [hx r hr, hy r hr]; rfl

theorem x_norm (hne : ¬ may → S ≠ .stack []) (hS : S.WF n) (hx : XFam n g S x) : Tog n may (fun r => A.normX (env n J r) (x r)) Same := by
  cases S with
  | one L =>
    obtain ⟨d, hd, hx⟩ := hx
    exact (a_norm A hS.1 hS.2 hd).congr fun r hr => by rw [hx r hr]; rfl
  | stack Ls =>
    obtain ⟨d, hd, hx⟩ := hx
    exact (s_norm A (fun h e => hne h (by rw [e])) hS hd).congr fun r hr => by rw [hx r hr]; rfl

theorem x_dotConj (hS : S.WF n) (hx : XFam n g S x) (hy : XFam n g S y) : Tog n may (fun r => A.dotConj (env n J r) (x r) (y r)) Same := by
  unfold Arith.dotConj
  simp only [Prog.bind_eq]
  exact (x_conj A hS hy).bind fun z hz => x_dot A hS hx hz

theorem x_absDot (hS : S.WF n) (hx : XFam n g S x) (hy : XFam n g S y) : Tog n may (fun r => A.absDot (env n J r) (x r) (y r)) Same := by
  unfold Arith.absDot
  simp only [Prog.bind_eq]
  refine (x_dotConj A hS hx hy).bind ?_
  rintro _ ⟨c, rfl⟩
  exact Tog.ret ⟨_, rfl⟩

end

/-! ### CG -/

section
variable {S T : XLayout} {op : XOp K}

/-- the attributes of the solver on all ranks after `it` steps -/
structure CGIn (n : Nat) (g : Prop) (S : XLayout) (tol : K) (it : Nat) (k : K) (cs : List K) (s : Nat → FCG K) (x : Nat → XArr K) : Prop where
  r : XFam n g S fun r => (s r).r
  c : XFam n g S fun r => (s r).c
  x : XFamB n g S x
  kold : ∀ r, (s r).kold = k
  cost : ∀ r, (s r).cost = cs
  iiter : ∀ r, (s r).iiter = it
  tol : ∀ r, (s r).tol = tol
  len : cs.length = it + 1
  last : cs.getLast? = some (A.sqrt k)

theorem cgf_setup {y x0 : Nat → XArr K} {niter : Option Int} {tol : K} (hS : S.WF n) (hop : InStep n J g may op.mv S S) (hy : XFam n g S y) (hx : XFam n g S x0) :
    Tog n may (fun r => FCG.setup A (env n J r) op (y r) (x0 r) niter tol) (fun p => (∃ k cs, CGIn A n g S tol 0 k cs (fun r => (p r).1) fun r => (p r).2) ∧
      ∀ r, (p r).1.niter = niter) := by
  unfold FCG.setup
  simp only [Prog.bind_eq]
  refine (x_copy A hS hx).bind fun x hx => ?_
  refine (hop x hx.1).tog.bind fun ax hax => ?_
  refine (x_sub A hS hy hax).bind fun r hr => ?_
  refine (x_copy A hS hr).bind fun c hc => ?_
  refine (x_absDot A hS hr hr).bind ?_
  rintro _ ⟨k, rfl⟩
  exact Tog.ret ⟨⟨k, [A.sqrt k], hr, hc.1, hx, fun _ => rfl, fun _ => rfl, fun _ => rfl, fun _ => rfl, rfl, rfl⟩, fun _ => rfl⟩

theorem cgf_step {s : Nat → FCG K} {x : Nat → XArr K} {tol : K} {it : Nat} {k : K} {cs : List K} (hdiv : ¬ may → ∀ a b, ∃ v, A.npDiv a b = .ok v)
    (hdiv' : ¬ may → ∀ a, ∃ v, A.pyDiv a k = .ok v) (hS : S.WF n) (hop : InStep n J g may op.mv S S)
    (h : CGIn A n g S tol it k cs s x) :
    Tog n may (fun r => FCG.step A (env n J r) op (s r) (x r)) (fun p => ∃ k cs, CGIn A n g S tol (it + 1) k cs (fun r => (p r).1) fun r => (p r).2) := by
  unfold FCG.step
  simp only [Prog.bind_eq, h.kold, h.cost, h.iiter]
  refine (hop _ h.c).tog.bind fun opc hopc => ?_
  refine (x_absDot A hS h.c hopc).bind ?_
  rintro _ ⟨q, rfl⟩
  refine (tog_lift fun h => hdiv h _ _).bind ?_
  rintro _ ⟨a, rfl⟩
  refine (x_fmul A a hS h.c).bind fun ac hac => ?_
  refine (x_iadd A hS h.x.1 hac).bind fun x' hx' => ?_
  refine (x_fmul A a hS hopc).bind fun ao hao => ?_
  refine (x_isub A hS h.r hao).bind fun r' hr' => ?_
  refine (x_absDot A hS hr' hr').bind ?_
  rintro _ ⟨k', rfl⟩
  refine (tog_lift fun h => hdiv' h _).bind ?_
  rintro _ ⟨b, rfl⟩
  refine (x_fmul A b hS h.c).bind fun bc hbc => ?_
  refine (x_add A hS hr' hbc).bind fun c' hc' => ?_
  exact Tog.ret ⟨k', cs ++ [A.sqrt k'], hr', hc', hx', fun _ => rfl, fun _ => rfl, fun _ => rfl, fun r => h.tol r, by simp [h.len], by simp⟩

theorem Traced.snoc {m : Nat} {t : Nat → List (XArr K)} {x : Nat → XArr K} (h : Traced n g S m t) (hx : XFam n g S x) :
    Traced n g S (m + 1) fun r => t r ++ [x r] := by
  obtain ⟨ts, h1, h2, h3⟩ := h
  refine ⟨ts ++ [x], by simp [h1], fun z hz => ?_, fun r hr => by simp [h3 r hr]⟩
  rcases List.mem_append.mp hz with h | h
  · exact h2 z h
  · rw [List.mem_singleton.mp h]; exact hx

theorem cgf_loop {s : Nat → FCG K} {x : Nat → XArr K} {t : Nat → List (XArr K)} {tol : K} {it : Nat} {k : K} {cs : List K} {niter : Int} (hdiv : ¬ may → ∀ a b, ∃ v, A.npDiv a b = .ok v)
    (hdiv' : ¬ may → ∀ a b, A.gt b tol = true → ∃ v, A.pyDiv a b = .ok v) (hS : S.WF n)
    (hop : InStep n J g may op.mv S S) (m : Nat) (hm : m = (niter - it).toNat) (h : CGIn A n g S tol it k cs s x) (ht : Traced n g S it t) :
    Tog n may (fun r => FCG.loop A (env n J r) op niter m (s r) (x r) (t r)) (fun p => ∃ it' k' cs', CGIn A n g S tol it' k' cs' (fun r => (p r).1) (fun r => (p r).2.1) ∧
      Traced n g S it' (fun r => (p r).2.2) ∧ (it' : Int) ≤ max niter it ∧ ((it' : Int) < niter → A.gt k' tol = false)) := by
  induction m generalizing s x t it k cs with
  | zero => exact Tog.ret (a := fun r => (s r, x r, t r)) ⟨it, k, cs, h, ht, le_max_right _ _, fun h => by omega⟩
  | succ m ih =>
    simp only [FCG.loop, h.kold, h.iiter, h.tol, Prog.bind_eq]
    by_cases hc : (it : Int) < niter ∧ A.gt k tol = true
    · simp only [if_pos hc]
      refine (cgf_step A hdiv (fun h a => hdiv' h a k hc.2) hS hop h).bind fun p hp => ?_
      obtain ⟨k', cs', hp⟩ := hp
      refine (ih (it := it + 1) (by omega) hp (ht.snoc hp.x.1)).imp ?_
      rintro q ⟨i, k, cs, h1, h2, h3, h4⟩
      exact ⟨i, k, cs, h1, h2, by omega, h4⟩
    · simp only [if_neg hc]
      exact Tog.ret (a := fun r => (s r, x r, t r)) ⟨it, k, cs, h, ht, le_max_right _ _, fun h => by
        rcases Bool.eq_false_or_eq_true (A.gt k tol) with e | e
        · exact absurd ⟨h, e⟩ hc
        · exact e⟩

end

/-! ### CGLS -/

section
variable {S T : XLayout} {op : XOp K}

structure CGLSIn (n : Nat) (g : Prop) (S T : XLayout) (tol : K) (it : Nat) (k : K) (cs cs1 : List K) (s : Nat → FCGLS K) (x : Nat → XArr K) : Prop where
  sv : XFam n g T fun r => (s r).s
  c : XFam n g S fun r => (s r).c
  q : XFam n g T fun r => (s r).q
  x : XFamB n g S x
  kold : ∀ r, (s r).kold = k
  cost : ∀ r, (s r).cost = cs
  cost1 : ∀ r, (s r).cost1 = cs1
  iiter : ∀ r, (s r).iiter = it
  tol : ∀ r, (s r).tol = tol
  damp : ∃ d, ∀ r, (s r).damp = d
  len : cs.length = it + 1
  len1 : cs1.length = it + 1

theorem cglsf_setup {y x0 : Nat → XArr K} {niter : Option Int} {damp tol : K} (hsq : ¬ may → ∀ a, ∃ v, A.pySq a = .ok v) (hne : ¬ may → T ≠ .stack []) (hS : S.WF n) (hT : T.WF n) (hop : InStep n J g may op.mv S T) (hop' : InStep n J g may op.rmv T S)
    (hy : XFam n g T y) (hx : XFam n g S x0) :
    Tog n may (fun r => FCGLS.setup A A.normX (env n J r) op (y r) (x0 r) niter damp tol)
      (fun p => (∃ k cs cs1, CGLSIn n g S T tol 0 k cs cs1 (fun r => (p r).1) fun r => (p r).2) ∧ ∀ r, (p r).1.niter = niter) := by
  unfold FCGLS.setup
  simp only [Prog.bind_eq]
  refine (tog_lift fun h => hsq h _).bind ?_
  rintro _ ⟨d2, rfl⟩
  refine (x_copy A hS hx).bind fun x hx => ?_
  refine (hop x hx.1).tog.bind fun ax hax => ?_
  refine (x_sub A hT hy hax).bind fun s hs => ?_
  refine (x_fmul A damp hS hx.1).bind fun dx hdx => ?_
  refine (hop' s hs).tog.bind fun rs hrs => ?_
  refine (x_sub A hS hrs hdx).bind fun r hr => ?_
  refine (x_copy A hS hr).bind fun c hc => ?_
  refine (hop c hc.1).tog.bind fun q hq => ?_
  refine (x_absDot A hS hr hr).bind ?_
  rintro _ ⟨k, rfl⟩
  refine (x_norm A hne hT hs).bind ?_
  rintro _ ⟨v, rfl⟩
  refine (tog_lift fun h => hsq h _).bind ?_
  rintro _ ⟨sq, rfl⟩
  refine (x_absDot A hS hx.1 hx.1).bind ?_
  rintro _ ⟨xx, rfl⟩
  exact Tog.ret ⟨⟨k, [v], _, hs, hc.1, hq, hx, fun _ => rfl, fun _ => rfl, fun _ => rfl, fun _ => rfl, fun _ => rfl, ⟨d2, fun _ => rfl⟩, rfl, rfl⟩, fun _ => rfl⟩

theorem cglsf_step {s : Nat → FCGLS K} {x : Nat → XArr K} {tol : K} {it : Nat} {k : K} {cs cs1 : List K} (hsq : ¬ may → ∀ a, ∃ v, A.pySq a = .ok v)
    (hne : ¬ may → T ≠ .stack []) (hdiv : ¬ may → ∀ a b, ∃ v, A.npDiv a b = .ok v) (hdiv' : ¬ may → ∀ a, ∃ v, A.pyDiv a k = .ok v) (hS : S.WF n) (hT : T.WF n) (hop : InStep n J g may op.mv S T)
    (hop' : InStep n J g may op.rmv T S) (h : CGLSIn n g S T tol it k cs cs1 s x) :
    Tog n may (fun r => FCGLS.step A A.normX (env n J r) op (s r) (x r)) (fun p => ∃ k cs cs1, CGLSIn n g S T tol (it + 1) k cs cs1 (fun r => (p r).1) fun r => (p r).2) := by
  obtain ⟨d, hd⟩ := h.damp
  unfold FCGLS.step
  simp only [Prog.bind_eq, h.kold, h.cost, h.cost1, h.iiter, hd]
  refine (x_dotConj A hT h.q h.q).bind ?_
  rintro _ ⟨qq, rfl⟩
  refine (x_dotConj A hS h.c h.c).bind ?_
  rintro _ ⟨cc, rfl⟩
  refine (tog_lift fun h => hdiv h _ _).bind ?_
  rintro _ ⟨a, rfl⟩
  refine (x_fmul A _ hS h.c).bind fun ac hac => ?_
  refine (x_iadd A hS h.x.1 hac).bind fun x' hx' => ?_
  refine (x_fmul A _ hT h.q).bind fun aq haq => ?_
  refine (x_isub A hT h.sv haq).bind fun s' hs' => ?_
  refine (x_fmul A _ hS hx'.1).bind fun dx hdx => ?_
  refine (hop' s' hs').tog.bind fun rs hrs => ?_
  refine (x_sub A hS hrs hdx).bind fun r' hr' => ?_
  refine (x_absDot A hS hr' hr').bind ?_
  rintro _ ⟨k', rfl⟩
  refine (tog_lift fun h => hdiv' h _).bind ?_
  rintro _ ⟨b, rfl⟩
  refine (x_fmul A b hS h.c).bind fun bc hbc => ?_
  refine (x_add A hS hr' hbc).bind fun c' hc' => ?_
  refine (hop c' hc').tog.bind fun q' hq' => ?_
  refine (x_norm A hne hT hs').bind ?_
  rintro _ ⟨v, rfl⟩
  refine (tog_lift fun h => hsq h _).bind ?_
  rintro _ ⟨sq, rfl⟩
  refine (x_absDot A hS hx'.1 hx'.1).bind ?_
  rintro _ ⟨xx, rfl⟩
  exact Tog.ret ⟨k', cs ++ [v], _, hs', hc', hq', hx', fun _ => rfl, fun _ => rfl, fun _ => rfl, fun _ => rfl, fun r => h.tol r, ⟨d, fun _ => rfl⟩, by simp [h.len], by simp [h.len1]⟩

theorem cglsf_loop {s : Nat → FCGLS K} {x : Nat → XArr K} {t : Nat → List (XArr K)} {tol : K} {it : Nat} {k : K} {cs cs1 : List K} {niter : Int} (hsq : ¬ may → ∀ a, ∃ v, A.pySq a = .ok v)
    (hne : ¬ may → T ≠ .stack []) (hdiv : ¬ may → ∀ a b, ∃ v, A.npDiv a b = .ok v) (hdiv' : ¬ may → ∀ a b, A.gt b tol = true → ∃ v, A.pyDiv a b = .ok v) (hS : S.WF n) (hT : T.WF n)
    (hop : InStep n J g may op.mv S T) (hop' : InStep n J g may op.rmv T S) (m : Nat) (hm : m = (niter - it).toNat) (h : CGLSIn n g S T tol it k cs cs1 s x)
    (ht : Traced n g S it t) :
    Tog n may (fun r => FCGLS.loop A A.normX (env n J r) op niter m (s r) (x r) (t r))
      (fun p => ∃ it' k' cs' cs1', CGLSIn n g S T tol it' k' cs' cs1' (fun r => (p r).1) (fun r => (p r).2.1) ∧
        Traced n g S it' (fun r => (p r).2.2) ∧ (it' : Int) ≤ max niter it ∧ ((it' : Int) < niter → A.gt k' tol = false)) := by
  induction m generalizing s x t it k cs cs1 with
  | zero => exact Tog.ret (a := fun r => (s r, x r, t r)) ⟨it, k, cs, cs1, h, ht, le_max_right _ _, fun h => by omega⟩
  | succ m ih =>
    simp only [FCGLS.loop, h.kold, h.iiter, h.tol, Prog.bind_eq]
    by_cases hc : (it : Int) < niter ∧ A.gt k tol = true
    · simp only [if_pos hc]
      refine (cglsf_step A hsq hne hdiv (fun h a => hdiv' h a k hc.2) hS hT hop hop' h).bind fun p hp => ?_
      obtain ⟨k', cs', cs1', hp⟩ := hp
      refine (ih (it := it + 1) (by omega) hp (ht.snoc hp.x.1)).imp ?_
      rintro q ⟨i, k, cs, cs1, h1, h2, h3, h4⟩
      exact ⟨i, k, cs, cs1, h1, h2, by omega, h4⟩
    · simp only [if_neg hc]
      exact Tog.ret (a := fun r => (s r, x r, t r)) ⟨it, k, cs, cs1, h, ht, le_max_right _ _, fun h => by
        rcases Bool.eq_false_or_eq_true (A.gt k tol) with e | e
        · exact absurd ⟨h, e⟩ hc
        · exact e⟩

end
end Verif

/-
  The methods of StackedDistributedArray with arbitrary arithmetic compute what Spec/StackSolvers.lean says.
-/
import Verif.Spec.StackSolvers
import Verif.Proofs.BlockSolvers
import Verif.Model.Stacked

namespace Verif
open NDArray

variable {K : Type} (A : Arith K) {n : Nat} {J : Nat → Nat → K}

/-- the length of a vector -/
abbrev FitsOne (L : Layout) (x : SVec K) : Prop := x.v.length = L.gshape.prod

/-- rank `r`'s parts of a list of vectors -/
def sparts (l : List Layout) (n : Nat) (m : List (SVec K)) (r : Nat) : List (DArr K) := List.zipWith (fun L x => SVec.dpart L n x r) l m

abbrev GoodLay (n : Nat) (L : Layout) : Prop := L.WF n ∧ L.mask = none

/-! ### loops over the arrays of a stack -/

theorem f_forList_nil {α β : Type} {f : Nat → α → P K β} : Runs n (fun r => forList (f r) []) (fun _ => .ok []) := Runs.ret _

theorem f_forList_cons {α β : Type} {f : Nat → α → P K β} {a : Nat → α} {l : Nat → List α} {b : Nat → β} {bs : Nat → List β}
    (h1 : Runs n (fun r => f r (a r)) (fun r => .ok (b r))) (h2 : Runs n (fun r => forList (f r) (l r)) (fun r => .ok (bs r))) :
    Runs n (fun r => forList (f r) (a r :: l r)) (fun r => .ok (b r :: bs r)) := by
  simp only [forList, Prog.bind_eq]
  exact Runs.bind_ok (k := fun r b => (forList (f r) (l r)).bind fun bs => .ret (b :: bs)) h1 (Runs.bind_ok h2 (Runs.ret _))

theorem q_list {β : Type} {f : Nat → DArr K → P K β} {g : Layout → SVec K → Nat → β}
    (h : ∀ L, GoodLay n L → ∀ x, FitsOne L x → Runs n (fun r => f r (SVec.dpart L n x r)) (fun r => .ok (g L x r))) {l : List Layout} {m : List (SVec K)}
    (hf : List.Forall₂ FitsOne l m) (hl : ∀ L ∈ l, GoodLay n L) : Runs n (fun r => forList (f r) (sparts l n m r)) (fun r => .ok (List.zipWith (fun L x => g L x r) l m)) := by
  induction hf with
  | nil => exact f_forList_nil
  | cons hx _ ih => exact f_forList_cons (h _ (hl _ (by simp)) _ hx) (ih fun L hL => hl L (by simp [hL]))

theorem q_list₂ {β : Type} {f : Nat → DArr K × DArr K → P K β} {g : Layout → SVec K → SVec K → Nat → β}
    (h : ∀ L, GoodLay n L → ∀ x, FitsOne L x → ∀ y, FitsOne L y → Runs n (fun r => f r (SVec.dpart L n x r, SVec.dpart L n y r)) (fun r => .ok (g L x y r)))
    {l : List Layout} {m m' : List (SVec K)} (hf : List.Forall₂ FitsOne l m) (hf' : List.Forall₂ FitsOne l m') (hl : ∀ L ∈ l, GoodLay n L) :
    Runs n (fun r => forList (f r) ((sparts l n m r).zip (sparts l n m' r))) (fun r => .ok (List.zipWith (fun L (p : SVec K × SVec K) => g L p.1 p.2 r) l (m.zip m'))) := by
  induction hf generalizing m' with
  | nil => exact f_forList_nil
  | cons hx _ ih =>
    cases hf' with
    | cons hy hf' => exact f_forList_cons (h _ (hl _ (by simp)) _ hx _ hy) (ih hf' fun L hL => hl L (by simp [hL]))

theorem q_list₃ {β : Type} {f : Nat → DArr K × DArr K × DArr K → P K β} {g : Layout → SVec K → SVec K → SVec K → Nat → β}
    (h : ∀ L, GoodLay n L → ∀ x, FitsOne L x → ∀ y, FitsOne L y → ∀ z, FitsOne L z →
      Runs n (fun r => f r (SVec.dpart L n x r, SVec.dpart L n y r, SVec.dpart L n z r)) (fun r => .ok (g L x y z r)))
    {l : List Layout} {m m' m'' : List (SVec K)} (hf : List.Forall₂ FitsOne l m) (hf' : List.Forall₂ FitsOne l m') (hf'' : List.Forall₂ FitsOne l m'') (hl : ∀ L ∈ l, GoodLay n L) :
    Runs n (fun r => forList (f r) ((sparts l n m r).zip ((sparts l n m' r).zip (sparts l n m'' r))))
      (fun r => .ok (List.zipWith (fun L (p : SVec K × SVec K × SVec K) => g L p.1 p.2.1 p.2.2 r) l (m.zip (m'.zip m'')))) := by
  induction hf generalizing m' m'' with
  | nil => exact f_forList_nil
  | cons hx _ ih =>
    cases hf' with
    | cons hy hf' =>
      cases hf'' with
      | cons hz hf'' => exact f_forList_cons (h _ (hl _ (by simp)) _ hx _ hy _ hz) (ih hf' hf'' fun L hL => hl L (by simp [hL]))

theorem fits_map {g : SVec K → SVec K} (h : ∀ x, (g x).v.length = x.v.length) {l : List Layout} {m : List (SVec K)} (hf : List.Forall₂ FitsOne l m) : List.Forall₂ FitsOne l (m.map g) := by
  induction hf with
  | nil => exact .nil
  | cons hx _ ih => exact .cons ((h _).trans hx) ih

theorem fits_zip {g : SVec K → SVec K → SVec K} (h : ∀ x y, x.v.length = y.v.length → (g x y).v.length = x.v.length) {l : List Layout} {m m' : List (SVec K)} (hf : List.Forall₂ FitsOne l m)
    (hf' : List.Forall₂ FitsOne l m') : List.Forall₂ FitsOne l (List.zipWith g m m') := by
  induction hf generalizing m' with
  | nil => exact .nil
  | cons hx _ ih =>
    cases hf' with
    | cons hy hf' => exact .cons ((h _ _ (Eq.trans hx (Eq.symm hy))).trans hx) (ih hf')

theorem sparts_map {g : SVec K → SVec K} {l : List Layout} {m : List (SVec K)} {r : Nat} : sparts l n (m.map g) r = List.zipWith (fun L x => SVec.dpart L n (g x) r) l m := by
  unfold sparts
  rw [List.zipWith_map_right]

theorem sparts_zip {g : SVec K → SVec K → SVec K} {l : List Layout} {m m' : List (SVec K)} {r : Nat} :
    sparts l n (List.zipWith g m m') r = List.zipWith (fun L (p : SVec K × SVec K) => SVec.dpart L n (g p.1 p.2) r) l (m.zip m') := by
  unfold sparts
  rw [show List.zipWith g m m' = (m.zip m').map fun p => g p.1 p.2 from by rw [List.zip, List.map_zipWith], List.zipWith_map_right]

theorem q_checkSize {l : List Layout} {m m' : List (SVec K)} (hf : List.Forall₂ FitsOne l m) (hf' : List.Forall₂ FitsOne l m') (r : Nat) :
    SArr.checkSize (sparts l n m r) (sparts l n m' r) = .ret () := by
  have h : ∀ {m : List (SVec K)}, List.Forall₂ FitsOne l m → (sparts l n m r).map (·.gshape) = l.map (·.gshape) := by
    intro m h
    clear hf hf'
    induction h with
    | nil => rfl
    | cons _ _ ih => exact congrArg _ ih
  have h' : ∀ {m : List (SVec K)}, List.Forall₂ FitsOne l m → (sparts l n m r).length = l.length := by
    intro m h
    simp [sparts, h.length_eq]
  unfold SArr.checkSize
  rw [if_neg (by rw [h' hf, h' hf']; simp), if_neg (by rw [h hf, h hf']; simp)]

/-! ### the methods of stacks -/

section
variable {l : List Layout} {xs ys : List (SVec K)} (hl : ∀ L ∈ l, GoodLay n L) (hx : List.Forall₂ FitsOne l xs)
include hl hx

theorem q_copy : Runs n (fun r => A.scopy (env n J r) (sparts l n xs r)) (fun r => .ok (sparts l n (xs.map (SVec.copy A)) r)) :=
  (q_list (g := fun L x r => SVec.dpart L n (x.copy A) r) (fun _ hL _ hx => b_copy A hL.1 hL.2 hx) hx hl).congr (fun _ _ => rfl) fun r _ => by rw [sparts_map]

theorem q_conj : Runs n (fun r => A.sconj (env n J r) (sparts l n xs r)) (fun r => .ok (sparts l n (xs.map (SVec.conj A)) r)) :=
  (q_list (g := fun L x r => SVec.dpart L n (x.conj A) r) (fun _ hL _ hx => b_conj A hL.1 hL.2 hx) hx hl).congr (fun _ _ => rfl) fun r _ => by rw [sparts_map]

omit hl hx in
/-- assigning to an existing array -/
theorem q_set {L : Layout} (hL : GoodLay n L) {x z : SVec K} (hx : FitsOne L x) (hz : FitsOne L z) (hd : z.dt = x.dt) :
    Runs n (fun r => A.setAll (env n J r) (SVec.dpart L n x r) (SVec.dpart L n z r).larr) (fun r => .ok (SVec.dpart L n (z.copy A) r)) := by
  refine (b_set A (J := J) (dt := x.dt) (dt' := z.dt) (a := L.piece x.v) (w := z.v) hL.1 (fun r hr => a_length_piece hL.1 hx hr) hz).congr (fun r _ => rfl) fun r _ => ?_
  simp [SVec.dpart, SVec.copy, SVec.map, hd]

theorem q_neg : Runs n (fun r => A.sneg (env n J r) (sparts l n xs r)) (fun r => .ok (sparts l n (xs.map fun x => (x.copy A).map A A.neg) r)) := by
  unfold Arith.sneg
  simp only [Prog.bind_eq]
  refine Runs.bind_ok (q_copy A hl hx) ?_
  refine (q_list (g := fun L x r => SVec.dpart L n (x.map A A.neg) r) (f := fun r d => A.setAll (env n J r) d (d.larr.map A.neg)) (fun L hL x hx => ?_)
    (fits_map (fun x => SVec.length_map A _) hx) hl).congr (fun _ _ => rfl) fun r _ => ?_
  · refine (b_set A (J := J) (dt := x.dt) (dt' := x.dt) (a := L.piece x.v) (w := x.v.map A.neg) hL.1 (fun r hr => a_length_piece hL.1 hx hr) (by simpa using hx)).congr (fun r _ => ?_) fun r _ => ?_
    · rw [a_piece_map]; rfl
    · simp [SVec.dpart, SVec.map, List.map_map]; rfl
  · rw [← sparts_map, List.map_map]; rfl

theorem q_scale (a : K) : Runs n (fun r => A.ssmul (env n J r) (sparts l n xs r) .real a) (fun r => .ok (sparts l n (xs.map fun x => (x.scale A a).copy A) r)) := by
  unfold Arith.ssmul
  simp only [Prog.bind_eq]
  refine Runs.bind_ok (q_copy A hl hx) ?_
  have hc : List.Forall₂ FitsOne l (xs.map (SVec.copy A)) := fits_map (fun x => SVec.length_map A _) hx
  have aux : ∀ {l : List Layout} {xs : List (SVec K)}, List.Forall₂ FitsOne l xs → (∀ L ∈ l, GoodLay n L) →
      Runs n (fun r => forList (fun p : DArr K × DArr K => (A.dsmul (env n J r) p.2 .real a).bind fun z => A.setAll (env n J r) p.1 z.larr) ((sparts l n (xs.map (SVec.copy A)) r).zip (sparts l n xs r)))
        (fun r => .ok (sparts l n (xs.map fun x => (x.scale A a).copy A) r)) := by
    intro l xs hx hl
    induction hx with
    | nil => exact f_forList_nil
    | cons hx _ ih =>
      have hL := hl _ (List.mem_cons_self ..)
      exact f_forList_cons (Runs.bind_ok (b_scale A a hL.1 hL.2 hx) (q_set A hL (SVec.length_copy A hx) (SVec.length_scale A a hx) rfl)) (ih fun L hL => hl L (by simp [hL]))
  exact aux hx hl

theorem q_norm (hne : l ≠ []) : Runs n (fun r => A.snorm (env n J r) (sparts l n xs r)) (fun _ => .ok (A.stackNorm (List.zipWith (fun L (x : SVec K) => x.blockNorm A L n) l xs))) := by
  have h := q_list (g := fun L x _ => SVec.blockNorm A L n x) (f := fun r d => A.dnorm (env n J r) d) (fun _ hL _ hx => b_norm A hL.1 hL.2 hx) hx hl
  refine (Runs.bind_ok (k := fun _ l => .ret (A.stackNorm l)) h (Runs.ret _)).congr (fun r _ => ?_) fun _ _ => rfl
  cases hx with
  | nil => exact absurd rfl hne
  | cons _ _ => rfl

variable (hy : List.Forall₂ FitsOne l ys)
include hy

theorem q_add : Runs n (fun r => A.sadd (env n J r) (sparts l n xs r) (sparts l n ys r)) (fun r => .ok (sparts l n (List.zipWith (fun x y => (x.add A y).copy A) xs ys) r)) := by
  unfold Arith.sadd
  simp only [Prog.bind_eq, q_checkSize hx hy, Prog.ret_bind]
  refine Runs.bind_ok (q_copy A hl hx) ?_
  have aux : ∀ {l : List Layout} {xs ys : List (SVec K)}, List.Forall₂ FitsOne l xs → List.Forall₂ FitsOne l ys → (∀ L ∈ l, GoodLay n L) →
      Runs n (fun r => forList (fun t : DArr K × DArr K × DArr K => (A.dadd (env n J r) t.2.1 t.2.2).bind fun z => A.setAll (env n J r) t.1 z.larr)
          ((sparts l n (xs.map (SVec.copy A)) r).zip ((sparts l n xs r).zip (sparts l n ys r))))
        (fun r => .ok (sparts l n (List.zipWith (fun x y => (x.add A y).copy A) xs ys) r)) := by
    intro l xs ys hx hy hl
    induction hx generalizing ys with
    | nil => exact f_forList_nil
    | cons hx _ ih =>
      cases hy with
      | cons hy hys =>
        have hL := hl _ (List.mem_cons_self ..)
        exact f_forList_cons (Runs.bind_ok (b_add A hL.1 hL.2 hx hy) (q_set A hL (SVec.length_copy A hx) (SVec.length_add A hx hy) rfl)) (ih hys fun L hL => hl L (by simp [hL]))
  exact aux hx hy hl

theorem q_iadd : Runs n (fun r => A.siadd (env n J r) (sparts l n xs r) (sparts l n ys r)) (fun r => .ok (sparts l n (List.zipWith (fun x y => (x.add A y).copy A) xs ys) r)) := by
  unfold Arith.siadd
  simp only [Prog.bind_eq, q_checkSize hx hy, Prog.ret_bind]
  refine (q_list₂ (g := fun L x y r => SVec.dpart L n ((x.add A y).copy A) r) (f := fun r (t : DArr K × DArr K) => (A.dadd (env n J r) t.1 t.2).bind fun z => A.setAll (env n J r) t.1 z.larr)
    (fun L hL x hx y hy => Runs.bind_ok (b_add A hL.1 hL.2 hx hy) (q_set A hL hx (SVec.length_add A hx hy) rfl)) hx hy hl).congr (fun _ _ => rfl) fun r _ => ?_
  rw [sparts_zip]

theorem q_dot : Runs n (fun r => A.sdot (env n J r) (sparts l n xs r) (sparts l n ys r))
    (fun _ => .ok ((List.zipWith (fun L (p : SVec K × SVec K) => p.1.blockDot A L n p.2) l (xs.zip ys)).foldl A.add A.zero)) := by
  unfold Arith.sdot
  simp only [Prog.bind_eq, q_checkSize hx hy, Prog.ret_bind]
  exact Runs.bind_ok (q_list₂ (g := fun L x y _ => SVec.blockDot A L n x y) (f := fun r (p : DArr K × DArr K) => A.ddot (env n J r) p.1 p.2) (fun L hL x hx y hy => b_dot A hL.1 hL.2 hx hy) hx hy hl) (Runs.ret _)

end

/-! ### both classes -/

section
variable {L : XLay} {x y : XVec K}

theorem XVec.part_stack {l : List Layout} {m : List (SVec K)} {r : Nat} : XVec.part (.stack l) n (.stack m) r = .stack (sparts l n m r) := rfl

theorem XVec.fits_copy (hx : x.Fits L) : (x.copy A).Fits L := by
  cases x <;> cases L <;> try exact hx.elim
  · exact SVec.length_copy A hx
  · exact fits_map (fun x => SVec.length_map A _) hx

theorem XVec.fits_conj (hx : x.Fits L) : (x.conj A).Fits L := by
  cases x <;> cases L <;> try exact hx.elim
  · exact (SVec.length_map A _).trans hx
  · exact fits_map (fun x => SVec.length_map A _) hx

theorem XVec.fits_scale (a : K) (hx : x.Fits L) : (x.scale A a).Fits L := by
  cases x <;> cases L <;> try exact hx.elim
  · exact SVec.length_scale A a hx
  · exact fits_map (fun x => (SVec.length_map A _).trans (SVec.length_map A _)) hx

theorem XVec.fits_add (hx : x.Fits L) (hy : y.Fits L) : (x.add A y).Fits L := by
  cases x <;> cases L <;> cases y <;> try first | exact hx.elim | exact hy.elim
  · exact SVec.length_add A hx hy
  · exact fits_zip (fun x y h => (SVec.length_map A _).trans (SVec.length_zip A _ h)) hx hy

theorem XVec.fits_sub (hx : x.Fits L) (hy : y.Fits L) : (x.sub A y).Fits L := by
  cases x <;> cases L <;> cases y <;> try first | exact hx.elim | exact hy.elim
  · exact SVec.length_sub A hx hy
  · exact fits_zip (fun x y h => (SVec.length_map A _).trans (SVec.length_zip A _ (by rw [SVec.length_map, SVec.copy, SVec.length_map]; exact h))) hx hy

theorem XVec.dts_copy : (x.copy A).dts = x.dts := by
  cases x
  · rfl
  · simp only [XVec.copy, XVec.dts, List.map_map]; rfl

theorem XVec.dts_scale (a : K) : (x.scale A a).dts = x.dts := by
  cases x
  · rfl
  · simp only [XVec.scale, XVec.dts, List.map_map]; rfl

theorem dts_zip {g : SVec K → SVec K → SVec K} (h : ∀ x y, (g x y).dt = x.dt) {l : List Layout} {m m' : List (SVec K)} (hf : List.Forall₂ FitsOne l m) (hf' : List.Forall₂ FitsOne l m') :
    (List.zipWith g m m').map SVec.dt = m.map SVec.dt := by
  induction hf generalizing m' with
  | nil => rfl
  | cons _ _ ih =>
    cases hf' with
    | cons _ hf' => simp [h, ih hf']

theorem XVec.dts_add (hx : x.Fits L) (hy : y.Fits L) : (x.add A y).dts = x.dts := by
  cases x <;> cases L <;> cases y <;> try first | exact hx.elim | exact hy.elim
  · rfl
  · exact dts_zip (g := fun x y => (x.add A y).copy A) (fun _ _ => rfl) hx hy

theorem XVec.dts_sub (hx : x.Fits L) (hy : y.Fits L) : (x.sub A y).dts = x.dts := by
  cases x <;> cases L <;> cases y <;> try first | exact hx.elim | exact hy.elim
  · rfl
  · exact dts_zip (g := fun x y => (x.add A ((y.copy A).map A A.neg)).copy A) (fun _ _ => rfl) hx hy

variable (hL : L.WF n) (hx : x.Fits L)
include hL hx

theorem w_copy : Runs n (fun r => A.copy (env n J r) (x.part L n r)) (fun r => .ok ((x.copy A).part L n r)) := by
  cases x <;> cases L <;> try exact hx.elim
  · exact p_copy A hL.1 hL.2 hx
  · exact Runs.bind_ok (q_copy A hL.2 hx) (Runs.ret _)

theorem w_conj : Runs n (fun r => A.conjX (env n J r) (x.part L n r)) (fun r => .ok ((x.conj A).part L n r)) := by
  cases x <;> cases L <;> try exact hx.elim
  · exact Runs.bind_ok (b_conj A hL.1 hL.2 hx) (Runs.ret _)
  · exact Runs.bind_ok (q_conj A hL.2 hx) (Runs.ret _)

theorem w_scale (a : K) : Runs n (fun r => A.fmulX (env n J r) a (x.part L n r)) (fun r => .ok ((x.scale A a).part L n r)) := by
  cases x <;> cases L <;> try exact hx.elim
  · exact p_scale A hL.1 hL.2 hx a
  · exact Runs.bind_ok (q_scale A hL.2 hx a) (Runs.ret _)

theorem w_norm : Runs n (fun r => A.normX (env n J r) (x.part L n r)) (fun _ => .ok (x.blockNorm A L n)) := by
  cases x <;> cases L <;> try exact hx.elim
  · exact p_norm A hL.1 hL.2 hx
  · exact q_norm A hL.2 hx hL.1

variable (hy : y.Fits L)
include hy

theorem w_add : Runs n (fun r => A.addX (env n J r) (x.part L n r) (y.part L n r)) (fun r => .ok ((x.add A y).part L n r)) := by
  cases x <;> cases L <;> cases y <;> try first | exact hx.elim | exact hy.elim
  · exact p_add A hL.1 hL.2 hx hy
  · exact Runs.bind_ok (q_add A hL.2 hx hy) (Runs.ret _)

theorem w_iadd : Runs n (fun r => A.iaddX (env n J r) (x.part L n r) (y.part L n r)) (fun r => .ok ((x.add A y).part L n r)) := by
  cases x <;> cases L <;> cases y <;> try first | exact hx.elim | exact hy.elim
  · exact p_iadd A hL.1 hx hy
  · exact Runs.bind_ok (q_iadd A hL.2 hx hy) (Runs.ret _)

theorem w_sub : Runs n (fun r => A.subX (env n J r) (x.part L n r) (y.part L n r)) (fun r => .ok ((x.sub A y).part L n r)) := by
  cases x <;> cases L <;> cases y <;> try first | exact hx.elim | exact hy.elim
  · exact p_sub A hL.1 hL.2 hx hy
  · rename_i m l m'
    refine (Runs.bind_ok (Runs.bind_ok (q_neg A (J := J) hL.2 hy) (q_add A (J := J) hL.2 hx (fits_map (fun x => (SVec.length_map A _).trans (SVec.length_map A _)) hy))) (Runs.ret fun r => XArr.stack _)).congr (fun _ _ => rfl)
      fun r _ => ?_
    simp only [XVec.sub, XVec.part_stack, List.zipWith_map_right]

theorem w_isub : Runs n (fun r => A.isubX (env n J r) (x.part L n r) (y.part L n r)) (fun r => .ok ((x.sub A y).part L n r)) := by
  cases x <;> cases L <;> cases y <;> try first | exact hx.elim | exact hy.elim
  · exact p_isub A hL.1 hL.2 hx hy
  · rename_i m l m'
    refine (Runs.bind_ok (Runs.bind_ok (q_neg A (J := J) hL.2 hy) (q_iadd A (J := J) hL.2 hx (fits_map (fun x => (SVec.length_map A _).trans (SVec.length_map A _)) hy))) (Runs.ret fun r => XArr.stack _)).congr (fun _ _ => rfl)
      fun r _ => ?_
    simp only [XVec.sub, XVec.part_stack, List.zipWith_map_right]

theorem w_dot : Runs n (fun r => A.dotX (env n J r) (x.part L n r) (y.part L n r)) (fun _ => .ok (x.blockDot A L n y)) := by
  cases x <;> cases L <;> cases y <;> try first | exact hx.elim | exact hy.elim
  · exact b_dot A hL.1 hL.2 hx hy
  · exact q_dot A hL.2 hx hy

theorem w_dotConj : Runs n (fun r => A.dotConj (env n J r) (x.part L n r) (y.part L n r)) (fun _ => .ok (x.blockDot A L n (y.conj A))) :=
  Runs.bind_ok (w_conj A hL hy) (w_dot A hL hx (XVec.fits_conj A hy))

theorem w_absDot : Runs n (fun r => A.absDot (env n J r) (x.part L n r) (y.part L n r)) (fun _ => .ok (A.abs (x.blockDot A L n (y.conj A)))) :=
  Runs.bind_ok (w_dotConj A hL hx hy) (Runs.ret _)

end

end Verif

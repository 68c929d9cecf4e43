/- From the finite-difference methods with arbitrary arithmetic to the operators on flat vectors. -/
import Verif.Proofs.FloatDerivatives
import Verif.Proofs.Methods

namespace Verif
open NDArray

variable {K : Type} (A : ArrArith K)
variable {n N : Nat} {J : Nat → Nat → K} {rest : List Nat} {dt dx : DType} {X T : Layout} {s : K} {edge : Bool}

theorem a_mkDArr_none (hT : T.WF n) (hp : T.part = .scatter) (hax : T.axis = 0) (hm : T.mask = none) (hb : T.sizes = balanced (len T.gshape 0) n) :
    Runs n (fun r => A.mkDArr (env n J r) T.gshape .scatter 0 none none dt) (fun r => .ok (T.fam n dt (aJunk A.toArith J T dt) r)) := by
  refine runs_local fun r hr => ?_
  unfold Arith.mkDArr
  have e0 : ¬ T.gshape.length ≤ 0 := by have := hT.axis_lt; omega
  simp only [if_neg e0, Prog.bind_eq, Option.getD_none, checkLocalShapes, mkSub, if_true, Prog.ret_bind]
  have hsp : localSplit (env n J r) T.gshape .scatter 0 = T.lshape r := by
    rw [lshape_scatter hp, hb, hax]
    unfold localSplit balanced
    by_cases h : r < len T.gshape 0 % n <;> simp [h, Partition.isBroadcast]
  rw [hsp]
  simp only [Layout.fam, hp, hm, hax, Layout.members]
  rfl

theorem a_redistribute_of {ls : Option (List (List Nat))} (hc : Conform n X T)
    (hk : Runs n (fun r => A.mkDArr (env n J r) T.gshape .scatter 0 ls none dt) (fun r => .ok (T.fam n dt (aJunk A.toArith J T dt) r))) (hn : Near n X T)
    {d : List K} (hd : d.length = X.gshape.prod) :
    Runs n (fun r => A.redistribute (env n J r) T.gshape ls (X.fam n dt (X.piece d) r))
      (fun r => .ok (T.fam n dt (T.piece (d.map (A.cast dt))) r)) := by
  unfold Arith.redistribute
  have hs : ∀ r, ¬ (X.fam n dt (X.piece d) r).part ≠ .scatter := fun r => not_not.2 hc.scX
  have hs' : ∀ r, (X.fam n dt (X.piece d) r).dtype = dt := fun r => rfl
  have hl : d.length = T.gshape.prod := by rw [hd]; simp [hc.X1]
  simp only [if_neg (hs _), Prog.bind_eq, hs']
  refine Runs.bind_ok hk ?_
  refine runs_allgather (J := J) (v := T.cnt) ?_
  refine runs_allgather (J := J) (v := X.cnt) ?_
  refine Runs.congr (Runs.bind_ok (runs_addGhostCells (J := J) (dt := dt) (front := some (rdFront X T)) (back := some (rdBack X T)) hc.wfX hc.scX
    (fun r hr => length_piece hc.wfX hd hr) (fun f hf => by injection hf with hf; subst hf; exact near_front hc hn)
    (fun b hb => by injection hb with hb; subst hb; exact near_back hc hn))
    (k := fun r g => (Prog.lift ((g.slice 0 (psum T.cnt r - psum X.cnt r) (T.cnt r + (psum T.cnt r - psum X.cnt r))).reshape (T.lshape r))).bind fun v =>
        A.setAll (env n J r) (T.fam n dt (aJunk A.toArith J T dt) r) v) ?_) (fun r hr => ?_) fun _ _ => rfl
  · have h1 : ∀ r < n, (T.piece d r).length = (T.lshape r).prod := fun r hr => length_piece hc.wfT hl hr
    refine (runs_aSetAll A.toArith (J := J) (L := T) (dt := dt) (a := aJunk A.toArith J T dt) (v := fun r => ⟨T.lshape r, dt, T.piece d r⟩)
      (fun r _ => length_aJunk A.toArith r) (fun _ _ => rfl) h1).congr (fun r hr => ?_) fun r hr => ?_
    · show _ = (Prog.lift (((X.window (X.global n dt (X.piece d)) r (frontCells (rdFront X T) r) (backCells n (rdBack X T) r)).slice 0
        (psum T.cnt r - psum X.cnt r) (T.cnt r + (psum T.cnt r - psum X.cnt r))).reshape (T.lshape r))).bind _
      rw [redist_local hc hd hr]; rfl
    · congr 1
      refine fam_congr ?_
      have : ¬ T.part = .broadcast := by rw [hc.scT]; decide
      simp only [Layout.sync, if_neg this]
      exact (piece_map _ _ _).symm
  · obtain ⟨h1, h2, h3⟩ := redist_args hc hr
    have e : ((List.range n).map T.cnt).getD r 0 = T.cnt r := by simp [List.getD_eq_getElem?_getD, hr]
    simp only [env_rank]
    rw [h1, h2, h3, e]
    rfl

theorem a_redistribute (hc : Conform n X T) (hb : T.sizes = balanced (len T.gshape 0) n) (hn : Near n X T) {d : List K} (hd : d.length = X.gshape.prod) :
    Runs n (fun r => A.redistribute (env n J r) T.gshape none (X.fam n dt (X.piece d) r))
      (fun r => .ok (T.fam n dt (T.piece (d.map (A.cast dt))) r)) :=
  a_redistribute_of A hc (a_mkDArr_none A hc.wfT hc.scT hc.axT hc.mT hb) hn hd

theorem a_ravel {L : Layout} {a : Nat → List K} (hL : L.WF n) (hp : L.part = .scatter) (hm : L.mask = none) (ha : ∀ r < n, (a r).length = (L.lshape r).prod) :
    Runs n (fun r => A.ravel (env n J r) (L.fam n dt a r)) (fun r => .ok (L.ravel.fam n dt (fun r => (a r).map (A.cast dt)) r)) := by
  unfold Arith.ravel
  simp only [Prog.bind_eq]
  refine runs_allgather (J := J) (v := L.lshape) ?_
  have e : ((List.range n).map L.lshape).map (fun s => [s.prod]) = (List.range n).map L.ravel.lshape := by
    rw [List.map_map]; apply List.map_congr_left; intro r _; exact (ravel_lshape r).symm
  rw [e]
  refine Runs.bind_ok (a_mkDArr A.toArith (J := J) (dt := dt) (ravel_wf hL) hm) ?_
  refine (runs_aSetAll A.toArith (L := L.ravel) (dt := dt) (J := J) (a := aJunk A.toArith J L.ravel dt) (v := fun r => ⟨L.ravel.lshape r, dt, a r⟩)
    (fun r _ => length_aJunk A.toArith r) (fun _ _ => rfl) (fun r hr => by rw [ravel_lshape]; simpa using ha r hr)).congr (fun r hr => ?_) (fun r hr => ?_)
  · have e1 : (L.fam n dt a r).larr.flatten = ⟨[(a r).length], dt, a r⟩ := rfl
    rw [e1, ravel_lshape, ha r hr]
  · congr 1
    refine fam_congr ?_
    have : ¬ L.ravel.part = .broadcast := by show ¬ L.part = .broadcast; rw [hp]; decide
    simp only [Layout.sync, if_neg this]

/-- the method followed by the flattening -/
theorem a_flat (hn : 0 < n) {ps : Nat → P K (DArr K)} {G : Nat → Nat → K} (h : Runs n ps (fun r => .ok (rfam n N rest (balanced N n) dt (glob (balanced N n) G) r))) :
    Runs n (fun r => (ps r).bind fun y => if y.gshape.length > 1 then A.ravel (env n J r) y else .ret y)
      (fun r => .ok ((Layout.flat n N rest).fam n dt ((Layout.flat n N rest).piece (tab N rest.prod fun p j => if rest = [] then G p j else A.cast dt (G p j))) r)) := by
  have hs := psum_balanced_total N hn
  refine Runs.bind_ok h ?_
  have hg : ∀ r, (rfam n N rest (balanced N n) dt (glob (balanced N n) G) r).gshape = N :: rest := fun _ => rfl
  simp only [hg, List.length_cons]
  have hv : ∀ H : Nat → Nat → K, ∀ r < n, tab (balanced N n r) rest.prod (glob (balanced N n) H r) = (Layout.flat n N rest).piece (tab N rest.prod H) r := by
    intro H r hr
    have := vec_flat (dt := dt) (N := N) (rest := rest) hn (d := tab N rest.prod H) (by simp) (r := r)
    rw [vec_rows hs hr] at this
    exact this.symm
  by_cases hr : rest = []
  · subst hr
    simp only [List.length_nil, Nat.zero_add, gt_iff_lt, Nat.lt_irrefl, if_false, if_true]
    refine (Runs.ret _).congr (fun _ _ => rfl) fun r hr => ?_
    congr 1
    have hl : (Layout.flat n N []) = Layout.slab n N [] := by simp [Layout.lin, Layout.rows]
    have := hv G r hr
    rw [hl] at this ⊢
    exact (fam_congr this.symm).symm
  · have : rest.length + 1 > 1 := by
      have := List.length_pos_iff.2 hr
      omega
    simp only [if_pos this, if_neg hr]
    refine (a_ravel A (L := Layout.slab n N rest) (dt := dt) (J := J) (a := fun r => tab (balanced N n r) rest.prod (glob (balanced N n) G r)) (rows_wf hs) rfl rfl
      (fun r _ => length_rfam _ r)).congr (fun _ _ => rfl) fun r hr => ?_
    rw [flat_eq]
    congr 1
    refine fam_congr ?_
    rw [tab_map, ← hv _ r hr]
    rfl

/-- what is needed of the method: it computes the entries `E`, or raises on all ranks -/
def AMethod (n N : Nat) (rest : List Nat) (J : Nat → Nat → K) (o : Deriv K) (f : Ctx K → Deriv K → DArr K → P K (DArr K)) (E : Except Err ((Nat → K) → Nat → K)) (dx : DType) : Prop :=
  ∀ F, Runs n (fun r => f (env n J r) o (rfam n N rest (balanced N n) dx (glob (balanced N n) F) r))
    (fun r => E.map fun E => rfam n N rest (balanced N n) o.dtype (glob (balanced N n) fun p j => E (fun q => F q j) p) r)

theorem a_rows {d : List K} (hn : 0 < n) (hd : d.length = N * rest.prod) {r : Nat} (hr : r < n) :
    (Layout.slab n N rest).fam n dt ((Layout.slab n N rest).piece d) r = rfam n N rest (balanced N n) dt (glob (balanced N n) fun q j => d.getD (q * rest.prod + j) A.zero) r :=
  @vec_rows' K n N rest (balanced N n) dt ⟨A.zero⟩ (psum_balanced_total N hn) r hr d hd

/-- after the redistribution -/
theorem a_apply (hn : 0 < n) {o : Deriv K} {f : Ctx K → Deriv K → DArr K → P K (DArr K)} {E : Except Err ((Nat → K) → Nat → K)}
    (hm : AMethod n N rest J o f E dx) {d : List K} (hd : d.length = N * rest.prod) :
    Runs n (fun r => (f (env n J r) o ((Layout.slab n N rest).fam n dx ((Layout.slab n N rest).piece d) r)).bind fun y =>
        if y.gshape.length > 1 then A.ravel (env n J r) y else .ret y)
      (fun r => E.map fun E => (Layout.flat n N rest).fam n o.dtype ((Layout.flat n N rest).piece (A.along o.dtype N rest E ⟨dx, d⟩).v) r) := by
  have h := hm fun q j => d.getD (q * rest.prod + j) A.zero
  cases E with
  | error e =>
    refine (Runs.bind (k := fun r y => if y.gshape.length > 1 then A.ravel (env n J r) y else .ret y) h (Runs.throw fun _ => e)).congr (fun r hr => ?_) fun _ _ => rfl
    rw [a_rows A hn hd hr]
  | ok E =>
    refine (a_flat A (J := J) hn h).congr (fun r hr => ?_) fun r hr => ?_
    · rw [a_rows A hn hd hr]
    · rfl

/-- scattered input -/
theorem a_deriv_scatter (hn : 0 < n) {o : Deriv K} (ho : o.dims = N :: rest) {f : Ctx K → Deriv K → DArr K → P K (DArr K)} {E : Except Err ((Nat → K) → Nat → K)} {x : SVec K}
    (hm : AMethod n N rest J o f E x.dt) (hc : Conform n X (.slab n N rest)) (hX : Near n X (.slab n N rest)) (hx : x.v.length = X.gshape.prod) :
    Runs n (fun r => A.derivApply (env n J r) o f (X.fam n x.dt (X.piece x.v) r))
      (fun r => E.map fun E => (Layout.flat n N rest).fam n o.dtype ((Layout.flat n N rest).piece (A.along o.dtype N rest E (x.copy A.toArith)).v) r) := by
  have hlen : x.v.length = N * rest.prod := by rw [hx, hc.X1]; simp [Layout.rows]
  have hp : ∀ r, ¬ (X.fam n x.dt (X.piece x.v) r).part = .broadcast := fun r => by
    show ¬ X.part = .broadcast
    rw [hc.scX]; decide
  unfold ArrArith.derivApply Arith.reshaped
  simp only [Prog.bind_eq, if_neg (hp _), Prog.ret_bind, ho]
  exact Runs.bind_ok (a_redistribute A hc rfl hX hx) (a_apply A hn hm (by simpa using hlen))

/-- input held by all ranks -/
theorem a_deriv_bcast (hn : 0 < n) {o : Deriv K} (ho : o.dims = N :: rest) {f : Ctx K → Deriv K → DArr K → P K (DArr K)} {E : Except Err ((Nat → K) → Nat → K)} {x : SVec K}
    (hm : AMethod n N rest J o f E x.dt) (hX : Near n (.lin (N * rest.prod) (balanced (N * rest.prod) n)) (.slab n N rest)) (hx : x.v.length = N * rest.prod) :
    Runs n (fun r => A.derivApply (env n J r) o f ((Layout.all (N * rest.prod)).fam n x.dt ((Layout.all (N * rest.prod)).piece x.v) r))
      (fun r => E.map fun E => (Layout.flat n N rest).fam n o.dtype
        ((Layout.flat n N rest).piece (A.along o.dtype N rest E ((x.copy A.toArith).copy A.toArith)).v) r) := by
  have hs := psum_balanced_total N hn
  have hw : (Layout.lin (N * rest.prod) (balanced (N * rest.prod) n)).WF n :=
    ⟨by simp [Layout.lin], fun _ => by simpa [Layout.lin, len] using psum_balanced_total _ hn, by simp [Layout.lin]⟩
  have hc : Conform n (.lin (N * rest.prod) (balanced (N * rest.prod) n)) (.slab n N rest) :=
    ⟨hw, rows_wf hs, by simp [Layout.lin, Layout.rows], rfl, rfl, rfl, rfl, rfl⟩
  have hp : ∀ r, ((Layout.all (N * rest.prod)).fam n x.dt ((Layout.all (N * rest.prod)).piece x.v) r).part = .broadcast := fun r => rfl
  have hl : ∀ r, ((Layout.all (N * rest.prod)).fam n x.dt ((Layout.all (N * rest.prod)).piece x.v) r).larr = ⟨[N * rest.prod], x.dt, x.v⟩ := fun r => rfl
  unfold ArrArith.derivApply Arith.reshaped
  simp only [Prog.bind_eq, if_pos (hp _), ho, hl]
  refine Runs.bind_ok ((runs_aToDist A.toArith (J := J) (dt := x.dt) (L := .lin (N * rest.prod) (balanced (N * rest.prod) n)) hw rfl rfl (by simp [Layout.lin, len])
    (a := fun _ => x.v) (fun r _ => by simpa [Layout.lin] using hx)).congr (fun _ _ => rfl) (ρ' := fun r => .ok ((Layout.lin (N * rest.prod) (balanced (N * rest.prod) n)).fam n x.dt
      ((Layout.lin (N * rest.prod) (balanced (N * rest.prod) n)).piece (x.v.map (A.cast x.dt))) r)) fun r hr => ?_) ?_
  · congr 1
    exact fam_congr (piece_map _ _ _).symm
  · exact Runs.bind_ok (a_redistribute A (d := x.v.map (A.cast x.dt)) hc rfl hX (by simpa [Layout.lin] using hx)) (a_apply A hn hm (by simpa using hx))

/-! ### the methods with the rows split by `local_split` -/

theorem amethod_fd (k : FDKind) (hn : 0 < n) (hroom : fdRoom k edge n N) :
    AMethod n N rest J ⟨N :: rest, s, edge, dt⟩ (A.fdMv k) (.ok fun v p => A.fdEntry dt edge N s v p k) dx := by
  intro F
  have ht := psum_balanced_total N hn
  cases k with
  | forward =>
    have h : n ≤ N := hroom
    exact a_fdMvForward A ht (by omega) (.inr fun r _ => balanced_ge hn (by omega) r)
  | backward =>
    have h : n ≤ N := hroom
    exact a_fdMvBackward A ht (by omega) (.inr fun r _ => balanced_ge hn (by omega) r)
  | centered3 =>
    have h : (if edge then 2 * n else n) ≤ N := hroom
    exact a_fdMvCentered3 A ht (by split_ifs at h <;> omega) (.inr fun r _ => balanced_ge hn (by split_ifs at h <;> omega) r)
      (edgeRoom hn fun he => by rwa [if_pos he] at h)
  | centered5 =>
    have h : (if edge then 3 * n else 2 * n) ≤ N := hroom
    exact a_fdMvCentered5 A ht (by split_ifs at h <;> omega) (.inr fun r _ => balanced_ge hn (by split_ifs at h <;> omega) r)
      (edgeRoom hn fun he => by rwa [if_pos he] at h)

theorem amethod_fdAdj (k : FDKind) (hn : 0 < n) (hroom : fdRoomAdj k edge n N) (hdt : dt = .real → dx = .real) :
    AMethod n N rest J ⟨N :: rest, s, edge, dt⟩ (A.fdRmv k) (.ok fun v p => A.fdEntryAdj dt edge N s v p k) dx := by
  intro F
  have ht := psum_balanced_total N hn
  cases k with
  | forward =>
    have h : n ≤ N := hroom
    exact a_fdRmvForward A ht (by omega) (.inr fun r _ => balanced_ge hn (by omega) r) hdt
  | backward =>
    have h : n ≤ N := hroom
    exact a_fdRmvBackward A ht (by omega) (.inr fun r _ => balanced_ge hn (by omega) r) hdt
  | centered3 =>
    have h : 2 * n ≤ N ∨ n = 1 ∧ edge = false ∧ 1 ≤ N := hroom
    exact a_fdRmvCentered3 A ht (by omega) (h.symm.imp (·.1) fun h r _ => balanced_ge hn h r) (edgeRoom hn fun he => by simpa [he] using h) hdt
  | centered5 =>
    have h : 4 * n ≤ N ∨ n = 1 ∧ edge = false ∧ 3 ≤ N := hroom
    exact a_fdRmvCentered5 A ht (by omega) (h.symm.imp (·.1) fun h r _ => balanced_ge hn h r) (edgeRoom hn fun he => by simp [he] at h; omega) hdt

theorem map_map_except {α β γ : Type} {x : Except Err α} {f : α → β} {g : β → γ} : (x.map f).map g = x.map fun a => g (f a) := by cases x <;> rfl

theorem amethod_sd (k : SDKind) (hn : 0 < n) (hroom : sdRoom k edge n N) :
    AMethod n N rest J ⟨N :: rest, s, edge, dt⟩ (A.sdMv k) ((A.pySq s).map fun s2 v p => A.sdEntry dt edge N s2 v p k) dx := by
  intro F
  have ht := psum_balanced_total N hn
  simp only [map_map_except]
  cases k with
  | forward =>
    have h : 2 * n ≤ N ∨ n = 1 ∧ 1 ≤ N := hroom
    exact a_sdMvForward A ht (by omega) (h.symm.imp (·.1) fun h r _ => balanced_ge hn h r)
  | backward =>
    have h : 2 * n ≤ N ∨ n = 1 ∧ 1 ≤ N := hroom
    exact a_sdMvBackward A ht (by omega) (h.symm.imp (·.1) fun h r _ => balanced_ge hn h r)
  | centered =>
    have h : (if edge then 3 * n else n) ≤ N := hroom
    exact a_sdMvCentered A ht (by split_ifs at h <;> omega) (.inr fun r _ => balanced_ge hn (by split_ifs at h <;> omega) r)
      (edgeRoom hn fun he => by rwa [if_pos he] at h)

theorem amethod_sdAdj (k : SDKind) (hn : 0 < n) (hroom : sdRoomAdj k edge n N) (hdt : dt = .real → dx = .real) :
    AMethod n N rest J ⟨N :: rest, s, edge, dt⟩ (A.sdRmv k) ((A.pySq s).map fun s2 v p => A.sdEntryAdj dt edge N s2 v p k) dx := by
  intro F
  have ht := psum_balanced_total N hn
  simp only [map_map_except]
  cases k with
  | forward =>
    have h : 2 * n ≤ N ∨ n = 1 ∧ 1 ≤ N := hroom
    exact a_sdRmvForward A ht (by omega) (h.symm.imp (·.1) fun h r _ => balanced_ge hn h r) hdt
  | backward =>
    have h : 2 * n ≤ N ∨ n = 1 ∧ 1 ≤ N := hroom
    exact a_sdRmvBackward A ht (by omega) (h.symm.imp (·.1) fun h r _ => balanced_ge hn h r) hdt
  | centered =>
    have h : if edge then 3 * n ≤ N else 2 * n ≤ N ∨ n = 1 ∧ 1 ≤ N := hroom
    refine a_sdRmvCentered A ht ?_ ?_ ?_ hdt
    · split_ifs at h <;> omega
    · split_ifs at h
      · exact .inr fun r _ => balanced_ge hn (by omega) r
      · exact h.symm.imp (·.1) fun h r _ => balanced_ge hn h r
    · exact edgeRoom hn fun he => by rwa [if_pos he] at h

end Verif

/-
  The array methods of Model/FloatSolvers.lean keep the ranks in step.
-/
import Verif.Spec.FloatSolvers
import Verif.Proofs.Array
import Verif.MPI.Bind

namespace Verif
open NDArray

variable {K : Type} {α β : Type}

/-! ### programs that return on all ranks or raise on all ranks -/

/-- `Together` in terms of `Runs` -/
def Tog (n : Nat) (may : Prop) (ps : Nat → P K α) (Q : (Nat → α) → Prop) : Prop :=
  (∃ a, Q a ∧ Runs n ps fun r => .ok (a r)) ∨ may ∧ ∃ e : Nat → Err, Runs n ps fun r => .error (e r)

section
variable {n : Nat} {may : Prop} {ps qs : Nat → P K α} {Q R : (Nat → α) → Prop}

theorem Tog.together (h : Tog n may ps Q) : Together n may ps Q :=
  h.imp (fun ⟨a, h1, h2⟩ => ⟨a, h1, h2.always⟩) fun ⟨m, e, h⟩ => ⟨m, e, h.always⟩

theorem Together.tog (h : Together n may ps Q) : Tog n may ps Q :=
  h.imp (fun ⟨a, h1, h2⟩ => ⟨a, h1, h2.runs⟩) fun ⟨m, e, h⟩ => ⟨m, e, h.runs⟩

theorem Tog.congr (h : Tog n may ps Q) (e : ∀ r < n, ps r = qs r) : Tog n may qs Q :=
  h.imp (fun ⟨a, h1, h2⟩ => ⟨a, h1, h2.congr e fun _ _ => rfl⟩) fun ⟨m, x, h⟩ => ⟨m, x, h.congr e fun _ _ => rfl⟩

theorem Tog.imp (h : Tog n may ps Q) (hq : ∀ a, Q a → R a) : Tog n may ps R := Or.imp (fun ⟨a, h1, h2⟩ => ⟨a, hq a h1, h2⟩) id h

theorem Tog.runs {a : Nat → α} (h : Runs n ps fun r => .ok (a r)) (hq : Q a) : Tog n may ps Q := .inl ⟨a, hq, h⟩

theorem Tog.ret {a : Nat → α} (hq : Q a) : Tog (K := K) n may (fun r => .ret (a r)) Q := .inl ⟨a, hq, Runs.ret a⟩

theorem Tog.throw (hm : may) (e : Nat → Err) : Tog (K := K) n may (fun r => .throw (e r)) Q := .inr ⟨hm, e, Runs.throw e⟩

theorem Tog.bind {k : Nat → α → P K β} {R : (Nat → β) → Prop} (h : Tog n may ps Q) (hk : ∀ a, Q a → Tog n may (fun r => k r (a r)) R) :
    Tog n may (fun r => (ps r).bind (k r)) R := by
  rcases h with ⟨a, hq, h⟩ | ⟨m, e, h⟩
  · rcases hk a hq with ⟨b, hr, h'⟩ | ⟨m, e, h'⟩
    · exact .inl ⟨b, hr, h.bind h'⟩
    · exact .inr ⟨m, e, h.bind h'⟩
  · exact .inr ⟨m, e, h.bind (Runs.throw e)⟩

/-- a value that is the same on all ranks -/
def Same (a : Nat → α) : Prop := ∃ c, a = fun _ => c

theorem tog_lift {v : Except Err α} (hv : ¬ may → ∃ a, v = .ok a) : Tog (K := K) n may (fun _ => Prog.lift v) Same := by
  cases v with
  | ok a => exact Tog.ret ⟨a, rfl⟩
  | error e => exact Tog.throw (by_contra fun h => by obtain ⟨a, h⟩ := hv h; cases h) _

end

/-! ### arrays -/

section
variable (A : Arith K) {n : Nat} {J : Nat → Nat → K} {L : Layout} {dt : DType} {g may : Prop}

theorem Fam.mono {d : Nat → DArr K} (h : Fam n g L d) : Fam n False L d := by
  obtain ⟨dt, a, h1, _, h3⟩ := h
  exact ⟨dt, a, h1, fun h => h.elim, h3⟩

/-- moreover the ranks hold the same values if the partition is BROADCAST -/
def FamB (n : Nat) (g : Prop) (L : Layout) (d : Nat → DArr K) : Prop := Fam n (g ∨ L.part = .broadcast) L d

theorem FamB.fam {d : Nat → DArr K} (h : FamB n g L d) : Fam n g L d := by
  obtain ⟨dt, a, h1, h2, h3⟩ := h
  exact ⟨dt, a, h1, fun h => h2 (.inl h), h3⟩

/-- replace the objects of the ranks by those of a layout -/
theorem Fam.tog {d : Nat → DArr K} {f : Nat → DArr K → P K α} {Q : (Nat → α) → Prop} (h : Fam n g L d)
    (hf : ∀ dt a, (∀ r < n, (a r).length = (L.lshape r).prod) → (g → L.part.isBroadcast = true → ∀ r < n, a r = a 0) → Tog n may (fun r => f r (L.fam n dt a r)) Q) :
    Tog n may (fun r => f r (d r)) Q := by
  obtain ⟨dt, a, h1, h2, h3⟩ := h
  exact (hf dt a h1 h2).congr fun r hr => by rw [h3 r hr]

theorem isBroadcast_of_broadcast (h : L.part = .broadcast) : L.part.isBroadcast = true := by simp [h, Partition.isBroadcast]

theorem a_setIndex_all {a v : NDArray K} (ha : a.WF) (hs : v.shape = a.shape) (hv : v.WF) :
    A.setIndex Index.all a v = .ok ⟨a.shape, a.dtype, v.data.map (A.cast a.dtype)⟩ := by
  have hv' : v.data.length = a.shape.prod := by rw [← hs]; exact hv
  simp only [Arith.setIndex, Index.all, bind, Except.bind, pure, Except.pure, bcastTo_self hs hv']
  rw [writeAt_range ha (by simpa using hv')]

/-- what `d[:] = v` leaves on each rank -/
theorem runs_aSetAll {a : Nat → List K} {v : Nat → NDArray K} (ha : ∀ r < n, (a r).length = (L.lshape r).prod)
    (hs : ∀ r < n, (v r).shape = L.lshape r) (hv : ∀ r < n, (v r).data.length = (L.lshape r).prod) :
    Runs n (fun r => A.setAll (env n J r) (L.fam n dt a r) (v r)) (fun r => .ok (L.fam n dt (fun r => (L.sync (fun q => (v q).data) r).map (A.cast dt)) r)) := by
  rcases Nat.eq_zero_or_pos n with rfl | hn
  · exact Runs.of_zero
  unfold Arith.setAll
  simp only [Prog.bind_eq]
  have hpart : ∀ r, (L.fam n dt a r).part = L.part := fun _ => rfl
  simp only [hpart]
  by_cases hb : L.part = .broadcast
  · simp only [if_pos hb]
    refine runs_bcast (J := J) (v := v) ?_
    refine Runs.congr (Runs.ret _) (fun r hr => ?_) (fun _ _ => rfl)
    have hl : ∀ q, L.lshape q = L.gshape := lshape_bcast (isBroadcast_of_broadcast hb)
    rw [a_setIndex_all A (by exact ha r hr) (by rw [hs 0 hn, hl]; exact (hl r).symm) (by unfold WF; rw [hv 0 hn, hs 0 hn])]
    simp [Layout.sync, hb, Layout.fam]
  · simp only [if_neg hb]
    refine Runs.congr (Runs.ret _) (fun r hr => ?_) (fun _ _ => rfl)
    rw [a_setIndex_all A (by exact ha r hr) (hs r hr) (by unfold WF; rw [hv r hr, hs r hr])]
    simp [Layout.sync, hb, Layout.fam]

theorem a_setAll {a : Nat → List K} {v : Nat → NDArray K} (ha : ∀ r < n, (a r).length = (L.lshape r).prod)
    (hs : ∀ r < n, (v r).shape = L.lshape r) (hv : ∀ r < n, (v r).data.length = (L.lshape r).prod)
    (hg : g → L.part.isBroadcast = true → ∀ r < n, (v r).data = (v 0).data) :
    Tog n may (fun r => A.setAll (env n J r) (L.fam n dt a r) (v r)) (FamB n g L) := by
  rcases Nat.eq_zero_or_pos n with rfl | hn
  · exact Tog.runs (a := fun r => L.fam 0 dt a r) Runs.of_zero ⟨dt, a, by simp, by simp, by simp⟩
  refine Tog.runs (runs_aSetAll A ha hs hv) ⟨dt, _, fun r hr => ?_, fun h1 h2 r hr => ?_, fun _ _ => rfl⟩
  · by_cases hb : L.part = .broadcast
    · have hl : ∀ q, L.lshape q = L.gshape := lshape_bcast (isBroadcast_of_broadcast hb)
      simp [Layout.sync, hb, hv 0 hn, hl]
    · simp [Layout.sync, hb, hv r hr]
  · by_cases hb : L.part = .broadcast
    · simp [Layout.sync, hb]
    · simp only [Layout.sync, if_neg hb, hg (h1.resolve_right hb) h2 r hr]

/-- contents of memory that has not been written -/
def aJunk (J : Nat → Nat → K) (L : Layout) (dt : DType) (r : Nat) : List K := (List.range (L.lshape r).prod).map fun i => A.cast dt (J r i)

theorem length_aJunk (r : Nat) : (aJunk A J L dt r).length = (L.lshape r).prod := by simp [aJunk]

theorem a_mkSub (hm : L.mask = none) : Runs n (fun r => mkSub (env n J r) L.mask) (fun r => .ok (L.members n r)) := by
  unfold mkSub Layout.members
  rw [hm]
  exact Runs.ret _

theorem a_checkLocalShapes (hL : L.WF n) :
    Runs n (fun r => checkLocalShapes (env n J r) L.gshape L.part L.axis ((List.range n).map L.lshape)) (fun _ => .ok ()) := by
  rcases Nat.eq_zero_or_pos n with rfl | hn
  · exact Runs.of_zero
  unfold checkLocalShapes
  have e1 : (List.range n).map L.lshape ≠ [] := by simp; omega
  have e2 : ((List.range n).map L.lshape).length = n := by simp
  simp only [if_neg e1, env_size, e2, ne_eq, not_true_eq_false, if_false, env_rank]
  have e3 : ∀ r < n, ((List.range n).map L.lshape).getD r [] = L.lshape r := by
    intro r hr; simp [List.getD_eq_getElem?_getD, hr]
  by_cases hb : L.part.isBroadcast = true
  · simp only [if_pos hb]
    refine Runs.congr (Runs.ret _) (fun r hr => ?_) (fun _ _ => rfl)
    simp only [e3 r hr, lshape_bcast hb]; simp
  · have hp := isBroadcast_false hb
    simp only [if_neg hb]
    refine Runs.congr (ps := fun r => ((allreduce (env n J r).world (fun a b => .ok (a + b)) (L.sizes r)).bind
      fun tot => if tot ≠ len L.gshape L.axis ∨ (L.lshape r).eraseIdx L.axis ≠ L.gshape.eraseIdx L.axis
        then .throw .value else .ret ())) (ρ := fun _ => .ok ()) ?_ ?_ (fun _ _ => rfl)
    · refine runs_allreduce_nat ?_
      refine Runs.congr (Runs.ret (fun _ => ())) (fun r hr => ?_) (fun _ _ => rfl)
      simp [hL.sum hp, lshape_scatter hp, List.eraseIdx_set_eq]
    · intro r hr
      have : (L.lshape r)[L.axis]? = some (L.sizes r) := by
        rw [lshape_scatter hp]; simp [hL.axis_lt]
      simp only [e3 r hr, this]; rfl

theorem a_mkDArr (hL : L.WF n) (hm : L.mask = none) :
    Runs n (fun r => A.mkDArr (env n J r) L.gshape L.part L.axis (some ((List.range n).map L.lshape)) L.mask dt)
      (fun r => .ok (L.fam n dt (aJunk A J L dt) r)) := by
  rcases Nat.eq_zero_or_pos n with rfl | hn
  · exact Runs.of_zero
  unfold Arith.mkDArr
  have e0 : ¬ L.gshape.length ≤ L.axis := by have := hL.axis_lt; omega
  simp only [if_neg e0, Prog.bind_eq, Option.getD_some]
  refine Runs.bind_ok (a_mkSub hm) ?_
  refine Runs.bind_ok (a_checkLocalShapes hL) ?_
  refine Runs.congr (Runs.ret _) (fun r hr => ?_) (fun _ _ => rfl)
  have e3 : ((List.range n).map L.lshape).getD r [] = L.lshape r := by
    simp [List.getD_eq_getElem?_getD, hr]
  have e1 : (List.range n).map L.lshape ≠ [] := by simp; omega
  simp only [if_neg e1, env_rank, e3]
  rfl

theorem a_like {a : Nat → List K} (hL : L.WF n) (hm : L.mask = none) :
    Runs n (fun r => A.like (env n J r) (L.fam n dt a r)) (fun r => .ok (L.fam n dt (aJunk A J L dt) r)) := by
  unfold Arith.like
  simp only [Prog.bind_eq]
  exact runs_allgather (v := L.lshape) (a_mkDArr A hL hm)

/-- allocate an array and fill it -/
theorem a_like_set {a : Nat → List K} {v : Nat → NDArray K} (hL : L.WF n) (hm : L.mask = none)
    (hs : ∀ r < n, (v r).shape = L.lshape r) (hv : ∀ r < n, (v r).data.length = (L.lshape r).prod)
    (hg : g → L.part.isBroadcast = true → ∀ r < n, (v r).data = (v 0).data) :
    Tog n may (fun r => (A.like (env n J r) (L.fam n dt a r)).bind fun d => A.setAll (env n J r) d (v r)) (FamB n g L) := by
  refine Tog.bind (Q := fun d => d = L.fam n dt (aJunk A J L dt)) (Tog.runs (a_like A hL hm) rfl) ?_
  rintro _ rfl
  exact a_setAll A (fun r _ => length_aJunk A r) hs hv hg

variable {d e : Nat → DArr K}

/-- a new array computed elementwise from an array -/
theorem a_unary {f : K → K} {t : DType → DType} (hL : L.WF n) (hm : L.mask = none) (hd : Fam n g L d) :
    Tog n may (fun r => (A.like (env n J r) (d r)).bind fun x => A.setAll (env n J r) x ⟨(d r).larr.shape, t (d r).larr.dtype, (d r).larr.data.map f⟩) (FamB n g L) := by
  refine hd.tog (f := fun r d => (A.like (env n J r) d).bind fun x => A.setAll (env n J r) x ⟨d.larr.shape, t d.larr.dtype, d.larr.data.map f⟩) fun dt a h1 h2 => ?_
  refine a_like_set A (v := fun r => ⟨L.lshape r, t dt, (a r).map f⟩) hL hm (fun _ _ => rfl) (fun r hr => by simpa using h1 r hr) fun hg hb r hr => ?_
  show (a r).map f = (a 0).map f
  rw [h2 hg hb r hr]

theorem a_neg (hL : L.WF n) (hm : L.mask = none) (hd : Fam n g L d) : Tog n may (fun r => A.dneg (env n J r) (d r)) (Fam n g L) :=
  (a_unary A (f := A.neg) (t := id) hL hm hd).imp fun _ h => h.fam

theorem a_conj (hL : L.WF n) (hm : L.mask = none) (hd : Fam n g L d) : Tog n may (fun r => A.dconj (env n J r) (d r)) (Fam n g L) :=
  (a_unary A (f := A.conj) (t := id) hL hm hd).imp fun _ h => h.fam

theorem a_smul (t : DType) (s : K) (hL : L.WF n) (hm : L.mask = none) (hd : Fam n g L d) : Tog n may (fun r => A.dsmul (env n J r) (d r) t s) (Fam n g L) :=
  (a_unary A (f := (A.mul · s)) (t := (·.promote t)) hL hm hd).imp fun _ h => h.fam

theorem a_copy (hL : L.WF n) (hm : L.mask = none) (hd : Fam n g L d) : Tog n may (fun r => A.dcopy (env n J r) (d r)) (FamB n g L) := by
  refine (a_unary A (f := id) (t := id) (J := J) hL hm hd).congr fun r _ => ?_
  simp [Arith.dcopy, Prog.bind_eq]

theorem a_checkCompat {a b : Nat → List K} {dt' : DType} (r : Nat) : (L.fam n dt a r).checkCompat (L.fam n dt' b r) = .ret () := by
  simp [DArr.checkCompat, Layout.fam]

theorem a_zip {a b : Nat → List K} {dt' : DType} {f : K → K → K} (r : Nat) :
    NDArray.zip f (L.fam n dt a r).larr (L.fam n dt' b r).larr = .ok ⟨L.lshape r, dt.promote dt', List.zipWith f (a r) (b r)⟩ := by
  simp [NDArray.zip, Layout.fam]

/-- the same for two arrays -/
theorem Fam.tog2 {f : Nat → DArr K → DArr K → P K α} {Q : (Nat → α) → Prop} (hd : Fam n g L d) (he : Fam n g L e)
    (hf : ∀ dt dt' a b, (∀ r < n, (a r).length = (L.lshape r).prod) → (∀ r < n, (b r).length = (L.lshape r).prod) →
      (g → L.part.isBroadcast = true → ∀ r < n, a r = a 0 ∧ b r = b 0) → Tog n may (fun r => f r (L.fam n dt a r) (L.fam n dt' b r)) Q) :
    Tog n may (fun r => f r (d r) (e r)) Q := by
  obtain ⟨dt, a, h1, h2, h3⟩ := hd
  obtain ⟨dt', b, h1', h2', h3'⟩ := he
  exact (hf dt dt' a b h1 h1' fun hg hb r hr => ⟨h2 hg hb r hr, h2' hg hb r hr⟩).congr fun r hr => by rw [h3 r hr, h3' r hr]

theorem a_add (hL : L.WF n) (hm : L.mask = none) (hd : Fam n g L d) (he : Fam n g L e) : Tog n may (fun r => A.dadd (env n J r) (d r) (e r)) (Fam n g L) := by
  refine hd.tog2 he (f := fun r d e => A.dadd (env n J r) d e) fun dt dt' a b h1 h2 h3 => ?_
  unfold Arith.dadd
  simp only [Prog.bind_eq, a_checkCompat, a_zip, Prog.ret_bind, Prog.lift_ok]
  refine Tog.imp (a_like_set A (v := fun r => ⟨L.lshape r, dt.promote dt', List.zipWith A.add (a r) (b r)⟩) hL hm (fun _ _ => rfl) (fun r hr => by simp [h1 r hr, h2 r hr])
    fun hg hb r hr => ?_) fun _ h => h.fam
  dsimp only
  rw [(h3 hg hb r hr).1, (h3 hg hb r hr).2]

theorem a_iadd (hd : Fam n g L d) (he : Fam n g L e) : Tog n may (fun r => A.diadd (env n J r) (d r) (e r)) (FamB n g L) := by
  refine hd.tog2 he (f := fun r d e => A.diadd (env n J r) d e) fun dt dt' a b h1 h2 h3 => ?_
  unfold Arith.diadd
  simp only [Prog.bind_eq, a_checkCompat, a_zip, Prog.ret_bind, Prog.lift_ok]
  refine a_setAll A (v := fun r => ⟨L.lshape r, dt.promote dt', List.zipWith A.add (a r) (b r)⟩) h1 (fun _ _ => rfl) (fun r hr => by simp [h1 r hr, h2 r hr])
    fun hg hb r hr => ?_
  dsimp only
  rw [(h3 hg hb r hr).1, (h3 hg hb r hr).2]

theorem a_sub (hL : L.WF n) (hm : L.mask = none) (hd : Fam n g L d) (he : Fam n g L e) : Tog n may (fun r => A.dsub (env n J r) (d r) (e r)) (Fam n g L) := by
  unfold Arith.dsub
  simp only [Prog.bind_eq]
  exact (a_neg A hL hm he).bind fun m hm' => a_add A hL hm hd hm'

theorem a_isub (hL : L.WF n) (hm : L.mask = none) (hd : Fam n g L d) (he : Fam n g L e) : Tog n may (fun r => A.disub (env n J r) (d r) (e r)) (Fam n g L) := by
  unfold Arith.disub
  simp only [Prog.bind_eq]
  exact (a_neg A hL hm he).bind fun m hm' => (a_iadd A hd hm').imp fun _ h => h.fam

/-- assigning the values of one array to another of the same layout -/
theorem a_assign (hd : Fam n g L d) (he : Fam n g L e) : Tog n may (fun r => A.setAll (env n J r) (d r) (e r).larr) (FamB n g L) := by
  refine hd.tog2 he (f := fun r d e => A.setAll (env n J r) d e.larr) fun dt dt' a b h1 h2 h3 => ?_
  exact a_setAll A (v := fun r => ⟨L.lshape r, dt', b r⟩) h1 (fun _ _ => rfl) h2 fun hg hb r hr => (h3 hg hb r hr).2

theorem a_assign_neg (hd : Fam n g L d) : Tog n may (fun r => A.setAll (env n J r) (d r) ((d r).larr.map A.neg)) (Fam n g L) := by
  refine hd.tog (f := fun r d => A.setAll (env n J r) d (d.larr.map A.neg)) fun dt a h1 h2 => ?_
  refine Tog.imp (a_setAll A (v := fun r => ⟨L.lshape r, dt, (a r).map A.neg⟩) h1 (fun _ _ => rfl) (fun r hr => by simpa using h1 r hr) fun hg hb r hr => ?_) fun _ h => h.fam
  dsimp only
  rw [h2 hg hb r hr]

/-! ### reductions -/

theorem a_reduce {v : Nat → K} : Tog n may (fun r => A.reduce (List.range n) (v r)) Same := by
  rcases Nat.eq_zero_or_pos n with rfl | hn
  · exact Tog.runs (a := fun _ => A.zero) Runs.of_zero ⟨_, rfl⟩
  refine Tog.runs (a := fun _ => A.sum ((List.range n).map v)) ?_ ⟨_, rfl⟩
  unfold Arith.reduce
  simp only [Prog.bind_eq]
  refine runs_gather (v := fun r => Sc.mk (v r)) ?_
  simp only [range_cons hn, List.map_cons, List.map_map]
  exact Runs.ret _

/-- the layout that `dot` and `norm` use for broadcast arrays -/
def scatLayout (L : Layout) (n : Nat) : Layout := ⟨L.gshape, .scatter, 0, balanced (len L.gshape 0) n, none⟩

theorem scatLayout_wf (hL : L.WF n) (hn : 0 < n) : (scatLayout L n).WF n :=
  ⟨Nat.lt_of_le_of_lt (Nat.zero_le _) hL.axis_lt, fun _ => psum_balanced_total _ hn, fun _ h => by simp [scatLayout] at h⟩

theorem a_length_piece {L : Layout} (hL : L.WF n) {d : List K} (hd : d.length = L.gshape.prod) {r : Nat} (hr : r < n) : (L.piece d r).length = (L.lshape r).prod := by
  unfold Layout.piece
  split_ifs with hb
  · rw [hd, lshape_bcast hb]
  · have hp := isBroadcast_false hb
    have h2 : psum L.sizes (r + 1) ≤ len L.gshape L.axis := hL.sum hp ▸ psum_mono _ hr
    rw [length_sliceData hL.axis_lt hd (psum_mono _ (Nat.le_succ r)) h2, length_lshape_prod hL hp]
    simp [psum]

theorem runs_aToDist {L : Layout} (hL : L.WF n) (hp : L.part = .scatter) (hm : L.mask = none) (hbal : L.sizes = balanced (len L.gshape L.axis) n) {a : Nat → List K}
    (ha : ∀ r < n, (a r).length = L.gshape.prod) :
    Runs n (fun r => A.toDist (env n J r) ⟨L.gshape, dt, a r⟩ .scatter L.axis none none) (fun r => .ok (L.fam n dt (fun r => (L.piece (a r) r).map (A.cast dt)) r)) := by
  unfold Arith.toDist Arith.mkDArr
  have e0 : ¬ L.gshape.length ≤ L.axis := by have := hL.axis_lt; omega
  have hb : ¬ L.part.isBroadcast = true := by simp [hp, Partition.isBroadcast]
  simp only [if_neg e0, Prog.bind_eq, Option.getD_none, checkLocalShapes, mkSub, if_true, Prog.ret_bind]
  have hsp : ∀ r, localSplit (env n J r) L.gshape .scatter L.axis = L.lshape r := by
    intro r
    rw [lshape_scatter hp, hbal]
    unfold localSplit balanced
    by_cases h : r < len L.gshape L.axis % n <;> simp [h, Partition.isBroadcast]
  simp only [hsp, show Partition.scatter.isBroadcast = false from rfl, Bool.false_eq_true, if_false]
  have hls : ∀ r, len (L.lshape r) L.axis = L.sizes r := by
    intro r
    rw [lshape_scatter hp, len_set hL.axis_lt]
  have hfam : ∀ r, DArr.mk L.gshape .scatter L.axis none (env n J r).world (L.lshape r) dt (A.emptyArr (env n J r) (L.lshape r) dt) = L.fam n dt (aJunk A J L dt) r := by
    intro r
    simp only [Layout.fam, hp, hm, Layout.members]
    rfl
  simp only [hls, hfam]
  have hpc : ∀ r < n, (⟨L.gshape, dt, a r⟩ : NDArray K).slice L.axis (((List.range n).map L.sizes).take r).sum (((List.range n).map L.sizes).take (r + 1)).sum
      = ⟨L.lshape r, dt, L.piece (a r) r⟩ := by
    intro r hr
    have h2 : psum L.sizes (r + 1) ≤ len L.gshape L.axis := hL.sum hp ▸ psum_mono _ hr
    have h1 : psum L.sizes r ≤ len L.gshape L.axis := (psum_mono _ (Nat.le_succ r)).trans h2
    rw [take_map_range_sum _ (by omega), take_map_range_sum _ (by omega)]
    unfold slice Layout.piece
    rw [if_neg hb, min_eq_left h2, min_eq_left h1, lshape_scatter hp]
    simp [psum]
  have hlen : ∀ r < n, (L.piece (a r) r).length = (L.lshape r).prod := fun r hr => a_length_piece hL (ha r hr) hr
  refine runs_allgather (v := L.sizes) ((runs_aSetAll A (J := J) (L := L) (dt := dt) (a := aJunk A J L dt) (v := fun r => ⟨L.lshape r, dt, L.piece (a r) r⟩) (fun r _ => length_aJunk A r)
    (fun _ _ => rfl) hlen).congr (fun r hr => ?_) fun r hr => ?_)
  · simp only [env_rank]
    rw [hpc r hr]
  · simp [Layout.sync, hp]

theorem a_toDist {L : Layout} (hL : L.WF n) (hp : L.part = .scatter) (hm : L.mask = none) (hbal : L.sizes = balanced (len L.gshape L.axis) n) {a : Nat → List K}
    (ha : ∀ r < n, (a r).length = L.gshape.prod) :
    Tog n may (fun r => A.toDist (env n J r) ⟨L.gshape, dt, a r⟩ .scatter L.axis none none) (Fam n False L) :=
  Tog.runs (runs_aToDist A hL hp hm hbal ha) ⟨dt, _, fun r hr => by rw [List.length_map]; exact a_length_piece hL (ha r hr) hr, fun h => h.elim, fun _ _ => rfl⟩

/-- the layout of the arrays whose parts enter `dot` and `norm` -/
def redLayout (L : Layout) (n : Nat) : Layout := if L.part.isBroadcast then scatLayout L n else L

theorem a_toScatter (hL : L.WF n) (hm : L.mask = none) (hd : Fam n g L d) :
    Tog n may (fun r => A.toScatter (env n J r) L.part (d r)) (fun x => Fam n False (redLayout L n) x ∧ ∀ r < n, (x r).sub = List.range n) := by
  have hsub : ∀ (M : Layout) (hM : M.mask = none) (x : Nat → DArr K), Fam n False M x → ∀ r < n, (x r).sub = List.range n := by
    intro M hM x hx r hr
    obtain ⟨dt, a, _, _, h⟩ := hx
    rw [h r hr]
    simp [Layout.fam, Layout.members, hM]
  unfold Arith.toScatter redLayout
  by_cases hb : L.part.isBroadcast = true
  · simp only [if_pos hb]
    rcases Nat.eq_zero_or_pos n with rfl | hn
    · exact Tog.runs (a := fun r => (scatLayout L 0).fam 0 .real (fun _ => []) r) Runs.of_zero ⟨⟨.real, fun _ => [], by simp, by simp, by simp⟩, by simp⟩
    refine hd.tog (f := fun r d => A.toDist (env n J r) d.larr .scatter 0 none none) fun dt a h1 _ => ?_
    refine Tog.imp (Tog.congr (a_toDist A (J := J) (L := scatLayout L n) (dt := dt) (a := a) (scatLayout_wf hL hn) rfl rfl rfl fun r hr => ?_) fun r hr => ?_) fun x hx => ⟨hx, hsub _ rfl x hx⟩
    · rw [h1 r hr, lshape_bcast hb]; rfl
    · show A.toDist (env n J r) ⟨L.gshape, dt, a r⟩ .scatter 0 none none = A.toDist (env n J r) ⟨L.lshape r, dt, a r⟩ .scatter 0 none none
      rw [lshape_bcast hb]
  · simp only [if_neg hb]
    exact Tog.ret ⟨hd.mono, hsub L hm d hd.mono⟩

theorem Fam.part (hd : Fam n g L d) : ∀ r < n, (d r).part = L.part := by
  obtain ⟨dt, a, _, _, h⟩ := hd
  exact fun r hr => by rw [h r hr]; rfl

theorem Fam.sub (hd : Fam n g L d) (hm : L.mask = none) : ∀ r < n, (d r).sub = List.range n := by
  obtain ⟨dt, a, _, _, h⟩ := hd
  exact fun r hr => by rw [h r hr]; simp [Layout.fam, Layout.members, hm]

theorem Fam.length (hd : Fam n g L d) : ∀ r < n, (d r).larr.data.length = (L.lshape r).prod := by
  obtain ⟨dt, a, h1, _, h⟩ := hd
  exact fun r hr => by rw [h r hr]; exact h1 r hr

theorem a_dot (hL : L.WF n) (hm : L.mask = none) (hd : Fam n g L d) (he : Fam n g L e) : Tog n may (fun r => A.ddot (env n J r) (d r) (e r)) Same := by
  have key : Tog n may (fun r => (A.toScatter (env n J r) L.part (d r)).bind fun x => (A.toScatter (env n J r) L.part (e r)).bind fun y =>
      (Prog.lift (if x.larr.data.length = y.larr.data.length then .ok (A.dot x.larr.data y.larr.data) else .error .value)).bind (A.reduce (List.range n))) Same := by
    refine (a_toScatter A hL hm hd).bind fun x hx => ?_
    refine (a_toScatter A hL hm he).bind fun y hy => ?_
    refine (a_reduce A (v := fun r => A.dot (x r).larr.data (y r).larr.data)).congr fun r hr => ?_
    rw [if_pos ((hx.1.length r hr).trans (hy.1.length r hr).symm)]
    rfl
  refine key.congr fun r hr => ?_
  have hc : (d r).checkCompat (e r) = .ret () := by
    obtain ⟨dt, a, _, _, h⟩ := hd
    obtain ⟨dt', b, _, _, h'⟩ := he
    rw [h r hr, h' r hr, a_checkCompat]
  simp only [Arith.ddot, Prog.bind_eq, hc, Prog.ret_bind, hd.part r hr, hd.sub hm r hr]

theorem a_norm (hL : L.WF n) (hm : L.mask = none) (hd : Fam n g L d) : Tog n may (fun r => A.dnorm (env n J r) (d r)) Same := by
  have key : Tog n may (fun r => (A.toScatter (env n J r) L.part (d r)).bind fun x => (A.reduce x.sub (A.sumSq x.larr.data)).bind fun s => .ret (A.root s)) Same := by
    refine (a_toScatter A hL hm hd).bind fun x hx => ?_
    refine Tog.bind ((a_reduce A (v := fun r => A.sumSq (x r).larr.data)).congr fun r hr => by rw [hx.2 r hr]) ?_
    rintro _ ⟨s, rfl⟩
    exact Tog.ret ⟨A.root s, rfl⟩
  exact key.congr fun r hr => by simp only [Arith.dnorm, Prog.bind_eq, hd.part r hr]

end
end Verif

/- Outcomes of the API calls on arbitrary arrays. -/
import Verif.Proofs.History

namespace Verif
open NDArray Relation

set_option linter.unusedSectionVars false

variable {K : Type} [Field K] [StarRing K] [CharZero K] {n : Nat} {S : Set (Nat → Nat → K)}

/-- A distributed array as a whole. -/
structure Entry (K : Type) where
  L : Layout
  dt : DType
  a : Nat → List K

def Entry.fam (n : Nat) (e : Entry K) (r : Nat) : DArr K := e.L.fam n e.dt e.a r

/-- well laid out, and (if `c`) consistent -/
structure Entry.Ok (c : Prop) (n : Nat) (e : Entry K) : Prop where
  wf : e.L.WF n
  length : ∀ r < n, (e.a r).length = (e.L.lshape r).prod
  fits : ∀ r < n, FitsL e.dt (e.a r)
  consistent : c → e.L.part = .broadcast → ∀ r < n, e.a r = e.a 0

/-- the per-rank objects form a distributed array -/
def InvA (c : Prop) (n : Nat) (d : Nat → DArr K) : Prop :=
  ∃ e : Entry K, e.Ok c n ∧ ∀ r < n, d r = e.fam n r

/-- the per-rank stores hold distributed arrays -/
def Inv (c : Prop) (n : Nat) (σ : Nat → List (DArr K)) : Prop :=
  ∃ es : List (Entry K), (∀ e ∈ es, e.Ok c n) ∧ ∀ r < n, σ r = es.map fun e => e.fam n r

variable {c : Prop}

theorem Inv.push {σ : Nat → List (DArr K)} {d : Nat → DArr K} (h : Inv c n σ) (hd : InvA c n d) :
    Inv c n fun r => σ r ++ [d r] := by
  obtain ⟨es, h1, h2⟩ := h
  obtain ⟨e, h3, h4⟩ := hd
  refine ⟨es ++ [e], fun e' he => ?_, fun r hr => by simp [h2 r hr, h4 r hr]⟩
  rcases List.mem_append.1 he with h | h
  · exact h1 _ h
  · rw [List.mem_singleton.1 h]; exact h3

theorem Inv.set {σ : Nat → List (DArr K)} {d : Nat → DArr K} {i : Nat} (h : Inv c n σ) (hd : InvA c n d) :
    Inv c n fun r => (σ r).set i (d r) := by
  obtain ⟨es, h1, h2⟩ := h
  obtain ⟨e, h3, h4⟩ := hd
  refine ⟨es.set i e, fun e' he => ?_, fun r hr => by simp [h2 r hr, h4 r hr, List.map_set]⟩
  rcases List.mem_or_eq_of_mem_set he with h | h
  · exact h1 _ h
  · rw [h]; exact h3

theorem outcome_getVar {σ : Nat → List (DArr K)} {i : Nat} (hn : 0 < n) (h : Inv c n σ) :
    Outcome S n (fun _ r => getVar (σ r) i) (InvA c n) := by
  obtain ⟨es, h1, h2⟩ := h
  by_cases hi : i < es.length
  · refine .inl ⟨fun r => es[i].fam n r, ⟨es[i], h1 _ (List.getElem_mem hi), fun _ _ => rfl⟩, fun J _ => ?_⟩
    refine Runs.congr (Runs.ret _) (fun r hr => ?_) (fun _ _ => rfl)
    simp [getVar, h2 r hr, hi]
  · refine .inr fun J _ => Fails.of_throw hn (e := .attribute) ?_
    simp [getVar, h2 0 hn, hi]

theorem InvA.fam {L : Layout} {dt : DType} {a : Nat → List K} (hL : L.WF n) (hg : L.Good n dt a) :
    InvA c n fun r => L.fam n dt a r :=
  ⟨⟨L, dt, a⟩, ⟨hL, hg.length, hg.fits, fun _ => hg.consistent⟩, fun _ _ => rfl⟩

/-- what a full write leaves behind -/
theorem good_sync {L : Layout} {dt : DType} {v : Nat → List K} (hn : 0 < n)
    (hv : ∀ r < n, (v r).length = (L.lshape r).prod) :
    L.Good n dt fun r => (L.sync v r).map (castTo dt) := by
  refine ⟨fun r hr => ?_, fun r hr => ?_, fun hb r hr => ?_⟩
  · by_cases hb : L.part = .broadcast
    · simp only [Layout.sync, if_pos hb, List.length_map, hv 0 hn]
      have hb' : L.part.isBroadcast = true := by simp [hb, Partition.isBroadcast]
      rw [lshape_bcast hb', lshape_bcast hb']
    · simp [Layout.sync, hb, hv r hr]
  · exact fitsL_castTo (L.sync v r)
  · simp [Layout.sync, hb]

theorem outcome_like_set {L : Layout} {dt : DType} {a : Nat → List K} {v : Nat → NDArray K} (hn : 0 < n)
    (hL : L.WF n) (hs : ∀ r < n, (v r).shape = L.lshape r)
    (hv : ∀ r < n, (v r).data.length = (L.lshape r).prod) :
    Outcome S n (fun J r => ((L.fam n dt a r).like (env n J r)).bind fun d => d.setAll (env n J r) (v r))
      (InvA c n) :=
  Outcome.of_runs (fun _ _ => runs_like_set hL hs hv) (InvA.fam hL (good_sync hn hv))

section unary
variable {d : Nat → DArr K}

theorem Outcome.of_entry {ps : (Nat → Nat → K) → (Nat → DArr K) → Nat → P K (DArr K)} {Q : (Nat → DArr K) → Prop}
    (hd : InvA c n d)
    (hps : ∀ J d d', (∀ r < n, d r = d' r) → ∀ r < n, ps J d r = ps J d' r)
    (h : ∀ e : Entry K, e.Ok c n → Outcome S n (fun J r => ps J (e.fam n) r) Q) :
    Outcome S n (fun J r => ps J d r) Q := by
  obtain ⟨e, he, h1⟩ := hd
  exact (h e he).congr fun J r hr => hps J _ _ (fun r hr => (h1 r hr).symm) r hr

theorem outcome_neg (hn : 0 < n) (hd : InvA c n d) :
    Outcome S n (fun J r => (d r).neg (env n J r)) (InvA c n) :=
  Outcome.of_entry (ps := fun J d r => (d r).neg (env n J r)) hd (fun J d d' h r hr => by rw [h r hr])
    fun e he => outcome_like_set (v := fun r => ⟨e.L.lshape r, e.dt, (e.a r).map (- ·)⟩) hn he.wf
      (fun _ _ => rfl) (fun r hr => by simp [he.length r hr])

theorem outcome_conj (hn : 0 < n) (hd : InvA c n d) :
    Outcome S n (fun J r => (d r).conj (env n J r)) (InvA c n) :=
  Outcome.of_entry (ps := fun J d r => (d r).conj (env n J r)) hd (fun J d d' h r hr => by rw [h r hr])
    fun e he => outcome_like_set (v := fun r => ⟨e.L.lshape r, e.dt, (e.a r).map star⟩) hn he.wf
      (fun _ _ => rfl) (fun r hr => by simp [he.length r hr])

theorem outcome_copy (hn : 0 < n) (hd : InvA c n d) :
    Outcome S n (fun J r => (d r).copy (env n J r)) (InvA c n) :=
  Outcome.of_entry (ps := fun J d r => (d r).copy (env n J r)) hd (fun J d d' h r hr => by rw [h r hr])
    fun e he => outcome_like_set (v := fun r => ⟨e.L.lshape r, e.dt, e.a r⟩) hn he.wf
      (fun _ _ => rfl) (fun r hr => by simp [he.length r hr])

theorem outcome_smul (hn : 0 < n) (hd : InvA c n d) (t : DType) (s : K) :
    Outcome S n (fun J r => (d r).smul (env n J r) t s) (InvA c n) :=
  Outcome.of_entry (ps := fun J d r => (d r).smul (env n J r) t s) hd (fun J d d' h r hr => by rw [h r hr])
    fun e he => outcome_like_set (v := fun r => (NDArray.mk (e.L.lshape r) e.dt (e.a r)).smul t s) hn he.wf
      (fun _ _ => rfl) (fun r hr => by simp [NDArray.smul, he.length r hr])

theorem outcome_zerosLike (hd : InvA c n d) :
    Outcome S n (fun J r => (d r).zerosLike (env n J r)) (InvA c n) :=
  Outcome.of_entry (ps := fun J d r => (d r).zerosLike (env n J r)) hd (fun J d d' h r hr => by rw [h r hr])
    fun e he => Outcome.of_runs (fun _ _ => runs_zerosLike he.wf) (InvA.fam (unmask_wf he.wf)
      ⟨fun r _ => by simp; rfl, fun r _ _ x hx => by rw [List.eq_of_mem_replicate hx]; simp,
        fun hb r hr => by
          have hb' : e.L.part.isBroadcast = true := by
            have : e.L.part = .broadcast := hb
            simp [this, Partition.isBroadcast]
          rw [lshape_bcast hb', lshape_bcast hb']⟩)

end unary

/-! ### ravel -/

/-- the layout of the flattened array -/
def Layout.ravel (L : Layout) : Layout :=
  ⟨[L.gshape.prod], L.part, 0, fun r => (L.lshape r).prod, L.mask⟩

theorem ravel_lshape {L : Layout} (r : Nat) : L.ravel.lshape r = [(L.lshape r).prod] := by
  by_cases hb : L.part.isBroadcast = true
  · rw [lshape_bcast (L := L.ravel) hb, lshape_bcast hb]; rfl
  · rw [lshape_scatter (L := L.ravel) (isBroadcast_false hb)]; rfl

theorem ravel_wf {L : Layout} (hL : L.WF n) : L.ravel.WF n := by
  refine ⟨by simp [Layout.ravel], fun hp => ?_, hL.mask⟩
  have hp' : L.part = .scatter := hp
  show psum (fun r => (L.lshape r).prod) n = L.gshape.prod
  have e : (fun r => (L.lshape r).prod) = fun r => outer L.gshape L.axis * (L.sizes r * inner L.gshape L.axis) := by
    funext r; exact length_lshape_prod hL hp' r
  have e2 : ∀ m, psum (fun r => outer L.gshape L.axis * (L.sizes r * inner L.gshape L.axis)) m
      = outer L.gshape L.axis * (psum L.sizes m * inner L.gshape L.axis) := by
    intro m
    induction m with
    | zero => simp [psum]
    | succ m ih => rw [psum, psum, ih]; ring
  rw [e, e2, hL.sum hp', ← prod_split (ax := L.axis) hL.axis_lt]

theorem runs_ravel {L : Layout} {dt : DType} {a : Nat → List K} {J : Nat → Nat → K} (hL : L.WF n)
    (ha : ∀ r < n, (a r).length = (L.lshape r).prod) :
    Runs n (fun r => (L.fam n dt a r).ravel (env n J r))
      (fun r => .ok (L.ravel.fam n dt (fun r => (L.sync a r).map (castTo dt)) r)) := by
  unfold DArr.ravel
  simp only [Prog.bind_eq]
  refine runs_localShapes ?_
  have e : ((List.range n).map L.lshape).map (fun s => [s.prod]) = (List.range n).map L.ravel.lshape := by
    rw [List.map_map]; apply List.map_congr_left; intro r _; exact (ravel_lshape r).symm
  rw [e]
  refine Runs.bind_ok (runs_mkDArr (ravel_wf hL)) ?_
  refine Runs.congr (runs_setAll (L := L.ravel) (dt := dt) (J := J) (a := junkData J L.ravel dt) (v := fun r => ⟨L.ravel.lshape r, dt, a r⟩)
    (fun r _ => length_junk r) (fun _ _ => rfl) (fun r hr => by rw [ravel_lshape]; simpa using ha r hr))
    (fun r hr => ?_) (fun _ _ => rfl)
  have e1 : (L.fam n dt a r).larr.flatten = ⟨[(a r).length], dt, a r⟩ := rfl
  rw [e1, ravel_lshape, ha r hr]

theorem outcome_ravel {d : Nat → DArr K} (hn : 0 < n) (hd : InvA c n d) :
    Outcome S n (fun J r => (d r).ravel (env n J r)) (InvA c n) :=
  Outcome.of_entry (ps := fun J d r => (d r).ravel (env n J r)) hd (fun J d d' h r hr => by rw [h r hr])
    fun e he => Outcome.of_runs (fun _ _ => runs_ravel he.wf he.length) (InvA.fam (ravel_wf he.wf)
      (good_sync (L := e.L.ravel) hn (fun r hr => by rw [ravel_lshape, he.length r hr]; simp)))

/-! ### binary operations -/

theorem outcome_compat {d d' : Nat → DArr K} {k : (Nat → Nat → K) → Nat → P K (DArr K)} {Q : (Nat → DArr K) → Prop}
    (h : (∀ r < n, (d r).part = (d' r).part ∧ (d r).lshape = (d' r).lshape ∧ (d r).mask = (d' r).mask) →
      Outcome S n k Q) :
    Outcome S n (fun J r => ((d r).checkCompat (d' r)).bind fun _ => k J r) Q := by
  by_cases hc : ∀ r < n, (d r).part = (d' r).part ∧ (d r).lshape = (d' r).lshape ∧ (d r).mask = (d' r).mask
  · refine (h hc).congr fun J r hr => ?_
    obtain ⟨h1, h2, h3⟩ := hc r hr
    simp [DArr.checkCompat, h1, h2, h3]
  · push Not at hc
    obtain ⟨r, hr, h⟩ := hc
    refine .inr fun J _ => Fails.of_throw hr (e := .value) ?_
    unfold DArr.checkCompat
    by_cases h1 : (d r).part = (d' r).part
    · by_cases h2 : (d r).lshape = (d' r).lshape
      · simp [h1, h2, h h1 h2]
      · simp [h1, h2]
    · simp [h1]

theorem zip_entries {e e' : Entry K} (f : K → K → K) {r : Nat} (h : e.L.lshape r = e'.L.lshape r) :
    NDArray.zip f (e.fam n r).larr (e'.fam n r).larr
      = .ok ⟨e.L.lshape r, e.dt.promote e'.dt, List.zipWith f (e.a r) (e'.a r)⟩ := by
  simp only [NDArray.zip, Entry.fam, Layout.fam, h, if_true]

theorem outcome_bin {d d' : Nat → DArr K} (hn : 0 < n) (hd : InvA c n d) (hd' : InvA c n d') (f : K → K → K) :
    Outcome S n (fun J r => ((d r).checkCompat (d' r)).bind fun _ => ((d r).like (env n J r)).bind fun z =>
      (Prog.lift (NDArray.zip f (d r).larr (d' r).larr)).bind fun v => z.setAll (env n J r) v) (InvA c n) := by
  obtain ⟨e, he, h1⟩ := hd
  obtain ⟨e', he', h2⟩ := hd'
  apply outcome_compat
  intro hc
  have hl : ∀ r < n, e.L.lshape r = e'.L.lshape r := by
    intro r hr; have := (hc r hr).2.1; rw [h1 r hr, h2 r hr] at this; exact this
  refine (outcome_like_set (dt := e.dt) (a := e.a) (v := fun r => ⟨e.L.lshape r, e.dt.promote e'.dt, List.zipWith f (e.a r) (e'.a r)⟩)
    hn he.wf (fun _ _ => rfl) (fun r hr => ?_)).congr (fun J r hr => ?_)
  · simp [he.length r hr, he'.length r hr, hl r hr]
  · rw [h1 r hr, h2 r hr, zip_entries f (hl r hr)]
    rfl

theorem outcome_ibin {d d' : Nat → DArr K} (hn : 0 < n) (hd : InvA c n d) (hd' : InvA c n d') (f : K → K → K) :
    Outcome S n (fun J r => ((d r).checkCompat (d' r)).bind fun _ =>
      (Prog.lift (NDArray.zip f (d r).larr (d' r).larr)).bind fun v => (d r).setAll (env n J r) v) (InvA c n) := by
  obtain ⟨e, he, h1⟩ := hd
  obtain ⟨e', he', h2⟩ := hd'
  apply outcome_compat
  intro hc
  have hl : ∀ r < n, e.L.lshape r = e'.L.lshape r := by
    intro r hr; have := (hc r hr).2.1; rw [h1 r hr, h2 r hr] at this; exact this
  have hv : ∀ r < n, (List.zipWith f (e.a r) (e'.a r)).length = (e.L.lshape r).prod := by
    intro r hr; simp [he.length r hr, he'.length r hr, hl r hr]
  refine (Outcome.of_runs (fun J _ => runs_setAll (L := e.L) (dt := e.dt) (J := J)
    (v := fun r => ⟨e.L.lshape r, e.dt.promote e'.dt, List.zipWith f (e.a r) (e'.a r)⟩)
    he.length (fun _ _ => rfl) hv) (InvA.fam he.wf (good_sync hn hv))).congr (fun J r hr => ?_)
  rw [h1 r hr, h2 r hr, zip_entries f (hl r hr)]
  rfl

/-! ### assignment -/

omit [Field K] [StarRing K] [CharZero K] in
theorem length_writeAt (d : List K) (ps : List Nat) (vs : List K) : (writeAt d ps vs).length = d.length := by
  induction ps generalizing d vs with
  | nil => simp [writeAt]
  | cons p ps ih => cases vs with
    | nil => simp [writeAt]
    | cons v vs => simp [writeAt, ih]

theorem mem_writeAt {d : List K} {ps : List Nat} {vs : List K} {x : K} (h : x ∈ writeAt d ps vs) :
    x ∈ d ∨ x ∈ vs := by
  induction ps generalizing d vs with
  | nil => simp [writeAt] at h; exact .inl h
  | cons p ps ih => cases vs with
    | nil => simp [writeAt] at h; exact .inl h
    | cons v vs =>
      simp only [writeAt] at h
      rcases ih h with h | h
      · rcases List.mem_or_eq_of_mem_set h with h | h
        · exact .inl h
        · right; simp [h]
      · right; simp [h]

theorem setIndex_ok {ix : Index} {a v b : NDArray K} (h : setIndex ix a v = .ok b) :
    b.shape = a.shape ∧ b.dtype = a.dtype ∧ b.data.length = a.data.length ∧
      (FitsL a.dtype a.data → FitsL a.dtype b.data) := by
  unfold setIndex at h
  simp only [bind, Except.bind, pure, Except.pure] at h
  split at h
  · cases h
  · rename_i sp h1
    split at h
    · cases h
    · rename_i d h2
      injection h with h
      subst h
      refine ⟨rfl, rfl, length_writeAt _ _ _, fun hf hr x hx => ?_⟩
      rcases mem_writeAt hx with h | h
      · exact hf hr x h
      · exact fitsL_castTo _ hr x h

theorem setItem_eq {L : Layout} {dt : DType} {a : Nat → List K} {J : Nat → Nat → K} {ix : Index} {v : Nat → NDArray K} {β : Type}
    {k : Nat → DArr K → P K β} {ρ : Nat → Except Err β}
    (h : Runs n (fun r => (Prog.lift (setIndex ix (L.fam n dt a r).larr (L.sync v r))).bind
      fun b => k r { L.fam n dt a r with larr := b }) ρ) :
    Runs n (fun r => ((L.fam n dt a r).setItem (env n J r) ix (v r)).bind (k r)) ρ := by
  unfold DArr.setItem
  have hpart : ∀ r, (L.fam n dt a r).part = L.part := fun _ => rfl
  simp only [hpart, Prog.bind_eq]
  by_cases hb : L.part = .broadcast
  · simp only [if_pos hb, Prog.bind_assoc]
    refine runs_bcast (J := J) (v := v) (k := fun r v0 => (Prog.lift (setIndex ix (L.fam n dt a r).larr v0)).bind
      fun b => k r { L.fam n dt a r with larr := b }) ?_
    simp only [Layout.sync, hb, if_true] at h
    exact h
  · simp only [if_neg hb, Prog.bind_assoc]
    simp only [Layout.sync, hb, if_false] at h
    exact h

theorem fails_setItem {L : Layout} {dt : DType} {a : Nat → List K} {J : Nat → Nat → K} {ix : Index} {v : Nat → NDArray K}
    {r : Nat} (hr : r < n) {e : Err} (h : setIndex ix (L.fam n dt a r).larr (L.sync v r) = .error e) :
    Fails n (fun r => (L.fam n dt a r).setItem (env n J r) ix (v r)) := by
  have := setItem_eq (L := L) (dt := dt) (a := a) (J := J) (ix := ix) (v := v) (k := fun _ d => .ret d)
    (Runs.congr (Runs.lift (M := Msg K) (n := n) fun r => (setIndex ix (L.fam n dt a r).larr (L.sync v r)).map
      fun b => { L.fam n dt a r with larr := b }) (fun r _ => by
        cases setIndex ix (L.fam n dt a r).larr (L.sync v r) <;> rfl) (fun _ _ => rfl))
  simp only [Prog.bind_ret] at this
  obtain ⟨qs, h1, h2⟩ := this
  refine ⟨qs, h1, r, hr, e, ?_⟩
  rw [h2 r hr]
  dsimp only
  rw [h]
  rfl

theorem outcome_setItem {d : Nat → DArr K} (hn : 0 < n) (hd : InvA c n d) (ix : Index) (v : Val K) :
    Outcome S n (fun J r => (d r).setItem (env n J r) ix (v.on r)) (InvA c n) := by
  refine Outcome.of_entry (ps := fun J d r => (d r).setItem (env n J r) ix (v.on r)) hd
    (fun J d d' h r hr => by rw [h r hr]) fun e he => ?_
  by_cases hok : ∀ r < n, ∃ b, setIndex ix (e.fam n r).larr (e.L.sync v.on r) = .ok b
  · have hok' : ∀ r, ∃ b, r < n → setIndex ix (e.fam n r).larr (e.L.sync v.on r) = .ok b := by
      intro r
      by_cases hr : r < n
      · obtain ⟨b, hb⟩ := hok r hr; exact ⟨b, fun _ => hb⟩
      · exact ⟨⟨[], .real, []⟩, fun h => absurd h hr⟩
    obtain ⟨b, hb⟩ := Classical.axiomOfChoice hok'
    refine .inl ⟨fun r => e.L.fam n e.dt (fun r => (b r).data) r, ⟨⟨e.L, e.dt, fun r => (b r).data⟩, ?_, fun _ _ => rfl⟩,
      fun J _ => ?_⟩
    · refine ⟨he.wf, fun r hr => ?_, fun r hr => ?_, fun hc hp r hr => ?_⟩
      · rw [(setIndex_ok (hb r hr)).2.2.1]; exact he.length r hr
      · exact (setIndex_ok (hb r hr)).2.2.2 (he.fits r hr)
      · have e1 := hb r hr
        have e2 := hb 0 hn
        have hp' : e.L.part = .broadcast := hp
        have e3 : e.L.sync v.on r = e.L.sync v.on 0 := by simp [Layout.sync, hp']
        have e4 : (e.fam n r).larr = (e.fam n 0).larr := by
          have hb' : e.L.part.isBroadcast = true := by simp [hp', Partition.isBroadcast]
          simp only [Entry.fam, Layout.fam, lshape_bcast hb', he.consistent hc hp' r hr]
        rw [e3, e4, e2] at e1
        injection e1 with e1
        dsimp only
        rw [e1]
    · have := setItem_eq (L := e.L) (dt := e.dt) (a := e.a) (J := J) (ix := ix) (v := v.on) (n := n) (k := fun _ d => .ret d)
        (ρ := fun r => .ok (e.L.fam n e.dt (fun r => (b r).data) r)) (Runs.congr (Runs.ret _) (fun r hr => ?_) (fun _ _ => rfl))
      · simp only [Prog.bind_ret] at this
        exact this
      · have hb' := hb r hr
        have : b r = ⟨e.L.lshape r, e.dt, (b r).data⟩ := by
          obtain ⟨h1, h2, _⟩ := setIndex_ok hb'
          have h1' : (b r).shape = e.L.lshape r := h1
          have h2' : (b r).dtype = e.dt := h2
          rw [← h1', ← h2']
        unfold Entry.fam at hb'
        rw [hb', this]
        rfl
  · push Not at hok
    obtain ⟨r, hr, h⟩ := hok
    refine .inr fun J _ => ?_
    cases hs : setIndex ix (e.fam n r).larr (e.L.sync v.on r) with
    | error er => exact fails_setItem hr hs
    | ok b => exact absurd hs (h b)


/-! ### construction followed by a full assignment -/

theorem prod_alignShape (nd : Nat) (s : List Nat) : (alignShape nd s).prod = s.prod := by
  unfold alignShape
  split_ifs with h1 h2
  · simp
  · have e : ((s.take (s.length - nd)).prod) = 1 := by
      apply List.prod_eq_one
      intro x hx
      have := List.all_eq_true.1 h2 x hx
      simpa using this
    rw [← List.take_append_drop (s.length - nd) s, List.prod_append, e, one_mul]
    simp
  · rfl

theorem length_bcastTo {tgt : List Nat} {v : NDArray K} {d : List K} (hv : v.WF) (h : bcastTo tgt v = .ok d) :
    d.length = tgt.prod := by
  unfold bcastTo at h
  split_ifs at h
  split at h
  · rename_i e he
    injection h with h
    subst h
    exact length_bcastData (by rw [prod_alignShape]; exact hv) he
  · cases h

theorem setIndex_all_ok {a v : NDArray K} {d : List K} (ha : a.WF) (hv : v.WF) (h : bcastTo a.shape v = .ok d) :
    setIndex Index.all a v = .ok ⟨a.shape, a.dtype, d.map (castTo a.dtype)⟩ := by
  simp only [setIndex, Index.all, bind, Except.bind, pure, Except.pure, h]
  rw [writeAt_range ha (by simpa using length_bcastTo hv h)]

theorem setIndex_all_error {a v : NDArray K} {e : Err} (h : bcastTo a.shape v = .error e) :
    setIndex Index.all a v = .error e := by
  simp only [setIndex, Index.all, bind, Except.bind, h]

theorem Val.wf (v : Val K) (r : Nat) : (v.on r).WF := by simp [Val.on, WF]

theorem sync_wf {L : Layout} (v : Val K) (r : Nat) : (L.sync v.on r).WF := by
  unfold Layout.sync; split_ifs <;> exact Val.wf v _

theorem outcome_setJunk {L : Layout} {dt : DType} (hn : 0 < n) (hL : L.WF n) (v : Val K) :
    Outcome S n (fun J r => (L.fam n dt (junkData J L dt) r).setAll (env n J r) (v.on r)) (InvA c n) := by
  by_cases hok : ∀ r < n, ∃ b, bcastTo (L.lshape r) (L.sync v.on r) = .ok b
  · have hok' : ∀ r, ∃ b, r < n → bcastTo (L.lshape r) (L.sync v.on r) = .ok b := by
      intro r
      by_cases hr : r < n
      · obtain ⟨b, hb⟩ := hok r hr; exact ⟨b, fun _ => hb⟩
      · exact ⟨[], fun h => absurd h hr⟩
    obtain ⟨b, hb⟩ := Classical.axiomOfChoice hok'
    refine .inl ⟨fun r => L.fam n dt (fun r => (b r).map (castTo dt)) r, InvA.fam hL ?_, fun J _ => ?_⟩
    · refine ⟨fun r hr => ?_, fun r hr => fitsL_castTo _, fun hp r hr => ?_⟩
      · rw [List.length_map]; exact length_bcastTo (sync_wf v r) (hb r hr)
      · have e1 := hb r hr
        have e2 := hb 0 hn
        have e3 : L.sync v.on r = L.sync v.on 0 := by simp [Layout.sync, hp]
        have hb' : L.part.isBroadcast = true := by simp [hp, Partition.isBroadcast]
        rw [lshape_bcast hb'] at e1 e2
        rw [e3, e2] at e1
        injection e1 with e1
        rw [e1]
    · have := setItem_eq (L := L) (dt := dt) (a := junkData J L dt) (J := J) (ix := Index.all) (v := v.on) (n := n)
        (k := fun _ d => .ret d) (ρ := fun r => .ok (L.fam n dt (fun r => (b r).map (castTo dt)) r))
        (Runs.congr (Runs.ret _) (fun r hr => ?_) (fun _ _ => rfl))
      · simp only [Prog.bind_ret] at this
        exact this
      · rw [setIndex_all_ok (a := (L.fam n dt (junkData J L dt) r).larr) (length_junk r) (sync_wf v r) (hb r hr)]
        rfl
  · push Not at hok
    obtain ⟨r, hr, h⟩ := hok
    refine .inr fun J _ => ?_
    cases hs : bcastTo (L.lshape r) (L.sync v.on r) with
    | error er => exact fails_setItem hr (setIndex_all_error (a := (L.fam n dt (junkData J L dt) r).larr) hs)
    | ok b => exact absurd hs (h b)

theorem outcome_newSet (hn : 0 < n) (g : List Nat) (p : Partition) (ax : Nat) (ls : Option (List (List Nat)))
    (m : Option (List Nat)) (dt : DType) (v : Val K) :
    Outcome S n (fun J r => (mkDArr (env n J r) g p ax ls m dt).bind fun d => d.setAll (env n J r) (v.on r))
      (InvA c n) := by
  by_cases h : ArgsOk n g p ax (ls.getD []) m
  · have hr := fun J : Nat → Nat → K => runs_mkDArr_ok (dt := dt) (J := J) hn h
    rcases outcome_setJunk (S := S) (c := c) (dt := dt) hn (h.wf hn) v with ⟨a, hq, h2⟩ | h2
    · exact .inl ⟨a, hq, fun J hJ => Runs.bind_ok (hr J) (h2 J hJ)⟩
    · exact .inr fun J hJ => Fails.bind_ok (hr J) (h2 J hJ)
  · exact .inr fun J _ => (fails_mkDArr hn h).bind _

/-- `to_dist` of values supplied by each rank: SCATTER arrays take each rank's slice of its own
    value, BROADCAST arrays take rank 0's value. -/
theorem runs_toDist_set' {L : Layout} {J : Nat → Nat → K} (hL : L.WF n) (x : Val K) (hsh : x.shape = L.gshape)
    (a : Nat → List K) (ha : ∀ r < n, (a r).length = (L.lshape r).prod) :
    Runs n (fun r => if L.part.isBroadcast then (L.fam n x.dtype a r).setAll (env n J r) (x.on r)
      else (allgather (env n J r) (len (L.fam n x.dtype a r).lshape L.axis)).bind fun ls =>
        (L.fam n x.dtype a r).setAll (env n J r)
          ((x.on r).slice L.axis (ls.take r).sum (ls.take (r + 1)).sum))
      (fun r => .ok (L.fam n x.dtype (fun r => (L.sync (fun q => L.piece (x.on q).data q) r).map (castTo x.dtype)) r)) := by
  have hd : ∀ r, (x.on r).data.length = L.gshape.prod := by intro r; rw [← hsh]; exact x.wf r
  by_cases hb : L.part.isBroadcast = true
  · simp only [if_pos hb]
    have hp : ∀ q, L.piece (x.on q).data q = (x.on q).data := by intro r; simp [Layout.piece, hb]
    simp only [hp]
    exact runs_setAll (v := x.on) ha (fun r _ => by rw [lshape_bcast hb, ← hsh]; rfl)
      (fun r _ => by rw [lshape_bcast hb, hd])
  · simp only [if_neg hb]
    have hp := isBroadcast_false hb
    have hls : ∀ r, len (L.fam n x.dtype a r).lshape L.axis = L.sizes r := by
      intro r
      show len (L.lshape r) L.axis = _
      rw [lshape_scatter hp, len_set hL.axis_lt]
    simp only [hls]
    refine runs_allgather (v := L.sizes) ?_
    have hpc : ∀ r < n, (x.on r).slice L.axis (((List.range n).map L.sizes).take r).sum
        (((List.range n).map L.sizes).take (r + 1)).sum
        = ⟨L.lshape r, x.dtype, L.piece (x.on r).data r⟩ := by
      intro r hr
      have h2 : psum L.sizes (r + 1) ≤ len L.gshape L.axis := hL.sum hp ▸ psum_mono _ hr
      have h1 : psum L.sizes r ≤ len L.gshape L.axis := (psum_mono _ (Nat.le_succ r)).trans h2
      rw [take_map_range_sum _ (by omega), take_map_range_sum _ (by omega)]
      have hs' : (x.on r).shape = L.gshape := hsh
      unfold slice Layout.piece
      rw [if_neg hb, hs', min_eq_left h2, min_eq_left h1, lshape_scatter hp]
      simp [psum, Val.on]
    refine Runs.congr (runs_setAll (J := J) (v := fun r => ⟨L.lshape r, x.dtype, L.piece (x.on r).data r⟩) ha
      (fun r _ => rfl) (fun r hr => length_piece hL (hd r) hr)) (fun r hr => ?_) (fun r _ => rfl)
    rw [hpc r hr]

theorem outcome_toDist (hn : 0 < n) (x : Val K) (p : Partition) (ax : Nat) (ls : Option (List (List Nat)))
    (m : Option (List Nat)) :
    Outcome S n (fun J r => toDist (env n J r) (x.on r) p ax ls m) (InvA c n) := by
  unfold toDist
  simp only [Prog.bind_eq]
  by_cases h : ArgsOk n x.shape p ax (ls.getD []) m
  · have hL := h.wf hn
    refine .inl ⟨_, InvA.fam (dt := x.dtype) hL (good_sync hn fun r hr => length_piece hL
        (d := (x.on r).data) (x.wf r) hr), fun J _ => Runs.bind_ok (runs_mkDArr_ok hn h) ?_⟩
    exact runs_toDist_set' hL x rfl _ (fun r _ => length_junk r)
  · exact .inr fun J _ => (fails_mkDArr hn h).bind _

/-! ### histories -/

theorem Outcome.pushVar {σ : Nat → List (DArr K)} {ps : (Nat → Nat → K) → Nat → P K (DArr K)} (hσ : Inv c n σ)
    (h : Outcome S n ps (InvA c n)) :
    Outcome S n (fun J r => (ps J r).bind fun d => .ret (σ r ++ [d])) (Inv c n) :=
  h.bind fun a ha => .inl ⟨fun r => σ r ++ [a r], hσ.push ha, fun _ _ => Runs.ret _⟩

theorem Outcome.setVar {σ : Nat → List (DArr K)} {ps : (Nat → Nat → K) → Nat → P K (DArr K)} {i : Nat} (hσ : Inv c n σ)
    (h : Outcome S n ps (InvA c n)) :
    Outcome S n (fun J r => (ps J r).bind fun d => .ret ((σ r).set i d)) (Inv c n) :=
  h.bind fun a ha => .inl ⟨fun r => (σ r).set i (a r), hσ.set ha, fun _ _ => Runs.ret _⟩

/-- Either the call may read uninitialised memory (`new`), in which case we fix the memory
    contents, or the results are the same for all memory contents. -/
theorem outcome_cmd (hn : 0 < n) {σ : Nat → List (DArr K)} (hσ : Inv c n σ) (cmd : Cmd K)
    (hinit : cmd.Init ∨ (¬ c ∧ ∃ J, S = {J})) :
    Outcome S n (fun J r => cmd.run (env n J r) (σ r)) (Inv c n) := by
  have un : ∀ i (f : Ctx K → DArr K → P K (DArr K)),
      (∀ d, InvA c n d → Outcome S n (fun J r => f (env n J r) (d r)) (InvA c n)) →
      Outcome S n (fun J r => (getVar (σ r) i).bind fun d => (f (env n J r) d).bind fun z => .ret (σ r ++ [z]))
        (Inv c n) :=
    fun i f h => (outcome_getVar hn hσ).bind (k := fun J r d => (f (env n J r) d).bind fun z => .ret (σ r ++ [z]))
      fun d hd => (h d hd).pushVar hσ
  have bin : ∀ i j (f : Ctx K → DArr K → DArr K → P K (DArr K)),
      (∀ d d', InvA c n d → InvA c n d' → Outcome S n (fun J r => f (env n J r) (d r) (d' r)) (InvA c n)) →
      Outcome S n (fun J r => (getVar (σ r) i).bind fun d => (getVar (σ r) j).bind fun d' =>
        (f (env n J r) d d').bind fun z => .ret (σ r ++ [z])) (Inv c n) :=
    fun i j f h => (outcome_getVar hn hσ).bind (k := fun J r d => (getVar (σ r) j).bind fun d' =>
        (f (env n J r) d d').bind fun z => .ret (σ r ++ [z]))
      fun d hd => (outcome_getVar hn hσ).bind (k := fun J r d' => (f (env n J r) (d r) d').bind fun z => .ret (σ r ++ [z]))
        fun d' hd' => (h d d' hd hd').pushVar hσ
  have ibin : ∀ i j (f : Ctx K → DArr K → DArr K → P K (DArr K)),
      (∀ d d', InvA c n d → InvA c n d' → Outcome S n (fun J r => f (env n J r) (d r) (d' r)) (InvA c n)) →
      Outcome S n (fun J r => (getVar (σ r) i).bind fun d => (getVar (σ r) j).bind fun d' =>
        (f (env n J r) d d').bind fun z => .ret ((σ r).set i z)) (Inv c n) :=
    fun i j f h => (outcome_getVar hn hσ).bind (k := fun J r d => (getVar (σ r) j).bind fun d' =>
        (f (env n J r) d d').bind fun z => .ret ((σ r).set i z))
      fun d hd => (outcome_getVar hn hσ).bind (k := fun J r d' => (f (env n J r) (d r) d').bind fun z => .ret ((σ r).set i z))
        fun d' hd' => (h d d' hd hd').setVar hσ
  have hsub : ∀ d d', InvA c n d → InvA c n d' →
      Outcome S n (fun J r => (d r).sub' (env n J r) (d' r)) (InvA c n) := fun d d' hd hd' =>
    (outcome_neg hn hd').bind (k := fun J r m => (d r).add (env n J r) m) fun m hm => outcome_bin hn hd hm (· + ·)
  have hisub : ∀ d d', InvA c n d → InvA c n d' →
      Outcome S n (fun J r => (d r).isub (env n J r) (d' r)) (InvA c n) := fun d d' hd hd' =>
    (outcome_neg hn hd').bind (k := fun J r m => (d r).iadd (env n J r) m) fun m hm => outcome_ibin hn hd hm (· + ·)
  cases cmd with
  | new g p ax ls m dt =>
    rcases hinit with h | ⟨hc, J, rfl⟩
    · exact h.elim
    refine Outcome.pushVar hσ (ps := fun J r => mkDArr (env n J r) g p ax ls m dt) ?_
    by_cases h : ArgsOk n g p ax (ls.getD []) m
    · refine .inl ⟨fun r => (Layout.mk g p ax (sizesOf n g ax (ls.getD [])) m).fam n dt
          (junkData J (Layout.mk g p ax (sizesOf n g ax (ls.getD [])) m) dt) r, ?_, fun J' hJ' => ?_⟩
      · exact ⟨⟨_, dt, _⟩, ⟨h.wf hn, fun r _ => length_junk r, fun r _ => by
          show FitsL dt ((List.range _).map fun i => castTo dt (J r i))
          rw [← Function.comp_def, ← List.map_map]; exact fitsL_castTo _, fun h' => absurd h' hc⟩, fun _ _ => rfl⟩
      · rw [Set.mem_singleton_iff.1 hJ']; exact runs_mkDArr_ok hn h
    · exact .inr fun J _ => fails_mkDArr hn h
  | newSet g p ax ls m dt v =>
    refine (Outcome.pushVar hσ (outcome_newSet hn g p ax ls m dt v)).congr fun J r _ => ?_
    simp only [Cmd.run, Prog.bind_eq, Prog.bind_assoc, Prog.pure_eq]; rfl
  | toDist x p ax ls m => exact Outcome.pushVar hσ (outcome_toDist hn x p ax ls m)
  | set i ix v =>
    exact (outcome_getVar hn hσ).bind (k := fun J r d => (d.setItem (env n J r) ix (v.on r)).bind
      fun z => .ret ((σ r).set i z)) fun d hd => (outcome_setItem hn hd ix v).setVar hσ
  | neg i => exact un i (fun c d => d.neg c) fun d hd => outcome_neg hn hd
  | add i j => exact bin i j (fun c d e => d.add c e) fun d d' hd hd' => outcome_bin hn hd hd' (· + ·)
  | iadd i j => exact ibin i j (fun c d e => d.iadd c e) fun d d' hd hd' => outcome_ibin hn hd hd' (· + ·)
  | sub i j => exact bin i j (fun c d e => d.sub' c e) hsub
  | isub i j => exact ibin i j (fun c d e => d.isub c e) hisub
  | mul i j => exact bin i j (fun c d e => d.mul c e) fun d d' hd hd' => outcome_bin hn hd hd' (· * ·)
  | smul i t s => exact un i (fun c d => d.smul c t s) fun d hd => outcome_smul hn hd t s
  | conj i => exact un i (fun c d => d.conj c) fun d hd => outcome_conj hn hd
  | copy i => exact un i (fun c d => d.copy c) fun d hd => outcome_copy hn hd
  | zerosLike i => exact un i (fun c d => d.zerosLike c) fun d hd => outcome_zerosLike hd
  | ravel i => exact un i (fun c d => d.ravel c) fun d hd => outcome_ravel hn hd

theorem outcome_history (hn : 0 < n) (h : List (Cmd K)) {σ : Nat → List (DArr K)} (hσ : Inv c n σ)
    (hinit : (∀ cmd ∈ h, cmd.Init) ∨ (¬ c ∧ ∃ J, S = {J})) :
    Outcome S n (fun J r => runHistory (env n J r) h (σ r)) (Inv c n) := by
  induction h generalizing σ with
  | nil => exact .inl ⟨σ, hσ, fun _ _ => Runs.ret _⟩
  | cons cmd h ih =>
    have h1 : cmd.Init ∨ (¬ c ∧ ∃ J, S = {J}) := hinit.imp (fun h => h cmd (by simp)) id
    have h2 : (∀ cmd ∈ h, cmd.Init) ∨ (¬ c ∧ ∃ J, S = {J}) :=
      hinit.imp (fun h cmd hc => h cmd (by simp [hc])) id
    exact (outcome_cmd hn hσ cmd h1).bind (k := fun J r => runHistory (env n J r) h) fun σ' hσ' => ih hσ' h2

end Verif

/- Execution lemmas for the stacking operators with arbitrary arithmetic. -/
import Verif.Proofs.FloatExpr
import Verif.Proofs.FloatDerivApply
import Verif.Proofs.Stacking

namespace Verif
open NDArray

variable {K : Type} (A : OpArith K) {n N : Nat} {J : Nat → Nat → K} {b : Bool} {dt : DType} {l : Nat → List (LOp K)} {ops : Nat → List (FOp K)} {X : Layout} {x : SVec K}

/-- the serial operators on arguments of dtype `t` -/
abbrev onAll (ops : Nat → List (FOp K)) (t : DType) (r : Nat) : List (LOp K) := (ops r).map (·.on t)

omit A in
theorem allOps_onAll (t : DType) : allOps n (onAll ops t) = (allFOps n ops).map (·.on t) := by
  unfold allOps allFOps
  rw [List.map_flatMap]

omit A in
theorem inDim_on (o : FOp K) (b : Bool) (t : DType) : (o.on t).inDim b = o.inDim b := by cases b <;> rfl

omit A in
theorem outDim_on (o : FOp K) (b : Bool) (t : DType) : (o.on t).outDim b = o.inDim (!b) := by cases b <;> rfl

omit A in
theorem inSum_on (t : DType) (l : List (FOp K)) : inSum b (l.map (·.on t)) = fopIn b l := by
  unfold inSum fopIn
  rw [List.map_map]
  congr 1
  exact List.map_congr_left fun o _ => inDim_on o b t

omit A in
theorem sized_onAll {t : DType} (h : ∀ o ∈ allFOps n ops, o.Sized b) : ∀ o ∈ allOps n (onAll ops t), o.Sized b := by
  intro o ho
  rw [allOps_onAll] at ho
  obtain ⟨p, hp, rfl⟩ := List.mem_map.1 ho
  exact fun v hv => by rw [outDim_on]; exact h p hp t v (by rw [hv, inDim_on])

/-! ### block diagonal -/

/-- the local part of `MPIBlockDiag._matvec` -/
def aBdBody (l : List (LOp K)) (dt : DType) (b : Bool) (lout : List (List Nat)) (M : Nat) (c : Ctx K) (x : DArr K) : P K (DArr K) := do
    let y ← A.mkDArr c [M] .scatter 0 (some lout) none dt
    let y1 ← Prog.lift (applyAt b x.larr 0 l)
    let v ← Prog.lift (concat 0 y1)
    A.setAll c y v

theorem a_bdBody (hs : ∀ o ∈ allOps n l, o.Sized b) (hne : ∀ r < n, l r ≠ []) (hlen : x.v.length = inSum b (allOps n l)) :
    Runs n (fun r => aBdBody A (l r) dt b ((List.range n).map fun q => [outSum b (l q)]) (outSum b (allOps n l)) (env n J r) (x.dpart (inL b n l) n r))
      (fun r => .ok ((⟨dt, (blockDiag b (allOps n l) x.v).map (A.cast dt)⟩ : SVec K).dpart (inL (!b) n l) n r)) := by
  have hX : (inL b n l).WF n := inL_wf (by simp)
  have hY : (inL (!b) n l).WF n := inL_wf (by simp)
  have hx : x.v.length = (inL b n l).gshape.prod := by simpa [Layout.lin] using hlen
  unfold aBdBody
  simp only [Prog.bind_eq]
  have e : (List.range n).map (fun q => [outSum b (l q)]) = (List.range n).map (inL (!b) n l).lshape :=
    List.map_congr_left fun q _ => (lshape_inL _ _ _ _ q).symm
  rw [e]
  refine Runs.bind_ok (a_mkDArr A.toArith (J := J) (dt := dt) hY rfl) ?_
  have hlarr : ∀ r, r < n → ∃ t, ((Prog.lift (applyAt b (x.dpart (inL b n l) n r).larr 0 (l r)) : P K _).bind fun y1 =>
      (Prog.lift (concat 0 y1) : P K _)) = .ret ⟨[outSum b (l r)], t, blockDiag b (l r) ((inL b n l).piece x.v r)⟩ := by
    intro r hr
    have hp : ((inL b n l).piece x.v r).length = inSum b (l r) := by
      rw [a_length_piece hX hx hr, lshape_lin]; simp
    have h1 : applyAt b (x.dpart (inL b n l) n r).larr 0 (l r) = .ok (outs b x.dt (l r) ((inL b n l).piece x.v r)) :=
      applyAt_ok b (m := inSum b (l r)) (by exact lshape_lin _ _ r) hp (l r) 0 (by omega)
    obtain ⟨t, h2⟩ := concat1 (outs b x.dt (l r) ((inL b n l).piece x.v r)) (by
      intro h
      have := congrArg List.length (congrArg (List.map (·.shape)) h)
      rw [outs_shape] at this
      simp at this
      exact hne r hr this) ((l r).map (·.outDim b)) (by rw [outs_shape, List.map_map]; rfl) (by
        have h3 := slices_sized (fun o ho => hs o (mem_allOps hr ho)) (x := (inL b n l).piece x.v r) (by omega)
        rw [← outs_data b x.dt, List.map_map] at h3
        exact h3)
    rw [outs_data] at h2
    refine ⟨t, ?_⟩
    rw [h1]
    simp only [Prog.lift_ok, Prog.ret_bind]
    rw [h2]
    rfl
  choose t ht using hlarr
  have hpart : ∀ r < n, (inL (!b) n l).piece (blockDiag b (allOps n l) x.v) r = blockDiag b (l r) ((inL b n l).piece x.v r) := by
    intro r hr
    rw [piece_lin (inSum_allOps (!b) n l).symm (by rw [length_blockDiag_sized hs (by omega)]; rfl) r, piece_lin (inSum_allOps b n l).symm hlen r]
    exact blockDiag_part_sized hs hlen hr
  refine (runs_aSetAll A.toArith (J := J) (L := inL (!b) n l) (dt := dt) (a := aJunk A.toArith J (inL (!b) n l) dt)
    (v := fun r => ⟨[outSum b (l r)], if h : r < n then t r h else dt, (inL (!b) n l).piece (blockDiag b (allOps n l) x.v) r⟩)
    (fun r _ => length_aJunk A.toArith r) (fun r _ => (lshape_inL _ _ _ _ r).symm) (fun r hr => a_length_piece hY (by
      rw [length_blockDiag_sized hs (by omega)]; simp [Layout.lin, outSum]) hr)).congr (fun r hr => ?_) fun r hr => ?_
  · rw [← Prog.bind_assoc, ht r hr, hpart r hr, dif_pos hr]
    rfl
  · congr 1
    refine a_fam_congr ?_
    rw [a_piece_map]
    rfl

theorem a_conform_in (hX : X.WF n) (hg : X.gshape = [inSum b (allOps n l)]) (hp : X.part = .scatter) (hax : X.axis = 0) : Conform n X (inL b n l) :=
  conform_in hX hg hp hax

theorem a_redist_in (hX : Conform n X (inL b n l)) (hN : Near n X (inL b n l)) (hx : x.v.length = X.gshape.prod) :
    Runs n (fun r => A.redistribute (env n J r) (inL b n l).gshape (some ((List.range n).map fun q => [inSum b (l q)])) (x.dpart X n r))
      (fun r => .ok ((x.copy A.toArith).dpart (inL b n l) n r)) := by
  have e : (List.range n).map (fun q => [inSum b (l q)]) = (List.range n).map (inL b n l).lshape :=
    List.map_congr_left fun q _ => (lshape_inL _ _ _ _ q).symm
  rw [e]
  exact a_redistribute_of A.toArrArith hX (a_mkDArr A.toArith hX.wfT rfl) hN hx

theorem a_blockDiagMv (hX : Conform n X (inL b n (onAll ops x.dt))) (hN : Near n X (inL b n (onAll ops x.dt))) (hs : ∀ o ∈ allFOps n ops, o.Sized b)
    (hne : ∀ r < n, ops r ≠ []) (hx : x.v.length = X.gshape.prod) :
    Runs n (fun r => A.blockDiagMv (ops r) none dt b ((List.range n).map fun q => [fopIn b (ops q)]) ((List.range n).map fun q => [fopIn (!b) (ops q)])
        (fopIn (!b) (allFOps n ops)) (env n J r) (x.dpart X n r))
      (fun r => .ok ((A.bdiag dt b (allFOps n ops) x).dpart (.lin (fopIn (!b) (allFOps n ops)) fun r => fopIn (!b) (ops r)) n r)) := by
  have hlen : (x.copy A.toArith).v.length = inSum b (allOps n (onAll ops x.dt)) := by
    rw [SVec.length_copy A.toArith hx]; simp [hX.X1, Layout.lin]
  have hg : ∀ r, (x.dpart X n r).gshape = (inL b n (onAll ops x.dt)).gshape := fun r => by
    have : (x.dpart X n r).gshape = X.gshape := rfl
    rw [this, hX.X1]; simp [Layout.lin]
  have eL : inL (!b) n (onAll ops x.dt) = .lin (fopIn (!b) (allFOps n ops)) fun r => fopIn (!b) (ops r) := by
    simp only [inL, allOps_onAll, inSum_on]
  unfold OpArith.blockDiagMv Arith.reshaped
  simp only [Prog.bind_eq, hg]
  refine Runs.bind_ok ((a_redist_in A (J := J) hX hN hx).congr (fun r _ => by simp only [inSum_on]) fun _ _ => rfl) ?_
  refine Runs.bind_ok (a := fun r => (A.bdiag dt b (allFOps n ops) x).dpart (.lin (fopIn (!b) (allFOps n ops)) fun r => fopIn (!b) (ops r)) n r) ?_ ?_
  · have h := a_bdBody A (J := J) (dt := dt) (l := onAll ops x.dt) (b := b) (x := x.copy A.toArith) (sized_onAll hs) (fun r hr h => hne r hr (List.map_eq_nil_iff.1 h)) hlen
    refine h.congr (fun r _ => ?_) fun r _ => ?_
    · simp only [aBdBody, Prog.bind_eq, outSum, inSum_on, allOps_onAll]
      rfl
    · rw [eL, allOps_onAll]
      rfl
  · refine (Runs.ret _).congr (fun r hr => ?_) fun _ _ => rfl
    rw [if_neg]
    simp [SVec.dpart, Layout.fam, Layout.lin]

/-! ### vertical stack -/

omit A in
theorem length_vcat_sized {l : List (LOp K)} (hl : ∀ o ∈ l, o.Sized b ∧ o.inDim b = N) {d : List K} (hd : d.length = N) : (vcat b l d).length = outSum b l := by
  induction l with
  | nil => rfl
  | cons o os ih =>
    have h1 := hl o (by simp)
    rw [outSum_cons, ← ih fun o ho => hl o (by simp [ho])]
    simp [vcat, h1.1 d (by rw [hd, h1.2])]

omit A in
theorem vcat_part_sized (hl : ∀ o ∈ allOps n l, o.Sized b ∧ o.inDim b = N) {d : List K} (hd : d.length = N) {r : Nat} (hr : r < n) :
    ((vcat b (allOps n l) d).drop (psum (fun r => outSum b (l r)) r)).take (outSum b (l r)) = vcat b (l r) d := by
  obtain ⟨rest, h, hrest⟩ := allOps_split n l hr
  have e1 : psum (fun r => outSum b (l r)) r = (vcat b (allOps r l) d).length := by
    rw [length_vcat_sized (fun o ho => hl o (by rw [h]; simp [ho])) hd]; exact (inSum_allOps _ _ _).symm
  have e2 : vcat b (allOps n l) d = vcat b (allOps r l) d ++ (vcat b (l r) d ++ vcat b rest d) := by
    unfold vcat; rw [h]; simp
  rw [e1, e2, List.drop_left, List.take_left' (length_vcat_sized (fun o ho => hl o (mem_allOps hr ho)) hd)]

omit A in
theorem dims_onAll {t : DType} (h : ∀ o ∈ allFOps n ops, o.Sized b ∧ o.inDim b = N) : ∀ o ∈ allOps n (onAll ops t), o.Sized b ∧ o.inDim b = N := by
  intro o ho
  refine ⟨sized_onAll (fun o ho => (h o ho).1) o ho, ?_⟩
  rw [allOps_onAll] at ho
  obtain ⟨p, hp, rfl⟩ := List.mem_map.1 ho
  rw [inDim_on]
  exact (h p hp).2

theorem a_vstackMv (hg : X.gshape = [N]) (hp : X.part.isBroadcast = true) (hs : ∀ o ∈ allFOps n ops, o.Sized false ∧ o.inDim false = N)
    (hne : ∀ r < n, ops r ≠ []) (hx : x.v.length = N) :
    Runs n (fun r => A.vstackMv (ops r) dt ((List.range n).map fun q => [fopIn true (ops q)]) (fopIn true (allFOps n ops)) (env n J r) (x.dpart X n r))
      (fun r => .ok ((A.onWhole dt false (allFOps n ops) x).dpart (.lin (fopIn true (allFOps n ops)) fun r => fopIn true (ops r)) n r)) := by
  set l := onAll ops x.dt with hl
  have hs' := dims_onAll (t := x.dt) hs
  have eL : inL true n l = .lin (fopIn true (allFOps n ops)) fun r => fopIn true (ops r) := by simp only [inL, hl, allOps_onAll, inSum_on]
  rw [← eL]
  have hY : (inL true n l).WF n := inL_wf (by simp)
  have hnp : ∀ r, ¬ ¬ (x.dpart X n r).part.isBroadcast = true := fun r h => h hp
  unfold OpArith.vstackMv
  simp only [if_neg (hnp _), Prog.bind_eq]
  have e : (List.range n).map (fun q => [fopIn true (ops q)]) = (List.range n).map (inL true n l).lshape :=
    List.map_congr_left fun q _ => by rw [lshape_inL, inSum_on]
  have eg : [fopIn true (allFOps n ops)] = (inL true n l).gshape := by rw [eL]; rfl
  rw [e, eg]
  refine Runs.bind_ok (a_mkDArr A.toArith (J := J) (dt := dt) hY rfl) ?_
  have hll : ∀ r, (x.dpart X n r).larr = ⟨[N], x.dt, x.v⟩ := fun r => by simp [SVec.dpart, Layout.fam, lshape_bcast hp, hg, Layout.piece, hp]
  have hlarr : ∀ r, r < n → ∃ t, ((Prog.lift (((ops r).map (·.on (x.dpart X n r).larr.dtype)).mapM fun o => o.apply false (x.dpart X n r).larr) : P K _).bind fun y1 =>
      (Prog.lift (concat 0 y1) : P K _)) = .ret ⟨[outSum false (l r)], t, vcat false (l r) x.v⟩ := by
    intro r hr
    rw [hll r]
    change ∃ t, ((Prog.lift ((l r).mapM fun o => o.apply false ⟨[N], x.dt, x.v⟩) : P K _).bind fun y1 => (Prog.lift (concat 0 y1) : P K _)) = _
    rw [mapM_apply (N := N) rfl _ fun o ho => (hs' o (mem_allOps hr ho)).2]
    simp only [Prog.lift_ok, Prog.ret_bind]
    obtain ⟨t, h2⟩ := concat1 ((l r).map fun o => (⟨[o.outDim false], o.dtype.promote x.dt, o.fn false x.v⟩ : NDArray K)) (by simpa [hl] using hne r hr)
      ((l r).map (·.outDim false)) (by simp [List.map_map]) (by
        rw [List.map_map]
        exact List.map_congr_left fun o ho => by
          have h1 := hs' o (mem_allOps hr ho)
          exact h1.1 x.v (by rw [hx, h1.2]))
    refine ⟨t, ?_⟩
    rw [h2, List.map_map (f := fun o : LOp K => (⟨[o.outDim false], o.dtype.promote x.dt, o.fn false x.v⟩ : NDArray K))]
    rfl
  choose t ht using hlarr
  have hpart : ∀ r < n, (inL true n l).piece (vcat false (allOps n l) x.v) r = vcat false (l r) x.v := by
    intro r hr
    rw [piece_lin (inSum_allOps true n l).symm (by rw [length_vcat_sized hs' hx]; rfl) r]
    exact vcat_part_sized hs' hx hr
  refine (runs_aSetAll A.toArith (J := J) (L := inL true n l) (dt := dt) (a := aJunk A.toArith J (inL true n l) dt)
    (v := fun r => ⟨[outSum false (l r)], if h : r < n then t r h else dt, (inL true n l).piece (vcat false (allOps n l) x.v) r⟩)
    (fun r _ => length_aJunk A.toArith r) (fun r _ => (lshape_inL _ _ _ _ r).symm) (fun r hr => a_length_piece hY (by
      rw [length_vcat_sized hs' hx, ← hl]; simp [Layout.lin, outSum]) hr)).congr (fun r hr => ?_) fun r hr => ?_
  · rw [← Prog.bind_assoc, ht r hr, hpart r hr, dif_pos hr]
    rfl
  · congr 1
    refine a_fam_congr ?_
    simp only [OpArith.onWhole]
    rw [a_piece_map, hl, allOps_onAll]
    rfl

omit A in
theorem slices_len_sized {l : List (LOp K)} (hl : ∀ o ∈ l, o.Sized b ∧ o.outDim b = N) {x : List K} (hx : inSum b l ≤ x.length) : ∀ y ∈ slices b l x, y.length = N := by
  intro y hy
  have h := slices_sized (fun o ho => (hl o ho).1) hx
  have : y.length ∈ (slices b l x).map List.length := List.mem_map.2 ⟨y, hy, rfl⟩
  rw [h] at this
  obtain ⟨o, ho, e⟩ := List.mem_map.1 this
  rw [← e, (hl o ho).2]

theorem a_stackSum {L : List (NDArray K)} (hne : L ≠ []) (hs : ∀ a ∈ L, a.shape = [N]) :
    ∃ t, A.stackSum L = .ok ⟨[N], t, (List.range N).map (A.sumRows (L.map (·.data)))⟩ := by
  cases L with
  | nil => exact absurd rfl hne
  | cons a as =>
    refine ⟨as.foldl (fun t b => t.promote b.dtype) a.dtype, ?_⟩
    unfold OpArith.stackSum
    dsimp only
    rw [if_neg, hs a (by simp)]
    · simp
    · simp only [List.any_eq_true, decide_eq_true_eq, not_exists, not_and, not_not, ne_eq]
      intro c hc
      rw [hs c (by simp [hc]), hs a (by simp)]

theorem a_allreduceArr {v : Nat → NDArray K} (hs : ∀ r < n, (v r).shape = [N]) {α : Type} {k : Nat → NDArray K → P K α} {ρ}
    (h : ∀ t, Runs n (fun r => k r ⟨[N], t, (List.range N).map (A.sumArr ((List.range n).map fun q => (v q).data))⟩) ρ) :
    Runs n (fun r => (A.allreduceArr (env n J r) (v r)).bind (k r)) ρ := by
  unfold OpArith.allreduceArr
  simp only [Prog.bind_eq, Prog.bind_assoc, env_world]
  rcases Nat.eq_zero_or_pos n with rfl | hn
  · exact Runs.of_zero
  refine runs_gather ?_
  have hall : ∀ a ∈ (List.range n).map v, a.shape = [N] := by
    intro a ha
    obtain ⟨q, hq, rfl⟩ := List.mem_map.1 ha
    exact hs q (List.mem_range.1 hq)
  have hm : ((List.range n).map fun q => (v q).data) = ((List.range n).map v).map (·.data) := by rw [List.map_map]; rfl
  rw [hm] at h
  cases hL : (List.range n).map v with
  | nil => simp at hL; omega
  | cons a as =>
    rw [hL] at hall h
    refine (h (as.foldl (fun t b => t.promote b.dtype) a.dtype)).congr (fun r _ => ?_) fun _ _ => rfl
    dsimp only
    rw [if_neg, hall a (by simp)]
    · simp
    · simp only [List.any_eq_true, decide_eq_true_eq, not_exists, not_and, not_not, ne_eq]
      intro c hc
      rw [hall c (by simp [hc]), hall a (by simp)]

/-- the local part of `MPIVStack._rmatvec` -/
def aVsBody (l : List (LOp K)) (dt : DType) (N : Nat) (c : Ctx K) (x : DArr K) : P K (DArr K) := do
    let y ← A.mkDArr c [N] .broadcast 0 none none dt
    let y1 ← Prog.lift (applyAt true x.larr 0 l)
    let s ← Prog.lift (A.stackSum y1)
    let t ← A.allreduceArr c s
    A.setAll c y t

theorem a_mkDArr_all : Runs n (fun r => A.mkDArr (env n J r) [N] .broadcast 0 none none dt) (fun r => .ok ((Layout.all N).fam n dt (aJunk A.toArith J (.all N) dt) r)) := by
  refine runs_local fun r hr => ?_
  unfold Arith.mkDArr
  have e0 : ¬ [N].length ≤ 0 := by simp
  simp only [if_neg e0, Prog.bind_eq, Option.getD_none, checkLocalShapes, mkSub, if_true, Prog.ret_bind]
  rfl

theorem a_vsBody (hs : ∀ o ∈ allOps n l, o.Sized true ∧ o.outDim true = N) (hne : ∀ r < n, l r ≠ []) (hlen : x.v.length = inSum true (allOps n l)) :
    Runs n (fun r => aVsBody A (l r) dt N (env n J r) (x.dpart (inL true n l) n r))
      (fun r => .ok ((⟨dt, (List.range N).map fun j => A.cast dt (A.sumArr ((List.range n).map fun q => (List.range N).map
        (A.sumRows (slices true (l q) (x.v.drop (psum (fun r => inSum true (l r)) q))))) j)⟩ : SVec K).dpart (.all N) n r)) := by
  have hX : (inL true n l).WF n := inL_wf (by simp)
  have hx : x.v.length = (inL true n l).gshape.prod := by simpa [Layout.lin] using hlen
  unfold aVsBody
  simp only [Prog.bind_eq]
  refine Runs.bind_ok (a_mkDArr_all A (J := J)) ?_
  have hpc : ∀ r, (inL true n l).piece x.v r = (x.v.drop (psum (fun r => inSum true (l r)) r)).take (inSum true (l r)) :=
    fun r => piece_lin (inSum_allOps true n l).symm hlen r
  have hlarr : ∀ r, r < n → ∃ t, ((Prog.lift (applyAt true (x.dpart (inL true n l) n r).larr 0 (l r)) : P K _).bind fun y1 =>
      (Prog.lift (A.stackSum y1) : P K _)) = .ret ⟨[N], t, (List.range N).map (A.sumRows (slices true (l r) (x.v.drop (psum (fun r => inSum true (l r)) r))))⟩ := by
    intro r hr
    have hp : ((inL true n l).piece x.v r).length = inSum true (l r) := by
      rw [a_length_piece hX hx hr, lshape_lin]; simp
    have h1 : applyAt true (x.dpart (inL true n l) n r).larr 0 (l r) = .ok (outs true x.dt (l r) ((inL true n l).piece x.v r)) :=
      applyAt_ok true (m := inSum true (l r)) (by exact lshape_lin _ _ r) hp (l r) 0 (by omega)
    obtain ⟨t, h2⟩ := a_stackSum A (N := N) (L := outs true x.dt (l r) ((inL true n l).piece x.v r)) (by
      intro h
      have := congrArg List.length (congrArg (List.map (·.shape)) h)
      rw [outs_shape] at this
      simp at this
      exact hne r hr this) (fun a ha => by
        have : a.shape ∈ (outs true x.dt (l r) ((inL true n l).piece x.v r)).map (·.shape) := List.mem_map.2 ⟨a, ha, rfl⟩
        rw [outs_shape] at this
        obtain ⟨o, ho, e⟩ := List.mem_map.1 this
        rw [← e, (hs o (mem_allOps hr ho)).2])
    refine ⟨t, ?_⟩
    rw [h1]
    simp only [Prog.lift_ok, Prog.ret_bind]
    rw [h2, outs_data, hpc, slices_take _ _ _ (le_refl _)]
    rfl
  choose t ht using hlarr
  refine Runs.congr (ps := fun r => (A.allreduceArr (env n J r)
      ⟨[N], if h : r < n then t r h else dt, (List.range N).map (A.sumRows (slices true (l r) (x.v.drop (psum (fun r => inSum true (l r)) r))))⟩).bind fun w =>
      A.setAll (env n J r) ((Layout.all N).fam n dt (aJunk A.toArith J (.all N) dt) r) w) ?_ (fun r hr => ?_) fun _ _ => rfl
  · refine a_allreduceArr A (J := J) (N := N)
      (v := fun r => ⟨[N], if h : r < n then t r h else dt, (List.range N).map (A.sumRows (slices true (l r) (x.v.drop (psum (fun r => inSum true (l r)) r))))⟩)
      (fun _ _ => rfl) fun tt => ?_
    refine (b_set A.toArith (J := J) (L := .all N) (dt := dt) (dt' := tt) (a := aJunk A.toArith J (.all N) dt)
      (w := (List.range N).map (A.sumArr ((List.range n).map fun q => (List.range N).map (A.sumRows (slices true (l q) (x.v.drop (psum (fun r => inSum true (l r)) q)))))))
      (all_wf rfl) (fun r _ => length_aJunk A.toArith r) (by simp [Layout.all])).congr (fun r _ => rfl) fun r _ => ?_
    simp only [SVec.dpart, List.map_map]
    rfl
  · rw [dif_pos hr, ← Prog.bind_assoc (Prog.lift _), ht r hr]
    rfl

omit A in
theorem groupSlices_ranks (t : DType) (ops : Nat → List (FOp K)) : ∀ (m k : Nat) (v : List K),
    OpArith.groupSlices true t ((List.range' k m).map ops) v = (List.range' k m).map fun q => slices true ((ops q).map (·.on t)) (v.drop (psum (fun i => fopIn true (ops (k + i))) (q - k))) := by
  intro m
  induction m with
  | zero => intro k v; rfl
  | succ m ih =>
    intro k v
    rw [List.range'_succ, List.map_cons, List.map_cons, OpArith.groupSlices, ih]
    congr 1
    · simp [psum]
    · refine List.map_congr_left fun q hq => ?_
      have hq' := List.mem_range'.1 hq
      obtain ⟨i, hi, rfl⟩ := hq'
      rw [List.drop_drop]
      congr 2
      have e1 : k + 1 + 1 * i - (k + 1) = i := by omega
      have e2 : k + 1 + 1 * i - k = 1 + i := by omega
      rw [e1, e2]
      have : ∀ j, fopIn true (ops k) + psum (fun i => fopIn true (ops (k + 1 + i))) j = psum (fun i => fopIn true (ops (k + i))) (1 + j) := by
        intro j
        induction j with
        | zero => simp [psum]
        | succ j ihj =>
          rw [← Nat.add_assoc 1 j 1]
          simp only [psum] at ihj ⊢
          rw [← ihj, show k + (1 + j) = k + 1 + j by omega]; omega
      exact this i

omit A in
theorem groupSlices_all (t : DType) (ops : Nat → List (FOp K)) (v : List K) :
    OpArith.groupSlices true t ((List.range n).map ops) v = (List.range n).map fun q => slices true ((ops q).map (·.on t)) (v.drop (psum (fun i => fopIn true (ops i)) q)) := by
  rw [List.range_eq_range', groupSlices_ranks]
  simp

theorem a_vstackRmv (hX : Conform n X (inL true n (onAll ops x.dt))) (hN : Near n X (inL true n (onAll ops x.dt)))
    (hs : ∀ o ∈ allFOps n ops, o.Sized true ∧ o.inDim false = N) (hne : ∀ r < n, ops r ≠ []) (hx : x.v.length = X.gshape.prod) :
    Runs n (fun r => A.vstackRmv (ops r) dt ((List.range n).map fun q => [fopIn true (ops q)]) N (env n J r) (x.dpart X n r))
      (fun r => .ok ((A.sumSlices dt true N ((List.range n).map ops) x).dpart (.all N) n r)) := by
  have hlen : (x.copy A.toArith).v.length = inSum true (allOps n (onAll ops x.dt)) := by
    rw [SVec.length_copy A.toArith hx]; simp [hX.X1, Layout.lin]
  have hg : ∀ r, (x.dpart X n r).gshape = (inL true n (onAll ops x.dt)).gshape := fun r => by
    have : (x.dpart X n r).gshape = X.gshape := rfl
    rw [this, hX.X1]; simp [Layout.lin]
  unfold OpArith.vstackRmv Arith.reshaped
  simp only [Prog.bind_eq, hg]
  refine Runs.bind_ok ((a_redist_in A (J := J) hX hN hx).congr (fun r _ => by simp only [inSum_on]) fun _ _ => rfl) ?_
  refine Runs.bind_ok (a := fun r => (A.sumSlices dt true N ((List.range n).map ops) x).dpart (.all N) n r) ?_ ?_
  · have h := a_vsBody A (J := J) (dt := dt) (N := N) (l := onAll ops x.dt) (x := x.copy A.toArith) (fun o ho => ⟨sized_onAll (fun o ho => (hs o ho).1) o ho, by
      rw [allOps_onAll] at ho
      obtain ⟨p, hp, rfl⟩ := List.mem_map.1 ho
      exact (hs p hp).2⟩) (fun r hr h => hne r hr (List.map_eq_nil_iff.1 h)) hlen
    refine h.congr (fun r _ => ?_) fun r _ => ?_
    · simp only [aVsBody, Prog.bind_eq]
      rfl
    · simp only [OpArith.sumSlices, groupSlices_all, List.map_map, inSum_on]
      rfl
  · refine (Runs.ret _).congr (fun r hr => ?_) fun _ _ => rfl
    rw [if_neg]
    simp [SVec.dpart, Layout.fam, Layout.all]

/-! ### constructors -/

/-- the object built by `MPIBlockDiag(ops)` on rank `r` -/
def fbdPrim (n : Nat) (ops : Nat → List (FOp K)) (dt : DType) (r : Nat) : Prim K :=
  { rows := fopIn true (allFOps n ops), cols := fopIn false (allFOps n ops), dtype := dt,
    mv := A.blockDiagMv (ops r) none dt false ((List.range n).map fun q => [fopIn false (ops q)]) ((List.range n).map fun q => [fopIn true (ops q)]) (fopIn true (allFOps n ops)),
    rmv := A.blockDiagMv (ops r) none dt true ((List.range n).map fun q => [fopIn true (ops q)]) ((List.range n).map fun q => [fopIn false (ops q)]) (fopIn false (allFOps n ops)) }

omit A in
theorem fopIn_all (ops : Nat → List (FOp K)) : fopIn b (allFOps n ops) = psum (fun r => fopIn b (ops r)) n := by
  rw [← inSum_on (b := b) .real, ← allOps_onAll, inSum_allOps]
  simp only [inSum_on]

theorem a_mkBlockDiag {dtype : Option DType} (hdt : ∀ r < n, fopsDType (ops r) dtype = .ok dt) :
    Runs n (fun r => A.mkBlockDiag (env n J r) (ops r) none dtype) (fun r => .ok (fbdPrim A n ops dt r)) := by
  unfold OpArith.mkBlockDiag
  simp only [Prog.bind_eq]
  refine runs_allgather (J := J) (v := fun r => [fopIn false (ops r)]) ?_
  refine runs_allgather (J := J) (v := fun r => [fopIn true (ops r)]) ?_
  refine runs_allreduce_nat (J := J) (v := fun r => fopIn true (ops r)) ?_
  refine runs_allreduce_nat (J := J) (v := fun r => fopIn false (ops r)) ?_
  refine (Runs.ret _).congr (fun r hr => ?_) fun _ _ => rfl
  rw [hdt r hr, ← fopIn_all, ← fopIn_all]
  rfl

/-- the object built by `MPIVStack(ops)` on rank `r` -/
def fvsPrim (n : Nat) (ops : Nat → List (FOp K)) (N : Nat) (dt : DType) (r : Nat) : Prim K :=
  { rows := fopIn true (allFOps n ops), cols := N, dtype := dt,
    mv := A.vstackMv (ops r) dt ((List.range n).map fun q => [fopIn true (ops q)]) (fopIn true (allFOps n ops)),
    rmv := A.vstackRmv (ops r) dt ((List.range n).map fun q => [fopIn true (ops q)]) N }

omit A in
theorem fflatten_map (f : FOp K → Nat) : ((List.range n).map fun r => (ops r).map f).flatten = (allFOps n ops).map f := by
  unfold allFOps
  rw [List.map_flatMap, List.flatMap_def]

theorem a_mkVStack {dtype : Option DType} (hdt : ∀ r < n, fopsDType (ops r) dtype = .ok dt) (hN : ∀ o ∈ allFOps n ops, o.cols = N) (hne : allFOps n ops ≠ []) :
    Runs n (fun r => A.mkVStack (env n J r) (ops r) dtype) (fun r => .ok (fvsPrim A n ops N dt r)) := by
  unfold OpArith.mkVStack
  simp only [Prog.bind_eq]
  refine runs_allgather (J := J) (v := fun r => [fopIn true (ops r)]) ?_
  refine runs_allgather (J := J) (v := fun r => (ops r).map (·.cols)) ?_
  have e : ((List.range n).map fun r => (ops r).map (·.cols)).flatten = List.replicate (allFOps n ops).length N := by
    rw [fflatten_map, List.eq_replicate_iff]
    exact ⟨by simp, fun x hx => by obtain ⟨o, ho, rfl⟩ := List.mem_map.1 hx; exact hN o ho⟩
  have hlen : (allFOps n ops).length = (allFOps n ops).length - 1 + 1 := by
    have := List.length_pos_iff.2 hne; omega
  rw [e, hlen, List.replicate_succ]
  dsimp only
  have hany : ¬ ((List.replicate ((allFOps n ops).length - 1) N).any fun x => decide (x ≠ N)) = true := by simp
  simp only [if_neg hany]
  refine runs_allreduce_nat (J := J) (v := fun r => fopIn true (ops r)) ?_
  refine (Runs.ret _).congr (fun r hr => ?_) fun _ _ => rfl
  rw [hdt r hr, ← fopIn_all]
  rfl

/-! ### horizontal stack -/

/-- the adjoints of the operators of rank `r` -/
abbrev fhOps (ops : Nat → List (FOp K)) (r : Nat) : List (FOp K) := (ops r).map FOp.H

omit A in
theorem allFOps_H : allFOps n (fhOps ops) = (allFOps n ops).map FOp.H := by
  unfold allFOps
  rw [List.map_flatMap]

omit A in
theorem fopIn_H (l : List (FOp K)) : fopIn b (l.map FOp.H) = fopIn (!b) l := by
  unfold fopIn
  rw [List.map_map]
  congr 1
  exact List.map_congr_left fun o _ => by cases b <;> rfl

omit A in
theorem fslices_H (t : DType) (l : List (FOp K)) (v : List K) : slices b ((l.map FOp.H).map (·.on t)) v = slices (!b) (l.map (·.on t)) v := by
  induction l generalizing v with
  | nil => rfl
  | cons o os ih =>
    simp only [List.map_cons, slices]
    rw [ih]
    cases b <;> rfl

omit A in
theorem groupSlices_H (t : DType) (gs : List (List (FOp K))) (v : List K) :
    OpArith.groupSlices b t (gs.map fun g => g.map FOp.H) v = OpArith.groupSlices (!b) t gs v := by
  induction gs generalizing v with
  | nil => rfl
  | cons g gs ih => simp only [List.map_cons, OpArith.groupSlices]; rw [ih, fslices_H, fopIn_H]

theorem sumSlices_H (gs : List (List (FOp K))) : A.sumSlices dt b N (gs.map fun g => g.map FOp.H) = A.sumSlices dt (!b) N gs := by
  funext x
  simp only [OpArith.sumSlices, groupSlices_H]

theorem onWhole_H (l : List (FOp K)) : A.onWhole dt b (l.map FOp.H) = A.onWhole dt (!b) l := by
  funext x
  simp only [OpArith.onWhole, vcat, List.map_map, List.flatMap_map]
  congr 3
  funext o
  cases b <;> rfl

omit A in
theorem sized_H {o : FOp K} (h : o.Sized (!b)) : o.H.Sized b := by
  intro t v hv
  cases b
  · exact h t v hv
  · exact h t v hv

/-- the object built by `MPIHStack(ops)` on rank `r` -/
def fhsPrim (n : Nat) (ops : Nat → List (FOp K)) (N : Nat) (dt : DType) (r : Nat) : Prim K :=
  { rows := N, cols := fopIn true (allFOps n (fhOps ops)), dtype := dt,
    mv := fun c x => A.run c false (.adj (.leaf (fvsPrim A n (fhOps ops) N dt r))) x,
    rmv := fun c x => A.run c true (.adj (.leaf (fvsPrim A n (fhOps ops) N dt r))) x }

theorem a_mkHStack {dtype : Option DType} (hdt : ∀ r < n, fopsDType (ops r) dtype = .ok dt) (hN : ∀ o ∈ allFOps n ops, o.rows = N) (hne : allFOps n ops ≠ []) :
    Runs n (fun r => A.mkHStack (env n J r) (ops r) dtype) (fun r => .ok (fhsPrim A n ops N dt r)) := by
  unfold OpArith.mkHStack
  simp only [Prog.bind_eq]
  refine runs_allgather (J := J) (v := fun r => (ops r).map (·.rows)) ?_
  have e : ((List.range n).map fun r => (ops r).map (·.rows)).flatten = List.replicate (allFOps n ops).length N := by
    rw [fflatten_map, List.eq_replicate_iff]
    exact ⟨by simp, fun x hx => by obtain ⟨o, ho, rfl⟩ := List.mem_map.1 hx; exact hN o ho⟩
  have hlen : (allFOps n ops).length = (allFOps n ops).length - 1 + 1 := by
    have := List.length_pos_iff.2 hne; omega
  rw [e, hlen, List.replicate_succ]
  dsimp only
  have hany : ¬ ((List.replicate ((allFOps n ops).length - 1) N).any fun x => decide (x ≠ N)) = true := by simp
  simp only [if_neg hany]
  have hdt' : ∀ r < n, fopsDType (fhOps ops r) dtype = .ok dt := by
    intro r hr
    rw [← hdt r hr]
    unfold fopsDType opsDType fhOps
    cases dtype with
    | some d => rfl
    | none =>
      generalize ops r = os
      cases os with
      | nil => rfl
      | cons o os =>
        simp only [List.map_cons, List.map_map, List.foldl_map]
        rfl
  refine Runs.bind_ok (a_mkVStack A (J := J) (ops := fhOps ops) (N := N) hdt' (fun o ho => ?_) (by rw [allFOps_H]; simpa using hne)) (Runs.ret _)
  rw [allFOps_H] at ho
  obtain ⟨p, hp, rfl⟩ := List.mem_map.1 ho
  exact hN p hp

end Verif

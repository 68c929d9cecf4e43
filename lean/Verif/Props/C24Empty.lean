/- C23, C24, C25 when some ranks have no operators. -/
import Verif.Props.C23
import Verif.Props.C24
import Verif.Proofs.GroupDeadlock

namespace Verif
open NDArray Relation

set_option linter.unusedSectionVars false

variable {K : Type} [Field K] [StarRing K] [CharZero K] {n : Nat} {J : Nat → Nat → K} {ops : Nat → List (LOp K)} {mask : Option (List Nat)}
  {dtype : Option DType} {dx dt : DType} {X : Layout} {N M : Nat} {b : Bool}

/-- `y[:] = v` does not communicate unless `y` is BROADCAST -/
theorem setAll_local {S : VSpace} {e : List K} (hL : S.L.WF n) (he : S.Mem e) (hb : S.L.part ≠ .broadcast) {r : Nat} (hr : r < n) {v : NDArray K} (hs : v.shape = S.L.lshape r)
    (hv : v.data = S.L.piece e r) {a : Nat → List K} (ha : (a r).length = (S.L.lshape r).prod) :
    (S.L.fam n S.dt a r).setAll (env n J r) v = .ret (S.vec n e r) := by
  have h := good_vec hL he
  have hp : (S.L.fam n S.dt a r).part = S.L.part := rfl
  unfold DArr.setAll DArr.setItem
  rw [hp, if_neg hb, setIndex_all (by exact ha) hs (by unfold WF; rw [hv, hs]; exact h.length r hr), hv,
    show (S.L.fam n S.dt a r).larr.dtype = S.dt from rfl, castTo_of_fits (h.fits r hr)]
  rfl

theorem runs_bdBody_any (hok : ∀ o ∈ allOps n ops, o.Ok b dx dt) (hm : ∀ m, mask = some m → n ≤ m.length)
    {d : List K} (hd : VSpace.Mem ⟨inL b n ops, dx⟩ d) :
    Runs n (fun r => bdBody (ops r) mask dt b ((List.range n).map fun q => [outSum b (ops q)]) (outSum b (allOps n ops)) (env n J r)
        (VSpace.vec ⟨inL b n ops, dx⟩ n d r))
      (fun r => if ops r = [] then .error .value else .ok (VSpace.vec ⟨inL (!b) n ops mask, dt⟩ n (blockDiag b (allOps n ops) d) r)) := by
  have hlen : d.length = inSum b (allOps n ops) := by simpa [Layout.lin] using hd.1
  have hY : (inL (!b) n ops mask).WF n := inL_wf hm
  unfold bdBody
  simp only [Prog.bind_eq]
  have e : (List.range n).map (fun q => [outSum b (ops q)]) = (List.range n).map (inL (!b) n ops mask).lshape :=
    List.map_congr_left fun q _ => (lshape_inL _ _ _ _ q).symm
  rw [e]
  refine Runs.bind_ok (runs_mkDArr (J := J) (dt := dt) hY) ?_
  refine (Runs.lift _).congr (fun r hr => ?_) fun _ _ => rfl
  by_cases hr0 : ops r = []
  · rw [if_pos hr0, hr0]
    rfl
  rw [if_neg hr0]
  have hp : ((inL b n ops).piece d r).length = inSum b (ops r) := by
    have := length_piece (L := inL b n ops) (inL_wf (by simp)) (d := d) hd.1 hr
    rw [this, lshape_lin]; simp
  have h1 : applyAt b (VSpace.vec ⟨inL b n ops, dx⟩ n d r).larr 0 (ops r) = .ok (outs b dx (ops r) ((inL b n ops).piece d r)) :=
    applyAt_ok b (m := inSum b (ops r)) (by exact lshape_lin _ _ r) hp (ops r) 0 (by omega)
  have hok' : ∀ o ∈ ops r, o.Ok b dx dt := fun o ho => hok o (mem_allOps hr ho)
  obtain ⟨t, h2⟩ := concat1 (outs b dx (ops r) ((inL b n ops).piece d r)) (by
    intro h
    have := congrArg List.length (congrArg (List.map (·.shape)) h)
    rw [outs_shape] at this
    simp at this
    exact hr0 this) ((ops r).map (·.outDim b)) (by rw [outs_shape, List.map_map]; rfl) (by
      have h3 := slices_ok hok' (x := (inL b n ops).piece d r) (by omega)
      rw [← outs_data b dx, List.map_map] at h3
      exact h3)
  rw [outs_data] at h2
  have hpart : (inL (!b) n ops mask).piece (blockDiag b (allOps n ops) d) r = blockDiag b (ops r) ((inL b n ops).piece d r) := by
    rw [piece_lin (inSum_allOps (!b) n ops).symm (by rw [length_blockDiag hok (by omega)]; rfl) r, piece_lin (inSum_allOps b n ops).symm hlen r]
    exact blockDiag_part hok hlen hr
  rw [h1]
  simp only [Prog.lift_ok, Prog.ret_bind]
  rw [h2]
  simp only [Prog.lift_ok, Prog.ret_bind]
  refine Eq.symm ?_
  refine setAll_local (S := ⟨inL (!b) n ops mask, dt⟩) hY (mem_blockDiag (mask := mask) hok hlen hd.2) (by simp [Layout.lin]) hr ?_ ?_ (length_junk r)
  · exact (lshape_inL _ _ _ _ r).symm
  · exact hpart.symm

theorem runs_bdProg_any (hX : X.WF n) (hg : X.gshape = [inSum b (allOps n ops)]) (hp : X.part = .scatter) (hax : X.axis = 0)
    (hN : Near n X (.lin (inSum b (allOps n ops)) fun r => inSum b (ops r)))
    (hok : ∀ o ∈ allOps n ops, o.Ok b dx dt) (hm : ∀ m, mask = some m → n ≤ m.length) {d : List K} (hd : VSpace.Mem ⟨X, dx⟩ d) :
    Runs n (bdProg n J ops mask (some dt) b (VSpace.vec ⟨X, dx⟩ n d))
      (fun r => if ops r = [] then .error .value
        else .ok (VSpace.vec ⟨.lin (outSum b (allOps n ops)) (fun r => outSum b (ops r)) mask, dt⟩ n (blockDiag b (allOps n ops) d) r)) := by
  have hC : Conform n X (inL b n ops) := conform_in hX hg hp hax
  have hgr : ∀ r, (VSpace.vec ⟨X, dx⟩ n d r : DArr K).gshape = (inL b n ops).gshape := fun r => by
    have : (VSpace.vec ⟨X, dx⟩ n d r : DArr K).gshape = X.gshape := rfl
    rw [this, hg]; simp [Layout.lin]
  have e : (List.range n).map (fun q => [inSum b (ops q)]) = (List.range n).map (inL b n ops).lshape :=
    List.map_congr_left fun q _ => (lshape_inL _ _ _ _ q).symm
  have hd' : VSpace.Mem ⟨inL b n ops, dx⟩ d := ⟨by rw [hd.1]; simp [hC.X1], hd.2⟩
  have h : Runs n (fun r => blockDiagMv (ops r) mask dt b ((List.range n).map fun q => [inSum b (ops q)]) ((List.range n).map fun q => [outSum b (ops q)])
        (outSum b (allOps n ops)) (env n J r) (VSpace.vec ⟨X, dx⟩ n d r))
      (fun r => if ops r = [] then .error .value else .ok (VSpace.vec ⟨inL (!b) n ops mask, dt⟩ n (blockDiag b (allOps n ops) d) r)) := by
    unfold blockDiagMv reshaped
    simp only [Prog.bind_eq]
    simp only [hgr, e]
    refine Runs.bind_ok (runs_redistribute (J := J) hC (makes_some hC.wfT rfl rfl rfl) hN hd) ?_
    refine Runs.bind (runs_bdBody_any (J := J) hok hm hd') ?_
    refine (Runs.lift _).congr (fun r hr => ?_) fun _ _ => rfl
    by_cases hr0 : ops r = []
    · rw [if_pos hr0]
      rfl
    · rw [if_neg hr0]
      simp only [Prog.lift_ok, Prog.ret_bind]
      rw [if_neg]
      simp [VSpace.vec, Layout.fam, Layout.lin]
  unfold bdProg
  simp only [Prog.bind_eq]
  refine Runs.bind_ok (runs_mkBlockDiag (J := J) (mask := mask) (dt := dt) fun _ _ => rfl) (h.congr (fun r hr => ?_) fun _ _ => rfl)
  have hgs : (VSpace.vec ⟨X, dx⟩ n d r : DArr K).gshape = [inSum b (allOps n ops)] := hg
  unfold MOp.run checkDim
  cases b with
  | false => rw [if_neg (by rw [hgs]; simp [bdPrim])]; rfl
  | true => rw [if_neg (by rw [hgs]; simp [bdPrim, outSum])]; rfl

/-- **C23 with ranks that have no operators** (and a dtype given to the constructor): those ranks raise ValueError, in the forward and in the adjoint
    application, and the other ranks hold their parts of the result. -/
theorem C23_empty (hX : X.WF n) (hg : X.gshape = [inSum b (allOps n ops)]) (hp : X.part = .scatter) (hax : X.axis = 0)
    (hN : Near n X (.lin (inSum b (allOps n ops)) fun r => inSum b (ops r)))
    (hok : ∀ o ∈ allOps n ops, o.Ok b dx dt) (hm : ∀ m, mask = some m → n ≤ m.length) {d : List K} (hd : VSpace.Mem ⟨X, dx⟩ d) :
    Always n (bdProg n J ops mask (some dt) b (VSpace.vec ⟨X, dx⟩ n d))
      (fun r => if ops r = [] then .error .value
        else .ok (VSpace.vec ⟨.lin (outSum b (allOps n ops)) (fun r => outSum b (ops r)) mask, dt⟩ n (blockDiag b (allOps n ops) d) r)) :=
  (runs_bdProg_any hX hg hp hax hN hok hm hd).always

/-- **C23 with ranks that have no operators and no dtype given**: the constructor raises ValueError on those ranks and succeeds on the others. -/
theorem C23_empty_construct : Always n (fun r => do
        let p ← mkBlockDiag (env n J r) (ops r) mask none
        .ret (p.rows, p.cols))
      (fun r => if ops r = [] then .error .value else .ok (((allOps n ops).map (·.rows)).sum, ((allOps n ops).map (·.cols)).sum)) := by
  refine Runs.always ?_
  unfold mkBlockDiag
  simp only [Prog.bind_eq, Prog.bind_assoc]
  refine runs_allgather (J := J) (v := fun r => [inSum false (ops r)]) ?_
  refine runs_allgather (J := J) (v := fun r => [inSum true (ops r)]) ?_
  refine runs_allreduce_nat (J := J) (v := fun r => inSum true (ops r)) ?_
  refine runs_allreduce_nat (J := J) (v := fun r => inSum false (ops r)) ?_
  refine (Runs.lift _).congr (fun r hr => ?_) fun _ _ => rfl
  rw [← inSum_allOps, ← inSum_allOps]
  cases h : ops r with
  | nil => rfl
  | cons o os => rfl

/-! ### vertical stack -/

theorem runs_vstackMv_any (hX : X.WF n) (hg : X.gshape = [N]) (hp : X.part.isBroadcast = true)
    (hok : ∀ o ∈ allOps n ops, o.Ok false dx dt ∧ o.inDim false = N) {d : List K} (hd : VSpace.Mem ⟨X, dx⟩ d) :
    Runs n (fun r => vstackMv (ops r) dt ((List.range n).map fun q => [outSum false (ops q)]) (outSum false (allOps n ops)) (env n J r) (VSpace.vec ⟨X, dx⟩ n d r))
      (fun r => if ops r = [] then .error .value else .ok (VSpace.vec ⟨inL true n ops, dt⟩ n (vcat false (allOps n ops) d) r)) := by
  have hlen : d.length = N := by rw [hd.1]; simp [hg]
  have hY : (inL true n ops).WF n := inL_wf (by simp)
  unfold vstackMv
  have hnp : ∀ r, ¬ ¬ (VSpace.vec ⟨X, dx⟩ n d r : DArr K).part.isBroadcast = true := fun r h => h hp
  simp only [if_neg (hnp _)]
  simp only [Prog.bind_eq]
  have e : (List.range n).map (fun q => [outSum false (ops q)]) = (List.range n).map (inL true n ops).lshape :=
    List.map_congr_left fun q _ => (lshape_inL _ _ _ _ q).symm
  rw [e]
  refine Runs.bind_ok (runs_mkDArr (J := J) (dt := dt) hY) ?_
  refine (Runs.lift _).congr (fun r hr => ?_) fun _ _ => rfl
  by_cases hr0 : ops r = []
  · rw [if_pos hr0, hr0]
    rfl
  rw [if_neg hr0]
  have hl : (VSpace.vec ⟨X, dx⟩ n d r).larr = ⟨[N], dx, d⟩ := by
    simp [VSpace.vec, Layout.fam, lshape_bcast hp, hg, Layout.piece, hp]
  rw [hl, mapM_apply (N := N) rfl _ fun o ho => (hok o (mem_allOps hr ho)).2]
  simp only [Prog.lift_ok, Prog.ret_bind]
  obtain ⟨t, h2⟩ := concat1 ((ops r).map fun o => (⟨[o.outDim false], o.dtype.promote dx, o.fn false d⟩ : NDArray K)) (by simpa using hr0)
    ((ops r).map (·.outDim false)) (by simp [List.map_map]) (by
      rw [List.map_map]
      exact List.map_congr_left fun o ho => by
        have h1 := hok o (mem_allOps hr ho)
        exact h1.1.length d (by rw [hlen, h1.2]))
  have hpart : (inL true n ops).piece (vcat false (allOps n ops) d) r = vcat false (ops r) d := by
    rw [piece_lin (inSum_allOps true n ops).symm (by rw [length_vcat false hok hlen]; rfl) r]
    exact vcat_part false hok hlen hr
  rw [h2]
  simp only [Prog.lift_ok, Prog.ret_bind]
  refine Eq.symm ?_
  refine setAll_local (S := ⟨inL true n ops, dt⟩) hY (mem_vcat (b := false) (mask := none) hok hlen hd.2) (by simp [Layout.lin]) hr ?_ ?_ (length_junk r)
  · exact (lshape_inL _ _ _ _ r).symm
  · show _ = (inL true n ops).piece (vcat false (allOps n ops) d) r
    rw [hpart, List.map_map]
    rfl

/-- **C24 with ranks that have no operators** (matvec, with a dtype given to the constructor): those ranks raise ValueError, the other ranks hold their parts
    of the result. -/
theorem C24_matvec_empty (hX : X.WF n) (hg : X.gshape = [N]) (hp : X.part.isBroadcast = true) (hne : allOps n ops ≠ [])
    (hok : ∀ o ∈ allOps n ops, o.Ok false dx dt ∧ o.cols = N) {d : List K} (hd : VSpace.Mem ⟨X, dx⟩ d) :
    Always n (vsProg n J ops (some dt) false (VSpace.vec ⟨X, dx⟩ n d))
      (fun r => if ops r = [] then .error .value
        else .ok (VSpace.vec ⟨.lin (outSum false (allOps n ops)) (fun r => outSum false (ops r)), dt⟩ n (vcat false (allOps n ops) d) r)) := by
  refine Runs.always ?_
  unfold vsProg
  simp only [Prog.bind_eq]
  refine Runs.bind_ok (runs_mkVStack (J := J) (N := N) (dt := dt) (fun _ _ => rfl) (fun o ho => (hok o ho).2) hne) ?_
  refine (runs_vstackMv_any (J := J) hX hg hp hok hd).congr (fun r hr => ?_) fun _ _ => rfl
  have hgs : (VSpace.vec ⟨X, dx⟩ n d r : DArr K).gshape = [N] := hg
  unfold MOp.run checkDim
  rw [if_neg (by rw [hgs]; simp [vsPrim])]
  rfl

/-- there is an execution without buffering that reaches a state in which the ranks with `o r = some v` have ended with `v` and the others wait for all ranks; one rank has ended -/
def HaltsE {W α : Type} (n : Nat) (ps : Nat → Prog W α) (o : Nat → Option (Except Err α)) : Prop :=
  ∃ qs, ReflTransGen (SStep n) ps qs ∧ (∃ q < n, (o q).isSome) ∧ ∀ r < n, match o r with | some v => qs r = Prog.lift v | none => WaitsAll n (qs r)

section
variable {W α β : Type}

theorem HaltsE.now {ps : Nat → Prog W α} {o : Nat → Option (Except Err α)} {q : Nat} (hq : q < n) (ho : (o q).isSome)
    (h : ∀ r < n, match o r with | some v => ps r = Prog.lift v | none => WaitsAll n (ps r)) : HaltsE n ps o := ⟨ps, .refl, ⟨q, hq, ho⟩, h⟩

theorem HaltsE.ends {ps : Nat → Prog W α} {o : Nat → Option (Except Err α)} (h : HaltsE n ps o) : Ends n ps o := by
  obtain ⟨qs, h1, ⟨q, hq, ho⟩, h2⟩ := h
  obtain ⟨a, ha⟩ := Option.isSome_iff_exists.1 ho
  have hqs := h2 q hq
  rw [ha] at hqs
  refine Ends.of_blocked h1 fun r hr => ?_
  have := h2 r hr
  cases e : o r with
  | some a => rw [e] at this; exact this
  | none =>
    rw [e] at this
    obtain ⟨kind, v, k, h⟩ := this
    refine .inr ⟨kind, _, v, k, h, q, by simpa using hq, fun v' k' h' => ?_⟩
    rw [show qs q = Prog.lift a from hqs] at h'
    cases a <;> cases h'

theorem HaltsE.congr {ps ps' : Nat → Prog W α} {o : Nat → Option (Except Err α)} (h : HaltsE n ps o) (he : ∀ r < n, ps r = ps' r) : HaltsE n ps' o := by
  obtain ⟨qs, h1, h2, h3⟩ := h
  obtain ⟨qs', h4, h5⟩ := steps_congr h1 he
  exact ⟨qs', h4, h2, fun r hr => by rw [← h5 r hr]; exact h3 r hr⟩

theorem HaltsE.after {ps : Nat → Prog W α} {a : Nat → α} {k : Nat → α → Prog W β} {o : Nat → Option (Except Err β)} (h1 : Runs n ps (fun r => .ok (a r)))
    (h2 : HaltsE n (fun r => k r (a r)) o) : HaltsE n (fun r => (ps r).bind (k r)) o := by
  obtain ⟨qs, h, hf⟩ := h1
  obtain ⟨qs', h3, h4⟩ := h2.congr (ps' := fun r => (qs r).bind (k r)) (fun r hr => by rw [hf r hr]; rfl)
  exact ⟨qs', (steps_bind h k).trans h3, h4⟩

theorem HaltsE.bind {ps : Nat → Prog W α} {e : Err} {P : Nat → Prop} [DecidablePred P] (k : Nat → α → Prog W β) (h : HaltsE n ps (fun r => if P r then some (.error e) else none)) :
    HaltsE n (fun r => (ps r).bind (k r)) (fun r => if P r then some (.error e) else none) := by
  obtain ⟨qs, h1, ⟨q, hq, h2⟩, h3⟩ := h
  refine ⟨_, steps_bind h1 k, ⟨q, hq, ?_⟩, fun r hr => ?_⟩
  · by_cases hP : P q
    · simp [hP]
    · simp [hP] at h2
  · have := h3 r hr
    by_cases hP : P r
    · simp only [if_pos hP] at this ⊢
      rw [this]; rfl
    · simp only [if_neg hP] at this ⊢
      exact this.bind _

end

theorem halts_vsBody (hok : ∀ o ∈ allOps n ops, o.Ok true dx dt ∧ o.outDim true = N) {q : Nat} (hq : q < n) (hq0 : ops q = [])
    {d : List K} (hd : VSpace.Mem ⟨inL true n ops, dx⟩ d) :
    HaltsE n (fun r => vsBody (ops r) dt N (env n J r) (VSpace.vec ⟨inL true n ops, dx⟩ n d r))
      (fun r => if ops r = [] then some (.error .value) else none) := by
  have hlen : d.length = inSum true (allOps n ops) := by simpa [Layout.lin] using hd.1
  have hY : (Layout.all N).WF n := all_wf rfl
  unfold vsBody
  simp only [Prog.bind_eq]
  have h0 := runs_mkDArr_none (J := J) (dt := dt) (L := Layout.all N) hY (fun h => by simp [Layout.all] at h)
  refine HaltsE.after h0 (HaltsE.now hq (by simp [hq0]) fun r hr => ?_)
  by_cases hr0 : ops r = []
  · simp only [if_pos hr0, hr0]
    rfl
  simp only [if_neg hr0]
  have hpl : ((inL true n ops).piece d r).length = inSum true (ops r) := by
    have := length_piece (L := inL true n ops) (inL_wf (by simp)) (d := d) hd.1 hr
    rw [this, lshape_lin]; simp
  have h1 : applyAt true (VSpace.vec ⟨inL true n ops, dx⟩ n d r).larr 0 (ops r) = .ok (outs true dx (ops r) ((inL true n ops).piece d r)) :=
    applyAt_ok true (m := inSum true (ops r)) (by exact lshape_lin _ _ r) hpl (ops r) 0 (by omega)
  have hok' : ∀ o ∈ ops r, o.Ok true dx dt ∧ o.outDim true = N := fun o ho => hok o (mem_allOps hr ho)
  obtain ⟨t, h2⟩ := sumRows_ok (N := N) (l := outs true dx (ops r) ((inL true n ops).piece d r)) (by
    intro h
    have := congrArg List.length (congrArg (List.map (·.shape)) h)
    rw [outs_shape] at this
    simp at this
    exact hr0 this) (fun x hx => by
      have : x.shape ∈ (outs true dx (ops r) ((inL true n ops).piece d r)).map (·.shape) := List.mem_map.2 ⟨x, hx, rfl⟩
      rw [outs_shape] at this
      obtain ⟨o, ho, e⟩ := List.mem_map.1 this
      rw [← e, (hok' o ho).2]) (fun x hx => by
      refine slices_len_N hok' (x := (inL true n ops).piece d r) (by rw [hpl]) x.data ?_
      rw [← outs_data true dx]
      exact List.mem_map.2 ⟨x, hx, rfl⟩)
  rw [h1]
  simp only [Prog.lift_ok, Prog.ret_bind]
  rw [h2]
  exact ⟨_, _, _, rfl⟩

theorem halts_vstackRmv (hX : Conform n X (inL true n ops)) (hN : Near n X (inL true n ops))
    (hok : ∀ o ∈ allOps n ops, o.Ok true dx dt ∧ o.outDim true = N) {q : Nat} (hq : q < n) (hq0 : ops q = []) {d : List K} (hd : VSpace.Mem ⟨X, dx⟩ d) :
    HaltsE n (fun r => vstackRmv (ops r) dt ((List.range n).map fun q => [inSum true (ops q)]) N (env n J r) (VSpace.vec ⟨X, dx⟩ n d r))
      (fun r => if ops r = [] then some (.error .value) else none) := by
  unfold vstackRmv reshaped
  simp only [Prog.bind_eq]
  have hg : ∀ r, (VSpace.vec ⟨X, dx⟩ n d r : DArr K).gshape = (inL true n ops).gshape := fun r => by
    have : (VSpace.vec ⟨X, dx⟩ n d r : DArr K).gshape = X.gshape := rfl
    rw [this, hX.X1]; simp [Layout.lin]
  have e : (List.range n).map (fun q => [inSum true (ops q)]) = (List.range n).map (inL true n ops).lshape :=
    List.map_congr_left fun q _ => (lshape_inL _ _ _ _ q).symm
  simp only [hg, e]
  have hd' : VSpace.Mem ⟨inL true n ops, dx⟩ d := ⟨by rw [hd.1]; simp [hX.X1], hd.2⟩
  exact HaltsE.after (runs_redistribute (J := J) hX (makes_some hX.wfT rfl rfl rfl) hN hd) (HaltsE.bind _ (halts_vsBody (J := J) hok hq hq0 hd'))

/-- **C24 with ranks that have no operators** (rmatvec, with a dtype given to the constructor): those ranks raise ValueError and all other ranks wait forever in the
    sum over the ranks. -/
theorem C24_rmatvec_empty (hX : X.WF n) (hg : X.gshape = [inSum true (allOps n ops)]) (hp : X.part = .scatter) (hax : X.axis = 0)
    (hN : Near n X (.lin (inSum true (allOps n ops)) fun r => inSum true (ops r))) (hne : allOps n ops ≠ [])
    (hok : ∀ o ∈ allOps n ops, o.Ok true dx dt ∧ o.cols = N) {q : Nat} (hq : q < n) (hq0 : ops q = []) {d : List K} (hd : VSpace.Mem ⟨X, dx⟩ d) :
    Ends n (vsProg n J ops (some dt) true (VSpace.vec ⟨X, dx⟩ n d)) (fun r => if ops r = [] then some (.error .value) else none) := by
  refine HaltsE.ends ?_
  unfold vsProg
  simp only [Prog.bind_eq]
  refine HaltsE.after (runs_mkVStack (J := J) (N := N) (dt := dt) (fun _ _ => rfl) (fun o ho => (hok o ho).2) hne) ?_
  refine (halts_vstackRmv (J := J) (conform_in hX hg hp hax) hN hok hq hq0 hd).congr fun r hr => ?_
  have hgs : (VSpace.vec ⟨X, dx⟩ n d r : DArr K).gshape = [inSum true (allOps n ops)] := hg
  unfold MOp.run checkDim
  rw [if_neg (by rw [hgs]; simp [vsPrim, outSum])]
  rfl

/-- **C24 with ranks that have no operators and no dtype given**: the constructor raises ValueError on those ranks and succeeds on the others. -/
theorem C24_empty_construct (hne : allOps n ops ≠ []) (hN : ∀ o ∈ allOps n ops, o.cols = N) : Always n (fun r => do
        let p ← mkVStack (env n J r) (ops r) none
        .ret (p.rows, p.cols))
      (fun r => if ops r = [] then .error .value else .ok (((allOps n ops).map (·.rows)).sum, N)) := by
  refine Runs.always ?_
  unfold mkVStack
  simp only [Prog.bind_eq, Prog.bind_assoc]
  refine runs_allgather (J := J) (v := fun r => [inSum true (ops r)]) ?_
  refine runs_allgather (J := J) (v := fun r => (ops r).map (·.cols)) ?_
  have e : ((List.range n).map fun r => (ops r).map (·.cols)).flatten = List.replicate (allOps n ops).length N := by
    rw [flatten_map, List.eq_replicate_iff]
    exact ⟨by simp, fun x hx => by obtain ⟨o, ho, rfl⟩ := List.mem_map.1 hx; exact hN o ho⟩
  have hlen : (allOps n ops).length = (allOps n ops).length - 1 + 1 := by
    have := List.length_pos_iff.2 hne; omega
  rw [e, hlen, List.replicate_succ]
  dsimp only
  have hany : ¬ ((List.replicate ((allOps n ops).length - 1) N).any fun x => decide (x ≠ N)) = true := by simp
  simp only [if_neg hany, Prog.bind_assoc]
  refine runs_allreduce_nat (J := J) (v := fun r => inSum true (ops r)) ?_
  refine (Runs.lift _).congr (fun r hr => ?_) fun _ _ => rfl
  rw [← inSum_allOps]
  cases h : ops r with
  | nil => rfl
  | cons o os => rfl

/-- **without any operator** MPIVStack raises IndexError on all ranks -/
theorem C24_no_operators (h : allOps n ops = []) : Always n (fun r => mkVStack (env n J r) (ops r) dtype) (fun _ => .error .index) := by
  refine Runs.always ?_
  unfold mkVStack
  simp only [Prog.bind_eq]
  refine runs_allgather (J := J) (v := fun r => [inSum true (ops r)]) ?_
  refine runs_allgather (J := J) (v := fun r => (ops r).map (·.cols)) ?_
  rw [flatten_map, h]
  exact Runs.throw fun _ => Err.index

/-! ### horizontal stack -/

theorem hOps_nil {r : Nat} : hOps ops r = [] ↔ ops r = [] := by simp [hOps]

/-- **C25 with ranks that have no operators** (matvec): those ranks raise ValueError and all other ranks wait forever. -/
theorem C25_matvec_empty (hX : X.WF n) (hg : X.gshape = [inSum false (allOps n ops)]) (hp : X.part = .scatter) (hax : X.axis = 0)
    (hN : Near n X (.lin (inSum false (allOps n ops)) fun r => inSum false (ops r))) (hne : allOps n ops ≠ [])
    (hok : ∀ o ∈ allOps n ops, o.Ok false dx dt ∧ o.rows = M) {q : Nat} (hq : q < n) (hq0 : ops q = []) {d : List K} (hd : VSpace.Mem ⟨X, dx⟩ d) :
    Ends n (hsProg n J ops (some dt) false (VSpace.vec ⟨X, dx⟩ n d)) (fun r => if ops r = [] then some (.error .value) else none) := by
  refine HaltsE.ends ?_
  unfold hsProg
  simp only [Prog.bind_eq]
  refine HaltsE.after (runs_mkHStack (J := J) (M := M) (dt := dt) (fun _ _ => rfl) (fun o ho => (hok o ho).2) hne) ?_
  have e1 : inSum true (allOps n (hOps ops)) = inSum false (allOps n ops) := by rw [allOps_H, inSum_H]; rfl
  have e2 : (fun r => inSum true (hOps ops r)) = fun r => inSum false (ops r) := by
    funext r; rw [hOps, inSum_H]; rfl
  have hg' : X.gshape = [inSum true (allOps n (hOps ops))] := by rw [e1, hg]
  have h := halts_vstackRmv (J := J) (ops := hOps ops) (N := M) (conform_in hX hg' hp hax) (by unfold inL; rw [e1, e2]; exact hN) (hok_H hok) hq (hOps_nil.2 hq0) hd
  simp only [hOps_nil] at h
  refine h.congr fun r hr => ?_
  have hgs : (VSpace.vec ⟨X, dx⟩ n d r : DArr K).gshape = [outSum false (allOps n (hOps ops))] := hg'
  simp only [MOp.run, checkDim, MOp.shape, Prim.shape, hsPrim, vsPrim, hgs]
  simp

/-- **C25 with ranks that have no operators** (rmatvec): those ranks raise ValueError, the other ranks hold their parts of the result. -/
theorem C25_rmatvec_empty (hX : X.WF n) (hg : X.gshape = [M]) (hp : X.part.isBroadcast = true) (hne : allOps n ops ≠ [])
    (hok : ∀ o ∈ allOps n ops, o.Ok true dx dt ∧ o.rows = M) {d : List K} (hd : VSpace.Mem ⟨X, dx⟩ d) :
    Always n (hsProg n J ops (some dt) true (VSpace.vec ⟨X, dx⟩ n d))
      (fun r => if ops r = [] then .error .value
        else .ok (VSpace.vec ⟨.lin (inSum false (allOps n ops)) (fun r => inSum false (ops r)), dt⟩ n (vcat true (allOps n ops) d) r)) := by
  refine Runs.always ?_
  unfold hsProg
  simp only [Prog.bind_eq]
  refine Runs.bind_ok (runs_mkHStack (J := J) (M := M) (dt := dt) (fun _ _ => rfl) (fun o ho => (hok o ho).2) hne) ?_
  have h := runs_vstackMv_any (J := J) (ops := hOps ops) (N := M) hX hg hp (hok_H hok) hd
  simp only [hOps_nil] at h
  refine h.congr (fun r hr => ?_) fun r _ => ?_
  · have hgs : (VSpace.vec ⟨X, dx⟩ n d r : DArr K).gshape = [M] := hg
    simp only [MOp.run, checkDim, MOp.shape, Prim.shape, hsPrim, vsPrim, hgs]
    simp
  · rw [allOps_H, vcat_H]
    have e1 : inSum true ((allOps n ops).map (·.H)) = inSum false (allOps n ops) := inSum_H _ _
    have e2 : (fun r => inSum true (hOps ops r)) = fun r => inSum false (ops r) := by funext r; exact inSum_H _ _
    unfold inL
    rw [allOps_H, e1, e2]
    rfl

/-! Non-vacuity: [1 2] on rank 0, nothing on rank 1. -/

def emptyOps : Nat → List (LOp ℚ) := fun r => if r = 0 then [.row [1, 2]] else []

theorem emptyOps_row {n : Nat} {o : LOp ℚ} (h : o ∈ allOps n emptyOps) : o = .row [1, 2] := by
  simp only [allOps, List.mem_flatMap, List.mem_range, emptyOps] at h
  obtain ⟨q, _, h⟩ := h
  split_ifs at h
  · simpa using h
  · simp at h

/-- **C24 fails for ranks with an empty list of operators** -/
theorem C24_violated_empty : Ends 2 (vsProg 2 (fun _ _ => 0) emptyOps (some .real) true (VSpace.vec ⟨.lin 1 (fun r => if r = 0 then 1 else 0), .real⟩ 2 [1]))
    (fun r => if emptyOps r = [] then some (.error .value) else none) :=
  C24_rmatvec_empty (N := 2) (lin_wf (by decide) (by simp)) (by decide) rfl rfl (by
      intro r hr
      match r, hr with
      | 0, _ => decide) (by decide) (fun o ho => by rw [emptyOps_row ho]; exact ⟨LOp.row_ok _ _ _ _, rfl⟩) (q := 1) (by decide) rfl ⟨rfl, fits_rat _ _⟩

/-- **C25 fails for ranks with an empty list of operators** -/
theorem C25_violated_empty : Ends 2 (hsProg 2 (fun _ _ => 0) emptyOps (some .real) false (VSpace.vec ⟨.lin 2 (fun r => if r = 0 then 2 else 0), .real⟩ 2 [1, 1]))
    (fun r => if emptyOps r = [] then some (.error .value) else none) :=
  C25_matvec_empty (M := 1) (lin_wf (by decide) (by simp)) (by decide) rfl rfl (by
      intro r hr
      match r, hr with
      | 0, _ => decide) (by decide) (fun o ho => by rw [emptyOps_row ho]; exact ⟨LOp.row_ok _ _ _ _, rfl⟩) (q := 1) (by decide) rfl ⟨rfl, fits_rat _ _⟩

example := C24_matvec_empty (n := 2) (J := fun _ _ => 0) (ops := emptyOps) (dx := .real) (dt := .real) (N := 2) (X := .all 2) (d := [1, 10])
    (all_wf rfl) rfl rfl (by decide) (fun o ho => by rw [emptyOps_row ho]; exact ⟨LOp.row_ok _ _ _ _, rfl⟩) ⟨rfl, fits_rat _ _⟩

example := C25_rmatvec_empty (n := 2) (J := fun _ _ => 0) (ops := emptyOps) (dx := .real) (dt := .real) (M := 1) (X := .all 1) (d := [10])
    (all_wf rfl) rfl rfl (by decide) (fun o ho => by rw [emptyOps_row ho]; exact ⟨LOp.row_ok _ _ _ _, rfl⟩) ⟨rfl, fits_rat _ _⟩

example := C23_empty (n := 2) (J := fun _ _ => 0) (ops := emptyOps) (b := false) (mask := none) (dx := .real) (dt := .real) (X := .lin 2 (fun r => if r = 0 then 2 else 0)) (d := [1, 1])
    (lin_wf (by decide) (by simp)) (by decide) rfl rfl (by
      intro r hr
      match r, hr with
      | 0, _ => decide) (fun o ho => by rw [emptyOps_row ho]; exact LOp.row_ok _ _ _ _) (by simp) ⟨rfl, fits_rat _ _⟩

end Verif

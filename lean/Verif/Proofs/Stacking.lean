/- Execution lemmas for the stacking operators. -/
import Verif.Proofs.Operators

namespace Verif
open NDArray Relation

set_option linter.unusedSectionVars false

variable {K : Type} [Field K] [StarRing K] [CharZero K] {n : Nat} {J : Nat → Nat → K} {b : Bool} {dx dt : DType}
  {ops : Nat → List (LOp K)} {X : Layout} {mask : Option (List Nat)}

/-- layout of the input of a block-diagonal operator (`true`: of its adjoint) -/
abbrev inL (b : Bool) (n : Nat) (ops : Nat → List (LOp K)) (mask : Option (List Nat) := none) : Layout :=
  .lin (inSum b (allOps n ops)) (fun r => inSum b (ops r)) mask

theorem lin_wf {N : Nat} {s : Nat → Nat} (h : psum s n = N) (hm : ∀ m, mask = some m → n ≤ m.length) : (Layout.lin N s mask).WF n :=
  ⟨by simp [Layout.lin], fun _ => by simpa [Layout.lin, len] using h, hm⟩

omit [Field K] [StarRing K] [CharZero K] in
theorem inL_wf (hm : ∀ m, mask = some m → n ≤ m.length) : (inL b n ops mask).WF n := lin_wf (inSum_allOps b n ops).symm hm

theorem lshape_lin (N : Nat) (s : Nat → Nat) (r : Nat) : (Layout.lin N s mask).lshape r = [s r] := by
  simp [Layout.lin, Layout.lshape, Partition.isBroadcast]

omit [Field K] [StarRing K] [CharZero K] in
theorem piece_lin {N : Nat} {s : Nat → Nat} (h : psum s n = N) {d : List K} (hd : d.length = N) (r : Nat) :
    (Layout.lin N s mask).piece d r = (d.drop (psum s r)).take (s r) := by
  have h1 := piece_axis0 (L := Layout.lin N s none) (n := n) (lin_wf h (by simp)) rfl rfl (d := d) (by simpa [Layout.lin] using hd) r
  have i1 : inner (Layout.lin N s none).gshape 0 = 1 := by simp [inner, Layout.lin]
  rw [i1, Nat.mul_one, Nat.mul_one] at h1
  exact h1

omit [Field K] [StarRing K] [CharZero K] in
theorem lshape_inL (b : Bool) (n : Nat) (ops : Nat → List (LOp K)) (mask : Option (List Nat)) (r : Nat) :
    (inL b n ops mask).lshape r = [inSum b (ops r)] := lshape_lin _ _ r

/-- the local part of `MPIBlockDiag._matvec` -/
def bdBody (ops : List (LOp K)) (mask : Option (List Nat)) (dt : DType) (b : Bool) (lout : List (List Nat)) (M : Nat) (c : Ctx K) (x : DArr K) : P K (DArr K) := do
    let y ← mkDArr c [M] .scatter 0 (some lout) mask dt
    let y1 ← Prog.lift (applyAt b x.larr 0 ops)
    let v ← Prog.lift (concat 0 y1)
    y.setAll c v

theorem mem_blockDiag (hok : ∀ o ∈ allOps n ops, o.Ok b dx dt) {d : List K} (hl : d.length = inSum b (allOps n ops)) (hf : FitsL dx d) :
    VSpace.Mem ⟨inL (!b) n ops mask, dt⟩ (blockDiag b (allOps n ops) d) :=
  ⟨by rw [length_blockDiag hok (by omega)]; simp [Layout.lin, outSum], fits_blockDiag hok (by omega) hf⟩

theorem runs_bdBody (hok : ∀ o ∈ allOps n ops, o.Ok b dx dt) (hne : ∀ r < n, ops r ≠ []) (hm : ∀ m, mask = some m → n ≤ m.length)
    {d : List K} (hd : VSpace.Mem ⟨inL b n ops, dx⟩ d) :
    Runs n (fun r => bdBody (ops r) mask dt b ((List.range n).map fun q => [outSum b (ops q)]) (outSum b (allOps n ops)) (env n J r)
        (VSpace.vec ⟨inL b n ops, dx⟩ n d r))
      (fun r => .ok (VSpace.vec ⟨inL (!b) n ops mask, dt⟩ n (blockDiag b (allOps n ops) d) r)) := by
  have hlen : d.length = inSum b (allOps n ops) := by simpa [Layout.lin] using hd.1
  have hY : (inL (!b) n ops mask).WF n := inL_wf hm
  unfold bdBody
  simp only [Prog.bind_eq]
  have e : (List.range n).map (fun q => [outSum b (ops q)]) = (List.range n).map (inL (!b) n ops mask).lshape :=
    List.map_congr_left fun q _ => (lshape_inL _ _ _ _ q).symm
  rw [e]
  refine Runs.bind_ok (runs_mkDArr (J := J) (dt := dt) hY) ?_
  have hlarr : ∀ r, r < n → ∃ t, ((Prog.lift (applyAt b (VSpace.vec ⟨inL b n ops, dx⟩ n d r).larr 0 (ops r)) : P K _).bind fun y1 =>
      (Prog.lift (concat 0 y1) : P K _)) = .ret ⟨[outSum b (ops r)], t, blockDiag b (ops r) ((inL b n ops).piece d r)⟩ := by
    intro r hr
    have hp : ((inL b n ops).piece d r).length = inSum b (ops r) := by
      have := length_piece (L := inL b n ops) (inL_wf (by simp)) (d := d) hd.1 hr
      rw [this, lshape_lin]; simp
    have h1 : applyAt b (VSpace.vec ⟨inL b n ops, dx⟩ n d r).larr 0 (ops r) = .ok (outs b dx (ops r) ((inL b n ops).piece d r)) :=
      applyAt_ok b (m := inSum b (ops r)) (by exact lshape_lin _ _ r) hp (ops r) 0 (by omega)
    have hok' : ∀ o ∈ ops r, o.Ok b dx dt := fun o ho => hok o (mem_allOps hr ho)
    obtain ⟨t, h2⟩ := concat1 (outs b dx (ops r) ((inL b n ops).piece d r)) (by
      intro h
      have := congrArg List.length (congrArg (List.map (·.shape)) h)
      rw [outs_shape] at this
      simp at this
      exact hne r hr this) ((ops r).map (·.outDim b)) (by rw [outs_shape, List.map_map]; rfl) (by
        have h3 := slices_ok hok' (x := (inL b n ops).piece d r) (by omega)
        rw [← outs_data b dx, List.map_map] at h3
        exact h3)
    rw [outs_data] at h2
    refine ⟨t, ?_⟩
    rw [h1]
    simp only [Prog.lift_ok, Prog.ret_bind]
    rw [h2]
    rfl
  choose t ht using hlarr
  have hpart : ∀ r < n, (inL (!b) n ops mask).piece (blockDiag b (allOps n ops) d) r = blockDiag b (ops r) ((inL b n ops).piece d r) := by
    intro r hr
    rw [piece_lin (inSum_allOps (!b) n ops).symm (by rw [length_blockDiag hok (by omega)]; rfl) r, piece_lin (inSum_allOps b n ops).symm hlen r]
    exact blockDiag_part hok hlen hr
  have key := runs_new_vec (J := J) (S := ⟨inL (!b) n ops mask, dt⟩) hY (mem_blockDiag (mask := mask) hok hlen hd.2)
    (v := fun r => if h : r < n then ⟨[outSum b (ops r)], t r h, blockDiag b (ops r) ((inL b n ops).piece d r)⟩ else ⟨[], dt, []⟩)
    (fun r hr => by rw [dif_pos hr]; exact (lshape_inL _ _ _ _ r).symm) (fun r hr => by rw [dif_pos hr]; exact (hpart r hr).symm)
    (junkData J (inL (!b) n ops mask) dt) (fun r _ => length_junk r)
  refine key.congr (fun r hr => ?_) fun _ _ => rfl
  rw [dif_pos hr, ← Prog.bind_assoc, ht r hr]
  rfl

omit [Field K] [StarRing K] [CharZero K] in
/-- the entry of the operators: `X` is a scattered vector with the right number of entries -/
theorem conform_in (hX : X.WF n) (hg : X.gshape = [inSum b (allOps n ops)]) (hp : X.part = .scatter) (hax : X.axis = 0) :
    Conform n X (inL b n ops) :=
  ⟨hX, inL_wf (by simp), by simp [Layout.lin, hg], hp, hax, rfl, rfl, rfl⟩

theorem runs_blockDiagMv (hX : Conform n X (inL b n ops)) (hN : Near n X (inL b n ops))
    (hok : ∀ o ∈ allOps n ops, o.Ok b dx dt) (hne : ∀ r < n, ops r ≠ []) (hm : ∀ m, mask = some m → n ≤ m.length)
    {d : List K} (hd : VSpace.Mem ⟨X, dx⟩ d) :
    Runs n (fun r => blockDiagMv (ops r) mask dt b ((List.range n).map fun q => [inSum b (ops q)]) ((List.range n).map fun q => [outSum b (ops q)])
        (outSum b (allOps n ops)) (env n J r) (VSpace.vec ⟨X, dx⟩ n d r))
      (fun r => .ok (VSpace.vec ⟨inL (!b) n ops mask, dt⟩ n (blockDiag b (allOps n ops) d) r)) := by
  unfold blockDiagMv reshaped
  simp only [Prog.bind_eq]
  have hg : ∀ r, (VSpace.vec ⟨X, dx⟩ n d r : DArr K).gshape = (inL b n ops).gshape := fun r => by
    have : (VSpace.vec ⟨X, dx⟩ n d r : DArr K).gshape = X.gshape := rfl
    rw [this, hX.X1]; simp [Layout.lin]
  have e : (List.range n).map (fun q => [inSum b (ops q)]) = (List.range n).map (inL b n ops).lshape :=
    List.map_congr_left fun q _ => (lshape_inL _ _ _ _ q).symm
  simp only [hg, e]
  have hd' : VSpace.Mem ⟨inL b n ops, dx⟩ d := ⟨by rw [hd.1]; simp [hX.X1], hd.2⟩
  refine Runs.bind_ok (runs_redistribute (J := J) hX (makes_some hX.wfT rfl rfl rfl) hN hd) ?_
  refine Runs.bind_ok (runs_bdBody (J := J) hok hne hm hd') ?_
  refine (Runs.ret _).congr (fun r hr => ?_) fun _ _ => rfl
  rw [if_neg]
  simp [VSpace.vec, Layout.fam, Layout.lin]

/-! ### vertical stack -/

theorem vcat_part (b : Bool) {n : Nat} {ops : Nat → List (LOp K)} {N : Nat} (hl : ∀ o ∈ allOps n ops, o.Ok b dx dt ∧ o.inDim b = N) {d : List K}
    (hd : d.length = N) {r : Nat} (hr : r < n) :
    ((vcat b (allOps n ops) d).drop (psum (fun r => outSum b (ops r)) r)).take (outSum b (ops r)) = vcat b (ops r) d := by
  have hlen : ∀ l : List (LOp K), (∀ o ∈ l, o.Ok b dx dt ∧ o.inDim b = N) → (vcat b l d).length = outSum b l := by
    intro l h
    induction l with
    | nil => rfl
    | cons o os ih =>
      have h1 := h o (by simp)
      rw [outSum_cons, ← ih fun o ho => h o (by simp [ho])]
      simp [vcat, h1.1.length d (by rw [hd, h1.2])]
  obtain ⟨rest, h, hrest⟩ := allOps_split n ops hr
  have e1 : psum (fun r => outSum b (ops r)) r = (vcat b (allOps r ops) d).length := by
    rw [hlen _ fun o ho => hl o (by rw [h]; simp [ho])]; exact (inSum_allOps _ _ _).symm
  have e2 : vcat b (allOps n ops) d = vcat b (allOps r ops) d ++ (vcat b (ops r) d ++ vcat b rest d) := by
    unfold vcat; rw [h]; simp
  rw [e1, e2, List.drop_left, List.take_left' (hlen _ fun o ho => hl o (mem_allOps hr ho))]

theorem length_vcat (b : Bool) {l : List (LOp K)} {N : Nat} (hl : ∀ o ∈ l, o.Ok b dx dt ∧ o.inDim b = N) {d : List K} (hd : d.length = N) :
    (vcat b l d).length = outSum b l := by
  induction l with
  | nil => rfl
  | cons o os ih =>
    have h1 := hl o (by simp)
    rw [outSum_cons, ← ih fun o ho => hl o (by simp [ho])]
    simp [vcat, h1.1.length d (by rw [hd, h1.2])]

theorem mem_vcat {N : Nat} (hl : ∀ o ∈ allOps n ops, o.Ok b dx dt ∧ o.inDim b = N) {d : List K} (hd : d.length = N) (hf : FitsL dx d) :
    VSpace.Mem ⟨inL (!b) n ops mask, dt⟩ (vcat b (allOps n ops) d) := by
  refine ⟨by rw [length_vcat b hl hd]; simp [Layout.lin, outSum], fun ht y hy => ?_⟩
  obtain ⟨o, ho, hy⟩ := List.mem_flatMap.1 hy
  exact (hl o ho).1.fits d (by rw [hd, (hl o ho).2]) hf ht y hy

omit [Field K] [StarRing K] [CharZero K] in
theorem mapM_apply {x : NDArray K} {N : Nat} (hs : x.shape = [N]) (l : List (LOp K)) (hl : ∀ o ∈ l, o.inDim b = N) :
    l.mapM (fun o => o.apply b x) = .ok (l.map fun o => (⟨[o.outDim b], o.dtype.promote x.dtype, o.fn b x.data⟩ : NDArray K)) := by
  induction l with
  | nil => rfl
  | cons o os ih =>
    have h1 : o.apply b x = .ok ⟨[o.outDim b], o.dtype.promote x.dtype, o.fn b x.data⟩ := by
      unfold LOp.apply; rw [if_neg (by rw [hs, hl o (by simp)]; simp)]
    rw [List.mapM_cons, h1, ih fun o ho => hl o (by simp [ho])]
    rfl

theorem runs_vstackMv {N : Nat} (hX : X.WF n) (hg : X.gshape = [N]) (hp : X.part.isBroadcast = true)
    (hok : ∀ o ∈ allOps n ops, o.Ok false dx dt ∧ o.inDim false = N) (hne : ∀ r < n, ops r ≠ []) {d : List K} (hd : VSpace.Mem ⟨X, dx⟩ d) :
    Runs n (fun r => vstackMv (ops r) dt ((List.range n).map fun q => [outSum false (ops q)]) (outSum false (allOps n ops)) (env n J r) (VSpace.vec ⟨X, dx⟩ n d r))
      (fun r => .ok (VSpace.vec ⟨inL true n ops, dt⟩ n (vcat false (allOps n ops) d) r)) := by
  have hlen : d.length = N := by rw [hd.1]; simp [hg]
  have hY : (inL true n ops).WF n := inL_wf (by simp)
  unfold vstackMv
  have hnp : ∀ r, ¬ ¬ (VSpace.vec ⟨X, dx⟩ n d r : DArr K).part.isBroadcast = true := fun r h => h hp
  simp only [if_neg (hnp _)]
  simp only [Prog.bind_eq]
  have e : (List.range n).map (fun q => [outSum false (ops q)]) = (List.range n).map (inL true n ops).lshape :=
    List.map_congr_left fun q _ => (lshape_inL _ _ _ _ q).symm
  rw [e]
  refine Runs.bind_ok (runs_mkDArr (J := J) (dt := dt) hY) ?_
  have hlarr : ∀ r, r < n → ∃ t, ((Prog.lift ((ops r).mapM fun o => o.apply false (VSpace.vec ⟨X, dx⟩ n d r).larr) : P K _).bind fun y1 =>
      (Prog.lift (concat 0 y1) : P K _)) = .ret ⟨[outSum false (ops r)], t, vcat false (ops r) d⟩ := by
    intro r hr
    have hl : (VSpace.vec ⟨X, dx⟩ n d r).larr = ⟨[N], dx, d⟩ := by
      simp [VSpace.vec, Layout.fam, lshape_bcast hp, hg, Layout.piece, hp]
    rw [hl, mapM_apply (N := N) rfl _ fun o ho => (hok o (mem_allOps hr ho)).2]
    simp only [Prog.lift_ok, Prog.ret_bind]
    obtain ⟨t, h2⟩ := concat1 ((ops r).map fun o => (⟨[o.outDim false], o.dtype.promote dx, o.fn false d⟩ : NDArray K)) (by simpa using hne r hr)
      ((ops r).map (·.outDim false)) (by simp [List.map_map]) (by
        rw [List.map_map]
        exact List.map_congr_left fun o ho => by
          have h1 := hok o (mem_allOps hr ho)
          exact h1.1.length d (by rw [hlen, h1.2]))
    refine ⟨t, ?_⟩
    rw [h2, List.map_map]
    rfl
  choose t ht using hlarr
  have hpart : ∀ r < n, (inL true n ops).piece (vcat false (allOps n ops) d) r = vcat false (ops r) d := by
    intro r hr
    rw [piece_lin (inSum_allOps true n ops).symm (by rw [length_vcat false hok hlen]; rfl) r]
    exact vcat_part false hok hlen hr
  have key := runs_new_vec (J := J) (S := ⟨inL true n ops, dt⟩) hY (mem_vcat (b := false) (mask := none) hok hlen hd.2)
    (v := fun r => if h : r < n then ⟨[outSum false (ops r)], t r h, vcat false (ops r) d⟩ else ⟨[], dt, []⟩)
    (fun r hr => by rw [dif_pos hr]; exact (lshape_inL _ _ _ _ r).symm) (fun r hr => by rw [dif_pos hr]; exact (hpart r hr).symm)
    (junkData J (inL true n ops) dt) (fun r _ => length_junk r)
  refine key.congr (fun r hr => ?_) fun _ _ => rfl
  rw [dif_pos hr, ← Prog.bind_assoc, ht r hr]
  rfl

/-! ### sum over the ranks -/

theorem slices_len_N {N : Nat} {l : List (LOp K)} (hl : ∀ o ∈ l, o.Ok b dx dt ∧ o.outDim b = N) {x : List K} (hx : inSum b l ≤ x.length) :
    ∀ y ∈ slices b l x, y.length = N := by
  intro y hy
  have h := slices_ok (fun o ho => (hl o ho).1) hx
  have : y.length ∈ (slices b l x).map List.length := List.mem_map.2 ⟨y, hy, rfl⟩
  rw [h] at this
  obtain ⟨o, ho, e⟩ := List.mem_map.1 this
  rw [← e, (hl o ho).2]

theorem hsum_ranks {N : Nat} {d : List K} :
    ∀ m, (∀ o ∈ allOps m ops, o.Ok b dx dt ∧ o.outDim b = N) → inSum b (allOps m ops) ≤ d.length →
    hsum b N (allOps m ops) d = vsum N ((List.range m).map fun r => hsum b N (ops r) ((d.drop (psum (fun r => inSum b (ops r)) r)).take (inSum b (ops r)))) := by
  intro m
  induction m with
  | zero => intro _ _; rfl
  | succ m ih =>
    intro hl hx
    have e : allOps (m + 1) ops = allOps m ops ++ ops m := by simp [allOps, List.range_succ]
    rw [e] at hl hx ⊢
    rw [inSum_append] at hx
    have hl2 : ∀ o ∈ ops m, o.Ok b dx dt ∧ o.outDim b = N := fun o ho => hl o (by simp [ho])
    have h2 : ∀ y ∈ slices b (ops m) (d.drop (inSum b (allOps m ops))), y.length = N := slices_len_N hl2 (by simp; omega)
    rw [List.range_succ, List.map_append, vsum_append, ← ih (fun o ho => hl o (by simp [ho])) (by omega)]
    · unfold hsum
      rw [slices_append, vsum_append h2, inSum_allOps]
      simp only [List.map_cons, List.map_nil, vsum_cons]
      rw [slices_take _ _ _ (le_refl _)]
      congr 1
      rw [inSum_allOps] at h2
      exact (vadd_zero (length_vsum h2)).symm
    · intro x hx'
      simp only [List.map_cons, List.map_nil, List.mem_singleton] at hx'
      subst hx'
      unfold hsum
      rw [slices_take _ _ _ (le_refl _), ← inSum_allOps]
      exact length_vsum h2

/-- layout of a vector held by all ranks -/
theorem all_wf {N : Nat} {p : Partition} (hp : p.isBroadcast = true) : (Layout.all N p).WF n :=
  ⟨by simp [Layout.all], fun h => by
    have h' : p = .scatter := h
    rw [h'] at hp
    exact absurd hp (by decide), fun m hm => by simp [Layout.all] at hm⟩

theorem mem_hsum {N : Nat} (hl : ∀ o ∈ allOps n ops, o.Ok b dx dt ∧ o.outDim b = N) {d : List K} (hd : d.length = inSum b (allOps n ops))
    (hf : FitsL dx d) {p : Partition} : VSpace.Mem ⟨.all N p, dt⟩ (hsum b N (allOps n ops) d) :=
  ⟨by rw [hsum, length_vsum (slices_len_N hl (by omega))]; simp [Layout.all],
   fits_vsum (slices_fits (fun o ho => (hl o ho).1) (by omega) hf)⟩

/-- the local part of `MPIVStack._rmatvec` -/
def vsBody (ops : List (LOp K)) (dt : DType) (N : Nat) (c : Ctx K) (x : DArr K) : P K (DArr K) := do
    let y ← mkDArr c [N] .broadcast 0 none none dt
    let y1 ← Prog.lift (applyAt true x.larr 0 ops)
    let s ← Prog.lift (sumRows y1)
    let t ← allreduce c.world (NDArray.zip (· + ·)) s
    y.setAll c t

theorem runs_vsBody {N : Nat} (hok : ∀ o ∈ allOps n ops, o.Ok true dx dt ∧ o.outDim true = N) (hne : ∀ r < n, ops r ≠ [])
    {d : List K} (hd : VSpace.Mem ⟨inL true n ops, dx⟩ d) :
    Runs n (fun r => vsBody (ops r) dt N (env n J r) (VSpace.vec ⟨inL true n ops, dx⟩ n d r))
      (fun r => .ok (VSpace.vec ⟨.all N, dt⟩ n (hsum true N (allOps n ops) d) r)) := by
  have hlen : d.length = inSum true (allOps n ops) := by simpa [Layout.lin] using hd.1
  have hY : (Layout.all N).WF n := all_wf rfl
  unfold vsBody
  simp only [Prog.bind_eq]
  have h0 := runs_mkDArr_none (J := J) (dt := dt) (L := Layout.all N) hY (fun h => by simp [Layout.all] at h)
  refine Runs.bind_ok h0 ?_
  have hpl : ∀ r < n, ((inL true n ops).piece d r).length = inSum true (ops r) := by
    intro r hr
    have := length_piece (L := inL true n ops) (inL_wf (by simp)) (d := d) hd.1 hr
    rw [this, lshape_lin]; simp
  have hlarr : ∀ r, r < n → ∃ t, ((Prog.lift (applyAt true (VSpace.vec ⟨inL true n ops, dx⟩ n d r).larr 0 (ops r)) : P K _).bind fun y1 =>
      (Prog.lift (sumRows y1) : P K _)) = .ret ⟨[N], t, hsum true N (ops r) ((inL true n ops).piece d r)⟩ := by
    intro r hr
    have h1 : applyAt true (VSpace.vec ⟨inL true n ops, dx⟩ n d r).larr 0 (ops r) = .ok (outs true dx (ops r) ((inL true n ops).piece d r)) :=
      applyAt_ok true (m := inSum true (ops r)) (by exact lshape_lin _ _ r) (hpl r hr) (ops r) 0 (by omega)
    have hok' : ∀ o ∈ ops r, o.Ok true dx dt ∧ o.outDim true = N := fun o ho => hok o (mem_allOps hr ho)
    obtain ⟨t, h2⟩ := sumRows_ok (N := N) (l := outs true dx (ops r) ((inL true n ops).piece d r)) (by
      intro h
      have := congrArg List.length (congrArg (List.map (·.shape)) h)
      rw [outs_shape] at this
      simp at this
      exact hne r hr this) (fun x hx => by
        have : x.shape ∈ (outs true dx (ops r) ((inL true n ops).piece d r)).map (·.shape) := List.mem_map.2 ⟨x, hx, rfl⟩
        rw [outs_shape] at this
        obtain ⟨o, ho, e⟩ := List.mem_map.1 this
        rw [← e, (hok' o ho).2]) (fun x hx => by
        refine slices_len_N hok' (x := (inL true n ops).piece d r) (by rw [hpl r hr]) x.data ?_
        rw [← outs_data true dx]
        exact List.mem_map.2 ⟨x, hx, rfl⟩)
    rw [outs_data] at h2
    refine ⟨t, ?_⟩
    rw [h1]
    simp only [Prog.lift_ok, Prog.ret_bind]
    rw [h2]
    rfl
  choose t ht using hlarr
  have hpc : ∀ r, (inL true n ops).piece d r = (d.drop (psum (fun r => inSum true (ops r)) r)).take (inSum true (ops r)) :=
    fun r => piece_lin (inSum_allOps true n ops).symm hlen r
  refine Runs.congr (ps := fun r => (allreduce (env n J r).world (NDArray.zip (· + ·))
      (if h : r < n then ⟨[N], t r h, hsum true N (ops r) ((inL true n ops).piece d r)⟩ else ⟨[N], dt, []⟩)).bind fun w =>
      ((Layout.all N).fam n dt (junkData J (Layout.all N) dt) r).setAll (env n J r) w) ?_ (fun r hr => ?_) fun _ _ => rfl
  · refine runs_allreduce_vec (J := J) (N := N) (v := fun r => if h : r < n then ⟨[N], t r h, hsum true N (ops r) ((inL true n ops).piece d r)⟩ else ⟨[N], dt, []⟩)
      (fun r hr => by rw [dif_pos hr]) (fun r hr => ?_) fun tt => ?_
    · rw [dif_pos hr]
      exact length_vsum (slices_len_N (fun o ho => hok o (mem_allOps hr ho)) (by rw [hpl r hr]))
    · refine runs_new_vec (J := J) (S := ⟨.all N, dt⟩) hY (mem_hsum hok hlen hd.2) (fun r _ => ?_) (fun r hr => ?_) _ (fun r _ => length_junk r)
      · rw [lshape_bcast rfl]; rfl
      · have hb : (Layout.all N).piece (hsum true N (allOps n ops) d) r = hsum true N (allOps n ops) d := rfl
        rw [hb, hsum_ranks n hok (by omega)]
        dsimp only
        congr 1
        refine List.map_congr_left fun q hq => ?_
        rw [dif_pos (List.mem_range.1 hq), hpc]
  · rw [dif_pos hr, ← Prog.bind_assoc (Prog.lift _), ht r hr]
    rfl

theorem runs_vstackRmv {N : Nat} (hX : Conform n X (inL true n ops)) (hN : Near n X (inL true n ops))
    (hok : ∀ o ∈ allOps n ops, o.Ok true dx dt ∧ o.outDim true = N) (hne : ∀ r < n, ops r ≠ []) {d : List K} (hd : VSpace.Mem ⟨X, dx⟩ d) :
    Runs n (fun r => vstackRmv (ops r) dt ((List.range n).map fun q => [inSum true (ops q)]) N (env n J r) (VSpace.vec ⟨X, dx⟩ n d r))
      (fun r => .ok (VSpace.vec ⟨.all N, dt⟩ n (hsum true N (allOps n ops) d) r)) := by
  unfold vstackRmv reshaped
  simp only [Prog.bind_eq]
  have hg : ∀ r, (VSpace.vec ⟨X, dx⟩ n d r : DArr K).gshape = (inL true n ops).gshape := fun r => by
    have : (VSpace.vec ⟨X, dx⟩ n d r : DArr K).gshape = X.gshape := rfl
    rw [this, hX.X1]; simp [Layout.lin]
  have e : (List.range n).map (fun q => [inSum true (ops q)]) = (List.range n).map (inL true n ops).lshape :=
    List.map_congr_left fun q _ => (lshape_inL _ _ _ _ q).symm
  simp only [hg, e]
  have hd' : VSpace.Mem ⟨inL true n ops, dx⟩ d := ⟨by rw [hd.1]; simp [hX.X1], hd.2⟩
  refine Runs.bind_ok (runs_redistribute (J := J) hX (makes_some hX.wfT rfl rfl rfl) hN hd) ?_
  refine Runs.bind_ok (runs_vsBody (J := J) hok hne hd') ?_
  refine (Runs.ret _).congr (fun r hr => ?_) fun _ _ => rfl
  rw [if_neg]
  simp [VSpace.vec, Layout.fam, Layout.all]

/-! ### constructors -/

/-- the object built by `MPIBlockDiag(ops)` on rank `r` -/
def bdPrim (n : Nat) (ops : Nat → List (LOp K)) (mask : Option (List Nat)) (dt : DType) (r : Nat) : Prim K :=
  { rows := outSum false (allOps n ops), cols := inSum false (allOps n ops), dtype := dt,
    mv := blockDiagMv (ops r) mask dt false ((List.range n).map fun q => [inSum false (ops q)]) ((List.range n).map fun q => [outSum false (ops q)]) (outSum false (allOps n ops)),
    rmv := blockDiagMv (ops r) mask dt true ((List.range n).map fun q => [inSum true (ops q)]) ((List.range n).map fun q => [outSum true (ops q)]) (outSum true (allOps n ops)) }

theorem runs_mkBlockDiag {dtype : Option DType} (hdt : ∀ r < n, opsDType (ops r) dtype = .ok dt) :
    Runs n (fun r => mkBlockDiag (env n J r) (ops r) mask dtype) (fun r => .ok (bdPrim n ops mask dt r)) := by
  unfold mkBlockDiag
  simp only [Prog.bind_eq]
  refine runs_allgather (J := J) (v := fun r => [inSum false (ops r)]) ?_
  refine runs_allgather (J := J) (v := fun r => [inSum true (ops r)]) ?_
  refine runs_allreduce_nat (J := J) (v := fun r => inSum true (ops r)) ?_
  refine runs_allreduce_nat (J := J) (v := fun r => inSum false (ops r)) ?_
  refine (Runs.ret _).congr (fun r hr => ?_) fun _ _ => rfl
  rw [hdt r hr, ← inSum_allOps, ← inSum_allOps]
  rfl

/-- the object built by `MPIVStack(ops)` on rank `r` -/
def vsPrim (n : Nat) (ops : Nat → List (LOp K)) (N : Nat) (dt : DType) (r : Nat) : Prim K :=
  { rows := outSum false (allOps n ops), cols := N, dtype := dt,
    mv := vstackMv (ops r) dt ((List.range n).map fun q => [outSum false (ops q)]) (outSum false (allOps n ops)),
    rmv := vstackRmv (ops r) dt ((List.range n).map fun q => [inSum true (ops q)]) N }

omit [Field K] [StarRing K] [CharZero K] in
theorem flatten_map (n : Nat) (ops : Nat → List (LOp K)) (f : LOp K → Nat) : ((List.range n).map fun r => (ops r).map f).flatten = (allOps n ops).map f := by
  unfold allOps
  rw [List.map_flatMap, List.flatMap_def]

theorem runs_mkVStack {N : Nat} {dtype : Option DType} (hdt : ∀ r < n, opsDType (ops r) dtype = .ok dt) (hN : ∀ o ∈ allOps n ops, o.cols = N)
    (hne : allOps n ops ≠ []) :
    Runs n (fun r => mkVStack (env n J r) (ops r) dtype) (fun r => .ok (vsPrim n ops N dt r)) := by
  unfold mkVStack
  simp only [Prog.bind_eq]
  refine runs_allgather (J := J) (v := fun r => [inSum true (ops r)]) ?_
  refine runs_allgather (J := J) (v := fun r => (ops r).map (·.cols)) ?_
  have e : ((List.range n).map fun r => (ops r).map (·.cols)).flatten = List.replicate (allOps n ops).length N := by
    rw [flatten_map, List.eq_replicate_iff]
    exact ⟨by simp, fun x hx => by obtain ⟨o, ho, rfl⟩ := List.mem_map.1 hx; exact hN o ho⟩
  have hlen : (allOps n ops).length = (allOps n ops).length - 1 + 1 := by
    have := List.length_pos_iff.2 hne; omega
  rw [e, hlen, List.replicate_succ]
  dsimp only
  have hany : ¬ ((List.replicate ((allOps n ops).length - 1) N).any fun x => decide (x ≠ N)) = true := by simp
  simp only [if_neg hany]
  refine runs_allreduce_nat (J := J) (v := fun r => inSum true (ops r)) ?_
  refine (Runs.ret _).congr (fun r hr => ?_) fun _ _ => rfl
  rw [hdt r hr, ← inSum_allOps]
  rfl

/-- different column counts: rejected on all ranks -/
theorem runs_mkVStack_reject {dtype : Option DType} {o o' : LOp K} (ho : o ∈ allOps n ops) (ho' : o' ∈ allOps n ops) (h : o.cols ≠ o'.cols) :
    Runs n (fun r => mkVStack (env n J r) (ops r) dtype) (fun _ => .error .value) := by
  unfold mkVStack
  simp only [Prog.bind_eq]
  refine runs_allgather (J := J) (v := fun r => [inSum true (ops r)]) ?_
  refine runs_allgather (J := J) (v := fun r => (ops r).map (·.cols)) ?_
  rw [flatten_map]
  cases hl : allOps n ops with
  | nil => rw [hl] at ho; simp at ho
  | cons a as =>
    simp only [List.map_cons]
    have : ((as.map (·.cols)).any (fun x => decide (x ≠ a.cols))) = true := by
      by_contra hcon
      simp only [List.any_eq_true, not_exists, decide_eq_true_eq, not_and, not_not] at hcon
      have key : ∀ q ∈ allOps n ops, q.cols = a.cols := by
        intro q hq
        rw [hl] at hq
        rcases List.mem_cons.1 hq with rfl | hq
        · rfl
        · exact hcon _ (List.mem_map.2 ⟨q, hq, rfl⟩)
      exact h ((key o ho).trans (key o' ho').symm)
    simp only [if_pos this]
    exact Runs.throw fun _ => Err.value

/-- the local operators transposed -/
def hOps (ops : Nat → List (LOp K)) (r : Nat) : List (LOp K) := (ops r).map (·.H)

theorem allOps_H (n : Nat) (ops : Nat → List (LOp K)) : allOps n (hOps ops) = (allOps n ops).map (·.H) := by
  unfold allOps hOps
  rw [List.map_flatMap]

/-- the object built by `MPIHStack(ops)` on rank `r` -/
def hsPrim (n : Nat) (ops : Nat → List (LOp K)) (M : Nat) (dt : DType) (r : Nat) : Prim K :=
  { rows := M, cols := outSum false (allOps n (hOps ops)), dtype := dt,
    mv := fun c x => MOp.run c false (.adj (.leaf (vsPrim n (hOps ops) M dt r))) x,
    rmv := fun c x => MOp.run c true (.adj (.leaf (vsPrim n (hOps ops) M dt r))) x }

theorem opsDType_H (l : List (LOp K)) (dtype : Option DType) : opsDType (l.map (·.H)) dtype = opsDType l dtype := by
  cases dtype with
  | some t => rfl
  | none =>
    cases l with
    | nil => rfl
    | cons o os =>
      simp only [opsDType, List.map_cons, List.foldl_map]
      rfl

theorem runs_mkHStack {M : Nat} {dtype : Option DType} (hdt : ∀ r < n, opsDType (ops r) dtype = .ok dt) (hM : ∀ o ∈ allOps n ops, o.rows = M)
    (hne : allOps n ops ≠ []) :
    Runs n (fun r => mkHStack (env n J r) (ops r) dtype) (fun r => .ok (hsPrim n ops M dt r)) := by
  unfold mkHStack
  simp only [Prog.bind_eq]
  refine runs_allgather (J := J) (v := fun r => (ops r).map (·.rows)) ?_
  have e : ((List.range n).map fun r => (ops r).map (·.rows)).flatten = List.replicate (allOps n ops).length M := by
    rw [flatten_map, List.eq_replicate_iff]
    exact ⟨by simp, fun x hx => by obtain ⟨o, ho, rfl⟩ := List.mem_map.1 hx; exact hM o ho⟩
  have hlen : (allOps n ops).length = (allOps n ops).length - 1 + 1 := by
    have := List.length_pos_iff.2 hne; omega
  rw [e, hlen, List.replicate_succ]
  dsimp only
  have hany : ¬ ((List.replicate ((allOps n ops).length - 1) M).any fun x => decide (x ≠ M)) = true := by simp
  simp only [if_neg hany]
  refine Runs.bind_ok (runs_mkVStack (J := J) (ops := hOps ops) (N := M) (dt := dt) (dtype := dtype) (fun r hr => by
    rw [← hdt r hr]; exact opsDType_H _ _) (fun o ho => ?_) ?_) ?_
  · rw [allOps_H] at ho
    obtain ⟨q, hq, rfl⟩ := List.mem_map.1 ho
    exact hM q hq
  · rw [allOps_H]; simpa using hne
  · exact Runs.ret _

theorem runs_mkHStack_reject {dtype : Option DType} {o o' : LOp K} (ho : o ∈ allOps n ops) (ho' : o' ∈ allOps n ops) (h : o.rows ≠ o'.rows) :
    Runs n (fun r => mkHStack (env n J r) (ops r) dtype) (fun _ => .error .value) := by
  unfold mkHStack
  simp only [Prog.bind_eq]
  refine runs_allgather (J := J) (v := fun r => (ops r).map (·.rows)) ?_
  rw [flatten_map]
  cases hl : allOps n ops with
  | nil => rw [hl] at ho; simp at ho
  | cons a as =>
    simp only [List.map_cons]
    have : ((as.map (·.rows)).any (fun x => decide (x ≠ a.rows))) = true := by
      by_contra hcon
      simp only [List.any_eq_true, not_exists, decide_eq_true_eq, not_and, not_not] at hcon
      have key : ∀ q ∈ allOps n ops, q.rows = a.rows := by
        intro q hq
        rw [hl] at hq
        rcases List.mem_cons.1 hq with rfl | hq
        · rfl
        · exact hcon _ (List.mem_map.2 ⟨q, hq, rfl⟩)
      exact h ((key o ho).trans (key o' ho').symm)
    simp only [if_pos this]
    exact Runs.throw fun _ => Err.value

end Verif

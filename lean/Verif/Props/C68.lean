/- C68: negative axes count from the end. -/
import Verif.Proofs.NegativeAxis
import Verif.MPI.Bind
import Verif.Props.C05
import Verif.Props.C09
import Verif.Props.C12
import Verif.Proofs.StackedNorm

namespace Verif
open NDArray

set_option linter.unusedSectionVars false

section
variable {K : Type} [Field K] [StarRing K] [CharZero K] {n : Nat} {J : Nat → Nat → K} {L : Layout} {dt : DType} {ax ax' : Int} {a b : Nat → List K}

/-- **C68** (constructor).  Created with `axis=ax`, with valid local shapes or (balanced layout) with the default ones, an array has the layout of an array created with the axis that `ax` designates; its attribute `axis` is `ax`. -/
theorem C68_create (hL : L.WF n) (hax : IsAxis L.gshape.length ax L.axis) :
    ∃ junk : Nat → List K, (∀ r < n, (junk r).length = (L.lshape r).prod) ∧
    Always n (fun r => mkZ (env n J r) L.gshape L.part ax (some ((List.range n).map L.lshape)) L.mask dt) (fun r => .ok (L.zfam n dt ax junk r)) ∧
    ((L.part = .scatter → ∀ r < n, L.sizes r = balanced (L.gshape.getD L.axis 0) n r) →
      Always n (fun r => mkZ (env n J r) L.gshape L.part ax none L.mask dt) (fun r => .ok (L.zfam n dt ax junk r))) := by
  have hk := normAxis_iff.mpr hax
  refine ⟨_, fun r _ => length_junk (J := J) (dt := dt) r, (runs_mkZ hL hk).always, fun hbal => ?_⟩
  let L' : Layout := { L with sizes := fun r => if L.part = .scatter then balanced (L.gshape.getD L.axis 0) n r else L.sizes r }
  have hs : ∀ r < n, L'.sizes r = L.sizes r := fun r hr => by
    show (if _ then _ else _) = _
    split_ifs with hp
    · rw [hbal hp r hr]
    · rfl
  have hls : ∀ r < n, L'.lshape r = L.lshape r := fun r hr => by
    show (if _ then _ else _) = if _ then _ else _
    rw [hs r hr]
  have hp : ∀ m ≤ n, psum L'.sizes m = psum L.sizes m := fun m hm => by
    induction m with
    | zero => rfl
    | succ m ih => rw [psum, psum, ih (by omega), hs m hm]
  have hL' : L'.WF n := ⟨hL.axis_lt, fun h => by rw [hp n le_rfl]; exact hL.sum h, hL.mask⟩
  refine ((runs_mkZ_none (J := J) (L := L') (dt := dt) hL' (fun h => ?_) hk).congr (fun _ _ => rfl) fun r hr => ?_).always
  · funext r
    show (if L.part = .scatter then _ else _) = _
    rw [if_pos h]; rfl
  · unfold Layout.zfam Layout.fam junkData
    rw [hls r hr]; rfl

/-- **C68** (`to_dist`).  Rank `r` obtains its part of the array along the designated axis. -/
theorem C68_to_dist {x : NDArray K} (hL : L.WF n) (hax : IsAxis L.gshape.length ax L.axis) (hsh : x.shape = L.gshape) (hx : x.WF) (hf : FitsL x.dtype x.data) :
    Always n (fun r => zToDist (env n J r) x L.part ax (some ((List.range n).map L.lshape)) L.mask) (fun r => .ok (L.zfam n x.dtype ax (L.piece x.data) r)) :=
  (runs_zToDist hL (normAxis_iff.mpr hax) hsh hx hf).always

/-- **C68** (`to_dist`, default local shapes).  The parts are balanced along the designated axis. -/
theorem C68_to_dist_default {x : NDArray K} {part : Partition} {k : Nat} {mask : Option (List Nat)} (hn : 0 < n) (hm : ∀ m, mask = some m → n ≤ m.length)
    (hax : IsAxis x.shape.length ax k) (hx : x.WF) (hf : FitsL x.dtype x.data) :
    Always n (fun r => zToDist (env n J r) x part ax none mask)
      (fun r => .ok ((Layout.mk x.shape part k (balanced (x.shape.getD k 0) n) mask).zfam n x.dtype ax
        ((Layout.mk x.shape part k (balanced (x.shape.getD k 0) n) mask).piece x.data) r)) :=
  (runs_zToDist_none (L := Layout.mk x.shape part k (balanced (x.shape.getD k 0) n) mask) ⟨hax.1, fun _ => psum_balanced_total _ hn, hm⟩
    (fun _ => rfl) (normAxis_iff.mpr hax) rfl hx hf).always

/-- **C68** (`asarray`).  Gathering gives the global array (a rank that holds a replica returns it). -/
theorem C68_asarray (hL : L.WF n) (hax : IsAxis L.gshape.length ax L.axis) :
    Always n (fun r => (L.zfam n dt ax a r).asarray (env n J r))
      (fun r => .ok ⟨L.gshape, dt, if L.part.isBroadcast then a r else L.globalData n a⟩) :=
  (runs_zasarray hL (normAxis_iff.mpr hax)).always

/-- distributing along a negative axis and gathering gives the array back -/
theorem C68_roundtrip {x : NDArray K} {part : Partition} {k : Nat} {mask : Option (List Nat)} (hm : ∀ m, mask = some m → n ≤ m.length)
    (hax : IsAxis x.shape.length ax k) (hx : x.WF) (hf : FitsL x.dtype x.data) :
    Always n (fun r => do
        let d ← zToDist (env n J r) x part ax none mask
        d.asarray (env n J r))
      (fun _ => .ok x) := by
  rcases Nat.eq_zero_or_pos n with rfl | hn
  · exact Runs.of_zero.always
  have hL : (Layout.mk x.shape part k (balanced (len x.shape k) n) mask).WF n := ⟨hax.1, fun _ => psum_balanced_total _ hn, hm⟩
  refine (Runs.bind_ok (runs_zToDist_none (J := J) hL (fun _ => rfl) (normAxis_iff.mpr hax) rfl hx hf) ?_).always
  refine (runs_zasarray hL (normAxis_iff.mpr hax)).congr (fun _ _ => rfl) fun r _ => ?_
  have hx' : (⟨x.shape, x.dtype, x.data⟩ : NDArray K) = x := rfl
  by_cases hb : part.isBroadcast = true
  · simp only [Layout.piece, hb, if_true]
  · simp only [hb, if_false, global_piece hL hx]
    exact hx' ▸ rfl

/-- the elementwise methods, on arrays with integer axes -/
def ElemOp.zrun (c : Ctx K) (x y : ZArr K) : ElemOp K → P K (ZArr K)
  | .neg => x.neg c
  | .add => x.add c y
  | .sub => x.sub' c y
  | .mul => x.mul c y
  | .smul t s => x.smul c t s
  | .conj => x.conj c
  | .copy => x.copy c
  | .zerosLike => x.zerosLike c

/-- **C68** (elementwise methods).  Also for two operands whose axes designate the same axis in different ways; the result has the axis of the first.  (`zeros_like` drops the mask: C50.) -/
theorem C68_elementwise (hL : L.WF n) (hax : IsAxis L.gshape.length ax L.axis) (hax' : IsAxis L.gshape.length ax' L.axis)
    (ha : L.Good n dt a) (hb : L.Good n dt b) (op : ElemOp K) (hop : op.Ok dt) :
    Always n (fun r => op.zrun (env n J r) (L.zfam n dt ax a r) (L.zfam n dt ax' b r))
      (fun r => .ok ((match op with | .zerosLike => { L with mask := none } | _ => L : Layout).zfam n dt ax
        (fun r => List.zipWith op.spec (a r) (b r)) r)) := by
  have hk := normAxis_iff.mpr hax
  have hk' := normAxis_iff.mpr hax'
  have un : ∀ (f : K → K) (ps : Nat → P K (ZArr K)),
      Runs n ps (fun r => .ok (L.zfam n dt ax (fun r => (a r).map f) r)) →
      Always n ps (fun r => .ok (L.zfam n dt ax (fun r => List.zipWith (fun x _ => f x) (a r) (b r)) r)) := by
    intro f ps h
    refine (h.congr (fun _ _ => rfl) fun r hr => ?_).always
    unfold Layout.zfam
    congr 2; apply fam_congr; rw [zipWith_left f _ _ (by rw [ha.length r hr, hb.length r hr])]
  cases op with
  | neg => exact un (- ·) _ (runs_zneg hL hk ha)
  | add => exact (runs_zadd hL hk ha hb).always
  | sub => exact (runs_zsub hL hk hk' ha hb).always
  | mul => exact (runs_zmul hL hk ha hb).always
  | smul t s => exact un (· * s) _ (runs_zsmul hop hL hk ha)
  | conj => exact un star _ (runs_zconj hL hk ha)
  | copy => exact un (fun x => x) _ (by simpa [ElemOp.zrun] using runs_zcopy (J := J) hL hk ha)
  | zerosLike =>
    refine ((runs_zzeros hL hk).congr (fun _ _ => rfl) fun r hr => ?_).always
    have h0 : List.zipWith (ElemOp.spec (K := K) .zerosLike) (a r) (b r) = List.replicate (L.lshape r).prod 0 := by
      have : List.zipWith (ElemOp.spec (K := K) .zerosLike) (a r) (b r) = (a r).map (fun _ => 0) :=
        zipWith_left (fun _ => 0) _ _ (by rw [ha.length r hr, hb.length r hr])
      rw [this, List.map_const', ha.length r hr]
    unfold Layout.zfam
    congr 2; exact fam_congr h0.symm

/-- **C68** (in-place addition and subtraction). -/
theorem C68_inplace (hL : L.WF n) (hax' : IsAxis L.gshape.length ax' L.axis) (ha : L.Good n dt a) (hb : L.Good n dt b) :
    Always n (fun r => (L.zfam n dt ax a r).iadd (env n J r) (L.zfam n dt ax' b r))
      (fun r => .ok (L.zfam n dt ax (fun r => List.zipWith (· + ·) (a r) (b r)) r)) ∧
    Always n (fun r => (L.zfam n dt ax a r).isub (env n J r) (L.zfam n dt ax' b r))
      (fun r => .ok (L.zfam n dt ax (fun r => List.zipWith (· - ·) (a r) (b r)) r)) :=
  ⟨(runs_ziadd ha hb).always, (runs_zisub hL (normAxis_iff.mpr hax') ha hb).always⟩

/-- **C68** (`dot`).  The axes are not read: the dot product is that of the flattened global arrays. -/
theorem C68_dot (hL : L.WF n) (hm : L.mask = none) (ha : L.Good n dt a) (hb : L.Good n dt b)
    (hga : L.part.isBroadcast = true → ∀ r < n, a r = a 0) (hgb : L.part.isBroadcast = true → ∀ r < n, b r = b 0) :
    Always n (fun r => (L.zfam n dt ax a r).dot (env n J r) (L.zfam n dt ax' b r))
      (fun _ => .ok (List.zipWith (· * ·) (L.global n dt a).data (L.global n dt b).data).sum) :=
  (C07_dot (J := J) hL hm ha hb hga hgb).congr_prog fun r hr => (zdot_eq (c := env n J r) (z := L.zfam n dt ax a r) (w := L.zfam n dt ax' b r) hr).symm

/-- **C68** (`add_ghost_cells`).  Rank `r` obtains the same window along the designated axis as in C12. -/
theorem C68_ghost {front back : Option (Nat → Nat)} (hL : L.WF n) (hax : IsAxis L.gshape.length ax L.axis) (hp : L.part = .scatter)
    (ha : ∀ r < n, (a r).length = (L.lshape r).prod) (he : Enough L n front back) :
    Always n (fun r => (L.zfam n dt ax a r).addGhostCells (env n J r) (front.map (· r)) (back.map (· r)))
      (fun r => .ok ((L.global n dt a).slice L.axis (ghostLo L front r) (ghostHi L n back r))) :=
  (C12_ghost hL hp ha he).congr_prog fun r _ =>
    (zghost_eq (z := L.zfam n dt ax a r) (by rw [show (L.zfam n dt ax a r).arr.larr.shape.length = _ from length_lshape r]; exact normAxis_iff.mpr hax) rfl).symm

/-- **C68** (`ravel`).  The result is that of the array with the designated axis (C16), with axis 0. -/
theorem C68_ravel {o : Nat → Except Err (DArr K)} (h : Always n (fun r => (L.fam n dt a r).ravel (env n J r)) o) :
    Always n (fun r => (L.zfam n dt ax a r).ravel (env n J r)) fun r => match o r with
      | .ok d => .ok ⟨d, 0⟩
      | .error e => .error e := by
  have h1 : Runs n (fun r => ((L.fam n dt a r).ravel (env n J r)).bind fun d => .ret (⟨d, 0⟩ : ZArr K))
      (fun r => match o r with | .ok d => .ok ⟨d, 0⟩ | .error e => .error e) := by
    refine (Runs.bind h.runs ?_)
    refine Runs.congr (Runs.lift fun r => match o r with | .ok d => .ok (⟨d, 0⟩ : ZArr K) | .error e => .error e) (fun r _ => ?_) (fun _ _ => rfl)
    cases o r <;> rfl
  exact h1.always.congr_prog fun r hr => (zravel_eq (c := env n J r) (z := L.zfam n dt ax a r) hr).symm

/-- **C68** (axes before the first).  Scattering along `axis < -ndim` raises IndexError on every rank, for the default local shapes and for any with the right number of dimensions… -/
theorem C68_before_first_scatter {g : List Nat} {lso : Option (List (List Nat))} {mask : Option (List Nat)} (hm : ∀ m, mask = some m → n ≤ m.length)
    (hls : ∀ l, lso = some l → l.length = n ∧ ∀ s ∈ l, s.length = g.length) (hax : ax < -(g.length : Int)) :
    Always n (fun r => mkZ (env n J r) g .scatter ax lso mask dt) (fun _ => .error .index) := by
  have hk : normAxis g.length ax = none := normAxis_none.mpr (.inl hax)
  let L : Layout := ⟨g, .scatter, 0, fun _ => 0, mask⟩
  unfold mkZ
  simp only [if_neg (show ¬ (g.length : Int) ≤ ax by omega), Prog.bind_eq]
  refine (Runs.bind_ok (runs_mkSub (L := L) (J := J) hm) ?_).always
  refine Runs.congr (Runs.throw fun _ => .index) (fun r hr => ?_) (fun _ _ => rfl)
  cases lso with
  | none => simp [zCheckLocalShapes, zLocalSplit, Partition.isBroadcast, hk]
  | some l =>
    obtain ⟨h1, h2⟩ := hls l rfl
    have hne : l ≠ [] := by rintro rfl; simp at h1; omega
    have hm : l.getD r [] ∈ l := by
      rw [List.getD_eq_getElem?_getD, List.getElem?_eq_getElem (by omega)]
      exact List.getElem_mem _
    have e : zCheckLocalShapes (env n J r) g .scatter ax l = .throw .index := by
      unfold zCheckLocalShapes
      have h3 : normAxis (l.getD (env n J r).rank []).length ax = none := by
        show normAxis (l.getD r []).length ax = none
        rw [h2 _ hm, hk]
      have h4 : l.length = (env n J r).size := h1
      simp only [if_neg hne, h4, ne_eq, not_true_eq_false, if_false, Partition.isBroadcast, Bool.false_eq_true, h3]
    simp only [Option.getD_some, e, Prog.throw_bind]

/-- … but arrays that are not scattered accept any negative axis. -/
theorem C68_before_first_broadcast {g : List Nat} {part : Partition} {mask : Option (List Nat)} (hp : part ≠ .scatter) (hg : g ≠ []) (hm : ∀ m, mask = some m → n ≤ m.length)
    (hax : ax < -(g.length : Int)) :
    ∃ d : Nat → ZArr K, (∀ r < n, (d r).ax = ax ∧ (d r).arr.lshape = g ∧ (d r).arr.larr.shape = g ∧ (d r).arr.part = part) ∧
      Always n (fun r => mkZ (env n J r) g part ax none mask dt) (fun r => .ok (d r)) := by
  have hp' : part.isBroadcast = true := by cases part <;> simp_all [Partition.isBroadcast]
  let L : Layout := ⟨g, part, 0, fun _ => 0, mask⟩
  have hL : L.WF n := ⟨by simpa [L, List.length_pos_iff] using hg, fun h => absurd h hp, hm⟩
  refine ⟨L.zfam n dt ax (junkData J L dt), fun r _ => ⟨rfl, lshape_bcast hp' r, lshape_bcast hp' r, rfl⟩, ?_⟩
  refine ((Runs.zret (runs_mkDArr_none hL fun h => absurd h hp)).congr (fun r _ => ?_) fun _ _ => rfl).always
  exact (mkZ_bcast hp' hg hax).symm

end

/-! ### `norm` -/

section
variable {K : Type} [RCLike K] {n : Nat} {J : Nat → Nat → K} {L : Layout} {dt : DType} {ax : Int} {a : Nat → List K} {o : NormOrd}

theorem znorm_fam (hax : IsAxis L.gshape.length ax L.axis) (hp : L.part = .scatter) {axis : Int} {r : Nat} (hr : r < n) :
    (L.zfam n dt ax a r).norm (env n J r) o axis = if axis = -1 then (L.fam n dt a r).norm (env n J r) o none
      else if axis = ax then (L.fam n dt a r).norm (env n J r) o (some L.axis) else .throw .notImplemented :=
  znorm_eq (z := L.zfam n dt ax a r) (by exact hr) hp
    (by rw [show (L.zfam n dt ax a r).arr.larr.shape.length = _ from length_lshape r]; exact normAxis_iff.mpr hax)

/-- **C68** (`norm`), partial.  For an array scattered along a negative axis other than the last, `x.norm(ord, axis=x.axis)` gives the norms along the designated axis (for the orders of C10). Missing: `x.axis == -1`, where the claim is false (`C68_violated_norm`). -/
theorem C68_norm_partial (hL : L.WF n) (hax : IsAxis L.gshape.length ax L.axis) (hm : L.mask = none) (hp : L.part = .scatter) (ha : L.Good n dt a)
    (hok : ∀ q < n, ∀ x ∈ a q, OrdOk o dt x) (hne : o.extremal → ∀ q < n, L.sizes q ≠ 0) (hfro : o ≠ .fro ∧ o ≠ .nuc) (hlast : ax ≠ -1) :
    Always n (fun r => (L.zfam n dt ax a r).norm (env n J r) o ax)
      (fun _ => .ok ⟨L.gshape.eraseIdx L.axis, .real,
        (List.range (L.gshape.take L.axis).prod).flatMap fun i =>
          (List.range (L.gshape.drop (L.axis + 1)).prod).map fun k =>
            vecNorm o ((List.range (L.gshape.getD L.axis 0)).map fun j =>
              (L.global n dt a).data.getD ((i * L.gshape.getD L.axis 0 + j) * (L.gshape.drop (L.axis + 1)).prod + k) 0)⟩) :=
  (C10_value_partial hL hm hp ha hok hne hfro).congr_prog fun r hr => by rw [znorm_fam hax hp hr, if_neg hlast, if_pos rfl]

/-- What `x.norm(ord, axis)` does for the other values of `axis`, whatever the axis of the array: -1 always means all entries, and any other number than `x.axis` raises, also when it designates the same axis. -/
theorem C68_norm_other (hax : IsAxis L.gshape.length ax L.axis) (hp : L.part = .scatter) :
    (∀ ρ, Always n (fun r => (L.fam n dt a r).norm (env n J r) o none) ρ → Always n (fun r => (L.zfam n dt ax a r).norm (env n J r) o (-1)) ρ) ∧
    ∀ axis, axis ≠ -1 → axis ≠ ax → Always n (fun r => (L.zfam n dt ax a r).norm (env n J r) o axis) (fun _ => .error .notImplemented) := by
  refine ⟨fun ρ h => h.congr_prog fun r hr => by rw [znorm_fam hax hp hr, if_pos rfl], fun axis h1 h2 => ?_⟩
  exact (Runs.congr (Runs.throw fun _ => .notImplemented) (fun r hr => by rw [znorm_fam hax hp hr, if_neg h1, if_neg h2]) (fun _ _ => rfl)).always

/-- **C68 is false** for the norms of an array scattered along the last axis of two or more, given as -1: whatever is passed as `axis`, the norms along that axis are not returned — -1 gives the single norm of all entries, and other values raise. -/
theorem C68_violated_norm (hn : 0 < n) (hL : L.WF n) (hax : IsAxis L.gshape.length (-1) L.axis) (hnd : 2 ≤ L.gshape.length) (hm : L.mask = none) (hp : L.part = .scatter) (ha : L.Good n dt a) :
    Always n (fun r => (L.zfam n dt (-1) a r).norm (env n J r) .none (-1))
      (fun _ => .ok ⟨[], .real, [.fin (Real.sqrt ((L.global n dt a).data.map fun x => ‖x‖ ^ 2).sum)]⟩) ∧
    (∀ axis, axis ≠ -1 → Always n (fun r => (L.zfam n dt (-1) a r).norm (env n J r) .none axis) (fun _ => .error .notImplemented)) ∧
    ∀ (axis : Int) (y : NDArray FNum), y.shape = L.gshape.eraseIdx L.axis → ¬ Always n (fun r => (L.zfam n dt (-1) a r).norm (env n J r) .none axis) (fun _ => .ok y) := by
  have hb : ¬ L.part.isBroadcast = true := by rw [hp]; simp [Partition.isBroadcast]
  obtain ⟨h1, h2⟩ := C68_norm_other (n := n) (J := J) (dt := dt) (a := a) (o := .none) hax hp
  have h3 := h1 _ (C09_euclidean hL hm ha fun h => absurd h hb)
  refine ⟨h3, fun axis h => h2 axis h h, fun axis y hy h => ?_⟩
  by_cases hx : axis = -1
  · subst hx
    have := h.unique h3 0 hn
    injection this with this
    have hl := congrArg List.length hy
    rw [this, List.length_eraseIdx_of_lt hL.axis_lt] at hl
    simp at hl
    omega
  · have := h.unique (h2 axis hx hx) 0 hn
    cases this

/-- **C68** (`norm` of replicated arrays).  The axis of the array plays no role, since `norm` scatters it along the first axis: -1 gives the norm of all entries (C09), 0 the norms along the first axis
    (for the orders of C10), and other values raise, also `axis=x.axis`. -/
theorem C68_norm_broadcast (hL : L.WF n) (hp : L.part ≠ .scatter) (ha : L.Good n dt a) (hg : ∀ r < n, a r = a 0) :
    (∀ ρ, Always n (fun r => (L.fam n dt a r).norm (env n J r) o none) ρ → Always n (fun r => (L.zfam n dt ax a r).norm (env n J r) o (-1)) ρ) ∧
    ((∀ x ∈ a 0, OrdOk o dt x) → (o.extremal → n ≤ L.gshape.getD 0 0) → o ≠ .fro ∧ o ≠ .nuc →
      Always n (fun r => (L.zfam n dt ax a r).norm (env n J r) o 0)
        (fun _ => .ok ⟨L.gshape.tail, .real, (List.range L.gshape.tail.prod).map fun k =>
          vecNorm o ((List.range (L.gshape.getD 0 0)).map fun j => (a 0).getD (j * L.gshape.tail.prod + k) 0)⟩)) ∧
    ∀ axis, axis ≠ -1 → axis ≠ 0 → Always n (fun r => (L.zfam n dt ax a r).norm (env n J r) o axis) (fun _ => .error .notImplemented) := by
  have hb : L.part.isBroadcast = true := by cases h : L.part <;> simp_all [Partition.isBroadcast]
  refine ⟨fun ρ h => h.congr_prog fun r hr => ?_, ?_, fun axis h1 h2 => ?_⟩
  · unfold ZArr.norm DArr.norm
    simp only [zToScatter_eq (c := env n J r) (z := L.zfam n dt ax a r) hr, Prog.bind_eq, Prog.bind_assoc, Prog.ret_bind, if_true]
    rfl
  all_goals
    rcases Nat.eq_zero_or_pos n with rfl | hn
  · exact fun _ _ _ => Runs.of_zero.always
  · intro hok hne hfro
    have e1 : L.red n = L.scattered n := by simp [Layout.red, hb]
    have e2 : L.shard n a = (L.scattered n).piece (a 0) := by funext r; simp [Layout.shard, hb]
    have hW := scattered_wf hn hL
    have ha0 : (a 0).length = L.gshape.prod := by rw [ha.length 0 hn, lshape_bcast hb]
    have hS := runs_toScatter (J := J) hn hL ha fun _ => hg
    rw [e1, e2] at hS
    have h1 := C10_value_partial (J := J) (o := o) hW rfl rfl (good_piece hW ha0 (ha.fits 0 hn))
      (fun q hq x hx => hok x (mem_piece hx)) (fun h q hq => by
        have := hne h
        show balanced (L.gshape.getD 0 0) n q ≠ 0
        unfold balanced
        have : 1 ≤ L.gshape.getD 0 0 / n := (Nat.one_le_div_iff hn).mpr this
        split_ifs <;> omega) hfro
    have hnd : 0 < L.gshape.length := Nat.lt_of_le_of_lt (Nat.zero_le _) hL.axis_lt
    unfold ZArr.norm
    simp only [Prog.bind_eq]
    let k : ZArr K → P K (NDArray FNum) := fun x => if (0 : Int) = -1 then computeVectorNorm x.arr.sub x.arr.larr.flatten 0 o else if 0 ≠ x.ax then .throw .notImplemented else
        match normAxis x.arr.larr.shape.length x.ax with
        | none => .throw .index
        | some k => computeVectorNorm x.arr.sub x.arr.larr k o
    have h2 : Runs n (fun r => k ⟨(L.scattered n).fam n dt ((L.scattered n).piece (a 0)) r, 0⟩) _ := h1.runs.congr (fun r hr => ?_) fun _ _ => rfl
    refine ((Runs.bind_ok (Runs.zret (ax := 0) hS) (k := fun r => k) h2).congr (fun r hr => ?_) fun r hr => ?_).always
    · have e : (L.zfam n dt ax a r).arr.part.isBroadcast = true := hb
      rw [zToScatter_eq (c := env n J r) (z := L.zfam n dt ax a r) hr]
      simp only [e, if_true]
      rfl
    · have hd : (L.scattered n).globalData n ((L.scattered n).piece (a 0)) = a 0 := global_piece hW ha0
      have hd' : ((L.scattered n).global n dt ((L.scattered n).piece (a 0))).data = a 0 := hd
      rw [hd']
      obtain ⟨g0, gs, hgs⟩ := List.exists_cons_of_length_pos hnd
      simp [Layout.scattered, hgs]
    · have hs : ((L.scattered n).lshape r).length = L.gshape.length := length_lshape (L := L.scattered n) r
      have hz : normAxis ((L.scattered n).lshape r).length 0 = some 0 := normAxis_zero (by rw [hs]; exact hnd)
      have hk : k ⟨(L.scattered n).fam n dt ((L.scattered n).piece (a 0)) r, 0⟩ = computeVectorNorm ((L.scattered n).fam n dt ((L.scattered n).piece (a 0)) r).sub
          ((L.scattered n).fam n dt ((L.scattered n).piece (a 0)) r).larr 0 o := by
        show (if (0 : Int) = -1 then _ else if (0 : Int) ≠ 0 then _ else match normAxis ((L.scattered n).lshape r).length 0 with | none => _ | some k => _) = _
        rw [hz]; rfl
      rw [hk]; rfl
  · exact Runs.of_zero.always
  · refine (Runs.bind_ok (runs_toScatter (J := J) hn hL ha fun _ => hg) (k := fun r x => (.throw .notImplemented : P K (NDArray FNum))) (Runs.throw fun _ => .notImplemented) |>.congr (fun r hr => ?_) fun _ _ => rfl).always
    unfold ZArr.norm
    simp only [zToScatter_eq (c := env n J r) (z := L.zfam n dt ax a r) hr, Prog.bind_eq, Prog.bind_assoc, Prog.ret_bind, if_neg h1]
    have e : (L.zfam n dt ax a r).arr.part.isBroadcast = true := hb
    simp only [e, if_true, ne_eq, h2, not_false_eq_true]
    rfl

end

/-! ### examples -/

/-- the 2×3 array scattered along its last axis over two ranks, given as -1 -/
example : (Layout.mk [2, 3] .scatter 1 (fun r => if r = 0 then 2 else 1) none).WF 2 ∧ IsAxis [2, 3].length (-1) 1 ∧ IsAxis [2, 3].length 1 1 ∧
    (Layout.mk [2, 3] .scatter 1 (fun r => if r = 0 then 2 else 1) none).Good 2 .real
      (fun r => if r = 0 then [1, -2, 3, 4] else [(5 : ℝ), 6]) := by
  refine ⟨⟨by decide, fun _ => rfl, by simp⟩, ⟨by decide, .inr rfl⟩, ⟨by decide, .inl rfl⟩, ⟨fun r hr => ?_, fun _ _ _ _ _ => rfl, by simp⟩⟩
  match r, hr with
  | 0, _ => rfl
  | 1, _ => rfl

/-- the 2×3 array replicated on two ranks, with axis -1 -/
example : (Layout.mk [2, 3] .broadcast 1 (fun _ => 0) none).WF 2 ∧ (Layout.mk [2, 3] .broadcast 1 (fun _ => 0) none).part ≠ .scatter ∧
    (Layout.mk [2, 3] .broadcast 1 (fun _ => 0) none).Good 2 .real (fun _ => [(1 : ℝ), -2, 3, 4, 5, 6]) ∧
    (NormOrd.inf.extremal → 2 ≤ [2, 3].getD 0 0) ∧ ∀ x ∈ [(1 : ℝ), -2, 3, 4, 5, 6], OrdOk .inf .real x :=
  ⟨⟨by decide, by simp, by simp⟩, by simp, ⟨fun _ _ => rfl, fun _ _ _ _ _ => rfl, fun _ _ _ => rfl⟩, fun _ => by decide, fun _ _ => trivial⟩

/-- its parts hold the columns: gathering along -1 restores the array, along -2 it would not -/
example : Always 2 (fun r => do
      let d ← zToDist (env 2 (fun r i => (r + i : ℚ)) r) ⟨[2, 3], .real, [1, 2, 3, 4, 5, 6]⟩ .scatter (-1) none none
      .ret (d.arr.larr.shape, d.arr.larr.data, d.ax))
    (fun r => .ok (if r = 0 then ([2, 2], [1, 2, 4, 5], -1) else ([2, 1], [3, 6], -1))) := by
  have h := C68_to_dist_default (n := 2) (J := fun r i => (r + i : ℚ)) (ax := -1) (k := 1) (part := .scatter) (mask := none)
    (x := ⟨[2, 3], .real, [1, 2, 3, 4, 5, 6]⟩) (by decide) (by simp) ⟨by decide, .inr rfl⟩ rfl (fun _ _ _ => rfl)
  refine ((Runs.bind_ok h.runs (k := fun _ d => .ret (d.arr.larr.shape, d.arr.larr.data, d.ax)) (Runs.ret _)).congr (fun _ _ => rfl) fun r hr => ?_).always
  match r, hr with
  | 0, _ => decide +kernel
  | 1, _ => decide +kernel

/-- the two designations of the last axis, and a number before the first -/
example : IsAxis 3 (-3) 0 ∧ ¬ (∃ k, IsAxis 3 (-4) k) := by
  refine ⟨⟨by decide, .inr rfl⟩, ?_⟩
  rintro ⟨k, h1, h2⟩
  omega

end Verif

/- The methods of arrays created with a negative axis. -/
import Verif.Spec.NegativeAxis
import Verif.Proofs.Ghost
import Verif.Proofs.History2

namespace Verif
open NDArray

set_option linter.unusedSectionVars false

theorem normAxis_iff {nd : Nat} {a : Int} {k : Nat} : normAxis nd a = some k ↔ IsAxis nd a k := by
  unfold normAxis IsAxis
  split_ifs <;> simp <;> omega

theorem normAxis_none {nd : Nat} {a : Int} : normAxis nd a = none ↔ a < -nd ∨ (nd : Int) ≤ a := by
  unfold normAxis
  split_ifs <;> simp <;> omega

theorem normAxis_zero {nd : Nat} (h : 0 < nd) : normAxis nd 0 = some 0 := normAxis_iff.mpr ⟨h, .inl rfl⟩

section
variable {K : Type} {ax : Int} {k : Nat}

theorem zConcat_pair {m g : NDArray K} (h : normAxis g.shape.length ax = some k) : zConcat ax [m, g] = concat k [m, g] := by
  unfold zConcat
  by_cases hl : m.shape.length = g.shape.length
  · simp only [hl, h]
  · have he : ∀ j, concat j [m, g] = .error .value := fun j => by
      unfold concat
      simp [Ne.symm hl]
    cases hm : normAxis m.shape.length ax with
    | none => simp only [he, hm]
    | some j => simp only [he, hm]

theorem concat_pair_length {m g x : NDArray K} (h : concat k [m, g] = .ok x) : x.shape.length = g.shape.length := by
  unfold concat at h
  dsimp only at h
  split_ifs at h with h1
  cases h
  have := h1.1
  simp at this
  simp [this.1]

variable [Field K] [StarRing K]

theorem zCheck_eq {c : Ctx K} {gshape : List Nat} {part : Partition} {l : List (List Nat)} (hk : normAxis gshape.length ax = some k)
    (hr : c.rank < c.size) (hl : ∀ s ∈ l, s.length = gshape.length) :
    zCheckLocalShapes c gshape part ax l = checkLocalShapes c gshape part k l := by
  unfold zCheckLocalShapes checkLocalShapes
  by_cases h1 : l = []
  · simp [h1]
  by_cases h2 : l.length = c.size
  · have hm : l.getD c.rank [] ∈ l := by
      rw [List.getD_eq_getElem?_getD, List.getElem?_eq_getElem (by omega)]
      exact List.getElem_mem _
    have h3 := hl _ hm
    have hlt : k < (l.getD c.rank []).length := by rw [h3]; exact (normAxis_iff.mp hk).1
    have h4 : (l.getD c.rank [])[k]? = some (len (l.getD c.rank []) k) := by
      generalize l.getD c.rank [] = s at hlt
      unfold len
      rw [List.getD_eq_getElem?_getD, List.getElem?_eq_getElem hlt]; rfl
    simp only [h1, h2, h3, hk, h4, if_false, ne_eq, not_true_eq_false]
  · simp [h1, h2]

theorem zLocalSplit_eq {c : Ctx K} {gshape : List Nat} {part : Partition} (hk : normAxis gshape.length ax = some k) :
    zLocalSplit c gshape part ax = .ok (localSplit c gshape part k) := by
  unfold zLocalSplit localSplit
  simp only [hk]
  split_ifs <;> rfl

theorem mkZ_eq {c : Ctx K} {gshape : List Nat} {part : Partition} {lso : Option (List (List Nat))} {mask : Option (List Nat)} {dt : DType}
    (hk : normAxis gshape.length ax = some k) (hr : c.rank < c.size) (hl : ∀ s ∈ lso.getD [], s.length = gshape.length) :
    mkZ c gshape part ax lso mask dt = (mkDArr c gshape part k lso mask dt).bind fun d => .ret ⟨d, ax⟩ := by
  have h0 : ¬ (gshape.length : Int) ≤ ax := by
    obtain ⟨h1, h2⟩ := normAxis_iff.mp hk
    omega
  have h1 : ¬ gshape.length ≤ k := by have := (normAxis_iff.mp hk).1; omega
  unfold mkZ mkDArr
  rw [if_neg h0, if_neg h1, zCheck_eq hk hr hl]
  simp only [Prog.bind_eq, Prog.bind_assoc, hk, Option.getD_some, zLocalSplit_eq hk]
  congr 1
  funext s
  congr 1
  funext u
  split_ifs <;> rfl

end

section
variable {K : Type} [Field K] [StarRing K] [CharZero K] {n : Nat} {J : Nat → Nat → K} {L : Layout} {dt : DType} {ax : Int} {a b : Nat → List K}

theorem Runs.zret {ps : Nat → P K (DArr K)} {d : Nat → DArr K} (h : Runs n ps fun r => .ok (d r)) :
    Runs n (fun r => (ps r).bind fun d => .ret (⟨d, ax⟩ : ZArr K)) fun r => .ok ⟨d r, ax⟩ :=
  Runs.bind_ok h (Runs.ret _)

theorem runs_mkZ (hL : L.WF n) (hk : normAxis L.gshape.length ax = some L.axis) :
    Runs n (fun r => mkZ (env n J r) L.gshape L.part ax (some ((List.range n).map L.lshape)) L.mask dt)
      (fun r => .ok (L.zfam n dt ax (junkData J L dt) r)) := by
  refine Runs.congr (Runs.zret (runs_mkDArr hL)) (fun r hr => ?_) (fun _ _ => rfl)
  rw [mkZ_eq hk (by exact hr)]
  intro s hs
  obtain ⟨q, _, rfl⟩ := List.mem_map.mp hs
  exact length_lshape q

theorem runs_mkZ_none (hL : L.WF n) (hbal : L.part = .scatter → L.sizes = balanced (len L.gshape L.axis) n)
    (hk : normAxis L.gshape.length ax = some L.axis) :
    Runs n (fun r => mkZ (env n J r) L.gshape L.part ax none L.mask dt) (fun r => .ok (L.zfam n dt ax (junkData J L dt) r)) := by
  refine Runs.congr (Runs.zret (runs_mkDArr_none hL hbal)) (fun r hr => ?_) (fun _ _ => rfl)
  rw [mkZ_eq hk (by exact hr)]
  simp

theorem runs_zset {v : Nat → NDArray K} (ha : ∀ r < n, (a r).length = (L.lshape r).prod)
    (hs : ∀ r < n, (v r).shape = L.lshape r) (hg : L.Good n dt fun r => (v r).data) :
    Runs n (fun r => (L.zfam n dt ax a r).setAll (env n J r) (v r)) (fun r => .ok (L.zfam n dt ax (fun r => (v r).data) r)) :=
  Runs.zret (runs_setAll_good ha hs hg)

theorem runs_zlike (hL : L.WF n) (hk : normAxis L.gshape.length ax = some L.axis) :
    Runs n (fun r => (L.zfam n dt ax a r).like (env n J r)) (fun r => .ok (L.zfam n dt ax (junkData J L dt) r)) := by
  unfold ZArr.like ZArr.likeMask
  simp only [Prog.bind_eq]
  exact runs_localShapes (runs_mkZ hL hk)

theorem runs_zlike_set {v : Nat → NDArray K} (hL : L.WF n) (hk : normAxis L.gshape.length ax = some L.axis)
    (hs : ∀ r < n, (v r).shape = L.lshape r) (hg : L.Good n dt fun r => (v r).data) :
    Runs n (fun r => ((L.zfam n dt ax a r).like (env n J r)).bind fun d => d.setAll (env n J r) (v r))
      (fun r => .ok (L.zfam n dt ax (fun r => (v r).data) r)) :=
  Runs.bind_ok (runs_zlike hL hk) (runs_zset (fun r _ => length_junk r) hs hg)

theorem runs_zneg (hL : L.WF n) (hk : normAxis L.gshape.length ax = some L.axis) (ha : L.Good n dt a) :
    Runs n (fun r => (L.zfam n dt ax a r).neg (env n J r)) (fun r => .ok (L.zfam n dt ax (fun r => (a r).map (- ·)) r)) :=
  runs_zlike_set (v := fun r => ⟨L.lshape r, dt, (a r).map (- ·)⟩) hL hk (fun _ _ => rfl)
    (good_map _ (fun _ x hx => by simp [hx]) ha)

theorem runs_zconj (hL : L.WF n) (hk : normAxis L.gshape.length ax = some L.axis) (ha : L.Good n dt a) :
    Runs n (fun r => (L.zfam n dt ax a r).conj (env n J r)) (fun r => .ok (L.zfam n dt ax (fun r => (a r).map star) r)) :=
  runs_zlike_set (v := fun r => ⟨L.lshape r, dt, (a r).map star⟩) hL hk (fun _ _ => rfl)
    (good_map _ (fun _ x hx => by simp [hx]) ha)

theorem runs_zcopy (hL : L.WF n) (hk : normAxis L.gshape.length ax = some L.axis) (ha : L.Good n dt a) :
    Runs n (fun r => (L.zfam n dt ax a r).copy (env n J r)) (fun r => .ok (L.zfam n dt ax a r)) :=
  runs_zlike_set (v := fun r => ⟨L.lshape r, dt, a r⟩) hL hk (fun _ _ => rfl) ha

theorem runs_zsmul {t : DType} {s : K} (hs : dt = .real → star s = s) (hL : L.WF n) (hk : normAxis L.gshape.length ax = some L.axis) (ha : L.Good n dt a) :
    Runs n (fun r => (L.zfam n dt ax a r).smul (env n J r) t s) (fun r => .ok (L.zfam n dt ax (fun r => (a r).map (· * s)) r)) :=
  runs_zlike_set (v := fun r => ⟨L.lshape r, dt.promote t, (a r).map (· * s)⟩) hL hk (fun _ _ => rfl)
    (good_map _ (fun hd x hx => by simp [hx, hs hd, mul_comm]) ha)

theorem zip_zfam (f : K → K → K) (ax ax' : Int) (a b : Nat → List K) (r : Nat) :
    NDArray.zip f (L.zfam n dt ax a r).arr.larr (L.zfam n dt ax' b r).arr.larr = .ok ⟨L.lshape r, dt, List.zipWith f (a r) (b r)⟩ := zip_fam f a b r

theorem runs_zadd {ax' : Int} (hL : L.WF n) (hk : normAxis L.gshape.length ax = some L.axis) (ha : L.Good n dt a) (hb : L.Good n dt b) :
    Runs n (fun r => (L.zfam n dt ax a r).add (env n J r) (L.zfam n dt ax' b r))
      (fun r => .ok (L.zfam n dt ax (fun r => List.zipWith (· + ·) (a r) (b r)) r)) := by
  unfold ZArr.add
  simp only [Prog.bind_eq, zip_zfam, Prog.lift_ok, Prog.ret_bind]
  refine Runs.bind_ok runs_checkCompat ?_
  exact runs_zlike_set (v := fun r => ⟨L.lshape r, dt, List.zipWith (· + ·) (a r) (b r)⟩) hL hk
    (fun _ _ => rfl) (good_zip _ (fun _ x y hx hy => by simp [hx, hy]) ha hb)

theorem runs_zmul {ax' : Int} (hL : L.WF n) (hk : normAxis L.gshape.length ax = some L.axis) (ha : L.Good n dt a) (hb : L.Good n dt b) :
    Runs n (fun r => (L.zfam n dt ax a r).mul (env n J r) (L.zfam n dt ax' b r))
      (fun r => .ok (L.zfam n dt ax (fun r => List.zipWith (· * ·) (a r) (b r)) r)) := by
  unfold ZArr.mul
  simp only [Prog.bind_eq, zip_zfam, Prog.lift_ok, Prog.ret_bind]
  refine Runs.bind_ok runs_checkCompat ?_
  exact runs_zlike_set (v := fun r => ⟨L.lshape r, dt, List.zipWith (· * ·) (a r) (b r)⟩) hL hk
    (fun _ _ => rfl) (good_zip _ (fun _ x y hx hy => by simp [hx, hy]) ha hb)

theorem runs_ziadd {ax' : Int} (ha : L.Good n dt a) (hb : L.Good n dt b) :
    Runs n (fun r => (L.zfam n dt ax a r).iadd (env n J r) (L.zfam n dt ax' b r))
      (fun r => .ok (L.zfam n dt ax (fun r => List.zipWith (· + ·) (a r) (b r)) r)) := by
  unfold ZArr.iadd
  simp only [Prog.bind_eq, zip_zfam, Prog.lift_ok, Prog.ret_bind]
  refine Runs.bind_ok runs_checkCompat ?_
  exact runs_zset (v := fun r => ⟨L.lshape r, dt, List.zipWith (· + ·) (a r) (b r)⟩)
    ha.length (fun _ _ => rfl) (good_zip _ (fun _ x y hx hy => by simp [hx, hy]) ha hb)

theorem runs_zsub {ax' : Int} (hL : L.WF n) (hk : normAxis L.gshape.length ax = some L.axis) (hk' : normAxis L.gshape.length ax' = some L.axis)
    (ha : L.Good n dt a) (hb : L.Good n dt b) :
    Runs n (fun r => (L.zfam n dt ax a r).sub' (env n J r) (L.zfam n dt ax' b r))
      (fun r => .ok (L.zfam n dt ax (fun r => List.zipWith (· - ·) (a r) (b r)) r)) := by
  unfold ZArr.sub'
  simp only [Prog.bind_eq]
  refine Runs.bind_ok (runs_zneg hL hk' hb) ?_
  have := runs_zadd (J := J) (ax' := ax') hL hk ha (good_map (- ·) (fun _ x hx => by simp [hx]) hb)
  simpa only [zipWith_neg_right] using this

theorem runs_zisub {ax' : Int} (hL : L.WF n) (hk' : normAxis L.gshape.length ax' = some L.axis)
    (ha : L.Good n dt a) (hb : L.Good n dt b) :
    Runs n (fun r => (L.zfam n dt ax a r).isub (env n J r) (L.zfam n dt ax' b r))
      (fun r => .ok (L.zfam n dt ax (fun r => List.zipWith (· - ·) (a r) (b r)) r)) := by
  unfold ZArr.isub
  simp only [Prog.bind_eq]
  refine Runs.bind_ok (runs_zneg hL hk' hb) ?_
  have := runs_ziadd (J := J) (ax := ax) (ax' := ax') ha (good_map (- ·) (fun _ x hx => by simp [hx]) hb)
  simpa only [zipWith_neg_right] using this

theorem runs_zzeros (hL : L.WF n) (hk : normAxis L.gshape.length ax = some L.axis) :
    Runs n (fun r => (L.zfam n dt ax a r).zerosLike (env n J r))
      (fun r => .ok (L.unmask.zfam n dt ax (fun r => List.replicate (L.lshape r).prod 0) r)) := by
  unfold ZArr.zerosLike ZArr.likeMask
  simp only [Prog.bind_eq, Prog.bind_assoc]
  refine runs_localShapes ?_
  refine Runs.bind_ok (runs_mkZ (L := L.unmask) (unmask_wf hL) hk) ?_
  have := runs_setAll_scalar (J := J) (L := L.unmask) (dt := dt) (t := .real) (x := 0) (fun r _ => length_junk (J := J) (dt := dt) r) (n := n)
  simp only [castTo_zero] at this
  exact Runs.zret this

theorem runs_zasarray (hL : L.WF n) (hk : normAxis L.gshape.length ax = some L.axis) :
    Runs n (fun r => (L.zfam n dt ax a r).asarray (env n J r))
      (fun r => .ok ⟨L.gshape, dt, if L.part.isBroadcast then a r else L.globalData n a⟩) := by
  rcases Nat.eq_zero_or_pos n with rfl | hn
  · exact Runs.of_zero
  by_cases hb : L.part.isBroadcast = true
  · unfold ZArr.asarray
    refine Runs.congr (runs_asarray_bcast (J := J) (dt := dt) (a := a) hb) (fun r hr => ?_) (fun r hr => by simp [hb])
    unfold DArr.asarray
    rw [if_pos (show (L.fam n dt a r).part.isBroadcast = true from hb), if_pos (show (L.zfam n dt ax a r).arr.part.isBroadcast = true from hb)]; rfl
  · have hb' : ∀ r, ¬ (L.zfam n dt ax a r).arr.part.isBroadcast = true := fun _ => hb
    unfold ZArr.asarray
    simp only [if_neg (hb' _), Prog.bind_eq]
    refine runs_allgather (v := fun r => (L.zfam n dt ax a r).arr.larr) ?_
    have h2 : zConcat ax ((List.range n).map fun r => (L.zfam n dt ax a r).arr.larr) = .ok (L.global n dt a) := by
      rw [← concat_parts (dt := dt) (a := a) hn hL (isBroadcast_false hb), range_cons hn, List.map_cons]
      unfold zConcat
      have : (L.zfam n dt ax a 0).arr.larr.shape.length = L.gshape.length := length_lshape 0
      simp only [this, hk]
      rfl
    refine Runs.congr (Runs.ret fun _ => L.global n dt a) (fun r hr => ?_) (fun r hr => by simp [hb, Layout.global])
    show _ = Prog.lift (zConcat ax _)
    rw [h2]; rfl

theorem runs_zToDist_set {x : NDArray K} (hL : L.WF n) (hk : normAxis L.gshape.length ax = some L.axis) (hsh : x.shape = L.gshape) (hx : x.WF)
    (hf : FitsL x.dtype x.data) (a : Nat → List K) (ha : ∀ r < n, (a r).length = (L.lshape r).prod) :
    Runs n (fun r => if L.part.isBroadcast then (L.zfam n x.dtype ax a r).setAll (env n J r) x
      else match normAxis (L.zfam n x.dtype ax a r).arr.lshape.length ax with
        | none => .throw .index
        | some j => (allgather (env n J r) (len (L.zfam n x.dtype ax a r).arr.lshape j)).bind fun ls =>
          match normAxis x.shape.length ax with
          | none => .throw .index
          | some k => (L.zfam n x.dtype ax a r).setAll (env n J r)
            (x.slice k (ls.take (env n J r).rank).sum (ls.take ((env n J r).rank + 1)).sum))
      (fun r => .ok (L.zfam n x.dtype ax (L.piece x.data) r)) := by
  refine Runs.congr (Runs.zret (runs_toDist_set (J := J) hL hsh hx hf a ha)) (fun r hr => ?_) (fun _ _ => rfl)
  have h1 : normAxis (L.zfam n x.dtype ax a r).arr.lshape.length ax = some L.axis := by
    rw [show (L.zfam n x.dtype ax a r).arr.lshape.length = _ from length_lshape r, hk]
  have h2 : normAxis x.shape.length ax = some L.axis := by rw [hsh, hk]
  rw [h1]
  simp only [h2]
  by_cases hb : L.part.isBroadcast = true
  · simp only [if_pos hb]; rfl
  · simp only [if_neg hb, Prog.bind_assoc]; rfl

theorem runs_zToDist {x : NDArray K} (hL : L.WF n) (hk : normAxis L.gshape.length ax = some L.axis) (hsh : x.shape = L.gshape) (hx : x.WF)
    (hf : FitsL x.dtype x.data) :
    Runs n (fun r => zToDist (env n J r) x L.part ax (some ((List.range n).map L.lshape)) L.mask)
      (fun r => .ok (L.zfam n x.dtype ax (L.piece x.data) r)) := by
  unfold zToDist
  simp only [Prog.bind_eq, hsh]
  refine Runs.bind_ok (runs_mkZ hL hk) ?_
  have := runs_zToDist_set (J := J) hL hk hsh hx hf _ (fun r _ => length_junk (J := J) (dt := x.dtype) r)
  rw [hsh] at this
  exact this

theorem runs_zToDist_none {x : NDArray K} (hL : L.WF n)
    (hbal : L.part = .scatter → L.sizes = balanced (len L.gshape L.axis) n) (hk : normAxis L.gshape.length ax = some L.axis)
    (hsh : x.shape = L.gshape) (hx : x.WF) (hf : FitsL x.dtype x.data) :
    Runs n (fun r => zToDist (env n J r) x L.part ax none L.mask) (fun r => .ok (L.zfam n x.dtype ax (L.piece x.data) r)) := by
  unfold zToDist
  simp only [Prog.bind_eq, hsh]
  refine Runs.bind_ok (runs_mkZ_none hL hbal hk) ?_
  have := runs_zToDist_set (J := J) hL hk hsh hx hf _ (fun r _ => length_junk (J := J) (dt := x.dtype) r)
  rw [hsh] at this
  exact this

end

/-! ### programs that are the same -/

section
variable {K : Type} [Field K] [StarRing K] {ax : Int} {k : Nat}

/-- `to_dist(x)` with the default arguments -/
theorem zToDist_zero {c : Ctx K} (x : NDArray K) (hr : c.rank < c.size) :
    zToDist c x .scatter 0 none none = (toDist c x .scatter 0 none none).bind fun d => .ret ⟨d, 0⟩ := by
  unfold zToDist toDist
  rcases Nat.eq_zero_or_pos x.shape.length with h0 | h0
  · unfold mkZ mkDArr
    simp [h0, Prog.bind_eq]
  · have hk := normAxis_zero h0
    rw [mkZ_eq hk hr (by simp)]
    simp only [Prog.bind_eq, Prog.bind_assoc, Prog.ret_bind]
    unfold mkDArr
    rw [if_neg (show ¬ x.shape.length ≤ 0 by omega)]
    simp only [Prog.bind_eq, Prog.bind_assoc, Prog.ret_bind, mkSub, checkLocalShapes, Option.getD_none, if_true, Partition.isBroadcast, if_false, Bool.false_eq_true]
    have hl : (localSplit c x.shape .scatter 0).length = x.shape.length := by
      unfold localSplit; split_ifs <;> simp
    simp only [hl, hk]
    rfl

theorem zToScatter_eq {c : Ctx K} {z : ZArr K} {p : Partition} (hr : c.rank < c.size) :
    z.toScatter c p = (z.arr.toScatter c p).bind fun d => .ret ⟨d, if p.isBroadcast then 0 else z.ax⟩ := by
  unfold ZArr.toScatter DArr.toScatter
  by_cases hb : p.isBroadcast = true
  · simp only [if_pos hb]; exact zToDist_zero _ hr
  · simp only [if_neg hb]; rfl

theorem zdot_eq {c : Ctx K} {z w : ZArr K} (hr : c.rank < c.size) : z.dot c w = z.arr.dot c w.arr := by
  unfold ZArr.dot DArr.dot
  simp only [zToScatter_eq hr, Prog.bind_eq, Prog.bind_assoc, Prog.ret_bind]

variable {z : ZArr K}

theorem take_eq (h : normAxis z.arr.larr.shape.length z.ax = some k) {lo hi : Nat} : z.take lo hi = .ok (z.arr.larr.slice k lo hi) := by
  unfold ZArr.take; rw [h]

theorem lenAx_eq (h : normAxis z.arr.lshape.length z.ax = some k) : z.lenAx = .ok (len z.arr.lshape k) := by
  unfold ZArr.lenAx; rw [h]

theorem zghostFront_eq {c : Ctx K} {f : Nat} {g : NDArray K} (h1 : normAxis z.arr.larr.shape.length z.ax = some z.arr.axis)
    (h2 : z.arr.lshape = z.arr.larr.shape) (h3 : g.shape.length = z.arr.larr.shape.length) :
    z.ghostFront c f g = z.arr.ghostFront c f g := by
  have hl := lenAx_eq (z := z) (by rw [h2]; exact h1)
  unfold ZArr.ghostFront DArr.ghostFront
  simp only [zConcat_pair (m := _) (g := g) (by rw [h3]; exact h1), hl, take_eq h1, Prog.lift_ok, Prog.bind_eq, Prog.ret_bind]

theorem zghostBack_eq {c : Ctx K} {f : Nat} {g : NDArray K} (h1 : normAxis z.arr.larr.shape.length z.ax = some z.arr.axis)
    (h2 : z.arr.lshape = z.arr.larr.shape) (h3 : g.shape.length = z.arr.larr.shape.length) :
    z.ghostBack c f g = z.arr.ghostBack c f g := by
  have hl := lenAx_eq (z := z) (by rw [h2]; exact h1)
  have hc : ∀ m, zConcat z.ax [g, m] = concat z.arr.axis [g, m] := fun m => by
    unfold zConcat; simp only [h3, h1]
  unfold ZArr.ghostBack DArr.ghostBack
  simp only [hc, hl, take_eq h1, Prog.lift_ok, Prog.bind_eq, Prog.ret_bind]

theorem bind_concat_congr {β : Type} {m g : NDArray K} {p q : NDArray K → P K β} (h : ∀ x : NDArray K, x.shape.length = g.shape.length → p x = q x) :
    (Prog.lift (concat k [m, g]) : P K (NDArray K)).bind p = (Prog.lift (concat k [m, g])).bind q := by
  cases hc : concat k [m, g] with
  | error e => rfl
  | ok x => exact h x (concat_pair_length hc)

theorem zghost_eq {c : Ctx K} {front back : Option Nat} (h1 : normAxis z.arr.larr.shape.length z.ax = some z.arr.axis)
    (h2 : z.arr.lshape = z.arr.larr.shape) : z.addGhostCells c front back = z.arr.addGhostCells c front back := by
  unfold ZArr.addGhostCells DArr.addGhostCells
  cases back with
  | none =>
    cases front with
    | none => rfl
    | some f => simp only [zghostFront_eq h1 h2 rfl]
  | some b =>
    cases front with
    | none => simp only [Prog.bind_eq, Prog.ret_bind]; exact zghostBack_eq h1 h2 rfl
    | some f =>
      simp only [zghostFront_eq h1 h2 rfl]
      unfold DArr.ghostFront
      simp only [Prog.bind_eq, Prog.bind_assoc]
      congr 1
      funext tot
      have key : ∀ g : NDArray K, g.shape.length = z.arr.larr.shape.length →
          ((if c.rank ≠ c.size - 1 then
            if (tot ++ [0]).getD (c.rank + 1) 0 > len z.arr.lshape z.arr.axis then .throw .value
            else (sendTo (c.rank + 1) 1 (z.arr.larr.slice z.arr.axis (len z.arr.lshape z.arr.axis - (tot ++ [0]).getD (c.rank + 1) 0) (len z.arr.lshape z.arr.axis))).bind fun _ => .ret g
          else .ret g : P K (NDArray K)).bind fun g => z.ghostBack c b g)
          = (if c.rank ≠ c.size - 1 then
            if (tot ++ [0]).getD (c.rank + 1) 0 > len z.arr.lshape z.arr.axis then .throw .value
            else (sendTo (c.rank + 1) 1 (z.arr.larr.slice z.arr.axis (len z.arr.lshape z.arr.axis - (tot ++ [0]).getD (c.rank + 1) 0) (len z.arr.lshape z.arr.axis))).bind fun _ => .ret g
          else .ret g : P K (NDArray K)).bind fun g => z.arr.ghostBack c b g := by
        intro g hg
        split_ifs
        · rfl
        · simp only [Prog.bind_assoc, Prog.ret_bind, zghostBack_eq h1 h2 hg]
        · simp only [Prog.ret_bind, zghostBack_eq h1 h2 hg]
      by_cases h0 : c.rank ≠ 0
      · simp only [if_pos h0, Prog.bind_assoc]
        congr 1
        funext m
        exact bind_concat_congr fun x hx => key x hx
      · simp only [if_neg h0, Prog.ret_bind]
        exact key _ rfl

end

theorem zravel_eq {K : Type} [Field K] [StarRing K] {c : Ctx K} {z : ZArr K} (hr : c.rank < c.size) :
    z.ravel c = (z.arr.ravel c).bind fun d => .ret ⟨d, 0⟩ := by
  unfold ZArr.ravel DArr.ravel
  simp only [Prog.bind_eq, Prog.bind_assoc]
  congr 1
  funext ls
  rw [mkZ_eq (k := 0) (normAxis_zero (by simp)) hr]
  · simp only [Prog.bind_assoc, Prog.ret_bind]; rfl
  · intro s hs
    obtain ⟨q, _, rfl⟩ := List.mem_map.mp hs
    rfl

/-- broadcast arrays accept every negative axis -/
theorem mkZ_bcast {K : Type} [Field K] [StarRing K] {c : Ctx K} {gshape : List Nat} {part : Partition} {ax : Int} {lso : Option (List (List Nat))}
    {mask : Option (List Nat)} {dt : DType} (hp : part.isBroadcast = true) (hg : gshape ≠ []) (hax : ax < -gshape.length) :
    mkZ c gshape part ax lso mask dt = (mkDArr c gshape part 0 lso mask dt).bind fun d => .ret ⟨d, ax⟩ := by
  have hk : normAxis gshape.length ax = none := normAxis_none.mpr (.inl hax)
  have hc : ∀ l, zCheckLocalShapes c gshape part ax l = checkLocalShapes c gshape part 0 l := fun l => by
    unfold zCheckLocalShapes checkLocalShapes
    simp only [if_pos hp]
  have hs : zLocalSplit c gshape part ax = .ok (localSplit c gshape part 0) := by
    unfold zLocalSplit localSplit
    simp only [if_pos hp]
  unfold mkZ mkDArr
  rw [if_neg (show ¬ (gshape.length : Int) ≤ ax by omega), if_neg (show ¬ gshape.length ≤ 0 by simpa using hg), hc, hs]
  simp only [Prog.bind_eq, Prog.bind_assoc, hk, Option.getD_none]
  congr 1
  funext s
  congr 1
  funext u
  split_ifs <;> rfl

/-- `norm` for each value of its argument `axis` -/
theorem znorm_eq {K : Type} [RCLike K] {c : Ctx K} {z : ZArr K} {o : NormOrd} {axis : Int} (hr : c.rank < c.size) (hp : z.arr.part = .scatter)
    (h1 : normAxis z.arr.larr.shape.length z.ax = some z.arr.axis) :
    z.norm c o axis = if axis = -1 then z.arr.norm c o none else if axis = z.ax then z.arr.norm c o (some z.arr.axis) else .throw .notImplemented := by
  have hb : ¬ z.arr.part.isBroadcast = true := by rw [hp]; simp [Partition.isBroadcast]
  unfold ZArr.norm DArr.norm
  simp only [zToScatter_eq hr, DArr.toScatter, if_neg hb, Prog.bind_eq, Prog.ret_bind]
  by_cases h2 : axis = -1
  · simp only [if_pos h2]
  · by_cases h3 : axis = z.ax
    · simp [h2, h3, h1]
    · simp [h2, h3]

end Verif

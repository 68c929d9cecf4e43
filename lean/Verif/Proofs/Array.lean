/- Execution lemmas for the methods of `DistributedArray`. -/
import Verif.Proofs.Basic
import Verif.NumPy.Concat

namespace Verif
open NDArray

set_option linter.unusedSectionVars false

variable {K : Type} {α β : Type} [Field K] [StarRing K] [CharZero K]
  {n : Nat} {J : Nat → Nat → K} {L : Layout} {dt : DType}

/-! ### allocation + assignment with good data -/

theorem sync_eq {γ : Type} {f : Nat → γ} (hc : L.part = .broadcast → ∀ r < n, f r = f 0) {r : Nat} (hr : r < n) :
    L.sync f r = f r := by
  unfold Layout.sync
  split_ifs with h
  · exact (hc h r hr).symm
  · rfl

omit [Field K] [StarRing K] [CharZero K] in
theorem fam_congr {a b : Nat → List K} {r : Nat} (h : a r = b r) : L.fam n dt a r = L.fam n dt b r := by
  simp [Layout.fam, h]

theorem runs_setAll_good {a : Nat → List K} {v : Nat → NDArray K}
    (ha : ∀ r < n, (a r).length = (L.lshape r).prod)
    (hs : ∀ r < n, (v r).shape = L.lshape r) (hg : L.Good n dt fun r => (v r).data) :
    Runs n (fun r => (L.fam n dt a r).setAll (env n J r) (v r))
      (fun r => .ok (L.fam n dt (fun r => (v r).data) r)) := by
  refine Runs.congr (runs_setAll ha hs hg.length) (fun _ _ => rfl) (fun r hr => ?_)
  congr 1
  apply fam_congr
  rw [sync_eq hg.consistent hr, castTo_of_fits (hg.fits r hr)]

theorem runs_like_set_good {a : Nat → List K} {v : Nat → NDArray K} (hL : L.WF n)
    (hs : ∀ r < n, (v r).shape = L.lshape r) (hg : L.Good n dt fun r => (v r).data) :
    Runs n (fun r => ((L.fam n dt a r).like (env n J r)).bind fun d => d.setAll (env n J r) (v r))
      (fun r => .ok (L.fam n dt (fun r => (v r).data) r)) :=
  Runs.bind_ok (runs_like hL) (runs_setAll_good (fun r _ => length_junk r) hs hg)

/-! ### closure of `Good` -/

theorem good_map {a : Nat → List K} (f : K → K) (hf : dt = .real → ∀ x, star x = x → star (f x) = f x)
    (h : L.Good n dt a) : L.Good n dt fun r => (a r).map f := by
  refine ⟨fun r hr => by simpa using h.length r hr, fun r hr hd x hx => ?_,
    fun hb r hr => by rw [h.consistent hb r hr]⟩
  obtain ⟨y, hy, rfl⟩ := List.mem_map.mp hx
  exact hf hd y (h.fits r hr hd y hy)

theorem good_zip {a b : Nat → List K} (f : K → K → K)
    (hf : dt = .real → ∀ x y, star x = x → star y = y → star (f x y) = f x y)
    (ha : L.Good n dt a) (hb : L.Good n dt b) : L.Good n dt fun r => List.zipWith f (a r) (b r) := by
  refine ⟨fun r hr => by simp [ha.length r hr, hb.length r hr], fun r hr hd x hx => ?_,
    fun h r hr => by rw [ha.consistent h r hr, hb.consistent h r hr]⟩
  rw [← List.map_uncurry_zip_eq_zipWith] at hx
  obtain ⟨⟨y, z⟩, hy, rfl⟩ := List.mem_map.mp hx
  have := List.of_mem_zip hy
  exact hf hd y z (ha.fits r hr hd y this.1) (hb.fits r hr hd z this.2)

/-! ### elementwise methods -/

theorem runs_checkCompat {a b : Nat → List K} {dt' : DType} :
    Runs n (fun r => (L.fam n dt a r).checkCompat (L.fam n dt' b r)) (fun _ => .ok ()) := by
  refine Runs.congr (Runs.ret fun _ => ()) (fun r hr => ?_) (fun _ _ => rfl)
  simp [DArr.checkCompat, Layout.fam]

theorem promote_self (dt : DType) : dt.promote dt = dt := by cases dt <;> rfl

theorem zip_fam (f : K → K → K) (a b : Nat → List K) (r : Nat) :
    NDArray.zip f (L.fam n dt a r).larr (L.fam n dt b r).larr
      = .ok ⟨L.lshape r, dt, List.zipWith f (a r) (b r)⟩ := by
  simp [NDArray.zip, Layout.fam, promote_self]

theorem runs_neg {a : Nat → List K} (hL : L.WF n) (ha : L.Good n dt a) :
    Runs n (fun r => (L.fam n dt a r).neg (env n J r))
      (fun r => .ok (L.fam n dt (fun r => (a r).map (- ·)) r)) :=
  runs_like_set_good (v := fun r => ⟨L.lshape r, dt, (a r).map (- ·)⟩) hL (fun _ _ => rfl)
    (good_map _ (fun _ x hx => by simp [hx]) ha)

theorem runs_conj {a : Nat → List K} (hL : L.WF n) (ha : L.Good n dt a) :
    Runs n (fun r => (L.fam n dt a r).conj (env n J r))
      (fun r => .ok (L.fam n dt (fun r => (a r).map star) r)) :=
  runs_like_set_good (v := fun r => ⟨L.lshape r, dt, (a r).map star⟩) hL (fun _ _ => rfl)
    (good_map _ (fun _ x hx => by simp [hx]) ha)

theorem runs_copy {a : Nat → List K} (hL : L.WF n) (ha : L.Good n dt a) :
    Runs n (fun r => (L.fam n dt a r).copy (env n J r))
      (fun r => .ok (L.fam n dt a r)) :=
  runs_like_set_good (v := fun r => ⟨L.lshape r, dt, a r⟩) hL (fun _ _ => rfl) ha

theorem runs_smul {a : Nat → List K} {t : DType} {s : K} (hs : dt = .real → star s = s)
    (hL : L.WF n) (ha : L.Good n dt a) :
    Runs n (fun r => (L.fam n dt a r).smul (env n J r) t s)
      (fun r => .ok (L.fam n dt (fun r => (a r).map (· * s)) r)) :=
  runs_like_set_good (v := fun r => ⟨L.lshape r, dt.promote t, (a r).map (· * s)⟩) hL (fun _ _ => rfl)
    (good_map _ (fun hd x hx => by simp [hx, hs hd, mul_comm]) ha)

theorem runs_add {a b : Nat → List K} (hL : L.WF n) (ha : L.Good n dt a) (hb : L.Good n dt b) :
    Runs n (fun r => (L.fam n dt a r).add (env n J r) (L.fam n dt b r))
      (fun r => .ok (L.fam n dt (fun r => List.zipWith (· + ·) (a r) (b r)) r)) := by
  unfold DArr.add
  simp only [Prog.bind_eq, zip_fam, Prog.lift_ok, Prog.ret_bind]
  refine Runs.bind_ok runs_checkCompat ?_
  exact runs_like_set_good (v := fun r => ⟨L.lshape r, dt, List.zipWith (· + ·) (a r) (b r)⟩) hL
    (fun _ _ => rfl) (good_zip _ (fun _ x y hx hy => by simp [hx, hy]) ha hb)

theorem runs_mul {a b : Nat → List K} (hL : L.WF n) (ha : L.Good n dt a) (hb : L.Good n dt b) :
    Runs n (fun r => (L.fam n dt a r).mul (env n J r) (L.fam n dt b r))
      (fun r => .ok (L.fam n dt (fun r => List.zipWith (· * ·) (a r) (b r)) r)) := by
  unfold DArr.mul
  simp only [Prog.bind_eq, zip_fam, Prog.lift_ok, Prog.ret_bind]
  refine Runs.bind_ok runs_checkCompat ?_
  exact runs_like_set_good (v := fun r => ⟨L.lshape r, dt, List.zipWith (· * ·) (a r) (b r)⟩) hL
    (fun _ _ => rfl) (good_zip _ (fun _ x y hx hy => by simp [hx, hy]) ha hb)

theorem runs_iadd {a b : Nat → List K} (ha : L.Good n dt a) (hb : L.Good n dt b) :
    Runs n (fun r => (L.fam n dt a r).iadd (env n J r) (L.fam n dt b r))
      (fun r => .ok (L.fam n dt (fun r => List.zipWith (· + ·) (a r) (b r)) r)) := by
  unfold DArr.iadd
  simp only [Prog.bind_eq, zip_fam, Prog.lift_ok, Prog.ret_bind]
  refine Runs.bind_ok runs_checkCompat ?_
  exact runs_setAll_good (v := fun r => ⟨L.lshape r, dt, List.zipWith (· + ·) (a r) (b r)⟩)
    ha.length (fun _ _ => rfl) (good_zip _ (fun _ x y hx hy => by simp [hx, hy]) ha hb)

theorem zipWith_neg_right (a b : List K) :
    List.zipWith (· + ·) a (b.map (- ·)) = List.zipWith (· - ·) a b := by
  rw [List.zipWith_map_right]; simp [sub_eq_add_neg]

theorem runs_sub {a b : Nat → List K} (hL : L.WF n) (ha : L.Good n dt a) (hb : L.Good n dt b) :
    Runs n (fun r => (L.fam n dt a r).sub' (env n J r) (L.fam n dt b r))
      (fun r => .ok (L.fam n dt (fun r => List.zipWith (· - ·) (a r) (b r)) r)) := by
  unfold DArr.sub'
  simp only [Prog.bind_eq]
  refine Runs.bind_ok (runs_neg hL hb) ?_
  have := runs_add (J := J) hL ha (good_map (- ·) (fun _ x hx => by simp [hx]) hb)
  simpa only [zipWith_neg_right] using this

theorem runs_isub {a b : Nat → List K} (hL : L.WF n) (ha : L.Good n dt a) (hb : L.Good n dt b) :
    Runs n (fun r => (L.fam n dt a r).isub (env n J r) (L.fam n dt b r))
      (fun r => .ok (L.fam n dt (fun r => List.zipWith (· - ·) (a r) (b r)) r)) := by
  unfold DArr.isub
  simp only [Prog.bind_eq]
  refine Runs.bind_ok (runs_neg hL hb) ?_
  have := runs_iadd (J := J) ha (good_map (- ·) (fun _ x hx => by simp [hx]) hb)
  simpa only [zipWith_neg_right] using this

/-- the layout without its mask -/
def Layout.unmask (L : Layout) : Layout := { L with mask := none }

theorem unmask_wf (hL : L.WF n) : L.unmask.WF n := ⟨hL.axis_lt, hL.sum, by simp [Layout.unmask]⟩

theorem castTo_zero (dt : DType) : castTo dt (0 : K) = 0 := by cases dt <;> simp [castTo]

theorem runs_zerosLike {a : Nat → List K} (hL : L.WF n) :
    Runs n (fun r => (L.fam n dt a r).zerosLike (env n J r))
      (fun r => .ok (L.unmask.fam n dt (fun r => List.replicate (L.lshape r).prod 0) r)) := by
  unfold DArr.zerosLike DArr.likeMask
  simp only [Prog.bind_eq, Prog.bind_assoc]
  refine runs_localShapes ?_
  have := Runs.bind_ok (runs_mkDArr (J := J) (dt := dt) (unmask_wf hL))
    (k := fun r d => d.setAll (env n J r) (NDArray.scalar .real 0))
    (runs_setAll_scalar (J := J) (t := .real) (x := 0) (fun r _ => length_junk r))
  simp only [castTo_zero] at this
  exact this

/-! ### gathering -/

omit [Field K] [StarRing K] [CharZero K] in
theorem foldl_promote (l : List (NDArray K)) (h : ∀ a ∈ l, a.dtype = dt) :
    l.foldl (fun t b => t.promote b.dtype) dt = dt := by
  induction l with
  | nil => rfl
  | cons a l ih =>
    rw [List.foldl_cons, h a (by simp), promote_self, ih (fun b hb => h b (by simp [hb]))]

theorem length_lshape (r : Nat) : (L.lshape r).length = L.gshape.length := by
  unfold Layout.lshape; split_ifs <;> simp

omit [Field K] [StarRing K] [CharZero K] in
/-- `numpy.concatenate` of the parts -/
theorem concat_parts {a : Nat → List K} (hn : 0 < n) (hL : L.WF n) (hp : L.part = .scatter) :
    concat L.axis ((List.range n).map fun r => (L.fam n dt a r).larr) = .ok (L.global n dt a) := by
  have hax := hL.axis_lt
  have hsh : ∀ r, (L.fam n dt a r).larr.shape = L.gshape.set L.axis (L.sizes r) := by
    intro r; exact lshape_scatter hp r
  have hb : ¬ L.part.isBroadcast = true := by simp [hp, Partition.isBroadcast]
  rw [range_cons hn, List.map_cons]
  unfold concat
  dsimp only
  rw [if_pos]
  · rw [← List.map_cons (f := fun r => (L.fam n dt a r).larr), ← range_cons hn]
    congr 1
    unfold Layout.global Layout.globalData
    rw [if_neg hb]
    congr 1
    · have h2 : (List.map (fun b : NDArray K => len b.shape L.axis)
          ((List.range n).map fun r => (L.fam n dt a r).larr)).sum = len L.gshape L.axis := by
        rw [← hL.sum hp, psum_eq_sum, List.map_map]
        congr 1
        apply List.map_congr_left
        intro r _
        simp [hsh, len_set hax]
      rw [h2, hsh, List.set_set, set_len]
    · exact foldl_promote _ (by simp [Layout.fam])
    · rw [hsh, outer_set, inner_set, List.map_map]
      congr 1
      apply List.map_congr_left
      intro r _
      simp only [Function.comp, hsh, len_set hax]
      rfl
  · constructor
    · rw [List.all_eq_true]
      intro b hb
      rw [← List.map_cons (f := fun r => (L.fam n dt a r).larr)] at hb
      obtain ⟨q, _, rfl⟩ := List.mem_map.mp hb
      simp [hsh]
    · simp [hsh, hax]

omit [Field K] [StarRing K] [CharZero K] in
/-- `asarray` -/
theorem runs_asarray {a : Nat → List K} (hL : L.WF n) (hp : L.part = .scatter) :
    Runs n (fun r => (L.fam n dt a r).asarray (env n J r)) (fun _ => .ok (L.global n dt a)) := by
  unfold DArr.asarray
  rcases Nat.eq_zero_or_pos n with rfl | hn
  · exact Runs.of_zero
  have hb : ∀ r, ¬ (L.fam n dt a r).part.isBroadcast = true := by
    intro r; simp [Layout.fam, hp, Partition.isBroadcast]
  simp only [if_neg (hb _), Prog.bind_eq]
  refine runs_allgather (v := fun r => (L.fam n dt a r).larr) ?_
  have hax : ∀ r, (L.fam n dt a r).axis = L.axis := fun _ => rfl
  simp only [hax, concat_parts hn hL hp]
  exact Runs.ret _

omit [Field K] [StarRing K] [CharZero K] in
theorem runs_asarray_bcast {a : Nat → List K} (hp : L.part.isBroadcast = true) :
    Runs n (fun r => (L.fam n dt a r).asarray (env n J r)) (fun r => .ok ⟨L.gshape, dt, a r⟩) := by
  unfold DArr.asarray
  have hb : ∀ r, (L.fam n dt a r).part.isBroadcast = true := fun _ => hp
  simp only [if_pos (hb _)]
  refine Runs.congr (Runs.ret _) (fun r hr => rfl) (fun r hr => ?_)
  simp [Layout.fam, lshape_bcast hp]

/-- the global array of consistent data, gathered by every rank -/
theorem runs_asarray_good {a : Nat → List K} (hL : L.WF n) (ha : L.Good n dt a)
    (hu : L.part ≠ .unsafeBroadcast) :
    Runs n (fun r => (L.fam n dt a r).asarray (env n J r)) (fun _ => .ok (L.global n dt a)) := by
  by_cases hp : L.part.isBroadcast = true
  · refine Runs.congr (runs_asarray_bcast hp) (fun _ _ => rfl) (fun r hr => ?_)
    have : L.part = .broadcast := by cases h : L.part <;> simp_all [Partition.isBroadcast]
    rw [Layout.global, Layout.globalData, if_pos hp, ha.consistent this r hr]
  · exact runs_asarray hL (isBroadcast_false hp)

/-! ### scattering -/

theorem length_lshape_prod (hL : L.WF n) (hp : L.part = .scatter) (r : Nat) :
    (L.lshape r).prod = outer L.gshape L.axis * (L.sizes r * inner L.gshape L.axis) := by
  rw [lshape_scatter hp, prod_set hL.axis_lt]

omit [Field K] [StarRing K] [CharZero K] in
theorem length_piece (hL : L.WF n) {d : List K} (hd : d.length = L.gshape.prod) {r : Nat} (hr : r < n) :
    (L.piece d r).length = (L.lshape r).prod := by
  unfold Layout.piece
  split_ifs with hb
  · rw [hd, lshape_bcast hb]
  · have hp := isBroadcast_false hb
    have h2 : psum L.sizes (r + 1) ≤ len L.gshape L.axis := hL.sum hp ▸ psum_mono _ hr
    rw [length_sliceData hL.axis_lt hd (psum_mono _ (Nat.le_succ r)) h2, length_lshape_prod hL hp]
    simp [psum]

theorem mem_sliceData {s : List Nat} {ax lo hi : Nat} {d : List K} {x : K}
    (h : x ∈ sliceData s ax lo hi d) : x ∈ d := by
  unfold sliceData chunk at h
  obtain ⟨o, _, h⟩ := List.mem_flatMap.mp h
  exact List.mem_of_mem_drop (List.mem_of_mem_take (List.mem_of_mem_drop (List.mem_of_mem_take h)))

theorem good_piece (hL : L.WF n) {d : List K} (hd : d.length = L.gshape.prod) (hf : FitsL dt d) :
    L.Good n dt (L.piece d) := by
  refine ⟨fun r hr => length_piece hL hd hr, fun r hr ht x hx => hf ht x ?_, fun hb r hr => ?_⟩
  · unfold Layout.piece at hx
    split_ifs at hx
    · exact hx
    · exact mem_sliceData hx
  · simp [Layout.piece, hb, Partition.isBroadcast]

theorem take_map_range_sum (f : Nat → Nat) {r n : Nat} (h : r ≤ n) :
    (((List.range n).map f).take r).sum = psum f r := by
  rw [← List.map_take, List.take_range, min_eq_left h, psum_eq_sum]

/-- second half of `to_dist`, common to given and default local shapes -/
theorem runs_toDist_set {x : NDArray K} (hL : L.WF n) (hsh : x.shape = L.gshape) (hx : x.WF)
    (hf : FitsL x.dtype x.data) (a : Nat → List K) (ha : ∀ r < n, (a r).length = (L.lshape r).prod) :
    Runs n (fun r => if L.part.isBroadcast then (L.fam n x.dtype a r).setAll (env n J r) x
      else (allgather (env n J r) (len (L.fam n x.dtype a r).lshape L.axis)).bind fun ls =>
        (L.fam n x.dtype a r).setAll (env n J r)
          (x.slice L.axis (ls.take r).sum (ls.take (r + 1)).sum))
      (fun r => .ok (L.fam n x.dtype (L.piece x.data) r)) := by
  have hd : x.data.length = L.gshape.prod := by rw [← hsh]; exact hx
  by_cases hb : L.part.isBroadcast = true
  · simp only [if_pos hb]
    have hp : L.piece x.data = fun _ => x.data := by funext r; simp [Layout.piece, hb]
    refine Runs.congr (runs_setAll_good (v := fun _ => x) ha (fun r _ => by rw [hsh, lshape_bcast hb]) ?_)
      (fun _ _ => rfl) (fun r _ => by rw [hp])
    have := good_piece hL hd hf
    rwa [hp] at this
  · simp only [if_neg hb]
    have hp := isBroadcast_false hb
    have hls : ∀ r, len (L.fam n x.dtype a r).lshape L.axis = L.sizes r := by
      intro r
      show len (L.lshape r) L.axis = _
      rw [lshape_scatter hp, len_set hL.axis_lt]
    simp only [hls]
    refine runs_allgather (v := L.sizes) ?_
    have hpc : ∀ r < n, x.slice L.axis (((List.range n).map L.sizes).take r).sum
        (((List.range n).map L.sizes).take (r + 1)).sum
        = ⟨L.lshape r, x.dtype, L.piece x.data r⟩ := by
      intro r hr
      have h2 : psum L.sizes (r + 1) ≤ len L.gshape L.axis := hL.sum hp ▸ psum_mono _ hr
      have h1 : psum L.sizes r ≤ len L.gshape L.axis := (psum_mono _ (Nat.le_succ r)).trans h2
      rw [take_map_range_sum _ (by omega), take_map_range_sum _ (by omega)]
      unfold slice Layout.piece
      rw [if_neg hb, hsh, min_eq_left h2, min_eq_left h1, lshape_scatter hp]
      simp [psum]
    refine Runs.congr (runs_setAll_good (J := J) (v := fun r => ⟨L.lshape r, x.dtype, L.piece x.data r⟩) ha
      (fun r _ => rfl) (good_piece hL hd hf)) (fun r hr => ?_) (fun r _ => rfl)
    rw [hpc r hr]

/-- `to_dist` with given local shapes -/
theorem runs_toDist {x : NDArray K} (hL : L.WF n) (hsh : x.shape = L.gshape) (hx : x.WF)
    (hf : FitsL x.dtype x.data) :
    Runs n (fun r => toDist (env n J r) x L.part L.axis (some ((List.range n).map L.lshape)) L.mask)
      (fun r => .ok (L.fam n x.dtype (L.piece x.data) r)) := by
  unfold toDist
  simp only [Prog.bind_eq, hsh]
  refine Runs.bind_ok (runs_mkDArr hL) ?_
  exact runs_toDist_set hL hsh hx hf _ (fun r _ => length_junk r)

/-! ### default (balanced) local shapes -/

/-- the extent of rank `r` in a balanced split of `g` -/
def balanced (g n r : Nat) : Nat := if r < g % n then g / n + 1 else g / n

theorem psum_balanced (g n r : Nat) : psum (balanced g n) r = r * (g / n) + min r (g % n) := by
  induction r with
  | zero => simp [psum]
  | succ r ih =>
    rw [psum, ih, balanced]
    split_ifs with h
    · rw [min_eq_left (by omega), min_eq_left (by omega)]; ring
    · rw [min_eq_right (by omega), min_eq_right (by omega)]; ring

theorem psum_balanced_total (g : Nat) {n : Nat} (hn : 0 < n) : psum (balanced g n) n = g := by
  rw [psum_balanced, min_eq_right (Nat.mod_lt _ hn).le, Nat.mul_comm]
  exact Nat.div_add_mod' g n |>.symm ▸ rfl

theorem localSplit_eq (gshape : List Nat) (part : Partition) (axis r : Nat) :
    localSplit (env n J r) gshape part axis
      = (Layout.mk gshape part axis (balanced (len gshape axis) n) none).lshape r := by
  unfold localSplit Layout.lshape balanced
  simp only [env_rank, env_size]
  by_cases hb : part.isBroadcast = true
  · simp [hb]
  · by_cases h : r < len gshape axis % n <;> simp [hb, h]

theorem runs_mkDArr_none (hL : L.WF n) (hbal : L.part = .scatter → L.sizes = balanced (len L.gshape L.axis) n) :
    Runs n (fun r => mkDArr (env n J r) L.gshape L.part L.axis none L.mask dt)
      (fun r => .ok (L.fam n dt (junkData J L dt) r)) := by
  unfold mkDArr
  have e0 : ¬ L.gshape.length ≤ L.axis := by have := hL.axis_lt; omega
  simp only [if_neg e0, Prog.bind_eq, Option.getD_none, checkLocalShapes, if_true, Prog.ret_bind]
  refine Runs.bind_ok (runs_mkSub hL.mask) ?_
  refine Runs.congr (Runs.ret _) (fun r hr => ?_) (fun _ _ => rfl)
  have : localSplit (env n J r) L.gshape L.part L.axis = L.lshape r := by
    rw [localSplit_eq]
    by_cases hb : L.part.isBroadcast = true
    · rw [lshape_bcast hb]; simp [Layout.lshape, hb]
    · rw [lshape_scatter (isBroadcast_false hb), hbal (isBroadcast_false hb)]
      simp [Layout.lshape, hb]
  simp only [this]
  rfl

theorem runs_toDist_none {x : NDArray K} (hL : L.WF n)
    (hbal : L.part = .scatter → L.sizes = balanced (len L.gshape L.axis) n)
    (hsh : x.shape = L.gshape) (hx : x.WF) (hf : FitsL x.dtype x.data) :
    Runs n (fun r => toDist (env n J r) x L.part L.axis none L.mask)
      (fun r => .ok (L.fam n x.dtype (L.piece x.data) r)) := by
  unfold toDist
  simp only [Prog.bind_eq, hsh]
  refine Runs.bind_ok (runs_mkDArr_none hL hbal) ?_
  exact runs_toDist_set hL hsh hx hf _ (fun r _ => length_junk r)

omit [Field K] [StarRing K] [CharZero K] in
/-- gathering what was scattered -/
theorem global_piece (hL : L.WF n) {d : List K} (hd : d.length = L.gshape.prod) :
    L.globalData n (L.piece d) = d := by
  unfold Layout.globalData Layout.piece
  split_ifs with hb
  · rfl
  · exact concatData_slices hL.axis_lt hd _ _ (hL.sum (isBroadcast_false hb))

/-- scattering what was gathered -/
theorem piece_global (hL : L.WF n) (hp : L.part = .scatter) {a : Nat → List K}
    (ha : ∀ r < n, (a r).length = (L.lshape r).prod) {r : Nat} (hr : r < n) :
    L.piece (L.globalData n a) r = a r := by
  have hb : ¬ L.part.isBroadcast = true := by simp [hp, Partition.isBroadcast]
  unfold Layout.globalData Layout.piece
  rw [if_neg hb, if_neg hb]
  exact slice_concatData _ _ (hL.sum hp) a
    (fun r hr => by rw [ha r hr, length_lshape_prod hL hp]) hr

theorem globalData_zip {a b : Nat → List K} (f : K → K → K)
    (ha : ∀ r < n, (a r).length = (b r).length) :
    L.globalData n (fun r => List.zipWith f (a r) (b r))
      = List.zipWith f (L.globalData n a) (L.globalData n b) := by
  unfold Layout.globalData
  split_ifs
  · rfl
  · exact concatData_zipWith f _ _ _ _ _ _ (fun r hr => ha r (by simpa using hr))

theorem globalData_map {a : Nat → List K} (f : K → K) :
    L.globalData n (fun r => (a r).map f) = (L.globalData n a).map f := by
  unfold Layout.globalData
  split_ifs
  · rfl
  · exact concatData_map f _ _ _ _ _

theorem length_globalData (hn : 0 < n) (hL : L.WF n) {a : Nat → List K}
    (ha : ∀ r < n, (a r).length = (L.lshape r).prod) : (L.globalData n a).length = L.gshape.prod := by
  unfold Layout.globalData
  split_ifs with hb
  · rw [ha 0 hn, lshape_bcast hb]
  · have hp := isBroadcast_false hb
    rw [length_concatData, ← psum_eq_sum, hL.sum hp, ← prod_split hL.axis_lt]
    intro r hr
    rw [ha r (by simpa using hr), length_lshape_prod hL hp]

end Verif

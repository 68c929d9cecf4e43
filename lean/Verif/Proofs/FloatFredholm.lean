/- MPIFredholm1 and MPILinearOperator(Op) with arbitrary arithmetic: what the ranks compute. -/
import Verif.Spec.FloatFredholm
import Verif.Proofs.Fredholm
import Verif.Proofs.FloatExpr
import Verif.Proofs.FloatStacking

namespace Verif
open NDArray

variable {K : Type}

/-! ### matrices -/

section
variable (A : MatArith K)

theorem length_ctr (m p : Nat) (d : List K) : (A.ctr m p d).length = p * m := by simp [MatArith.ctr]

theorem ctr_eq (m p : Nat) (d : List K) : (@trData K ⟨A.zero⟩ m p d).map A.conj = A.ctr m p d := by
  letI : Zero K := ⟨A.zero⟩
  refine List.ext_getElem (by rw [List.length_map, length_trData, length_ctr]) fun q h1 h2 => ?_
  have hq : q < p * m := by simpa [length_ctr] using h2
  have hm : 0 < m := Nat.pos_of_ne_zero fun h => by subst h; simp at hq
  have hj : q / m < p := Nat.div_lt_of_lt_mul (by rw [Nat.mul_comm]; exact hq)
  have hi : q % m < m := Nat.mod_lt _ hm
  have e := getD_trData (d := d) hi hj
  rw [show q / m * m + q % m = q by rw [Nat.mul_comm]; exact Nat.div_add_mod q m] at e
  have h3 : q < (@trData K ⟨A.zero⟩ m p d).length := by simpa using h1
  rw [List.getD_eq_getElem?_getD, List.getElem?_eq_getElem h3, Option.getD_some] at e
  simp only [List.getElem_map, MatArith.ctr, List.getElem_range]
  exact congrArg A.conj e

variable {m k p : Nat} {tA tB : DType} {a b : List K} {w : MatCall}

theorem length_times (um : Bool) : (A.times um w tA tB m k p a b).length = m * p := by simp [MatArith.times]

theorem npDot_right (hw : w ≠ .plain) :
    A.npDot w ⟨[m, k], tA, a⟩ ⟨if p = 1 then [k] else [k, p], tB, b⟩ = .ok ⟨if p = 1 then [m] else [m, p], tA.promote tB, A.times false w tA tB m k p a b⟩ := by
  by_cases h : p = 1
  · subst h; simp [MatArith.npDot, MatArith.times, hw]
  · simp [MatArith.npDot, MatArith.times, hw, h]

theorem npDot_left :
    A.npDot .plain ⟨if p = 1 then [k] else [p, k], tA, a⟩ ⟨[k, m], tB, b⟩ = .ok ⟨if p = 1 then [m] else [p, m], tA.promote tB, A.times false .plain tA tB p k m a b⟩ := by
  by_cases h : p = 1
  · subst h; simp [MatArith.npDot, MatArith.times]
  · simp [MatArith.npDot, MatArith.times, h]

/-! ### the loop over slices -/

theorem a_setIndex_row (A : Arith K) {s i : Nat} {tail : List Nat} {dt : DType} {pre old post c : List K} {v : NDArray K} (hi : i < s) (hp : pre.length = i * tail.prod)
    (ho : old.length = tail.prod) (hv : bcastTo tail v = .ok c) (hc : c.length = tail.prod) :
    A.setIndex (Index.row i) (⟨s :: tail, dt, pre ++ old ++ post⟩ : NDArray K) v = .ok ⟨s :: tail, dt, pre ++ c.map (A.cast dt) ++ post⟩ := by
  have h1 : (-((len (s :: tail) 0 : Nat) : Int) ≤ (i : Int) ∧ (i : Int) < (len (s :: tail) 0 : Nat)) := by simp [len]; omega
  have e : pyBound (len (s :: tail) 0) (i : Int) = i := by
    simp only [pyBound, len, List.getD_cons_zero]
    rw [if_neg (by omega)]
    simp; omega
  simp only [Arith.setIndex, Index.row, if_pos h1, bind, Except.bind, List.tail_cons, hv, e]
  have hin : inner (s :: tail) 0 = tail.prod := by simp [inner]
  rw [hin]
  show Except.ok _ = _
  congr 2
  rw [← ho, ← writeAt_mid pre old post (c.map (A.cast dt)) (by rw [List.length_map]; exact hc.trans ho.symm), hp, ho]

theorem a_fredLoop {s : Nat} {tail : List Nat} {dt : DType} {f : Nat → Except Err (NDArray K)} {v : Nat → NDArray K} {c : Nat → List K}
    (hf : ∀ i < s, f i = .ok (v i)) (hv : ∀ i < s, bcastTo tail (v i) = .ok (c i)) (hc : ∀ i < s, (c i).length = tail.prod) :
    A.fredLoop s f (⟨s :: tail, dt, List.replicate (s * tail.prod) A.zero⟩ : NDArray K) = .ok ⟨s :: tail, dt, (List.range s).flatMap fun i => (c i).map (A.cast dt)⟩ := by
  have : ∀ m ≤ s, (List.range m).foldlM (fun y isl => do
      let v ← f isl
      A.setIndex (Index.row isl) y v) (⟨s :: tail, dt, List.replicate (s * tail.prod) A.zero⟩ : NDArray K)
      = .ok ⟨s :: tail, dt, ((List.range m).flatMap fun i => (c i).map (A.cast dt)) ++ List.replicate ((s - m) * tail.prod) A.zero⟩ := by
    intro m hm
    induction m with
    | zero => simp [pure, Except.pure]
    | succ m ih =>
      rw [List.range_succ, List.foldlM_append, ih (by omega)]
      have e : List.replicate ((s - m) * tail.prod) A.zero = List.replicate tail.prod A.zero ++ List.replicate ((s - (m + 1)) * tail.prod) A.zero := by
        rw [List.replicate_append_replicate]
        congr 1
        have : s - m = (s - (m + 1)) + 1 := by omega
        rw [this]; ring
      simp only [bind, Except.bind, List.foldlM_cons, List.foldlM_nil, pure, Except.pure, hf m (by omega)]
      rw [e, ← List.append_assoc, a_setIndex_row A.toArith (by omega) (length_flatMap_range fun o ho => by rw [List.length_map]; exact hc o (by omega)) (by simp) (hv m (by omega)) (hc m (by omega))]
      simp [List.flatMap_append]
  have h := this s le_rfl
  simp only [Nat.sub_self, Nat.zero_mul, List.replicate_zero, List.append_nil] at h
  exact h

/-! ### one rank -/

/-- what the version with a loop does with each entry of a slice -/
def fredStore (um : Bool) (dt : DType) (y : K) : K := if um then y else A.cast dt y

theorem a_get_row {s i : Nat} {tail : List Nat} {dt : DType} {d : List K} (hi : i < s) (hd : d.length = s * tail.prod) :
    A.get (Index.row i) (⟨s :: tail, dt, d⟩ : NDArray K) = .ok ⟨tail, dt, chunk tail.prod d i⟩ := @get_slice_row K ⟨A.zero⟩ s i tail dt d hi hd

theorem a_inArr_row {s m p i : Nat} {dx : DType} {d : List K} (hi : i < s) (hd : d.length = s * (m * p)) :
    A.get (Index.row i) (inArr s m p dx d) = .ok ⟨if p = 1 then [m] else [m, p], dx, chunk (m * p) d i⟩ := @inArr_row K ⟨A.zero⟩ s m p i dx d hi hd

theorem a_squeeze_zeros {s m p : Nat} {dt : DType} (hs : s ≠ 1) : (A.zerosOf [s, m, p] dt).squeeze = ⟨s :: sqz m p, dt, List.replicate (s * (sqz m p).prod) A.zero⟩ :=
  @squeeze_zeros K ⟨A.zero⟩ s m p dt hs

theorem map_store_true (dt : DType) (l : List K) : l.map (fredStore A true dt) = l := List.map_id _

theorem a_fredFwd {s nx ny nz : Nat} {dG dx dt : DType} {gd xd : List K} {nsls : List Nat} {tot : Nat} {gt : Option (NDArray K)} {um : Bool} (hs : s ≠ 1)
    (hg : gd.length = s * (nx * ny)) (hx : xd.length = s * (ny * nz)) :
    ∃ t, A.fredFwd ⟨⟨[s, nx, ny], dG, gd⟩, s, nx, ny, nz, nsls, tot, gt, um, dt⟩ (inArr s ny nz dx xd)
      = .ok ⟨outShape um s nx nz, t, (List.range s).flatMap fun k => (A.fredFwdSlice um dG dx nx ny nz (chunk (nx * ny) gd k) (chunk (ny * nz) xd k)).map (fredStore A um dt)⟩ := by
  unfold MatArith.fredFwd
  cases um with
  | true =>
    refine ⟨dG.promote dx, ?_⟩
    simp only [if_true, inArr_newaxis, MatArith.matmul, and_self, outShape, map_store_true]
    rfl
  | false =>
    refine ⟨dt, ?_⟩
    simp only [Bool.false_eq_true, if_false, outShape, a_squeeze_zeros A hs]
    refine a_fredLoop A (v := fun i => ⟨if nz = 1 then [nx] else [nx, nz], dG.promote dx, A.times false .fwd dG dx nx ny nz (chunk (nx * ny) gd i) (chunk (ny * nz) xd i)⟩)
      (fun i hi => ?_) (fun i hi => bcastTo_sqz rfl (length_times ..)) (fun i hi => (length_times A false).trans (prod_sqz nx nz).symm)
    have e := a_get_row A (tail := [nx, ny]) (dt := dG) (d := gd) hi (by simpa using hg)
    simp only [bind, Except.bind, e, a_inArr_row A hi hx, List.prod_cons, List.prod_nil, mul_one, npDot_right A (w := .fwd) (by decide)]

/-- the saved conjugate transpose -/
def savedGT (s nx ny : Nat) (dG : DType) (gd : List K) : NDArray K := ⟨[s, ny, nx], dG, (List.range s).flatMap fun i => A.ctr nx ny (chunk (nx * ny) gd i)⟩

theorem a_tr_inRow {m p : Nat} {dx : DType} {d : List K} (hd : d.length = m * p) :
    A.aconj (A.tr ⟨if p = 1 then [m] else [m, p], dx, d⟩) = ⟨if p = 1 then [m] else [p, m], dx, A.ctr m p d⟩ := by
  have := @tr_inRow K ⟨A.zero⟩ m p dx d hd
  unfold MatArith.tr MatArith.aconj
  rw [this, NDArray.map, ctr_eq]

theorem a_tr_outRow {m p : Nat} {dx : DType} {d : List K} (hd : d.length = p * m) :
    A.aconj (A.tr ⟨if p = 1 then [m] else [p, m], dx, d⟩) = ⟨if p = 1 then [m] else [m, p], dx, A.ctr p m d⟩ := by
  have := @tr_outRow K ⟨A.zero⟩ m p dx d hd
  unfold MatArith.tr MatArith.aconj
  rw [this, NDArray.map, ctr_eq]

theorem a_transpose {s m p : Nat} {dx : DType} {d : List K} :
    (A.transpose021 ⟨[s, m, p], dx, d⟩).map A.aconj = .ok ⟨[s, p, m], dx, (List.range s).flatMap fun i => A.ctr m p (chunk (m * p) d i)⟩ := by
  unfold MatArith.transpose021 NDArray.transpose021 MatArith.aconj
  simp only [Except.map, NDArray.map, List.map_flatMap, ctr_eq]

theorem a_transpose' {s m p : Nat} {dx : DType} {d : List K} :
    ∃ y, A.transpose021 ⟨[s, m, p], dx, d⟩ = .ok y ∧ A.aconj y = ⟨[s, p, m], dx, (List.range s).flatMap fun i => A.ctr m p (chunk (m * p) d i)⟩ := by
  have h := a_transpose A (s := s) (m := m) (p := p) (dx := dx) (d := d)
  cases e : A.transpose021 ⟨[s, m, p], dx, d⟩ with
  | error => rw [e] at h; cases h
  | ok y =>
    rw [e] at h
    exact ⟨y, rfl, Except.ok.inj h⟩

theorem a_fredAdj {s nx ny nz : Nat} {dG dx dt : DType} {gd xd : List K} {nsls : List Nat} {tot : Nat} {sg um : Bool} (hs : s ≠ 1)
    (hg : gd.length = s * (nx * ny)) (hx : xd.length = s * (nx * nz)) :
    ∃ t, A.fredAdj ⟨⟨[s, nx, ny], dG, gd⟩, s, nx, ny, nz, nsls, tot, if sg then some (savedGT A s nx ny dG gd) else none, um, dt⟩ (inArr s nx nz dx xd)
      = .ok ⟨outShape um s ny nz, t, (List.range s).flatMap fun k => (A.fredAdjSlice sg um dG dx nx ny nz (chunk (nx * ny) gd k) (chunk (nx * nz) xd k)).map (fredStore A um dt)⟩ := by
  have hgt : ∀ k < s, chunk (ny * nx) ((List.range s).flatMap fun i => A.ctr nx ny (chunk (nx * ny) gd i)) k = A.ctr nx ny (chunk (nx * ny) gd k) := by
    intro k hk
    rw [chunk_flatMap (fun _ _ => length_ctr ..) hk]
  unfold MatArith.fredAdj MatArith.fredAdjSlice
  cases um with
  | true =>
    simp only [if_true, inArr_newaxis, outShape, map_store_true]
    cases sg with
    | true =>
      refine ⟨dG.promote dx, ?_⟩
      simp only [if_true, MatArith.matmul, savedGT, and_self]
      congr 2
      refine List.flatMap_congr fun k hk => ?_
      rw [hgt k (by simpa using hk)]
      rfl
    | false =>
      refine ⟨dx.promote dG, ?_⟩
      obtain ⟨y, e1, e2⟩ := a_transpose' A (s := s) (m := nx) (p := nz) (dx := dx) (d := xd)
      simp only [Bool.false_eq_true, if_false, e1, bind, Except.bind, e2, MatArith.matmul, and_self, if_true]
      obtain ⟨z, f1, f2⟩ := a_transpose' A (s := s) (m := nz) (p := ny) (dx := dx.promote dG) (d := (List.range s).flatMap fun i => (List.range (nz * ny)).map (A.mm .plain dx dG nz nx ny
        (chunk (nz * nx) ((List.range s).flatMap fun i => A.ctr nx nz (chunk (nx * nz) xd i)) i) (chunk (nx * ny) gd i)))
      rw [f1]
      simp only [f2]
      congr 2
      refine List.flatMap_congr fun k hk => ?_
      have hk : k < s := by simpa using hk
      rw [chunk_flatMap (fun _ _ => by simp) hk, chunk_flatMap (fun _ _ => length_ctr ..) hk]
      rfl
  | false =>
    refine ⟨dt, ?_⟩
    simp only [Bool.false_eq_true, if_false, outShape, a_squeeze_zeros A hs]
    cases sg with
    | true =>
      refine a_fredLoop A (v := fun i => ⟨if nz = 1 then [ny] else [ny, nz], dG.promote dx, A.times false .saved dG dx ny nx nz (A.ctr nx ny (chunk (nx * ny) gd i)) (chunk (nx * nz) xd i)⟩)
        (fun i hi => ?_) (fun i hi => bcastTo_sqz rfl (length_times ..)) (fun i hi => (length_times A false).trans (prod_sqz ny nz).symm)
      have e := a_get_row A (tail := [ny, nx]) (dt := dG) (d := (List.range s).flatMap fun i => A.ctr nx ny (chunk (nx * ny) gd i)) hi
        (by rw [length_flatMap_range fun _ _ => length_ctr ..]; simp)
      simp only [List.prod_cons, List.prod_nil, mul_one] at e
      rw [hgt i hi] at e
      simp only [bind, Except.bind, savedGT, e, a_inArr_row A hi hx, npDot_right A (w := .saved) (by decide)]
    | false =>
      refine a_fredLoop A (v := fun i => ⟨if nz = 1 then [ny] else [ny, nz], dx.promote dG, A.ctr nz ny (A.times false .plain dx dG nz nx ny (A.ctr nx nz (chunk (nx * nz) xd i)) (chunk (nx * ny) gd i))⟩)
        (fun i hi => ?_) (fun i hi => bcastTo_sqz rfl (length_ctr ..)) (fun i hi => (length_ctr A nz ny _).trans (prod_sqz ny nz).symm)
      have e := a_get_row A (tail := [nx, ny]) (dt := dG) (d := gd) hi (by simpa using hg)
      simp only [List.prod_cons, List.prod_nil, mul_one] at e
      have hl : (chunk (nx * nz) xd i).length = nx * nz := length_chunk hx hi
      simp only [bind, Except.bind, e, a_inArr_row A hi hx, a_tr_inRow A hl, npDot_left]
      rw [a_tr_outRow A (length_times A false)]

/-! ### all ranks -/

variable {n : Nat} {sz : Nat → Nat} {nx ny nz : Nat} {sg um : Bool} {dG dt dx : DType} {g : List K} {J : Nat → Nat → K} {X : Layout}

/-- the attributes of the object on rank `r` -/
def aFredObj (n : Nat) (sz : Nat → Nat) (nx ny nz : Nat) (sg um : Bool) (dG dt : DType) (g : List K) (r : Nat) : Fred K :=
  ⟨kern sz nx ny dG g r, sz r, nx, ny, nz, (List.range n).map sz, psum sz n, if sg then some (savedGT A (sz r) nx ny dG (slab (nx * ny) (psum sz r) (sz r) g)) else none, um, dt⟩

/-- the operator on rank `r` -/
def aFredPrim (n : Nat) (sz : Nat → Nat) (nx ny nz : Nat) (sg um : Bool) (dG dt : DType) (g : List K) (r : Nat) : Prim K :=
  { rows := psum sz n * nx * nz, cols := psum sz n * ny * nz, dtype := dt,
    mv := A.fredMv (aFredObj A n sz nx ny nz sg um dG dt g r) false, rmv := A.fredMv (aFredObj A n sz nx ny nz sg um dG dt g r) true }

theorem runs_aMkFredholm (h1 : ∀ r < n, sz r ≠ 1) :
    Runs n (fun r => A.mkFredholm (env n J r) (kern sz nx ny dG g r) nz sg um dt) (fun r => .ok (aFredPrim A n sz nx ny nz sg um dG dt g r)) := by
  unfold MatArith.mkFredholm
  simp only [kern, Prog.bind_eq]
  refine runs_allgather (v := sz) ?_
  have hc : ∀ r, ¬ ((env n J r).rank = 0 ∧ 1 ∈ (List.range n).map sz) := by
    rintro r ⟨-, h⟩
    obtain ⟨q, hq, e⟩ := List.mem_map.1 h
    exact h1 q (by simpa using hq) e
  simp only [if_neg (hc _)]
  refine runs_allreduce_nat (v := sz) ?_
  refine (Runs.ret fun r => aFredPrim A n sz nx ny nz sg um dG dt g r).congr (fun r _ => ?_) fun _ _ => rfl
  cases sg
  · rfl
  · have h := a_transpose A (s := sz r) (m := nx) (p := ny) (dx := dG) (d := slab (nx * ny) (psum sz r) (sz r) g)
    have e : (A.transpose021 ⟨[sz r, nx, ny], dG, slab (nx * ny) (psum sz r) (sz r) g⟩).map (some ∘ A.aconj) = .ok (some (savedGT A (sz r) nx ny dG (slab (nx * ny) (psum sz r) (sz r) g))) := by
      cases e : A.transpose021 ⟨[sz r, nx, ny], dG, slab (nx * ny) (psum sz r) (sz r) g⟩ with
      | error => rw [e] at h; cases h
      | ok y =>
        rw [e] at h
        exact congrArg (fun z => Except.ok (some z)) (Except.ok.inj h)
    simp only [if_true, e]
    rfl

/-- block `k` of the result -/
def aFredBlock (nx ny nz : Nat) (sg um : Bool) (dG dx dt : DType) (g : List K) (b : Bool) (d : List K) (k : Nat) : List K :=
  (if b then A.fredAdjSlice sg um dG dx nx ny nz (chunk (nx * ny) g k) (chunk (nx * nz) d k)
    else A.fredFwdSlice um dG dx nx ny nz (chunk (nx * ny) g k) (chunk (ny * nz) d k)).map (fredStore A um dt)

theorem length_aFredBlock (b : Bool) (d : List K) (k : Nat) : (aFredBlock A nx ny nz sg um dG dx dt g b d k).length = (if b then ny else nx) * nz := by
  unfold aFredBlock MatArith.fredAdjSlice MatArith.fredFwdSlice
  cases b <;> cases sg <;> simp [length_times, length_ctr]

theorem aFred_blocks (h1 : ∀ r < n, sz r ≠ 1) (hg : g.length = psum sz n * (nx * ny)) (b : Bool) {d : List K} (hlen : d.length = psum sz n * ((if b then nx else ny) * nz)) {r : Nat} (hr : r < n) :
    ∃ t, (if b then A.fredAdj (aFredObj A n sz nx ny nz sg um dG dt g r) (inArr (sz r) (if b then nx else ny) nz dx (slab ((if b then nx else ny) * nz) (psum sz r) (sz r) d))
        else A.fredFwd (aFredObj A n sz nx ny nz sg um dG dt g r) (inArr (sz r) (if b then nx else ny) nz dx (slab ((if b then nx else ny) * nz) (psum sz r) (sz r) d)))
        = .ok ⟨outShape um (sz r) (if b then ny else nx) nz, t, (List.range (sz r)).flatMap fun k => aFredBlock A nx ny nz sg um dG dx dt g b d (psum sz r + k)⟩ := by
  have hlg : (slab (nx * ny) (psum sz r) (sz r) g).length = sz r * (nx * ny) := length_slab hg (psum_mono sz (r := r + 1) hr)
  have hld : (slab ((if b then nx else ny) * nz) (psum sz r) (sz r) d).length = sz r * ((if b then nx else ny) * nz) := length_slab hlen (psum_mono sz (r := r + 1) hr)
  cases b with
  | false =>
    obtain ⟨t, e⟩ := a_fredFwd A (nz := nz) (dG := dG) (dx := dx) (dt := dt) (nsls := (List.range n).map sz) (tot := psum sz n)
      (gt := (aFredObj A n sz nx ny nz sg um dG dt g r).GT) (um := um) (h1 r hr) hlg hld
    refine ⟨t, e.trans ?_⟩
    congr 2
    refine List.flatMap_congr fun k hk => ?_
    have hk : k < sz r := by simpa using hk
    simp only [Bool.false_eq_true, if_false, chunk_slab hk, aFredBlock]
  | true =>
    obtain ⟨t, e⟩ := a_fredAdj A (nz := nz) (dG := dG) (dx := dx) (dt := dt) (nsls := (List.range n).map sz) (tot := psum sz n)
      (sg := sg) (um := um) (h1 r hr) hlg hld
    refine ⟨t, e.trans ?_⟩
    congr 2
    refine List.flatMap_congr fun k hk => ?_
    have hk : k < sz r := by simpa using hk
    simp only [if_true, chunk_slab hk, aFredBlock]

theorem fredholm_v (b : Bool) (T : Nat) (x : SVec K) :
    (A.fredholm sg um dG dt T nx ny nz g b x).v = ((List.range T).flatMap (aFredBlock A nx ny nz sg um dG x.dt dt g b x.v)).map (A.cast dt) := by
  unfold MatArith.fredholm aFredBlock
  simp only [List.map_flatMap, List.map_map]
  rfl

theorem aFredMv_takes (h1 : ∀ r < n, sz r ≠ 1) (hg : g.length = psum sz n * (nx * ny)) (b : Bool)
    (hn1 : (if b then nx else ny) ≠ 1) (hu : um = true ∨ (if b then ny else nx) ≠ 1 ∨ nz ≠ 1 ∨ ∀ r < n, sz r = sz 0)
    (hX : X.part.isBroadcast = true) (hXg : X.gshape = [psum sz n * (if b then nx else ny) * nz]) :
    TakesTo n J (fun r => A.fredMv (aFredObj A n sz nx ny nz sg um dG dt g r) b) ⟨X, dx⟩ ⟨.all (psum sz n * (if b then ny else nx) * nz), dt⟩
      (A.fredholm sg um dG dt (psum sz n) nx ny nz g b) := by
  refine TakesTo.intro fun x hx hd => ?_
  have hlen : x.v.length = psum sz n * ((if b then nx else ny) * nz) := by rw [hx]; simp [hXg, Nat.mul_assoc]
  have hFl := length_aFredBlock A (sg := sg) (um := um) (dG := dG) (dx := x.dt) (dt := dt) (g := g) (nx := nx) (ny := ny) (nz := nz) b x.v
  have hw : ((List.range (psum sz n)).flatMap (aFredBlock A nx ny nz sg um dG x.dt dt g b x.v)).length = psum sz n * (if b then ny else nx) * nz := by
    rw [length_flatMap_range fun k _ => hFl k, Nat.mul_assoc]
  refine ⟨rfl, by rw [fredholm_v, List.length_map, hw]; simp [Layout.all], ?_⟩
  rcases Nat.eq_zero_or_pos n with rfl | hn
  · exact Runs.of_zero
  haveI : Nonempty DType := ⟨.real⟩
  have hFr := fun r (hr : r < n) => aFred_blocks A (sg := sg) (um := um) (dG := dG) (dx := x.dt) (dt := dt) h1 hg b hlen hr
  choose! t ht using hFr
  have e0 : ∀ r, ¬ ¬ (x.dpart X n r).part.isBroadcast = true := fun r => not_not.2 hX
  unfold MatArith.fredMv
  simp only [if_neg (e0 _), Prog.bind_eq]
  refine Runs.bind_ok (a_mkDArr_all A.toOpArith (J := J) (dt := dt) (N := psum sz n * (if b then ny else nx) * nz)) ?_
  have hl : ∀ r, (x.dpart X n r).larr = ⟨[psum sz n * (if b then nx else ny) * nz], x.dt, x.v⟩ := fun r => by
    simp [SVec.dpart, Layout.fam, lshape_bcast hX, hXg, Layout.piece, hX]
  have hin : ∀ r < n, fredInput (env n J r) (aFredObj A n sz nx ny nz sg um dG dt g r) (if b then nx else ny) (x.dpart X n r).larr
      = .ok (inArr (sz r) (if b then nx else ny) nz x.dt (slab ((if b then nx else ny) * nz) (psum sz r) (sz r) x.v)) := fun r hr => by
    rw [hl]; exact fredInput_ok hr h1 hn1 hlen rfl rfl rfl
  obtain ⟨s, t', hv⟩ := vstack_out (n := n) hn (um := um) (m := if b then ny else nx) (p := nz) (sz := sz) hu (t := t)
    (a := fun r => (List.range (sz r)).flatMap fun k => aFredBlock A nx ny nz sg um dG x.dt dt g b x.v (psum sz r + k)) (fun r _ => length_flatMap_range fun k _ => hFl _)
  rw [flatMap_psum] at hv
  refine Runs.congr (ps := fun r => (allgather (env n J r) (⟨outShape um (sz r) (if b then ny else nx) nz, t r, (List.range (sz r)).flatMap fun k => aFredBlock A nx ny nz sg um dG x.dt dt g b x.v (psum sz r + k)⟩ : NDArray K)).bind
    fun l => (Prog.lift (vstack l)).bind fun v => A.setAll (env n J r) ((Layout.all (psum sz n * (if b then ny else nx) * nz)).fam n dt (aJunk A.toArith J (.all (psum sz n * (if b then ny else nx) * nz)) dt) r) v.flatten)
    ?_ (fun r hr => ?_) fun _ _ => rfl
  · refine runs_allgather (v := fun r => (⟨outShape um (sz r) (if b then ny else nx) nz, t r, (List.range (sz r)).flatMap fun k => aFredBlock A nx ny nz sg um dG x.dt dt g b x.v (psum sz r + k)⟩ : NDArray K)) ?_
    rw [hv]
    refine (b_set A.toArith (J := J) (L := .all (psum sz n * (if b then ny else nx) * nz)) (dt := dt) (dt' := t') (a := aJunk A.toArith J (.all (psum sz n * (if b then ny else nx) * nz)) dt)
      (w := (List.range (psum sz n)).flatMap (aFredBlock A nx ny nz sg um dG x.dt dt g b x.v)) (all_wf rfl) (fun r _ => length_aJunk A.toArith r) (by rw [hw]; simp [Layout.all])).congr (fun r _ => ?_) fun r _ => ?_
    · simp only [Prog.lift_ok, Prog.ret_bind, NDArray.flatten, hw]
      rfl
    · simp only [SVec.dpart, fredholm_v]
      rfl
  · have e1 : (aFredObj A n sz nx ny nz sg um dG dt g r).nx = nx := rfl
    have e2 : (aFredObj A n sz nx ny nz sg um dG dt g r).ny = ny := rfl
    rw [e1, e2, hin r hr]
    dsimp only [Prog.lift, Prog.ret_bind]
    rw [ht r hr]
    rfl

end

/-! ### wrapped serial operators -/

section
variable (A : OpArith K) {n : Nat} {J : Nat → Nat → K} {o : FOp K} {b : Bool} {X : Layout} {dx : DType}

theorem a_mkDArr_bcast {N : Nat} {dt : DType} {p : Partition} (hp : p.isBroadcast = true) :
    Runs n (fun r => A.mkDArr (env n J r) [N] p 0 none none dt) (fun r => .ok ((Layout.all N p).fam n dt (aJunk A.toArith J (.all N p) dt) r)) := by
  refine runs_local fun r hr => ?_
  unfold Arith.mkDArr
  have e0 : ¬ [N].length ≤ 0 := by simp
  simp only [if_neg e0, Prog.bind_eq, Option.getD_none, checkLocalShapes, mkSub, if_true, Prog.ret_bind]
  cases p <;> first | rfl | cases hp

theorem wrap_takes (ho : o.Sized b) (hXw : X.WF n) (hX : X.part.isBroadcast = true) (hXg : X.gshape = [o.inDim b]) :
    TakesTo n J (fun _ => A.wrapMv o b) ⟨X, dx⟩ ⟨.all (o.inDim (!b)) X.part, o.dtype⟩ (A.serial o b) := by
  refine TakesTo.intro fun x hx hd => ?_
  have hlen : x.v.length = o.inDim b := by rw [hx]; simp [hXg]
  have hfn : (if b then o.adj else o.fwd) x.dt x.v = (o.on x.dt).fn b x.v := by cases b <;> rfl
  have hl' : ((o.on x.dt).fn b x.v).length = o.inDim (!b) := ho x.dt x.v hlen
  refine ⟨rfl, by simp only [OpArith.serial, List.length_map, hfn, hl']; simp [Layout.all], ?_⟩
  have hax : X.axis = 0 := by have := hXw.axis_lt; rw [hXg] at this; simpa using this
  have hW : (Layout.all (o.inDim (!b)) X.part).WF n := all_wf hX
  unfold OpArith.wrapMv
  simp only [Prog.bind_eq]
  refine Runs.bind_ok (a := fun r => (Layout.all (o.inDim (!b)) X.part).fam n o.dtype (aJunk A.toArith J (.all (o.inDim (!b)) X.part) o.dtype) r) ?_ ?_
  · refine (a_mkDArr_bcast A (J := J) (N := o.inDim (!b)) (dt := o.dtype) hX).congr (fun r _ => ?_) fun _ _ => rfl
    simp only [SVec.dpart, Layout.fam, hax]
    cases b <;> rfl
  · have hl : ∀ r, (x.dpart X n r).larr = ⟨[o.inDim b], x.dt, x.v⟩ := fun r => by
      simp [SVec.dpart, Layout.fam, lshape_bcast hX, hXg, Layout.piece, hX]
    have e : ∀ r, (o.on (x.dpart X n r).larr.dtype).apply b (x.dpart X n r).larr = .ok ⟨[o.inDim (!b)], o.dtype.promote x.dt, (o.on x.dt).fn b x.v⟩ := fun r => by
      rw [hl]; unfold LOp.apply
      have h1 : (o.on x.dt).inDim b = o.inDim b := by cases b <;> rfl
      have h2 : (o.on x.dt).outDim b = o.inDim (!b) := by cases b <;> rfl
      rw [if_neg (by simp [h1]), h2]
      rfl
    simp only [e, Prog.lift_ok, Prog.ret_bind]
    refine (b_set A.toArith (J := J) (L := .all (o.inDim (!b)) X.part) (dt := o.dtype) (dt' := o.dtype.promote x.dt) (a := aJunk A.toArith J (.all (o.inDim (!b)) X.part) o.dtype)
      (w := (o.on x.dt).fn b x.v) hW (fun r _ => length_aJunk A.toArith r) (by rw [hl']; simp [Layout.all])).congr (fun r _ => ?_) fun r _ => ?_
    · rw [lshape_bcast (L := .all (o.inDim (!b)) X.part) hX]
      simp [Layout.piece, hX, Layout.all]
    · simp only [SVec.dpart, OpArith.serial, hfn]

end
end Verif

/- Operations on distributed vectors. -/
import Verif.Proofs.Reduce
import Verif.Proofs.Norm
import Verif.Proofs.Ghost
import Verif.Spec.Vector
import Verif.Model.LinearOperator

namespace Verif
open NDArray Relation

set_option linter.unusedSectionVars false

variable {K : Type} [Field K] [StarRing K] [CharZero K] {n : Nat} {J : Nat → Nat → K} {L : Layout} {dt : DType} {S : VSpace}

omit [Field K] [StarRing K] [CharZero K] in
theorem sliceData_map (s : List Nat) (ax lo hi : Nat) (f : K → K) (d : List K) :
    sliceData s ax lo hi (d.map f) = (sliceData s ax lo hi d).map f := by
  unfold sliceData
  rw [List.map_flatMap]
  congr 1
  funext o
  rw [chunk_map, List.map_take, List.map_drop]

omit [Field K] [StarRing K] [CharZero K] in
theorem sliceData_zipWith (s : List Nat) (ax lo hi : Nat) (f : K → K → K) {d e : List K} (h : d.length = e.length) :
    sliceData s ax lo hi (List.zipWith f d e) = List.zipWith f (sliceData s ax lo hi d) (sliceData s ax lo hi e) := by
  unfold sliceData
  rw [zipWith_flatMap]
  · congr 1
    funext o
    rw [chunk_zipWith, List.drop_zipWith, List.take_zipWith]
  · intro o _
    simp [chunk, h]

omit [Field K] [StarRing K] [CharZero K] in
theorem piece_map (f : K → K) (d : List K) (r : Nat) : L.piece (d.map f) r = (L.piece d r).map f := by
  unfold Layout.piece
  split_ifs
  · rfl
  · exact sliceData_map _ _ _ _ _ _

omit [Field K] [StarRing K] [CharZero K] in
theorem piece_zip (f : K → K → K) {d e : List K} (h : d.length = e.length) (r : Nat) :
    L.piece (List.zipWith f d e) r = List.zipWith f (L.piece d r) (L.piece e r) := by
  unfold Layout.piece
  split_ifs
  · rfl
  · exact sliceData_zipWith _ _ _ _ _ h

omit [Field K] [StarRing K] [CharZero K] in
theorem sliceData_axis0 {s : List Nat} (hs : s ≠ []) {lo hi : Nat} {d : List K} (hd : d.length = s.prod) :
    sliceData s 0 lo hi d = (d.drop (lo * inner s 0)).take ((hi - lo) * inner s 0) := by
  have hax : 0 < s.length := List.length_pos_iff.2 hs
  have h1 : outer s 0 = 1 := by simp [outer]
  unfold sliceData
  rw [h1]
  simp only [List.range_one, List.flatMap_cons, List.flatMap_nil, List.append_nil, chunk, Nat.zero_mul, List.drop_zero]
  have : len s 0 * inner s 0 = d.length := by rw [hd, prod_split hax, h1, Nat.one_mul]
  rw [this, List.take_length]

omit [Field K] [StarRing K] [CharZero K] in
theorem piece_axis0 (hL : L.WF n) (hp : L.part = .scatter) (hax : L.axis = 0) {d : List K} (hd : d.length = L.gshape.prod) (r : Nat) :
    L.piece d r = (d.drop (psum L.sizes r * inner L.gshape 0)).take (L.sizes r * inner L.gshape 0) := by
  have hs : L.gshape ≠ [] := by
    intro h
    have := hL.axis_lt
    simp [h] at this
  unfold Layout.piece
  rw [if_neg (by simp [hp, Partition.isBroadcast]), hax, sliceData_axis0 hs hd]
  simp [psum]

theorem good_vec (hL : S.L.WF n) {d : List K} (hd : S.Mem d) : S.L.Good n S.dt (S.L.piece d) := good_piece hL hd.1 hd.2

theorem mem_map {f : K → K} (hf : S.dt = .real → ∀ x, star x = x → star (f x) = f x) {d : List K} (hd : S.Mem d) : S.Mem (d.map f) := by
  refine ⟨by rw [List.length_map, hd.1], fun h x hx => ?_⟩
  obtain ⟨y, hy, rfl⟩ := List.mem_map.1 hx
  exact hf h y (hd.2 h y hy)

theorem mem_zip {f : K → K → K} (hf : S.dt = .real → ∀ x y, star x = x → star y = y → star (f x y) = f x y) {d e : List K}
    (hd : S.Mem d) (he : S.Mem e) : S.Mem (List.zipWith f d e) := by
  refine ⟨by rw [List.length_zipWith, hd.1, he.1, Nat.min_self], fun h x hx => ?_⟩
  obtain ⟨i, hi, rfl⟩ := List.getElem_of_mem hx
  simp only [List.getElem_zipWith]
  exact hf h _ _ (hd.2 h _ (List.getElem_mem _)) (he.2 h _ (List.getElem_mem _))

theorem vec_congr {a : Nat → List K} {d : List K} {r : Nat} (h : a r = S.L.piece d r) : S.L.fam n S.dt a r = S.vec n d r :=
  fam_congr h

theorem mem_neg {d : List K} (hd : S.Mem d) : S.Mem (d.map (- ·)) := mem_map (fun _ x hx => by simp [hx]) hd
theorem mem_conj {d : List K} (hd : S.Mem d) : S.Mem (d.map star) := mem_map (fun _ x hx => by simp [hx]) hd
theorem mem_smul {s : K} (hs : S.dt = .real → star s = s) {d : List K} (hd : S.Mem d) : S.Mem (d.map (· * s)) :=
  mem_map (fun h x hx => by simp [hx, hs h, mul_comm]) hd
theorem mem_add {d e : List K} (hd : S.Mem d) (he : S.Mem e) : S.Mem (List.zipWith (· + ·) d e) :=
  mem_zip (fun _ x y hx hy => by simp [hx, hy]) hd he
theorem mem_sub {d e : List K} (hd : S.Mem d) (he : S.Mem e) : S.Mem (List.zipWith (· - ·) d e) :=
  mem_zip (fun _ x y hx hy => by simp [hx, hy]) hd he

theorem runs_neg_vec (hL : S.L.WF n) {d : List K} (hd : S.Mem d) :
    Runs n (fun r => (S.vec n d r).neg (env n J r)) (fun r => .ok (S.vec n (d.map (- ·)) r)) :=
  (runs_neg hL (good_vec hL hd)).congr (fun _ _ => rfl) fun r _ => by rw [vec_congr (piece_map _ d r).symm]

theorem runs_conj_vec (hL : S.L.WF n) {d : List K} (hd : S.Mem d) :
    Runs n (fun r => (S.vec n d r).conj (env n J r)) (fun r => .ok (S.vec n (d.map star) r)) :=
  (runs_conj hL (good_vec hL hd)).congr (fun _ _ => rfl) fun r _ => by rw [vec_congr (piece_map _ d r).symm]

theorem runs_copy_vec (hL : S.L.WF n) {d : List K} (hd : S.Mem d) :
    Runs n (fun r => (S.vec n d r).copy (env n J r)) (fun r => .ok (S.vec n d r)) :=
  runs_copy hL (good_vec hL hd)

theorem runs_smul_vec (hL : S.L.WF n) {t : DType} {s : K} (hs : S.dt = .real → star s = s) {d : List K} (hd : S.Mem d) :
    Runs n (fun r => (S.vec n d r).smul (env n J r) t s) (fun r => .ok (S.vec n (d.map (· * s)) r)) :=
  (runs_smul hs hL (good_vec hL hd)).congr (fun _ _ => rfl) fun r _ => by rw [vec_congr (piece_map _ d r).symm]

theorem runs_add_vec (hL : S.L.WF n) {d e : List K} (hd : S.Mem d) (he : S.Mem e) :
    Runs n (fun r => (S.vec n d r).add (env n J r) (S.vec n e r)) (fun r => .ok (S.vec n (List.zipWith (· + ·) d e) r)) :=
  (runs_add hL (good_vec hL hd) (good_vec hL he)).congr (fun _ _ => rfl) fun r _ => by
    rw [vec_congr (piece_zip _ (hd.1.trans he.1.symm) r).symm]

theorem runs_iadd_vec (hL : S.L.WF n) {d e : List K} (hd : S.Mem d) (he : S.Mem e) :
    Runs n (fun r => (S.vec n d r).iadd (env n J r) (S.vec n e r)) (fun r => .ok (S.vec n (List.zipWith (· + ·) d e) r)) :=
  (runs_iadd (good_vec hL hd) (good_vec hL he)).congr (fun _ _ => rfl) fun r _ => by
    rw [vec_congr (piece_zip _ (hd.1.trans he.1.symm) r).symm]

theorem runs_sub_vec (hL : S.L.WF n) {d e : List K} (hd : S.Mem d) (he : S.Mem e) :
    Runs n (fun r => (S.vec n d r).sub' (env n J r) (S.vec n e r)) (fun r => .ok (S.vec n (List.zipWith (· - ·) d e) r)) :=
  (runs_sub hL (good_vec hL hd) (good_vec hL he)).congr (fun _ _ => rfl) fun r _ => by
    rw [vec_congr (piece_zip _ (hd.1.trans he.1.symm) r).symm]

theorem runs_isub_vec (hL : S.L.WF n) {d e : List K} (hd : S.Mem d) (he : S.Mem e) :
    Runs n (fun r => (S.vec n d r).isub (env n J r) (S.vec n e r)) (fun r => .ok (S.vec n (List.zipWith (· - ·) d e) r)) :=
  (runs_isub hL (good_vec hL hd) (good_vec hL he)).congr (fun _ _ => rfl) fun r _ => by
    rw [vec_congr (piece_zip _ (hd.1.trans he.1.symm) r).symm]

theorem runs_dot_vec (hL : S.L.WF n) (hm : S.L.mask = none) {d e : List K} (hd : S.Mem d) (he : S.Mem e) :
    Runs n (fun r => (S.vec n d r).dot (env n J r) (S.vec n e r)) (fun _ => .ok (List.zipWith (· * ·) d e).sum) := by
  rcases Nat.eq_zero_or_pos n with rfl | hn
  · exact Runs.of_zero
  have hga : ∀ (d : List K), S.L.part.isBroadcast = true → ∀ r < n, S.L.piece d r = S.L.piece d 0 := by
    intro d hb r _; simp [Layout.piece, hb]
  refine (runs_dot (J := J) hn hL (good_vec hL hd) (good_vec hL he) (hga d) (hga e)).congr (fun _ _ => rfl) fun r hr => ?_
  simp only [Layout.members, hm]
  rw [sum_dot_global hn hL (good_vec hL hd).length (good_vec hL he).length, global_piece hL hd.1, global_piece hL he.1]

/-- allocate an array of the given layout and assign all of it -/
theorem runs_new_vec (hL : S.L.WF n) {v : Nat → NDArray K} {e : List K} (he : S.Mem e)
    (hs : ∀ r < n, (v r).shape = S.L.lshape r) (hv : ∀ r < n, (v r).data = S.L.piece e r) (a : Nat → List K)
    (ha : ∀ r < n, (a r).length = (S.L.lshape r).prod) :
    Runs n (fun r => (S.L.fam n S.dt a r).setAll (env n J r) (v r)) (fun r => .ok (S.vec n e r)) := by
  have h := good_vec hL he
  have h1 : S.L.Good n S.dt (fun r => (v r).data) := by
    refine ⟨fun r hr => by rw [hv r hr]; exact h.length r hr, fun r hr => by rw [hv r hr]; exact h.fits r hr, fun hb r hr => ?_⟩
    have h0 : 0 < n := by omega
    rw [hv r hr, hv 0 h0]
    exact h.consistent hb r hr
  refine (runs_setAll_good (J := J) (L := S.L) (dt := S.dt) (a := a) (v := v) ha hs h1).congr (fun _ _ => rfl) fun r hr => ?_
  rw [vec_congr (hv r hr)]

theorem runs_scaleInPlace_vec (hL : S.L.WF n) {s : Scal K} (hs : S.dt = .real → s.dtype = .real ∧ star s.val = s.val) {d : List K} (hd : S.Mem d) :
    Runs n (fun r => (S.vec n d r).scaleInPlace (env n J r) s) (fun r => .ok (S.vec n (d.map (· * s.val)) r)) := by
  unfold DArr.scaleInPlace
  have e1 : ∀ r, ¬ ((S.vec n d r).dtype = .real ∧ s.dtype = .cplx) := by
    rintro r ⟨h1, h2⟩
    have := (hs h1).1
    rw [h2] at this
    cases this
  simp only [if_neg (e1 _)]
  have hmem : S.Mem (d.map (· * s.val)) := mem_smul (fun h => (hs h).2) hd
  refine runs_new_vec (J := J) (S := S) hL hmem (v := fun r => ⟨S.L.lshape r, S.dt, (S.L.piece d r).map (· * s.val)⟩) (fun _ _ => rfl)
    (fun r _ => (piece_map _ d r).symm) (fun r => (S.L.piece d r).map (· * s.val)) fun r hr => ?_
  rw [List.length_map]
  exact (good_vec hL hd).length r hr

theorem runs_asarray_vec (hL : S.L.WF n) {d : List K} (hd : S.Mem d) :
    Runs n (fun r => (S.vec n d r).asarray (env n J r)) (fun _ => .ok ⟨S.L.gshape, S.dt, d⟩) := by
  have hp : S.L.globalData n (S.L.piece d) = d := global_piece hL hd.1
  by_cases hb : S.L.part.isBroadcast = true
  · refine (runs_asarray_bcast (J := J) hb).congr (fun _ _ => rfl) fun r _ => ?_
    simp [Layout.piece, hb]
  · refine (runs_asarray (J := J) hL (isBroadcast_false hb)).congr (fun _ _ => rfl) fun r _ => ?_
    unfold Layout.global
    rw [hp]

end Verif

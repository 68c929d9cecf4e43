/- MPILinearOperator(Op) on broadcast arrays, and MPIMDC. -/
import Verif.Model.MDC
import Verif.Spec.MDC
import Verif.Proofs.Fredholm
import Verif.Proofs.Laplacian
import Verif.Props.C28

namespace Verif
open NDArray
set_option linter.unusedSectionVars false

variable {K : Type} [Field K] [StarRing K] [CharZero K]

/-! ### wrapped local operators -/

theorem wrapMv_computes {n : Nat} {J : Nat → Nat → K} {o : LOp K} {b : Bool} {X : Layout} {dx : DType} (ho : o.Ok b dx o.dtype) (hXw : X.WF n) (hX : X.part.isBroadcast = true)
    (hXg : X.gshape = [o.inDim b]) : Computes n J (fun _ c x => wrapMv o b c x) ⟨X, dx⟩ ⟨.all (o.outDim b) X.part, o.dtype⟩ (o.fn b) := by
  refine Computes.intro fun d hd => ?_
  have hlen : d.length = o.inDim b := by rw [hd.1]; simp [hXg]
  have hM : VSpace.Mem ⟨.all (o.outDim b) X.part, o.dtype⟩ (o.fn b d) := ⟨by rw [ho.length d hlen]; simp [Layout.all], ho.fits d hlen hd.2⟩
  refine ⟨hM, ?_⟩
  have hax : X.axis = 0 := by have := hXw.axis_lt; rw [hXg] at this; simpa using this
  have hW : (Layout.all (o.outDim b) X.part).WF n := all_wf hX
  unfold wrapMv
  simp only [Prog.bind_eq]
  refine Runs.bind_ok (a := fun r => (Layout.all (o.outDim b) X.part).fam n o.dtype (junkData J (Layout.all (o.outDim b) X.part) o.dtype) r) ?_ ?_
  · have := runs_mkDArr_none (J := J) (dt := o.dtype) (L := .all (o.outDim b) X.part) hW (fun h => by
      have h' : X.part = .scatter := h
      rw [h'] at hX; cases hX)
    refine this.congr (fun r _ => ?_) fun _ _ => rfl
    simp [VSpace.vec, Layout.fam, Layout.all, hax]
  · have hl : ∀ r, (VSpace.vec ⟨X, dx⟩ n d r).larr = ⟨[o.inDim b], dx, d⟩ := fun r => by
      simp [VSpace.vec, Layout.fam, lshape_bcast hX, hXg, Layout.piece, hX]
    have e : ∀ r, o.apply b (VSpace.vec ⟨X, dx⟩ n d r).larr = .ok ⟨[o.outDim b], o.dtype.promote dx, o.fn b d⟩ := fun r => by
      rw [hl]; unfold LOp.apply; rw [if_neg (by simp)]
    simp only [e, Prog.lift_ok, Prog.ret_bind]
    refine runs_new_vec (J := J) (S := ⟨.all (o.outDim b) X.part, o.dtype⟩) hW hM (fun r _ => ?_) (fun r hr => ?_) _ fun r _ => length_junk r
    · exact (lshape_bcast (L := .all (o.outDim b) X.part) hX r).symm
    · simp [Layout.piece, Layout.all, hX]

/-! ### Identity -/

theorem padTo_eq (N : Nat) (x : List K) : padTo N x = toSize N x := by
  unfold padTo toSize
  refine List.ext_getElem (by simp; omega) fun i h1 h2 => ?_
  have hi : i < N := by simpa using h2
  rw [List.getElem_append]
  by_cases h : i < x.length
  · rw [dif_pos (by simp; omega)]
    simp [List.getD_eq_getElem?_getD, h]
  · rw [dif_neg (by simp; omega)]
    simp [List.getD_eq_getElem?_getD, h]

theorem length_toSize (N : Nat) (x : List K) : (toSize N x).length = N := by simp [toSize]

theorem getD_toSize {N : Nat} {x : List K} {i : Nat} : (toSize N x).getD i 0 = if i < N then x.getD i 0 else 0 := by
  unfold toSize
  by_cases h : i < N <;> simp [List.getD_eq_getElem?_getD, h]

theorem toSize_self {N : Nat} {x : List K} (h : x.length = N) : toSize N x = x := by
  refine List.ext_getElem (by simp [toSize, h]) fun i h1 h2 => ?_
  simp [toSize, List.getD_eq_getElem?_getD, h2]

theorem ip_eq_sum {N : Nat} {u v : List K} (hu : u.length = N) (hv : v.length = N) : ip u v = ∑ i ∈ Finset.range N, star (u.getD i 0) * v.getD i 0 := by
  conv_lhs => rw [← toSize_self hu, ← toSize_self hv]
  exact ip_map

theorem ip_toSize {N M : Nat} {u v : List K} (hu : u.length = M) (hv : v.length = N) : ip (toSize N u) v = ip u (toSize M v) := by
  rw [ip_eq_sum (length_toSize ..) hv, ip_eq_sum hu (length_toSize ..)]
  simp only [getD_toSize]
  have h1 : ∀ {A B : Nat} {F : Nat → K}, (∀ i < A, B ≤ i → F i = 0) → ∑ i ∈ Finset.range A, F i = ∑ i ∈ Finset.range (min A B), F i := by
    intro A B F h
    refine (Finset.sum_subset (fun i hi => by simp at hi ⊢; omega) fun i hi hi' => ?_).symm
    simp at hi hi'
    exact h i hi (hi' hi)
  rw [h1 (A := N) (B := M), h1 (A := M) (B := N), Nat.min_comm]
  · refine Finset.sum_congr rfl fun i hi => ?_
    have : i < M ∧ i < N := by simpa using hi
    rw [if_pos this.2, if_pos this.1]
  · intro i hi h
    rw [if_pos hi, List.getD_eq_getElem?_getD (l := v), List.getElem?_eq_none (by omega)]
    simp
  · intro i hi h
    rw [if_pos hi, List.getD_eq_getElem?_getD (l := u), List.getElem?_eq_none (by omega)]
    simp

/-! ### the chain -/

inductive MLeaf | F | F1 | I | I1 | Fr

variable (F F1 : LOp K) (n : Nat) (sz : Nat → Nat) (nfft ns nr nv : Nat) (sg um : Bool) (dG : DType) (g : List K)

/-- what the factors compute -/
def mdcLeaves (T : Nat) : Leaves K MLeaf where
  sh
    | .F => (F.rows, F.cols)
    | .F1 => (F1.rows, F1.cols)
    | .I => (T * nr * nv, nfft * nr * nv)
    | .I1 => (T * ns * nv, nfft * ns * nv)
    | .Fr => (T * ns * nv, T * nr * nv)
  fn
    | .F, b => F.fn b
    | .F1, b => F1.fn b
    | .I, b => toSize (if b then nfft * nr * nv else T * nr * nv)
    | .I1, b => toSize (if b then nfft * ns * nv else T * ns * nv)
    | .Fr, b => if b then fredholmAdj T ns nr nv g else fredholm T ns nr nv g

/-- the factors on rank `r` -/
def mdcPrim : MLeaf → Nat → Prim K
  | .F, _ => wrap F
  | .F1, _ => wrap F1
  | .I, _ => wrap (identityOp (psum sz n * nr * nv) (nfft * nr * nv) dG)
  | .I1, _ => wrap (identityOp (psum sz n * ns * nv) (nfft * ns * nv) dG)
  | .Fr, r => fredPrim n sz ns nr nv sg um dG dG g r

/-- the operator that is built -/
def mdcExpr (conj : Bool) : MOp K MLeaf :=
  .prod (.prod (.prod (.prod (.adj (.leaf .F1)) (.adj (.leaf .I1))) (if conj then .conj (.leaf .Fr) else .leaf .Fr)) (.leaf .I)) (.leaf .F)

variable {F F1 n sz nfft ns nr nv sg um dG g}

theorem vconj_fredholm {T : Nat} {x : List K} : vconj (fredholm T ns nr nv g (vconj x)) = fredholm T ns nr nv (vconj g) x := by
  unfold vconj fredholm tab3
  rw [List.map_flatMap]
  refine List.flatMap_congr fun k _ => ?_
  rw [List.map_flatMap]
  simp only [List.map_map, Function.comp_def]
  refine tab2_congr fun i _ z _ => ?_
  rw [list_sum_range, list_sum_range, star_sum]
  refine Finset.sum_congr rfl fun j _ => ?_
  unfold entry3
  rw [getD_map_star, getD_map_star, star_mul', star_star]

theorem vconj_fredholmAdj {T : Nat} {x : List K} : vconj (fredholmAdj T ns nr nv g (vconj x)) = fredholmAdj T ns nr nv (vconj g) x := by
  unfold vconj fredholmAdj tab3
  rw [List.map_flatMap]
  refine List.flatMap_congr fun k _ => ?_
  rw [List.map_flatMap]
  simp only [List.map_map, Function.comp_def]
  refine tab2_congr fun i _ z _ => ?_
  rw [list_sum_range, list_sum_range, star_sum]
  refine Finset.sum_congr rfl fun j _ => ?_
  unfold entry3
  simp only [getD_map_star, star_mul', star_star]

theorem den_mdc {T : Nat} {conj : Bool} {x : List K} :
    den (mdcLeaves F F1 nfft ns nr nv g T) false (mdcExpr conj) x = mdc F.fwd F1.adj T nfft ns nr nv (if conj then vconj g else g) x := by
  unfold mdcExpr mdc
  cases conj
  · rfl
  · simp only [if_true, den]
    rw [← vconj_fredholm]
    rfl

theorem den_mdcAdj {T : Nat} {conj : Bool} {x : List K} :
    den (mdcLeaves F F1 nfft ns nr nv g T) true (mdcExpr conj) x = mdcAdj F.adj F1.fwd T nfft ns nr nv (if conj then vconj g else g) x := by
  unfold mdcExpr mdcAdj
  cases conj
  · rfl
  · simp only [if_true, den]
    rw [← vconj_fredholmAdj]
    rfl

/-- what is needed of the Fourier transforms: their sizes and dtype -/
structure FFTOk (o : LOp K) (nt nfft m : Nat) : Prop where
  rows : o.rows = nfft * m
  cols : o.cols = nt * m
  dtype : o.dtype = .cplx
  len_fwd : ∀ x, x.length = o.cols → (o.fwd x).length = o.rows
  len_adj : ∀ x, x.length = o.rows → (o.adj x).length = o.cols

theorem fits_cplx {dt : DType} (h : dt = .cplx) (d : List K) : FitsL dt d := fun h' => by rw [h] at h'; cases h'

theorem FFTOk.ok {o : LOp K} {nt nfft m : Nat} (h : FFTOk o nt nfft m) (b : Bool) (dx : DType) : o.Ok b dx o.dtype :=
  ⟨by cases b; exacts [h.len_fwd, h.len_adj], fun d _ _ => fits_cplx h.dtype _⟩

variable {nt : Nat} {J : Nat → Nat → K}

theorem identity_fn (N M : Nat) (dt : DType) (b : Bool) : (identityOp (K := K) N M dt).fn b = toSize (if b then M else N) := by
  cases b <;> exact funext fun x => padTo_eq ..

theorem identity_typed {N M : Nat} (hd : dG = .cplx) (b : Bool) (X : Layout) (dx : DType) (hXw : X.WF n) (hX : X.part.isBroadcast = true) (hXg : X.gshape = [if b then N else M]) :
    Computes n J (fun _ c x => wrapMv (identityOp N M dG) b c x) ⟨X, dx⟩ ⟨.all (if b then M else N) X.part, dG⟩ (toSize (if b then M else N)) := by
  have hok : (identityOp (K := K) N M dG).Ok b dx dG := ⟨fun d _ => by rw [identity_fn, length_toSize]; cases b <;> rfl, fun d _ _ => fits_cplx hd _⟩
  have := wrapMv_computes (J := J) (o := identityOp N M dG) hok hXw hX (by rw [hXg]; cases b <;> rfl)
  rw [identity_fn] at this
  cases b <;> exact this

theorem wrap_leaf {o : LOp K} {b : Bool} : (fun (_ : Nat) c x => if b = true then (wrap o).rmv c x else (wrap o).mv c x) = fun _ c x => wrapMv o b c x := by
  cases b <;> rfl

theorem mdc_typed (hF : FFTOk F nt nfft (nr * nv)) (hF1 : FFTOk F1 nt nfft (ns * nv)) (h1 : ∀ r < n, sz r ≠ 1) (hg : g.length = psum sz n * (ns * nr)) (hd : dG = .cplx)
    (hn1 : nr ≠ 1) (hu : um = true ∨ ns ≠ 1 ∨ nv ≠ 1 ∨ ∀ r < n, sz r = sz 0) {conj : Bool} {X : Layout} {dx : DType}
    (hXw : X.WF n) (hX : X.part.isBroadcast = true) (hXg : X.gshape = [nt * nr * nv]) :
    Typed (mdcLeaves F F1 nfft ns nr nv g (psum sz n)) n J (mdcPrim F F1 n sz nfft ns nr nv sg um dG g) false (mdcExpr conj) ⟨X, dx⟩ ⟨.all (nt * ns * nv), .cplx⟩ := by
  have hFr : Typed (mdcLeaves F F1 nfft ns nr nv g (psum sz n)) n J (mdcPrim F F1 n sz nfft ns nr nv sg um dG g) false (.leaf .Fr)
      ⟨.all (psum sz n * nr * nv) X.part, dG⟩ ⟨.all (psum sz n * ns * nv), dG⟩ :=
    ⟨fun _ _ => rfl, all_wf hX, all_wf rfl, rfl, rfl, fredMv_computes (X := .all (psum sz n * nr * nv) X.part) h1 hg (fits_cplx hd _) (fun h => by rw [hd] at h; cases h) false hn1 hu hX rfl⟩
  refine ⟨⟨.all (nfft * nr * nv) X.part, .cplx⟩, ⟨fun _ _ => rfl, hXw, all_wf hX, ?_, ?_, ?_⟩,
    ⟨.all (psum sz n * nr * nv) X.part, dG⟩, ⟨fun _ _ => rfl, all_wf hX, all_wf hX, rfl, rfl, ?_⟩,
    ⟨.all (psum sz n * ns * nv), dG⟩, ?_,
    ⟨.all (nfft * ns * nv), dG⟩, ⟨fun _ _ => rfl, all_wf rfl, all_wf rfl, rfl, rfl, ?_⟩,
    ⟨fun _ _ => rfl, all_wf rfl, all_wf rfl, ?_, ?_, ?_⟩⟩
  · show _ = [F.cols]; rw [hXg, hF.cols, Nat.mul_assoc]
  · show [_] = [F.rows]; rw [hF.rows, Nat.mul_assoc]
  · have := wrapMv_computes (J := J) (hF.ok false dx) hXw hX (by rw [hXg]; show _ = [F.cols]; rw [hF.cols, Nat.mul_assoc])
    rw [hF.dtype, show F.outDim false = nfft * nr * nv from hF.rows.trans (Nat.mul_assoc ..).symm] at this
    exact this
  · exact identity_typed hd false (.all (nfft * nr * nv) X.part) .cplx (all_wf hX) hX rfl
  · cases conj
    · exact hFr
    · exact hFr
  · exact identity_typed hd true (.all (psum sz n * ns * nv)) dG (all_wf rfl) rfl rfl
  · show [_] = [F1.rows]; rw [hF1.rows, Nat.mul_assoc]
  · show [_] = [F1.cols]; rw [hF1.cols, Nat.mul_assoc]
  · have := wrapMv_computes (n := n) (J := J) (X := .all (nfft * ns * nv)) (hF1.ok true dG) (all_wf rfl) rfl (by show [_] = [F1.rows]; rw [hF1.rows, Nat.mul_assoc])
    rw [hF1.dtype, show F1.outDim true = nt * ns * nv from hF1.cols.trans (Nat.mul_assoc ..).symm] at this
    exact this

theorem mdc_typedAdj (hF : FFTOk F nt nfft (nr * nv)) (hF1 : FFTOk F1 nt nfft (ns * nv)) (h1 : ∀ r < n, sz r ≠ 1) (hg : g.length = psum sz n * (ns * nr)) (hd : dG = .cplx)
    (hn1 : ns ≠ 1) (hu : um = true ∨ nr ≠ 1 ∨ nv ≠ 1 ∨ ∀ r < n, sz r = sz 0) {conj : Bool} {X : Layout} {dx : DType}
    (hXw : X.WF n) (hX : X.part.isBroadcast = true) (hXg : X.gshape = [nt * ns * nv]) :
    Typed (mdcLeaves F F1 nfft ns nr nv g (psum sz n)) n J (mdcPrim F F1 n sz nfft ns nr nv sg um dG g) true (mdcExpr conj) ⟨X, dx⟩ ⟨.all (nt * nr * nv), .cplx⟩ := by
  have hFr : Typed (mdcLeaves F F1 nfft ns nr nv g (psum sz n)) n J (mdcPrim F F1 n sz nfft ns nr nv sg um dG g) true (.leaf .Fr)
      ⟨.all (psum sz n * ns * nv) X.part, dG⟩ ⟨.all (psum sz n * nr * nv), dG⟩ :=
    ⟨fun _ _ => rfl, all_wf hX, all_wf rfl, rfl, rfl, fredMv_computes (X := .all (psum sz n * ns * nv) X.part) h1 hg (fits_cplx hd _) (fun h => by rw [hd] at h; cases h) true hn1 hu hX rfl⟩
  refine ⟨⟨.all (nfft * nr * nv), dG⟩, ⟨⟨.all (psum sz n * nr * nv), dG⟩, ⟨⟨.all (psum sz n * ns * nv) X.part, dG⟩,
      ⟨⟨.all (nfft * ns * nv) X.part, .cplx⟩, ⟨fun _ _ => rfl, hXw, all_wf hX, ?_, ?_, ?_⟩, ⟨fun _ _ => rfl, all_wf hX, all_wf hX, rfl, rfl, ?_⟩⟩, ?_⟩,
    ⟨fun _ _ => rfl, all_wf rfl, all_wf rfl, rfl, rfl, ?_⟩⟩, ⟨fun _ _ => rfl, all_wf rfl, all_wf rfl, ?_, ?_, ?_⟩⟩
  · show _ = [F1.cols]; rw [hXg, hF1.cols, Nat.mul_assoc]
  · show [_] = [F1.rows]; rw [hF1.rows, Nat.mul_assoc]
  · have := wrapMv_computes (J := J) (hF1.ok false dx) hXw hX (by rw [hXg]; show _ = [F1.cols]; rw [hF1.cols, Nat.mul_assoc])
    rw [hF1.dtype, show F1.outDim false = nfft * ns * nv from hF1.rows.trans (Nat.mul_assoc ..).symm] at this
    exact this
  · exact identity_typed hd false (.all (nfft * ns * nv) X.part) .cplx (all_wf hX) hX rfl
  · cases conj
    · exact hFr
    · exact hFr
  · exact identity_typed hd true (.all (psum sz n * nr * nv)) dG (all_wf rfl) rfl rfl
  · show [_] = [F.rows]; rw [hF.rows, Nat.mul_assoc]
  · show [_] = [F.cols]; rw [hF.cols, Nat.mul_assoc]
  · have := wrapMv_computes (n := n) (J := J) (X := .all (nfft * nr * nv)) (hF.ok true dG) (all_wf rfl) rfl (by show [_] = [F.rows]; rw [hF.rows, Nat.mul_assoc])
    rw [hF.dtype, show F.outDim true = nt * nr * nv from hF.cols.trans (Nat.mul_assoc ..).symm] at this
    exact this

end Verif

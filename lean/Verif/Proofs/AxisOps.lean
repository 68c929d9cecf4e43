/- Differences along the axes after the first: block-diagonal operators with one serial operator per rank. -/
import Verif.Proofs.Methods
import Verif.Proofs.Dottest
import Verif.Proofs.Inner
import Verif.Model.Laplacian

namespace Verif
open NDArray
set_option linter.unusedSectionVars false

variable {K : Type} [Field K] [StarRing K] [CharZero K]
variable {n N w : Nat} {J : Nat → Nat → K} {rest : List Nat} {dt dx : DType} {s : K} {edge : Bool} {X : Layout}
variable {D D' : Nat → (Nat → K) → Nat → K} {ax : Nat} {dims : List Nat}

theorem length_onBlocks {f : List K → List K} (hf : ∀ d, d.length = w → (f d).length = w) {m : Nat} {d : List K} (hd : d.length = m * w) :
    (onBlocks w f m d).length = m * w := by
  induction m generalizing d with
  | zero => simp [onBlocks]
  | succ m ih =>
    rw [Nat.succ_mul] at hd
    rw [onBlocks, List.length_append, hf _ (by simp; omega), ih (by simp; omega)]
    ring

theorem onBlocks_add {f : List K → List K} {a b : Nat} {d : List K} :
    onBlocks w f (a + b) d = onBlocks w f a (d.take (a * w)) ++ onBlocks w f b (d.drop (a * w)) := by
  induction a generalizing d with
  | zero => simp [onBlocks]
  | succ a ih =>
    rw [show a + 1 + b = a + b + 1 by omega, onBlocks, ih, onBlocks, List.append_assoc, List.take_take, List.drop_take, List.drop_drop]
    rw [show min w ((a + 1) * w) = w by rw [Nat.add_mul]; omega, show (a + 1) * w - w = a * w by rw [Nat.add_mul]; omega,
      show w + a * w = (a + 1) * w by ring]

theorem fits_append {t : DType} {d e : List K} (hd : FitsL t d) (he : FitsL t e) : FitsL t (d ++ e) := by
  intro h x hx
  rcases List.mem_append.1 hx with hx | hx
  · exact hd h x hx
  · exact he h x hx

theorem fits_onBlocks {f : List K → List K} {t t' : DType} (hf : ∀ d, FitsL t d → FitsL t' (f d)) {m : Nat} {d : List K} (hd : FitsL t d) :
    FitsL t' (onBlocks w f m d) := by
  induction m generalizing d with
  | zero => intro _ x hx; simp [onBlocks] at hx
  | succ m ih => exact fits_append (hf _ (fits_take hd _)) (ih (fits_drop hd _))

theorem length_alongAxis (hax : ax < dims.length) {d : List K} (hd : d.length = dims.prod) : (alongAxis D s ax dims d).length = dims.prod := by
  induction dims generalizing ax d with
  | nil => simp at hax
  | cons N rest ih =>
    cases ax with
    | zero => simp [alongAxis, alongRows]
    | succ ax =>
      rw [alongAxis, List.prod_cons]
      exact length_onBlocks (fun d hd => ih (by simpa using hax) hd) (by simpa using hd)

theorem fits_alongAxis (hD : ∀ N, Conj (D N)) (hs : star s = s) (hax : ax < dims.length) {d : List K} (hd : FitsL dt d) : FitsL dt (alongAxis D s ax dims d) := by
  induction dims generalizing ax d with
  | nil => simp at hax
  | cons N rest ih =>
    cases ax with
    | zero => exact fitsL_tab ((hD N).fit id (fit_entry hd) hs)
    | succ ax => exact fits_onBlocks (fun d hd => ih (by simpa using hax) hd) hd

theorem ip_onBlocks {f g : List K → List K} (hf : ∀ d, d.length = w → (f d).length = w) (hg : ∀ d, d.length = w → (g d).length = w)
    (h : ∀ u v : List K, u.length = w → v.length = w → ip (f u) v = ip u (g v)) {m : Nat} {u v : List K} (hu : u.length = m * w) (hv : v.length = m * w) :
    ip (onBlocks w f m u) v = ip u (onBlocks w g m v) := by
  induction m generalizing u v with
  | zero =>
    simp only [Nat.zero_mul, List.length_eq_zero_iff] at hu hv
    subst hu hv
    simp [onBlocks]
  | succ m ih =>
    rw [Nat.succ_mul] at hu hv
    have hu1 : (u.take w).length = w := by simp; omega
    have hv1 : (v.take w).length = w := by simp; omega
    conv_lhs => rw [← List.take_append_drop w v]
    conv_rhs => rw [← List.take_append_drop w u]
    rw [onBlocks, onBlocks, ip_append (by rw [hf _ hu1, hv1]), ip_append (by rw [hg _ hv1, hu1]), h _ _ hu1 hv1,
      ih (by simp; omega) (by simp; omega)]

/-- the transposed difference along the axis is the adjoint -/
theorem ip_alongAxis (hT : ∀ N ∈ dims[ax]?, Transpose N (D N) (D' N)) (hD : ∀ N, Conj (D N)) (hs : star s = s) (hax : ax < dims.length) {u v : List K} (hu : u.length = dims.prod)
    (hv : v.length = dims.prod) : ip (alongAxis D s ax dims u) v = ip u (alongAxis D' s ax dims v) := by
  induction dims generalizing ax u v with
  | nil => simp at hax
  | cons N rest ih =>
    cases ax with
    | zero => exact adjoint_alongRows (hT N (by simp)) (hD N) hs (by simpa using hu) (by simpa using hv)
    | succ ax =>
      have hax' : ax < rest.length := by simpa using hax
      exact ip_onBlocks (fun d hd => length_alongAxis hax' hd) (fun d hd => length_alongAxis hax' hd) (fun u v hu hv => ih (by simpa using hT) hax' hu hv)
        (by simpa using hu) (by simpa using hv)

/-- a serial operator that meets the requirements -/
def refOp (D D' : Nat → (Nat → K) → Nat → K) (s : K) (ax : Nat) (dims : List Nat) (dt : DType) : LOp K :=
  ⟨dims.prod, dims.prod, dt, alongAxis D s ax dims, alongAxis D' s ax dims⟩

theorem refOp_isDeriv (hT : ∀ N ∈ dims[ax]?, Transpose N (D N) (D' N)) (hD : ∀ N, Conj (D N)) (hD' : ∀ N, Conj (D' N)) (hs : star s = s) (hax : ax < dims.length) :
    IsDeriv (refOp D D' s ax dims dt) D s ax dims dt :=
  ⟨rfl, rfl, rfl, fun _ _ => rfl, fun _ hd => length_alongAxis hax hd, fun _ _ hf => fits_alongAxis hD' hs hax hf, fun _ _ hu hv => ip_alongAxis hT hD hs hax hu hv⟩

/-! ### one serial operator per rank -/

section
variable {o : Nat → LOp K}

theorem IsDeriv.ok {q : LOp K} (h : IsDeriv q D s ax dims dt) (hax : ax < dims.length) (hD : ∀ N, Conj (D N)) (hs : star s = s) (hdt : dt = .real → dx = .real) (b : Bool) : q.Ok b dx dt := by
  cases b with
  | false =>
    refine ⟨fun d hd => ?_, fun d hd hf => ?_⟩
    · show (q.fwd d).length = q.rows
      have : d.length = dims.prod := hd.trans h.cols
      rw [h.fwd d this, length_alongAxis hax this, h.rows]
    · show FitsL dt (q.fwd d)
      have hl : d.length = dims.prod := hd.trans h.cols
      rw [h.fwd d hl]
      exact fits_alongAxis hD hs hax (fun hd' => hf (hdt hd'))
  | true =>
    refine ⟨fun d hd => ?_, fun d hd hf => ?_⟩
    · show (q.adj d).length = q.cols
      rw [h.adj_length d (hd.trans h.rows), h.cols]
    · show FitsL dt (q.adj d)
      intro hd'
      exact h.adj_real d (hd.trans h.rows) (fun _ => hf (hdt hd')) rfl

/-- what the serial operators on the local shapes have to satisfy -/
def SerialOk (o : Nat → LOp K) (D : Nat → (Nat → K) → Nat → K) (s : K) (ax : Nat) (n N : Nat) (rest : List Nat) (dt : DType) : Prop :=
  ∀ r, IsDeriv (o r) D s (ax + 1) (balanced N n r :: rest) dt

theorem allOps_mem {q : LOp K} (h : q ∈ allOps n fun r => [o r]) : ∃ r < n, q = o r := by
  simp only [allOps, List.mem_flatMap, List.mem_range, List.mem_singleton] at h
  exact h

theorem SerialOk.inL (ho : SerialOk o D s ax n N rest dt) (hn : 0 < n) (b : Bool) : inL b n (fun r => [o r]) = .flat n N rest := by
  have h : (fun r => inSum b [o r]) = fun r => balanced N n r * rest.prod := by
    funext r
    cases b
    · simp [inSum, LOp.inDim, (ho r).cols]
    · simp [inSum, LOp.inDim, (ho r).rows]
  have h2 : inSum b (allOps n fun r => [o r]) = N * rest.prod := by
    rw [inSum_allOps, h, psum_mul, psum_balanced_total N hn]
  unfold Verif.inL
  rw [h, h2]

theorem SerialOk.fwd (ho : SerialOk o D s ax n N rest dt) (hn : 0 < n) {d : List K} (hd : d.length = N * rest.prod) :
    blockDiag false (allOps n fun r => [o r]) d = alongAxis D s (ax + 1) (N :: rest) d := by
  have key : ∀ m (d : List K), d.length = psum (balanced N n) m * rest.prod →
      blockDiag false (allOps m fun r => [o r]) d = onBlocks rest.prod (alongAxis D s ax rest) (psum (balanced N n) m) d := by
    intro m
    induction m with
    | zero => intro d _; simp [allOps, blockDiag, slices, psum, onBlocks]
    | succ m ih =>
      intro d hd
      have e : allOps (m + 1) (fun r => [o r]) = allOps m (fun r => [o r]) ++ [o m] := by simp [allOps, List.range_succ]
      have hin : inSum false (allOps m fun r => [o r]) = psum (balanced N n) m * rest.prod := by
        rw [inSum_allOps]
        have h : (fun r => inSum false [o r]) = fun r => balanced N n r * rest.prod := by
          funext r
          simp [inSum, LOp.inDim, (ho r).cols]
        rw [h, psum_mul]
      rw [psum, Nat.add_mul] at hd
      have h1 : blockDiag false (allOps m fun r => [o r]) d = blockDiag false (allOps m fun r => [o r]) (d.take (psum (balanced N n) m * rest.prod)) := by
        unfold blockDiag
        rw [← hin, slices_take _ _ _ (le_refl _)]
      rw [e, psum, onBlocks_add, ← ih _ (by simp; omega), ← h1]
      unfold blockDiag
      rw [slices_append, List.flatten_append, hin]
      congr 1
      have hl : (d.drop (psum (balanced N n) m * rest.prod)).length = (balanced N n m :: rest).prod := by simp; omega
      simp only [slices, List.flatten_cons, List.flatten_nil, List.append_nil, LOp.fn, LOp.inDim]
      rw [List.take_of_length_le (by rw [(ho m).cols, hl]), (ho m).fwd _ hl, alongAxis]
  have := key n d (by rw [psum_balanced_total N hn, hd])
  rwa [psum_balanced_total N hn] at this

theorem near_slab_flat (h : Near n X (.slab n N rest)) : Near n X (.flat n N rest) := by
  have e : ∀ m, psum (Layout.flat n N rest).cnt m = psum (Layout.slab n N rest).cnt m := by
    intro m
    induction m with
    | zero => rfl
    | succ m ih => rw [psum, psum, ih]; simp [Layout.cnt, Layout.lin, Layout.rows, Layout.lshape, Partition.isBroadcast]
  intro r hr
  rw [e]
  exact h r hr

theorem SerialOk.computes (ho : SerialOk o D s ax n N rest dt) (hn : 0 < n) (hax : ax < rest.length) (hD : ∀ N, Conj (D N)) (hs : star s = s) (hdt : dt = .real → dx = .real)
    (hX : X.WF n) (hg : X.gshape = [N * rest.prod]) (hp : X.part = .scatter) (hN : Near n X (.slab n N rest)) (b : Bool) :
    Computes n J (fun r c x => if b then (bdPrim n (fun r => [o r]) none dt r).rmv c x else (bdPrim n (fun r => [o r]) none dt r).mv c x) ⟨X, dx⟩ ⟨.flat n N rest, dt⟩
      (if b then blockDiag true (allOps n fun r => [o r]) else alongAxis D s (ax + 1) (N :: rest)) := by
  intro d hd
  have hax' : ∀ r, ax + 1 < (balanced N n r :: rest).length := fun r => by simpa using hax
  have hok : ∀ b, ∀ q ∈ allOps n (fun r => [o r]), q.Ok b dx dt := fun b q hq => by
    obtain ⟨r, _, rfl⟩ := allOps_mem hq
    exact (ho r).ok (hax' r) hD hs hdt b
  have hlen : d.length = N * rest.prod := by rw [hd.1]; simp [hg]
  have hsz : ∀ b, inSum b (allOps n fun r => [o r]) = N * rest.prod := fun b => by
    have := congrArg Layout.gshape (ho.inL hn b)
    simpa [Layout.lin] using this
  have hcx : X.axis = 0 := by have := hX.axis_lt; rw [hg] at this; simpa using this
  have hNb : Near n X (Verif.inL b n fun r => [o r]) := by rw [ho.inL hn b]; exact near_slab_flat hN
  have h := runs_blockDiagMv (J := J) (mask := none) (conform_in hX (by rw [hg, hsz]) hp hcx) hNb (hok b) (fun r _ => by simp) (by simp) hd
  have hm := mem_blockDiag (mask := none) (hok b) (by rw [hlen, hsz]) hd.2
  rw [ho.inL hn (!b)] at hm
  have e : (if b then blockDiag true (allOps n fun r => [o r]) else alongAxis D s (ax + 1) (N :: rest)) d = blockDiag b (allOps n fun r => [o r]) d := by
    cases b with
    | false => exact (ho.fwd hn hlen).symm
    | true => rfl
  rw [e]
  refine ⟨hm, (h.congr (fun r _ => ?_) fun r _ => ?_).always⟩
  · cases b <;> rfl
  · congr 2
    have := ho.inL hn (!b)
    exact congrArg (fun L => (⟨L, dt⟩ : VSpace)) this

theorem SerialOk.adjoint (ho : SerialOk o D s ax n N rest dt) (hn : 0 < n) (hax : ax < rest.length) (hD : ∀ N, Conj (D N)) (hs : star s = s) {u v : List K}
    (hu : u.length = N * rest.prod) (hv : v.length = N * rest.prod) :
    ip (alongAxis D s (ax + 1) (N :: rest) u) v = ip u (blockDiag true (allOps n fun r => [o r]) v) := by
  have hax' : ∀ r, ax + 1 < (balanced N n r :: rest).length := fun r => by simpa using hax
  have hok : ∀ b, ∀ q ∈ allOps n (fun r => [o r]), q.Ok b dt dt := fun b q hq => by
    obtain ⟨r, _, rfl⟩ := allOps_mem hq
    exact (ho r).ok (hax' r) hD hs id b
  have hsz : ∀ b, inSum b (allOps n fun r => [o r]) = N * rest.prod := fun b => by
    have := congrArg Layout.gshape (ho.inL hn b)
    simpa [Layout.lin] using this
  rw [← ho.fwd hn hu]
  exact ip_blockDiag (fun q hq => by obtain ⟨r, _, rfl⟩ := allOps_mem hq; exact (ho r).adj) (fun q hq => (hok false q hq).length)
    (fun q hq => (hok true q hq).length) (by rw [hsz, hu]) (by rw [hsz, hv])

theorem SerialOk.adj_length (ho : SerialOk o D s ax n N rest dt) (hn : 0 < n) (hax : ax < rest.length) (hD : ∀ N, Conj (D N)) (hs : star s = s) {v : List K}
    (hv : v.length = N * rest.prod) : (blockDiag true (allOps n fun r => [o r]) v).length = N * rest.prod := by
  have hsz : ∀ b, inSum b (allOps n fun r => [o r]) = N * rest.prod := fun b => by
    have := congrArg Layout.gshape (ho.inL hn b)
    simpa [Layout.lin] using this
  rw [length_blockDiag (b := true) (din := dt) (dout := dt) (fun q hq => by
    obtain ⟨r, _, rfl⟩ := allOps_mem hq
    exact (ho r).ok (by simpa using hax) hD hs id true) (by rw [hsz, hv])]
  exact hsz false

end

/-- sanity of `alongAxis`: the second axis of a matrix -/
theorem alongAxis_second {M : Nat} {d : List K} (hd : d.length = N * M) :
    alongAxis D s 1 [N, M] d = tab N M fun i j => D M (fun q => if q < M then entry M d i q else 0) j / s := by
  show onBlocks (List.prod [M]) (alongAxis D s 0 [M]) N d = _
  rw [List.prod_singleton]
  induction N generalizing d with
  | zero => simp [onBlocks, tab]
  | succ N ih =>
    rw [Nat.succ_mul] at hd
    have h1 : alongAxis D s 0 [M] (d.take M) = tab 1 M fun _ j => D M (fun q => if q < M then entry M d 0 q else 0) j / s := by
      rw [alongAxis, alongRows, List.prod_nil]
      unfold tab
      rw [Nat.mul_one, Nat.one_mul]
      refine List.map_congr_left fun p hp => ?_
      have hp : p < M := by simpa using hp
      simp only [Nat.div_one, Nat.mod_one]
      congr 2
      · funext q
        unfold entry
        simp only [Nat.mul_one, Nat.add_zero, Nat.zero_mul, Nat.zero_add, List.getD_eq_getElem?_getD, List.getElem?_take]
        split_ifs <;> rfl
      · rw [Nat.mod_eq_of_lt hp]
    rw [onBlocks, ih (by simp; omega), h1, tab_append, Nat.add_comm 1 N]
    refine tab_congr fun i _ j _ => ?_
    split_ifs with h
    · obtain rfl : i = 0 := by omega
      rfl
    · congr 2
      funext q
      have : entry M (d.drop M) (i - 1) q = entry M d i q := by
        unfold entry
        rw [List.getD_eq_getElem?_getD, List.getD_eq_getElem?_getD, List.getElem?_drop]
        congr 2
        obtain ⟨k, rfl⟩ : ∃ k, i = k + 1 := ⟨i - 1, by omega⟩
        simp only [Nat.add_sub_cancel, Nat.add_mul]
        omega
      rw [this]

theorem localSplit_env {n N : Nat} {rest : List Nat} {J : Nat → Nat → K} (r : Nat) : localSplit (env n J r : Ctx K) (N :: rest) .scatter 0 = balanced N n r :: rest := by
  simp only [localSplit, Partition.isBroadcast, Bool.false_eq_true, if_false, len, balanced, env, List.getD_cons_zero, List.set_cons_zero]
  split_ifs <;> rfl

end Verif

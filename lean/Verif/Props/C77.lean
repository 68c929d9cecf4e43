/-
  C77: with any arithmetic, MPIFredholm1 and MPIMDC compute the same numbers whatever the number of ranks and the distribution of the slices.
-/
import Verif.Proofs.FloatFredholm
import Verif.Proofs.FloatLaplacian
import Verif.Proofs.FloatDerivExact
import Verif.Props.C75
import Verif.Props.C39

namespace Verif
open NDArray

variable {K : Type}

section
variable (A : MatArith K) {n : Nat} {sz : Nat → Nat} {nx ny nz : Nat} {sg um : Bool} {dG dt dx : DType} {g : List K} {J : Nat → Nat → K} {X : Layout}

/-! ### MPIFredholm1 -/

/-- What is needed of the sizes: no rank has exactly one slice, matrices have more than one column (for the adjoint: row), and — for the version with a loop, if a slice of the result is one
    number — all ranks have as many slices.  (Otherwise the code fails: C38.) -/
structure FredOk (n : Nat) (sz : Nat → Nat) (nx ny nz : Nat) (um b : Bool) : Prop where
  slices : ∀ r < n, sz r ≠ 1
  inner : (if b then nx else ny) ≠ 1
  outer : um = true ∨ (if b then ny else nx) ≠ 1 ∨ nz ≠ 1 ∨ ∀ r < n, sz r = sz 0

/-- `MPIFredholm1`: construction succeeds on all ranks, each of which has some of the slices of the kernel `g`.  All ranks end up with the slices `G(k) x(k)` (adjoint: `G(k)^H x(k)`), each of which
    is computed by one product of matrices. -/
theorem C77_fredholm (h1 : ∀ r < n, sz r ≠ 1) (hg : g.length = psum sz n * (nx * ny)) :
    ∃ op : Nat → Prim K,
      Always n (fun r => A.mkFredholm (env n J r) (kern sz nx ny dG g r) nz sg um dt) (fun r => .ok (op r)) ∧
      (∀ r, (op r).shape = (psum sz n * nx * nz, psum sz n * ny * nz) ∧ (op r).dtype = dt) ∧
      ∀ b X dx, FredOk n sz nx ny nz um b → X.part.isBroadcast = true → X.gshape = [psum sz n * (if b then nx else ny) * nz] →
        TakesTo n J (fun r => (op r).prod b) ⟨X, dx⟩ ⟨.all (psum sz n * (if b then ny else nx) * nz), dt⟩ (A.fredholm sg um dG dt (psum sz n) nx ny nz g b) := by
  refine ⟨aFredPrim A n sz nx ny nz sg um dG dt g, (runs_aMkFredholm A h1).always, fun r => ⟨rfl, rfl⟩, fun b X dx h hX hXg => ?_⟩
  have := aFredMv_takes A (J := J) (sg := sg) (dG := dG) (dt := dt) (dx := dx) h1 hg b h.inner h.outer hX hXg
  cases b <;> exact this

/-- so the result is the same for all numbers of ranks and distributions of the slices -/
theorem C77_fredholm_ranks {n₁ n₂ : Nat} {sz₁ sz₂ : Nat → Nat} {J₁ J₂ : Nat → Nat → K} {X₁ X₂ : Layout} {T : Nat} {b : Bool} {x : SVec K} (hT₁ : psum sz₁ n₁ = T) (hT₂ : psum sz₂ n₂ = T)
    (hg : g.length = T * (nx * ny)) (h₁ : FredOk n₁ sz₁ nx ny nz um b) (h₂ : FredOk n₂ sz₂ nx ny nz um b) (hX₁ : X₁.part.isBroadcast = true) (hX₂ : X₂.part.isBroadcast = true)
    (hg₁ : X₁.gshape = [T * (if b then nx else ny) * nz]) (hg₂ : X₂.gshape = [T * (if b then nx else ny) * nz]) (hx : x.v.length = T * (if b then nx else ny) * nz) :
    let prog (n : Nat) (sz : Nat → Nat) (J : Nat → Nat → K) (X : Layout) (r : Nat) : P K (DArr K) := do
      let op ← A.mkFredholm (env n J r) (kern sz nx ny dG g r) nz sg um dt
      op.prod b (env n J r) (x.dpart X n r)
    ∃ y : SVec K, y.dt = dt ∧ y.v.length = T * (if b then ny else nx) * nz ∧
      Always n₁ (prog n₁ sz₁ J₁ X₁) (fun r => .ok (y.dpart (.all (T * (if b then ny else nx) * nz)) n₁ r)) ∧
      Always n₂ (prog n₂ sz₂ J₂ X₂) (fun r => .ok (y.dpart (.all (T * (if b then ny else nx) * nz)) n₂ r)) := by
  intro prog
  have key : ∀ {n : Nat} {sz : Nat → Nat} {J : Nat → Nat → K} {X : Layout}, psum sz n = T → FredOk n sz nx ny nz um b → X.part.isBroadcast = true → X.gshape = [T * (if b then nx else ny) * nz] →
      let y := A.fredholm sg um dG dt T nx ny nz g b x
      y.dt = dt ∧ y.v.length = T * (if b then ny else nx) * nz ∧ Always n (prog n sz J X) (fun r => .ok (y.dpart (.all (T * (if b then ny else nx) * nz)) n r)) := by
    intro n sz J X hT h hX hXg y
    subst hT
    obtain ⟨op, e1, -, e3⟩ := C77_fredholm A (J := J) (nz := nz) (sg := sg) (um := um) (dG := dG) (dt := dt) h.slices hg
    have t := e3 b X x.dt h hX hXg
    have hx' : x.v.length = X.gshape.prod := by rw [hx, hXg]; simp
    refine ⟨rfl, ?_, (Runs.bind_ok e1.runs (t.run hx' rfl)).always⟩
    simpa [Layout.all] using t.length x hx' rfl
  obtain ⟨a1, a2, a3⟩ := key (J := J₁) hT₁ h₁ hX₁ hg₁
  exact ⟨_, a1, a2, a3, (key (J := J₂) hT₂ h₂ hX₂ hg₂).2.2⟩

/-- entry `(k, i, z)` of the result of `matvec` with `usematmul=True` is an entry of the product of slice `k` of the kernel and slice `k` of the input, rounded to the dtype of the operator -/
theorem C77_entry {T k q : Nat} {x : SVec K} (hk : k < T) (hq : q < nx * nz) :
    (A.fredholm sg true dG dt T nx ny nz g false x).v[k * (nx * nz) + q]? =
      some (A.cast dt (A.mm .fwd dG x.dt nx ny nz (sliceOf (nx * ny) g k) (sliceOf (ny * nz) x.v k) q)) := by
  rw [fredholm_v, List.getElem?_map]
  have hl : ∀ k, (aFredBlock A nx ny nz sg true dG x.dt dt g false x.v k).length = nx * nz := fun k => length_aFredBlock A false x.v k
  have e := chunk_flatMap (out := T) (f := aFredBlock A nx ny nz sg true dG x.dt dt g false x.v) (w := nx * nz) (fun k _ => hl k) hk
  have e2 : ((List.range T).flatMap (aFredBlock A nx ny nz sg true dG x.dt dt g false x.v))[k * (nx * nz) + q]? = (aFredBlock A nx ny nz sg true dG x.dt dt g false x.v k)[q]? := by
    rw [← e]
    simp [chunk, List.getElem?_take, hq, List.getElem?_drop]
  rw [e2]
  simp [aFredBlock, map_store_true, MatArith.fredFwdSlice, MatArith.times, hq]
  rfl

/-- Input that is not held by all ranks is rejected, and so are kernels without exactly three axes. -/
theorem C77_rejects (c : Ctx K) :
    (∀ (o : Fred K) (b : Bool) (x : DArr K), x.part.isBroadcast = false → A.fredMv o b c x = .throw .value) ∧
    ∀ G : NDArray K, G.shape.length ≠ 3 → A.mkFredholm c G nz sg um dt = .throw .value := by
  refine ⟨fun o b x h => ?_, fun G h => ?_⟩
  · unfold MatArith.fredMv
    rw [if_pos (by rw [h]; exact Bool.false_ne_true)]
  · unfold MatArith.mkFredholm
    split
    · rename_i e
      rw [e] at h
      exact absurd rfl h
    · rfl

end

/-! ### MPILinearOperator(Op) -/

section
variable (A : OpArith K) {n : Nat} {J : Nat → Nat → K} {o : FOp K} {b : Bool} {X : Layout} {dx : DType}

/-- a serial operator that is applied on all ranks to a vector that all of them hold -/
theorem C77_wrap (ho : o.Sized b) (hXw : X.WF n) (hX : X.part.isBroadcast = true) (hXg : X.gshape = [o.inDim b]) :
    TakesTo n J (fun _ => (A.wrap o).prod b) ⟨X, dx⟩ ⟨.all (o.inDim (!b)) X.part, o.dtype⟩ (A.serial o b) := by
  have := wrap_takes A (J := J) (dx := dx) ho hXw hX hXg
  cases b <;> exact this

end

/-! ### MPIMDC -/

section
variable (A : MatArith K) {n : Nat} {sz : Nat → Nat} {nt ns nr nv nfreq : Nat} {tw sg cj um ps : Bool} {dG dx : DType} {g : List K} {J : Nat → Nat → K} {X : Layout}
  {S : MDCSerial K} {sqrt : Nat → K} {δt δr : K}

/-- a serial operator of the given size -/
structure SizedAs (o : FOp K) (rows cols : Nat) : Prop where
  rows : o.rows = rows
  cols : o.cols = cols
  sized : ∀ b, o.Sized b

/-- What is needed of the arguments: an odd number of samples if `twosided`; at least two slices of the kernel on each rank; as many slices as the requested number of frequencies, clamped to
    `⌈(nt + 1) / 2⌉`; and serial operators with the right sizes. -/
structure FMDCOk (S : MDCSerial K) (n : Nat) (sz : Nat → Nat) (nt ns nr nv nfreq : Nat) (tw : Bool) (dG : DType) (g : List K) : Prop where
  odd : tw = true → nt % 2 = 1
  slices : ∀ r < n, 2 ≤ sz r
  dims : ns ≠ 0 ∧ nr ≠ 0
  length : g.length = psum sz n * (ns * nr)
  freq : psum sz n = min nfreq (nt / 2 + 1)
  fftF : SizedAs (S.fft nt nr nv tw) ((nt / 2 + 1) * nr * nv) (nt * nr * nv)
  fftF1 : SizedAs (S.fft nt ns nv false) ((nt / 2 + 1) * ns * nv) (nt * ns * nv)
  idnI : SizedAs (S.idn (psum sz n * nr * nv) ((nt / 2 + 1) * nr * nv) dG) (psum sz n * nr * nv) ((nt / 2 + 1) * nr * nv)
  idnI1 : SizedAs (S.idn (psum sz n * ns * nv) ((nt / 2 + 1) * ns * nv) dG) (psum sz n * ns * nv) ((nt / 2 + 1) * ns * nv)

/-- the factors on rank `r` -/
def aMdcPrim (F F1 I I1 : FOp K) (Fr : Nat → Prim K) : MLeaf → Nat → Prim K
  | .F, _ => A.wrap F
  | .F1, _ => A.wrap F1
  | .I, _ => A.wrap I
  | .I1, _ => A.wrap I1
  | .Fr, r => Fr r

/-- their shapes -/
def aMdcShape (F F1 I I1 : FOp K) (fr : Nat × Nat) : MLeaf → Nat × Nat
  | .F => (F.rows, F.cols)
  | .F1 => (F1.rows, F1.cols)
  | .I => (I.rows, I.cols)
  | .I1 => (I1.rows, I1.cols)
  | .Fr => fr

/-- and what they compute -/
def aMdcFn (F F1 I I1 : FOp K) (Fr : Bool → SVec K → SVec K) : MLeaf → Bool → SVec K → SVec K
  | .F => A.serial F
  | .F1 => A.serial F1
  | .I => A.serial I
  | .I1 => A.serial I1
  | .Fr => Fr

/-- the factor `scaled` of the kernel -/
def mdcFactor (δt δr : K) (sqrt : Nat → K) (nt : Nat) : K := A.mul (A.mul δr δt) (sqrt nt)

/-- the operator on rank `r` -/
def aMdcOp (S : MDCSerial K) (n : Nat) (sz : Nat → Nat) (nt ns nr nv : Nat) (tw sg um : Bool) (dG : DType) (g : List K) : MLeaf → Nat → Prim K :=
  aMdcPrim A (S.fft nt nr nv tw) (S.fft nt ns nv false) (S.idn (psum sz n * nr * nv) ((nt / 2 + 1) * nr * nv) dG) (S.idn (psum sz n * ns * nv) ((nt / 2 + 1) * ns * nv) dG)
    (aFredPrim A n sz ns nr nv sg um dG dG g)

theorem aMkMDC_runs (h : FMDCOk S n sz nt ns nr nv nfreq tw dG g) :
    Runs n (fun r => A.mkMDC (env n J r) S sqrt (kern sz ns nr dG g r) nt nv nfreq δt δr tw sg cj um ps)
      (fun r => .ok ((mdcExpr cj).map (aMdcOp A S n sz nt ns nr nv tw sg um dG (A.scaled ps (mdcFactor A δt δr sqrt nt) g) · r), .real)) := by
  unfold MatArith.mkMDC
  have c1 : ¬ (tw = true ∧ nt % 2 = 0) := fun hc => by have := h.odd hc.1; omega
  have c2 : ∀ r < n, ¬ ((kern sz ns nr dG g r).shape.length < 3 ∨ 0 ∈ (kern sz ns nr dG g r).shape.take 3) := fun r hr => by
    have := h.slices r hr
    have := h.dims
    simp [kern]; omega
  have c3 : ∀ r, (if ps then kern sz ns nr dG g r else (kern sz ns nr dG g r).map (A.mul (A.mul (A.mul δr δt) (sqrt nt)))) = kern sz ns nr dG (A.scaled ps (mdcFactor A δt δr sqrt nt) g) r := fun r => by
    cases ps <;> simp [kern, MatArith.scaled, mdcFactor, NDArray.map, slab, List.map_take, List.map_drop]
  have c4 : (if nfreq > nt / 2 + 1 then nt / 2 + 1 else nfreq) = psum sz n := by rw [h.freq]; split_ifs <;> omega
  simp only [if_neg c1, Prog.bind_eq]
  refine Runs.congr (ps := fun r => (A.mkFredholm (env n J r) (kern sz ns nr dG (A.scaled ps (mdcFactor A δt δr sqrt nt) g) r) nv sg um dG).bind fun fr =>
    (Prog.lift (A.mdcChain S nt ns nr nv nfreq tw cj dG fr)).bind fun m => .ret (m, DType.real)) ?_ (fun r hr => ?_) fun _ _ => rfl
  · refine Runs.bind_ok (runs_aMkFredholm A fun r hr => by have := h.slices r hr; omega) ?_
    refine (Runs.ret _).congr (fun r hr => ?_) fun _ _ => rfl
    have e : A.mdcChain S nt ns nr nv nfreq tw cj dG (aFredPrim A n sz ns nr nv sg um dG dG (A.scaled ps (mdcFactor A δt δr sqrt nt) g) r)
        = .ok ((mdcExpr cj).map (aMdcOp A S n sz nt ns nr nv tw sg um dG (A.scaled ps (mdcFactor A δt δr sqrt nt) g) · r)) := by
      unfold MatArith.mdcChain
      simp only [c4]
      cases cj <;>
        simp [OpArith.opH, OpArith.opMul, MOp.shape, Prim.shape, OpArith.wrap, aFredPrim, bind, Except.bind, h.fftF1.rows, h.fftF.rows, h.idnI.rows, h.idnI.cols, h.idnI1.rows, h.idnI1.cols, mdcExpr, MOp.map, aMdcOp, aMdcPrim]
    rw [e]
    rfl
  · rw [if_neg (c2 r hr), c3]
    rfl

theorem aMdc_leaf {F F1 I I1 : FOp K} {Fr : Nat → Prim K} {fr : Nat × Nat} {fn : Bool → SVec K → SVec K} {o : FOp K} {l : MLeaf} {b : Bool} {N M : Nat} {p : Partition} {t : DType}
    (hl : ∀ r, aMdcPrim A F F1 I I1 Fr l r = A.wrap o) (hs : aMdcShape F F1 I I1 fr l = (o.rows, o.cols)) (hf : aMdcFn A F F1 I I1 fn l = A.serial o)
    (ho : SizedAs o M N) {X : Layout} (hXw : X.WF n) (hm : X.mask = none) (hX : X.part = p) (hp : p.isBroadcast = true) (hXg : X.gshape = [if b then M else N]) :
    Accepts n J (aMdcPrim A F F1 I I1 Fr) (aMdcShape F F1 I I1 fr) (aMdcFn A F F1 I I1 fn) b (.leaf l) ⟨X, t⟩ ⟨.all (if b then N else M) p, o.dtype⟩ := by
  subst hX
  have ei : o.inDim b = if b then M else N := by cases b <;> simp [FOp.inDim, ho.rows, ho.cols]
  have eo : o.inDim (!b) = if b then N else M := by cases b <;> simp [FOp.inDim, ho.rows, ho.cols]
  have ht := wrap_takes A.toOpArith (J := J) (dx := t) (ho.sized b) hXw hp (by rw [hXg, ei])
  rw [eo] at ht
  refine ⟨fun r _ => by rw [hl]; exact hs.symm, ⟨hXw, hm⟩, ⟨all_wf hp, rfl⟩, by rw [hs, ho.rows, ho.cols]; exact hXg, by rw [hs, ho.rows, ho.cols]; rfl, ?_⟩
  simp only [hl, hf]
  cases b <;> exact ht

theorem aMdc_fred (h1 : ∀ r < n, sz r ≠ 1) (hg : g.length = psum sz n * (ns * nr)) {F F1 I I1 : FOp K} {b : Bool} (hk : FredOk n sz ns nr nv um b) {X : Layout} {t : DType}
    (hXw : X.WF n) (hm : X.mask = none) (hX : X.part.isBroadcast = true) (hXg : X.gshape = [psum sz n * (if b then ns else nr) * nv]) :
    Accepts n J (aMdcPrim A F F1 I I1 (aFredPrim A n sz ns nr nv sg um dG dG g)) (aMdcShape F F1 I I1 (psum sz n * ns * nv, psum sz n * nr * nv))
      (aMdcFn A F F1 I I1 (A.fredholm sg um dG dG (psum sz n) ns nr nv g)) b (.leaf .Fr) ⟨X, t⟩ ⟨.all (psum sz n * (if b then nr else ns) * nv), dG⟩ := by
  have ht := aFredMv_takes A (J := J) (sg := sg) (dG := dG) (dt := dG) (dx := t) h1 hg b hk.inner hk.outer hX hXg
  refine ⟨fun _ _ => rfl, ⟨hXw, hm⟩, ⟨all_wf rfl, rfl⟩, ?_, ?_, ?_⟩
  · cases b <;> exact hXg
  · cases b <;> rfl
  · cases b <;> exact ht

/-- what MPIMDC computes: `false` forward, `true` adjoint -/
def mdcFn (S : MDCSerial K) (T nt ns nr nv : Nat) (tw sg cj um : Bool) (dG : DType) (g : List K) (b : Bool) : SVec K → SVec K :=
  (if b then A.mdcAdj else A.mdc) (S.fft nt nr nv tw) (S.fft nt ns nv false) (S.idn (T * nr * nv) ((nt / 2 + 1) * nr * nv) dG) (S.idn (T * ns * nv) ((nt / 2 + 1) * ns * nv) dG)
    (A.fredholm sg um dG dG T ns nr nv g) cj

/-- the dtype of the result: that of the last Fourier transform -/
def mdcOut (S : MDCSerial K) (nt ns nr nv : Nat) (tw b : Bool) : DType := if b then (S.fft nt nr nv tw).dtype else (S.fft nt ns nv false).dtype

/-- the chain is accepted -/
theorem aMdc_accepts (h : FMDCOk S n sz nt ns nr nv nfreq tw dG g) {b : Bool} (hk : FredOk n sz ns nr nv um b)
    (hXw : X.WF n) (hm : X.mask = none) (hX : X.part.isBroadcast = true) (hXg : X.gshape = [nt * (if b then ns else nr) * nv]) {g' : List K} (hg' : g'.length = g.length) :
    Accepts n J (aMdcOp A S n sz nt ns nr nv tw sg um dG g')
      (aMdcShape (S.fft nt nr nv tw) (S.fft nt ns nv false) (S.idn (psum sz n * nr * nv) ((nt / 2 + 1) * nr * nv) dG) (S.idn (psum sz n * ns * nv) ((nt / 2 + 1) * ns * nv) dG) (psum sz n * ns * nv, psum sz n * nr * nv))
      (aMdcFn A (S.fft nt nr nv tw) (S.fft nt ns nv false) (S.idn (psum sz n * nr * nv) ((nt / 2 + 1) * nr * nv) dG) (S.idn (psum sz n * ns * nv) ((nt / 2 + 1) * ns * nv) dG)
        (A.fredholm sg um dG dG (psum sz n) ns nr nv g'))
      b (mdcExpr cj) ⟨X, dx⟩ ⟨.all (nt * (if b then nr else ns) * nv), mdcOut S nt ns nr nv tw b⟩ := by
  have hg : g'.length = psum sz n * (ns * nr) := hg'.trans h.length
  unfold aMdcOp mdcOut mdcExpr
  cases b with
  | false =>
    refine ⟨⟨.all ((nt / 2 + 1) * nr * nv) X.part, _⟩, aMdc_leaf A (o := S.fft nt nr nv tw) (b := false) (fun _ => rfl) rfl rfl h.fftF hXw hm rfl hX hXg,
      ⟨.all (psum sz n * nr * nv) X.part, _⟩, aMdc_leaf A (o := S.idn _ _ dG) (b := false) (fun _ => rfl) rfl rfl h.idnI (all_wf hX) rfl rfl hX rfl,
      ⟨.all (psum sz n * ns * nv), dG⟩, ?_,
      ⟨.all ((nt / 2 + 1) * ns * nv), _⟩, aMdc_leaf A (o := S.idn _ _ dG) (b := true) (fun _ => rfl) rfl rfl h.idnI1 (all_wf rfl) rfl rfl rfl rfl,
      aMdc_leaf A (o := S.fft nt ns nv false) (b := true) (fun _ => rfl) rfl rfl h.fftF1 (all_wf rfl) rfl rfl rfl rfl⟩
    have := aMdc_fred A (J := J) (sg := sg) (dG := dG) (F := S.fft nt nr nv tw) (F1 := S.fft nt ns nv false) (I := S.idn (psum sz n * nr * nv) ((nt / 2 + 1) * nr * nv) dG)
      (I1 := S.idn (psum sz n * ns * nv) ((nt / 2 + 1) * ns * nv) dG) (t := (S.idn (psum sz n * nr * nv) ((nt / 2 + 1) * nr * nv) dG).dtype) hk.slices hg hk
      (X := .all (psum sz n * nr * nv) X.part) (all_wf hX) rfl hX rfl
    cases cj <;> exact this
  | true =>
    refine ⟨⟨.all ((nt / 2 + 1) * nr * nv), _⟩, ⟨⟨.all (psum sz n * nr * nv), dG⟩, ⟨⟨.all (psum sz n * ns * nv) X.part, _⟩,
      ⟨⟨.all ((nt / 2 + 1) * ns * nv) X.part, _⟩, aMdc_leaf A (o := S.fft nt ns nv false) (b := false) (fun _ => rfl) rfl rfl h.fftF1 hXw hm rfl hX hXg,
        aMdc_leaf A (o := S.idn _ _ dG) (b := false) (fun _ => rfl) rfl rfl h.idnI1 (all_wf hX) rfl rfl hX rfl⟩, ?_⟩,
      aMdc_leaf A (o := S.idn _ _ dG) (b := true) (fun _ => rfl) rfl rfl h.idnI (all_wf rfl) rfl rfl rfl rfl⟩,
      aMdc_leaf A (o := S.fft nt nr nv tw) (b := true) (fun _ => rfl) rfl rfl h.fftF (all_wf rfl) rfl rfl rfl rfl⟩
    have := aMdc_fred A (J := J) (sg := sg) (dG := dG) (F := S.fft nt nr nv tw) (F1 := S.fft nt ns nv false) (I := S.idn (psum sz n * nr * nv) ((nt / 2 + 1) * nr * nv) dG)
      (I1 := S.idn (psum sz n * ns * nv) ((nt / 2 + 1) * ns * nv) dG) (t := (S.idn (psum sz n * ns * nv) ((nt / 2 + 1) * ns * nv) dG).dtype) hk.slices hg hk
      (X := .all (psum sz n * ns * nv) X.part) (all_wf hX) rfl hX rfl
    cases cj <;> exact this

theorem length_scaled (s : K) : (A.scaled ps s g).length = g.length := by unfold MatArith.scaled; split <;> simp

/-- `MPIMDC`: construction succeeds on all ranks; the products are the chains of the serial operators with the slice-wise products in between.  The dtype that the operator claims to have is
    the real one. -/
theorem C77_mdc (h : FMDCOk S n sz nt ns nr nv nfreq tw dG g) :
    ∃ op : Nat → MOp K (Prim K),
      Always n (fun r => A.mkMDC (env n J r) S sqrt (kern sz ns nr dG g r) nt nv nfreq δt δr tw sg cj um ps) (fun r => .ok (op r, .real)) ∧
      (∀ r, (op r).shape Prim.shape = (nt * ns * nv, nt * nr * nv)) ∧
      ∀ b X dx, FredOk n sz ns nr nv um b → X.WF n → X.mask = none → X.part.isBroadcast = true → X.gshape = [nt * (if b then ns else nr) * nv] →
        TakesTo n J (fun r c x => A.run c b (op r) x) ⟨X, dx⟩ ⟨.all (nt * (if b then nr else ns) * nv), mdcOut S nt ns nr nv tw b⟩
          (mdcFn A S (min nfreq (nt / 2 + 1)) nt ns nr nv tw sg cj um dG (A.scaled ps (A.mul (A.mul δr δt) (sqrt nt)) g) b) := by
  refine ⟨fun r => (mdcExpr cj).map (aMdcOp A S n sz nt ns nr nv tw sg um dG (A.scaled ps (mdcFactor A δt δr sqrt nt) g) · r), (aMkMDC_runs A h).always, fun r => ?_, fun b X dx hk hXw hm hX hXg => ?_⟩
  · cases cj <;> simp [mdcExpr, MOp.map, MOp.shape, aMdcOp, aMdcPrim, OpArith.wrap, Prim.shape, h.fftF1.cols, h.fftF.cols]
  · have := accepts_takes A.toOpArith (aMdc_accepts A (J := J) (sg := sg) (cj := cj) (dx := dx) h hk hXw hm hX hXg (length_scaled A (ps := ps) (mdcFactor A δt δr sqrt nt)))
    refine this.congr_fn fun x _ _ => ?_
    unfold mdcFn
    rw [← h.freq]
    cases b <;> cases cj <;> rfl

/-- the result of MPIMDC is the same for all numbers of ranks and distributions of the frequencies -/
theorem C77_mdc_ranks {n₁ n₂ : Nat} {sz₁ sz₂ : Nat → Nat} {J₁ J₂ : Nat → Nat → K} {X₁ X₂ : Layout} {b : Bool} {x : SVec K}
    (h₁ : FMDCOk S n₁ sz₁ nt ns nr nv nfreq tw dG g) (h₂ : FMDCOk S n₂ sz₂ nt ns nr nv nfreq tw dG g) (k₁ : FredOk n₁ sz₁ ns nr nv um b) (k₂ : FredOk n₂ sz₂ ns nr nv um b)
    (w₁ : X₁.WF n₁) (w₂ : X₂.WF n₂) (m₁ : X₁.mask = none) (m₂ : X₂.mask = none) (hX₁ : X₁.part.isBroadcast = true) (hX₂ : X₂.part.isBroadcast = true)
    (hg₁ : X₁.gshape = [nt * (if b then ns else nr) * nv]) (hg₂ : X₂.gshape = [nt * (if b then ns else nr) * nv]) (hx : x.v.length = nt * (if b then ns else nr) * nv) :
    let prog (n : Nat) (sz : Nat → Nat) (J : Nat → Nat → K) (X : Layout) (r : Nat) : P K (DArr K) := do
      let op ← A.mkMDC (env n J r) S sqrt (kern sz ns nr dG g r) nt nv nfreq δt δr tw sg cj um ps
      A.run (env n J r) b op.1 (x.dpart X n r)
    ∃ y : SVec K, y.v.length = nt * (if b then nr else ns) * nv ∧
      Always n₁ (prog n₁ sz₁ J₁ X₁) (fun r => .ok (y.dpart (.all (nt * (if b then nr else ns) * nv)) n₁ r)) ∧
      Always n₂ (prog n₂ sz₂ J₂ X₂) (fun r => .ok (y.dpart (.all (nt * (if b then nr else ns) * nv)) n₂ r)) := by
  intro prog
  have key : ∀ {n : Nat} {sz : Nat → Nat} {J : Nat → Nat → K} {X : Layout}, FMDCOk S n sz nt ns nr nv nfreq tw dG g → FredOk n sz ns nr nv um b → X.WF n → X.mask = none → X.part.isBroadcast = true →
      X.gshape = [nt * (if b then ns else nr) * nv] →
      let y := mdcFn A S (min nfreq (nt / 2 + 1)) nt ns nr nv tw sg cj um dG (A.scaled ps (A.mul (A.mul δr δt) (sqrt nt)) g) b x
      y.v.length = nt * (if b then nr else ns) * nv ∧ Always n (prog n sz J X) (fun r => .ok (y.dpart (.all (nt * (if b then nr else ns) * nv)) n r)) := by
    intro n sz J X h k w m hX hXg y
    obtain ⟨op, e1, -, e3⟩ := C77_mdc A (J := J) (sg := sg) (cj := cj) (um := um) (ps := ps) (sqrt := sqrt) (δt := δt) (δr := δr) h
    have t := e3 b X x.dt k w m hX hXg
    have hx' : x.v.length = X.gshape.prod := by rw [hx, hXg]; simp
    refine ⟨?_, (Runs.bind_ok e1.runs (t.run hx' rfl)).always⟩
    simpa [Layout.all] using t.length x hx' rfl
  obtain ⟨a1, a2⟩ := key (J := J₁) h₁ k₁ w₁ m₁ hX₁ hg₁
  exact ⟨_, a1, a2, (key (J := J₂) h₂ k₂ w₂ m₂ hX₂ hg₂).2⟩

/-- `CGLS` with MPIMDC, as in multi-dimensional deconvolution: if storing a number twice is the same as storing it once, and dot products and norms do not depend on the order of summation, then
    all results are the same for all numbers of ranks and distributions of the frequencies -/
theorem C77_mdc_cgls (hA : OrderFree A.toArith) (hi : ∀ dt a, A.cast dt (A.cast dt a) = A.cast dt a) {n₁ n₂ : Nat} {sz₁ sz₂ : Nat → Nat} {J₁ J₂ : Nat → Nat → K} (hn₁ : 0 < n₁) (hn₂ : 0 < n₂)
    (h₁ : FMDCOk S n₁ sz₁ nt ns nr nv nfreq tw dG g) (h₂ : FMDCOk S n₂ sz₂ nt ns nr nv nfreq tw dG g) (k₁ : ∀ b, FredOk n₁ sz₁ ns nr nv um b) (k₂ : ∀ b, FredOk n₂ sz₂ ns nr nv um b)
    {y x0 : SVec K} {damp tol : K} {niter : Int} (hy : y.v.length = nt * ns * nv) (hx : x0.v.length = nt * nr * nv) :
    let M : Layout := .all (nt * nr * nv)
    let D : Layout := .all (nt * ns * nv)
    let prog (n : Nat) (sz : Nat → Nat) (J : Nat → Nat → K) (r : Nat) : P K (FCGLS.Result K) := do
      let op ← A.mkMDC (env n J r) S sqrt (kern sz ns nr dG g r) nt nv nfreq δt δr tw sg cj um ps
      FCGLS.solve A.toArith A.normX (env n J r) (A.asOp op.1) (y.part D n r) (x0.part M n r) (some niter) damp tol
    (∃ (x : SVec K) (istop it : Nat) (r1 r2 : K) (cost : List K) (xs : List (SVec K)),
      Always n₁ (prog n₁ sz₁ J₁) (fun r => .ok ⟨x.part M n₁ r, istop, it, r1, r2, cost, xs.map fun z => z.part M n₁ r⟩) ∧
      Always n₂ (prog n₂ sz₂ J₂) (fun r => .ok ⟨x.part M n₂ r, istop, it, r1, r2, cost, xs.map fun z => z.part M n₂ r⟩)) ∨
    ∃ er, Always n₁ (prog n₁ sz₁ J₁) (fun _ => .error er) ∧ Always n₂ (prog n₂ sz₂ J₂) (fun _ => .error er) := by
  intro M D prog
  have hg' := length_scaled A (ps := ps) (g := g) (mdcFactor A δt δr sqrt nt)
  have acc : ∀ {n : Nat} {sz : Nat → Nat} {J : Nat → Nat → K}, FMDCOk S n sz nt ns nr nv nfreq tw dG g → (∀ b, FredOk n sz ns nr nv um b) → ∀ b t, Accepts n J
      (aMdcOp A S n sz nt ns nr nv tw sg um dG (A.scaled ps (mdcFactor A δt δr sqrt nt) g))
      (aMdcShape (S.fft nt nr nv tw) (S.fft nt ns nv false) (S.idn (psum sz n * nr * nv) ((nt / 2 + 1) * nr * nv) dG) (S.idn (psum sz n * ns * nv) ((nt / 2 + 1) * ns * nv) dG) (psum sz n * ns * nv, psum sz n * nr * nv))
      (aMdcFn A (S.fft nt nr nv tw) (S.fft nt ns nv false) (S.idn (psum sz n * nr * nv) ((nt / 2 + 1) * nr * nv) dG) (S.idn (psum sz n * ns * nv) ((nt / 2 + 1) * ns * nv) dG)
        (A.fredholm sg um dG dG (psum sz n) ns nr nv (A.scaled ps (mdcFactor A δt δr sqrt nt) g))) b (mdcExpr cj)
      ⟨if b then D else M, t⟩ ⟨if b then M else D, mdcOut S nt ns nr nv tw b⟩ := by
    intro n sz J h k b t
    have := aMdc_accepts A (J := J) (sg := sg) (cj := cj) (dx := t) (X := if b then D else M) h (k b) (by cases b <;> exact all_wf rfl) (by cases b <;> rfl) (by cases b <;> rfl) (by cases b <;> rfl) hg'
    cases b <;> exact this
  have a₁ := fun b t => acc (J := J₁) h₁ k₁ b t
  have a₂ := fun b t => acc (J := J₂) h₂ k₂ b t
  rw [h₁.freq] at a₁
  rw [h₂.freq] at a₂
  have c := C73_cgls A.toOpArith hA (J₁ := J₁) (J₂ := J₂) (D := fun _ => True) (D' := fun _ => True) hn₁ hn₂ (L₁ := M) (L₂ := M) (L₁' := D) (L₂' := D) (fun _ => hi) (fun _ x _ _ => ?_) rfl rfl
    (fun d _ => ⟨_, a₁ false d⟩) (fun d _ => ⟨_, a₂ false d⟩) (fun d _ => ⟨_, trivial, a₁ true d⟩) (fun d _ => ⟨_, a₂ true d⟩) (y := y) (x0 := x0) (damp := damp) (tol := tol) (niter := niter)
    (by simpa [D, Layout.all] using hy) (by simpa [M, Layout.all] using hx) trivial trivial
  · have start : ∀ {n : Nat} {sz : Nat → Nat} {J : Nat → Nat → K}, FMDCOk S n sz nt ns nr nv nfreq tw dG g → ∀ {ρ : Nat → Except Err (FCGLS.Result K)},
        Always n (fun r => FCGLS.solve A.toArith A.normX (env n J r) (A.asOp ((mdcExpr cj).map (aMdcOp A S n sz nt ns nr nv tw sg um dG (A.scaled ps (mdcFactor A δt δr sqrt nt) g) · r)))
          (y.part D n r) (x0.part M n r) (some niter) damp tol) ρ → Always n (prog n sz J) ρ := by
      intro n sz J h ρ ha
      exact (Runs.bind_ok (aMkMDC_runs A h) ha.runs).always
    rcases c with ⟨x, istop, it, r1, r2, cost, xs, c1, c2⟩ | ⟨er, c1, c2⟩
    · exact .inl ⟨x, istop, it, r1, r2, cost, xs, start h₁ c1, start h₂ c2⟩
    · exact .inr ⟨er, start h₁ c1, start h₂ c2⟩
  · intro a ha
    obtain ⟨z, -, rfl⟩ := List.mem_map.1 ha
    exact hi _ _

/-- an even number of samples is rejected if `twosided` -/
theorem C77_mdc_rejects (htw : tw = true) (hev : nt % 2 = 0) (c : Ctx K) (G : NDArray K) : A.mkMDC c S sqrt G nt nv nfreq δt δr tw sg cj um ps = .throw .value := by
  unfold MatArith.mkMDC
  rw [if_pos ⟨htw, hev⟩]

end

/-! ### Exact arithmetic -/

section
variable [RCLike K] {T nx ny nz : Nat} {sg um : Bool} {dG dt : DType} {g : List K} {x : SVec K}

/-- exact products of matrices -/
noncomputable def MatArith.exact : MatArith K where
  toOpArith := OpArith.exact
  mm _ _ _ m k p a b q := (mmData m k p a b).getD q 0
  ndot _ _ _ sa sb a b q :=
    match sa, sb with
    | [m, k], [_, p] => (mmData m k p a b).getD q 0
    | [m, k], [_] => (mmData m k 1 a b).getD q 0
    | [k], [_, p] => (mmData 1 k p a b).getD q 0
    | _, _ => 0

theorem exact_times {w : MatCall} {tA tB : DType} {m k p : Nat} {a b : List K} : MatArith.exact.times um w tA tB m k p a b = mmData m k p a b := by
  unfold MatArith.times
  have h : ∀ q, (if um then MatArith.exact.mm w tA tB m k p a b
     else MatArith.exact.ndot w tA tB (if w = .plain ∧ m = 1 then [k] else [m, k]) (if w ≠ .plain ∧ p = 1 then [k] else [k, p]) a b) q = (mmData m k p a b).getD q 0 := by
    intro q
    cases um with
    | true => rfl
    | false =>
      cases w <;> simp only [reduceCtorEq, false_and, if_false, true_and, ne_eq, not_false_eq_true, not_true_eq_false, Bool.false_eq_true]
      · split
        · subst_vars; rfl
        · rfl
      · split
        · subst_vars; rfl
        · rfl
      · split
        · subst_vars; rfl
        · rfl
  rw [List.map_congr_left fun q _ => h q]
  refine List.ext_getElem (by simp [length_mmData]) fun q h1 h2 => ?_
  simp [List.getD_eq_getElem?_getD, h2]

/-- With exact arithmetic the result is that of C38; the flags do not matter. -/
theorem C77_exact (fg : FitsL dt g) (hx : x.Fits) (hd : dt = .real → x.dt = .real) (b : Bool) :
    MatArith.exact.fredholm sg um dG dt T nx ny nz g b x = ⟨dt, if b then Verif.fredholmAdj T nx ny nz g x.v else Verif.fredholm T nx ny nz g x.v⟩ := by
  have fx : FitsL dt x.v := fun h => hx (hd h)
  have hctr : ∀ (m p : Nat) (d : List K), MatArith.exact.ctr m p d = (trData m p d).map star := fun m p d => (ctr_eq MatArith.exact m p d).symm
  have hslice : ∀ (k : Nat), (if b then MatArith.exact.fredAdjSlice sg um dG x.dt nx ny nz (sliceOf (nx * ny) g k) (sliceOf (nx * nz) x.v k)
      else MatArith.exact.fredFwdSlice um dG x.dt nx ny nz (sliceOf (nx * ny) g k) (sliceOf (ny * nz) x.v k)) =
      if b then adjMm nx ny nz (chunk (nx * ny) g k) (chunk (nx * nz) x.v k) else mmData nx ny nz (chunk (nx * ny) g k) (chunk (ny * nz) x.v k) := by
    intro k
    cases b with
    | false => exact exact_times
    | true =>
      simp only [if_true, MatArith.fredAdjSlice]
      cases sg with
      | true => rw [if_pos rfl, exact_times, hctr, mm_trconj]; rfl
      | false => rw [if_neg (by simp), exact_times, hctr, hctr, tr_mm_conj]; rfl
  unfold MatArith.fredholm
  rw [List.flatMap_congr fun k _ => hslice k]
  have hv : ((List.range T).flatMap fun k => if b then adjMm nx ny nz (chunk (nx * ny) g k) (chunk (nx * nz) x.v k) else mmData nx ny nz (chunk (nx * ny) g k) (chunk (ny * nz) x.v k))
      = if b then Verif.fredholmAdj T nx ny nz g x.v else Verif.fredholm T nx ny nz g x.v := by
    cases b
    · exact fredholm_chunks.symm
    · exact fredholmAdj_chunks.symm
  have hf : FitsL dt ((List.range T).flatMap fun k => if b then adjMm nx ny nz (chunk (nx * ny) g k) (chunk (nx * nz) x.v k) else mmData nx ny nz (chunk (nx * ny) g k) (chunk (ny * nz) x.v k)) := by
    intro ht y hy
    obtain ⟨k, -, hy⟩ := List.mem_flatMap.1 hy
    cases b
    · exact fits_mmData (fits_chunk fg) (fits_chunk fx) ht y hy
    · exact fits_adjMm (fits_chunk fg) (fits_chunk fx) ht y hy
  rw [hv] at hf ⊢
  congr 1
  have hc : ∀ y ∈ (if b then Verif.fredholmAdj T nx ny nz g x.v else Verif.fredholm T nx ny nz g x.v), castTo dt y = y := fun y hy => castTo_fit fun h => hf h y hy
  refine (List.map_congr_left (g := id) fun y hy => ?_).trans (List.map_id _)
  show castTo dt (if um then y else castTo dt y) = y
  rw [hc y hy, ite_self, hc y hy]

end

/-! ### Examples -/

/-- rounded integers, with matrix products whose sums are rounded after each addition -/
def roughMat : MatArith Int where
  toOpArith := roughOps
  mm _ _ _ _ k p a b q := (List.range k).foldl (fun s j => rough (s + a.getD (q / p * k + j) 0 * b.getD (j * p + q % p) 0)) 0
  ndot _ _ _ sa sb a b q :=
    let k := sa.getLastD 0
    let p := if sb.length = 2 then sb.getLastD 0 else 1
    (List.range k).foldl (fun s j => rough (s + a.getD (q / p * k + j) 0 * b.getD (j * p + q % p) 0)) 0

/-- four slices, on one rank or two on each of two: the numbers are the same, although sums are rounded -/
example (J₁ J₂ : Nat → Nat → Int) :=
  C77_fredholm_ranks roughMat (n₁ := 1) (n₂ := 2) (sz₁ := fun _ => 4) (sz₂ := fun _ => 2) (nx := 2) (ny := 3) (nz := 1) (sg := true) (um := true) (dG := .real) (dt := .real) (T := 4) (b := false)
    (g := (List.range 24).map fun i => (i : Int)) (J₁ := J₁) (J₂ := J₂) (X₁ := .all 12) (X₂ := .all 12) (x := ⟨.real, (List.range 12).map fun i => (i : Int)⟩) rfl rfl (by decide)
    ⟨fun _ _ => by decide, by decide, .inl rfl⟩ ⟨fun _ _ => by decide, by decide, .inl rfl⟩ rfl rfl rfl rfl (by decide)

/-- and they differ from those without rounding -/
example : (roughMat.fredholm true true .real .real 2 2 3 1 [1, 1, 1, 4, 5, 6, 1, 0, 0, 0, 1, 0] false ⟨.real, [1, 1, 1, 7, 8, 9]⟩).v ≠ [3, 15, 7, 8] := by decide


/-- cut off, or fill up with zeros -/
def resize (N : Nat) (v : List Int) : List Int := (List.range N).map (v.getD · 0)

/-- operators that change sizes -/
def resizeOp (M N : Nat) (t : DType) : FOp Int := ⟨M, N, t, fun _ v => resize M v, fun _ v => resize N v⟩

theorem resizeOp_sized (M N : Nat) (t : DType) : SizedAs (resizeOp M N t) M N :=
  ⟨rfl, rfl, fun b _ v _ => by cases b <;> simp [resizeOp, resize, FOp.on, LOp.fn, FOp.inDim]⟩

/-- in place of Fourier transforms -/
def resizeSerial : MDCSerial Int := ⟨fun nt m nv _ => resizeOp ((nt / 2 + 1) * m * nv) (nt * m * nv) .real, resizeOp⟩

theorem resize_ok {n : Nat} {sz : Nat → Nat} (h2 : ∀ r < n, 2 ≤ sz r) (hT : psum sz n = 4) :
    FMDCOk resizeSerial n sz 7 2 3 1 9 true .real ((List.range 24).map fun i => (i : Int)) := by
  refine ⟨fun _ => by decide, h2, by decide, by rw [hT]; decide, by rw [hT]; decide, resizeOp_sized .., resizeOp_sized .., ?_, ?_⟩
  · exact resizeOp_sized ..
  · exact resizeOp_sized ..

/-- four frequencies, on one rank or two on each of two: seven samples, two sources, three receivers -/
example (J₁ J₂ : Nat → Nat → Int) :=
  C77_mdc_ranks roughMat (S := resizeSerial) (sqrt := fun _ => 3) (δt := 2) (δr := 5) (n₁ := 1) (n₂ := 2) (sz₁ := fun _ => 4) (sz₂ := fun _ => 2) (sg := false) (cj := true) (um := false) (ps := false)
    (b := true) (J₁ := J₁) (J₂ := J₂) (X₁ := .all 14) (X₂ := .all 14) (x := ⟨.real, (List.range 14).map fun i => (i : Int)⟩) (resize_ok (fun _ _ => by decide) rfl) (resize_ok (fun _ _ => by decide) rfl)
    ⟨fun _ _ => by decide, by decide, .inr (.inl (by decide))⟩ ⟨fun _ _ => by decide, by decide, .inr (.inl (by decide))⟩ (all_wf rfl) (all_wf rfl) rfl rfl rfl rfl rfl rfl (by decide)


/-- dot products and norms are computed exactly; storing a number rounds it to a multiple of 4 -/
def storeMat : MatArith Int where
  toOpArith := { wholeOps with cast := fun _ x => x - x % 4 }
  mm := roughMat.mm
  ndot := roughMat.ndot

theorem storeMat_free : OrderFree storeMat.toArith := ⟨wholeArith_free.dot, wholeArith_free.norm⟩

/-- CGLS with MPIMDC on one and on two ranks: the vectors are held by all ranks, but each sums its part of the dot products -/
example (J₁ J₂ : Nat → Nat → Int) (niter damp tol : Int) :=
  C77_mdc_cgls storeMat storeMat_free (fun _ x => by show (x - x % 4) - (x - x % 4) % 4 = x - x % 4; omega) (S := resizeSerial) (sqrt := fun _ => 3) (δt := 2) (δr := 5) (n₁ := 1) (n₂ := 2)
    (sz₁ := fun _ => 4) (sz₂ := fun _ => 2) (sg := false) (cj := true) (um := true) (ps := false) (J₁ := J₁) (J₂ := J₂) (damp := damp) (tol := tol) (niter := niter) (by decide) (by decide)
    (resize_ok (fun _ _ => by decide) rfl) (resize_ok (fun _ _ => by decide) rfl) (fun b => ⟨fun _ _ => by decide, by cases b <;> decide, .inl rfl⟩) (fun b => ⟨fun _ _ => by decide, by cases b <;> decide, .inl rfl⟩)
    (y := ⟨.real, (List.range 14).map fun i => (i : Int)⟩) (x0 := ⟨.real, List.replicate 21 0⟩) (by decide) (by decide)

end Verif

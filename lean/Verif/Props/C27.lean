/- C27: operator algebra acts point-wise. -/
import Verif.Proofs.Dottest
import Verif.Props.C23
import Verif.Props.C24
import Verif.Props.C49

namespace Verif
open NDArray

variable {K ι : Type} [Field K] [StarRing K] [CharZero K] {lv : Leaves K ι} {n : Nat} {J : Nat → Nat → K} {prim : ι → Nat → Prim K}

/-- **C27**, partial.  For every operator expression `e` of any depth that is `Typed` from the space `S` to the space `T`, `matvec` (`b = false`) and `rmatvec`
    (`b = true`), applied to the parts of any vector `d`, leave on all ranks, in all executions, their parts of the vector denoted by the
    expression (`den`: sums, products, … of what the leaves compute).
    Missing for the full statement: expressions combining operators whose results have different dtypes or layouts, for which it is
    false — `C27_violated_dtype`, `C27_violated_scale`, `C27_violated_power`. -/
theorem C27_partial {e : MOp K ι} {b : Bool} {S T : VSpace} (h : Typed lv n J prim b e S T) {d : List K} (hd : S.Mem d) :
    T.Mem (den lv b e d) ∧
    Always n (fun r => MOp.run (env n J r) b (e.map (prim · r)) (S.vec n d r)) (fun r => .ok (T.vec n (den lv b e d) r)) :=
  typed_computes h d hd

/-- **C27** (difference). -/
theorem C27_sub {A B e : MOp K ι} (h : A.sub lv.sh B = .ok e) (x : List K) :
    den lv false e x = List.zipWith (· - ·) (den lv false A x) (den lv false B x) := by
  unfold MOp.sub MOp.add at h
  split_ifs at h
  obtain rfl := (Except.ok.inj h).symm
  simp only [den, MOp.neg, vadd, vscale]
  rw [List.zipWith_map_right]
  congr 1
  funext a b
  simp [sub_eq_add_neg]

/-- **C27** (negation, scaling, product, power, sum, conjugate, transpose, adjoint). -/
theorem C27_combinators (A B : MOp K ι) (s : Scal K) (p : Nat) (x : List K) :
    den lv false A.neg x = (den lv false A x).map (- ·) ∧
    den lv false (.scaled A s) x = (den lv false A x).map (s.val * ·) ∧
    den lv false (.prod A B) x = den lv false A (den lv false B x) ∧
    den lv false (.pow A p) x = (den lv false A)^[p] x ∧
    den lv false (.sum A B) x = List.zipWith (· + ·) (den lv false A x) (den lv false B x) ∧
    den lv false (.conj A) x = (den lv false A (x.map star)).map star ∧
    den lv false (.trans A) x = (den lv true A (x.map star)).map star ∧
    den lv false (.adj A) x = den lv true A x := by
  refine ⟨?_, ?_, rfl, rfl, rfl, rfl, rfl, rfl⟩
  · simp only [MOp.neg, den, vscale]
    exact List.map_congr_left fun a _ => by simp
  · simp only [den, vscale]
    exact List.map_congr_left fun a _ => by simp [mul_comm]

/-- **C27** (rejection).  The constructors raise ValueError exactly for shape-incompatible operators, and otherwise build the combination. -/
theorem C27_reject {ℓ : Type} (sh : ℓ → Nat × Nat) (A B : MOp K ℓ) (p : Nat) :
    ((A.mul sh B = .error .value ↔ (A.shape sh).2 ≠ (B.shape sh).1) ∧ ((A.shape sh).2 = (B.shape sh).1 → A.mul sh B = .ok (.prod A B))) ∧
    ((A.add sh B = .error .value ↔ A.shape sh ≠ B.shape sh) ∧ (A.shape sh = B.shape sh → A.add sh B = .ok (.sum A B))) ∧
    ((A.sub sh B = .error .value ↔ A.shape sh ≠ B.shape sh) ∧ (A.shape sh = B.shape sh → A.sub sh B = .ok (.sum A B.neg))) ∧
    ((A.power sh p = .error .value ↔ (A.shape sh).1 ≠ (A.shape sh).2) ∧ ((A.shape sh).1 = (A.shape sh).2 → A.power sh p = .ok (.pow A p))) := by
  have hn : B.neg.shape sh = B.shape sh := rfl
  unfold MOp.mul MOp.sub MOp.add MOp.power
  rw [hn]
  refine ⟨⟨?_, ?_⟩, ⟨?_, ?_⟩, ⟨?_, ?_⟩, ⟨?_, ?_⟩⟩ <;> by_cases h1 : (A.shape sh).2 = (B.shape sh).1 <;> by_cases h2 : A.shape sh = B.shape sh <;>
    by_cases h3 : (A.shape sh).1 = (A.shape sh).2 <;> simp [h1, h2, h3]

/-! ### Leaves: the stacking operators -/

/-- MPIBlockDiag as a leaf -/
theorem typed_blockDiag {ops : Nat → List (LOp K)} {mask : Option (List Nat)} {dx dt : DType} {i : ι} {b : Bool} (hprim : ∀ r, prim i r = bdPrim n ops mask dt r)
    (hsh : lv.sh i = (inSum true (allOps n ops), inSum false (allOps n ops))) (hfn : lv.fn i b = blockDiag b (allOps n ops))
    (hok : ∀ o ∈ allOps n ops, o.Ok b dx dt) (hne : ∀ r < n, ops r ≠ []) (hm : ∀ m, mask = some m → n ≤ m.length := by simp) :
    Typed lv n J prim b (.leaf i) ⟨inL b n ops mask, dx⟩ ⟨inL (!b) n ops mask, dt⟩ := by
  refine ⟨fun r _ => by rw [hprim, hsh]; rfl, inL_wf hm, inL_wf hm, ?_, ?_, ?_⟩
  · rw [hsh]; cases b <;> simp [Layout.lin, dimOf]
  · rw [hsh]; cases b <;> simp [Layout.lin, dimOf]
  · rw [hfn]
    refine Computes.intro fun d hd => ?_
    have hlen : d.length = inSum b (allOps n ops) := by simpa [Layout.lin] using hd.1
    refine ⟨mem_blockDiag hok hlen hd.2, ?_⟩
    have h := runs_blockDiagMv (J := J) (X := inL b n ops mask) (mask := mask) (conform_in (inL_wf hm) rfl rfl rfl) (near_refl _ _) hok hne hm hd
    refine h.congr (fun r _ => ?_) fun _ _ => rfl
    rw [hprim]
    cases b <;> rfl

/-- Non-vacuity: `3 * (A + A.H) * A ** 2` with A = diag(2, 5) on two ranks. -/
def dgOps : Nat → List (LOp ℚ) := fun r => if r = 0 then [.row [2]] else [.row [5]]
theorem dgOps_row {n : Nat} {o : LOp ℚ} (h : o ∈ allOps n dgOps) : ∃ c, o = .row c := by
  simp only [allOps, List.mem_flatMap, List.mem_range, dgOps] at h
  obtain ⟨q, _, h⟩ := h
  split_ifs at h <;> exact ⟨_, by simpa using h⟩

def dgLeaves : Leaves ℚ Unit := ⟨fun _ => (2, 2), fun _ b => blockDiag b (allOps 2 dgOps)⟩
def dgExpr : MOp ℚ Unit := .scaled (.prod (.sum (.leaf ()) (.adj (.leaf ()))) (.pow (.leaf ()) 2)) ⟨.real, 3⟩

theorem dg_typed (J : Nat → Nat → ℚ) : Typed dgLeaves 2 J (fun _ => bdPrim 2 dgOps none .real) false dgExpr
    ⟨inL false 2 dgOps, .real⟩ ⟨inL false 2 dgOps, .real⟩ := by
  have e : inL true 2 dgOps = inL false 2 dgOps := by
    unfold inL
    have : (fun r => inSum true (dgOps r)) = fun r => inSum false (dgOps r) := by
      funext r; unfold dgOps; split_ifs <;> rfl
    rw [this]; rfl
  have hl : ∀ b, Typed dgLeaves 2 J (fun _ => bdPrim 2 dgOps none .real) b (.leaf ()) ⟨inL false 2 dgOps, .real⟩ ⟨inL false 2 dgOps, .real⟩ := by
    intro b
    have := typed_blockDiag (lv := dgLeaves) (J := J) (n := 2) (prim := fun _ => bdPrim 2 dgOps none .real) (i := ()) (b := b) (dx := .real) (dt := .real)
      (ops := dgOps) (fun _ => rfl) (by decide) rfl (fun o ho => by obtain ⟨c, rfl⟩ := dgOps_row ho; exact LOp.row_ok _ _ _ _)
      (fun r _ => by unfold dgOps; split_ifs <;> simp)
    cases b with
    | false => rw [Bool.not_false, e] at this; exact this
    | true => rw [Bool.not_true, e] at this; exact this
  exact ⟨⟨_, ⟨rfl, hl false⟩, hl false, hl true⟩, fun _ => ⟨rfl, by simp⟩⟩

example : Always 2 (fun r => MOp.run (env 2 (fun _ _ => 0) r) false (dgExpr.map (fun _ => bdPrim 2 dgOps none .real r)) (VSpace.vec ⟨inL false 2 dgOps, .real⟩ 2 [1, 1] r))
    (fun r => .ok (VSpace.vec ⟨inL false 2 dgOps, .real⟩ 2 [48, 750] r)) := by
  have h := (C27_partial (dg_typed (fun _ _ => 0)) (d := [1, 1]) ⟨rfl, fits_rat _ _⟩).2
  have e : den dgLeaves false dgExpr [1, 1] = [48, 750] := by decide +kernel
  rwa [e] at h

/-! ### Where the claim is false -/

/-- **C27 is false for powers** of operators whose output is laid out differently from their input: with two ranks holding the 1 × 2 matrices [1 2] and [3 4],
    `MPIVStack(ops)` is the matrix [[1, 2], [3, 4]], and applied to the broadcast vector (1, 10) gives (21, 43); but `(MPIVStack(ops) ** 1)` applied to it
    silently gives (21, 21). -/
theorem C27_violated_power :
    (∃ σ : Nat → NDArray ℚ, Always 2 (fun r => do
        let p ← mkVStack (env 2 (fun _ _ => 0) r) (if r = 0 then [.row [1, 2]] else [.row [3, 4]]) none
        let y ← MOp.run (env 2 (fun _ _ => 0) r) false (.leaf p) (VSpace.vec ⟨.all 2, .real⟩ 2 [1, 10] r)
        y.asarray (env 2 (fun _ _ => 0) r)) (fun r => .ok (σ r)) ∧ ∀ r < 2, (σ r).data = [21, 43]) ∧
    (∃ σ : Nat → NDArray ℚ, Always 2 (fun r => do
        let p ← mkVStack (env 2 (fun _ _ => 0) r) (if r = 0 then [.row [1, 2]] else [.row [3, 4]]) none
        let e ← Prog.lift ((MOp.leaf p).power Prim.shape 1)
        let y ← MOp.run (env 2 (fun _ _ => 0) r) false e (VSpace.vec ⟨.all 2, .real⟩ 2 [1, 10] r)
        y.asarray (env 2 (fun _ _ => 0) r)) (fun r => .ok (σ r)) ∧ ∀ r < 2, (σ r).data = [21, 21]) := by
  constructor
  · obtain ⟨σ, h1, h2⟩ := runs_of_simOk 40
      (ps := fun r => do
        let p ← mkVStack (env 2 (fun _ _ => 0) r) (if r = 0 then [.row [1, 2]] else [.row [3, 4]]) none
        let y ← MOp.run (env 2 (fun _ _ => 0) r) false (.leaf p) (VSpace.vec ⟨.all 2, .real⟩ 2 [1, 10] r)
        y.asarray (env 2 (fun _ _ => 0) r))
      (g := fun x : NDArray ℚ => x.data) (n := 2) (outs := [[21, 43], [21, 43]]) (by decide) (by decide +kernel)
    refine ⟨σ, h1.always, fun r hr => ?_⟩
    have := h2 r hr
    match r, hr with
    | 0, _ => simpa using this.symm
    | 1, _ => simpa using this.symm
  · obtain ⟨σ, h1, h2⟩ := runs_of_simOk 40
      (ps := fun r => do
        let p ← mkVStack (env 2 (fun _ _ => 0) r) (if r = 0 then [.row [1, 2]] else [.row [3, 4]]) none
        let e ← Prog.lift ((MOp.leaf p).power Prim.shape 1)
        let y ← MOp.run (env 2 (fun _ _ => 0) r) false e (VSpace.vec ⟨.all 2, .real⟩ 2 [1, 10] r)
        y.asarray (env 2 (fun _ _ => 0) r))
      (g := fun x : NDArray ℚ => x.data) (n := 2) (outs := [[21, 21], [21, 21]]) (by decide) (by decide +kernel)
    refine ⟨σ, h1.always, fun r hr => ?_⟩
    have := h2 r hr
    match r, hr with
    | 0, _ => simpa using this.symm
    | 1, _ => simpa using this.symm

/-- multiplication by a scalar, as an operator of size 1 and the given dtype -/
def LOp.mulBy (t : DType) (z : ℂ) : LOp ℂ := ⟨1, 1, t, fun x => x.map (z * ·), fun x => x.map (star z * ·)⟩

theorem mulBy_ok {t t' : DType} {z : ℂ} (h : t' = .real → star z = z) (b : Bool) (ht : t' = .real → t = .real) {t0 : DType} : (LOp.mulBy t0 z).Ok b t t' := by
  refine ⟨fun d hd => ?_, fun d _ hf h' x hx => ?_⟩
  · cases b <;> simpa [LOp.mulBy, LOp.fn, LOp.inDim, LOp.outDim] using hd
  · have e1 := h h'
    cases b
    · obtain ⟨y, hy, rfl⟩ := List.mem_map.1 (show x ∈ d.map (z * ·) from hx)
      rw [star_mul, e1, hf (ht h') y hy, mul_comm]
    · obtain ⟨y, hy, rfl⟩ := List.mem_map.1 (show x ∈ d.map (star z * ·) from hx)
      rw [star_mul, star_star, hf (ht h') y hy, e1, mul_comm]

/-- **C27 is false for sums with mixed dtypes**: on one rank, with A the real operator x ↦ x and B the complex operator x ↦ i x, `A + B` applied to (1) gives (1),
    not (1 + i); and `(B + A)` gives (1 + i). -/
theorem C27_violated_dtype :
    let J : Nat → Nat → ℂ := fun _ _ => 0
    let A := bdPrim 1 (fun _ => [LOp.mulBy .real 1]) none .real
    let B := bdPrim 1 (fun _ => [LOp.mulBy .cplx Complex.I]) none .cplx
    Always 1 (fun r => MOp.run (env 1 J r) false (.sum (.leaf (A r)) (.leaf (B r))) (VSpace.vec ⟨.lin 1 (fun _ => 1), .real⟩ 1 [1] r))
      (fun r => .ok (VSpace.vec ⟨.lin 1 (fun _ => 1), .real⟩ 1 [1] r)) ∧
    Always 1 (fun r => MOp.run (env 1 J r) false (.sum (.leaf (B r)) (.leaf (A r))) (VSpace.vec ⟨.lin 1 (fun _ => 1), .real⟩ 1 [1] r))
      (fun r => .ok (VSpace.vec ⟨.lin 1 (fun _ => 1), .cplx⟩ 1 [Complex.I + 1] r)) := by
  intro J A B
  have hL : (Layout.lin 1 (fun _ => 1)).WF 1 := lin_wf rfl (by simp)
  have hx : VSpace.Mem ⟨.lin 1 (fun _ => 1), .real⟩ [(1 : ℂ)] := ⟨rfl, fun _ x hx => by simp at hx; simp [hx]⟩
  have hA : Runs 1 (fun r => MOp.run (env 1 J r) false (.leaf (A r)) (VSpace.vec ⟨.lin 1 (fun _ => 1), .real⟩ 1 [1] r))
      (fun r => .ok (VSpace.vec ⟨.lin 1 (fun _ => 1), .real⟩ 1 [1] r)) := by
    have := runs_bdRun (J := J) (n := 1) (ops := fun _ => [LOp.mulBy .real 1]) (b := false) (dx := .real) (dt := .real) (mask := none) (X := .lin 1 (fun _ => 1))
      hL rfl rfl rfl (near_refl _ _) (fun o ho => by
        simp only [allOps, List.mem_flatMap, List.mem_singleton] at ho
        obtain ⟨_, _, rfl⟩ := ho
        exact mulBy_ok (by simp) _ (by simp)) (by simp) (by simp) hx
    have e1 : blockDiag false (allOps 1 fun _ => [LOp.mulBy .real 1]) [1] = [1] := by simp [blockDiag, slices, allOps, LOp.mulBy, LOp.fn, LOp.inDim]
    rw [e1] at this
    exact this
  have hB : Runs 1 (fun r => MOp.run (env 1 J r) false (.leaf (B r)) (VSpace.vec ⟨.lin 1 (fun _ => 1), .real⟩ 1 [1] r))
      (fun r => .ok (VSpace.vec ⟨.lin 1 (fun _ => 1), .cplx⟩ 1 [Complex.I] r)) := by
    have := runs_bdRun (J := J) (n := 1) (ops := fun _ => [LOp.mulBy .cplx Complex.I]) (b := false) (dx := .real) (dt := .cplx) (mask := none) (X := .lin 1 (fun _ => 1))
      hL rfl rfl rfl (near_refl _ _) (fun o ho => by
        simp only [allOps, List.mem_flatMap, List.mem_singleton] at ho
        obtain ⟨_, _, rfl⟩ := ho
        exact mulBy_ok (by simp) _ (by simp)) (by simp) (by simp) hx
    have e1 : blockDiag false (allOps 1 fun _ => [LOp.mulBy .cplx Complex.I]) [1] = [Complex.I] := by
      simp [blockDiag, slices, allOps, LOp.mulBy, LOp.fn, LOp.inDim]
    rw [e1] at this
    exact this
  have ga : (Layout.lin 1 (fun _ => 1)).Good 1 .real fun _ => [(1 : ℂ)] := ⟨fun _ _ => rfl, fun _ _ _ x hx => by simp at hx; simp [hx], by simp [Layout.lin, Partition.isBroadcast]⟩
  have gb : (Layout.lin 1 (fun _ => 1)).Good 1 .cplx fun _ => [Complex.I] := ⟨fun _ _ => rfl, fun _ _ h => by simp at h, by simp [Layout.lin, Partition.isBroadcast]⟩
  have ev : ∀ (t : DType) (z : ℂ), ∀ r < 1, (VSpace.vec ⟨.lin 1 (fun _ => 1), t⟩ 1 [z] r : DArr ℂ) = (Layout.lin 1 (fun _ => 1)).fam 1 t (fun _ => [z]) r := by
    intro t z r hr
    obtain rfl : r = 0 := by omega
    rfl
  constructor
  · have h := mixed_add (J := J) _ .real .cplx _ _ hL ga gb
    have e : ((List.zipWith (· + ·) [(1 : ℂ)] [Complex.I]).map (castTo .real)) = [1] := by
      simp only [List.zipWith_cons_cons, List.zipWith_nil_left, List.map_cons, List.map_nil, List.cons.injEq, and_true]
      apply Complex.ext <;> simp [castTo]
    simp only [e] at h
    have hadd : Runs 1 (fun r => (VSpace.vec ⟨.lin 1 (fun _ => 1), .real⟩ 1 [1] r).add (env 1 J r) (VSpace.vec ⟨.lin 1 (fun _ => 1), .cplx⟩ 1 [Complex.I] r))
        (fun r => .ok (VSpace.vec ⟨.lin 1 (fun _ => 1), .real⟩ 1 [1] r)) :=
      h.runs.congr (fun r hr => by rw [ev _ _ r hr, ev _ _ r hr]) fun r hr => by rw [ev _ _ r hr]
    refine Always.congr_prog (Runs.bind_ok (k := fun r y => (MOp.run (env 1 J r) false (.leaf (B r)) (VSpace.vec ⟨.lin 1 (fun _ => 1), .real⟩ 1 [1] r)).bind
      fun z => y.add (env 1 J r) z) hA (Runs.bind_ok hB hadd)).always fun r hr => ?_
    simp only [MOp.run, checkDim]
    rfl
  · have h := mixed_add (J := J) _ .cplx .real _ _ hL gb ga
    have e : ((List.zipWith (· + ·) [Complex.I] [(1 : ℂ)]).map (castTo .cplx)) = [Complex.I + 1] := by simp [castTo]
    simp only [e] at h
    have hadd : Runs 1 (fun r => (VSpace.vec ⟨.lin 1 (fun _ => 1), .cplx⟩ 1 [Complex.I] r).add (env 1 J r) (VSpace.vec ⟨.lin 1 (fun _ => 1), .real⟩ 1 [1] r))
        (fun r => .ok (VSpace.vec ⟨.lin 1 (fun _ => 1), .cplx⟩ 1 [Complex.I + 1] r)) :=
      h.runs.congr (fun r hr => by rw [ev _ _ r hr, ev _ _ r hr]) fun r hr => by rw [ev _ _ r hr]
    refine Always.congr_prog (Runs.bind_ok (k := fun r y => (MOp.run (env 1 J r) false (.leaf (A r)) (VSpace.vec ⟨.lin 1 (fun _ => 1), .real⟩ 1 [1] r)).bind
      fun z => y.add (env 1 J r) z) hB (Runs.bind_ok hA hadd)).always fun r hr => ?_
    simp only [MOp.run, checkDim]
    rfl

/-- **C27 is false for complex multiples of real operators**: `i * A` raises TypeError when applied to a real vector (the in-place multiplication of a real array
    by a complex number is refused by NumPy), on all ranks. -/
theorem C27_violated_scale {e : MOp K ι} {b : Bool} {S T : VSpace} (h : Typed lv n J prim b e S T) (hT : T.dt = .real) (z : K) {d : List K} (hd : S.Mem d) :
    Always n (fun r => MOp.run (env n J r) b ((MOp.scaled e ⟨.cplx, z⟩).map (prim · r)) (S.vec n d r)) (fun _ => .error .type) := by
  have hf := Typed.facts h
  have h1 := (typed_computes h).runs hd
  refine Runs.always ?_
  have h2 : Runs n (fun r => (MOp.run (env n J r) b (e.map (prim · r)) (S.vec n d r)).bind fun y => y.scaleInPlace (env n J r) (if b then Scal.conj ⟨.cplx, z⟩ else ⟨.cplx, z⟩))
      (fun _ => .error .type) := by
    refine Runs.bind_ok (k := fun r y => y.scaleInPlace (env n J r) (if b then Scal.conj ⟨.cplx, z⟩ else ⟨.cplx, z⟩)) h1 ?_
    refine (Runs.throw fun _ => Err.type).congr (fun r _ => ?_) fun _ _ => rfl
    unfold DArr.scaleInPlace
    rw [if_pos]
    exact ⟨hT, by cases b <;> rfl⟩
  exact (runs_checkDim (b := b) (S := S) (d := d) (shs := fun r => (e.map (prim · r)).shape Prim.shape) hf.2.2.2.2 hf.2.2.1 h2).congr
    (fun r _ => by simp only [MOp.map, MOp.run, Prog.bind_eq, MOp.shape]) fun _ _ => rfl

end Verif

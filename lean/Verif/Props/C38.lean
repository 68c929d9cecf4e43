/- C38: MPIFredholm1 is the slice-wise matrix product. -/
import Verif.Proofs.Fredholm
import Verif.MPI.Sim
import Verif.Spec.Examples

namespace Verif
open NDArray
set_option linter.unusedSectionVars false

variable {K : Type} [Field K] [StarRing K] [CharZero K]

/-- build the operator and apply its `matvec` (`b = false`) or `rmatvec` (`b = true`) -/
def fredRun (G : NDArray K) (nz : Nat) (saveGt usematmul : Bool) (dt : DType) (b : Bool) (c : Ctx K) (x : DArr K) : P K (DArr K) := do
  let p ← mkFredholm c G nz saveGt usematmul dt
  MOp.run c b (.leaf p) x

variable {n : Nat} {sz : Nat → Nat} {nx ny nz : Nat} {sg um : Bool} {dG dt dx : DType} {g : List K} {J : Nat → Nat → K} {X : Layout}

theorem fredRun_computes (h1 : ∀ r < n, sz r ≠ 1) (hg : g.length = psum sz n * (nx * ny)) (fg : FitsL dt g) (hdt : dt = .real → dx = .real) (b : Bool)
    (hn1 : (if b then nx else ny) ≠ 1) (hu : um = true ∨ (if b then ny else nx) ≠ 1 ∨ nz ≠ 1 ∨ ∀ r < n, sz r = sz 0)
    (hX : X.part.isBroadcast = true) (hXg : X.gshape = [psum sz n * (if b then nx else ny) * nz]) :
    Computes n J (fun r => fredRun (kern sz nx ny dG g r) nz sg um dt b) ⟨X, dx⟩ ⟨.all (psum sz n * (if b then ny else nx) * nz), dt⟩
      (if b then fredholmAdj (psum sz n) nx ny nz g else fredholm (psum sz n) nx ny nz g) := by
  have hc := fredMv_computes (J := J) (sg := sg) (dG := dG) h1 hg fg hdt b hn1 hu hX hXg
  refine Computes.intro fun d hd => ⟨hc.mem hd, ?_⟩
  unfold fredRun
  simp only [Prog.bind_eq]
  refine Runs.bind_ok (runs_mkFredholm h1) ?_
  have := runs_checkDim (n := n) (b := b) (S := ⟨X, dx⟩) (d := d) (sh := (psum sz n * nx * nz, psum sz n * ny * nz)) (fun _ _ => rfl) (by cases b <;> exact hXg) (hc.runs hd)
  refine this.congr (fun r _ => ?_) fun _ _ => rfl
  simp only [MOp.run, Prim.shape]
  cases b <;> rfl

/-- **C38** (forward; partial: no rank has exactly one slice, `ny ≠ 1`, and — for the loop version with `nx = nz = 1` — all ranks have as many slices).  The kernel `g` has
    `psum sz n` slices, of which rank `r` holds `sz r`.  Whatever the number of ranks, the distribution of the slices and the flags, all ranks end up with `G(k) m(k)` for all `k`. -/
theorem C38_matvec_partial (h1 : ∀ r < n, sz r ≠ 1) (hg : g.length = psum sz n * (nx * ny)) (fg : FitsL dt g) (hdt : dt = .real → dx = .real)
    (hny : ny ≠ 1) (hu : um = true ∨ nx ≠ 1 ∨ nz ≠ 1 ∨ ∀ r < n, sz r = sz 0)
    (hX : X.part.isBroadcast = true) (hXg : X.gshape = [psum sz n * ny * nz]) :
    Computes n J (fun r => fredRun (kern sz nx ny dG g r) nz sg um dt false) ⟨X, dx⟩ ⟨.all (psum sz n * nx * nz), dt⟩ (fredholm (psum sz n) nx ny nz g) :=
  fredRun_computes h1 hg fg hdt false hny hu hX hXg

/-- **C38** (adjoint; partial likewise, with `nx ≠ 1`).  All ranks end up with `G(k)^H d(k)` for all `k`. -/
theorem C38_rmatvec_partial (h1 : ∀ r < n, sz r ≠ 1) (hg : g.length = psum sz n * (nx * ny)) (fg : FitsL dt g) (hdt : dt = .real → dx = .real)
    (hnx : nx ≠ 1) (hu : um = true ∨ ny ≠ 1 ∨ nz ≠ 1 ∨ ∀ r < n, sz r = sz 0)
    (hX : X.part.isBroadcast = true) (hXg : X.gshape = [psum sz n * nx * nz]) :
    Computes n J (fun r => fredRun (kern sz nx ny dG g r) nz sg um dt true) ⟨X, dx⟩ ⟨.all (psum sz n * ny * nz), dt⟩ (fredholmAdj (psum sz n) nx ny nz g) :=
  fredRun_computes h1 hg fg hdt true hnx hu hX hXg

/-- **C38** (adjoint identity).  The two functions are adjoint to each other. -/
theorem C38_adjoint {T : Nat} {u v : List K} (hu : u.length = T * (ny * nz)) (hv : v.length = T * (nx * nz)) :
    ip (fredholm T nx ny nz g u) v = ip u (fredholmAdj T nx ny nz g v) := ip_fredholm hu hv

/-- Input that is not held by all ranks is rejected, on all ranks. -/
theorem C38_rejects (h1 : ∀ r < n, sz r ≠ 1) (b : Bool) {d : Nat → List K} (hX : X.part.isBroadcast = false) (hXg : X.gshape = [psum sz n * (if b then nx else ny) * nz]) :
    Always n (fun r => fredRun (kern sz nx ny dG g r) nz sg um dt b (env n J r) (X.fam n dx d r)) fun _ => .error .value := by
  refine Runs.always ?_
  unfold fredRun
  simp only [Prog.bind_eq]
  refine Runs.bind_ok (runs_mkFredholm h1) ?_
  refine (Runs.throw fun _ => Err.value).congr (fun r _ => ?_) fun _ _ => rfl
  have h2 : (¬ (Layout.fam X n dx d r).part.isBroadcast = true) := by
    show ¬ X.part.isBroadcast = true
    rw [hX]; exact Bool.false_ne_true
  have h3 : (Layout.fam X n dx d r).gshape = [psum sz n * (if b then nx else ny) * nz] := hXg
  simp only [MOp.run, Prim.shape, fredPrim, checkDim, h3]
  simp only [fredMv, if_pos h2, dimOf]
  cases b <;> simp

/-! ### An example -/

/-- Non-vacuity: five slices of 2 × 3 matrices, two on rank 0 and three on rank 1. -/
example : Computes 2 (fun _ _ => (0 : ℚ)) (fun r => fredRun (kern (fun r => r + 2) 2 3 .real ((List.range 30).map fun i => (i : ℚ)) r) 2 true false .real false)
    ⟨.all 30, .real⟩ ⟨.all 20, .real⟩ (fredholm 5 2 3 2 ((List.range 30).map fun i => (i : ℚ))) :=
  C38_matvec_partial (n := 2) (sz := fun r => r + 2) (nx := 2) (ny := 3) (nz := 2) (X := .all 30) (fun r _ => by omega) rfl (fits_rat _ _) (fun _ => rfl) (by decide) (.inr (.inl (by decide))) rfl rfl
example : fredholm 2 2 3 1 [1, 2, 3, 4, 5, 6, 1, 0, 0, 0, 1, 0] [1, 0, -1, 7, 8, (9 : ℚ)] = [-2, -2, 7, 8] := by decide +kernel
example : fredholmAdj 2 2 3 1 [1, 2, 3, 4, 5, 6, 1, 0, 0, 0, 1, 0] [1, -1, 7, (8 : ℚ)] = [-3, -3, -3, 7, 8, 0] := by decide +kernel

/-! ### Where the claim is false -/

/-- **C38 fails if some rank has exactly one slice**: in all executions on at least two ranks the construction raises NotImplementedError on rank 0 only, and all the
    others wait forever. -/
theorem C38_violated_one_slice (hn : 2 ≤ n) (h1 : ∃ r < n, sz r = 1) :
    Ends n (fun r => mkFredholm (env n J r) (kern sz nx ny dG g r) nz sg um dt) fun r => if r = 0 then some (.error .notImplemented) else none := by
  have hmem : 1 ∈ (List.range n).map sz := by
    obtain ⟨r, hr, e⟩ := h1
    exact List.mem_map.2 ⟨r, by simpa using hr, e⟩
  have hdec : decAll (α := Nat) (((List.range n).map fun r => (Enc.enc (sz r) : Msg K))) = .ok ((List.range n).map sz) := decAll_map _ _
  refine Ends.of_blocked (.single (SStep.col (n := n) (c := List.range n) (kind := .allgather) (v := fun r => (Enc.enc (sz r) : Msg K)) (by simp; omega) (by simp) fun r _ => rfl)) fun r hr => ?_
  by_cases h0 : r = 0
  · subst h0
    simp only [if_true, List.mem_range, hr, hdec]
    simp [Prog.lift, Prog.bind, env, hmem]
  · simp only [if_neg h0]
    right
    simp only [List.mem_range, hr, if_true, hdec]
    have hc : ¬ ((env n J r : Ctx K).rank = 0 ∧ 1 ∈ (List.range n).map sz) := fun h => h0 h.1
    simp only [Prog.lift_ok, Prog.ret_bind, if_neg hc, allreduce, gather, Prog.bind_eq]
    refine ⟨.allreduce, List.range n, _, _, rfl, 0, by simp; omega, fun v' k' => ?_⟩
    simp [env, hmem, show 0 < n by omega]

/-- **C38 fails for matrices with one column** (`matvec`) **or one row** (`rmatvec`): with `usematmul=True`, in all executions, on all ranks the squeezed input does not fit and
    ValueError is raised. -/
theorem C38_violated_squeeze (h1 : ∀ r < n, sz r ≠ 1) (b : Bool) (hn1 : (if b then nx else ny) = 1) (hX : X.part.isBroadcast = true) (hXg : X.gshape = [psum sz n * nz])
    {d : List K} (hd : VSpace.Mem ⟨X, dx⟩ d) :
    Always n (fun r => fredRun (kern sz nx ny dG g r) nz sg true dt b (env n J r) (VSpace.vec ⟨X, dx⟩ n d r)) fun _ => .error .value := by
  refine Runs.always ?_
  unfold fredRun
  simp only [Prog.bind_eq]
  refine Runs.bind_ok (runs_mkFredholm h1) ?_
  have hc := runs_checkDim (n := n) (b := b) (S := ⟨X, dx⟩) (d := d) (sh := (psum sz n * nx * nz, psum sz n * ny * nz)) (shs := fun _ => (psum sz n * nx * nz, psum sz n * ny * nz))
    (fun _ _ => rfl) (by cases b <;> simpa [dimOf, hXg] using by simp_all)
    (k := fun r => fredMv (fredObj n sz nx ny nz sg true dG dt g r) b (env n J r) (VSpace.vec ⟨X, dx⟩ n d r)) (ρ := fun _ => .error .value) ?_
  · refine hc.congr (fun r _ => ?_) fun _ _ => rfl
    simp only [MOp.run, Prim.shape]
    cases b <;> rfl
  unfold fredMv
  have e0 : ∀ r, ¬ ¬ (VSpace.vec ⟨X, dx⟩ n d r).part.isBroadcast = true := fun r => not_not.2 hX
  simp only [if_neg (e0 _), Prog.bind_eq]
  refine Runs.bind_ok (runs_mkDArr_none (J := J) (dt := dt) (L := .all (psum sz n * (if b then ny else nx) * nz)) (all_wf rfl) (fun h => by simp [Layout.all] at h)) ?_
  refine (Runs.throw fun _ => Err.value).congr (fun r hr => ?_) fun _ _ => rfl
  have hT := psum_ne_one h1
  have hl : d.length = psum sz n * nz := by rw [hd.1]; simp [hXg]
  have hle := psum_le (sz := sz) hr
  have hlarr : (VSpace.vec ⟨X, dx⟩ n d r).larr = ⟨[psum sz n * nz], dx, d⟩ := by
    simp [VSpace.vec, Layout.fam, lshape_bcast hX, hXg, Layout.piece, hX]
  have e1 : (fredObj n sz nx ny nz sg true dG dt g r).nx = nx := rfl
  have e2 : (fredObj n sz nx ny nz sg true dG dt g r).ny = ny := rfl
  obtain ⟨v, hv⟩ : ∃ v, fredInput (env n J r) (fredObj n sz nx ny nz sg true dG dt g r) (if b then nx else ny) ⟨[psum sz n * nz], dx, d⟩
      = .ok ⟨if nz = 1 then [sz r] else [sz r, nz], dx, v⟩ := by
    unfold fredInput
    have hp : NDArray.reshape (⟨[psum sz n * nz], dx, d⟩ : NDArray K) [psum sz n, 1, nz] = .ok ⟨[psum sz n, 1, nz], dx, d⟩ := by
      unfold NDArray.reshape
      rw [if_pos (by simp [hl])]
    have hps : psum sz (r + 1) = psum sz r + sz r := rfl
    have hrr : (env n J r : Ctx K).rank = r := rfl
    have e3 : (fredObj n sz nx ny nz sg true dG dt g r).tot = psum sz n := rfl
    have e4 : (fredObj n sz nx ny nz sg true dG dt g r).nz = nz := rfl
    have e5 : (fredObj n sz nx ny nz sg true dG dt g r).nsls = (List.range n).map sz := rfl
    simp only [e3, e4, e5, hrr, hn1, hp, bind, Except.bind, take_sum_psum (Nat.le_of_lt hr), take_sum_psum (n := n) (r := r + 1) hr, sliceRows, squeeze, hps]
    by_cases h : nz = 1
    · have hf : [psum sz n, 1, nz].filter (· ≠ 1) = [psum sz n] := by simp [hT, h]
      rw [hf, if_pos h, if_neg (by simp)]
      exact ⟨_, congrArg Except.ok (by unfold slice; congr 1; simp [len]; omega)⟩
    · have hf : [psum sz n, 1, nz].filter (· ≠ 1) = [psum sz n, nz] := by simp [hT, h]
      rw [hf, if_neg h, if_neg (by simp)]
      exact ⟨_, congrArg Except.ok (by unfold slice; congr 1; simp [len]; omega)⟩
  rw [e1, e2, hlarr, hv]
  have hax : (if nz = 1 then (⟨if nz = 1 then [sz r] else [sz r, nz], dx, v⟩ : NDArray K).newaxis else ⟨if nz = 1 then [sz r] else [sz r, nz], dx, v⟩) = ⟨[sz r, nz], dx, v⟩ := by
    by_cases h : nz = 1 <;> simp [h, newaxis]
  have hs := fun h => h1 r hr (Eq.symm h)
  cases b with
  | false =>
    have hny : ny = 1 := hn1
    subst hny
    dsimp only [Prog.lift, Prog.ret_bind]
    have hF : fredFwd (fredObj n sz nx 1 nz sg true dG dt g r) ⟨if nz = 1 then [sz r] else [sz r, nz], dx, v⟩ = .error .value := by
      show matmul (kern sz nx 1 dG g r) (if nz = 1 then _ else _) = _
      rw [hax]
      simp only [matmul, kern, if_neg hs]
    rw [if_neg (by simp), hF]
    rfl
  | true =>
    have hnx : nx = 1 := hn1
    subst hnx
    dsimp only [Prog.lift, Prog.ret_bind]
    have hF : fredAdj (fredObj n sz 1 ny nz sg true dG dt g r) ⟨if nz = 1 then [sz r] else [sz r, nz], dx, v⟩ = .error .value := by
      cases sg
      · show ((transpose021 (if nz = 1 then _ else _)).bind fun x => _) = _
        rw [hax]
        rfl
      · show matmul ⟨[sz r, ny, 1], dG, _⟩ (if nz = 1 then _ else _) = _
        rw [hax]
        simp only [matmul, if_neg hs]
    rw [if_pos rfl, hF]
    rfl

/-- **C38 fails for the loop version with `nx = nz = 1` and different numbers of slices**: the results cannot be stacked, ValueError is raised on both ranks. -/
theorem C38_violated_stack :
    Ends 2 (fun r => do
        let y ← fredRun (kern (fun r => r + 2) 1 2 .real ((List.range 10).map fun i => (i : ℚ)) r) 1 false false .real false (env 2 (fun _ _ => 0) r)
          (VSpace.vec ⟨.all 10, .real⟩ 2 ((List.range 10).map fun i => (i : ℚ)) r)
        .ret y.larr.data)
      (fun r => [some (.error .value), some (.error .value)].getD r none) := ends_of_sim 60 (by decide +kernel)

end Verif

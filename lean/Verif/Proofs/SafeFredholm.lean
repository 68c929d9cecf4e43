/- MPIFredholm1 gives the right result or raises, for all numbers of slices, sizes of the matrices, flags and layouts. -/
import Verif.Proofs.SafeOps
import Verif.Props.C38

set_option linter.unusedSectionVars false

namespace Verif
open NDArray

variable {K : Type} [Field K] [StarRing K] [CharZero K] {n : Nat} {sz : Nat → Nat} {nx ny nz : Nat} {sg um : Bool} {dG dt dx : DType} {g : List K} {J : Nat → Nat → K} {X : Layout}

/-- the programs run to the given results if `c` holds, and otherwise some rank raises -/
def RunsIf {α : Type} (c : Prop) (n : Nat) (ps : Nat → P K α) (ρ : Nat → Except Err α) : Prop := (c → Runs n ps ρ) ∧ (¬ c → Raises n ps)

/-- the local part of an application -/
def fredLocal (o : Fred K) (b : Bool) (c : Ctx K) (x : NDArray K) : Except Err (NDArray K) := do
  let x1 ← fredInput c o (if b then o.nx else o.ny) x
  if b then fredAdj o x1 else fredFwd o x1

theorem fredMv_eq (o : Fred K) (b : Bool) (c : Ctx K) (x : DArr K) (hx : x.part.isBroadcast = true) :
    fredMv o b c x = (mkDArr c [o.tot * (if b then o.ny else o.nx) * o.nz] .broadcast 0 none none o.dt).bind fun y =>
      (Prog.lift (fredLocal o b c x.larr)).bind fun y1 => (allgather c y1).bind fun l => (Prog.lift (vstack l)).bind fun v => y.setAll c v.flatten := by
  unfold fredMv fredLocal
  rw [if_neg (not_not.2 hx)]
  simp only [Prog.bind_eq]
  congr 1
  funext y
  cases h : fredInput c o (if b then o.nx else o.ny) x.larr <;> rfl

/-- results that cannot be stacked -/
theorem vstack_error {n : Nat} {t : Nat → DType} {a : Nat → List K} (h : ¬ ∀ r < n, sz r = sz 0) :
    vstack ((List.range n).map fun r => (⟨outShape false (sz r) 1 1, t r, a r⟩ : NDArray K)) = .error .value := by
  obtain ⟨r, hr, hne⟩ : ∃ r < n, sz r ≠ sz 0 := by simpa using h
  obtain ⟨m, rfl⟩ : ∃ m, n = m + 1 := ⟨n - 1, by omega⟩
  unfold vstack
  rw [List.map_map]
  have hmem := List.mem_map_of_mem (f := atleast2d ∘ fun r => (⟨outShape false (sz r) 1 1, t r, a r⟩ : NDArray K)) (List.mem_range.2 hr)
  have e : (List.range (m + 1)).map (atleast2d ∘ fun r => (⟨outShape false (sz r) 1 1, t r, a r⟩ : NDArray K))
      = ⟨[1, sz 0], t 0, a 0⟩ :: ((List.range m).map Nat.succ).map (atleast2d ∘ fun r => (⟨outShape false (sz r) 1 1, t r, a r⟩ : NDArray K)) := by
    rw [List.range_succ_eq_map, List.map_cons]
    rfl
  unfold concat
  rw [e] at hmem ⊢
  dsimp only
  rw [if_neg]
  rintro ⟨h, -⟩
  have := List.all_eq_true.1 h _ hmem
  simp [outShape, sqz, atleast2d, hne] at this

/-- if the local parts succeed with the blocks of their slices, the results are gathered or ValueError is raised on all ranks -/
theorem fredMv_gather (hn : 0 < n) (b : Bool) (hX : X.part.isBroadcast = true) (hXg : X.gshape = [psum sz n * (if b then nx else ny) * nz]) {d : List K}
    {F : Nat → List K} (hFl : ∀ k, (F k).length = (if b then ny else nx) * nz) (hFf : ∀ k, FitsL dt (F k))
    (hloc : ∀ r < n, ∃ t, fredLocal (fredObj n sz nx ny nz sg um dG dt g r) b (env n J r) ⟨[psum sz n * (if b then nx else ny) * nz], dx, d⟩
      = .ok ⟨outShape um (sz r) (if b then ny else nx) nz, t, (List.range (sz r)).flatMap fun k => F (psum sz r + k)⟩) :
    VSpace.Mem ⟨.all (psum sz n * (if b then ny else nx) * nz), dt⟩ ((List.range (psum sz n)).flatMap F) ∧
    RunsIf (um = true ∨ (if b then ny else nx) ≠ 1 ∨ nz ≠ 1 ∨ ∀ r < n, sz r = sz 0) n
      (fun r => fredMv (fredObj n sz nx ny nz sg um dG dt g r) b (env n J r) (VSpace.vec ⟨X, dx⟩ n d r))
      fun r => .ok (VSpace.vec ⟨.all (psum sz n * (if b then ny else nx) * nz), dt⟩ n ((List.range (psum sz n)).flatMap F) r) := by
  have hM : VSpace.Mem ⟨.all (psum sz n * (if b then ny else nx) * nz), dt⟩ ((List.range (psum sz n)).flatMap F) := by
    refine ⟨?_, fun hr x hx => ?_⟩
    · rw [length_flatMap_range fun k _ => hFl k]; simp [Layout.all, Nat.mul_assoc]
    · obtain ⟨k, -, hk⟩ := List.mem_flatMap.1 hx
      exact hFf k hr x hk
  refine ⟨hM, ?_⟩
  have : Nonempty DType := ⟨.real⟩
  choose! t ht using hloc
  have hW : (Layout.all (psum sz n * (if b then ny else nx) * nz)).WF n := all_wf rfl
  have hl : ∀ r, (VSpace.vec ⟨X, dx⟩ n d r).larr = ⟨[psum sz n * (if b then nx else ny) * nz], dx, d⟩ := fun r => by
    simp [VSpace.vec, Layout.fam, lshape_bcast hX, hXg, Layout.piece, hX]
  have key : ∀ r < n, fredMv (fredObj n sz nx ny nz sg um dG dt g r) b (env n J r) (VSpace.vec ⟨X, dx⟩ n d r)
      = (mkDArr (env n J r) [psum sz n * (if b then ny else nx) * nz] .broadcast 0 none none dt).bind fun y =>
        (allgather (env n J r) (⟨outShape um (sz r) (if b then ny else nx) nz, t r, (List.range (sz r)).flatMap fun k => F (psum sz r + k)⟩ : NDArray K)).bind
          fun l => (Prog.lift (vstack l)).bind fun v => y.setAll (env n J r) v.flatten := fun r hr => by
    rw [fredMv_eq _ _ _ _ hX, hl, ht r hr]
    rfl
  have hmk := runs_mkDArr_none (J := J) (dt := dt) (L := .all (psum sz n * (if b then ny else nx) * nz)) hW (fun h => by simp [Layout.all] at h)
  refine ⟨fun hu => ?_, fun hu => ?_⟩
  · obtain ⟨s, t', hv⟩ := vstack_out (n := n) hn (um := um) (m := if b then ny else nx) (p := nz) (sz := sz) hu (t := t) (a := fun r => (List.range (sz r)).flatMap fun k => F (psum sz r + k))
      (fun r _ => length_flatMap_range fun k _ => hFl _)
    rw [flatMap_psum] at hv
    refine (Runs.bind_ok hmk ?_).congr (fun r hr => (key r hr).symm) fun _ _ => rfl
    refine runs_allgather (v := fun r => (⟨outShape um (sz r) (if b then ny else nx) nz, t r, (List.range (sz r)).flatMap fun k => F (psum sz r + k)⟩ : NDArray K)) ?_
    rw [hv]
    refine runs_new_vec (J := J) (S := ⟨.all (psum sz n * (if b then ny else nx) * nz), dt⟩) hW hM (fun r _ => ?_) (fun r hr => rfl) _ fun r _ => length_junk r
    rw [lshape_bcast rfl]
    show [_] = [_]
    rw [hM.1]; simp [Layout.all]
  · have hne : ¬ ∀ r < n, sz r = sz 0 := fun h => hu (.inr (.inr (.inr h)))
    have h0 : um = false := by cases um; rfl; exact absurd (.inl rfl) hu
    have h1 : (if b then ny else nx) = 1 := by by_contra h; exact hu (.inr (.inl h))
    have h2 : nz = 1 := by by_contra h; exact hu (.inr (.inr (.inl h)))
    refine Raises.of_runs hn (e := .value) ((Runs.bind_ok hmk ?_).congr (fun r hr => (key r hr).symm) fun _ _ => rfl)
    refine runs_allgather (v := fun r => (⟨outShape um (sz r) (if b then ny else nx) nz, t r, (List.range (sz r)).flatMap fun k => F (psum sz r + k)⟩ : NDArray K)) ?_
    rw [h0, h1, h2, vstack_error hne]
    exact (Runs.throw fun _ => Err.value)

/-- a rank whose local part raises -/
theorem fredMv_raises {m : Nat} (hm : m < n) (b : Bool) (hX : X.part.isBroadcast = true) (hXg : X.gshape = [psum sz n * (if b then nx else ny) * nz]) {d : List K} {e : Err}
    (hloc : fredLocal (fredObj n sz nx ny nz sg um dG dt g m) b (env n J m) ⟨[psum sz n * (if b then nx else ny) * nz], dx, d⟩ = .error e) :
    Raises n (fun r => fredMv (fredObj n sz nx ny nz sg um dG dt g r) b (env n J r) (VSpace.vec ⟨X, dx⟩ n d r)) := by
  have hW : (Layout.all (psum sz n * (if b then ny else nx) * nz)).WF n := all_wf rfl
  have hl : ∀ r, (VSpace.vec ⟨X, dx⟩ n d r).larr = ⟨[psum sz n * (if b then nx else ny) * nz], dx, d⟩ := fun r => by
    simp [VSpace.vec, Layout.fam, lshape_bcast hX, hXg, Layout.piece, hX]
  have hmk := runs_mkDArr_none (J := J) (dt := dt) (L := .all (psum sz n * (if b then ny else nx) * nz)) hW (fun h => by simp [Layout.all] at h)
  refine ⟨m, hm, e, ?_⟩
  refine RankEnds.congr_prog (rankEnds_bind_ok (k := fun r y => (Prog.lift (fredLocal (fredObj n sz nx ny nz sg um dG dt g r) b (env n J r) (VSpace.vec ⟨X, dx⟩ n d r).larr)).bind fun y1 =>
      (allgather (env n J r) y1).bind fun l => (Prog.lift (vstack l)).bind fun v => y.setAll (env n J r) v.flatten) hm hmk ?_) (fun r _ => ?_) hm
  · refine RankEnds.of_steps .refl ?_
    rw [hl, hloc]
    rfl
  · rw [fredMv_eq _ _ _ _ hX]
    rfl

/-! ### Matrices with one column (forward) or one row (adjoint) -/

omit [Field K] [StarRing K] [CharZero K] in
theorem fredInput_one {r : Nat} (hr : r < n) (h1 : ∀ r < n, sz r ≠ 1) {d : List K} (hd : d.length = psum sz n * nz) {o : Fred K}
    (e1 : o.nsls = (List.range n).map sz) (e2 : o.tot = psum sz n) (e3 : o.nz = nz) :
    fredInput (env n J r) o 1 ⟨[psum sz n * 1 * nz], dx, d⟩ = .ok ⟨if nz = 1 then [sz r] else [sz r, nz], dx, slab nz (psum sz r) (sz r) d⟩ := by
  unfold fredInput
  have hT := psum_ne_one h1
  have hrr : (env n J r : Ctx K).rank = r := rfl
  have hp : NDArray.reshape (⟨[psum sz n * 1 * nz], dx, d⟩ : NDArray K) [psum sz n, 1, nz] = .ok ⟨[psum sz n, 1, nz], dx, d⟩ := by
    unfold NDArray.reshape
    rw [if_pos (by simp [hd])]
  have hle : psum sz r + sz r ≤ psum sz n := psum_mono sz (r := r + 1) hr
  simp only [e1, e2, e3, hrr, hp, bind, Except.bind, take_sum_psum (Nat.le_of_lt hr), take_sum_psum (n := n) (r := r + 1) hr]
  unfold sliceRows squeeze
  have hps : psum sz (r + 1) = psum sz r + sz r := rfl
  by_cases h : nz = 1
  · have hf : [psum sz n, 1, nz].filter (· ≠ 1) = [psum sz n] := by simp [hT, h]
    have hs := sliceData_zero (T := psum sz n) (s := []) (lo := psum sz r) (cnt := sz r) (d := d) (by simpa [h] using hd)
    subst h
    simp only [hf, slice, hps, hs]
    simp [len]
    omega
  · have hf : [psum sz n, 1, nz].filter (· ≠ 1) = [psum sz n, nz] := by simp [hT, h]
    have hs := sliceData_zero (T := psum sz n) (s := [nz]) (lo := psum sz r) (cnt := sz r) (d := d) (by simpa using hd)
    simp only [hf, slice, hps, hs]
    simp [h, len]
    omega

omit [StarRing K] [CharZero K] in
/-- a product that cannot be computed or stored ends the loop -/
theorem fredLoop_error [StarRing K] {s : Nat} (hs : s ≠ 0) {f : Nat → Except Err (NDArray K)} {y : NDArray K} {e : Err} (h : (f 0).bind (setIndex (Index.row (0 : Nat)) y) = .error e) : fredLoop s f y = .error e := by
  obtain ⟨m, rfl⟩ : ∃ m, s = m + 1 := ⟨s - 1, by omega⟩
  unfold fredLoop
  rw [List.range_succ_eq_map, List.foldlM_cons]
  show ((f 0).bind (setIndex (Index.row (0 : Nat)) y)).bind _ = _
  rw [h]
  rfl

/-- a column or a matrix with one row does not fit into a slice of the squeezed result -/
theorem setIndex_col {s m : Nat} (hm : m ≠ 1) {t dt : DType} {a d : List K} (hs : s ≠ 0) :
    setIndex (Index.row (0 : Nat)) (⟨[s, m], dt, d⟩ : NDArray K) ⟨[m, 1], t, a⟩ = .error .value := by
  have h1 : (-((len [s, m] 0 : Nat) : Int) ≤ ((0 : Nat) : Int) ∧ ((0 : Nat) : Int) < (len [s, m] 0 : Nat)) := by simp [len]; omega
  simp only [setIndex, Index.row, if_pos h1, bind, Except.bind, List.tail_cons]
  have : bcastTo [m] (⟨[m, 1], t, a⟩ : NDArray K) = .error .value := by
    unfold bcastTo
    rw [if_neg]
    simp [alignShape, hm, stretches]
  rw [this]

/-- the blocks of the result -/
def fredBlock (nx ny nz : Nat) (b : Bool) (g d : List K) (k : Nat) : List K :=
  if b then adjMm nx ny nz (chunk (nx * ny) g k) (chunk (nx * nz) d k) else mmData nx ny nz (chunk (nx * ny) g k) (chunk (ny * nz) d k)

theorem fredLocal_one {r : Nat} (hr : r < n) (h1 : ∀ r < n, sz r ≠ 1) (b : Bool) (hn1 : (if b then nx else ny) = 1) {d : List K} (hd : d.length = psum sz n * nz) :
    fredLocal (fredObj n sz nx ny nz sg um dG dt g r) b (env n J r) ⟨[psum sz n * (if b then nx else ny) * nz], dx, d⟩
      = if b then fredAdj (fredObj n sz nx ny nz sg um dG dt g r) ⟨if nz = 1 then [sz r] else [sz r, nz], dx, slab nz (psum sz r) (sz r) d⟩
        else fredFwd (fredObj n sz nx ny nz sg um dG dt g r) ⟨if nz = 1 then [sz r] else [sz r, nz], dx, slab nz (psum sz r) (sz r) d⟩ := by
  have e : (if b then (fredObj n sz nx ny nz sg um dG dt g r).nx else (fredObj n sz nx ny nz sg um dG dt g r).ny) = 1 := hn1
  unfold fredLocal
  rw [e, hn1, fredInput_one hr h1 hd rfl rfl rfl]
  rfl

/-- a rank without slices -/
theorem fredLocal_empty {r : Nat} (h0 : sz r = 0) (b : Bool) (x : NDArray K) :
    (if b then fredAdj (fredObj n sz nx ny nz sg false dG dt g r) x else fredFwd (fredObj n sz nx ny nz sg false dG dt g r) x)
      = .ok ⟨outShape false (sz r) (if b then ny else nx) nz, dt, []⟩ := by
  have hz : ∀ m, (zerosOf [sz r, m, nz] dt : NDArray K).squeeze = ⟨outShape false (sz r) m nz, dt, []⟩ := fun m => by
    rw [squeeze_zeros (by omega), outShape, h0]
    simp
  cases b with
  | false =>
    show fredLoop (sz r) _ (zerosOf [sz r, nx, nz] dt).squeeze = _
    rw [hz, h0]; rfl
  | true =>
    cases sg
    · show fredLoop (sz r) _ (zerosOf [sz r, ny, nz] dt).squeeze = _
      rw [hz, h0]; rfl
    · show fredLoop (sz r) _ (zerosOf [sz r, ny, nz] dt).squeeze = _
      rw [hz, h0]; rfl

theorem get_kern {r i : Nat} (hr : r < n) (hi : i < sz r) (hg : g.length = psum sz n * (nx * ny)) :
    NDArray.get (Index.row (i : Nat)) (kern sz nx ny dG g r) = .ok ⟨[nx, ny], dG, chunk (nx * ny) g (psum sz r + i)⟩ := by
  have e := get_slice_row (tail := [nx, ny]) (dt := dG) (d := slab (nx * ny) (psum sz r) (sz r) g) hi (by rw [length_slab hg (psum_le hr)]; simp)
  simp only [List.prod_cons, List.prod_nil, mul_one, chunk_slab hi] at e
  exact e

theorem get_kernT {s i : Nat} {gd : List K} (hi : i < s) :
    NDArray.get (Index.row (i : Nat)) (⟨[s, ny, nx], dG, ((List.range s).flatMap fun i => trData nx ny (chunk (nx * ny) gd i)).map star⟩ : NDArray K)
      = .ok ⟨[ny, nx], dG, (trData nx ny (chunk (nx * ny) gd i)).map star⟩ := by
  have e := get_slice_row (tail := [ny, nx]) (dt := dG) (d := ((List.range s).flatMap fun i => trData nx ny (chunk (nx * ny) gd i)).map star) hi
    (by rw [List.length_map, length_flatMap_range fun _ _ => length_trData ..]; simp)
  simp only [List.prod_cons, List.prod_nil, mul_one] at e
  rw [e, chunk_map, chunk_flatMap (fun _ _ => length_trData ..) hi]

/-- a rank with slices whose input was squeezed too far -/
theorem fredLocal_bad {r : Nat} (hr : r < n) (h0 : sz r ≠ 0) (h1 : sz r ≠ 1) (hg : g.length = psum sz n * (nx * ny)) (b : Bool) (hn1 : (if b then nx else ny) = 1)
    (hbad : nz ≠ 1 ∨ (if b then ny else nx) ≠ 1) {v : List K} (hv : v.length = sz r * nz) :
    (if b then fredAdj (fredObj n sz nx ny nz sg false dG dt g r) ⟨if nz = 1 then [sz r] else [sz r, nz], dx, v⟩
      else fredFwd (fredObj n sz nx ny nz sg false dG dt g r) ⟨if nz = 1 then [sz r] else [sz r, nz], dx, v⟩) = .error .value := by
  have hk := get_kern (dG := dG) hr (Nat.pos_of_ne_zero h0) hg
  have hkT := get_kernT (dG := dG) (nx := nx) (ny := ny) (gd := slab (nx * ny) (psum sz r) (sz r) g) (Nat.pos_of_ne_zero h0)
  by_cases hz : nz = 1
  · subst hz
    have hm : (if b then ny else nx) ≠ 1 := hbad.resolve_left (by simp)
    have hx := get_slice_row (tail := []) (dt := dx) (d := v) (Nat.pos_of_ne_zero h0) (by simpa using hv)
    have hsq : ∀ m, m ≠ 1 → (zerosOf [sz r, m, 1] dt : NDArray K).squeeze = ⟨[sz r, m], dt, List.replicate (sz r * m) 0⟩ := fun m hm => by
      rw [squeeze_zeros h1]; simp [sqz, hm]
    cases b with
    | false =>
      simp only [Bool.false_eq_true, if_false] at hn1 hm ⊢
      subst hn1
      show fredLoop (sz r) _ (zerosOf [sz r, nx, 1] dt).squeeze = _
      rw [hsq _ hm]
      refine fredLoop_error h0 ?_
      show ((NDArray.get _ (kern sz nx 1 dG g r)).bind fun a => (NDArray.get _ (⟨[sz r], dx, v⟩ : NDArray K)).bind fun x => npDot a x).bind _ = _
      rw [hk, hx]
      exact setIndex_col hm h0
    | true =>
      simp only [if_true] at hn1 hm ⊢
      subst hn1
      cases sg
      · show fredLoop (sz r) _ (zerosOf [sz r, ny, 1] dt).squeeze = _
        rw [hsq _ hm]
        refine fredLoop_error h0 ?_
        show ((NDArray.get _ (⟨[sz r], dx, v⟩ : NDArray K)).bind fun x => (NDArray.get _ (kern sz 1 ny dG g r)).bind fun a => (npDot (aconj x.tr) a).bind fun v => .ok (aconj v.tr)).bind _ = _
        rw [hk, hx]
        exact setIndex_col hm h0
      · show fredLoop (sz r) _ (zerosOf [sz r, ny, 1] dt).squeeze = _
        rw [hsq _ hm]
        refine fredLoop_error h0 ?_
        show ((NDArray.get _ (⟨[sz r, ny, 1], dG, _⟩ : NDArray K)).bind fun a => (NDArray.get _ (⟨[sz r], dx, v⟩ : NDArray K)).bind fun x => npDot a x).bind _ = _
        rw [hkT, hx]
        exact setIndex_col hm h0
  · have hx := get_slice_row (tail := [nz]) (dt := dx) (d := v) (Nat.pos_of_ne_zero h0) (by simpa using hv)
    simp only [if_neg hz]
    cases b with
    | false =>
      simp only [Bool.false_eq_true, if_false] at hn1 ⊢
      subst hn1
      refine fredLoop_error h0 ?_
      show ((NDArray.get _ (kern sz nx 1 dG g r)).bind fun a => (NDArray.get _ (⟨[sz r, nz], dx, v⟩ : NDArray K)).bind fun x => npDot a x).bind _ = _
      rw [hk, hx]
      simp [Except.bind, npDot, Ne.symm hz]
    | true =>
      simp only [if_true] at hn1 ⊢
      subst hn1
      cases sg
      · refine fredLoop_error h0 ?_
        show ((NDArray.get _ (⟨[sz r, nz], dx, v⟩ : NDArray K)).bind fun x => (NDArray.get _ (kern sz 1 ny dG g r)).bind fun a => (npDot (aconj x.tr) a).bind fun v => .ok (aconj v.tr)).bind _ = _
        rw [hk, hx]
        simp [Except.bind, npDot, tr, aconj, NDArray.map, hz]
      · refine fredLoop_error h0 ?_
        show ((NDArray.get _ (⟨[sz r, ny, 1], dG, _⟩ : NDArray K)).bind fun a => (NDArray.get _ (⟨[sz r, nz], dx, v⟩ : NDArray K)).bind fun x => npDot a x).bind _ = _
        rw [hkT, hx]
        simp [Except.bind, npDot, Ne.symm hz]

/-- products of numbers -/
theorem fredLocal_scalar {r : Nat} (hr : r < n) (h1 : sz r ≠ 1) (hg : g.length = psum sz n * (1 * 1)) (fg : FitsL dt g) (b : Bool) {d : List K} (hd : d.length = psum sz n * (1 * 1)) (fd : FitsL dt d) :
    (if b then fredAdj (fredObj n sz 1 1 1 sg false dG dt g r) ⟨[sz r], dx, slab (1 * 1) (psum sz r) (sz r) d⟩
      else fredFwd (fredObj n sz 1 1 1 sg false dG dt g r) ⟨[sz r], dx, slab (1 * 1) (psum sz r) (sz r) d⟩)
        = .ok ⟨outShape false (sz r) 1 1, dt, (List.range (sz r)).flatMap fun k => fredBlock 1 1 1 b g d (psum sz r + k)⟩ := by
  have hk := fun i hi => get_kern (dG := dG) (i := i) hr hi hg
  have hkT := fun i hi => get_kernT (dG := dG) (nx := 1) (ny := 1) (i := i) (s := sz r) (gd := slab (1 * 1) (psum sz r) (sz r) g) hi
  have hx : ∀ i < sz r, NDArray.get (Index.row (i : Nat)) (⟨[sz r], dx, slab (1 * 1) (psum sz r) (sz r) d⟩ : NDArray K) = .ok ⟨[], dx, chunk (1 * 1) d (psum sz r + i)⟩ := fun i hi => by
    have := get_slice_row (tail := []) (dt := dx) (d := slab (1 * 1) (psum sz r) (sz r) d) hi (by rw [length_slab hd (psum_le hr)]; simp)
    rw [this]
    simp only [List.prod_nil, ← chunk_slab hi, one_mul]
  have hsq : (zerosOf [sz r, 1, 1] dt : NDArray K).squeeze = ⟨[sz r], dt, List.replicate (sz r * [].prod) 0⟩ := by
    rw [squeeze_zeros h1]; simp [sqz]
  have hb : ∀ t (v : List K), bcastTo [] (⟨[1, 1], t, v⟩ : NDArray K) = .ok v := fun t v => by simp [bcastTo, alignShape, stretches, bcastData]
  have hl : ∀ k, (fredBlock 1 1 1 b g d k).length = ([] : List Nat).prod := fun k => by
    cases b
    · exact length_mmData ..
    · exact length_adjMm ..
  have hf : ∀ k, FitsL dt (fredBlock 1 1 1 b g d k) := fun k => by
    cases b
    · exact fits_mmData (fits_chunk fg) (fits_chunk fd)
    · exact fits_adjMm (fits_chunk fg) (fits_chunk fd)
  have hlg : ∀ i < sz r, (chunk (1 * 1) g (psum sz r + i)).length = 1 := fun i hi => length_chunk hg (by have := psum_le (sz := sz) hr; omega)
  have hld : ∀ i < sz r, (chunk (1 * 1) d (psum sz r + i)).length = 1 := fun i hi => length_chunk hd (by have := psum_le (sz := sz) hr; omega)
  cases b with
  | false =>
    show fredLoop (sz r) _ (zerosOf [sz r, 1, 1] dt).squeeze = _
    rw [hsq]
    refine runs_fredLoop (v := fun i => ⟨[1, 1], dG.promote dx, fredBlock 1 1 1 false g d (psum sz r + i)⟩) (fun i hi => ?_) (fun i hi => hb _ _) (fun i _ => hl _) fun i _ => hf _
    show ((NDArray.get _ (kern sz 1 1 dG g r)).bind fun a => (NDArray.get _ (⟨[sz r], dx, _⟩ : NDArray K)).bind fun x => npDot a x) = _
    rw [hk i hi, hx i hi]
    obtain ⟨a, ha⟩ := List.length_eq_one_iff.1 (hlg i hi)
    obtain ⟨x, hx⟩ := List.length_eq_one_iff.1 (hld i hi)
    simp [Except.bind, npDot, fredBlock, ha, hx, mmData]
  | true =>
    cases sg
    · show fredLoop (sz r) _ (zerosOf [sz r, 1, 1] dt).squeeze = _
      rw [hsq]
      refine runs_fredLoop (v := fun i => ⟨[1, 1], dx.promote dG, fredBlock 1 1 1 true g d (psum sz r + i)⟩) (fun i hi => ?_) (fun i hi => hb _ _) (fun i _ => hl _) fun i _ => hf _
      show ((NDArray.get _ (⟨[sz r], dx, _⟩ : NDArray K)).bind fun x => (NDArray.get _ (kern sz 1 1 dG g r)).bind fun a => (npDot (aconj x.tr) a).bind fun v => .ok (aconj v.tr)) = _
      rw [hk i hi, hx i hi]
      obtain ⟨a, ha⟩ := List.length_eq_one_iff.1 (hlg i hi)
      obtain ⟨x, hx⟩ := List.length_eq_one_iff.1 (hld i hi)
      simp [Except.bind, npDot, fredBlock, ha, hx, adjMm, tr, aconj, NDArray.map, trData, mul_comm]
    · show fredLoop (sz r) _ (zerosOf [sz r, 1, 1] dt).squeeze = _
      rw [hsq]
      refine runs_fredLoop (v := fun i => ⟨[1, 1], dG.promote dx, fredBlock 1 1 1 true g d (psum sz r + i)⟩) (fun i hi => ?_) (fun i hi => hb _ _) (fun i _ => hl _) fun i _ => hf _
      show ((NDArray.get _ (⟨[sz r, 1, 1], dG, _⟩ : NDArray K)).bind fun a => (NDArray.get _ (⟨[sz r], dx, _⟩ : NDArray K)).bind fun x => npDot a x) = _
      rw [hkT i hi, hx i hi, chunk_slab hi]
      obtain ⟨a, ha⟩ := List.length_eq_one_iff.1 (hlg i hi)
      obtain ⟨x, hx⟩ := List.length_eq_one_iff.1 (hld i hi)
      simp [Except.bind, npDot, fredBlock, ha, hx, adjMm, trData]

/-! ### All cases -/

theorem fredBlock_spec (hg : g.length = psum sz n * (nx * ny)) (fg : FitsL dt g) (b : Bool) {d : List K} (fd : FitsL dt d) :
    (if b then fredholmAdj (psum sz n) nx ny nz g else fredholm (psum sz n) nx ny nz g) d = (List.range (psum sz n)).flatMap (fredBlock nx ny nz b g d) ∧
      (∀ k, (fredBlock nx ny nz b g d k).length = (if b then ny else nx) * nz) ∧ ∀ k, FitsL dt (fredBlock nx ny nz b g d k) := by
  cases b with
  | false => exact ⟨fredholm_chunks, fun k => length_mmData .., fun k => fits_mmData (fits_chunk fg) (fits_chunk fd)⟩
  | true => exact ⟨fredholmAdj_chunks, fun k => length_adjMm .., fun k => fits_adjMm (fits_chunk fg) (fits_chunk fd)⟩

theorem fred_mem (hg : g.length = psum sz n * (nx * ny)) (fg : FitsL dt g) (b : Bool) {d : List K} (fd : FitsL dt d) :
    VSpace.Mem ⟨.all (psum sz n * (if b then ny else nx) * nz), dt⟩ ((if b then fredholmAdj (psum sz n) nx ny nz g else fredholm (psum sz n) nx ny nz g) d) := by
  obtain ⟨e, hl, hf⟩ := fredBlock_spec (nz := nz) hg fg b fd
  rw [e]
  refine ⟨?_, fun hr x hx => ?_⟩
  · rw [length_flatMap_range fun k _ => hl k]; simp [Layout.all, Nat.mul_assoc]
  · obtain ⟨k, -, hk⟩ := List.mem_flatMap.1 hx
    exact hf k hr x hk

/-- the two methods of an object, for all sizes, flags and layouts -/
theorem fredMv_cases (hn : 0 < n) (h1 : ∀ r < n, sz r ≠ 1) (hg : g.length = psum sz n * (nx * ny)) (fg : FitsL dt g) (hdt : dt = .real → dx = .real) (b : Bool)
    (hXg : X.gshape = [psum sz n * (if b then nx else ny) * nz]) {d : List K} (hd : VSpace.Mem ⟨X, dx⟩ d) :
    RunsIf (FredGood n sz nx ny nz um b X) n (fun r => fredMv (fredObj n sz nx ny nz sg um dG dt g r) b (env n J r) (VSpace.vec ⟨X, dx⟩ n d r))
      (fun r => .ok (VSpace.vec ⟨.all (psum sz n * (if b then ny else nx) * nz), dt⟩ n ((if b then fredholmAdj (psum sz n) nx ny nz g else fredholm (psum sz n) nx ny nz g) d) r)) := by
  have hfd : FitsL dt d := fun hr => hd.2 (hdt hr)
  obtain ⟨he, hFl, hFf⟩ := fredBlock_spec (nz := nz) hg fg b hfd
  have hlen : d.length = psum sz n * ((if b then nx else ny) * nz) := by rw [hd.1]; simp [hXg, Nat.mul_assoc]
  by_cases hX : X.part.isBroadcast = true
  swap
  · refine ⟨fun h => absurd h.2.1 hX, fun _ => Raises.of_runs hn (e := .value) ((Runs.throw fun _ => Err.value).congr (fun r _ => ?_) fun _ _ => rfl)⟩
    have h2 : ¬ (VSpace.vec ⟨X, dx⟩ n d r).part.isBroadcast = true := hX
    unfold fredMv
    rw [if_pos h2]
  have lift : ∀ {ps : Nat → P K (DArr K)} {ρ}, ((if b then nx else ny) ≠ 1 ∨ um = false ∧ ((nx = 1 ∧ ny = 1 ∧ nz = 1) ∨ ∀ r < n, sz r = 0)) →
      RunsIf (um = true ∨ (if b then ny else nx) ≠ 1 ∨ nz ≠ 1 ∨ ∀ r < n, sz r = sz 0) n ps ρ → RunsIf (FredGood n sz nx ny nz um b X) n ps ρ :=
    fun hc h => ⟨fun hg => h.1 hg.2.2.2, fun hg => h.2 fun hu => hg ⟨h1, hX, hc, hu⟩⟩
  by_cases hn1 : (if b then nx else ny) = 1
  swap
  · obtain ⟨F, hF, hFl, hFf, hFr⟩ := fred_blocks (sg := sg) (um := um) (dG := dG) (dx := dx) h1 hg fg b hlen hfd
    rw [hF]
    refine lift (.inl hn1) (fredMv_gather hn b hX hXg hFl hFf fun r hr => ?_).2
    obtain ⟨t, ht⟩ := hFr r hr
    refine ⟨t, ?_⟩
    unfold fredLocal
    show (fredInput (env n J r) _ (if b then nx else ny) _).bind _ = _
    rw [fredInput_ok hr h1 hn1 hlen rfl rfl rfl]
    exact ht
  have hlen' : d.length = psum sz n * nz := by rw [hlen, hn1, Nat.one_mul]
  cases um with
  | true =>
    refine ⟨fun h => ?_, fun _ => fredMv_raises hn b hX hXg (e := .value) ?_⟩
    · rcases h.2.2.1 with h | ⟨h, -⟩
      · exact absurd hn1 h
      · cases h
    rw [fredLocal_one hn h1 b hn1 hlen']
    have hax : (if nz = 1 then (⟨if nz = 1 then [sz 0] else [sz 0, nz], dx, slab nz (psum sz 0) (sz 0) d⟩ : NDArray K).newaxis else ⟨if nz = 1 then [sz 0] else [sz 0, nz], dx, slab nz (psum sz 0) (sz 0) d⟩)
        = ⟨[sz 0, nz], dx, slab nz (psum sz 0) (sz 0) d⟩ := by
      by_cases h : nz = 1 <;> simp [h, newaxis]
    have hs := fun h => h1 0 hn (Eq.symm h)
    cases b with
    | false =>
      have hny : ny = 1 := hn1
      subst hny
      show matmul (kern sz nx 1 dG g 0) (if nz = 1 then _ else _) = _
      rw [hax]
      simp only [matmul, kern, if_neg hs]
    | true =>
      have hnx : nx = 1 := hn1
      subst hnx
      cases sg
      · show ((transpose021 (if nz = 1 then _ else _)).bind fun x => _) = _
        rw [hax]
        rfl
      · show matmul ⟨[sz 0, ny, 1], dG, _⟩ (if nz = 1 then _ else _) = _
        rw [hax]
        simp only [matmul, if_neg hs]
  | false =>
    rw [he]
    by_cases h0 : ∀ r < n, sz r = 0
    · refine lift (.inr ⟨rfl, .inr h0⟩) (fredMv_gather hn b hX hXg hFl hFf fun r hr => ⟨dt, ?_⟩).2
      rw [fredLocal_one hr h1 b hn1 hlen', fredLocal_empty (h0 r hr), h0 r hr]
      rfl
    by_cases hbad : nz ≠ 1 ∨ (if b then ny else nx) ≠ 1
    · obtain ⟨r, hr, hr0⟩ : ∃ r < n, sz r ≠ 0 := by simpa using h0
      refine ⟨fun h => ?_, fun _ => fredMv_raises hr b hX hXg (e := .value) ?_⟩
      · rcases h.2.2.1 with h | ⟨-, ⟨rfl, rfl, rfl⟩ | h⟩
        · exact absurd hn1 h
        · rcases hbad with h | h
          · exact absurd rfl h
          · exact absurd (ite_self _) h
        · exact absurd h h0
      rw [fredLocal_one hr h1 b hn1 hlen']
      exact fredLocal_bad hr hr0 (h1 r hr) hg b hn1 hbad (length_slab hlen' (psum_le hr))
    · have hz : nz = 1 := by by_contra h; exact hbad (.inl h)
      have hm : (if b then ny else nx) = 1 := by by_contra h; exact hbad (.inr h)
      obtain ⟨rfl, rfl⟩ : nx = 1 ∧ ny = 1 := by cases b <;> simp_all
      subst hz
      refine lift (.inr ⟨rfl, .inl ⟨rfl, rfl, rfl⟩⟩) (fredMv_gather hn b hX hXg hFl hFf fun r hr => ⟨dt, ?_⟩).2
      rw [fredLocal_one hr h1 b hn1 hlen', ite_self]
      exact fredLocal_scalar hr (h1 r hr) hg fg b (by simpa using hlen) hfd

theorem fredMv_safe (h1 : ∀ r < n, sz r ≠ 1) (hg : g.length = psum sz n * (nx * ny)) (fg : FitsL dt g) (hdt : dt = .real → dx = .real) (b : Bool)
    (hXg : X.gshape = [psum sz n * (if b then nx else ny) * nz]) :
    ComputesOr n J (fun r c x => fredMv (fredObj n sz nx ny nz sg um dG dt g r) b c x) ⟨X, dx⟩ ⟨.all (psum sz n * (if b then ny else nx) * nz), dt⟩
      (if b then fredholmAdj (psum sz n) nx ny nz g else fredholm (psum sz n) nx ny nz g) := by
  refine ComputesOr.intro fun d hd => ⟨fred_mem hg fg b fun hr => hd.2 (hdt hr), ?_⟩
  rcases Nat.eq_zero_or_pos n with rfl | hn
  · exact .inl Runs.of_zero
  have h := fredMv_cases (J := J) (sg := sg) (um := um) (dG := dG) hn h1 hg fg hdt b hXg hd
  exact (em _).imp h.1 h.2

/-- the constructor on rank 0 if some rank has one slice -/
theorem mkFredholm_raises (hn : 0 < n) (h1 : ∃ r < n, sz r = 1) : Raises n (fun r => mkFredholm (env n J r) (kern sz nx ny dG g r) nz sg um dt) := by
  have hmem : 1 ∈ (List.range n).map sz := by
    obtain ⟨r, hr, e⟩ := h1
    exact List.mem_map.2 ⟨r, by simpa using hr, e⟩
  refine ⟨0, hn, .notImplemented, ?_⟩
  unfold mkFredholm
  simp only [kern, Prog.bind_eq]
  refine rankEnds_bind_ok (a := fun _ => (List.range n).map sz) hn ?_ (.of_steps .refl ?_)
  · have := runs_allgather (J := J) (n := n) (v := sz) (k := fun _ l => Prog.ret l) (ρ := fun _ => .ok ((List.range n).map sz)) (Runs.ret _)
    refine this.congr (fun r _ => ?_) fun _ _ => rfl
    rw [Prog.bind_ret]
  · rw [if_pos ⟨rfl, hmem⟩]
    rfl

theorem fredRun_cases (hn : 0 < n) (hg : g.length = psum sz n * (nx * ny)) (fg : FitsL dt g) (hdt : dt = .real → dx = .real) (b : Bool)
    (hXg : X.gshape = [psum sz n * (if b then nx else ny) * nz]) {d : List K} (hd : VSpace.Mem ⟨X, dx⟩ d) :
    RunsIf (FredGood n sz nx ny nz um b X) n (fun r => fredRun (kern sz nx ny dG g r) nz sg um dt b (env n J r) (VSpace.vec ⟨X, dx⟩ n d r))
      (fun r => .ok (VSpace.vec ⟨.all (psum sz n * (if b then ny else nx) * nz), dt⟩ n ((if b then fredholmAdj (psum sz n) nx ny nz g else fredholm (psum sz n) nx ny nz g) d) r)) := by
  unfold fredRun
  simp only [Prog.bind_eq]
  have hck : ∀ r, MOp.run (env n J r) b (.leaf (fredPrim n sz nx ny nz sg um dG dt g r)) (VSpace.vec ⟨X, dx⟩ n d r)
      = fredMv (fredObj n sz nx ny nz sg um dG dt g r) b (env n J r) (VSpace.vec ⟨X, dx⟩ n d r) := fun r => by
    have h3 : (VSpace.vec ⟨X, dx⟩ n d r).gshape = [psum sz n * (if b then nx else ny) * nz] := hXg
    simp only [MOp.run, Prim.shape, fredPrim, checkDim, h3, dimOf]
    cases b <;> simp
  by_cases h1 : ∀ r < n, sz r ≠ 1
  · have h := fredMv_cases (J := J) (sg := sg) (um := um) (dG := dG) hn h1 hg fg hdt b hXg hd
    refine ⟨fun hg => Runs.bind_ok (runs_mkFredholm h1) ((h.1 hg).congr (fun r _ => (hck r).symm) fun _ _ => rfl), fun hg => ?_⟩
    obtain ⟨m, hm, e, he⟩ := (h.2 hg).congr (fun r _ => (hck r).symm)
    exact ⟨m, hm, e, rankEnds_bind_ok hm (runs_mkFredholm h1) he⟩
  · refine ⟨fun hg => absurd hg.1 h1, fun _ => (mkFredholm_raises hn (by simpa using h1)).bind _⟩

theorem fredRun_safe (hg : g.length = psum sz n * (nx * ny)) (fg : FitsL dt g) (hdt : dt = .real → dx = .real) (b : Bool)
    (hXg : X.gshape = [psum sz n * (if b then nx else ny) * nz]) :
    ComputesOr n J (fun r => fredRun (kern sz nx ny dG g r) nz sg um dt b) ⟨X, dx⟩ ⟨.all (psum sz n * (if b then ny else nx) * nz), dt⟩
      (if b then fredholmAdj (psum sz n) nx ny nz g else fredholm (psum sz n) nx ny nz g) := by
  refine ComputesOr.intro fun d hd => ⟨fred_mem hg fg b fun hr => hd.2 (hdt hr), ?_⟩
  rcases Nat.eq_zero_or_pos n with rfl | hn
  · exact .inl Runs.of_zero
  have h := fredRun_cases (J := J) (sg := sg) (um := um) (dG := dG) hn hg fg hdt b hXg hd
  exact (em _).imp h.1 h.2

end Verif

/- C31: MPISecondDerivative equals the serial stencil. -/
import Verif.Proofs.Methods
import Verif.Spec.Examples
import Verif.MPI.Sim

namespace Verif
open NDArray

variable {K : Type} [Field K] [StarRing K] [CharZero K]
variable {n N : Nat} {J : Nat → Nat → K} {rest : List Nat} {dt dx : DType} {s : K} {edge : Bool} {X : Layout}

/-- `MPISecondDerivative(dims, s, kind=k, edge=edge, dtype=dt)` applied with `matvec` or `rmatvec` (`b = true`) -/
def sdRun (k : SDKind) (dims : List Nat) (s : K) (edge : Bool) (dt : DType) (b : Bool) (c : Ctx K) (x : DArr K) : P K (DArr K) :=
  MOp.run c b (.leaf (secondDerivative k ⟨dims, s, edge, dt⟩)) x

omit [CharZero K] in
theorem sdRun_eq {k : SDKind} {b : Bool} {c : Ctx K} {x : DArr K} (hx : x.gshape = [N * rest.prod]) :
    sdRun k (N :: rest) s edge dt b c x = derivApply c ⟨N :: rest, s, edge, dt⟩ (if b then sdRmv k else sdMv k) x := by
  unfold sdRun MOp.run checkDim secondDerivative
  cases b <;> simp [hx, Prim.shape]

/-- **C31** (partial: the ranks need enough rows for the stencil, and the boundaries of the input must be near those of the rows, see the
    theorems below for what happens otherwise).  The result is the second difference of the global array along its first axis, whatever
    the number of ranks and the layout of the input. -/
theorem C31_scatter_partial (k : SDKind) (hn : 0 < n) (hroom : sdRoom k edge n N) (hdt : dt = .real → dx = .real) (_hs0 : s ≠ 0) (hs : star s = s)
    (hX : X.WF n) (hg : X.gshape = [N * rest.prod]) (hp : X.part = .scatter) (hN : Near n X (.slab n N rest)) :
    Computes n J (fun _ => sdRun k (N :: rest) s edge dt false) ⟨X, dx⟩ ⟨.flat n N rest, dt⟩ (alongRows (sdAt k edge N) (s ^ 2) N rest.prod) := by
  intro d hd
  obtain ⟨h1, h2⟩ := deriv_scatter (J := J) hn (o := ⟨N :: rest, s, edge, dt⟩) rfl (method_sd k hn hroom hdt hs) (conform_slab hn hX hg hp) hN d hd
  exact ⟨h1, h2.congr_prog fun r _ => (sdRun_eq (b := false) (k := k) (x := VSpace.vec ⟨X, dx⟩ n d r) hg).symm⟩

/-- **C31** (partial).  The same for an input held by all ranks. -/
theorem C31_bcast_partial (k : SDKind) (hn : 0 < n) (hroom : sdRoom k edge n N) (hdt : dt = .real → dx = .real) (_hs0 : s ≠ 0) (hs : star s = s)
    (hN : Near n (.lin (N * rest.prod) (balanced (N * rest.prod) n)) (.slab n N rest)) :
    Computes n J (fun _ => sdRun k (N :: rest) s edge dt false) ⟨.all (N * rest.prod), dx⟩ ⟨.flat n N rest, dt⟩ (alongRows (sdAt k edge N) (s ^ 2) N rest.prod) := by
  intro d hd
  obtain ⟨h1, h2⟩ := deriv_bcast (J := J) hn (o := ⟨N :: rest, s, edge, dt⟩) rfl (method_sd k hn hroom hdt hs) hN d hd
  exact ⟨h1, h2.congr_prog fun r _ => (sdRun_eq (b := false) (k := k) (x := VSpace.vec ⟨.all (N * rest.prod), dx⟩ n d r) rfl).symm⟩

/-- **C31** for one-dimensional arrays with the default layouts needs only enough rows. -/
theorem C31_one_dim (k : SDKind) (hn : 0 < n) (hroom : sdRoom k edge n N) (hdt : dt = .real → dx = .real) (hs0 : s ≠ 0) (hs : star s = s) :
    Computes n J (fun _ => sdRun k [N] s edge dt false) ⟨.lin N (balanced N n), dx⟩ ⟨.lin N (balanced N n), dt⟩ (alongRows (sdAt k edge N) (s ^ 2) N 1) ∧
    Computes n J (fun _ => sdRun k [N] s edge dt false) ⟨.all N, dx⟩ ⟨.lin N (balanced N n), dt⟩ (alongRows (sdAt k edge N) (s ^ 2) N 1) := by
  have e : Layout.flat n N [] = .lin N (balanced N n) := by simp [Layout.lin]
  have e2 : Layout.lin (N * List.prod []) (balanced (N * List.prod []) n) = .lin N (balanced N n) := by simp
  have e3 : Layout.all (N * List.prod []) = .all N := by simp
  have hw : (Layout.flat n N []).WF n := flat_wf hn
  have h1 := C31_scatter_partial (J := J) (dx := dx) (rest := []) k hn hroom hdt hs0 hs hw rfl rfl near_flat
  have h2 := C31_bcast_partial (J := J) (dx := dx) (rest := []) k hn hroom hdt hs0 hs (by rw [e2, ← e]; exact near_flat)
  rw [e] at h1
  rw [e, e3] at h2
  exact ⟨h1, h2⟩

/-- **C31** (what is left out: layout).  If the boundaries are not near each other some rank raises ValueError, in every execution. -/
theorem C31_raises_layout (k : SDKind) (b : Bool) (hn : 0 < n) (hX : X.WF n) (hg : X.gshape = [N * rest.prod]) (hp : X.part = .scatter)
    (hN : ¬ Near n X (.slab n N rest)) {d : List K} (hd : VSpace.Mem ⟨X, dx⟩ d) :
    ∃ m < n, RankEnds n (fun r => sdRun k (N :: rest) s edge dt b (env n J r) (VSpace.vec ⟨X, dx⟩ n d r)) m (.error .value) := by
  obtain ⟨m, hm, h⟩ := deriv_raises (J := J) (o := ⟨N :: rest, s, edge, dt⟩) rfl (if b then sdRmv k else sdMv k) (conform_slab hn hX hg hp) hN hd
  exact ⟨m, hm, h.congr_prog (fun r _ => (sdRun_eq (x := VSpace.vec ⟨X, dx⟩ n d r) hg).symm) hm⟩

theorem C31_raises_bcast (k : SDKind) (b : Bool) (hn : 0 < n)
    (hN : ¬ Near n (.lin (N * rest.prod) (balanced (N * rest.prod) n)) (.slab n N rest)) {d : List K} (hd : VSpace.Mem ⟨.all (N * rest.prod), dx⟩ d) :
    ∃ m < n, RankEnds n (fun r => sdRun k (N :: rest) s edge dt b (env n J r) (VSpace.vec ⟨.all (N * rest.prod), dx⟩ n d r)) m (.error .value) := by
  obtain ⟨m, hm, h⟩ := deriv_raises_bcast (J := J) hn (o := ⟨N :: rest, s, edge, dt⟩) rfl (if b then sdRmv k else sdMv k) hN hd
  exact ⟨m, hm, h.congr_prog (fun r _ => (sdRun_eq (x := VSpace.vec ⟨.all (N * rest.prod), dx⟩ n d r) rfl).symm) hm⟩

/-- the blocks are shorter than the ghost cells -/
def sdShort (k : SDKind) (n N : Nat) : Prop :=
  match k with
  | .forward => N < 2 * n
  | .backward => N + 1 < 2 * n
  | .centered => N < n

/-- **C31** (what is left out: rows).  With two or more ranks and blocks shorter than the ghost cells some rank raises ValueError, in every execution. -/
theorem C31_raises_rows (k : SDKind) (hn : 2 ≤ n) (hsh : sdShort k n N) (hX : X.WF n) (hg : X.gshape = [N * rest.prod]) (hp : X.part = .scatter)
    (hN : Near n X (.slab n N rest)) {d : List K} (hd : VSpace.Mem ⟨X, dx⟩ d) :
    ∃ m < n, RankEnds n (fun r => sdRun k (N :: rest) s edge dt false (env n J r) (VSpace.vec ⟨X, dx⟩ n d r)) m (.error .value) := by
  have hn0 : 0 < n := by omega
  have hs := psum_balanced_total N hn0
  obtain ⟨m, hm, h⟩ := deriv_raises_rows (J := J) hn0 (o := ⟨N :: rest, s, edge, dt⟩) (f := sdMv k) rfl (conform_slab hn0 hX hg hp) hN (fun F => by
    cases k with
    | forward => exact method_raises hs (no_room hn (by have : N < 2 * n := hsh; omega)) _ _ _ _
    | backward => exact method_raises hs (no_room' hn (by have : N + 1 < 2 * n := hsh; omega)) _ _ _ _
    | centered => exact method_raises hs (no_room hn (by have : N < n := hsh; omega)) _ _ _ _) hd
  exact ⟨m, hm, h.congr_prog (fun r _ => (sdRun_eq (b := false) (k := k) (x := VSpace.vec ⟨X, dx⟩ n d r) hg).symm) hm⟩

/-- Non-vacuity: (0, 1, 8, 27, …) as a 5 × 2 array on two ranks, given as 5 + 5; second difference along the first axis with sampling 2. -/
example : Always 2 (fun r => sdRun .forward [5, 2] 2 true .real false (env 2 (fun _ _ => 0) r)
      (VSpace.vec ⟨.lin 10 fun _ => 5, .real⟩ 2 ((List.range 10).map fun i => (i ^ 3 : ℚ)) r))
    (fun r => .ok (VSpace.vec ⟨.lin 10 fun r => if r = 0 then 6 else 4, .real⟩ 2 [12, 18, 24, 30, 36, 42, 0, 0, 0, 0] r)) := by
  have h := (C31_scatter_partial (J := fun _ _ => 0) (n := 2) (N := 5) (rest := [2]) (dt := .real) (dx := .real) (s := (2 : ℚ)) (edge := true)
    (X := .lin 10 fun _ => 5) .forward (by decide) (.inl (by decide)) id (by norm_num) rfl
    ⟨by simp [Layout.lin], fun _ => rfl, by simp [Layout.lin]⟩ rfl rfl (by
      intro r hr
      obtain rfl : r = 0 := by omega
      decide) ((List.range 10).map fun i => (i ^ 3 : ℚ)) ⟨by simp [Layout.lin], fits_rat _ _⟩).2
  refine h.congr fun r hr => ?_
  match r, hr with
  | 0, _ => decide +kernel
  | 1, _ => decide +kernel

/-- **C31 fails with plenty of rows**, as C29. -/
theorem C31_violated_layout (k : SDKind) (b : Bool) (d : List ℚ) (hd : d.length = 24) :
    (∃ m < 8, RankEnds 8 (fun r => sdRun k [12, 2] 1 edge .real b (env 8 (fun _ _ => 0) r) (VSpace.vec ⟨.lin 24 (balanced 24 8), .real⟩ 8 d r)) m (.error .value)) ∧
    ∃ m < 8, RankEnds 8 (fun r => sdRun k [12, 2] 1 edge .real b (env 8 (fun _ _ => 0) r) (VSpace.vec ⟨.all 24, .real⟩ 8 d r)) m (.error .value) := by
  have hN : ¬ Near 8 (.lin 24 (balanced 24 8)) (.slab 8 12 [2]) := fun h => absurd (h 3 (by omega)).2 (by decide)
  exact ⟨C31_raises_layout (N := 12) (rest := [2]) k b (by decide) ⟨by simp [Layout.lin], fun _ => by decide, by simp [Layout.lin]⟩ rfl rfl hN
    ⟨by simp [Layout.lin, hd], fits_rat _ _⟩, C31_raises_bcast (N := 12) (rest := [2]) k b (by decide) hN ⟨by simp [Layout.all, hd], fits_rat _ _⟩⟩

/-- **C31 fails for few rows**: three rows over two ranks; rank 1 has one row where two are needed and raises ValueError, and rank 0 waits forever. -/
theorem C31_violated_rows :
    Ends 2 (fun r => do
        let y ← sdRun .forward [3] 1 false .real false (env 2 (fun _ _ => 0) r) (VSpace.vec ⟨.lin 3 (balanced 3 2), .real⟩ 2 [(1 : ℚ), 5, 7] r)
        .ret y.larr.data)
      (fun r => [none, some (.error .value)].getD r none) := ends_of_sim 60 (by decide +kernel)

/-- **C31 fails at the edges of short blocks**: with `edge=True` and two rows per rank IndexError is raised. -/
theorem C31_violated_edge :
    Ends 2 (fun r => do
        let y ← sdRun .centered [4] 1 true .real false (env 2 (fun _ _ => 0) r) (VSpace.vec ⟨.lin 4 (balanced 4 2), .real⟩ 2 [(0 : ℚ), 1, 4, 9] r)
        .ret y.larr.data)
      (fun r => [some (.error .index), some (.error .index)].getD r none) := ends_of_sim 80 (by decide +kernel)

end Verif

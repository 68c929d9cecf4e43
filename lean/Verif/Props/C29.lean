/- C29: MPIFirstDerivative equals the serial stencil. -/
import Verif.Proofs.Methods
import Verif.Spec.Examples
import Verif.MPI.Sim

namespace Verif
open NDArray

variable {K : Type} [Field K] [StarRing K] [CharZero K]
variable {n N : Nat} {J : Nat → Nat → K} {rest : List Nat} {dt dx : DType} {s : K} {edge : Bool} {X : Layout}

/-- `MPIFirstDerivative(dims, s, kind=k, edge=edge, dtype=dt)` applied with `matvec` or `rmatvec` (`b = true`) -/
def fdRun (k : FDKind) (dims : List Nat) (s : K) (edge : Bool) (dt : DType) (b : Bool) (c : Ctx K) (x : DArr K) : P K (DArr K) :=
  MOp.run c b (.leaf (firstDerivative k ⟨dims, s, edge, dt⟩)) x

omit [CharZero K] in
theorem fdRun_eq {k : FDKind} {b : Bool} {c : Ctx K} {x : DArr K} (hx : x.gshape = [N * rest.prod]) :
    fdRun k (N :: rest) s edge dt b c x = derivApply c ⟨N :: rest, s, edge, dt⟩ (if b then fdRmv k else fdMv k) x := by
  unfold fdRun MOp.run checkDim firstDerivative
  cases b <;> simp [hx, Prim.shape]

/-- **C29** (partial: the ranks need enough rows for the stencil, and the boundaries of the input must be near those of the rows, see the
    theorems below for what happens otherwise).  The result is the finite difference of the global array along its first axis, whatever
    the number of ranks and the layout of the input. -/
theorem C29_scatter_partial (k : FDKind) (hn : 0 < n) (hroom : fdRoom k edge n N) (hdt : dt = .real → dx = .real) (_hs0 : s ≠ 0) (hs : star s = s)
    (hX : X.WF n) (hg : X.gshape = [N * rest.prod]) (hp : X.part = .scatter) (hN : Near n X (.slab n N rest)) :
    Computes n J (fun _ => fdRun k (N :: rest) s edge dt false) ⟨X, dx⟩ ⟨.flat n N rest, dt⟩ (alongRows (fdAt k edge N) s N rest.prod) := by
  intro d hd
  obtain ⟨h1, h2⟩ := deriv_scatter (J := J) hn (o := ⟨N :: rest, s, edge, dt⟩) rfl (method_fd k hn hroom hdt hs) (conform_slab hn hX hg hp) hN d hd
  exact ⟨h1, h2.congr_prog fun r _ => (fdRun_eq (b := false) (k := k) (x := VSpace.vec ⟨X, dx⟩ n d r) hg).symm⟩

/-- **C29** (partial).  The same for an input held by all ranks. -/
theorem C29_bcast_partial (k : FDKind) (hn : 0 < n) (hroom : fdRoom k edge n N) (hdt : dt = .real → dx = .real) (_hs0 : s ≠ 0) (hs : star s = s)
    (hN : Near n (.lin (N * rest.prod) (balanced (N * rest.prod) n)) (.slab n N rest)) :
    Computes n J (fun _ => fdRun k (N :: rest) s edge dt false) ⟨.all (N * rest.prod), dx⟩ ⟨.flat n N rest, dt⟩ (alongRows (fdAt k edge N) s N rest.prod) := by
  intro d hd
  obtain ⟨h1, h2⟩ := deriv_bcast (J := J) hn (o := ⟨N :: rest, s, edge, dt⟩) rfl (method_fd k hn hroom hdt hs) hN d hd
  exact ⟨h1, h2.congr_prog fun r _ => (fdRun_eq (b := false) (k := k) (x := VSpace.vec ⟨.all (N * rest.prod), dx⟩ n d r) rfl).symm⟩

/-- **C29** for one-dimensional arrays with the default layouts needs only enough rows. -/
theorem C29_one_dim (k : FDKind) (hn : 0 < n) (hroom : fdRoom k edge n N) (hdt : dt = .real → dx = .real) (hs0 : s ≠ 0) (hs : star s = s) :
    Computes n J (fun _ => fdRun k [N] s edge dt false) ⟨.lin N (balanced N n), dx⟩ ⟨.lin N (balanced N n), dt⟩ (alongRows (fdAt k edge N) s N 1) ∧
    Computes n J (fun _ => fdRun k [N] s edge dt false) ⟨.all N, dx⟩ ⟨.lin N (balanced N n), dt⟩ (alongRows (fdAt k edge N) s N 1) := by
  have e : Layout.flat n N [] = .lin N (balanced N n) := by simp [Layout.lin]
  have e2 : Layout.lin (N * List.prod []) (balanced (N * List.prod []) n) = .lin N (balanced N n) := by simp
  have e3 : Layout.all (N * List.prod []) = .all N := by simp
  have hw : (Layout.flat n N []).WF n := flat_wf hn
  have h1 := C29_scatter_partial (J := J) (dx := dx) (rest := []) k hn hroom hdt hs0 hs hw rfl rfl near_flat
  have h2 := C29_bcast_partial (J := J) (dx := dx) (rest := []) k hn hroom hdt hs0 hs (by rw [e2, ← e]; exact near_flat)
  rw [e] at h1
  rw [e, e3] at h2
  exact ⟨h1, h2⟩

/-- **C29** (what is left out: layout).  If the boundaries are not near each other some rank raises ValueError, in every execution. -/
theorem C29_raises_layout (k : FDKind) (b : Bool) (hn : 0 < n) (hX : X.WF n) (hg : X.gshape = [N * rest.prod]) (hp : X.part = .scatter)
    (hN : ¬ Near n X (.slab n N rest)) {d : List K} (hd : VSpace.Mem ⟨X, dx⟩ d) :
    ∃ m < n, RankEnds n (fun r => fdRun k (N :: rest) s edge dt b (env n J r) (VSpace.vec ⟨X, dx⟩ n d r)) m (.error .value) := by
  obtain ⟨m, hm, h⟩ := deriv_raises (J := J) (o := ⟨N :: rest, s, edge, dt⟩) rfl (if b then fdRmv k else fdMv k) (conform_slab hn hX hg hp) hN hd
  exact ⟨m, hm, h.congr_prog (fun r _ => (fdRun_eq (x := VSpace.vec ⟨X, dx⟩ n d r) hg).symm) hm⟩

theorem C29_raises_bcast (k : FDKind) (b : Bool) (hn : 0 < n)
    (hN : ¬ Near n (.lin (N * rest.prod) (balanced (N * rest.prod) n)) (.slab n N rest)) {d : List K} (hd : VSpace.Mem ⟨.all (N * rest.prod), dx⟩ d) :
    ∃ m < n, RankEnds n (fun r => fdRun k (N :: rest) s edge dt b (env n J r) (VSpace.vec ⟨.all (N * rest.prod), dx⟩ n d r)) m (.error .value) := by
  obtain ⟨m, hm, h⟩ := deriv_raises_bcast (J := J) hn (o := ⟨N :: rest, s, edge, dt⟩) rfl (if b then fdRmv k else fdMv k) hN hd
  exact ⟨m, hm, h.congr_prog (fun r _ => (fdRun_eq (x := VSpace.vec ⟨.all (N * rest.prod), dx⟩ n d r) rfl).symm) hm⟩

/-- the blocks are shorter than the ghost cells -/
def fdShort (k : FDKind) (n N : Nat) : Prop :=
  match k with
  | .forward | .centered3 => N < n
  | .backward => N + 1 < n
  | .centered5 => N < 2 * n

/-- **C29** (what is left out: rows).  With two or more ranks and blocks shorter than the ghost cells some rank raises ValueError, in every execution. -/
theorem C29_raises_rows (k : FDKind) (hn : 2 ≤ n) (hsh : fdShort k n N) (hX : X.WF n) (hg : X.gshape = [N * rest.prod]) (hp : X.part = .scatter)
    (hN : Near n X (.slab n N rest)) {d : List K} (hd : VSpace.Mem ⟨X, dx⟩ d) :
    ∃ m < n, RankEnds n (fun r => fdRun k (N :: rest) s edge dt false (env n J r) (VSpace.vec ⟨X, dx⟩ n d r)) m (.error .value) := by
  have hn0 : 0 < n := by omega
  have hs := psum_balanced_total N hn0
  obtain ⟨m, hm, h⟩ := deriv_raises_rows (J := J) hn0 (o := ⟨N :: rest, s, edge, dt⟩) (f := fdMv k) rfl (conform_slab hn0 hX hg hp) hN (fun F => by
    cases k with
    | forward => exact method_raises hs (no_room hn (by have : N < n := hsh; omega)) _ _ _ _
    | backward => exact method_raises hs (no_room' hn (by have : N + 1 < n := hsh; omega)) _ _ _ _
    | centered3 => exact method_raises hs (no_room hn (by have : N < n := hsh; omega)) _ _ _ _
    | centered5 => exact method_raises hs (no_room hn (by have : N < 2 * n := hsh; omega)) _ _ _ _) hd
  exact ⟨m, hm, h.congr_prog (fun r _ => (fdRun_eq (b := false) (k := k) (x := VSpace.vec ⟨X, dx⟩ n d r) hg).symm) hm⟩

/-- Non-vacuity: (0, 1, 4, 9, …, 64, 81) as a 5 × 2 array on two ranks, given as 5 + 5; forward difference along the first axis with sampling 2. -/
example : Always 2 (fun r => fdRun .forward [5, 2] 2 true .real false (env 2 (fun _ _ => 0) r)
      (VSpace.vec ⟨.lin 10 fun _ => 5, .real⟩ 2 ((List.range 10).map fun i => (i ^ 2 : ℚ)) r))
    (fun r => .ok (VSpace.vec ⟨.lin 10 fun r => if r = 0 then 6 else 4, .real⟩ 2 [2, 4, 6, 8, 10, 12, 14, 16, 0, 0] r)) := by
  have h := (C29_scatter_partial (J := fun _ _ => 0) (n := 2) (N := 5) (rest := [2]) (dt := .real) (dx := .real) (s := (2 : ℚ)) (edge := true)
    (X := .lin 10 fun _ => 5) .forward (by decide) (by show 2 ≤ 5; decide) id (by norm_num) rfl
    ⟨by simp [Layout.lin], fun _ => rfl, by simp [Layout.lin]⟩ rfl rfl (by
      intro r hr
      obtain rfl : r = 0 := by omega
      decide) ((List.range 10).map fun i => (i ^ 2 : ℚ)) ⟨by simp [Layout.lin], fits_rat _ _⟩).2
  refine h.congr fun r hr => ?_
  match r, hr with
  | 0, _ => decide +kernel
  | 1, _ => decide +kernel

/-- **C29 fails with plenty of rows**: a 12 × 2 array in the default layout over eight ranks (three entries each; the rows are split
    2, 2, 2, 2, 1, 1, 1, 1), and the same array given to all ranks: some rank raises ValueError. -/
theorem C29_violated_layout (k : FDKind) (b : Bool) (d : List ℚ) (hd : d.length = 24) :
    (∃ m < 8, RankEnds 8 (fun r => fdRun k [12, 2] 1 edge .real b (env 8 (fun _ _ => 0) r) (VSpace.vec ⟨.lin 24 (balanced 24 8), .real⟩ 8 d r)) m (.error .value)) ∧
    ∃ m < 8, RankEnds 8 (fun r => fdRun k [12, 2] 1 edge .real b (env 8 (fun _ _ => 0) r) (VSpace.vec ⟨.all 24, .real⟩ 8 d r)) m (.error .value) := by
  have hN : ¬ Near 8 (.lin 24 (balanced 24 8)) (.slab 8 12 [2]) := fun h => absurd (h 3 (by omega)).2 (by decide)
  exact ⟨C29_raises_layout (N := 12) (rest := [2]) k b (by decide) ⟨by simp [Layout.lin], fun _ => by decide, by simp [Layout.lin]⟩ rfl rfl hN
    ⟨by simp [Layout.lin, hd], fits_rat _ _⟩, C29_raises_bcast (N := 12) (rest := [2]) k b (by decide) hN ⟨by simp [Layout.all, hd], fits_rat _ _⟩⟩

/-- **C29 fails for few rows**: (1, 5) over three ranks; rank 2, which has no row to send to rank 1, raises ValueError, and rank 1 waits forever. -/
theorem C29_violated_rows :
    Ends 3 (fun r => do
        let y ← fdRun .forward [2] 1 false .real false (env 3 (fun _ _ => 0) r) (VSpace.vec ⟨.lin 2 (balanced 2 3), .real⟩ 3 [(1 : ℚ), 5] r)
        .ret y.larr.data)
      (fun r => [some (.ok [4]), none, some (.error .value)].getD r none) := ends_of_sim 60 (by decide +kernel)

/-- **C29 fails at the edges of short blocks**: four rows over three ranks suffice for the centered stencil, but with `edge=True` the last
    rank, which has one row, raises IndexError. -/
theorem C29_violated_edge :
    Ends 3 (fun r => do
        let y ← fdRun .centered3 [4] 1 true .real false (env 3 (fun _ _ => 0) r) (VSpace.vec ⟨.lin 4 (balanced 4 3), .real⟩ 3 [(0 : ℚ), 1, 4, 9] r)
        .ret y.larr.data)
      (fun r => [some (.ok [1, 2]), some (.ok [4]), some (.error .index)].getD r none) := ends_of_sim 80 (by decide +kernel)

end Verif

/- C30: MPIFirstDerivative forward and adjoint match. -/
import Verif.Props.C29
import Verif.Proofs.Dottest

namespace Verif
open NDArray

variable {K : Type} [Field K] [StarRing K] [CharZero K]
variable {n N : Nat} {J : Nat → Nat → K} {rest : List Nat} {dt dx : DType} {s : K} {edge : Bool} {X Y : Layout}

/-- the adjoint of the finite difference -/
theorem C30_transpose (k : FDKind) (hn : 0 < n) (hroom : fdRoomAdj k edge n N) (hs : star s = s) {w : Nat} {u v : List K} (hu : u.length = N * w) (hv : v.length = N * w) :
    ip (alongRows (fdAt k edge N) s N w u) v = ip u (alongRows (fdAdj k edge N) s N w v) := by
  refine adjoint_alongRows ?_ (conj_fdAt k) hs hu hv
  cases k with
  | forward => exact transpose_forward
  | backward => exact transpose_backward
  | centered3 =>
    have h : 2 * n ≤ N ∨ n = 1 ∧ edge = false ∧ 1 ≤ N := hroom
    exact transpose_centered3 fun he => by simp [he] at h; omega
  | centered5 =>
    have h : 4 * n ≤ N ∨ n = 1 ∧ edge = false ∧ 3 ≤ N := hroom
    exact transpose_centered5 fun he => by simp [he] at h; omega

/-- **C30** (partial: enough rows, boundaries near those of the rows).  `rmatvec` computes a function `g` of the global array … -/
theorem C30_adjoint_partial (k : FDKind) (hn : 0 < n) (hroom : fdRoomAdj k edge n N) (hdt : dt = .real → dx = .real) (_hs0 : s ≠ 0) (hs : star s = s)
    (hX : X.WF n) (hg : X.gshape = [N * rest.prod]) (hp : X.part = .scatter) (hN : Near n X (.slab n N rest)) :
    ∃ g : List K → List K,
      Computes n J (fun _ => fdRun k (N :: rest) s edge dt true) ⟨X, dx⟩ ⟨.flat n N rest, dt⟩ g ∧
      ∀ u v : List K, u.length = N * rest.prod → v.length = N * rest.prod → ip (alongRows (fdAt k edge N) s N rest.prod u) v = ip u (g v) := by
  refine ⟨alongRows (fdAdj k edge N) s N rest.prod, fun d hd => ?_, fun u v hu hv => C30_transpose k hn hroom hs hu hv⟩
  obtain ⟨h1, h2⟩ := deriv_scatter (J := J) hn (o := ⟨N :: rest, s, edge, dt⟩) rfl (method_fdAdj k hn hroom hdt hs) (conform_slab hn hX hg hp) hN d hd
  exact ⟨h1, h2.congr_prog fun r _ => (fdRun_eq (b := true) (k := k) (x := VSpace.vec ⟨X, dx⟩ n d r) hg).symm⟩

/-- … also when its input is held by all ranks. -/
theorem C30_bcast_partial (k : FDKind) (hn : 0 < n) (hroom : fdRoomAdj k edge n N) (hdt : dt = .real → dx = .real) (_hs0 : s ≠ 0) (hs : star s = s)
    (hN : Near n (.lin (N * rest.prod) (balanced (N * rest.prod) n)) (.slab n N rest)) :
    ∃ g : List K → List K,
      Computes n J (fun _ => fdRun k (N :: rest) s edge dt true) ⟨.all (N * rest.prod), dx⟩ ⟨.flat n N rest, dt⟩ g ∧
      ∀ u v : List K, u.length = N * rest.prod → v.length = N * rest.prod → ip (alongRows (fdAt k edge N) s N rest.prod u) v = ip u (g v) := by
  refine ⟨alongRows (fdAdj k edge N) s N rest.prod, fun d hd => ?_, fun u v hu hv => C30_transpose k hn hroom hs hu hv⟩
  obtain ⟨h1, h2⟩ := deriv_bcast (J := J) hn (o := ⟨N :: rest, s, edge, dt⟩) rfl (method_fdAdj k hn hroom hdt hs) hN d hd
  exact ⟨h1, h2.congr_prog fun r _ => (fdRun_eq (b := true) (k := k) (x := VSpace.vec ⟨.all (N * rest.prod), dx⟩ n d r) rfl).symm⟩

/-- **C30** (partial).  The dot test of the operator gives the same number twice, on all ranks and in all executions, for all vectors. -/
theorem C30_partial (k : FDKind) (hn : 0 < n) (hroom : fdRoom k edge n N) (hadj : fdRoomAdj k edge n N) (hs0 : s ≠ 0) (hs : star s = s)
    (hX : X.WF n) (hgX : X.gshape = [N * rest.prod]) (hpX : X.part = .scatter) (hNX : Near n X (.slab n N rest))
    (hY : Y.WF n) (hgY : Y.gshape = [N * rest.prod]) (hpY : Y.part = .scatter) (hNY : Near n Y (.slab n N rest))
    {u v : List K} (hu : VSpace.Mem ⟨X, dt⟩ u) (hv : VSpace.Mem ⟨Y, dt⟩ v) :
    ∃ c, Always n (fun r => dotPair (env n J r) (.leaf (firstDerivative k ⟨N :: rest, s, edge, dt⟩)) (VSpace.vec ⟨X, dt⟩ n u r) (VSpace.vec ⟨Y, dt⟩ n v r))
      (fun _ => .ok (c, c)) ∧ c = ip (alongRows (fdAt k edge N) s N rest.prod u) v := by
  obtain ⟨h1, h2⟩ := C29_scatter_partial (J := J) k hn hroom (dt := dt) (dx := dt) id hs0 hs hX hgX hpX hNX u hu
  obtain ⟨g, h3, h4⟩ := C30_adjoint_partial (J := J) k hn hadj (dt := dt) (dx := dt) id hs0 hs hY hgY hpY hNY
  obtain ⟨h5, h6⟩ := h3 v hv
  refine ⟨_, ?_, rfl⟩
  have e := h4 u v (by rw [hu.1]; simp [hgX]) (by rw [hv.1]; simp [hgY])
  have := runs_dotPair (J := J) (op := fun _ => .leaf (firstDerivative k ⟨N :: rest, s, edge, dt⟩)) (S := ⟨X, dt⟩) (T := ⟨Y, dt⟩) hX hY (flat_wf hn) (flat_wf hn) hu hv
    h5 h1 (by simp [Layout.lin, hgX]) (by simp [Layout.lin, hgY]) h2.runs h6.runs
  rw [← e] at this
  exact this.always

/-- Non-vacuity: eight rows of two entries on two ranks, order 5 with edges. -/
example : ∃ c : ℚ, Always 2 (fun r => dotPair (env 2 (fun _ _ => 0) r) (.leaf (firstDerivative .centered5 ⟨[8, 2], 3, true, .real⟩))
      (VSpace.vec ⟨.flat 2 8 [2], .real⟩ 2 ((List.range 16).map fun i => (i ^ 2 : ℚ)) r) (VSpace.vec ⟨.flat 2 8 [2], .real⟩ 2 ((List.range 16).map fun i => (i : ℚ)) r))
      (fun _ => .ok (c, c)) ∧ c = ip (alongRows (fdAt .centered5 true 8) 3 8 2 ((List.range 16).map fun i => (i ^ 2 : ℚ))) ((List.range 16).map fun i => (i : ℚ)) := by
  have hw : (Layout.flat 2 8 [2]).WF 2 := flat_wf (by decide)
  exact C30_partial (n := 2) (N := 8) (rest := [2]) .centered5 (by decide) (by show 3 * 2 ≤ 8; decide) (.inl (by decide)) (by norm_num) rfl
    hw rfl rfl near_flat hw rfl rfl near_flat ⟨by simp [Layout.lin], fits_rat _ _⟩ ⟨by simp [Layout.lin], fits_rat _ _⟩

/-! ### Where the claim is false -/

/-- **C30 fails when the last rank has no rows**: two rows over three ranks.  `rmatvec` of the forward difference applied to (0, 1) gives (0, -1), in every
    execution, although the adjoint of (u0, u1) ↦ (u1 - u0, 0) maps (0, 1) to (0, 0). -/
theorem C30_violated_rows :
    (∃ σ : Nat → DArr ℚ, Always 3 (fun r => fdRun .forward [2] 1 false .real true (env 3 (fun _ _ => 0) r) (VSpace.vec ⟨.lin 2 (balanced 2 3), .real⟩ 3 [0, 1] r))
        (fun r => .ok (σ r)) ∧ ∀ r < 3, [[0], [-1], []][r]? = some (σ r).larr.data) ∧
    ∀ u : List ℚ, u.length = 2 → ip (alongRows (fdAt .forward false 2) 1 2 1 u) [0, 1] = ip u [0, 0] := by
  constructor
  · obtain ⟨σ, h1, h2⟩ := runs_of_simOk 60
      (ps := fun r => fdRun .forward [2] 1 false .real true (env 3 (fun _ _ => 0) r) (VSpace.vec ⟨.lin 2 (balanced 2 3), .real⟩ 3 [(0 : ℚ), 1] r))
      (g := fun x : DArr ℚ => x.larr.data) (n := 3) (outs := [[0], [-1], []]) (by decide) (by decide +kernel)
    exact ⟨σ, h1.always, h2⟩
  · intro u hu
    match u, hu with
    | [a, b], _ => simp [ip, alongRows, tab, entry, fdAt, List.range_succ]

/-- **C30 fails for three rows, order 5 with edges, on one rank**: both directions succeed, but the dot test gives two different numbers. -/
theorem C30_violated_edge :
    ∃ σ : Nat → ℚ × ℚ, Always 1 (fun r => dotPair (env 1 (fun _ _ => 0) r) (.leaf (firstDerivative .centered5 ⟨[3], 1, true, .real⟩))
        (VSpace.vec ⟨.lin 3 (balanced 3 1), .real⟩ 1 [0, 0, 2] r) (VSpace.vec ⟨.lin 3 (balanced 3 1), .real⟩ 1 [0, 1, 0] r)) (fun r => .ok (σ r)) ∧
      σ 0 = (1, 2) := by
  obtain ⟨σ, h1, h2⟩ := runs_of_simOk 200
    (ps := fun r => dotPair (env 1 (fun _ _ => 0) r) (.leaf (firstDerivative .centered5 ⟨[3], 1, true, .real⟩))
        (VSpace.vec ⟨.lin 3 (balanced 3 1), .real⟩ 1 [(0 : ℚ), 0, 2] r) (VSpace.vec ⟨.lin 3 (balanced 3 1), .real⟩ 1 [0, 1, 0] r))
    (g := id) (n := 1) (outs := [(1, 2)]) (by decide) (by decide +kernel)
  refine ⟨σ, h1.always, ?_⟩
  have := h2 0 (by decide)
  simpa using this.symm

end Verif

/- C65: MPIFirstDerivative and MPISecondDerivative are right or raise; the cases in which their adjoints are silently wrong. -/
import Verif.Proofs.FewRows
import Verif.Props.C30
import Verif.Props.C32
import Verif.Proofs.MDC

namespace Verif
open NDArray

variable {K : Type} [Field K] [StarRing K] [CharZero K]
variable {n N : Nat} {J : Nat → Nat → K} {rest : List Nat} {dt dx : DType} {s : K} {edge : Bool} {X : Layout}

omit [StarRing K] [CharZero K] in
theorem VecIn.gshape {M : Nat} (h : VecIn n M X) : X.gshape = [M] := by
  rcases h with ⟨-, h, -⟩ | rfl
  · exact h
  · rfl

/-- **C65** (first derivative, `matvec`).  For every kind, every number of ranks, every number of rows and every layout of the input: either
    all ranks return their rows of the finite difference of the global array, in every execution, or some rank raises. -/
theorem C65_fd (k : FDKind) (hn : 0 < n) (hN : 1 ≤ N) (hdt : dt = .real → dx = .real) (_hs0 : s ≠ 0) (hs : star s = s) (hX : VecIn n (N * rest.prod) X)
    {d : List K} (hd : VSpace.Mem ⟨X, dx⟩ d) :
    Always n (fun r => fdRun k (N :: rest) s edge dt false (env n J r) (VSpace.vec ⟨X, dx⟩ n d r))
        (fun r => .ok (VSpace.vec ⟨.flat n N rest, dt⟩ n (alongRows (fdAt k edge N) s N rest.prod d) r)) ∨
      ∃ m < n, ∃ e, RankEnds n (fun r => fdRun k (N :: rest) s edge dt false (env n J r) (VSpace.vec ⟨X, dx⟩ n d r)) m (.error e) := by
  have e := fun r : Nat => (fdRun_eq (b := false) (k := k) (s := s) (edge := edge) (dt := dt) (c := env n J r) (x := VSpace.vec ⟨X, dx⟩ n d r) hX.gshape)
  rcases deriv_total (J := J) hn (o := ⟨N :: rest, s, edge, dt⟩) rfl (total_fd k hn hN hdt hs) hX hd with h | ⟨m, hm, er, h⟩
  · exact .inl (h.congr_prog fun r _ => (e r).symm)
  · exact .inr ⟨m, hm, er, h.congr_prog (fun r _ => (e r).symm) hm⟩

/-- **C65** (second derivative, `matvec`). -/
theorem C65_sd (k : SDKind) (hn : 0 < n) (hN : 1 ≤ N) (hdt : dt = .real → dx = .real) (_hs0 : s ≠ 0) (hs : star s = s) (hX : VecIn n (N * rest.prod) X)
    {d : List K} (hd : VSpace.Mem ⟨X, dx⟩ d) :
    Always n (fun r => sdRun k (N :: rest) s edge dt false (env n J r) (VSpace.vec ⟨X, dx⟩ n d r))
        (fun r => .ok (VSpace.vec ⟨.flat n N rest, dt⟩ n (alongRows (sdAt k edge N) (s ^ 2) N rest.prod d) r)) ∨
      ∃ m < n, ∃ e, RankEnds n (fun r => sdRun k (N :: rest) s edge dt false (env n J r) (VSpace.vec ⟨X, dx⟩ n d r)) m (.error e) := by
  have e := fun r : Nat => (sdRun_eq (b := false) (k := k) (s := s) (edge := edge) (dt := dt) (c := env n J r) (x := VSpace.vec ⟨X, dx⟩ n d r) hX.gshape)
  rcases deriv_total (J := J) hn (o := ⟨N :: rest, s, edge, dt⟩) rfl (total_sd k hn hN hdt hs) hX hd with h | ⟨m, hm, er, h⟩
  · exact .inl (h.congr_prog fun r _ => (e r).symm)
  · exact .inr ⟨m, hm, er, h.congr_prog (fun r _ => (e r).symm) hm⟩

/-- **C65** (first derivative, `rmatvec`; partial: outside the cases `fdSilent`, for which see below).  Either all ranks return their rows of
    `w`, the value of the adjoint of the finite difference at `d`, in every execution, or some rank raises. -/
theorem C65_fd_adj_partial (k : FDKind) (hn : 0 < n) (hN : 1 ≤ N) (hsil : ¬ fdSilent k edge n N) (hdt : dt = .real → dx = .real) (_hs0 : s ≠ 0) (hs : star s = s)
    (hX : VecIn n (N * rest.prod) X) {d : List K} (hd : VSpace.Mem ⟨X, dx⟩ d) :
    (∃ w : List K, w.length = N * rest.prod ∧ (∀ u : List K, u.length = N * rest.prod → ip (alongRows (fdAt k edge N) s N rest.prod u) d = ip u w) ∧
      Always n (fun r => fdRun k (N :: rest) s edge dt true (env n J r) (VSpace.vec ⟨X, dx⟩ n d r)) (fun r => .ok (VSpace.vec ⟨.flat n N rest, dt⟩ n w r))) ∨
      ∃ m < n, ∃ e, RankEnds n (fun r => fdRun k (N :: rest) s edge dt true (env n J r) (VSpace.vec ⟨X, dx⟩ n d r)) m (.error e) := by
  have e := fun r : Nat => (fdRun_eq (b := true) (k := k) (s := s) (edge := edge) (dt := dt) (c := env n J r) (x := VSpace.vec ⟨X, dx⟩ n d r) hX.gshape)
  have hlen : d.length = N * rest.prod := by rw [hd.1]; show X.gshape.prod = _; rw [hX.gshape]; simp
  rcases total_fdAdj (J := J) (rest := rest) (s := s) k hn hN hsil hdt with hr | hr
  · rcases deriv_total (J := J) hn (o := ⟨N :: rest, s, edge, dt⟩) rfl (.inl (method_fdAdj k hn hr hdt hs)) hX hd with h | ⟨m, hm, er, h⟩
    · exact .inl ⟨_, by simp [alongRows], fun u hu => C30_transpose k hn hr hs hu hlen, h.congr_prog fun r _ => (e r).symm⟩
    · exact .inr ⟨m, hm, er, h.congr_prog (fun r _ => (e r).symm) hm⟩
  · obtain ⟨m, hm, er, h⟩ := deriv_raises_in (J := J) hn (o := ⟨N :: rest, s, edge, dt⟩) rfl hr hX hd
    exact .inr ⟨m, hm, er, h.congr_prog (fun r _ => (e r).symm) hm⟩

/-- **C65** (second derivative, `rmatvec`; partial: outside the case `sdSilent`, for which see below). -/
theorem C65_sd_adj_partial (k : SDKind) (hn : 0 < n) (hN : 1 ≤ N) (hsil : ¬ sdSilent k n N) (hdt : dt = .real → dx = .real) (_hs0 : s ≠ 0) (hs : star s = s)
    (hX : VecIn n (N * rest.prod) X) {d : List K} (hd : VSpace.Mem ⟨X, dx⟩ d) :
    (∃ w : List K, w.length = N * rest.prod ∧ (∀ u : List K, u.length = N * rest.prod → ip (alongRows (sdAt k edge N) (s ^ 2) N rest.prod u) d = ip u w) ∧
      Always n (fun r => sdRun k (N :: rest) s edge dt true (env n J r) (VSpace.vec ⟨X, dx⟩ n d r)) (fun r => .ok (VSpace.vec ⟨.flat n N rest, dt⟩ n w r))) ∨
      ∃ m < n, ∃ e, RankEnds n (fun r => sdRun k (N :: rest) s edge dt true (env n J r) (VSpace.vec ⟨X, dx⟩ n d r)) m (.error e) := by
  have e := fun r : Nat => (sdRun_eq (b := true) (k := k) (s := s) (edge := edge) (dt := dt) (c := env n J r) (x := VSpace.vec ⟨X, dx⟩ n d r) hX.gshape)
  have hlen : d.length = N * rest.prod := by rw [hd.1]; show X.gshape.prod = _; rw [hX.gshape]; simp
  rcases total_sdAdj (J := J) (rest := rest) (s := s) (edge := edge) k hn hN hsil hdt with hr | hr
  · rcases deriv_total (J := J) hn (o := ⟨N :: rest, s, edge, dt⟩) rfl (.inl (method_sdAdj k hn hr hdt hs)) hX hd with h | ⟨m, hm, er, h⟩
    · exact .inl ⟨_, by simp [alongRows], fun u hu => C32_transpose k hn hr hs hu hlen, h.congr_prog fun r _ => (e r).symm⟩
    · exact .inr ⟨m, hm, er, h.congr_prog (fun r _ => (e r).symm) hm⟩
  · obtain ⟨m, hm, er, h⟩ := deriv_raises_in (J := J) hn (o := ⟨N :: rest, s, edge, dt⟩) rfl hr hX hd
    exact .inr ⟨m, hm, er, h.congr_prog (fun r _ => (e r).symm) hm⟩

/-! ### Where no rank raises and the result is wrong -/

/-- a vector is determined by its inner products -/
theorem ip_sep {M : Nat} {x y : List K} (hx : x.length = M) (hy : y.length = M) (h : ∀ u : List K, u.length = M → ip u x = ip u y) : x = y := by
  have key : ∀ z : List K, z.length = M → ∀ i < M, ip ((List.range M).map fun p => if p = i then (1 : K) else 0) z = z.getD i 0 := by
    intro z hz i hi
    rw [ip_eq_sum (N := M) (by simp) hz, Finset.sum_eq_single i]
    · simp [hi]
    · intro p hp hne
      simp [Finset.mem_range.1 hp, hne]
    · intro hcon
      exact absurd (Finset.mem_range.2 hi) hcon
  refine List.ext_getElem (by rw [hx, hy]) fun i h1 h2 => ?_
  have := h ((List.range M).map fun p => if p = i then (1 : K) else 0) (by simp)
  rw [key x hx i (by omega), key y hy i (by omega)] at this
  simpa [List.getD_eq_getElem?_getD, h1, h2] using this

/-- a result that differs from the transposed stencil in some entry is not the value of the adjoint -/
theorem not_adjoint {D D' W : (Nat → K) → Nat → K} {w : Nat} {d : List K}
    (hT : ∀ u : List K, u.length = N * w → ip (alongRows D s N w u) d = ip u (alongRows D' s N w d)) {p j : Nat} (hp : p < N) (hj : j < w)
    (hne : W (fun q => entry w d q j) p / s ≠ D' (fun q => entry w d q j) p / s) :
    ∃ u : List K, u.length = N * w ∧ ip (alongRows D s N w u) d ≠ ip u (alongRows W s N w d) := by
  by_contra hcon
  push Not at hcon
  have h1 := ip_sep (M := N * w) (x := alongRows D' s N w d) (y := alongRows W s N w d) (by simp [alongRows]) (by simp [alongRows])
    fun u hu => by rw [← hT u hu, hcon u hu]
  have h2 := congrArg (fun l => entry w l p j) h1
  simp only [alongRows] at h2
  rw [entry_tab hp hj, entry_tab hp hj] at h2
  exact hne h2.symm

/-- **C65 fails** (first derivative, forward, the last rank has no row: `N + 1 = n`): in every execution all ranks return the rows of
    `v[i-1] - v[i]`, also for the last row, where the adjoint is `v[N-2]`. -/
theorem C65_fd_forward_violated (hn : 2 ≤ n) (hN : N + 1 = n) (hdt : dt = .real → dx = .real) (hs0 : s ≠ 0) (hs : star s = s)
    (hX : X.WF n) (hg : X.gshape = [N * rest.prod]) (hp : X.part = .scatter) (hNear : Near n X (.slab n N rest)) {d : List K} (hd : VSpace.Mem ⟨X, dx⟩ d) :
    Always n (fun r => fdRun .forward (N :: rest) s edge dt true (env n J r) (VSpace.vec ⟨X, dx⟩ n d r))
        (fun r => .ok (VSpace.vec ⟨.flat n N rest, dt⟩ n (alongRows fdAdjWrong s N rest.prod d) r)) ∧
      ((∃ j < rest.prod, entry rest.prod d (N - 1) j ≠ 0) →
        ∃ u : List K, u.length = N * rest.prod ∧ ip (alongRows (fdAt .forward edge N) s N rest.prod u) d ≠ ip u (alongRows fdAdjWrong s N rest.prod d)) := by
  have hn0 : 0 < n := by omega
  have ht := psum_balanced_total N hn0
  have hlen : d.length = N * rest.prod := by rw [hd.1]; show X.gshape.prod = _; rw [hg]; simp
  constructor
  · have hm : Method n N rest J ⟨N :: rest, s, edge, dt⟩ (fdRmv .forward) fdAdjWrong s dx := fun F hF =>
      ⟨Conj.fit (D := fdAdjWrong) (fun u i => by simp only [fdAdjWrong, star_sub, apply_ite star, star_zero]) hdt hF hs,
        runs_fdRmvForward' ht (by omega) (fun r hr => balanced_ge' (by omega) hr) (balanced_last' hn0 (by omega)) hdt hF hs⟩
    exact (deriv_scatter (J := J) hn0 (o := ⟨N :: rest, s, edge, dt⟩) rfl hm (conform_slab hn0 hX hg hp) hNear d hd).2.congr_prog
      fun r _ => (fdRun_eq (b := true) (k := .forward) (x := VSpace.vec ⟨X, dx⟩ n d r) hg).symm
  · rintro ⟨j, hj, hne⟩
    refine not_adjoint (fun u hu => adjoint_alongRows transpose_forward (conj_fdAt .forward) hs hu hlen) (p := N - 1) (by omega) hj fun h => hne ?_
    rw [div_left_inj' hs0] at h
    simp only [fdAdjWrong, fdAdj, if_neg (show ¬ N - 1 + 1 < N by omega)] at h
    simpa using h

/-- **C65 fails** (second derivative, forward, the last rank has one row: `N + 1 = 2 n`): in every execution all ranks return the rows of the
    adjoint with `v[N-2]` added to row `N - 2`. -/
theorem C65_sd_forward_violated (hn : 2 ≤ n) (hN : N + 1 = 2 * n) (hdt : dt = .real → dx = .real) (hs0 : s ≠ 0) (hs : star s = s)
    (hX : X.WF n) (hg : X.gshape = [N * rest.prod]) (hp : X.part = .scatter) (hNear : Near n X (.slab n N rest)) {d : List K} (hd : VSpace.Mem ⟨X, dx⟩ d) :
    Always n (fun r => sdRun .forward (N :: rest) s edge dt true (env n J r) (VSpace.vec ⟨X, dx⟩ n d r))
        (fun r => .ok (VSpace.vec ⟨.flat n N rest, dt⟩ n (alongRows (sdAdjWrong N) (s ^ 2) N rest.prod d) r)) ∧
      ((∃ j < rest.prod, entry rest.prod d (N - 2) j ≠ 0) →
        ∃ u : List K, u.length = N * rest.prod ∧ ip (alongRows (sdAt .forward edge N) (s ^ 2) N rest.prod u) d ≠ ip u (alongRows (sdAdjWrong N) (s ^ 2) N rest.prod d)) := by
  have hn0 : 0 < n := by omega
  have ht := psum_balanced_total N hn0
  have hlen : d.length = N * rest.prod := by rw [hd.1]; show X.gshape.prod = _; rw [hg]; simp
  constructor
  · have hm : Method n N rest J ⟨N :: rest, s, edge, dt⟩ (sdRmv .forward) (sdAdjWrong N) (s ^ 2) dx := fun F hF =>
      ⟨Conj.fit (D := sdAdjWrong N) (fun u i => by simp only [sdAdjWrong, star_sub, star_add, star_mul', apply_ite star, star_zero]; simp) hdt hF (star_sq hs),
        runs_sdRmvForward' ht hn (fun r hr => balanced_ge' (by omega) hr) (balanced_last' hn0 (by omega)) hdt hF hs⟩
    exact (deriv_scatter (J := J) hn0 (o := ⟨N :: rest, s, edge, dt⟩) rfl hm (conform_slab hn0 hX hg hp) hNear d hd).2.congr_prog
      fun r _ => (sdRun_eq (b := true) (k := .forward) (x := VSpace.vec ⟨X, dx⟩ n d r) hg).symm
  · rintro ⟨j, hj, hne⟩
    refine not_adjoint (fun u hu => adjoint_alongRows transpose_sdForward (conj_sdAt .forward) (star_sq hs) hu hlen) (p := N - 2) (by omega) hj fun h => hne ?_
    rw [div_left_inj' (pow_ne_zero 2 hs0)] at h
    simp only [sdAdjWrong, sdAdj, if_neg (show ¬ N - 2 + 2 < N by omega), if_pos (show N - 2 + 1 < N by omega)] at h
    simpa using h

/-- **C65 fails** (first derivative, order 5 with edges, three rows on one rank): the adjoint of the middle row, for which `matvec` computes one
    value twice, is added twice. -/
theorem C65_fd_centered5_violated (hdt : dt = .real → dx = .real) (hs0 : s ≠ 0) (hs : star s = s)
    (hX : X.WF 1) (hg : X.gshape = [3 * rest.prod]) (hp : X.part = .scatter) {d : List K} (hd : VSpace.Mem ⟨X, dx⟩ d) :
    Always 1 (fun r => fdRun .centered5 (3 :: rest) s true dt true (env 1 J r) (VSpace.vec ⟨X, dx⟩ 1 d r))
        (fun r => .ok (VSpace.vec ⟨.flat 1 3 rest, dt⟩ 1 (alongRows (fdAdj .centered5 true 3) s 3 rest.prod d) r)) ∧
      ((∃ j < rest.prod, entry rest.prod d 1 j ≠ 0) →
        ∃ u : List K, u.length = 3 * rest.prod ∧ ip (alongRows (fdAt .centered5 true 3) s 3 rest.prod u) d ≠ ip u (alongRows (fdAdj .centered5 true 3) s 3 rest.prod d)) := by
  have ht := psum_balanced_total 3 (show 0 < 1 by omega)
  have hlen : d.length = 3 * rest.prod := by rw [hd.1]; show X.gshape.prod = _; rw [hg]; simp
  constructor
  · have hm : Method 1 3 rest J ⟨3 :: rest, s, true, dt⟩ (fdRmv .centered5) (fdAdj .centered5 true 3) s dx := fun F hF =>
      ⟨(conj_fdAdj .centered5).fit hdt hF hs,
        runs_fdRmvCentered5 ht (by omega) (.inl rfl) (edgeRoom (by omega) fun _ => by omega) hdt hF hs⟩
    exact (deriv_scatter (J := J) (by omega) (o := ⟨3 :: rest, s, true, dt⟩) rfl hm (conform_slab (by omega) hX hg hp) (fun r hr => by omega) d hd).2.congr_prog
      fun r _ => (fdRun_eq (b := true) (k := .centered5) (x := VSpace.vec ⟨X, dx⟩ 1 d r) hg).symm
  · rintro ⟨j, hj, hne⟩
    -- the transpose of `u ↦ (u1 - u0, (u2 - u0) / 2, u2 - u1)`
    have hT : Transpose 3 (fdAt (K := K) .centered5 true 3) (fun v p => if p = 0 then - v 0 - v 1 / 2 else if p = 1 then v 0 - v 2 else v 1 / 2 + v 2) := by
      intro u v
      simp [Finset.sum_range_succ, fdAt]
      ring
    refine not_adjoint (fun u hu => adjoint_alongRows hT (conj_fdAt .centered5) hs hu hlen) (p := 0) (by omega) hj fun h => hne ?_
    rw [div_left_inj' hs0] at h
    simp [fdAdj] at h
    linear_combination (-2) * h

/-! ### Backward differences need one row less than C29 and C31 ask for -/

/-- the last rank may have no row -/
theorem C65_fd_backward (hn : 0 < n) (hN : 1 ≤ N) (hroom : n ≤ N + 1) (hdt : dt = .real → dx = .real) (_hs0 : s ≠ 0) (hs : star s = s)
    (hX : X.WF n) (hg : X.gshape = [N * rest.prod]) (hp : X.part = .scatter) (hNear : Near n X (.slab n N rest)) :
    Computes n J (fun _ => fdRun .backward (N :: rest) s edge dt false) ⟨X, dx⟩ ⟨.flat n N rest, dt⟩ (alongRows (fdAt .backward edge N) s N rest.prod) := by
  intro d hd
  have hm : Method n N rest J ⟨N :: rest, s, edge, dt⟩ (fdMv .backward) (fdAt .backward edge N) s dx := fun F hF =>
    ⟨(conj_fdAt .backward).fit hdt hF hs, runs_fdMvBackward' (psum_balanced_total N hn) hN (fun r hr => balanced_ge' (by omega) hr) hdt hF hs⟩
  obtain ⟨h1, h2⟩ := deriv_scatter (J := J) hn (o := ⟨N :: rest, s, edge, dt⟩) rfl hm (conform_slab hn hX hg hp) hNear d hd
  exact ⟨h1, h2.congr_prog fun r _ => (fdRun_eq (b := false) (k := .backward) (x := VSpace.vec ⟨X, dx⟩ n d r) hg).symm⟩

/-- the last rank may have one row -/
theorem C65_sd_backward (hn : 0 < n) (hN : 1 ≤ N) (hroom : 2 * n ≤ N + 1) (hdt : dt = .real → dx = .real) (_hs0 : s ≠ 0) (hs : star s = s)
    (hX : X.WF n) (hg : X.gshape = [N * rest.prod]) (hp : X.part = .scatter) (hNear : Near n X (.slab n N rest)) :
    Computes n J (fun _ => sdRun .backward (N :: rest) s edge dt false) ⟨X, dx⟩ ⟨.flat n N rest, dt⟩ (alongRows (sdAt .backward edge N) (s ^ 2) N rest.prod) := by
  intro d hd
  have hm : Method n N rest J ⟨N :: rest, s, edge, dt⟩ (sdMv .backward) (sdAt .backward edge N) (s ^ 2) dx := fun F hF =>
    ⟨(conj_sdAt .backward).fit hdt hF (star_sq hs), runs_sdMvBackward' (psum_balanced_total N hn) hN (fun r hr => balanced_ge' (by omega) hr) hdt hF hs⟩
  obtain ⟨h1, h2⟩ := deriv_scatter (J := J) hn (o := ⟨N :: rest, s, edge, dt⟩) rfl hm (conform_slab hn hX hg hp) hNear d hd
  exact ⟨h1, h2.congr_prog fun r _ => (sdRun_eq (b := false) (k := .backward) (x := VSpace.vec ⟨X, dx⟩ n d r) hg).symm⟩

/-! ### Non-vacuity -/

theorem near_one_dim : Near n (.lin N (balanced N n)) (.slab n N []) := by
  have e : Layout.flat n N [] = .lin N (balanced N n) := by simp [Layout.lin]
  rw [← e]
  exact near_flat

/-- The right result although the last of three ranks has no row: backward difference of (1, 5). -/
example : Always 3 (fun r => fdRun .backward [2] 1 false .real false (env 3 (fun _ _ => 0) r) (VSpace.vec ⟨.lin 2 (balanced 2 3), .real⟩ 3 [(1 : ℚ), 5] r))
    (fun r => .ok (VSpace.vec ⟨.lin 2 (balanced 2 3), .real⟩ 3 [0, 4] r)) := by
  have h := (C65_fd_backward (J := fun _ _ => 0) (n := 3) (N := 2) (rest := []) (edge := false) (dt := .real) (dx := .real) (s := (1 : ℚ)) (X := .lin 2 (balanced 2 3))
    (by decide) (by decide) (by decide) id (by norm_num) rfl ⟨by simp [Layout.lin], fun _ => by decide, by simp [Layout.lin]⟩ rfl rfl near_one_dim
    [1, 5] ⟨by simp [Layout.lin], fits_rat _ _⟩).2
  refine h.congr fun r hr => ?_
  match r, hr with
  | 0, _ => decide +kernel
  | 1, _ => decide +kernel
  | 2, _ => decide +kernel

/-- A wrong result: three rows on two ranks; `rmatvec` of the second forward difference at (0, 1, 0) is (0, 1, 0) instead of zero. -/
example : Always 2 (fun r => sdRun .forward [3] 1 false .real true (env 2 (fun _ _ => 0) r) (VSpace.vec ⟨.lin 3 (balanced 3 2), .real⟩ 2 [(0 : ℚ), 1, 0] r))
    (fun r => .ok (VSpace.vec ⟨.lin 3 (balanced 3 2), .real⟩ 2 [0, 1, 0] r)) := by
  have h := (C65_sd_forward_violated (J := fun _ _ => 0) (n := 2) (N := 3) (rest := []) (edge := false) (dt := .real) (dx := .real) (s := (1 : ℚ)) (X := .lin 3 (balanced 3 2))
    (by decide) (by decide) id (by norm_num) rfl ⟨by simp [Layout.lin], fun _ => by decide, by simp [Layout.lin]⟩ rfl rfl near_one_dim
    (d := [0, 1, 0]) ⟨by simp [Layout.lin], fits_rat _ _⟩).1
  refine h.congr fun r hr => ?_
  match r, hr with
  | 0, _ => decide +kernel
  | 1, _ => decide +kernel

/-- Neither: two rows on three ranks; in the forward direction some rank raises, so the second alternative of `C65_fd` holds. -/
example (d : List ℚ) (hd : d.length = 2) : ∃ m < 3, ∃ e, RankEnds 3 (fun r => fdRun .forward [2] 1 false .real false (env 3 (fun _ _ => 0) r)
    (VSpace.vec ⟨.lin 2 (balanced 2 3), .real⟩ 3 d r)) m (.error e) := by
  obtain ⟨m, hm, h⟩ := C29_raises_rows (J := fun _ _ => 0) (n := 3) (N := 2) (rest := []) (edge := false) (dt := .real) (dx := .real) (s := (1 : ℚ)) (X := .lin 2 (balanced 2 3))
    .forward (by decide) (by show 2 < 3; decide) ⟨by simp [Layout.lin], fun _ => by decide, by simp [Layout.lin]⟩ rfl rfl near_one_dim
    (d := d) ⟨by simp [Layout.lin, hd], fits_rat _ _⟩
  exact ⟨m, hm, _, h⟩

end Verif

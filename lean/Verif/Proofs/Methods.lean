/- The derivative methods with the rows split by `local_split`. -/
import Verif.Proofs.StencilAdjoint

namespace Verif
open NDArray Relation
set_option linter.unusedSectionVars false

variable {K : Type} [Field K] [StarRing K] [CharZero K]
variable {n N : Nat} {J : Nat → Nat → K} {rest : List Nat} {dt dx : DType} {s : K} {edge : Bool}

theorem balanced_ge {c : Nat} (hn : 0 < n) (h : c * n ≤ N) (r : Nat) : c ≤ balanced N n r := by
  have : c ≤ N / n := (Nat.le_div_iff_mul_le hn).2 h
  unfold balanced
  split_ifs <;> omega

theorem Conj.fit {D : (Nat → K) → Nat → K} (hD : Conj D) {F : Nat → Nat → K} (hdt : dt = .real → dx = .real) (hF : Fit dx F) (hs : star s = s) :
    Fit dt (fun p j => D (fun q => F q j) p / s) := by
  intro h i j
  rw [star_div₀, hD, hs]
  simp only [hF (hdt h)]

theorem conj_fdAdj (k : FDKind) : Conj (fdAdj (K := K) k edge N) := by
  intro u i
  cases k <;> simp only [fdAdj, star_add, star_sub, star_mul', apply_ite star, star_zero] <;> simp

theorem conj_sdAdj (k : SDKind) : Conj (sdAdj (K := K) k edge N) := by
  intro u i
  cases k <;> simp only [sdAdj, star_add, star_sub, star_mul', apply_ite star, star_zero] <;> simp

theorem edgeRoom {c : Nat} (hn : 0 < n) (h : edge = true → c * n ≤ N) : EdgeRoom n (balanced N n) edge c := fun he r _ _ => balanced_ge hn (h he) r

theorem method_fd (k : FDKind) (hn : 0 < n) (hroom : fdRoom k edge n N) (hdt : dt = .real → dx = .real) (hs : star s = s) :
    Method n N rest J ⟨N :: rest, s, edge, dt⟩ (fdMv k) (fdAt k edge N) s dx := by
  intro F hF
  refine ⟨(conj_fdAt k).fit hdt hF hs, ?_⟩
  have ht := psum_balanced_total N hn
  cases k with
  | forward =>
    have h : n ≤ N := hroom
    exact runs_fdMvForward ht (by omega) (.inr fun r _ => balanced_ge hn (by omega) r) hdt hF hs
  | backward =>
    have h : n ≤ N := hroom
    exact runs_fdMvBackward ht (by omega) (.inr fun r _ => balanced_ge hn (by omega) r) hdt hF hs
  | centered3 =>
    have h : (if edge then 2 * n else n) ≤ N := hroom
    exact runs_fdMvCentered3 ht (by split_ifs at h <;> omega) (.inr fun r _ => balanced_ge hn (by split_ifs at h <;> omega) r)
      (edgeRoom hn fun he => by rwa [if_pos he] at h) hdt hF hs
  | centered5 =>
    have h : (if edge then 3 * n else 2 * n) ≤ N := hroom
    exact runs_fdMvCentered5 ht (by split_ifs at h <;> omega) (.inr fun r _ => balanced_ge hn (by split_ifs at h <;> omega) r)
      (edgeRoom hn fun he => by rwa [if_pos he] at h) hdt hF hs

theorem method_fdAdj (k : FDKind) (hn : 0 < n) (hroom : fdRoomAdj k edge n N) (hdt : dt = .real → dx = .real) (hs : star s = s) :
    Method n N rest J ⟨N :: rest, s, edge, dt⟩ (fdRmv k) (fdAdj k edge N) s dx := by
  intro F hF
  refine ⟨(conj_fdAdj k).fit hdt hF hs, ?_⟩
  have ht := psum_balanced_total N hn
  cases k with
  | forward =>
    have h : n ≤ N := hroom
    exact runs_fdRmvForward ht (by omega) (.inr fun r _ => balanced_ge hn (by omega) r) hdt hF hs
  | backward =>
    have h : n ≤ N := hroom
    exact runs_fdRmvBackward ht (by omega) (.inr fun r _ => balanced_ge hn (by omega) r) hdt hF hs
  | centered3 =>
    have h : 2 * n ≤ N ∨ n = 1 ∧ edge = false ∧ 1 ≤ N := hroom
    exact runs_fdRmvCentered3 ht (by omega) (h.symm.imp (·.1) fun h r _ => balanced_ge hn h r)
      (edgeRoom hn fun he => by simpa [he] using h) hdt hF hs
  | centered5 =>
    have h : 4 * n ≤ N ∨ n = 1 ∧ edge = false ∧ 3 ≤ N := hroom
    exact runs_fdRmvCentered5 ht (by omega) (h.symm.imp (·.1) fun h r _ => balanced_ge hn h r)
      (edgeRoom hn fun he => by simp [he] at h; omega) hdt hF hs

theorem method_sd (k : SDKind) (hn : 0 < n) (hroom : sdRoom k edge n N) (hdt : dt = .real → dx = .real) (hs : star s = s) :
    Method n N rest J ⟨N :: rest, s, edge, dt⟩ (sdMv k) (sdAt k edge N) (s ^ 2) dx := by
  intro F hF
  refine ⟨(conj_sdAt k).fit hdt hF (star_sq hs), ?_⟩
  have ht := psum_balanced_total N hn
  cases k with
  | forward =>
    have h : 2 * n ≤ N ∨ n = 1 ∧ 1 ≤ N := hroom
    exact runs_sdMvForward ht (by omega) (h.symm.imp (·.1) fun h r _ => balanced_ge hn h r) hdt hF hs
  | backward =>
    have h : 2 * n ≤ N ∨ n = 1 ∧ 1 ≤ N := hroom
    exact runs_sdMvBackward ht (by omega) (h.symm.imp (·.1) fun h r _ => balanced_ge hn h r) hdt hF hs
  | centered =>
    have h : (if edge then 3 * n else n) ≤ N := hroom
    exact runs_sdMvCentered ht (by split_ifs at h <;> omega) (.inr fun r _ => balanced_ge hn (by split_ifs at h <;> omega) r)
      (edgeRoom hn fun he => by rwa [if_pos he] at h) hdt hF hs

theorem method_sdAdj (k : SDKind) (hn : 0 < n) (hroom : sdRoomAdj k edge n N) (hdt : dt = .real → dx = .real) (hs : star s = s) :
    Method n N rest J ⟨N :: rest, s, edge, dt⟩ (sdRmv k) (sdAdj k edge N) (s ^ 2) dx := by
  intro F hF
  refine ⟨(conj_sdAdj k).fit hdt hF (star_sq hs), ?_⟩
  have ht := psum_balanced_total N hn
  cases k with
  | forward =>
    have h : 2 * n ≤ N ∨ n = 1 ∧ 1 ≤ N := hroom
    exact runs_sdRmvForward ht (by omega) (h.symm.imp (·.1) fun h r _ => balanced_ge hn h r) hdt hF hs
  | backward =>
    have h : 2 * n ≤ N ∨ n = 1 ∧ 1 ≤ N := hroom
    exact runs_sdRmvBackward ht (by omega) (h.symm.imp (·.1) fun h r _ => balanced_ge hn h r) hdt hF hs
  | centered =>
    have h : if edge then 3 * n ≤ N else 2 * n ≤ N ∨ n = 1 ∧ 1 ≤ N := hroom
    have h' : 2 * n ≤ N ∨ n = 1 ∧ 1 ≤ N := by
      split_ifs at h
      · exact .inl (by omega)
      · exact h
    exact runs_sdRmvCentered ht (by omega) (h'.symm.imp (·.1) fun h r _ => balanced_ge hn h r)
      (edgeRoom hn fun he => by rwa [if_pos he] at h) hdt hF hs

/-! ### too few rows -/

theorem rankEnds_bind_ok {α β : Type} {ps : Nat → P K α} {a : Nat → α} {k : Nat → α → P K β} {m : Nat} {o : Except Err β} (hm : m < n)
    (h : Runs n ps (fun r => .ok (a r))) (h2 : RankEnds n (fun r => k r (a r)) m o) : RankEnds n (fun r => (ps r).bind (k r)) m o := by
  obtain ⟨qs, h3, h4⟩ := h.bind_steps k
  exact RankEnds.before h3 (h2.congr_prog (fun r hr => (h4 r hr).symm) hm)

variable {sizes : Nat → Nat} {F : Nat → Nat → K}

theorem ghost_rows_raises (hs : psum sizes n = N) {front back : Option Nat} (hroom : ¬ Room n sizes front back) :
    ∃ m < n, RankEnds n (fun r => (rfam n N rest sizes dt (glob sizes F) r).addGhostCells (env n J r) front back) m (.error .value) := by
  have ha : ∀ r < n, (tab (sizes r) rest.prod (glob sizes F r)).length = ((Layout.rows N rest sizes).lshape r).prod := fun r _ => length_rfam _ r
  by_cases hf : ∀ r, r + 1 < n → front.getD 0 ≤ sizes r
  · have hb : ∃ r, r + 1 < n ∧ sizes (r + 1) < back.getD 0 := by
      by_contra hcon
      push Not at hcon
      exact hroom fun r hr => ⟨hf r hr, hcon r hr⟩
    obtain ⟨r, hr, hlt⟩ := hb
    cases back with
    | none => simp at hlt
    | some k =>
      refine ⟨r + 1, hr, ?_⟩
      refine (ghost_raises_back (J := J) (dt := dt) (front := front.map fun k _ => k) (b := fun _ => k) (rows_wf hs) rfl ha hr (fun f hf' r hr h => ?_) fun h => ?_).congr_prog
        (fun q _ => ?_) hr
      · cases front with
        | none => simp at hf'
        | some k => simp at hf'; subst hf'; exact hf r h
      · have := h (by omega)
        simp at hlt
        exact absurd hlt (not_lt.2 this)
      · cases front <;> rfl
  · push Not at hf
    classical
    have hspec := Nat.find_spec hf
    have hmin := fun m => Nat.find_min hf (m := m)
    set m := Nat.find hf
    cases front with
    | none => simp at hspec
    | some k =>
      refine ⟨m, by omega, ?_⟩
      refine (ghost_raises_front (J := J) (dt := dt) (f := fun _ => k) (rows_wf hs) rfl ha (back.map fun k _ => k) (m := m) (by omega) (fun r hr h => ?_) fun h => ?_).congr_prog
        (fun q _ => ?_) (by omega)
      · have := hmin r hr
        by_contra hcon
        exact this ⟨h, lt_of_not_ge hcon⟩
      · have := h (by omega)
        have h2 := hspec.2
        simp at h2
        exact absurd h2 (not_lt.2 this)
      · cases back <;> rfl

/-- a method that starts with a stencil for which some rank has too few rows -/
theorem method_raises (hs : psum sizes n = N) {front back : Option Nat} (hroom : ¬ Room n sizes front back) (φ : NDArray K → Except Err (NDArray K))
    (kf kb : DArr K → Option Int) (g : Nat → DArr K → NDArray K → P K (DArr K)) :
    ∃ m < n, RankEnds n (fun r => (newLike (env n J r) dt (rfam n N rest sizes dx (glob sizes F) r)).bind fun y =>
      (stencil (env n J r) (N :: rest) (rfam n N rest sizes dx (glob sizes F) r) front back φ (kf y) (kb y)).bind (g r y)) m (.error .value) := by
  obtain ⟨m, hm, h⟩ := ghost_rows_raises (J := J) (rest := rest) (dt := dx) (F := F) hs hroom
  refine ⟨m, hm, rankEnds_bind_ok hm (runs_newLike hs) ?_⟩
  refine RankEnds.bind_error (ps := fun r => stencil (env n J r) (N :: rest) (rfam n N rest sizes dx (glob sizes F) r) front back φ
    (kf ((Layout.rows N rest sizes).fam n dt (junkData J (Layout.rows N rest sizes) dt) r))
    (kb ((Layout.rows N rest sizes).fam n dt (junkData J (Layout.rows N rest sizes) dt) r))) ?_ _
  unfold stencil
  simp only [Prog.bind_eq]
  exact h.bind_error _

theorem balanced_last {c : Nat} (hn : 0 < n) (h : N < c * n) : balanced N n (n - 1) < c := by
  have : N / n < c := (Nat.div_lt_iff_lt_mul hn).2 h
  have h2 : N % n < n := Nat.mod_lt _ hn
  unfold balanced
  split_ifs with h3 <;> omega

/-- too few rows of the last rank -/
theorem no_room {front : Option Nat} {c : Nat} (hn : 2 ≤ n) (h : N < c * n) : ¬ Room n (balanced N n) front (some c) := by
  intro hr
  have h1 := (hr (n - 2) (by omega)).2
  have h2 := balanced_last (by omega) h
  rw [show n - 2 + 1 = n - 1 by omega] at h1
  simp at h1
  omega

/-- too few rows of the last rank but one -/
theorem no_room' {back : Option Nat} {c : Nat} (hn : 2 ≤ n) (h : N + 1 < c * n) : ¬ Room n (balanced N n) (some c) back := by
  intro hr
  have h1 := (hr (n - 2) (by omega)).1
  have h2 := balanced_last (n := n) (N := N) (c := c) (by omega) (by omega)
  simp only [Option.getD_some] at h1
  have h3 : N % n < n := Nat.mod_lt _ (by omega)
  have h4 := Nat.div_add_mod N n
  unfold balanced at h1 h2
  split_ifs at h1 h2 with h5 h6
  · omega
  · have : N % n = n - 1 := by omega
    have h7 : n * (N / n + 1) ≤ N + 1 := by rw [Nat.mul_add]; omega
    have h8 : n * c ≤ n * (N / n + 1) := Nat.mul_le_mul_left _ h1
    have := Nat.mul_comm n c
    omega
  · omega
  · omega

variable {X : Layout}

/-- the scattered input cannot be redistributed -/
theorem deriv_raises {o : Deriv K} (ho : o.dims = N :: rest) (f : Ctx K → Deriv K → DArr K → P K (DArr K))
    (hc : Conform n X (.slab n N rest)) (hX : ¬ Near n X (.slab n N rest)) {d : List K} (hd : VSpace.Mem ⟨X, dx⟩ d) :
    ∃ m < n, RankEnds n (fun r => derivApply (env n J r) o f (VSpace.vec ⟨X, dx⟩ n d r)) m (.error .value) := by
  obtain ⟨m, hm, h⟩ := C21_raises (J := J) hc hX (.inr ⟨rfl, rfl⟩) hd
  refine ⟨m, hm, ?_⟩
  have hp : ∀ r, ¬ (VSpace.vec ⟨X, dx⟩ n d r : DArr K).part = .broadcast := fun r => by
    show ¬ X.part = .broadcast
    rw [hc.scX]; decide
  unfold derivApply reshaped
  simp only [Prog.bind_eq, if_neg (hp _), Prog.ret_bind, ho]
  exact h.bind_error _

/-- the input held by all ranks is first scattered evenly, and may then not be redistributed -/
theorem deriv_raises_bcast (hn : 0 < n) {o : Deriv K} (ho : o.dims = N :: rest) (f : Ctx K → Deriv K → DArr K → P K (DArr K))
    (hX : ¬ Near n (.lin (N * rest.prod) (balanced (N * rest.prod) n)) (.slab n N rest)) {d : List K} (hd : VSpace.Mem ⟨.all (N * rest.prod), dx⟩ d) :
    ∃ m < n, RankEnds n (fun r => derivApply (env n J r) o f (VSpace.vec ⟨.all (N * rest.prod), dx⟩ n d r)) m (.error .value) := by
  have hlen : d.length = N * rest.prod := by rw [hd.1]; simp [Layout.all]
  have hw : (Layout.lin (N * rest.prod) (balanced (N * rest.prod) n)).WF n :=
    ⟨by simp [Layout.lin], fun _ => by simpa [Layout.lin, len] using psum_balanced_total _ hn, by simp [Layout.lin]⟩
  have hc : Conform n (.lin (N * rest.prod) (balanced (N * rest.prod) n)) (.slab n N rest) :=
    ⟨hw, rows_wf (psum_balanced_total N hn), by simp [Layout.lin, Layout.rows], rfl, rfl, rfl, rfl, rfl⟩
  obtain ⟨m, hm, h⟩ := C21_raises (J := J) hc hX (.inr ⟨rfl, rfl⟩) (d := d) (dt := dx) ⟨by simpa [Layout.lin] using hlen, hd.2⟩
  refine ⟨m, hm, ?_⟩
  have hp : ∀ r, (VSpace.vec ⟨.all (N * rest.prod), dx⟩ n d r : DArr K).part = .broadcast := fun r => rfl
  unfold derivApply reshaped
  simp only [Prog.bind_eq, if_pos (hp _), ho]
  have h1 := runs_toDist_none (J := J) (L := .lin (N * rest.prod) (balanced (N * rest.prod) n)) (x := ⟨[N * rest.prod], dx, d⟩) hw
    (fun _ => by simp [Layout.lin, len]) rfl (by simpa [NDArray.WF] using hlen) hd.2
  exact rankEnds_bind_ok hm h1 (h.bind_error _)

/-- the redistributed rows are too few -/
theorem deriv_raises_rows (hn : 0 < n) {o : Deriv K} (ho : o.dims = N :: rest) {f : Ctx K → Deriv K → DArr K → P K (DArr K)}
    (hc : Conform n X (.slab n N rest)) (hX : Near n X (.slab n N rest))
    (hf : ∀ F : Nat → Nat → K, ∃ m < n, RankEnds n (fun r => f (env n J r) o (rfam n N rest (balanced N n) dx (glob (balanced N n) F) r)) m (.error .value))
    {d : List K} (hd : VSpace.Mem ⟨X, dx⟩ d) :
    ∃ m < n, RankEnds n (fun r => derivApply (env n J r) o f (VSpace.vec ⟨X, dx⟩ n d r)) m (.error .value) := by
  have hs := psum_balanced_total N hn
  have hlen : d.length = N * rest.prod := by rw [hd.1]; show X.gshape.prod = _; rw [hc.X1]; simp [Layout.rows]
  obtain ⟨m, hm, h⟩ := hf (entry rest.prod d)
  refine ⟨m, hm, ?_⟩
  have hp : ∀ r, ¬ (VSpace.vec ⟨X, dx⟩ n d r : DArr K).part = .broadcast := fun r => by
    show ¬ X.part = .broadcast
    rw [hc.scX]; decide
  unfold derivApply reshaped
  simp only [Prog.bind_eq, if_neg (hp _), Prog.ret_bind, ho]
  refine rankEnds_bind_ok hm (runs_redistribute hc (LShapesOf.makes (.inr ⟨rfl, rfl⟩) hc) hX hd) ?_
  refine RankEnds.bind_error (RankEnds.congr_prog h (fun r hr => ?_) hm) _
  rw [vec_rows' hs hr hlen]

theorem conform_slab (hn : 0 < n) {L : Layout} (hw : L.WF n) (h1 : L.gshape = [N * rest.prod]) (h2 : L.part = .scatter) : Conform n L (.slab n N rest) := by
  refine ⟨hw, rows_wf (psum_balanced_total N hn), by simp [h1, Layout.rows], h2, ?_, rfl, rfl, rfl⟩
  have := hw.axis_lt
  rw [h1] at this
  simpa using this

theorem psum_mul (a : Nat → Nat) (w m : Nat) : psum (fun r => a r * w) m = psum a m * w := by
  induction m with
  | zero => simp [psum]
  | succ m ih => rw [psum, psum, ih, Nat.add_mul]

/-- a vector that is split where the rows are split needs no redistribution -/
theorem near_flat : Near n (.flat n N rest) (.slab n N rest) := by
  intro r _
  have h : ∀ m, psum (Layout.flat n N rest).cnt m = psum (Layout.slab n N rest).cnt m := by
    intro m
    induction m with
    | zero => rfl
    | succ m ih => rw [psum, psum, ih]; simp [Layout.cnt, Layout.lin, Layout.rows, Layout.lshape, Partition.isBroadcast]
  rw [h, h]
  exact ⟨psum_mono _ (by omega), psum_mono _ (by omega)⟩

end Verif

/- C33: MPILaplacian is the weighted sum of second derivatives. -/
import Verif.Proofs.Laplacian

namespace Verif
open NDArray
set_option linter.unusedSectionVars false

variable {K : Type} [Field K] [StarRing K] [CharZero K]

/-- build the operator and apply its `matvec` (`b = false`) or `rmatvec` (`b = true`) -/
def lapRun (sd : Serial K SDKind) (dims axes : List Nat) (weights : List (Scal K)) (sampling : List K) (edge : Bool) (kind : SDKind) (dt : DType)
    (b : Bool) (c : Ctx K) (x : DArr K) : P K (DArr K) := do
  let p ← mkLaplacian c sd dims axes weights sampling edge kind dt
  MOp.run c b (.leaf p) x

variable {sd : Serial K SDKind} {n N : Nat} {rest : List Nat} {edge : Bool} {dt dx : DType} {X Y : Layout} {J : Nat → Nat → K} {kind : SDKind}

/-- What is needed of an entry (axis, sampling step, weight) when it is given the kind `k`: for axis 0, enough rows on the ranks; for another axis, that the serial operators
    made by `sd` on the local shapes compute the second difference of that kind along that axis; a step that is real and not zero; a weight that fits the dtype. -/
def LapOk (sd : Serial K SDKind) (n N : Nat) (rest : List Nat) (edge : Bool) (dt : DType) (k : SDKind) (p : Nat × K × Scal K) : Prop :=
  LTerm.Good sd n N rest edge dt ⟨p.1, p.2.1, k⟩ ∧ (dt = .real → p.2.2.dtype = .real ∧ star p.2.2.val = p.2.2.val)

theorem lapRun_computes (hn : 0 < n) {p0 : Nat × K × Scal K} {l : List (Nat × K × Scal K)} (h0 : LapOk sd n N rest edge dt kind p0)
    (hl : ∀ p ∈ l, LapOk sd n N rest edge dt .centered p) (hdt : dt = .real → dx = .real)
    (hX : X.WF n) (hg : X.gshape = [N * rest.prod]) (hp : X.part = .scatter) (hN : Near n X (.slab n N rest)) (b : Bool) :
    Computes n J (fun _ => lapRun sd (N :: rest) ((p0 :: l).map (·.1)) ((p0 :: l).map (·.2.2)) ((p0 :: l).map (·.2.1)) edge kind dt b) ⟨X, dx⟩ ⟨.flat n N rest, dt⟩
      (den (lapLeaves sd n N rest edge dt) b (lapExpr (.scaled (.leaf ⟨p0.1, p0.2.1, kind⟩) p0.2.2) (l.map fun p => (⟨p.1, p.2.1, .centered⟩, p.2.2)))) := by
  set e : MOp K (LTerm K) := lapExpr (.scaled (.leaf ⟨p0.1, p0.2.1, kind⟩) p0.2.2) (l.map fun p => (⟨p.1, p.2.1, .centered⟩, p.2.2)) with he
  have hax : ∀ {k p}, LapOk sd n N rest edge dt k p → p.1 < rest.length + 1 := by
    intro k p h
    cases e : p.1 with
    | zero => omega
    | succ a => have := (h.1.serial a e).1; omega
  have hsh : e.shape (lapLeaves sd n N rest edge dt).sh = (N * rest.prod, N * rest.prod) := lapExpr_shape rfl _
  have hshd : Shaped (lapLeaves sd n N rest edge dt).sh e :=
    lapExpr_shaped (e := .scaled (.leaf ⟨p0.1, p0.2.1, kind⟩) p0.2.2) trivial rfl _
  have ht : ∀ b, Typed (lapLeaves sd n N rest edge dt) n J (lapPrim sd n N rest edge dt) b e ⟨X, dx⟩ ⟨.flat n N rest, dt⟩ := fun b => by
    refine lapExpr_typed hn hdt hX hg hp hN (fun q hq => ?_) ⟨lap_typed hn hdt hX hg hp hN h0.1 b, h0.2⟩
    obtain ⟨p, hp, rfl⟩ := List.mem_map.1 hq
    exact hl p hp
  obtain ⟨e', hH, -, hH3⟩ := H_shaped _ hshd
  have hc : Computes n J (fun r c x => MOp.run c false ((if b then e' else e).map (lapPrim sd n N rest edge dt · r)) x) ⟨X, dx⟩ ⟨.flat n N rest, dt⟩
      (den (lapLeaves sd n N rest edge dt) b e) := by
    cases b with
    | false => exact typed_computes (ht false)
    | true =>
      have := typed_computes (typed_H hH (b := false) (ht true))
      have ed : den (lapLeaves sd n N rest edge dt) false e' = den (lapLeaves sd n N rest edge dt) true e := funext fun x => den_H hH false x
      rw [ed] at this
      exact this
  refine Computes.intro fun d hd => ⟨hc.mem hd, ?_⟩
  unfold lapRun mkLaplacian
  have c1 : ((p0 :: l).map (·.1)).any ((N :: rest).length ≤ ·) = false := by
    rw [List.any_eq_false]
    intro a ha
    obtain ⟨p, hp, rfl⟩ := List.mem_map.1 ha
    have : p.1 < rest.length + 1 := by
      rcases List.mem_cons.1 hp with rfl | hp
      · exact hax h0
      · exact hax (hl p hp)
    simpa using by omega
  have c2 : ((p0 :: l).map (·.1)).zip (((p0 :: l).map (·.2.1)).zip ((p0 :: l).map (·.2.2))) = p0 :: l := by
    generalize p0 :: l = q
    induction q with
    | nil => rfl
    | cons a q ih => simp [ih]
  simp only [c1, c2, Bool.false_eq_true, if_false, List.length_map, and_self, not_true_eq_false, Prog.bind_eq]
  have hs : ∀ r, (e.map (lapPrim sd n N rest edge dt · r)).shape Prim.shape = (N * rest.prod, N * rest.prod) := fun r => by
    rw [shape_map (lv := lapLeaves sd n N rest edge dt) (prim := lapPrim sd n N rest edge dt) e fun t => lapPrim_shape hn t r, hsh]
  refine Runs.bind_ok (a := fun r => (⟨N * rest.prod, N * rest.prod, dt, fun c x => MOp.run c false (e.map (lapPrim sd n N rest edge dt · r)) x,
      fun c x => MOp.run c false (e'.map (lapPrim sd n N rest edge dt · r)) x⟩ : Prim K)) ?_ ?_
  · refine Runs.bind_ok (runs_lapTerm h0.1) ?_
    refine Runs.bind_ok (a := fun r => e.map (lapPrim sd n N rest edge dt · r))
      (runs_lapLoop hn (fun p hp => (hl p hp).1) (e := .scaled (.leaf ⟨p0.1, p0.2.1, kind⟩) p0.2.2) rfl) ?_
    refine (Runs.ret _).congr (fun r _ => ?_) fun _ _ => rfl
    rw [hs r, H_map (sh := (lapLeaves sd n N rest edge dt).sh) (fun t => lapPrim_shape hn t r) hH]
    rfl
  · have := runs_checkDim (n := n) (b := b) (S := ⟨X, dx⟩) (d := d) (sh := (N * rest.prod, N * rest.prod)) (fun _ _ => rfl) (by cases b <;> exact hg) (hc.runs hd)
    refine this.congr (fun r _ => ?_) fun _ _ => rfl
    simp only [MOp.run, Prim.shape]
    cases b <;> rfl

/-- **C33** (partial: the kind that is asked for is used for the first of the axes only; the others get the centered difference.  Enough rows on all ranks, a scattered input with
    boundaries near those of the rows.)  The operator is the weighted sum, whatever the number of ranks. -/
theorem C33_kinds_partial (hn : 0 < n) {p0 : Nat × K × Scal K} {l : List (Nat × K × Scal K)} (h0 : LapOk sd n N rest edge dt kind p0)
    (hl : ∀ p ∈ l, LapOk sd n N rest edge dt .centered p) (hdt : dt = .real → dx = .real)
    (hX : X.WF n) (hg : X.gshape = [N * rest.prod]) (hp : X.part = .scatter) (hN : Near n X (.slab n N rest)) :
    Computes n J (fun _ => lapRun sd (N :: rest) ((p0 :: l).map (·.1)) ((p0 :: l).map (·.2.2)) ((p0 :: l).map (·.2.1)) edge kind dt false) ⟨X, dx⟩ ⟨.flat n N rest, dt⟩
      (laplacian edge (N :: rest) ((p0.1, p0.2.1, kind, p0.2.2.val) :: l.map fun p => (p.1, p.2.1, .centered, p.2.2.val))) := by
  intro d hd
  have h := lapRun_computes (J := J) hn h0 hl hdt hX hg hp hN false d hd
  have hd' : d.length = N * rest.prod := by rw [hd.1]; simp [hg]
  have e1 : den (lapLeaves sd n N rest edge dt) false (.scaled (.leaf ⟨p0.1, p0.2.1, kind⟩) p0.2.2) d
      = vscale p0.2.2.val (alongAxis (sdAt kind edge) (p0.2.1 ^ 2) p0.1 (N :: rest) d) := by
    simp only [den]
    congr 1
    simp [lapLeaves, if_pos h0.1, LTerm.fwd]
  have e2 := length_den (lv := lapLeaves sd n N rest edge dt) (lap_sized hn) (e := .scaled (.leaf ⟨p0.1, p0.2.1, kind⟩) p0.2.2) trivial (b := false) (x := d) hd'
  rw [lapExpr_den hn hd' e2 (fun q hq => by obtain ⟨p, hp, rfl⟩ := List.mem_map.1 hq; exact (hl p hp).1), e1] at h
  unfold laplacian
  rw [List.map_cons, vsum_cons, List.map_map]
  rw [List.map_map, show N * rest.prod = (N :: rest).prod from (List.prod_cons).symm] at h
  exact h

/-- **C33** (partial: only one axis, or the centered kind).  The operator is the weighted sum of the second differences of the kind that is asked for. -/
theorem C33_partial (hn : 0 < n) {l : List (Nat × K × Scal K)} (h0 : l ≠ []) (hk : kind = .centered ∨ l.length = 1) (hl : ∀ p ∈ l, LapOk sd n N rest edge dt kind p)
    (hdt : dt = .real → dx = .real) (hX : X.WF n) (hg : X.gshape = [N * rest.prod]) (hp : X.part = .scatter) (hN : Near n X (.slab n N rest)) :
    Computes n J (fun _ => lapRun sd (N :: rest) (l.map (·.1)) (l.map (·.2.2)) (l.map (·.2.1)) edge kind dt false) ⟨X, dx⟩ ⟨.flat n N rest, dt⟩
      (laplacian edge (N :: rest) (l.map fun p => (p.1, p.2.1, kind, p.2.2.val))) := by
  cases l with
  | nil => exact absurd rfl h0
  | cons p0 l =>
    rcases hk with rfl | h1
    · exact C33_kinds_partial hn (hl _ (by simp)) (fun p hp => hl p (by simp [hp])) hdt hX hg hp hN
    · obtain rfl : l = [] := by simpa using h1
      exact C33_kinds_partial hn (hl _ (by simp)) (by simp) hdt hX hg hp hN

/-- **C33** (adjoint, partial as above).  `rmatvec` computes the adjoint of that sum. -/
theorem C33_adjoint_partial (hn : 0 < n) {p0 : Nat × K × Scal K} {l : List (Nat × K × Scal K)} (h0 : LapOk sd n N rest edge dt kind p0)
    (hl : ∀ p ∈ l, LapOk sd n N rest edge dt .centered p) (hdt : dt = .real → dx = .real)
    (hX : X.WF n) (hg : X.gshape = [N * rest.prod]) (hp : X.part = .scatter) (hN : Near n X (.slab n N rest)) :
    ∃ g : List K → List K,
      Computes n J (fun _ => lapRun sd (N :: rest) ((p0 :: l).map (·.1)) ((p0 :: l).map (·.2.2)) ((p0 :: l).map (·.2.1)) edge kind dt true) ⟨X, dx⟩ ⟨.flat n N rest, dt⟩ g ∧
      ∀ u v : List K, u.length = N * rest.prod → v.length = N * rest.prod →
        ip (laplacian edge (N :: rest) ((p0.1, p0.2.1, kind, p0.2.2.val) :: l.map fun p => (p.1, p.2.1, .centered, p.2.2.val)) u) v = ip u (g v) := by
  refine ⟨_, lapRun_computes hn h0 hl hdt hX hg hp hN true, fun u v hu hv => ?_⟩
  rw [← C28_adjoint (lv := lapLeaves sd n N rest edge dt) (lap_sized hn) (lap_adjoint hn) (lapExpr_shaped (e := .scaled (.leaf ⟨p0.1, p0.2.1, kind⟩) p0.2.2) trivial rfl _)
    (by rw [lapExpr_shape rfl]; exact hu) (by rw [lapExpr_shape rfl]; exact hv)]
  congr 1
  have e1 : den (lapLeaves sd n N rest edge dt) false (.scaled (.leaf ⟨p0.1, p0.2.1, kind⟩) p0.2.2) u
      = vscale p0.2.2.val (alongAxis (sdAt kind edge) (p0.2.1 ^ 2) p0.1 (N :: rest) u) := by
    simp only [den]
    congr 1
    simp [lapLeaves, if_pos h0.1, LTerm.fwd]
  have e2 := length_den (lv := lapLeaves sd n N rest edge dt) (lap_sized hn) (e := .scaled (.leaf ⟨p0.1, p0.2.1, kind⟩) p0.2.2) trivial (b := false) (x := u) hu
  rw [lapExpr_den hn hu e2 (fun q hq => by obtain ⟨p, hp, rfl⟩ := List.mem_map.1 hq; exact (hl p hp).1), e1]
  unfold laplacian
  rw [List.map_cons, vsum_cons, List.map_map, List.map_map, List.prod_cons]
  rfl

/-- Arguments that are rejected: an axis that does not exist, or lists of different lengths. -/
theorem C33_rejects {dims axes : List Nat} {weights : List (Scal K)} {sampling : List K} (h : (∃ a ∈ axes, dims.length ≤ a) ∨ ¬ (axes.length = weights.length ∧ weights.length = sampling.length))
    (c : Ctx K) : mkLaplacian c sd dims axes weights sampling edge kind dt = .throw .value := by
  unfold mkLaplacian
  by_cases h1 : axes.any (dims.length ≤ ·)
  · rw [if_pos h1]
  · rw [if_neg h1, if_pos]
    rcases h with ⟨a, ha, hd⟩ | h
    · exact absurd (List.any_eq_true.2 ⟨a, ha, by simpa using hd⟩) h1
    · exact h

/-! ### An example -/

/-- serial operators that compute the differences and their transposes -/
def refSD : Serial ℚ SDKind := fun dims ax s k edge dt => refOp (sdAt k edge) (sdAdj k edge) (s ^ 2) ax dims dt

theorem refSD_good {ax : Nat} {s : ℚ} {k : SDKind} (hs : s ≠ 0) (h0 : ax = 0 → sdRoom k edge n N ∧ sdRoomAdj k edge n N) (h1 : ax ≤ rest.length)
    (hr : ∀ N ∈ rest, sdRoomAdj k edge 1 N) : LTerm.Good refSD n N rest edge dt ⟨ax, s, k⟩ := by
  refine ⟨hs, rfl, h0, fun a ha => ⟨by change ax = a + 1 at ha; omega, fun r => ?_⟩⟩
  change ax = a + 1 at ha
  subst ha
  refine refOp_isDeriv (fun M hM => ?_) (fun M => conj_sdAt k) (fun M => conj_sdAdj k) rfl (by simpa using h1)
  have hM' : M ∈ rest := List.mem_of_getElem? (by simpa using hM)
  cases k with
  | forward => exact transpose_sdForward
  | backward => exact transpose_sdBackward
  | centered =>
    have h : if edge then 3 * 1 ≤ M else 2 * 1 ≤ M ∨ 1 = 1 ∧ 1 ≤ M := hr M hM'
    exact transpose_sdCentered fun he => by simp [he] at h; omega

/-- Non-vacuity: four rows of three entries on two ranks, both axes, centered. -/
example : Computes 2 (fun _ _ => (0 : ℚ)) (fun _ => lapRun refSD [4, 3] [0, 1] [⟨.real, 2⟩, ⟨.real, 3⟩] [1, 5] false .centered .real false)
    ⟨.flat 2 4 [3], .real⟩ ⟨.flat 2 4 [3], .real⟩ (laplacian false [4, 3] [(0, 1, .centered, 2), (1, 5, .centered, 3)]) :=
  C33_partial (n := 2) (N := 4) (rest := [3]) (l := [(0, 1, ⟨.real, 2⟩), (1, 5, ⟨.real, 3⟩)]) (by decide) (by simp) (.inl rfl)
    (by
      intro p hp
      simp only [List.mem_cons, List.not_mem_nil, or_false] at hp
      rcases hp with rfl | rfl
      · exact ⟨refSD_good (by norm_num) (fun _ => ⟨by show 1 * 2 ≤ 4; decide, by show 2 * 2 ≤ 4 ∨ 2 = 1 ∧ 1 ≤ 4; decide⟩) (by simp) (fun N hN => (show N = 3 by simpa using hN) ▸ .inl (by decide)), fun _ => ⟨rfl, rfl⟩⟩
      · exact ⟨refSD_good (by norm_num) (fun h => by cases h) (by simp) (fun N hN => (show N = 3 by simpa using hN) ▸ .inl (by decide)), fun _ => ⟨rfl, rfl⟩⟩)
    (fun _ => rfl) (flat_wf (by decide)) rfl rfl near_flat

/-! ### Where the claim is false -/

/-- **C33 fails for the forward kind on two axes**: in all executions the operator asked to use forward differences on both axes of a 4 × 3 array uses the centered
    difference on the second axis, which is not the same. -/
theorem C33_violated_kind :
    (Computes 2 (fun _ _ => (0 : ℚ)) (fun _ => lapRun refSD [4, 3] [0, 1] [⟨.real, 1⟩, ⟨.real, 1⟩] [1, 1] false .forward .real false)
      ⟨.flat 2 4 [3], .real⟩ ⟨.flat 2 4 [3], .real⟩ (laplacian false [4, 3] [(0, 1, .forward, 1), (1, 1, .centered, 1)])) ∧
    laplacian false [4, 3] [(0, 1, .forward, 1), (1, 1, .centered, 1)] ((List.range 12).map fun i => (i ^ 2 : ℚ))
      ≠ laplacian false [4, 3] [(0, 1, .forward, 1), (1, 1, .forward, 1)] ((List.range 12).map fun i => (i ^ 2 : ℚ)) := by
  refine ⟨?_, by decide +kernel⟩
  refine C33_kinds_partial (n := 2) (N := 4) (rest := [3]) (kind := .forward) (p0 := (0, 1, ⟨.real, 1⟩)) (l := [(1, 1, ⟨.real, 1⟩)]) (by decide) ?_ ?_
    (fun _ => rfl) (flat_wf (by decide)) rfl rfl near_flat
  · exact ⟨refSD_good (by norm_num) (fun _ => ⟨.inl (by decide), .inl (by decide)⟩) (by simp)
      (fun N hN => (show N = 3 by simpa using hN) ▸ (.inl (by decide) : 2 * 1 ≤ 3 ∨ 1 = 1 ∧ 1 ≤ 3)), fun _ => ⟨rfl, rfl⟩⟩
  · intro p hp
    obtain rfl : p = (1, 1, ⟨.real, 1⟩) := by simpa using hp
    exact ⟨refSD_good (by norm_num) (fun h => by cases h) (by simp) (fun N hN => (show N = 3 by simpa using hN) ▸ .inl (by decide)), fun _ => ⟨rfl, rfl⟩⟩

/-- **C33 fails for an input held by all ranks** when an axis other than the first is used: ValueError, although the second derivative itself takes such an input. -/
theorem C33_violated_bcast :
    Always 2 (fun r => do
        let y ← lapRun refSD [2, 2] [0, 1] [⟨.real, 1⟩, ⟨.real, 1⟩] [1, 1] false .centered .real false (env 2 (fun _ _ => 0) r) (VSpace.vec ⟨.all 4, .real⟩ 2 [(1 : ℚ), 2, 3, 4] r)
        .ret y.larr.data)
      (fun r => [.error .value, .error .value].getD r (.error .protocol)) := (runs_of_sim 100 (n := 2) (out := [.error .value, .error .value]) (by decide +kernel) rfl).always

end Verif

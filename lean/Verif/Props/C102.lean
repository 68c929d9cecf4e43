/- C102: expressions, the Laplacian and the gradient raise when the operator that they apply first does. -/
import Verif.Proofs.SafeMDC
import Verif.Proofs.SafeStacks
import Verif.Props.C97

set_option linter.unusedSectionVars false

namespace Verif
open NDArray

variable {K : Type} [Field K] [StarRing K] [CharZero K]
variable {n N : Nat} {J : Nat → Nat → K} {sd : Serial K SDKind} {fd : Serial K FDKind} {rest : List Nat} {edge : Bool} {dt dx : DType} {kind : SDKind} {k : FDKind} {X : Layout}

/-- the leaf which an expression applies first to its argument itself, and whether it uses its `rmatvec`; none if it first applies a conjugate, a transpose or a power -/
def MOp.lead {ι : Type} : Bool → MOp K ι → Option (ι × Bool)
  | b, .leaf i => some (i, b)
  | b, .adj A => A.lead (!b)
  | false, .prod _ B => B.lead false
  | true, .prod A _ => A.lead true
  | b, .scaled A _ => A.lead b
  | b, .sum A _ => A.lead b
  | _, .trans _ | _, .pow _ _ | _, .conj _ => none

/-- **C102** (expressions).  If the leaf that is applied first raises on some rank, so does the expression, whatever its other parts are. -/
theorem C102_expression {ι : Type} {prim : ι → Nat → Prim K} {x : Nat → DArr K} {i : ι} {b' : Bool} (hr : Raises n (fun r => MOp.run (env n J r) b' (.leaf (prim i r)) (x r))) :
    ∀ {e : MOp K ι} {b : Bool}, e.lead b = some (i, b') → Raises n (fun r => MOp.run (env n J r) b (e.map (prim · r)) (x r)) := by
  intro e
  induction e with
  | leaf j =>
    intro b h
    obtain ⟨rfl, rfl⟩ : j = i ∧ b = b' := by simpa [MOp.lead] using h
    exact hr
  | adj A ih =>
    intro b h
    simp only [MOp.map, MOp.run]
    exact (ih (b := !b) (by simpa [MOp.lead] using h)).checkDim
  | trans A ih => intro b h; simp [MOp.lead] at h
  | prod A B ihA ihB =>
    intro b h
    cases b with
    | false =>
      simp only [MOp.map, MOp.run, Prog.bind_eq]
      exact ((ihB (b := false) (by simpa [MOp.lead] using h)).bind _).checkDim
    | true =>
      simp only [MOp.map, MOp.run, Prog.bind_eq]
      exact ((ihA (b := true) (by simpa [MOp.lead] using h)).bind _).checkDim
  | scaled A s ih =>
    intro b h
    simp only [MOp.map, MOp.run, Prog.bind_eq]
    exact ((ih (b := b) (by simpa [MOp.lead] using h)).bind _).checkDim
  | sum A B ihA ihB =>
    intro b h
    simp only [MOp.map, MOp.run, Prog.bind_eq]
    exact ((ihA (b := b) (by simpa [MOp.lead] using h)).bind _).checkDim
  | pow A p ih => intro b h; simp [MOp.lead] at h
  | conj A ih => intro b h; simp [MOp.lead] at h

/-- `A.H` applies first what the `rmatvec` of `A` applies first -/
theorem lead_H {ι : Type} {sh : ι → Nat × Nat} {p : ι × Bool} : ∀ {e e' : MOp K ι} {b : Bool}, e.H sh = .ok e' → e.lead b = some p → e'.lead (!b) = some p := by
  intro e
  induction e with
  | leaf j => intro e' b h hl; obtain rfl := (Except.ok.inj h).symm; simpa [MOp.lead] using hl
  | adj A ih => intro e' b h hl; obtain rfl := (Except.ok.inj h).symm; simpa [MOp.lead] using hl
  | trans A ih => intro e' b h hl; simp [MOp.lead] at hl
  | pow A q ih => intro e' b h hl; simp [MOp.lead] at hl
  | conj A ih => intro e' b h hl; simp [MOp.lead] at hl
  | scaled A s ih =>
    intro e' b h hl
    simp only [MOp.H] at h
    cases hA : A.H sh with
    | error x => rw [hA] at h; cases h
    | ok ah =>
      rw [hA] at h
      obtain rfl := (Except.ok.inj h).symm
      have := ih hA (by simpa [MOp.lead] using hl)
      simpa [MOp.lead] using this
  | sum A B ihA ihB =>
    intro e' b h hl
    simp only [MOp.H] at h
    cases hA : A.H sh with
    | error x => rw [hA] at h; cases h
    | ok ah =>
      cases hB : B.H sh with
      | error x => rw [hA, hB] at h; cases h
      | ok bh =>
        rw [hA, hB] at h
        change ah.add sh bh = .ok e' at h
        unfold MOp.add at h
        split at h
        · cases h
        · obtain rfl := (Except.ok.inj h).symm
          have := ihA hA (by simpa [MOp.lead] using hl)
          simpa [MOp.lead] using this
  | prod A B ihA ihB =>
    intro e' b h hl
    simp only [MOp.H] at h
    cases hA : A.H sh with
    | error x => cases hB : B.H sh <;> rw [hA, hB] at h <;> cases h
    | ok ah =>
      cases hB : B.H sh with
      | error x => rw [hB] at h; cases h
      | ok bh =>
        rw [hA, hB] at h
        change bh.mul sh ah = .ok e' at h
        unfold MOp.mul at h
        split at h
        · cases h
        · obtain rfl := (Except.ok.inj h).symm
          cases b with
          | false => have := ihB hB (b := false) (by simpa [MOp.lead] using hl); simpa [MOp.lead] using this
          | true => have := ihA hA (b := true) (by simpa [MOp.lead] using hl); simpa [MOp.lead] using this

theorem lead_lapExpr : ∀ (l : List (LTerm K × Scal K)) {e : MOp K (LTerm K)} {b : Bool}, (lapExpr e l).lead b = e.lead b
  | [], _, _ => rfl
  | (t, w) :: l, e, b => by rw [lapExpr, lead_lapExpr l]; cases b <;> rfl

/-- **C102** (MPILaplacian).  If the first of the axes is the distributed one and the second derivative along it raises on some rank for the given input, so does the Laplacian; for `matvec` and `rmatvec`, and
    whatever the input is. -/
theorem C102_laplacian (hn : 0 < n) {s : K} {a : Scal K} {l : List (Nat × K × Scal K)} (h0 : LapFits sd n N rest edge dt kind (0, s, a))
    (hl : ∀ p ∈ l, LapFits sd n N rest edge dt .centered p) {b : Bool} {x : Nat → DArr K} (hr : Raises n (fun r => sdRun kind (N :: rest) s edge dt b (env n J r) (x r))) :
    Raises n (fun r => lapRun sd (N :: rest) (0 :: l.map (·.1)) (a :: l.map (·.2.2)) (s :: l.map (·.2.1)) edge kind dt b (env n J r) (x r)) := by
  set e : MOp K (LTerm K) := lapExpr (.scaled (.leaf ⟨0, s, kind⟩) a) (l.map fun p => (⟨p.1, p.2.1, .centered⟩, p.2.2)) with he
  have hshd : Shaped (lapFns sd n N rest edge dt).sh e := lapPart_shaped (e := .scaled (.leaf ⟨0, s, kind⟩) a) trivial rfl _
  obtain ⟨e', hH, -, -⟩ := H_shaped _ hshd
  have hprim : ∀ r, lapPart sd n N rest edge dt ⟨0, s, kind⟩ r = secondDerivative kind ⟨N :: rest, s, edge, dt⟩ := fun r => by
    rw [lapPart, if_pos h0.1, if_pos rfl]
  have hlead : ∀ b, e.lead b = some (⟨0, s, kind⟩, b) := fun b => by rw [he, lead_lapExpr]; cases b <;> rfl
  have hleaf : Raises n (fun r => MOp.run (env n J r) b (.leaf (lapPart sd n N rest edge dt ⟨0, s, kind⟩ r)) (x r)) := hr.congr fun r _ => by rw [hprim]; rfl
  have c1 : (0 :: l.map (·.1)).any ((N :: rest).length ≤ ·) = false := by
    rw [List.any_eq_false]
    intro m hm
    rcases List.mem_cons.1 hm with rfl | hm
    · simp
    · obtain ⟨p, hp, rfl⟩ := List.mem_map.1 hm
      have : p.1 < rest.length + 1 := by
        cases e : p.1 with
        | zero => omega
        | succ q => have := ((hl p hp).1.serial q e).1; omega
      simpa using by omega
  have c2 : ∀ q : List (Nat × K × Scal K), (q.map (·.1)).zip ((q.map (·.2.1)).zip (q.map (·.2.2))) = q := by
    intro q
    induction q with
    | nil => rfl
    | cons a q ih => simp [ih]
  unfold lapRun mkLaplacian
  simp only [c1, Bool.false_eq_true, if_false]
  simp only [List.zip_cons_cons, c2, if_false, List.length_cons, List.length_map, and_self, not_true_eq_false, Prog.bind_eq, Prog.bind_assoc]
  refine Raises.after (runs_lapFits h0.1) ?_
  refine Raises.after (a := fun r => e.map (lapPart sd n N rest edge dt · r))
    (runs_lapFitsLoop hn (fun p hp => (hl p hp).1) (e := .scaled (.leaf ⟨0, s, kind⟩) a) rfl) ?_
  simp only [Prog.ret_bind, MOp.run]
  refine Raises.checkDim ?_
  cases b with
  | false => simpa using C102_expression hleaf (hlead false)
  | true =>
    have hHr : ∀ r, (e.map (lapPart sd n N rest edge dt · r)).H Prim.shape = .ok (e'.map (lapPart sd n N rest edge dt · r)) := fun r =>
      H_map (sh := (lapFns sd n N rest edge dt).sh) (fun t => lapPart_shape hn t r) hH
    simp only [hHr, Prog.lift, Prog.ret_bind, if_true]
    exact C102_expression hleaf (lead_H hH (hlead true))

/-- **C102** (MPIGradient, `matvec`).  If the first derivative along the distributed axis raises on some rank for the given input, so does the gradient. -/
theorem C102_gradient (hn : 0 < n) {s : K} {l : List K} (h : GradFits fd n N rest k edge dt (s :: l)) {x : Nat → DArr K}
    (hr : Raises n (fun r => fdRun k (N :: rest) s edge dt false (env n J r) (x r))) :
    Raises n (fun r => gradRun fd (N :: rest) (s :: l) edge k dt false (env n J r) (.one (x r))) := by
  have hprim : ∀ r, gradPart fd n N rest k edge dt ⟨0, s⟩ r = firstDerivative k ⟨N :: rest, s, edge, dt⟩ := fun r => by
    rw [gradPart, if_pos (h.2 ⟨0, s⟩ (by simp [gterms])), if_pos rfl]
  unfold gradRun
  simp only [Prog.bind_eq]
  refine Raises.after (runs_mkGradFits hn h) ?_
  simp only [SOp.map, SOp.run, gterms, List.map_cons, Bool.false_eq_true, if_false]
  refine Raises.scheckDim ?_
  simp only [SOp.vsMv, forList, Prog.bind_eq, MOp.map, hprim]
  exact (hr.bind _).bind _

/-- **C102** (MPIGradient, `rmatvec`).  If the `rmatvec` of the first derivative along the distributed axis raises on some rank for the first component of the input, so does that of the gradient, whatever the
    other components are. -/
theorem C102_gradient_adjoint (hn : 0 < n) {s : K} {l : List K} (h : GradFits fd n N rest k edge dt (s :: l)) {x : Nat → DArr K} {xs : Nat → List (DArr K)}
    (hr : Raises n (fun r => fdRun k (N :: rest) s edge dt true (env n J r) (x r))) :
    Raises n (fun r => gradRun fd (N :: rest) (s :: l) edge k dt true (env n J r) (.stack (x r :: xs r))) := by
  have hprim : ∀ r, gradPart fd n N rest k edge dt ⟨0, s⟩ r = firstDerivative k ⟨N :: rest, s, edge, dt⟩ := fun r => by
    rw [gradPart, if_pos (h.2 ⟨0, s⟩ (by simp [gterms])), if_pos rfl]
  unfold gradRun
  simp only [Prog.bind_eq]
  refine Raises.after (runs_mkGradFits hn h) ?_
  simp only [SOp.map, SOp.run, gterms, List.map_cons, if_true]
  refine Raises.scheckDim ?_
  simp only [SOp.vsRmv, Prog.bind_eq, MOp.map, hprim]
  exact hr.bind _

/-! ### Stacked operators -/

/-- the array, or the first array of the stack -/
def XArr.firstPart : XArr K → Option (DArr K)
  | .one d => some d
  | .stack l => l.head?

/-- the operator which a stacked expression applies first, to the first part of its argument, and whether it uses its `rmatvec` -/
def SOp.lead {ι : Type} : Bool → SOp K ι → Option (MOp K ι × Bool)
  | b, .vstack ops | b, .grad ops | b, .bdiag ops => ops.head?.map (·, b)
  | b, .adj A => A.lead (!b)
  | false, .prod _ B => B.lead false
  | true, .prod A _ => A.lead true
  | b, .scaled A _ => A.lead b
  | b, .sum A _ => A.lead b
  | _, .trans _ | _, .pow _ _ | _, .conj _ => none

/-- ranks that raise at once do not matter -/
theorem Raises.of_cases {α : Type} {p q : Nat → P K α} (h : Raises n q) (hc : ∀ r < n, p r = q r ∨ ∃ e, p r = .throw e) : Raises n p := by
  by_cases hx : ∃ r < n, ∃ e, p r = .throw e
  · obtain ⟨r, hr, e, he⟩ := hx
    exact ⟨r, hr, e, RankEnds.of_steps .refl he⟩
  · exact h.congr fun r hr => ((hc r hr).resolve_right fun he => hx ⟨r, hr, he⟩).symm

theorem raises_vsMv {ops' : Nat → List (MOp K (Prim K))} {o' : Nat → MOp K (Prim K)} {x : Nat → XArr K} {y : Nat → DArr K} (hx : ∀ r < n, (x r).firstPart = some (y r))
    (hr : Raises n (fun r => MOp.run (env n J r) false (o' r) (y r))) : Raises n (fun r => SOp.vsMv (env n J r) (o' r :: ops' r) (x r)) := by
  refine Raises.of_cases (q := fun r => (MOp.run (env n J r) false (o' r) (y r)).bind fun z => (forList (fun o => MOp.run (env n J r) false o (y r)) (ops' r)).bind fun zs => .ret (.stack (z :: zs)))
    (hr.bind _) fun r h => ?_
  have := hx r h
  cases e : x r with
  | one d =>
    rw [e] at this
    obtain rfl : d = y r := by simpa [XArr.firstPart] using this
    left
    simp only [SOp.vsMv, forList, Prog.bind_eq, Prog.bind_assoc, Prog.ret_bind]
  | stack l => exact .inr ⟨_, rfl⟩

theorem raises_vsRmv {ops' : Nat → List (MOp K (Prim K))} {o' : Nat → MOp K (Prim K)} {x : Nat → XArr K} {y : Nat → DArr K} (hx : ∀ r < n, (x r).firstPart = some (y r))
    (hr : Raises n (fun r => MOp.run (env n J r) true (o' r) (y r))) : Raises n (fun r => SOp.vsRmv (env n J r) (o' r :: ops' r) (x r)) := by
  refine Raises.of_cases (q := fun r => (MOp.run (env n J r) true (o' r) (y r)).bind fun z =>
    (SOp.vsLoop (env n J r) z ((match x r with | .one _ => [] | .stack l => l.tail).zip (ops' r))).bind fun z => .ret (.one z)) (hr.bind _) fun r h => ?_
  have := hx r h
  cases e : x r with
  | one d => exact .inr ⟨_, rfl⟩
  | stack l =>
    rw [e] at this
    cases l with
    | nil => exact .inr ⟨_, rfl⟩
    | cons d l =>
      obtain rfl : d = y r := by simpa [XArr.firstPart] using this
      left
      simp only [SOp.vsRmv, Prog.bind_eq, List.tail_cons]

theorem raises_bdMv {b : Bool} {ops' : Nat → List (MOp K (Prim K))} {o' : Nat → MOp K (Prim K)} {x : Nat → XArr K} {y : Nat → DArr K} (hx : ∀ r < n, (x r).firstPart = some (y r))
    (hr : Raises n (fun r => MOp.run (env n J r) b (o' r) (y r))) : Raises n (fun r => SOp.bdMv (env n J r) b (o' r :: ops' r) (x r)) := by
  refine Raises.of_cases (q := fun r => (MOp.run (env n J r) b (o' r) (y r)).bind fun z =>
    (forList (fun p : DArr K × MOp K (Prim K) => MOp.run (env n J r) b p.2 p.1) ((match x r with | .one _ => [] | .stack l => l.tail).zip (ops' r))).bind fun zs => .ret (.stack (z :: zs)))
    (hr.bind _) fun r h => ?_
  have := hx r h
  cases e : x r with
  | one d => exact .inr ⟨_, rfl⟩
  | stack l =>
    rw [e] at this
    cases l with
    | nil => simp [XArr.firstPart] at this
    | cons d l =>
      obtain rfl : d = y r := by simpa [XArr.firstPart] using this
      left
      simp only [SOp.bdMv, forList, List.zip_cons_cons, Prog.bind_eq, Prog.bind_assoc, Prog.ret_bind, List.tail_cons]

/-- **C102** (stacked expressions).  If the operator that is applied first raises on some rank for the first part of the argument, so does the expression, whatever its other parts and the other parts of
    the argument are. -/
theorem C102_stacked {ι : Type} {prim : ι → Nat → Prim K} {x : Nat → XArr K} {y : Nat → DArr K} (hx : ∀ r < n, (x r).firstPart = some (y r)) {o : MOp K ι} {b' : Bool}
    (hr : Raises n (fun r => MOp.run (env n J r) b' (o.map (prim · r)) (y r))) :
    ∀ {e : SOp K ι} {b : Bool}, e.lead b = some (o, b') → Raises n (fun r => SOp.run (env n J r) b (e.map (prim · r)) (x r)) := by
  intro e
  induction e with
  | vstack ops =>
    intro b h
    cases ops with
    | nil => simp [SOp.lead] at h
    | cons q ops =>
      obtain ⟨rfl, rfl⟩ : q = o ∧ b = b' := by simpa [SOp.lead] using h
      simp only [SOp.map, SOp.run, List.map_cons]
      refine Raises.scheckDim ?_
      cases b with
      | false => simpa using raises_vsMv hx hr
      | true => simpa using raises_vsRmv hx hr
  | grad ops =>
    intro b h
    cases ops with
    | nil => simp [SOp.lead] at h
    | cons q ops =>
      obtain ⟨rfl, rfl⟩ : q = o ∧ b = b' := by simpa [SOp.lead] using h
      simp only [SOp.map, SOp.run, List.map_cons]
      refine Raises.scheckDim ?_
      cases b with
      | false => simpa using raises_vsMv hx hr
      | true => simpa using raises_vsRmv hx hr
  | bdiag ops =>
    intro b h
    cases ops with
    | nil => simp [SOp.lead] at h
    | cons q ops =>
      obtain ⟨rfl, rfl⟩ : q = o ∧ b = b' := by simpa [SOp.lead] using h
      simp only [SOp.map, SOp.run, List.map_cons]
      exact Raises.scheckDim (raises_bdMv hx hr)
  | adj A ih =>
    intro b h
    simp only [SOp.map, SOp.run]
    exact Raises.scheckDim (ih (b := !b) (by simpa [SOp.lead] using h))
  | trans A ih => intro b h; simp [SOp.lead] at h
  | prod A B ihA ihB =>
    intro b h
    cases b with
    | false =>
      simp only [SOp.map, SOp.run, Prog.bind_eq]
      exact Raises.scheckDim (Raises.bind (ihB (b := false) (by simpa [SOp.lead] using h)) _)
    | true =>
      simp only [SOp.map, SOp.run, Prog.bind_eq]
      exact Raises.scheckDim (Raises.bind (ihA (b := true) (by simpa [SOp.lead] using h)) _)
  | scaled A s ih =>
    intro b h
    simp only [SOp.map, SOp.run, Prog.bind_eq]
    exact Raises.scheckDim (Raises.bind (ih (b := b) (by simpa [SOp.lead] using h)) _)
  | sum A B ihA ihB =>
    intro b h
    simp only [SOp.map, SOp.run, Prog.bind_eq]
    exact Raises.scheckDim (Raises.bind (ihA (b := b) (by simpa [SOp.lead] using h)) _)
  | pow A p ih => intro b h; simp [SOp.lead] at h
  | conj A ih => intro b h; simp [SOp.lead] at h

/-- Non-vacuity: twice the sum of a vertical stack that starts with a derivative and anything else. -/
example {d : List ℚ} (hd : VSpace.Mem ⟨.flat 3 2 [3], .real⟩ d) (B : SOp ℚ (Prim ℚ)) (os : List (MOp ℚ (Prim ℚ))) :
    Raises 3 (fun r => SOp.run (env 3 (fun _ _ => 0) r) false ((SOp.scaled (.sum (.vstack (.leaf (firstDerivative .centered3 ⟨[2, 3], 1, true, .real⟩) :: os)) B) ⟨.real, 2⟩).map fun p => p)
      (.one (VSpace.vec ⟨.flat 3 2 [3], .real⟩ 3 d r))) := by
  refine C102_stacked (prim := fun p _ => p) (y := fun r => VSpace.vec ⟨.flat 3 2 [3], .real⟩ 3 d r) (fun _ _ => rfl) ?_ rfl
  obtain ⟨m, hm, hr⟩ := C29_raises_rows (J := fun _ _ => (0 : ℚ)) (n := 3) (N := 2) (rest := [3]) (s := 1) (edge := true) (dt := .real) .centered3 (by decide) (show 2 < 3 by decide) (flat_wf (by decide)) rfl rfl
    near_flat hd
  exact ⟨m, hm, _, hr⟩

/-! ### When this happens -/

/-- **C102** (too few rows or a layout too far away, `matvec` of the gradient).  On two or more ranks with blocks shorter than the ghost cells, or if the boundaries of the input are too far from those of the
    rows, some rank raises. -/
theorem C102_gradient_rows (hn : 2 ≤ n) {s : K} {l : List K} (h : GradFits fd n N rest k edge dt (s :: l)) (hX : X.WF n) (hg : X.gshape = [N * rest.prod]) (hp : X.part = .scatter)
    (hc : fdShort k n N ∨ ¬ Near n X (.slab n N rest)) {d : List K} (hd : VSpace.Mem ⟨X, dx⟩ d) :
    Raises n (fun r => gradRun fd (N :: rest) (s :: l) edge k dt false (env n J r) (.one (VSpace.vec ⟨X, dx⟩ n d r))) := by
  refine C102_gradient (by omega) h ?_
  by_cases hN : Near n X (.slab n N rest)
  · obtain ⟨m, hm, hr⟩ := C29_raises_rows (J := J) (s := s) (edge := edge) (dt := dt) k hn (hc.resolve_right (not_not_intro hN)) hX hg hp hN hd
    exact ⟨m, hm, _, hr⟩
  · obtain ⟨m, hm, hr⟩ := C29_raises_layout (J := J) (s := s) (edge := edge) (dt := dt) k false (by omega) hX hg hp hN hd
    exact ⟨m, hm, _, hr⟩

/-- **C102** (too few rows, `rmatvec` of the gradient; but for the cases `fdSilent`, in which nothing is raised, see C65). -/
theorem C102_gradient_adjoint_rows (hn : 0 < n) (hN : 1 ≤ N) {s : K} {l : List K} (h : GradFits fd n N rest k edge dt (s :: l)) (hdt : dt = .real → dx = .real) (hs : ¬ fdSilent k edge n N)
    (hroom : ¬ fdRoomAdj k edge n N) (hX : VecIn n (N * rest.prod) X) {d : List K} (hd : VSpace.Mem ⟨X, dx⟩ d) (xs : Nat → List (DArr K)) :
    Raises n (fun r => gradRun fd (N :: rest) (s :: l) edge k dt true (env n J r) (.stack (VSpace.vec ⟨X, dx⟩ n d r :: xs r))) := by
  refine C102_gradient_adjoint hn h ?_
  have hr := (total_fdAdj (J := J) (rest := rest) (s := s) (dt := dt) (dx := dx) k hn hN hs hdt).resolve_left hroom
  obtain ⟨m, hm, er, h⟩ := deriv_raises_in (J := J) hn (o := ⟨N :: rest, s, edge, dt⟩) rfl hr hX hd
  exact ⟨m, hm, er, h.congr_prog (fun r _ => (fdRun_eq (b := true) (k := k) hX.gshape).symm) hm⟩

/-- **C102** (`rmatvec` of the gradient, exactly when it works).  The components of the input are scattered, and the boundaries of all but the first are near those of the rows.  If there are the rows that the
    adjoint stencil needs and the boundaries of the first component are near as well, the result is that of the adjoint of the gradient in every execution.  Otherwise some rank raises, whatever the values. -/
theorem C102_gradient_adjoint_exact (hn : 0 < n) (hN : 1 ≤ N) {s : K} {l : List K} (h : GradFits fd n N rest k edge dt (s :: l)) (hs : ¬ fdSilent k edge n N) {V : VSpace} {Ss : SSpace}
    (hS : Ss.length = rest.length) (hV : ∀ W ∈ V :: Ss, (dt = .real → W.dt = .real) ∧ W.L.WF n ∧ W.L.gshape = [N * rest.prod] ∧ W.L.part = .scatter) (hnear : ∀ W ∈ Ss, Near n W.L (.slab n N rest)) :
    (fdRoomAdj k edge n N ∧ Near n V.L (.slab n N rest) →
      ∃ g : List K → List K,
        XComputes n J (fun _ => gradRun fd (N :: rest) (s :: l) edge k dt true) (.stack (V :: Ss)) (.one ⟨.flat n N rest, dt⟩) g ∧
        ∀ u v : List K, u.length = N * rest.prod → v.length = (rest.length + 1) * (N * rest.prod) → ip (gradient k edge (N :: rest) 0 (s :: l) u) v = ip u (g v)) ∧
    (¬ (fdRoomAdj k edge n N ∧ Near n V.L (.slab n N rest)) → ∀ d, (XSpace.stack (V :: Ss)).Mem d →
      Raises n (fun r => gradRun fd (N :: rest) (s :: l) edge k dt true (env n J r) ((XSpace.stack (V :: Ss)).vec n d r))) := by
  obtain ⟨hdt, hw, hg, hp⟩ := hV V (by simp)
  refine ⟨fun ⟨hroom, hv⟩ => ?_, fun hno d hd => ?_⟩
  · have hfwd : fdRoom k edge n N := by
      cases k <;> cases edge <;> simp [fdRoom, fdRoomAdj] at hroom ⊢ <;> omega
    refine C34_rmatvec_partial hn ⟨h.1, fun t ht => ⟨(h.2 t ht).s0, (h.2 t ht).sr, fun _ => ⟨hfwd, hroom⟩, (h.2 t ht).serial⟩⟩ (by simp [hS]) fun W hW => ?_
    obtain ⟨a, b, c, d⟩ := hV W hW
    refine ⟨a, b, c, d, ?_⟩
    rcases List.mem_cons.1 hW with rfl | hW
    · exact hv
    · exact hnear W hW
  · have key : Raises n (fun r => gradRun fd (N :: rest) (s :: l) edge k dt true (env n J r)
        (.stack (V.vec n (d.take V.L.gshape.prod) r :: Ss.vec n (d.drop V.L.gshape.prod) r))) := by
      by_cases hv : Near n V.L (.slab n N rest)
      · exact C102_gradient_adjoint_rows (X := V.L) (dx := V.dt) hn hN h hdt hs (fun hr => hno ⟨hr, hv⟩) (.inl ⟨hw, hg, hp⟩) hd.1 _
      · obtain ⟨m, hm, hr⟩ := C29_raises_layout (J := J) (s := s) (edge := edge) (dt := dt) (dx := V.dt) k true hn hw hg hp hv hd.1
        exact C102_gradient_adjoint hn h ⟨m, hm, _, hr⟩
    exact key

/-- **C102** (too few rows or a layout too far away, `matvec` of the Laplacian). -/
theorem C102_laplacian_rows (hn : 2 ≤ n) {s : K} {a : Scal K} {l : List (Nat × K × Scal K)} (h0 : LapFits sd n N rest edge dt kind (0, s, a))
    (hl : ∀ p ∈ l, LapFits sd n N rest edge dt .centered p) (hX : X.WF n) (hg : X.gshape = [N * rest.prod]) (hp : X.part = .scatter)
    (hc : sdShort kind n N ∨ ¬ Near n X (.slab n N rest)) {d : List K} (hd : VSpace.Mem ⟨X, dx⟩ d) :
    Raises n (fun r => lapRun sd (N :: rest) (0 :: l.map (·.1)) (a :: l.map (·.2.2)) (s :: l.map (·.2.1)) edge kind dt false (env n J r) (VSpace.vec ⟨X, dx⟩ n d r)) := by
  refine C102_laplacian (by omega) h0 hl ?_
  by_cases hN : Near n X (.slab n N rest)
  · obtain ⟨m, hm, hr⟩ := C31_raises_rows (J := J) (s := s) (edge := edge) (dt := dt) kind hn (hc.resolve_right (not_not_intro hN)) hX hg hp hN hd
    exact ⟨m, hm, _, hr⟩
  · obtain ⟨m, hm, hr⟩ := C31_raises_layout (J := J) (s := s) (edge := edge) (dt := dt) kind false (by omega) hX hg hp hN hd
    exact ⟨m, hm, _, hr⟩

/-- **C102** (too few rows, `rmatvec` of the Laplacian; but for the case `sdSilent`, in which nothing is raised, see C65). -/
theorem C102_laplacian_adjoint_rows (hn : 0 < n) (hN : 1 ≤ N) {s : K} {a : Scal K} {l : List (Nat × K × Scal K)} (h0 : LapFits sd n N rest edge dt kind (0, s, a))
    (hl : ∀ p ∈ l, LapFits sd n N rest edge dt .centered p) (hdt : dt = .real → dx = .real) (hs : ¬ sdSilent kind n N) (hroom : ¬ sdRoomAdj kind edge n N)
    (hX : VecIn n (N * rest.prod) X) {d : List K} (hd : VSpace.Mem ⟨X, dx⟩ d) :
    Raises n (fun r => lapRun sd (N :: rest) (0 :: l.map (·.1)) (a :: l.map (·.2.2)) (s :: l.map (·.2.1)) edge kind dt true (env n J r) (VSpace.vec ⟨X, dx⟩ n d r)) := by
  refine C102_laplacian hn h0 hl ?_
  have hr := (total_sdAdj (J := J) (rest := rest) (s := s) (dt := dt) (dx := dx) kind hn hN hs hdt).resolve_left hroom
  obtain ⟨m, hm, er, h⟩ := deriv_raises_in (J := J) hn (o := ⟨N :: rest, s, edge, dt⟩) rfl hr hX hd
  exact ⟨m, hm, er, h.congr_prog (fun r _ => (sdRun_eq (b := true) (k := kind) hX.gshape).symm) hm⟩

/-- **C102** (`rmatvec` of the Laplacian, exactly when it works).  The distributed axis comes first and only once, the input is scattered.  If there are the rows that the adjoint stencil needs and the
    boundaries of the input are near those of the rows, the result is that of the adjoint of the Laplacian in every execution.  Otherwise some rank raises, whatever the values. -/
theorem C102_laplacian_adjoint_exact (hn : 0 < n) (hN : 1 ≤ N) {s : K} {a : Scal K} {l : List (Nat × K × Scal K)} (h0 : LapFits sd n N rest edge dt kind (0, s, a))
    (hl : ∀ p ∈ l, p.1 ≠ 0 ∧ LapFits sd n N rest edge dt .centered p) (hdt : dt = .real → dx = .real) (hs : ¬ sdSilent kind n N) (hX : X.WF n) (hg : X.gshape = [N * rest.prod]) (hp : X.part = .scatter) :
    (sdRoomAdj kind edge n N ∧ Near n X (.slab n N rest) →
      ∃ g : List K → List K,
        Computes n J (fun _ => lapRun sd (N :: rest) (0 :: l.map (·.1)) (a :: l.map (·.2.2)) (s :: l.map (·.2.1)) edge kind dt true) ⟨X, dx⟩ ⟨.flat n N rest, dt⟩ g ∧
        ∀ u v : List K, u.length = N * rest.prod → v.length = N * rest.prod →
          ip (laplacian edge (N :: rest) ((0, s, kind, a.val) :: l.map fun p => (p.1, p.2.1, .centered, p.2.2.val)) u) v = ip u (g v)) ∧
    (¬ (sdRoomAdj kind edge n N ∧ Near n X (.slab n N rest)) → ∀ d : List K, VSpace.Mem ⟨X, dx⟩ d →
      Raises n (fun r => lapRun sd (N :: rest) (0 :: l.map (·.1)) (a :: l.map (·.2.2)) (s :: l.map (·.2.1)) edge kind dt true (env n J r) (VSpace.vec ⟨X, dx⟩ n d r))) := by
  refine ⟨fun ⟨hroom, hv⟩ => ?_, fun hno d hd => ?_⟩
  · have hfwd : sdRoom kind edge n N := by
      cases kind <;> cases edge <;> simp [sdRoom, sdRoomAdj] at hroom ⊢ <;> omega
    exact C33_adjoint_partial (p0 := (0, s, a)) hn ⟨⟨h0.1.s0, h0.1.sr, fun _ => ⟨hfwd, hroom⟩, h0.1.serial⟩, h0.2⟩
      (fun p hq => ⟨⟨(hl p hq).2.1.s0, (hl p hq).2.1.sr, fun e => absurd e (hl p hq).1, (hl p hq).2.1.serial⟩, (hl p hq).2.2⟩) hdt hX hg hp hv
  · by_cases hv : Near n X (.slab n N rest)
    · exact C102_laplacian_adjoint_rows hn hN h0 (fun p hq => (hl p hq).2) hdt hs (fun hr => hno ⟨hr, hv⟩) (.inl ⟨hX, hg, hp⟩) hd
    · obtain ⟨m, hm, hr⟩ := C31_raises_layout (J := J) (s := s) (edge := edge) (dt := dt) kind true hn hX hg hp hv hd
      exact C102_laplacian hn h0 (fun p hq => (hl p hq).2) ⟨m, hm, _, hr⟩

/-- Non-vacuity: two rows of three entries on three ranks; the forward direction of the gradient and the Laplacian, and the transposed one. -/
example {d : List ℚ} (hd : VSpace.Mem ⟨.flat 3 2 [3], .real⟩ d) (xs : Nat → List (DArr ℚ)) :
    Raises 3 (fun r => gradRun refFD [2, 3] [2, 5] true .centered3 .real false (env 3 (fun _ _ => 0) r) (.one (VSpace.vec ⟨.flat 3 2 [3], .real⟩ 3 d r))) ∧
    Raises 3 (fun r => gradRun refFD [2, 3] [2, 5] true .centered3 .real true (env 3 (fun _ _ => 0) r) (.stack (VSpace.vec ⟨.flat 3 2 [3], .real⟩ 3 d r :: xs r))) ∧
    Raises 3 (fun r => lapRun refSD [2, 3] [0, 1] [⟨.real, 1⟩, ⟨.real, 3⟩] [2, 5] true .centered .real false (env 3 (fun _ _ => 0) r) (VSpace.vec ⟨.flat 3 2 [3], .real⟩ 3 d r)) ∧
    Raises 3 (fun r => lapRun refSD [2, 3] [0, 1] [⟨.real, 1⟩, ⟨.real, 3⟩] [2, 5] true .centered .real true (env 3 (fun _ _ => 0) r) (VSpace.vec ⟨.flat 3 2 [3], .real⟩ 3 d r)) :=
  ⟨C102_gradient_rows (n := 3) (N := 2) (rest := [3]) (by decide) gradFitsEx (flat_wf (by decide)) rfl rfl (.inl (by show 2 < 3; decide)) hd,
   C102_gradient_adjoint_rows (n := 3) (N := 2) (rest := [3]) (by decide) (by decide) gradFitsEx (fun _ => rfl) (fun h => h) (by simp [fdRoomAdj]) (.inl ⟨flat_wf (by decide), rfl, rfl⟩) hd xs,
   C102_laplacian_rows (n := 3) (N := 2) (rest := [3]) (by decide) lapFitsEx.1 lapFitsEx.2 (flat_wf (by decide)) rfl rfl (.inl (by show 2 < 3; decide)) hd,
   C102_laplacian_adjoint_rows (n := 3) (N := 2) (rest := [3]) (by decide) (by decide) lapFitsEx.1 lapFitsEx.2 (fun _ => rfl) (fun h => h) (by simp [sdRoomAdj]) (.inl ⟨flat_wf (by decide), rfl, rfl⟩) hd⟩

/-- Non-vacuity: with four rows of three entries on two ranks the transposed gradient works. -/
example : ∃ g : List ℚ → List ℚ,
    XComputes 2 (fun _ _ => (0 : ℚ)) (fun _ => gradRun refFD [4, 3] [2, 5] true .centered3 .real true) (.stack [⟨.flat 2 4 [3], .real⟩, ⟨.flat 2 4 [3], .real⟩]) (.one ⟨.flat 2 4 [3], .real⟩) g ∧
    ∀ u v : List ℚ, u.length = 12 → v.length = 24 → ip (gradient .centered3 true [4, 3] 0 [2, 5] u) v = ip u (g v) := by
  have hfit : GradFits refFD 2 4 [3] .centered3 true .real [(2 : ℚ), 5] := by
    refine ⟨rfl, fun t ht => ?_⟩
    simp only [gterms, List.mem_cons, List.not_mem_nil, or_false] at ht
    rcases ht with rfl | rfl
    · exact ⟨by norm_num, rfl, fun a h => by cases h⟩
    · exact (refFD_good (by norm_num) (fun h => by cases h) (by simp) (fun N hN => (show N = 3 by simpa using hN) ▸ (.inl (by decide) : 2 * 1 ≤ 3 ∨ _))).fits
  exact (C102_gradient_adjoint_exact (J := fun _ _ => (0 : ℚ)) (n := 2) (N := 4) (rest := [3]) (V := ⟨.flat 2 4 [3], .real⟩) (Ss := [⟨.flat 2 4 [3], .real⟩]) (by decide) (by decide) hfit (fun h => h) rfl
    (fun W hW => by
      obtain rfl : W = ⟨.flat 2 4 [3], .real⟩ := by simpa using hW
      exact ⟨fun h => h, flat_wf (by decide), rfl, rfl⟩)
    (fun W hW => by
      obtain rfl : W = ⟨.flat 2 4 [3], .real⟩ := by simpa using hW
      exact near_flat)).1 ⟨.inl (by decide), near_flat⟩

/-- Non-vacuity: two rows on three ranks are too few for the transposed Laplacian. -/
example {d : List ℚ} (hd : VSpace.Mem ⟨.flat 3 2 [3], .real⟩ d) :
    Raises 3 (fun r => lapRun refSD [2, 3] [0, 1] [⟨.real, 1⟩, ⟨.real, 3⟩] [2, 5] true .centered .real true (env 3 (fun _ _ => 0) r) (VSpace.vec ⟨.flat 3 2 [3], .real⟩ 3 d r)) :=
  (C102_laplacian_adjoint_exact (n := 3) (N := 2) (rest := [3]) (by decide) (by decide) lapFitsEx.1 (fun p hp => ⟨by simp at hp; simp [hp], lapFitsEx.2 p hp⟩) (fun _ => rfl) (fun h => h)
    (flat_wf (by decide)) rfl rfl).2 (fun h => by simpa [sdRoomAdj] using h.1) d hd

end Verif

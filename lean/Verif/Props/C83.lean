/- C83: expressions of operators give the right result or raise; MPILaplacian and MPIGradient do so for every number of rows and every layout of the input. -/
import Verif.Proofs.SafeDeriv
import Verif.Props.C57

namespace Verif
open NDArray
set_option linter.unusedSectionVars false

variable {K : Type} [Field K] [StarRing K] [CharZero K]

section
variable {ι : Type} {lv : Leaves K ι} {n : Nat} {J : Nat → Nat → K} {prim : ι → Nat → Prim K}

/-- **C83** (expressions).  If every leaf gives the right result or raises, so does every expression: in no execution do all ranks return with anything else than their
    parts of the result. -/
theorem C83_expr {e : MOp K ι} {b : Bool} {S T : VSpace} (h : TypedOr lv n J prim b e S T) :
    ComputesOr n J (fun r c x => MOp.run c b (e.map (prim · r)) x) S T (den lv b e) := typedOr_safe h

/-- **C83** (stacked operators). -/
theorem C83_stacked {e : SOp K ι} {b : Bool} {S T : XSpace} (h : STypedOr lv n J prim b e S T) :
    XComputesOr n J (fun r c x => SOp.run c b (e.map (prim · r)) x) S T (sden lv b e) := stypedOr_safe h

/-- leaves that always give the right result are leaves that give it or raise -/
theorem Computes.or {mv : Nat → Ctx K → DArr K → P K (DArr K)} {S T : VSpace} {f : List K → List K} (h : Computes n J mv S T f) : ComputesOr n J mv S T f :=
  fun d hd => ⟨(h d hd).1, .inl (h d hd).2⟩

/-- The two cases exclude each other: if all ranks return, no rank raises. -/
theorem C83_exclusive {α : Type} {ps : Nat → P K α} {a : Nat → α} (h : Always n ps fun r => .ok (a r)) : ¬ Raises n ps := by
  rintro ⟨m, hm, e, he⟩
  obtain ⟨qs, h1, h2⟩ := h.runs
  obtain ⟨⟨s, hs, hs'⟩, -⟩ := RankEnds.of_steps h1 (h2 m hm) (St.init ps) .refl
  cases (he s hs).2 _ hs'

theorem typedOr_H {e : MOp K ι} : ∀ {e' : MOp K ι}, e.H lv.sh = .ok e' → ∀ {b S T}, TypedOr lv n J prim (!b) e S T → TypedOr lv n J prim b e' S T := by
  induction e with
  | leaf i => intro e' h b S T ht; obtain rfl := (Except.ok.inj h).symm; exact ht
  | adj A ih => intro e' h b S T ht; obtain rfl := (Except.ok.inj h).symm; exact ht
  | trans A ih => intro e' h b S T ht; obtain rfl := (Except.ok.inj h).symm; exact ht
  | pow A p ih => intro e' h b S T ht; obtain rfl := (Except.ok.inj h).symm; exact ht
  | prod A B ihA ihB =>
    intro e' h b S T ht
    rcases H_inv _ h with rfl | ⟨A, B, a, b', h1, h2, h3, rfl⟩ | ⟨_, _, _, h1, _⟩ | ⟨_, _, _, _, h1, _⟩ | ⟨_, _, h1, _⟩ <;> first | exact ht | cases h1
    cases b with
    | false => obtain ⟨U, t1, t2⟩ := ht; exact ⟨U, ihA h2 t1, ihB h3 t2⟩
    | true => obtain ⟨U, t1, t2⟩ := ht; exact ⟨U, ihB h3 t1, ihA h2 t2⟩
  | scaled A s ih =>
    intro e' h b S T ht
    rcases H_inv _ h with rfl | ⟨_, _, _, _, h1, _⟩ | ⟨A, s, a, h1, h2, rfl⟩ | ⟨_, _, _, _, h1, _⟩ | ⟨_, _, h1, _⟩ <;> first | exact ht | cases h1
    exact ⟨ih h2 ht.1, fun hr => ⟨(ht.2 hr).1, by simp [Scal.conj, (ht.2 hr).2]⟩⟩
  | sum A B ihA ihB =>
    intro e' h b S T ht
    rcases H_inv _ h with rfl | ⟨_, _, _, _, h1, _⟩ | ⟨_, _, _, h1, _⟩ | ⟨A, B, a, b', h1, h2, h3, rfl⟩ | ⟨_, _, h1, _⟩ <;> first | exact ht | cases h1
    exact ⟨ihA h2 ht.1, ihB h3 ht.2⟩
  | conj A ih =>
    intro e' h b S T ht
    rcases H_inv _ h with rfl | ⟨_, _, _, _, h1, _⟩ | ⟨_, _, _, h1, _⟩ | ⟨_, _, _, _, h1, _⟩ | ⟨A, a, h1, h2, rfl⟩ <;> first | exact ht | cases h1
    exact ih (b := b) h2 ht

end

/-! ### MPIBlockDiag -/

variable {n N : Nat} {rest : List Nat} {edge : Bool} {dt dx : DType} {X : Layout} {J : Nat → Nat → K}

/-- **C83** (MPIBlockDiag, matvec and rmatvec).  Whatever the layout of the input, the result is right or some rank raises. -/
theorem C83_blockDiag (hn : 0 < n) {ops : Nat → List (LOp K)} {b : Bool} (hok : ∀ o ∈ allOps n ops, o.Ok b dx dt) (h0 : ∀ r < n, ops r ≠ [])
    (hX : VecIn n (inSum b (allOps n ops)) X) :
    ComputesOr n J (fun r c x => if b then (bdPrim n ops none dt r).rmv c x else (bdPrim n ops none dt r).mv c x) ⟨X, dx⟩ ⟨inL (!b) n ops, dt⟩ (blockDiag b (allOps n ops)) := by
  intro d hd
  have hlen : d.length = inSum b (allOps n ops) := by rw [hd.1]; simp [hX.shape]
  refine ⟨mem_blockDiag (mask := none) hok hlen hd.2, ?_⟩
  have ep : ∀ r, (if b then (bdPrim n ops none dt r).rmv (env n J r) (VSpace.vec ⟨X, dx⟩ n d r) else (bdPrim n ops none dt r).mv (env n J r) (VSpace.vec ⟨X, dx⟩ n d r))
      = blockDiagMv (ops r) none dt b ((List.range n).map fun q => [inSum b (ops q)]) ((List.range n).map fun q => [outSum b (ops q)]) (outSum b (allOps n ops)) (env n J r)
          (VSpace.vec ⟨X, dx⟩ n d r) := by
    intro r; cases b <;> rfl
  by_cases h : X.part = .scatter ∧ Near n X (inL b n ops)
  · left
    have hw := hX.wf hn
    have hcx : X.axis = 0 := by have := hw.axis_lt; rw [hX.shape] at this; simpa using this
    have h := runs_blockDiagMv (J := J) (mask := none) (conform_in hw hX.shape h.1 hcx) h.2 hok h0 (by simp) hd
    exact (h.congr (fun r _ => (ep r).symm) fun r _ => rfl).always
  · right
    have h := blockDiag_raises (J := J) (dt := dt) (mask := none) (ops := ops) (b := b) (lout := fun _ => (List.range n).map fun q => [outSum b (ops q)])
      (M := fun _ => outSum b (allOps n ops)) hn hX (fun hp hN => h ⟨hp, hN⟩) hd
    exact h.congr fun r _ => (ep r).symm

/-! ### MPILaplacian -/

variable {sd : Serial K SDKind} {kind : SDKind}

/-- What is needed of an axis, a sampling step and a weight: the step is real and not zero, the serial operators for the axes other than the first are correct, a real operator has
    real weights.  Nothing is asked of the number of rows. -/
def LapFits (sd : Serial K SDKind) (n N : Nat) (rest : List Nat) (edge : Bool) (dt : DType) (k : SDKind) (p : Nat × K × Scal K) : Prop :=
  LTerm.Fits sd n N rest edge dt ⟨p.1, p.2.1, k⟩ ∧ (dt = .real → p.2.2.dtype = .real ∧ star p.2.2.val = p.2.2.val)

theorem lapFns_typed (hn : 0 < n) (hN : 1 ≤ N) (hdt : dt = .real → dx = .real) (hX : VecIn n (N * rest.prod) X) {b : Bool} {l : List (LTerm K × Scal K)}
    (hl : ∀ p ∈ l, (p.1.Fits sd n N rest edge dt ∧ (b = true → p.1.ax = 0 → ¬ sdSilent p.1.k n N)) ∧ (dt = .real → p.2.dtype = .real ∧ star p.2.val = p.2.val))
    {e : MOp K (LTerm K)} (he : TypedOr (lapFns sd n N rest edge dt) n J (lapPart sd n N rest edge dt) b e ⟨X, dx⟩ ⟨.flat n N rest, dt⟩) :
    TypedOr (lapFns sd n N rest edge dt) n J (lapPart sd n N rest edge dt) b (lapExpr e l) ⟨X, dx⟩ ⟨.flat n N rest, dt⟩ := by
  induction l generalizing e with
  | nil => exact he
  | cons p l ih =>
    obtain ⟨t, w⟩ := p
    have hp' := hl (t, w) (by simp)
    exact ih (fun p hp => hl p (by simp [hp])) ⟨he, lap_safe hn hN hdt hX hp'.1.1 hp'.1.2, hp'.2⟩

theorem lapFns_den (hn : 0 < n) {e : MOp K (LTerm K)} {d : List K} (hd : d.length = N * rest.prod) (hl : (den (lapFns sd n N rest edge dt) false e d).length = N * rest.prod)
    {l : List (LTerm K × Scal K)} (hg : ∀ p ∈ l, p.1.Fits sd n N rest edge dt) :
    den (lapFns sd n N rest edge dt) false (lapExpr e l) d =
      vadd (den (lapFns sd n N rest edge dt) false e d) (vsum (N * rest.prod) (l.map fun p => vscale p.2.val (p.1.fwd N rest edge d))) := by
  induction l generalizing e with
  | nil => exact (vadd_zero hl).symm
  | cons p l ih =>
    obtain ⟨t, w⟩ := p
    have ht := hg (t, w) (by simp)
    have e1 : den (lapFns sd n N rest edge dt) false (.sum e (.scaled (.leaf t) w)) d
        = vadd (den (lapFns sd n N rest edge dt) false e d) (vscale w.val (t.fwd N rest edge d)) := by
      simp only [den]
      congr 2
      simp [lapFns, if_pos ht]
    have hl2 : (vscale w.val (t.fwd N rest edge d)).length = N * rest.prod := by
      have := lapFns_sized (sd := sd) (edge := edge) (dt := dt) (N := N) (rest := rest) hn t false d hd
      simp only [lapFns, if_pos ht, Bool.false_eq_true, if_false] at this
      simpa [vscale, dimOf] using this
    rw [lapExpr, ih (by rw [e1, length_vadd, hl, hl2, Nat.min_self]) (fun p hp => hg p (by simp [hp])), e1, List.map_cons, vsum_cons, vadd_assoc]


theorem lapPart_shaped {e : MOp K (LTerm K)} (h : Shaped (lapFns sd n N rest edge dt).sh e) (he : e.shape (lapFns sd n N rest edge dt).sh = (N * rest.prod, N * rest.prod))
    (l : List (LTerm K × Scal K)) : Shaped (lapFns sd n N rest edge dt).sh (lapExpr e l) := by
  induction l generalizing e with
  | nil => exact h
  | cons p l ih => exact ih ⟨h, trivial, he⟩ he

theorem lapFns_shape {e : MOp K (LTerm K)} (he : e.shape (lapFns sd n N rest edge dt).sh = (N * rest.prod, N * rest.prod)) (l : List (LTerm K × Scal K)) :
    (lapExpr e l).shape (lapFns sd n N rest edge dt).sh = (N * rest.prod, N * rest.prod) := by
  induction l generalizing e with
  | nil => exact he
  | cons p l ih => exact ih he

theorem runs_lapFits (ht : t.Fits sd n N rest edge dt) :
    Runs n (fun r => lapTerm (env n J r) sd (N :: rest) edge dt t.ax t.s t.k) (fun r => .ok (lapPart sd n N rest edge dt t r)) := by
  unfold lapTerm
  by_cases h0 : t.ax = 0
  · simp only [if_pos h0]
    exact (Runs.ret _).congr (fun _ _ => rfl) fun r _ => by simp [lapPart, if_pos ht, if_pos h0]
  · simp only [if_neg h0, localSplit_env]
    obtain ⟨a, ha⟩ : ∃ a, t.ax = a + 1 := ⟨t.ax - 1, by omega⟩
    have h := runs_mkBlockDiag (J := J) (mask := none) (n := n) (dtype := none) (dt := dt) (ops := fun r => [t.ops sd n N rest edge dt r]) (fun r _ => by
      simp [opsDType, ((ht.serial a ha).2 r).dtype])
    exact h.congr (fun _ _ => rfl) fun r _ => by simp [lapPart, if_pos ht, if_neg h0]

theorem runs_lapFitsLoop (hn : 0 < n) {l : List (Nat × K × Scal K)} (hl : ∀ p ∈ l, LTerm.Fits sd n N rest edge dt ⟨p.1, p.2.1, .centered⟩) {e : MOp K (LTerm K)}
    (he : e.shape (lapFns sd n N rest edge dt).sh = (N * rest.prod, N * rest.prod)) :
    Runs n (fun r => lapLoop (env n J r) sd (N :: rest) edge dt l (e.map (lapPart sd n N rest edge dt · r)))
      (fun r => .ok ((lapExpr e (l.map fun p => (⟨p.1, p.2.1, .centered⟩, p.2.2))).map (lapPart sd n N rest edge dt · r))) := by
  induction l generalizing e with
  | nil => exact Runs.ret _
  | cons p l ih =>
    obtain ⟨ax, s, w⟩ := p
    simp only [lapLoop, Prog.bind_eq]
    have ht := hl (ax, s, w) (by simp)
    refine Runs.bind_ok (runs_lapFits ht) ?_
    refine (ih (fun p hp => hl p (by simp [hp])) (e := .sum e (.scaled (.leaf ⟨ax, s, .centered⟩) w)) he).congr (fun r _ => ?_) fun _ _ => rfl
    have hsh : (e.map (lapPart sd n N rest edge dt · r)).shape Prim.shape = (N * rest.prod, N * rest.prod) := by
      rw [shape_map (lv := lapFns sd n N rest edge dt) (prim := lapPart sd n N rest edge dt) e fun t => lapPart_shape hn t r, he]
    have hsh2 : (MOp.scaled (.leaf (lapPart sd n N rest edge dt ⟨ax, s, .centered⟩ r)) w : MOp K (Prim K)).shape Prim.shape = (N * rest.prod, N * rest.prod) :=
      lapPart_shape hn _ r
    unfold MOp.add
    rw [if_neg (by rw [hsh, hsh2]; simp)]
    rfl

theorem lapRun_safe (hn : 0 < n) (hN : 1 ≤ N) {p0 : Nat × K × Scal K} {l : List (Nat × K × Scal K)} (h0 : LapFits sd n N rest edge dt kind p0)
    (hl : ∀ p ∈ l, LapFits sd n N rest edge dt .centered p) (hdt : dt = .real → dx = .real)
    (hX : VecIn n (N * rest.prod) X) {b : Bool} (hb : b = true → p0.1 = 0 → ¬ sdSilent kind n N) :
    ComputesOr n J (fun _ => lapRun sd (N :: rest) ((p0 :: l).map (·.1)) ((p0 :: l).map (·.2.2)) ((p0 :: l).map (·.2.1)) edge kind dt b) ⟨X, dx⟩ ⟨.flat n N rest, dt⟩
      (den (lapFns sd n N rest edge dt) b (lapExpr (.scaled (.leaf ⟨p0.1, p0.2.1, kind⟩) p0.2.2) (l.map fun p => (⟨p.1, p.2.1, .centered⟩, p.2.2)))) := by
  set e : MOp K (LTerm K) := lapExpr (.scaled (.leaf ⟨p0.1, p0.2.1, kind⟩) p0.2.2) (l.map fun p => (⟨p.1, p.2.1, .centered⟩, p.2.2)) with he
  have hax : ∀ {k p}, LapFits sd n N rest edge dt k p → p.1 < rest.length + 1 := by
    intro k p h
    cases e : p.1 with
    | zero => omega
    | succ a => have := (h.1.serial a e).1; omega
  have hsh : e.shape (lapFns sd n N rest edge dt).sh = (N * rest.prod, N * rest.prod) := lapFns_shape rfl _
  have hshd : Shaped (lapFns sd n N rest edge dt).sh e :=
    lapPart_shaped (e := .scaled (.leaf ⟨p0.1, p0.2.1, kind⟩) p0.2.2) trivial rfl _
  have ht : TypedOr (lapFns sd n N rest edge dt) n J (lapPart sd n N rest edge dt) b e ⟨X, dx⟩ ⟨.flat n N rest, dt⟩ := by
    refine lapFns_typed hn hN hdt hX (fun q hq => ?_) ⟨lap_safe hn hN hdt hX h0.1 hb, h0.2⟩
    obtain ⟨p, hp, rfl⟩ := List.mem_map.1 hq
    exact ⟨⟨(hl p hp).1, fun _ _ h => h⟩, (hl p hp).2⟩
  obtain ⟨e', hH, -, hH3⟩ := H_shaped _ hshd
  have hc : ComputesOr n J (fun r c x => MOp.run c false ((if b then e' else e).map (lapPart sd n N rest edge dt · r)) x) ⟨X, dx⟩ ⟨.flat n N rest, dt⟩
      (den (lapFns sd n N rest edge dt) b e) := by
    cases b with
    | false => exact typedOr_safe ht
    | true =>
      have := typedOr_safe (typedOr_H hH (b := false) ht)
      have ed : den (lapFns sd n N rest edge dt) false e' = den (lapFns sd n N rest edge dt) true e := funext fun x => den_H hH false x
      rw [ed] at this
      exact this
  refine ComputesOr.intro fun d hd => ⟨hc.mem hd, ?_⟩
  unfold lapRun mkLaplacian
  have c1 : ((p0 :: l).map (·.1)).any ((N :: rest).length ≤ ·) = false := by
    rw [List.any_eq_false]
    intro a ha
    obtain ⟨p, hp, rfl⟩ := List.mem_map.1 ha
    have : p.1 < rest.length + 1 := by
      rcases List.mem_cons.1 hp with rfl | hp
      · exact hax h0
      · exact hax (hl p hp)
    simpa using by omega
  have c2 : ((p0 :: l).map (·.1)).zip (((p0 :: l).map (·.2.1)).zip ((p0 :: l).map (·.2.2))) = p0 :: l := by
    generalize p0 :: l = q
    induction q with
    | nil => rfl
    | cons a q ih => simp [ih]
  simp only [c1, c2, Bool.false_eq_true, if_false, List.length_map, and_self, not_true_eq_false, Prog.bind_eq]
  have hs : ∀ r, (e.map (lapPart sd n N rest edge dt · r)).shape Prim.shape = (N * rest.prod, N * rest.prod) := fun r => by
    rw [shape_map (lv := lapFns sd n N rest edge dt) (prim := lapPart sd n N rest edge dt) e fun t => lapPart_shape hn t r, hsh]
  refine RunsOr.bind_ok (a := fun r => (⟨N * rest.prod, N * rest.prod, dt, fun c x => MOp.run c false (e.map (lapPart sd n N rest edge dt · r)) x,
      fun c x => MOp.run c false (e'.map (lapPart sd n N rest edge dt · r)) x⟩ : Prim K)) ?_ ?_
  · refine Runs.or (Runs.bind_ok (runs_lapFits h0.1) ?_)
    refine Runs.bind_ok (a := fun r => e.map (lapPart sd n N rest edge dt · r))
      (runs_lapFitsLoop hn (fun p hp => (hl p hp).1) (e := .scaled (.leaf ⟨p0.1, p0.2.1, kind⟩) p0.2.2) rfl) ?_
    refine (Runs.ret _).congr (fun r _ => ?_) fun _ _ => rfl
    rw [hs r, H_map (sh := (lapFns sd n N rest edge dt).sh) (fun t => lapPart_shape hn t r) hH]
    rfl
  · have := runsOr_checkDim (n := n) (b := b) (S := ⟨X, dx⟩) (d := d) (sh := (N * rest.prod, N * rest.prod)) (fun _ _ => rfl) (by cases b <;> exact hX.shape) (hc.runs hd)
    refine this.congr (fun r _ => ?_) fun _ _ => rfl
    simp only [MOp.run, Prim.shape]
    cases b <;> rfl


/-- **C83** (MPILaplacian, matvec).  For every number of rows and ranks and every layout of the input, the result is the weighted sum of the second differences, of the kind
    that is asked for along the first of the axes and centered along the others (see C33), or some rank raises. -/
theorem C83_laplacian (hn : 0 < n) (hN : 1 ≤ N) {p0 : Nat × K × Scal K} {l : List (Nat × K × Scal K)} (h0 : LapFits sd n N rest edge dt kind p0)
    (hl : ∀ p ∈ l, LapFits sd n N rest edge dt .centered p) (hdt : dt = .real → dx = .real)
    (hX : VecIn n (N * rest.prod) X) :
    ComputesOr n J (fun _ => lapRun sd (N :: rest) ((p0 :: l).map (·.1)) ((p0 :: l).map (·.2.2)) ((p0 :: l).map (·.2.1)) edge kind dt false) ⟨X, dx⟩ ⟨.flat n N rest, dt⟩
      (laplacian edge (N :: rest) ((p0.1, p0.2.1, kind, p0.2.2.val) :: l.map fun p => (p.1, p.2.1, .centered, p.2.2.val))) := by
  intro d hd
  have h := lapRun_safe (J := J) (b := false) hn hN h0 hl hdt hX (by simp) d hd
  have hd' : d.length = N * rest.prod := by rw [hd.1]; simp [hX.shape]
  have e1 : den (lapFns sd n N rest edge dt) false (.scaled (.leaf ⟨p0.1, p0.2.1, kind⟩) p0.2.2) d
      = vscale p0.2.2.val (alongAxis (sdAt kind edge) (p0.2.1 ^ 2) p0.1 (N :: rest) d) := by
    simp only [den]
    congr 1
    simp [lapFns, if_pos h0.1, LTerm.fwd]
  have e2 := length_den (lv := lapFns sd n N rest edge dt) (lapFns_sized hn) (e := .scaled (.leaf ⟨p0.1, p0.2.1, kind⟩) p0.2.2) trivial (b := false) (x := d) hd'
  rw [lapFns_den hn hd' e2 (fun q hq => by obtain ⟨p, hp, rfl⟩ := List.mem_map.1 hq; exact (hl p hp).1), e1] at h
  unfold laplacian
  rw [List.map_cons, vsum_cons, List.map_map]
  rw [List.map_map, show N * rest.prod = (N :: rest).prod from (List.prod_cons).symm] at h
  exact h

/-- one adjoint for all layouts of the input -/
theorem lap_adjoint_all (hn : 0 < n) (hN : 1 ≤ N) {p0 : Nat × K × Scal K} {l : List (Nat × K × Scal K)} (h0 : LapFits sd n N rest edge dt kind p0)
    (hl : ∀ p ∈ l, LapFits sd n N rest edge dt .centered p) (hdt : dt = .real → dx = .real)
    (hs : p0.1 = 0 → ¬ sdSilent kind n N) :
    ∃ g : List K → List K, (∀ X, VecIn n (N * rest.prod) X →
      ComputesOr n J (fun _ => lapRun sd (N :: rest) ((p0 :: l).map (·.1)) ((p0 :: l).map (·.2.2)) ((p0 :: l).map (·.2.1)) edge kind dt true) ⟨X, dx⟩ ⟨.flat n N rest, dt⟩ g) ∧
      ∀ u v : List K, u.length = N * rest.prod → v.length = N * rest.prod →
        ip (laplacian edge (N :: rest) ((p0.1, p0.2.1, kind, p0.2.2.val) :: l.map fun p => (p.1, p.2.1, .centered, p.2.2.val)) u) v = ip u (g v) := by
  refine ⟨_, fun X hX => lapRun_safe hn hN h0 hl hdt hX fun _ => hs, fun u v hu hv => ?_⟩
  rw [← C28_adjoint (lv := lapFns sd n N rest edge dt) (lapFns_sized hn) (lapFns_adjoint hn) (lapPart_shaped (e := .scaled (.leaf ⟨p0.1, p0.2.1, kind⟩) p0.2.2) trivial rfl _)
    (by rw [lapFns_shape rfl]; exact hu) (by rw [lapFns_shape rfl]; exact hv)]
  congr 1
  have e1 : den (lapFns sd n N rest edge dt) false (.scaled (.leaf ⟨p0.1, p0.2.1, kind⟩) p0.2.2) u
      = vscale p0.2.2.val (alongAxis (sdAt kind edge) (p0.2.1 ^ 2) p0.1 (N :: rest) u) := by
    simp only [den]
    congr 1
    simp [lapFns, if_pos h0.1, LTerm.fwd]
  have e2 := length_den (lv := lapFns sd n N rest edge dt) (lapFns_sized hn) (e := .scaled (.leaf ⟨p0.1, p0.2.1, kind⟩) p0.2.2) trivial (b := false) (x := u) hu
  rw [lapFns_den hn hu e2 (fun q hq => by obtain ⟨p, hp, rfl⟩ := List.mem_map.1 hq; exact (hl p hp).1), e1]
  unfold laplacian
  rw [List.map_cons, vsum_cons, List.map_map, List.map_map, List.prod_cons]
  rfl

/-- **C83** (MPILaplacian, rmatvec; partial: but for the numbers of rows where the forward kind is silently wrong, see C65).  The result is that of the adjoint, or some rank raises. -/
theorem C83_laplacian_adjoint_partial (hn : 0 < n) (hN : 1 ≤ N) {p0 : Nat × K × Scal K} {l : List (Nat × K × Scal K)} (h0 : LapFits sd n N rest edge dt kind p0)
    (hl : ∀ p ∈ l, LapFits sd n N rest edge dt .centered p) (hdt : dt = .real → dx = .real)
    (hX : VecIn n (N * rest.prod) X) (hs : p0.1 = 0 → ¬ sdSilent kind n N) :
    ∃ g : List K → List K,
      ComputesOr n J (fun _ => lapRun sd (N :: rest) ((p0 :: l).map (·.1)) ((p0 :: l).map (·.2.2)) ((p0 :: l).map (·.2.1)) edge kind dt true) ⟨X, dx⟩ ⟨.flat n N rest, dt⟩ g ∧
      ∀ u v : List K, u.length = N * rest.prod → v.length = N * rest.prod →
        ip (laplacian edge (N :: rest) ((p0.1, p0.2.1, kind, p0.2.2.val) :: l.map fun p => (p.1, p.2.1, .centered, p.2.2.val)) u) v = ip u (g v) := by
  obtain ⟨g, h1, h2⟩ := lap_adjoint_all (J := J) hn hN h0 hl hdt hs
  exact ⟨g, h1 X hX, h2⟩

/-! ### MPIGradient -/

variable {fd : Serial K FDKind} {k : FDKind}

/-- What is needed of the sampling steps: one for each axis, real and not zero; the serial operators for the axes other than the first are correct.  Nothing is asked of the
    number of rows. -/
def GradFits (fd : Serial K FDKind) (n N : Nat) (rest : List Nat) (k : FDKind) (edge : Bool) (dt : DType) (sampling : List K) : Prop :=
  sampling.length = rest.length + 1 ∧ ∀ t ∈ gterms 0 sampling, t.Fits fd n N rest k edge dt

theorem runs_gradFitsLoop {l : List K} : ∀ {ax : Nat}, (∀ t ∈ gterms (ax + 1) l, t.Fits fd n N rest k edge dt) →
    Runs n (fun r => gradLoop (env n J r) fd (N :: rest) edge k dt (ax + 1) l)
      (fun r => .ok ((gterms (ax + 1) l).map fun t => (.leaf (gradPart fd n N rest k edge dt t r) : MOp K (Prim K)))) := by
  induction l with
  | nil => intro ax _; exact Runs.ret _
  | cons s l ih =>
    intro ax h
    have ht : GTerm.Fits fd n N rest k edge dt ⟨ax + 1, s⟩ := h _ (by simp [gterms])
    simp only [gradLoop, localSplit_env, Prog.bind_eq]
    have h1 := runs_mkBlockDiag (J := J) (mask := none) (n := n) (dtype := none) (dt := dt) (ops := fun r => [GTerm.ops fd n N rest k edge dt ⟨ax + 1, s⟩ r]) (fun r _ => by
      simp [opsDType, ((ht.serial ax rfl).2 r).dtype])
    refine Runs.bind_ok (a := fun r => gradPart fd n N rest k edge dt ⟨ax + 1, s⟩ r) (h1.congr (fun _ _ => rfl) fun r _ => by
      simp [gradPart, if_pos ht]) ?_
    exact Runs.bind_ok (ih fun t ht => h t (by simp [gterms, ht])) (Runs.ret _)

theorem runs_mkGradFits (hn : 0 < n) {sampling : List K} (h : GradFits fd n N rest k edge dt sampling) :
    Runs n (fun r => mkGradient (env n J r) fd (N :: rest) sampling edge k dt)
      (fun r => .ok ((SOp.grad ((gterms 0 sampling).map .leaf)).map (gradPart fd n N rest k edge dt · r))) := by
  obtain ⟨hl, hg⟩ := h
  unfold mkGradient
  rw [List.take_of_length_le (by simp [hl])]
  cases sampling with
  | nil => simp at hl
  | cons s l =>
    simp only [Prog.bind_eq]
    have h0 := hg ⟨0, s⟩ (by simp [gterms])
    refine Runs.bind_ok (runs_gradFitsLoop (ax := 0) fun t ht => hg t (by simp [gterms]; exact .inr ht)) ?_
    refine (Runs.ret _).congr (fun r _ => ?_) fun _ _ => rfl
    have e0 : gradPart fd n N rest k edge dt ⟨0, s⟩ r = firstDerivative k ⟨N :: rest, s, edge, dt⟩ := by simp [gradPart, if_pos h0]
    have hsh : ∀ t : GTerm K, ((MOp.leaf (gradPart fd n N rest k edge dt t r) : MOp K (Prim K)).shape Prim.shape).2 = N * rest.prod :=
      fun t => congrArg Prod.snd (gradPart_shape hn t r)
    rw [if_neg (by simp at hl ⊢; omega)]
    unfold SOp.mkVStack
    dsimp only
    rw [← e0, if_neg]
    · simp [Prog.lift, SOp.map, gterms, MOp.map, Function.comp_def]
    · simp only [List.any_map, List.any_eq_true, Function.comp_apply, hsh]
      simp

theorem gradFns_eq {l : List K} (hl : ∀ t ∈ gterms ax l, t.Fits fd n N rest k edge dt) (d : List K) :
    vcat false (((gterms ax l).map .leaf).map (MOp.toLOp (gradFns fd n N rest k edge dt))) d = gradient k edge (N :: rest) ax l d := by
  induction l generalizing ax with
  | nil => rfl
  | cons s l ih =>
    have h0 := hl ⟨ax, s⟩ (by simp [gterms])
    have := ih (ax := ax + 1) fun t ht => hl t (by simp [gterms]; exact .inr ht)
    simp only [vcat, gterms, List.map_cons, List.flatMap_cons, gradient] at this ⊢
    rw [this]
    congr 1
    simp [LOp.fn, MOp.toLOp, den, gradFns, if_pos h0, GTerm.fwd]

/-- **C83** (MPIGradient, matvec).  For every number of rows and ranks, kind and layout of the input, the result is the stack of the first differences along all axes, or some
    rank raises. -/
theorem C83_gradient (hn : 0 < n) (hN : 1 ≤ N) {sampling : List K} (h : GradFits fd n N rest k edge dt sampling) (hdt : dt = .real → dx = .real)
    (hX : VecIn n (N * rest.prod) X) :
    XComputesOr n J (fun _ => gradRun fd (N :: rest) sampling edge k dt false) (.one ⟨X, dx⟩) (.stack (List.replicate (rest.length + 1) ⟨.flat n N rest, dt⟩))
      (gradient k edge (N :: rest) 0 sampling) := by
  have ht : STypedOr (gradFns fd n N rest k edge dt) n J (gradPart fd n N rest k edge dt) false (.grad ((gterms 0 sampling).map .leaf)) (.one ⟨X, dx⟩)
      (.stack (List.replicate (rest.length + 1) ⟨.flat n N rest, dt⟩)) := by
    have hl : (gterms 0 sampling).length = rest.length + 1 := (length_gterms _ _).trans h.1
    refine ⟨by intro e; simp at e; simp [e] at hl, ?_⟩
    rw [← hl, ← List.map_const', List.forall₂_map_left_iff, List.forall₂_map_right_iff, List.forall₂_same]
    exact fun t ht => grad_safe hn hN hdt hX (h.2 t ht) (by simp)
  intro d hd
  obtain ⟨h1, h2⟩ := stypedOr_safe ht d hd
  have e : sden (gradFns fd n N rest k edge dt) false (.grad ((gterms 0 sampling).map .leaf)) d = gradient k edge (N :: rest) 0 sampling d := gradFns_eq h.2 d
  rw [e] at h1 h2
  refine ⟨h1, ?_⟩
  unfold gradRun
  exact (RunsOr.bind_ok (runs_mkGradFits hn h).or (h2.imp Always.runs id)).imp Runs.always id

/-- **C83** (MPIGradient, rmatvec; partial: but for the numbers of rows where a kind is silently wrong, see C65).  The components of the input may be laid out differently and even be held
    by all ranks. -/
theorem C83_gradient_adjoint_partial (hn : 0 < n) (hN : 1 ≤ N) (hs : ¬ fdSilent k edge n N) {sampling : List K} (h : GradFits fd n N rest k edge dt sampling) {Ss : SSpace} (hS : Ss.length = rest.length + 1)
    (hV : ∀ V ∈ Ss, (dt = .real → V.dt = .real) ∧ VecIn n (N * rest.prod) V.L) :
    ∃ g : List K → List K,
      XComputesOr n J (fun _ => gradRun fd (N :: rest) sampling edge k dt true) (.stack Ss) (.one ⟨.flat n N rest, dt⟩) g ∧
      ∀ u v : List K, u.length = N * rest.prod → v.length = (rest.length + 1) * (N * rest.prod) → ip (gradient k edge (N :: rest) 0 sampling u) v = ip u (g v) := by
  have hl : (gterms 0 sampling).length = rest.length + 1 := (length_gterms _ _).trans h.1
  have h0 : ((gterms 0 sampling).map .leaf : List (MOp K (GTerm K))) ≠ [] := by intro e; simp at e; simp [e] at hl
  have ht : STypedOr (gradFns fd n N rest k edge dt) n J (gradPart fd n N rest k edge dt) true (.grad ((gterms 0 sampling).map .leaf)) (.stack Ss)
      (.one ⟨.flat n N rest, dt⟩) := by
    refine ⟨h0, ?_⟩
    rw [List.forall₂_map_left_iff, List.forall₂_iff_get]
    refine ⟨by rw [hl, hS], fun i h1 h2 => ?_⟩
    obtain ⟨k1, k2⟩ := hV _ (List.get_mem Ss ⟨i, h2⟩)
    exact grad_safe hn hN k1 k2 (h.2 _ (List.get_mem _ _)) fun _ _ => hs
  refine ⟨_, fun d hd => ⟨(stypedOr_safe ht d hd).1, ?_⟩, fun u v hu hv => ?_⟩
  · unfold gradRun
    exact (RunsOr.bind_ok (runs_mkGradFits hn h).or ((stypedOr_safe ht d hd).2.imp Always.runs id)).imp Runs.always id
  · have hcol : (SOp.vshape (gradFns fd n N rest k edge dt).sh ((gterms 0 sampling).map .leaf : List (MOp K (GTerm K)))).2 = N * rest.prod := by
      cases e : gterms 0 sampling with
      | nil => simp [e] at hl
      | cons t l => rfl
    have hrow : (SOp.vshape (gradFns fd n N rest k edge dt).sh ((gterms 0 sampling).map .leaf : List (MOp K (GTerm K)))).1 = (rest.length + 1) * (N * rest.prod) := by
      rw [← hl]
      simp only [SOp.vshape, List.map_map]
      rw [show ((fun o : MOp K (GTerm K) => (o.shape (gradFns fd n N rest k edge dt).sh).1) ∘ MOp.leaf) = fun _ => N * rest.prod from rfl]
      simp
    have := C36_vstack_adjoint (lv := gradFns fd n N rest k edge dt) (gradFns_sized hn) (gradFns_adjoint hn) (ops := (gterms 0 sampling).map .leaf)
      ⟨h0, fun o ho => by obtain ⟨t, -, rfl⟩ := List.mem_map.1 ho; trivial, fun o ho => by obtain ⟨t, -, rfl⟩ := List.mem_map.1 ho; exact hcol.symm⟩
      (u := u) (v := v) (hu.trans hcol.symm) (hv.trans hrow.symm)
    rw [← gradFns_eq h.2]
    exact this

/-! ### Examples -/

theorem LTerm.Good.fits {t : LTerm K} (h : t.Good sd n N rest edge dt) : t.Fits sd n N rest edge dt := ⟨h.s0, h.sr, h.serial⟩
theorem GTerm.Good.fits {t : GTerm K} (h : t.Good fd n N rest k edge dt) : t.Fits fd n N rest k edge dt := ⟨h.s0, h.sr, h.serial⟩

theorem lapFitsEx : LapFits refSD 3 2 [3] true .real .centered (0, 2, ⟨.real, 1⟩) ∧ ∀ p ∈ [((1 : Nat), (5 : ℚ), (⟨.real, 3⟩ : Scal ℚ))], LapFits refSD 3 2 [3] true .real .centered p := by
  refine ⟨⟨⟨by norm_num, rfl, fun a h => by cases h⟩, fun _ => ⟨rfl, rfl⟩⟩, fun p hp => ?_⟩
  obtain rfl : p = (1, 5, ⟨.real, 3⟩) := by simpa using hp
  exact ⟨(refSD_good (by norm_num) (fun h => by cases h) (by simp) (fun N hN => (show N = 3 by simpa using hN) ▸ (by decide : 3 * 1 ≤ 3))).fits, fun _ => ⟨rfl, rfl⟩⟩

theorem gradFitsEx : GradFits refFD 3 2 [3] .centered3 true .real [2, 5] := by
  refine ⟨rfl, fun t ht => ?_⟩
  simp only [gterms, List.mem_cons, List.not_mem_nil, or_false] at ht
  rcases ht with rfl | rfl
  · exact ⟨by norm_num, rfl, fun a h => by cases h⟩
  · exact (refFD_good (by norm_num) (fun h => by cases h) (by simp) (fun N hN => (show N = 3 by simpa using hN) ▸ (.inl (by decide) : 2 * 1 ≤ 3 ∨ _))).fits

/-- Non-vacuity: two rows on three ranks, so that the last rank has none, and an input held by all ranks. -/
example : ComputesOr 3 (fun _ _ => (0 : ℚ)) (fun _ => lapRun refSD [2, 3] [0, 1] [⟨.real, 1⟩, ⟨.real, 3⟩] [2, 5] true .centered .real false) ⟨.all 6, .real⟩ ⟨.flat 3 2 [3], .real⟩
    (laplacian true [2, 3] [(0, 2, .centered, 1), (1, 5, .centered, 3)]) :=
  C83_laplacian (n := 3) (N := 2) (rest := [3]) (by decide) (by decide) lapFitsEx.1 lapFitsEx.2 (fun _ => rfl) (.inr rfl)

example : XComputesOr 3 (fun _ _ => (0 : ℚ)) (fun _ => gradRun refFD [2, 3] [2, 5] true .centered3 .real false) (.one ⟨.lin 6 fun r => [1, 3, 2].getD r 0, .real⟩)
    (.stack (List.replicate 2 ⟨.flat 3 2 [3], .real⟩)) (gradient .centered3 true [2, 3] 0 [2, 5]) :=
  C83_gradient (n := 3) (N := 2) (rest := [3]) (by decide) (by decide) gradFitsEx (fun _ => rfl) (.inl ⟨lin_wf (by decide) (by simp), rfl, rfl⟩)

/-- The exception for the transposed operator is needed: with one row on two ranks the forward gradient has the first component zero, but `rmatvec` returns minus the first
    component of its input, and no rank raises. -/
theorem C83_violated_adjoint :
    Always 2 (fun r => do
        let y ← gradRun refFD [1, 2] [1, 1] false .forward .real true (env 2 (fun _ _ => 0) r)
          (XSpace.vec 2 (.stack (List.replicate 2 ⟨.flat 2 1 [2], .real⟩)) [(1 : ℚ), 1, 0, 0] r)
        .ret (match y with | .one y => y.larr.data | .stack _ => []))
      (fun r => [.ok [-1, -1], .ok []].getD r (.error .protocol)) ∧
    ∀ u : List ℚ, ip (gradient .forward false [1, 2] 0 [1, 1] u) [1, 1, 0, 0] = 0 := by
  refine ⟨(runs_of_sim 100 (n := 2) (out := [.ok [-1, -1], .ok []]) (by decide +kernel) rfl).always, fun u => ?_⟩
  simp [gradient, alongAxis, alongRows, tab, fdAt, ip, onBlocks, List.range_succ]



end Verif

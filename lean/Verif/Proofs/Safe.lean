/- Expressions of operators that give the right result or raise: as Proofs/Algebra.lean and Proofs/StackedOperator.lean, with the alternative that some rank raises. -/
import Verif.Spec.Safe
import Verif.Proofs.StackedOperator
import Verif.Proofs.Methods

set_option linter.unusedSectionVars false

namespace Verif
open NDArray

section
variable {K : Type} [Field K] [StarRing K] [CharZero K] {n : Nat} {α β : Type}

/-- all ranks end with `ρ`, or some rank raises -/
def RunsOr (n : Nat) (ps : Nat → P K α) (ρ : Nat → Except Err α) : Prop := Runs n ps ρ ∨ Raises n ps

theorem Runs.or {ps : Nat → P K α} {ρ : Nat → Except Err α} (h : Runs n ps ρ) : RunsOr n ps ρ := .inl h

theorem Raises.congr {ps qs : Nat → P K α} (h : Raises n ps) (e : ∀ r < n, ps r = qs r) : Raises n qs := by
  obtain ⟨m, hm, er, h⟩ := h
  exact ⟨m, hm, er, h.congr_prog e hm⟩

theorem Raises.bind {ps : Nat → P K α} (h : Raises n ps) (k : Nat → α → P K β) : Raises n (fun r => (ps r).bind (k r)) := by
  obtain ⟨m, hm, er, h⟩ := h
  exact ⟨m, hm, er, h.bind_error k⟩

theorem RunsOr.congr {ps ps' : Nat → P K α} {ρ ρ' : Nat → Except Err α} (h : RunsOr n ps ρ) (he : ∀ r < n, ps r = ps' r) (hρ : ∀ r < n, ρ r = ρ' r) : RunsOr n ps' ρ' :=
  h.imp (fun h => h.congr he hρ) (fun h => h.congr he)

theorem RunsOr.bind_ok {ps : Nat → P K α} {a : Nat → α} {k : Nat → α → P K β} {ρ : Nat → Except Err β} (h : RunsOr n ps (fun r => .ok (a r)))
    (h2 : RunsOr n (fun r => k r (a r)) ρ) : RunsOr n (fun r => (ps r).bind (k r)) ρ := by
  rcases h with h | h
  · rcases h2 with h2 | ⟨m, hm, er, h2⟩
    · exact .inl (Runs.bind_ok h h2)
    · exact .inr ⟨m, hm, er, rankEnds_bind_ok hm h h2⟩
  · exact .inr (h.bind k)

theorem RunsOr.map_ok {ps : Nat → P K α} {a : Nat → α} (f : α → β) (h : RunsOr n ps (fun r => .ok (a r))) :
    RunsOr n (fun r => (ps r).bind fun x => .ret (f x)) (fun r => .ok (f (a r))) := RunsOr.bind_ok h (Runs.ret _).or

end

variable {K ι : Type} [Field K] [StarRing K] [CharZero K] {lv : Leaves K ι} {n : Nat} {J : Nat → Nat → K} {prim : ι → Nat → Prim K}

/-- shapes and layouts of a typed expression -/
theorem TypedOr.facts {e : MOp K ι} : ∀ {b : Bool} {S T : VSpace}, TypedOr lv n J prim b e S T →
    S.L.WF n ∧ T.L.WF n ∧ S.L.gshape = [dimOf (e.shape lv.sh) b] ∧ T.L.gshape = [dimOf (e.shape lv.sh) (!b)] ∧
      (∀ r < n, (e.map (prim · r)).shape Prim.shape = e.shape lv.sh) := by
  induction e with
  | leaf i => intro b S T h; exact ⟨h.2.1, h.2.2.1, h.2.2.2.1, h.2.2.2.2.1, h.1⟩
  | adj A ih =>
    intro b S T h
    obtain ⟨h1, h2, h3, h4, h5⟩ := ih (b := !b) h
    exact ⟨h1, h2, by rw [h3]; cases b <;> rfl, by rw [h4]; cases b <;> rfl, fun r hr => by simp [MOp.map, MOp.shape, h5 r hr]⟩
  | trans A ih =>
    intro b S T h
    obtain ⟨h1, h2, h3, h4, h5⟩ := ih (b := !b) h
    exact ⟨h1, h2, by rw [h3]; cases b <;> rfl, by rw [h4]; cases b <;> rfl, fun r hr => by simp [MOp.map, MOp.shape, h5 r hr]⟩
  | prod A B ihA ihB =>
    intro b S T h
    cases b with
    | false =>
      obtain ⟨U, hB, hA⟩ := h
      obtain ⟨h1, h2, h3, h4, h5⟩ := ihA hA
      obtain ⟨k1, k2, k3, k4, k5⟩ := ihB hB
      exact ⟨k1, h2, k3, h4, fun r hr => by simp [MOp.map, MOp.shape, h5 r hr, k5 r hr]⟩
    | true =>
      obtain ⟨U, hA, hB⟩ := h
      obtain ⟨h1, h2, h3, h4, h5⟩ := ihA hA
      obtain ⟨k1, k2, k3, k4, k5⟩ := ihB hB
      exact ⟨h1, k2, h3, k4, fun r hr => by simp [MOp.map, MOp.shape, h5 r hr, k5 r hr]⟩
  | scaled A s ih =>
    intro b S T h
    obtain ⟨h1, h2, h3, h4, h5⟩ := ih h.1
    exact ⟨h1, h2, h3, h4, fun r hr => by simp [MOp.map, MOp.shape, h5 r hr]⟩
  | sum A B ihA ihB =>
    intro b S T h
    obtain ⟨h1, h2, h3, h4, h5⟩ := ihA h.1
    exact ⟨h1, h2, h3, h4, fun r hr => by simp [MOp.map, MOp.shape, h5 r hr]⟩
  | pow A p ih =>
    intro b S T h
    obtain ⟨rfl, h⟩ := h
    obtain ⟨h1, h2, h3, h4, h5⟩ := ih h
    exact ⟨h1, h2, h3, h4, fun r hr => by simp [MOp.map, MOp.shape, h5 r hr]⟩
  | conj A ih =>
    intro b S T h
    obtain ⟨h1, h2, h3, h4, h5⟩ := ih (b := b) h
    exact ⟨h1, h2, h3, h4, fun r hr => by simp [MOp.map, MOp.shape, h5 r hr]⟩

/-- `ComputesOr` in terms of `RunsOr` -/
theorem ComputesOr.mem {mv : Nat → Ctx K → DArr K → P K (DArr K)} {S T : VSpace} {f : List K → List K} (h : ComputesOr n J mv S T f) {d : List K}
    (hd : S.Mem d) : T.Mem (f d) := (h d hd).1
theorem ComputesOr.runs {mv : Nat → Ctx K → DArr K → P K (DArr K)} {S T : VSpace} {f : List K → List K} (h : ComputesOr n J mv S T f) {d : List K}
    (hd : S.Mem d) : RunsOr n (fun r => mv r (env n J r) (S.vec n d r)) (fun r => .ok (T.vec n (f d) r)) := (h d hd).2.imp_left Always.runs
theorem ComputesOr.intro {mv : Nat → Ctx K → DArr K → P K (DArr K)} {S T : VSpace} {f : List K → List K}
    (h : ∀ d, S.Mem d → T.Mem (f d) ∧ RunsOr n (fun r => mv r (env n J r) (S.vec n d r)) (fun r => .ok (T.vec n (f d) r))) :
    ComputesOr n J mv S T f := fun d hd => ⟨(h d hd).1, (h d hd).2.imp_left Runs.always⟩

theorem XComputesOr.mem {mv : Nat → Ctx K → XArr K → P K (XArr K)} {S T : XSpace} {f : List K → List K} (h : XComputesOr n J mv S T f) {d : List K}
    (hd : S.Mem d) : T.Mem (f d) := (h d hd).1
theorem XComputesOr.runs {mv : Nat → Ctx K → XArr K → P K (XArr K)} {S T : XSpace} {f : List K → List K} (h : XComputesOr n J mv S T f) {d : List K}
    (hd : S.Mem d) : RunsOr n (fun r => mv r (env n J r) (S.vec n d r)) (fun r => .ok (T.vec n (f d) r)) := (h d hd).2.imp_left Always.runs
theorem XComputesOr.intro {mv : Nat → Ctx K → XArr K → P K (XArr K)} {S T : XSpace} {f : List K → List K}
    (h : ∀ d, S.Mem d → T.Mem (f d) ∧ RunsOr n (fun r => mv r (env n J r) (S.vec n d r)) (fun r => .ok (T.vec n (f d) r))) :
    XComputesOr n J mv S T f := fun d hd => ⟨(h d hd).1, (h d hd).2.imp_left Runs.always⟩

theorem runsOr_checkDim {sh : Nat × Nat} {b : Bool} {S : VSpace} {d : List K} {k : Nat → P K (DArr K)} {ρ : Nat → Except Err (DArr K)}
    {shs : Nat → Nat × Nat} (hs : ∀ r < n, shs r = sh) (hg : S.L.gshape = [dimOf sh b]) (h : RunsOr n k ρ) :
    RunsOr n (fun r => checkDim (shs r) b (S.vec n d r) (k r)) ρ := by
  refine h.congr (fun r hr => ?_) fun _ _ => rfl
  unfold checkDim
  rw [hs r hr, if_neg]
  have : (S.vec n d r : DArr K).gshape = S.L.gshape := rfl
  rw [this, hg]
  simp [dimOf]

theorem runsOr_powLoop {S : VSpace} (hS : S.L.WF n) {mv : Nat → Ctx K → DArr K → P K (DArr K)} {f : List K → List K} (h : ComputesOr n J mv S S f) (p : Nat) :
    ∀ {d : List K}, S.Mem d → S.Mem (f^[p] d) ∧
      RunsOr n (fun r => powLoop (env n J r) (mv r (env n J r)) p (S.vec n d r)) (fun r => .ok (S.vec n (f^[p] d) r)) := by
  induction p with
  | zero => intro d hd; exact ⟨hd, (Runs.ret _).or⟩
  | succ p ih =>
    intro d hd
    have hm := h.mem hd
    obtain ⟨i1, i2⟩ := ih hm
    refine ⟨by rw [Function.iterate_succ_apply]; exact i1, ?_⟩
    simp only [powLoop, Prog.bind_eq]
    refine RunsOr.bind_ok (h.runs hd) ?_
    refine RunsOr.bind_ok (a := fun r => S.vec n (f d) r) ?_ ?_
    · exact (runs_new_vec (S := S) (v := fun r => (S.vec n (f d) r).larr) hS hm (fun r _ => rfl) (fun r _ => rfl) (S.L.piece d)
        (fun r hr => (good_vec hS hd).length r hr)).or
    · rw [Function.iterate_succ_apply]; exact i2

theorem typedOr_safe {e : MOp K ι} : ∀ {b : Bool} {S T : VSpace}, TypedOr lv n J prim b e S T →
    ComputesOr n J (fun r c x => MOp.run c b (e.map (prim · r)) x) S T (den lv b e) := by
  induction e with
  | leaf i =>
    intro b S T h
    have hf := TypedOr.facts h
    refine ComputesOr.intro fun d hd => ⟨h.2.2.2.2.2.mem hd, ?_⟩
    have := runsOr_checkDim (b := b) (S := S) (d := d) h.1 h.2.2.2.1 (h.2.2.2.2.2.runs hd)
    refine this.congr (fun r _ => ?_) fun _ _ => rfl
    simp only [MOp.map, MOp.run]
  | adj A ih =>
    intro b S T h
    have hf := TypedOr.facts (e := .adj A) h
    refine ComputesOr.intro fun d hd => ⟨(ih h).mem hd, ?_⟩
    have := runsOr_checkDim (b := b) (S := S) (d := d) hf.2.2.2.2 hf.2.2.1 ((ih h).runs hd)
    refine this.congr (fun r _ => ?_) fun _ _ => rfl
    simp only [MOp.map, MOp.run]
  | trans A ih =>
    intro b S T h
    have hf := TypedOr.facts (e := .trans A) h
    refine ComputesOr.intro fun d hd => ⟨mem_conj ((ih (b := !b) h).mem (mem_conj hd)), ?_⟩
    have := runsOr_checkDim (b := b) (S := S) (d := d) hf.2.2.2.2 hf.2.2.1
      (RunsOr.bind_ok (k := fun r x => (MOp.run (env n J r) (!b) (A.map (prim · r)) x).bind fun y => y.conj (env n J r))
        ((runs_conj_vec (J := J) hf.1 hd).or) (RunsOr.bind_ok ((ih (b := !b) h).runs (mem_conj hd)) ((runs_conj_vec (J := J) hf.2.1 ((ih (b := !b) h).mem (mem_conj hd))).or)))
    refine this.congr (fun r _ => ?_) fun _ _ => rfl
    simp only [MOp.map, MOp.run, Prog.bind_eq]
  | prod A B ihA ihB =>
    intro b S T h
    have hf := TypedOr.facts (e := .prod A B) h
    cases b with
    | false =>
      obtain ⟨U, hB, hA⟩ := h
      refine ComputesOr.intro fun d hd => ⟨(ihA hA).mem ((ihB hB).mem hd), ?_⟩
      have := runsOr_checkDim (b := false) (S := S) (d := d) hf.2.2.2.2 hf.2.2.1 (RunsOr.bind_ok ((ihB hB).runs hd) ((ihA hA).runs ((ihB hB).mem hd)))
      refine this.congr (fun r _ => ?_) fun _ _ => rfl
      simp only [MOp.map, MOp.run, Prog.bind_eq]
    | true =>
      obtain ⟨U, hA, hB⟩ := h
      refine ComputesOr.intro fun d hd => ⟨(ihB hB).mem ((ihA hA).mem hd), ?_⟩
      have := runsOr_checkDim (b := true) (S := S) (d := d) hf.2.2.2.2 hf.2.2.1 (RunsOr.bind_ok ((ihA hA).runs hd) ((ihB hB).runs ((ihA hA).mem hd)))
      refine this.congr (fun r _ => ?_) fun _ _ => rfl
      simp only [MOp.map, MOp.run, Prog.bind_eq]
  | scaled A s ih =>
    intro b S T h
    have hf := TypedOr.facts (e := .scaled A s) h
    have hs : T.dt = .real → (if b then s.conj else s).dtype = .real ∧ star (if b then s.conj else s).val = (if b then s.conj else s).val := by
      intro ht
      obtain ⟨h1, h2⟩ := h.2 ht
      cases b <;> simp [Scal.conj, h1, h2]
    have ev : (if b then s.conj else s).val = if b then star s.val else s.val := by cases b <;> rfl
    refine ComputesOr.intro fun d hd => ⟨?_, ?_⟩
    · have := mem_smul (S := T) (fun ht => (hs ht).2) ((ih h.1).mem hd)
      rw [ev] at this
      exact this
    have := runsOr_checkDim (b := b) (S := S) (d := d) hf.2.2.2.2 hf.2.2.1
      (RunsOr.bind_ok (k := fun r y => y.scaleInPlace (env n J r) (if b then s.conj else s)) ((ih h.1).runs hd) ((runs_scaleInPlace_vec (J := J) hf.2.1 hs ((ih h.1).mem hd)).or))
    refine this.congr (fun r _ => ?_) fun _ _ => by rw [ev]; rfl
    simp only [MOp.map, MOp.run, Prog.bind_eq]
  | sum A B ihA ihB =>
    intro b S T h
    have hf := TypedOr.facts (e := .sum A B) h
    refine ComputesOr.intro fun d hd => ⟨mem_add ((ihA h.1).mem hd) ((ihB h.2).mem hd), ?_⟩
    have := runsOr_checkDim (b := b) (S := S) (d := d) hf.2.2.2.2 hf.2.2.1
      (RunsOr.bind_ok (k := fun r y => (MOp.run (env n J r) b (B.map (prim · r)) (S.vec n d r)).bind fun z => y.add (env n J r) z)
        ((ihA h.1).runs hd) (RunsOr.bind_ok ((ihB h.2).runs hd) ((runs_add_vec (J := J) hf.2.1 ((ihA h.1).mem hd) ((ihB h.2).mem hd)).or)))
    refine this.congr (fun r _ => ?_) fun _ _ => rfl
    simp only [MOp.map, MOp.run, Prog.bind_eq]
  | pow A p ih =>
    intro b S T h
    have hf := TypedOr.facts (e := .pow A p) h
    obtain ⟨rfl, h⟩ := h
    refine ComputesOr.intro fun d hd => ⟨(runsOr_powLoop hf.1 (ih h) p hd).1, ?_⟩
    have := runsOr_checkDim (b := b) (S := S) (d := d) hf.2.2.2.2 hf.2.2.1
      (RunsOr.bind_ok ((runs_copy_vec (J := J) hf.1 hd).or) (runsOr_powLoop hf.1 (ih h) p hd).2)
    refine this.congr (fun r _ => ?_) fun _ _ => rfl
    simp only [MOp.map, MOp.run, Prog.bind_eq]
  | conj A ih =>
    intro b S T h
    have hf := TypedOr.facts (e := .conj A) h
    refine ComputesOr.intro fun d hd => ⟨mem_conj ((ih (b := b) h).mem (mem_conj hd)), ?_⟩
    have := runsOr_checkDim (b := b) (S := S) (d := d) hf.2.2.2.2 hf.2.2.1
      (RunsOr.bind_ok (k := fun r x => (MOp.run (env n J r) (b) (A.map (prim · r)) x).bind fun y => y.conj (env n J r))
        ((runs_conj_vec (J := J) hf.1 hd).or) (RunsOr.bind_ok ((ih (b := b) h).runs (mem_conj hd)) ((runs_conj_vec (J := J) hf.2.1 ((ih (b := b) h).mem (mem_conj hd))).or)))
    refine this.congr (fun r _ => ?_) fun _ _ => rfl
    simp only [MOp.map, MOp.run, Prog.bind_eq]

theorem vtypedOr_facts {ops : List (MOp K ι)} {b : Bool} {S T : XSpace} (h : VTypedOr lv n J prim ops b S T) :
    XFacts n (0, 0) (SOp.vshape lv.sh ops) b S T ∧ ops ≠ [] ∧ (∀ e ∈ ops, (e.shape lv.sh).2 = (SOp.vshape lv.sh ops).2) ∧
      ∀ e ∈ ops, ∀ r < n, (e.map (prim · r)).shape Prim.shape = e.shape lv.sh := by
  match b, S, T, h with
  | false, .one S, .stack Ts, ⟨h0, h⟩ =>
    obtain ⟨e, es, rfl⟩ := List.exists_cons_of_ne_nil h0
    have hcols : ∀ e' ∈ e :: es, S.L.gshape = [(e'.shape lv.sh).2] := fun e' he' => by
      obtain ⟨T, _, hT⟩ := forall₂_mem_left h e' he'
      exact (TypedOr.facts hT).2.2.1
    have hv : (SOp.vshape lv.sh (e :: es)).2 = (e.shape lv.sh).2 := rfl
    have h1 := hcols e (by simp)
    refine ⟨⟨?_, ?_, ?_, ?_, ?_, ?_⟩, h0, ?_, ?_⟩
    · obtain ⟨T, _, hT⟩ := forall₂_mem_left h e (by simp)
      exact (TypedOr.facts hT).1
    · intro T hT
      obtain ⟨e', _, hT'⟩ := forall₂_mem_right h T hT
      exact (TypedOr.facts hT').2.1
    · simp only [XSpace.dim, h1, dimOf, hv]; simp
    · simp only [XSpace.dim, dimOf, Bool.not_false, if_true]
      exact dim_of_forall₂ (g := fun e => (e.shape lv.sh).1) (h.imp fun e T hT => (TypedOr.facts hT).2.2.2.1)
    · simp [XSpace.Flat, h1]
    · intro T hT
      obtain ⟨e', _, hT'⟩ := forall₂_mem_right h T hT
      rw [(TypedOr.facts hT').2.2.2.1]; rfl
    · intro e' he'
      have := hcols e' he'
      rw [h1] at this
      rw [hv]; simpa using this.symm
    · intro e' he' r hr
      obtain ⟨T, _, hT⟩ := forall₂_mem_left h e' he'
      exact (TypedOr.facts hT).2.2.2.2 r hr
  | true, .stack Ss, .one T, ⟨h0, h⟩ =>
    obtain ⟨e, es, rfl⟩ := List.exists_cons_of_ne_nil h0
    have hcols : ∀ e' ∈ e :: es, T.L.gshape = [(e'.shape lv.sh).2] := fun e' he' => by
      obtain ⟨S, _, hS⟩ := forall₂_mem_left h e' he'
      exact (TypedOr.facts hS).2.2.2.1
    have hv : (SOp.vshape lv.sh (e :: es)).2 = (e.shape lv.sh).2 := rfl
    have h1 := hcols e (by simp)
    refine ⟨⟨?_, ?_, ?_, ?_, ?_, ?_⟩, h0, ?_, ?_⟩
    · intro S hS
      obtain ⟨e', _, hS'⟩ := forall₂_mem_right h S hS
      exact (TypedOr.facts hS').1
    · obtain ⟨S, _, hS⟩ := forall₂_mem_left h e (by simp)
      exact (TypedOr.facts hS).2.1
    · simp only [XSpace.dim, dimOf, if_true]
      exact dim_of_forall₂ (g := fun e => (e.shape lv.sh).1) (h.imp fun e S hS => (TypedOr.facts hS).2.2.1)
    · simp only [XSpace.dim, h1, dimOf, hv]; simp
    · intro S hS
      obtain ⟨e', _, hS'⟩ := forall₂_mem_right h S hS
      rw [(TypedOr.facts hS').2.2.1]; rfl
    · simp [XSpace.Flat, h1]
    · intro e' he'
      have := hcols e' he'
      rw [h1] at this
      rw [hv]; simpa using this.symm
    · intro e' he' r hr
      obtain ⟨S, _, hS⟩ := forall₂_mem_left h e' he'
      exact (TypedOr.facts hS).2.2.2.2 r hr

theorem btypedOr_facts {ops : List (MOp K ι)} {b : Bool} {S T : XSpace} (h : BTypedOr lv n J prim ops b S T) :
    XFacts n (0, 0) ((SOp.bdiag ops).shape lv.sh) b S T ∧ ∀ e ∈ ops, ∀ r < n, (e.map (prim · r)).shape Prim.shape = e.shape lv.sh := by
  match S, T, h with
  | .stack Ss, .stack Ts, ⟨hl, h⟩ =>
    have key : ∀ {Ss : SSpace} {ops : List (MOp K ι)} {Ts : SSpace}, Ss.length = ops.length →
        List.Forall₂ (fun (p : VSpace × MOp K ι) T => TypedOr lv n J prim b p.2 p.1 T) (Ss.zip ops) Ts →
        SSpace.WF Ss n ∧ SSpace.WF Ts n ∧ SSpace.dim Ss = (ops.map fun e => dimOf (e.shape lv.sh) b).sum ∧
        SSpace.dim Ts = (ops.map fun e => dimOf (e.shape lv.sh) (!b)).sum ∧ (∀ V ∈ Ss, V.L.gshape.length = 1) ∧ (∀ V ∈ Ts, V.L.gshape.length = 1) ∧
        ∀ e ∈ ops, ∀ r < n, (e.map (prim · r)).shape Prim.shape = e.shape lv.sh := by
      intro Ss
      induction Ss with
      | nil =>
        intro ops Ts hl h
        have : ops = [] := List.length_eq_zero_iff.1 hl.symm
        subst this
        cases h
        exact ⟨by simp [SSpace.WF], by simp [SSpace.WF], rfl, rfl, by simp, by simp, by simp⟩
      | cons V Ss ih =>
        intro ops Ts hl h
        cases ops with
        | nil => simp at hl
        | cons e ops =>
          rw [List.zip_cons_cons] at h
          cases h with
          | cons h1 h2 =>
            obtain ⟨i1, i2, i3, i4, i5, i6, i7⟩ := ih (by simpa using hl) h2
            obtain ⟨f1, f2, f3, f4, f5⟩ := TypedOr.facts h1
            simp only at f3 f4 f5
            refine ⟨?_, ?_, ?_, ?_, ?_, ?_, ?_⟩
            · intro W hW; rcases List.mem_cons.1 hW with rfl | hW
              · exact f1
              · exact i1 W hW
            · intro W hW; rcases List.mem_cons.1 hW with rfl | hW
              · exact f2
              · exact i2 W hW
            · rw [SSpace.dim_cons, i3, f3]; simp
            · rw [SSpace.dim_cons, i4, f4]; simp
            · intro W hW; rcases List.mem_cons.1 hW with rfl | hW
              · rw [f3]; rfl
              · exact i5 W hW
            · intro W hW; rcases List.mem_cons.1 hW with rfl | hW
              · rw [f4]; rfl
              · exact i6 W hW
            · intro e' he'; rcases List.mem_cons.1 he' with rfl | he'
              · exact f5
              · exact i7 e' he'
    obtain ⟨i1, i2, i3, i4, i5, i6, i7⟩ := key hl h
    have ed : ∀ b : Bool, dimOf ((SOp.bdiag ops).shape lv.sh) b = (ops.map fun e => dimOf (e.shape lv.sh) b).sum := by
      intro b; cases b <;> simp [SOp.shape, dimOf]
    exact ⟨⟨i1, i2, by rw [ed]; exact i3, by rw [ed]; exact i4, i5, i6⟩, i7⟩

theorem STypedOr.facts {e : SOp K ι} : ∀ {b : Bool} {S T : XSpace}, STypedOr lv n J prim b e S T →
    XFacts n (0, 0) (e.shape lv.sh) b S T ∧ ∀ r < n, (e.map (prim · r)).shape Prim.shape = e.shape lv.sh := by
  induction e with
  | vstack ops =>
    intro b S T h
    obtain ⟨h1, _, _, h3⟩ := vtypedOr_facts h
    refine ⟨h1, fun r hr => ?_⟩
    obtain ⟨e1, e2⟩ := vshape_map (fun e he => h3 e he r hr)
    simp only [SOp.map, SOp.shape, SOp.vshape, e1, e2]
  | grad ops =>
    intro b S T h
    obtain ⟨h1, _, _, h3⟩ := vtypedOr_facts h
    refine ⟨h1, fun r hr => ?_⟩
    obtain ⟨e1, e2⟩ := vshape_map (fun e he => h3 e he r hr)
    simp only [SOp.map, SOp.shape, SOp.vshape, e1, e2]
  | bdiag ops =>
    intro b S T h
    obtain ⟨h1, h3⟩ := btypedOr_facts h
    refine ⟨h1, fun r hr => ?_⟩
    obtain ⟨e1, e2⟩ := vshape_map (fun e he => h3 e he r hr)
    simp only [SOp.map, SOp.shape, e1, e2]
  | adj A ih =>
    intro b S T h
    obtain ⟨h1, h2⟩ := ih (b := !b) h
    exact ⟨h1.swap, fun r hr => by simp [SOp.map, SOp.shape, h2 r hr]⟩
  | trans A ih =>
    intro b S T h
    obtain ⟨h1, h2⟩ := ih (b := !b) h
    exact ⟨h1.swap, fun r hr => by simp [SOp.map, SOp.shape, h2 r hr]⟩
  | prod A B ihA ihB =>
    intro b S T h
    cases b with
    | false =>
      obtain ⟨U, hB, hA⟩ := h
      obtain ⟨a1, a2⟩ := ihA hA
      obtain ⟨b1, b2⟩ := ihB hB
      exact ⟨⟨b1.wfS, a1.wfT, b1.dimS, a1.dimT, b1.flatS, a1.flatT⟩, fun r hr => by simp [SOp.map, SOp.shape, a2 r hr, b2 r hr]⟩
    | true =>
      obtain ⟨U, hA, hB⟩ := h
      obtain ⟨a1, a2⟩ := ihA hA
      obtain ⟨b1, b2⟩ := ihB hB
      exact ⟨⟨a1.wfS, b1.wfT, a1.dimS, b1.dimT, a1.flatS, b1.flatT⟩, fun r hr => by simp [SOp.map, SOp.shape, a2 r hr, b2 r hr]⟩
  | scaled A s ih =>
    intro b S T h
    obtain ⟨h1, h2⟩ := ih h.1
    exact ⟨h1, fun r hr => by simp [SOp.map, SOp.shape, h2 r hr]⟩
  | sum A B ihA ihB =>
    intro b S T h
    obtain ⟨h1, h2⟩ := ihA h.1
    exact ⟨h1, fun r hr => by simp [SOp.map, SOp.shape, h2 r hr]⟩
  | pow A p ih =>
    intro b S T h
    obtain ⟨rfl, _, h⟩ := h
    obtain ⟨h1, h2⟩ := ih h
    exact ⟨h1, fun r hr => by simp [SOp.map, SOp.shape, h2 r hr]⟩
  | conj A ih =>
    intro b S T h
    obtain ⟨h1, h2⟩ := ih (b := b) h
    exact ⟨h1, fun r hr => by simp [SOp.map, SOp.shape, h2 r hr]⟩

theorem runsOr_scheckDim {sh : Nat × Nat} {b : Bool} {S : XSpace} {d : List K} {k : Nat → P K (XArr K)} {ρ : Nat → Except Err (XArr K)}
    {shs : Nat → Nat × Nat} (hs : ∀ r < n, shs r = sh) (hf : S.Flat) (hg : S.dim = dimOf sh b) (h : RunsOr n k ρ) :
    RunsOr n (fun r => SOp.checkDim (shs r) b (S.vec n d r) (k r)) ρ := by
  refine h.congr (fun r hr => ?_) fun _ _ => rfl
  cases S with
  | one V =>
    simp only [XSpace.vec, SOp.checkDim]
    rw [hs r hr, if_neg]
    have h0 : (V.vec n d r : DArr K).gshape = V.L.gshape := rfl
    rw [h0]
    simp only [XSpace.dim, XSpace.Flat] at hf hg
    obtain ⟨a, ha⟩ := List.length_eq_one_iff.1 hf
    rw [ha] at hg ⊢
    simp [dimOf] at hg
    simp [hg]
  | stack Ss =>
    simp only [XSpace.vec, SOp.checkDim]
    have e1 : ∀ {Ss : SSpace} {d : List K}, (∀ V ∈ Ss, V.L.gshape.length = 1) → ∀ x ∈ Ss.vec n d r, x.gshape.length = 1 := by
      intro Ss d h x hx
      have : x.gshape ∈ (Ss.vec n d r).map (·.gshape) := List.mem_map_of_mem hx
      rw [SSpace.gshape_vec, List.mem_map] at this
      obtain ⟨V, hV, e⟩ := this
      rw [← e]; exact h V hV
    have e2 : ((Ss.vec n d r).map fun x => x.gshape.sum) = Ss.map fun V => V.L.gshape.sum := by
      have := congrArg (List.map List.sum) (SSpace.gshape_vec (n := n) (S := Ss) (d := d) (r := r))
      rw [List.map_map, List.map_map] at this
      exact this
    have e3 : (Ss.map fun V => V.L.gshape.sum) = Ss.map fun V => V.L.gshape.prod := by
      apply List.map_congr_left
      intro V hV
      obtain ⟨a, ha⟩ := List.length_eq_one_iff.1 (hf V hV)
      simp [ha]
    rw [hs r hr, if_neg, if_neg]
    · rw [e2, e3, not_not]; exact hg
    · have hall := e1 (d := d) hf
      intro hany
      obtain ⟨x, hx, hne⟩ := List.any_eq_true.1 hany
      apply (of_decide_eq_true hne)
      rw [hall x hx]
      generalize hv : Ss.vec n d r = l at hx hall
      cases l with
      | nil => cases hx
      | cons y l => simp only [List.map_cons, List.headD_cons]; exact (hall y (by simp)).symm

theorem runsOr_forList_cons {α β : Type} {f : Nat → α → P K β} {a : Nat → α} {l : Nat → List α} {b : Nat → β} {bs : Nat → List β}
    (h1 : RunsOr n (fun r => f r (a r)) (fun r => .ok (b r))) (h2 : RunsOr n (fun r => forList (f r) (l r)) (fun r => .ok (bs r))) :
    RunsOr n (fun r => forList (f r) (a r :: l r)) (fun r => .ok (b r :: bs r)) := by
  simp only [forList, Prog.bind_eq]
  exact RunsOr.bind_ok (k := fun r b => (forList (f r) (l r)).bind fun bs => .ret (b :: bs)) h1 (RunsOr.bind_ok h2 (Runs.ret _).or)

/-- MPIStackedVStack forward -/
theorem runsOr_vsMv {ops : List (MOp K ι)} {S : VSpace} {Ts : SSpace} (h : List.Forall₂ (fun e T => TypedOr lv n J prim false e S T) ops Ts) {d : List K} (hd : S.Mem d) :
    Ts.Mem (vcat false (ops.map (MOp.toLOp lv)) d) ∧
    RunsOr n (fun r => forList (fun o => MOp.run (env n J r) false o (S.vec n d r)) (ops.map (MOp.map (prim · r))))
      (fun r => .ok (Ts.vec n (vcat false (ops.map (MOp.toLOp lv)) d) r)) := by
  induction h with
  | nil => exact ⟨rfl, (runs_forList_nil).or⟩
  | @cons e T es Ts h1 h2 ih =>
    have c := typedOr_safe h1
    have hm := c.mem hd
    have ev : vcat false ((e :: es).map (MOp.toLOp lv)) d = den lv false e d ++ vcat false (es.map (MOp.toLOp lv)) d := by
      simp only [vcat, List.map_cons, List.flatMap_cons]; rfl
    rw [ev]
    refine ⟨⟨?_, ?_⟩, ?_⟩
    · rw [take_left' hm.1]; exact hm
    · rw [drop_left' hm.1]; exact ih.1
    · have := runsOr_forList_cons (f := fun r o => MOp.run (env n J r) false o (S.vec n d r)) (c.runs hd) ih.2
      simp only [SSpace.vec, take_left' hm.1, drop_left' hm.1]
      exact this

/-- the loop of the adjoint -/
theorem runsOr_vsLoop {ops : List (MOp K ι)} {Ss : SSpace} {T : VSpace} (hT : T.L.WF n) (h : List.Forall₂ (fun e S => TypedOr lv n J prim true e S T) ops Ss) :
    ∀ {y d : List K}, T.Mem y → Ss.Mem d →
    T.Mem ((slices true (ops.map (MOp.toLOp lv)) d).foldl vadd y) ∧ (∀ z ∈ slices true (ops.map (MOp.toLOp lv)) d, T.Mem z) ∧
    RunsOr n (fun r => SOp.vsLoop (env n J r) (T.vec n y r) ((Ss.vec n d r).zip (ops.map (MOp.map (prim · r)))))
      (fun r => .ok (T.vec n ((slices true (ops.map (MOp.toLOp lv)) d).foldl vadd y) r)) := by
  induction h with
  | nil => intro y d hy hd; exact ⟨hy, by simp [slices], (Runs.ret _).or⟩
  | @cons e S es Ss h1 h2 ih =>
    intro y d hy hd
    have c := typedOr_safe h1
    have hm := c.mem hd.1
    have hk : S.L.gshape.prod = (e.toLOp lv).inDim true := by
      rw [(TypedOr.facts h1).2.2.1]; simp [dimOf, LOp.inDim, MOp.toLOp]
    have es' : slices true ((e :: es).map (MOp.toLOp lv)) d
        = den lv true e (d.take S.L.gshape.prod) :: slices true (es.map (MOp.toLOp lv)) (d.drop S.L.gshape.prod) := by
      rw [hk]; rfl
    rw [es']
    obtain ⟨i1, i2, i3⟩ := ih (y := vadd y (den lv true e (d.take S.L.gshape.prod))) (mem_add hy hm) hd.2
    refine ⟨i1, ?_, ?_⟩
    · intro z hz
      rcases List.mem_cons.1 hz with rfl | hz
      · exact hm
      · exact i2 z hz
    · simp only [SSpace.vec, List.map_cons, List.zip_cons_cons, SOp.vsLoop, Prog.bind_eq, List.foldl_cons]
      refine RunsOr.bind_ok (k := fun r z => ((T.vec n y r).add (env n J r) z).bind fun y => SOp.vsLoop (env n J r) y _) (c.runs hd.1) ?_
      refine RunsOr.bind_ok ((runs_add_vec (J := J) hT hy hm).or) i3

/-- MPIStackedVStack adjoint -/
theorem runsOr_vsRmv {ops : List (MOp K ι)} {Ss : SSpace} {T : VSpace} {N : Nat} (hN : T.L.gshape = [N]) (h0 : ops ≠ []) (h : List.Forall₂ (fun e S => TypedOr lv n J prim true e S T) ops Ss)
    {d : List K} (hd : Ss.Mem d) :
    T.Mem (hsum true N (ops.map (MOp.toLOp lv)) d) ∧
    RunsOr n (fun r => SOp.vsRmv (env n J r) (ops.map (MOp.map (prim · r))) (.stack (Ss.vec n d r))) (fun r => .ok (.one (T.vec n (hsum true N (ops.map (MOp.toLOp lv)) d) r))) := by
  cases h with
  | nil => exact absurd rfl h0
  | @cons e S es Ss h1 h2 =>
    have c := typedOr_safe h1
    have hm := c.mem hd.1
    have hT := (TypedOr.facts h1).2.1
    have hk : S.L.gshape.prod = (e.toLOp lv).inDim true := by
      rw [(TypedOr.facts h1).2.2.1]; simp [dimOf, LOp.inDim, MOp.toLOp]
    have es' : slices true ((e :: es).map (MOp.toLOp lv)) d
        = den lv true e (d.take S.L.gshape.prod) :: slices true (es.map (MOp.toLOp lv)) (d.drop S.L.gshape.prod) := by
      rw [hk]; rfl
    obtain ⟨i1, i2, i3⟩ := runsOr_vsLoop hT h2 hm hd.2
    have hlen : ∀ z : List K, T.Mem z → z.length = N := fun z hz => by rw [hz.1, hN]; simp
    have ef : hsum true N ((e :: es).map (MOp.toLOp lv)) d = (slices true (es.map (MOp.toLOp lv)) (d.drop S.L.gshape.prod)).foldl vadd (den lv true e (d.take S.L.gshape.prod)) := by
      unfold hsum
      rw [es', vsum_cons, foldl_vadd (hlen _ hm) (fun z hz => hlen z (i2 z hz))]
    rw [ef]
    refine ⟨i1, ?_⟩
    simp only [SSpace.vec, SOp.vsRmv, List.map_cons, Prog.bind_eq]
    refine RunsOr.bind_ok (k := fun r y => (SOp.vsLoop (env n J r) y _).bind fun y => .ret (XArr.one y)) (c.runs hd.1) ?_
    exact RunsOr.map_ok XArr.one i3

/-- MPIStackedBlockDiag -/
theorem runsOr_bdMv {b : Bool} : ∀ {Ss : SSpace} {ops : List (MOp K ι)} {Ts : SSpace}, Ss.length = ops.length →
    List.Forall₂ (fun (p : VSpace × MOp K ι) T => TypedOr lv n J prim b p.2 p.1 T) (Ss.zip ops) Ts → ∀ {d : List K}, Ss.Mem d →
    Ts.Mem (blockDiag b (ops.map (MOp.toLOp lv)) d) ∧
    RunsOr n (fun r => forList (fun p : DArr K × MOp K (Prim K) => MOp.run (env n J r) b p.2 p.1) ((Ss.vec n d r).zip (ops.map (MOp.map (prim · r)))))
      (fun r => .ok (Ts.vec n (blockDiag b (ops.map (MOp.toLOp lv)) d) r)) := by
  intro Ss
  induction Ss with
  | nil =>
    intro ops Ts hl h d hd
    have : ops = [] := List.length_eq_zero_iff.1 hl.symm
    subst this
    cases h
    exact ⟨rfl, (runs_forList_nil).or⟩
  | cons S Ss ih =>
    intro ops Ts hl h d hd
    cases ops with
    | nil => simp at hl
    | cons e ops =>
      rw [List.zip_cons_cons] at h
      cases h with
      | @cons _ T _ Ts h1 h2 =>
        have c := typedOr_safe h1
        have hm := c.mem hd.1
        have hk : S.L.gshape.prod = (e.toLOp lv).inDim b := by
          rw [(TypedOr.facts h1).2.2.1]; cases b <;> simp [dimOf, LOp.inDim, MOp.toLOp]
        have ef : (e.toLOp lv).fn b = den lv b e := by cases b <;> rfl
        have ev : blockDiag b ((e :: ops).map (MOp.toLOp lv)) d = den lv b e (d.take S.L.gshape.prod) ++ blockDiag b (ops.map (MOp.toLOp lv)) (d.drop S.L.gshape.prod) := by
          simp only [blockDiag, List.map_cons, slices, List.flatten_cons, hk, ef]
        obtain ⟨i1, i2⟩ := ih (by simpa using hl) h2 hd.2
        rw [ev]
        refine ⟨⟨?_, ?_⟩, ?_⟩
        · rw [take_left' hm.1]; exact hm
        · rw [drop_left' hm.1]; exact i1
        · have := runsOr_forList_cons (f := fun r (p : DArr K × MOp K (Prim K)) => MOp.run (env n J r) b p.2 p.1)
            (a := fun r => (S.vec n (d.take S.L.gshape.prod) r, e.map (prim · r))) (c.runs hd.1) i2
          simp only [SSpace.vec, take_left' hm.1, drop_left' hm.1]
          exact this

theorem runsOr_spow_one {V : VSpace} (hV : V.L.WF n) {mv : Nat → Ctx K → XArr K → P K (XArr K)} {f : List K → List K} (h : XComputesOr n J mv (.one V) (.one V) f) (p : Nat) :
    ∀ {d : List K}, V.Mem d → V.Mem (f^[p] d) ∧
      RunsOr n (fun r => SOp.powLoop (env n J r) (mv r (env n J r)) p (.one (V.vec n d r))) (fun r => .ok (.one (V.vec n (f^[p] d) r))) := by
  induction p with
  | zero => intro d hd; exact ⟨hd, (Runs.ret _).or⟩
  | succ p ih =>
    intro d hd
    have hm : V.Mem (f d) := h.mem (S := .one V) hd
    obtain ⟨i1, i2⟩ := ih hm
    refine ⟨by rw [Function.iterate_succ_apply]; exact i1, ?_⟩
    rw [Function.iterate_succ_apply]
    simp only [SOp.powLoop, Prog.bind_eq]
    refine RunsOr.bind_ok (a := fun r => XArr.one (V.vec n (f d) r)) (h.runs (S := .one V) hd) ?_
    dsimp only
    exact RunsOr.bind_ok ((runs_set_vec hV hd hm).or) i2

theorem vtypedOr_safe {ops : List (MOp K ι)} {b : Bool} {S T : XSpace} (h : VTypedOr lv n J prim ops b S T) :
    XComputesOr n J (fun r c x => if b then SOp.vsRmv c (ops.map (MOp.map (prim · r))) x else SOp.vsMv c (ops.map (MOp.map (prim · r))) x) S T
      (if b then hsum true (SOp.vshape lv.sh ops).2 (ops.map (MOp.toLOp lv)) else vcat false (ops.map (MOp.toLOp lv))) := by
  have hf := vtypedOr_facts h
  refine XComputesOr.intro fun d hd => ?_
  match b, S, T, h, hd with
  | false, .one S, .stack Ts, ⟨h0, h⟩, hd =>
    obtain ⟨i1, i2⟩ := runsOr_vsMv h hd
    exact ⟨i1, RunsOr.map_ok XArr.stack i2⟩
  | true, .stack Ss, .one T, ⟨h0, h⟩, hd =>
    have hN : T.L.gshape = [(SOp.vshape lv.sh ops).2] := by
      have h1 := hf.1.flatT
      have h2 := hf.1.dimT
      simp only [XSpace.Flat, XSpace.dim] at h1 h2
      obtain ⟨a, ha⟩ := List.length_eq_one_iff.1 h1
      rw [ha] at h2 ⊢
      simp [dimOf] at h2
      rw [h2]
    exact runsOr_vsRmv hN h0 h hd

theorem stypedOr_safe {e : SOp K ι} : ∀ {b : Bool} {S T : XSpace}, STypedOr lv n J prim b e S T →
    XComputesOr n J (fun r c x => SOp.run c b (e.map (prim · r)) x) S T (sden lv b e) := by
  induction e with
  | vstack ops =>
    intro b S T h
    have hf := STypedOr.facts (e := .vstack ops) h
    have c := vtypedOr_safe (b := b) h
    have ed : sden lv b (.vstack ops) = (if b then hsum true (SOp.vshape lv.sh ops).2 (ops.map (MOp.toLOp lv)) else vcat false (ops.map (MOp.toLOp lv))) := by
      funext x; cases b <;> simp [sden]
    rw [ed]
    refine XComputesOr.intro fun d hd => ⟨c.mem hd, ?_⟩
    have := runsOr_scheckDim (b := b) (S := S) (d := d) hf.2 hf.1.flatS hf.1.dimS (c.runs hd)
    refine this.congr (fun r _ => ?_) fun _ _ => rfl
    simp only [SOp.map, SOp.run]
  | grad ops =>
    intro b S T h
    have hf := STypedOr.facts (e := .grad ops) h
    have c := vtypedOr_safe (b := b) h
    have ed : sden lv b (.grad ops) = (if b then hsum true (SOp.vshape lv.sh ops).2 (ops.map (MOp.toLOp lv)) else vcat false (ops.map (MOp.toLOp lv))) := by
      funext x; cases b <;> simp [sden]
    rw [ed]
    refine XComputesOr.intro fun d hd => ⟨c.mem hd, ?_⟩
    have := runsOr_scheckDim (b := b) (S := S) (d := d) hf.2 hf.1.flatS hf.1.dimS (c.runs hd)
    refine this.congr (fun r _ => ?_) fun _ _ => rfl
    simp only [SOp.map, SOp.run]
  | bdiag ops =>
    intro b S T h
    have hf := STypedOr.facts (e := .bdiag ops) h
    have hrun : ∀ d, S.Mem d → T.Mem (sden lv b (.bdiag ops) d) ∧ RunsOr n (fun r => SOp.bdMv (env n J r) b (ops.map (MOp.map (prim · r))) (S.vec n d r)) (fun r => .ok (T.vec n (sden lv b (.bdiag ops) d) r)) := by
      intro d hd
      have ed : sden lv b (.bdiag ops) d = blockDiag b (ops.map (MOp.toLOp lv)) d := by cases b <;> simp [sden]
      rw [ed]
      match S, T, h, hd with
      | .stack Ss, .stack Ts, ⟨hl, h⟩, hd =>
        obtain ⟨i1, i2⟩ := runsOr_bdMv hl h hd
        exact ⟨i1, RunsOr.map_ok XArr.stack i2⟩
    refine XComputesOr.intro fun d hd => ⟨(hrun d hd).1, ?_⟩
    have := runsOr_scheckDim (b := b) (S := S) (d := d) hf.2 hf.1.flatS hf.1.dimS (hrun d hd).2
    refine this.congr (fun r _ => ?_) fun _ _ => rfl
    simp only [SOp.map, SOp.run]
  | adj A ih =>
    intro b S T h
    have hf := STypedOr.facts (e := .adj A) h
    have c := ih (b := !b) h
    refine XComputesOr.intro fun d hd => ?_
    have ed : sden lv b (.adj A) d = sden lv (!b) A d := by cases b <;> simp [sden]
    rw [ed]
    refine ⟨c.mem hd, ?_⟩
    have := runsOr_scheckDim (b := b) (S := S) (d := d) hf.2 hf.1.flatS hf.1.dimS (c.runs hd)
    refine this.congr (fun r _ => ?_) fun _ _ => rfl
    simp only [SOp.map, SOp.run]
  | trans A ih =>
    intro b S T h
    have hf := STypedOr.facts (e := .trans A) h
    have c := ih (b := !b) h
    refine XComputesOr.intro fun d hd => ?_
    have ed : sden lv b (.trans A) d = (sden lv (!b) A (d.map star)).map star := by cases b <;> simp [sden, vconj]
    rw [ed]
    refine ⟨XSpace.mem_conj (c.mem (XSpace.mem_conj hd)), ?_⟩
    have := runsOr_scheckDim (b := b) (S := S) (d := d) hf.2 hf.1.flatS hf.1.dimS
      (RunsOr.bind_ok (k := fun r x => (SOp.run (env n J r) (!b) (A.map (prim · r)) x).bind fun y => y.conj (env n J r))
        ((runs_conj_xvec (J := J) hf.1.wfS hd).or) (RunsOr.bind_ok (c.runs (XSpace.mem_conj hd)) ((runs_conj_xvec (J := J) hf.1.wfT (c.mem (XSpace.mem_conj hd))).or)))
    refine this.congr (fun r _ => ?_) fun _ _ => rfl
    simp only [SOp.map, SOp.run, Prog.bind_eq]
  | prod A B ihA ihB =>
    intro b S T h
    have hf := STypedOr.facts (e := .prod A B) h
    cases b with
    | false =>
      obtain ⟨U, hB, hA⟩ := h
      refine XComputesOr.intro fun d hd => ?_
      have ed : sden lv false (.prod A B) d = sden lv false A (sden lv false B d) := by simp [sden]
      rw [ed]
      refine ⟨(ihA hA).mem ((ihB hB).mem hd), ?_⟩
      have := runsOr_scheckDim (b := false) (S := S) (d := d) hf.2 hf.1.flatS hf.1.dimS (RunsOr.bind_ok ((ihB hB).runs hd) ((ihA hA).runs ((ihB hB).mem hd)))
      refine this.congr (fun r _ => ?_) fun _ _ => rfl
      simp only [SOp.map, SOp.run, Prog.bind_eq]
    | true =>
      obtain ⟨U, hA, hB⟩ := h
      refine XComputesOr.intro fun d hd => ?_
      have ed : sden lv true (.prod A B) d = sden lv true B (sden lv true A d) := by simp [sden]
      rw [ed]
      refine ⟨(ihB hB).mem ((ihA hA).mem hd), ?_⟩
      have := runsOr_scheckDim (b := true) (S := S) (d := d) hf.2 hf.1.flatS hf.1.dimS (RunsOr.bind_ok ((ihA hA).runs hd) ((ihB hB).runs ((ihA hA).mem hd)))
      refine this.congr (fun r _ => ?_) fun _ _ => rfl
      simp only [SOp.map, SOp.run, Prog.bind_eq]
  | scaled A s ih =>
    intro b S T h
    have hf := STypedOr.facts (e := .scaled A s) h
    have c := ih h.1
    have hs : T.HasReal → star (if b then s.conj else s).val = (if b then s.conj else s).val := by
      intro ht
      have h2 := h.2 ht
      cases b <;> simp [Scal.conj, h2]
    refine XComputesOr.intro fun d hd => ?_
    have ed : sden lv b (.scaled A s) d = (sden lv b A d).map (· * (if b then s.conj else s).val) := by cases b <;> simp [sden, vscale, Scal.conj]
    rw [ed]
    refine ⟨XSpace.mem_smul hs (c.mem hd), ?_⟩
    have := runsOr_scheckDim (b := b) (S := S) (d := d) hf.2 hf.1.flatS hf.1.dimS
      (RunsOr.bind_ok (k := fun r y => y.smul (env n J r) (if b then s.conj else s).dtype (if b then s.conj else s).val) (c.runs hd) ((runs_smul_xvec (J := J) hf.1.wfT hs (c.mem hd)).or))
    refine this.congr (fun r _ => ?_) fun _ _ => rfl
    simp only [SOp.map, SOp.run, Prog.bind_eq]
  | sum A B ihA ihB =>
    intro b S T h
    have hf := STypedOr.facts (e := .sum A B) h
    refine XComputesOr.intro fun d hd => ?_
    have ed : sden lv b (.sum A B) d = List.zipWith (· + ·) (sden lv b A d) (sden lv b B d) := by cases b <;> simp [sden, vadd]
    rw [ed]
    refine ⟨XSpace.mem_add ((ihA h.1).mem hd) ((ihB h.2).mem hd), ?_⟩
    have := runsOr_scheckDim (b := b) (S := S) (d := d) hf.2 hf.1.flatS hf.1.dimS
      (RunsOr.bind_ok (k := fun r y => (SOp.run (env n J r) b (B.map (prim · r)) (S.vec n d r)).bind fun z => y.add (env n J r) z)
        ((ihA h.1).runs hd) (RunsOr.bind_ok ((ihB h.2).runs hd) ((runs_add_xvec (J := J) hf.1.wfT ((ihA h.1).mem hd) ((ihB h.2).mem hd)).or)))
    refine this.congr (fun r _ => ?_) fun _ _ => rfl
    simp only [SOp.map, SOp.run, Prog.bind_eq]
  | pow A p ih =>
    intro b S T h
    have hf := STypedOr.facts (e := .pow A p) h
    obtain ⟨rfl, ⟨V, rfl⟩, h⟩ := h
    have c := ih h
    refine XComputesOr.intro fun d hd => ?_
    have ed : sden lv b (.pow A p) d = (sden lv b A)^[p] d := by cases b <;> simp [sden]
    rw [ed]
    obtain ⟨i1, i2⟩ := runsOr_spow_one hf.1.wfS c p hd
    refine ⟨i1, ?_⟩
    have := runsOr_scheckDim (b := b) (S := .one V) (d := d) hf.2 hf.1.flatS hf.1.dimS
      (RunsOr.bind_ok ((runs_copy_xvec (J := J) hf.1.wfS hd).or) i2)
    refine this.congr (fun r _ => ?_) fun _ _ => rfl
    simp only [SOp.map, SOp.run, Prog.bind_eq]
  | conj A ih =>
    intro b S T h
    have hf := STypedOr.facts (e := .conj A) h
    have c := ih (b := b) h
    refine XComputesOr.intro fun d hd => ?_
    have ed : sden lv b (.conj A) d = (sden lv b A (d.map star)).map star := by cases b <;> simp [sden, vconj]
    rw [ed]
    refine ⟨XSpace.mem_conj (c.mem (XSpace.mem_conj hd)), ?_⟩
    have := runsOr_scheckDim (b := b) (S := S) (d := d) hf.2 hf.1.flatS hf.1.dimS
      (RunsOr.bind_ok (k := fun r x => (SOp.run (env n J r) (b) (A.map (prim · r)) x).bind fun y => y.conj (env n J r))
        ((runs_conj_xvec (J := J) hf.1.wfS hd).or) (RunsOr.bind_ok (c.runs (XSpace.mem_conj hd)) ((runs_conj_xvec (J := J) hf.1.wfT (c.mem (XSpace.mem_conj hd))).or)))
    refine this.congr (fun r _ => ?_) fun _ _ => rfl
    simp only [SOp.map, SOp.run, Prog.bind_eq]

end Verif

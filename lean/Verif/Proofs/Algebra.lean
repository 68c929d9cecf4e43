import Verif.Spec.Algebra
import Verif.Proofs.Inner
import Verif.Proofs.Vec
import Verif.MPI.Bind

set_option linter.unusedSectionVars false

namespace Verif
open NDArray

variable {K ι : Type} [Field K] [StarRing K] [CharZero K] {lv : Leaves K ι} {n : Nat} {J : Nat → Nat → K} {prim : ι → Nat → Prim K}

theorem shape_map (e : MOp K ι) {r : Nat} (h : ∀ i, (prim i r).shape = lv.sh i) : (e.map (prim · r)).shape Prim.shape = e.shape lv.sh := by
  induction e with
  | leaf i => exact h i
  | adj A ih => simp [MOp.map, MOp.shape, ih]
  | trans A ih => simp [MOp.map, MOp.shape, ih]
  | prod A B ihA ihB => simp [MOp.map, MOp.shape, ihA, ihB]
  | scaled A s ih => simp [MOp.map, MOp.shape, ih]
  | sum A B ihA ihB => simp [MOp.map, MOp.shape, ihA]
  | pow A p ih => simp [MOp.map, MOp.shape, ih]
  | conj A ih => simp [MOp.map, MOp.shape, ih]

theorem dimOf_swap (sh : Nat × Nat) (b : Bool) : dimOf (sh.2, sh.1) b = dimOf sh (!b) := by cases b <;> rfl

/-- shapes and layouts of a typed expression -/
theorem Typed.facts {e : MOp K ι} : ∀ {b : Bool} {S T : VSpace}, Typed lv n J prim b e S T →
    S.L.WF n ∧ T.L.WF n ∧ S.L.gshape = [dimOf (e.shape lv.sh) b] ∧ T.L.gshape = [dimOf (e.shape lv.sh) (!b)] ∧
      (∀ r < n, (e.map (prim · r)).shape Prim.shape = e.shape lv.sh) := by
  induction e with
  | leaf i => intro b S T h; exact ⟨h.2.1, h.2.2.1, h.2.2.2.1, h.2.2.2.2.1, h.1⟩
  | adj A ih =>
    intro b S T h
    obtain ⟨h1, h2, h3, h4, h5⟩ := ih (b := !b) h
    exact ⟨h1, h2, by rw [h3]; cases b <;> rfl, by rw [h4]; cases b <;> rfl, fun r hr => by simp [MOp.map, MOp.shape, h5 r hr]⟩
  | trans A ih =>
    intro b S T h
    obtain ⟨h1, h2, h3, h4, h5⟩ := ih (b := !b) h
    exact ⟨h1, h2, by rw [h3]; cases b <;> rfl, by rw [h4]; cases b <;> rfl, fun r hr => by simp [MOp.map, MOp.shape, h5 r hr]⟩
  | prod A B ihA ihB =>
    intro b S T h
    cases b with
    | false =>
      obtain ⟨U, hB, hA⟩ := h
      obtain ⟨h1, h2, h3, h4, h5⟩ := ihA hA
      obtain ⟨k1, k2, k3, k4, k5⟩ := ihB hB
      exact ⟨k1, h2, k3, h4, fun r hr => by simp [MOp.map, MOp.shape, h5 r hr, k5 r hr]⟩
    | true =>
      obtain ⟨U, hA, hB⟩ := h
      obtain ⟨h1, h2, h3, h4, h5⟩ := ihA hA
      obtain ⟨k1, k2, k3, k4, k5⟩ := ihB hB
      exact ⟨h1, k2, h3, k4, fun r hr => by simp [MOp.map, MOp.shape, h5 r hr, k5 r hr]⟩
  | scaled A s ih =>
    intro b S T h
    obtain ⟨h1, h2, h3, h4, h5⟩ := ih h.1
    exact ⟨h1, h2, h3, h4, fun r hr => by simp [MOp.map, MOp.shape, h5 r hr]⟩
  | sum A B ihA ihB =>
    intro b S T h
    obtain ⟨h1, h2, h3, h4, h5⟩ := ihA h.1
    exact ⟨h1, h2, h3, h4, fun r hr => by simp [MOp.map, MOp.shape, h5 r hr]⟩
  | pow A p ih =>
    intro b S T h
    obtain ⟨rfl, h⟩ := h
    obtain ⟨h1, h2, h3, h4, h5⟩ := ih h
    exact ⟨h1, h2, h3, h4, fun r hr => by simp [MOp.map, MOp.shape, h5 r hr]⟩
  | conj A ih =>
    intro b S T h
    obtain ⟨h1, h2, h3, h4, h5⟩ := ih (b := b) h
    exact ⟨h1, h2, h3, h4, fun r hr => by simp [MOp.map, MOp.shape, h5 r hr]⟩

/-- `Computes` in terms of `Runs` -/
theorem Computes.mem {mv : Nat → Ctx K → DArr K → P K (DArr K)} {S T : VSpace} {f : List K → List K} (h : Computes n J mv S T f) {d : List K}
    (hd : S.Mem d) : T.Mem (f d) := (h d hd).1
theorem Computes.runs {mv : Nat → Ctx K → DArr K → P K (DArr K)} {S T : VSpace} {f : List K → List K} (h : Computes n J mv S T f) {d : List K}
    (hd : S.Mem d) : Runs n (fun r => mv r (env n J r) (S.vec n d r)) (fun r => .ok (T.vec n (f d) r)) := (h d hd).2.runs
theorem Computes.intro {mv : Nat → Ctx K → DArr K → P K (DArr K)} {S T : VSpace} {f : List K → List K}
    (h : ∀ d, S.Mem d → T.Mem (f d) ∧ Runs n (fun r => mv r (env n J r) (S.vec n d r)) (fun r => .ok (T.vec n (f d) r))) :
    Computes n J mv S T f := fun d hd => ⟨(h d hd).1, (h d hd).2.always⟩

theorem runs_checkDim {sh : Nat × Nat} {b : Bool} {S : VSpace} {d : List K} {k : Nat → P K (DArr K)} {ρ : Nat → Except Err (DArr K)}
    {shs : Nat → Nat × Nat} (hs : ∀ r < n, shs r = sh) (hg : S.L.gshape = [dimOf sh b]) (h : Runs n k ρ) :
    Runs n (fun r => checkDim (shs r) b (S.vec n d r) (k r)) ρ := by
  refine h.congr (fun r hr => ?_) fun _ _ => rfl
  unfold checkDim
  rw [hs r hr, if_neg]
  have : (S.vec n d r : DArr K).gshape = S.L.gshape := rfl
  rw [this, hg]
  simp [dimOf]

theorem runs_powLoop {S : VSpace} (hS : S.L.WF n) {mv : Nat → Ctx K → DArr K → P K (DArr K)} {f : List K → List K} (h : Computes n J mv S S f) (p : Nat) :
    ∀ {d : List K}, S.Mem d → S.Mem (f^[p] d) ∧
      Runs n (fun r => powLoop (env n J r) (mv r (env n J r)) p (S.vec n d r)) (fun r => .ok (S.vec n (f^[p] d) r)) := by
  induction p with
  | zero => intro d hd; exact ⟨hd, Runs.ret _⟩
  | succ p ih =>
    intro d hd
    have hm := h.mem hd
    obtain ⟨i1, i2⟩ := ih hm
    refine ⟨by rw [Function.iterate_succ_apply]; exact i1, ?_⟩
    simp only [powLoop, Prog.bind_eq]
    refine Runs.bind_ok (h.runs hd) ?_
    refine Runs.bind_ok (a := fun r => S.vec n (f d) r) ?_ ?_
    · exact runs_new_vec (S := S) (v := fun r => (S.vec n (f d) r).larr) hS hm (fun r _ => rfl) (fun r _ => rfl) (S.L.piece d)
        (fun r hr => (good_vec hS hd).length r hr)
    · rw [Function.iterate_succ_apply]; exact i2

theorem typed_computes {e : MOp K ι} : ∀ {b : Bool} {S T : VSpace}, Typed lv n J prim b e S T →
    Computes n J (fun r c x => MOp.run c b (e.map (prim · r)) x) S T (den lv b e) := by
  induction e with
  | leaf i =>
    intro b S T h
    have hf := Typed.facts h
    refine Computes.intro fun d hd => ⟨h.2.2.2.2.2.mem hd, ?_⟩
    have := runs_checkDim (b := b) (S := S) (d := d) h.1 h.2.2.2.1 (h.2.2.2.2.2.runs hd)
    refine this.congr (fun r _ => ?_) fun _ _ => rfl
    simp only [MOp.map, MOp.run]
  | adj A ih =>
    intro b S T h
    have hf := Typed.facts (e := .adj A) h
    refine Computes.intro fun d hd => ⟨(ih h).mem hd, ?_⟩
    have := runs_checkDim (b := b) (S := S) (d := d) hf.2.2.2.2 hf.2.2.1 ((ih h).runs hd)
    refine this.congr (fun r _ => ?_) fun _ _ => rfl
    simp only [MOp.map, MOp.run]
  | trans A ih =>
    intro b S T h
    have hf := Typed.facts (e := .trans A) h
    refine Computes.intro fun d hd => ⟨mem_conj ((ih (b := !b) h).mem (mem_conj hd)), ?_⟩
    have := runs_checkDim (b := b) (S := S) (d := d) hf.2.2.2.2 hf.2.2.1
      (Runs.bind_ok (k := fun r x => (MOp.run (env n J r) (!b) (A.map (prim · r)) x).bind fun y => y.conj (env n J r))
        (runs_conj_vec (J := J) hf.1 hd) (Runs.bind_ok ((ih (b := !b) h).runs (mem_conj hd)) (runs_conj_vec (J := J) hf.2.1 ((ih (b := !b) h).mem (mem_conj hd)))))
    refine this.congr (fun r _ => ?_) fun _ _ => rfl
    simp only [MOp.map, MOp.run, Prog.bind_eq]
  | prod A B ihA ihB =>
    intro b S T h
    have hf := Typed.facts (e := .prod A B) h
    cases b with
    | false =>
      obtain ⟨U, hB, hA⟩ := h
      refine Computes.intro fun d hd => ⟨(ihA hA).mem ((ihB hB).mem hd), ?_⟩
      have := runs_checkDim (b := false) (S := S) (d := d) hf.2.2.2.2 hf.2.2.1 (Runs.bind_ok ((ihB hB).runs hd) ((ihA hA).runs ((ihB hB).mem hd)))
      refine this.congr (fun r _ => ?_) fun _ _ => rfl
      simp only [MOp.map, MOp.run, Prog.bind_eq]
    | true =>
      obtain ⟨U, hA, hB⟩ := h
      refine Computes.intro fun d hd => ⟨(ihB hB).mem ((ihA hA).mem hd), ?_⟩
      have := runs_checkDim (b := true) (S := S) (d := d) hf.2.2.2.2 hf.2.2.1 (Runs.bind_ok ((ihA hA).runs hd) ((ihB hB).runs ((ihA hA).mem hd)))
      refine this.congr (fun r _ => ?_) fun _ _ => rfl
      simp only [MOp.map, MOp.run, Prog.bind_eq]
  | scaled A s ih =>
    intro b S T h
    have hf := Typed.facts (e := .scaled A s) h
    have hs : T.dt = .real → (if b then s.conj else s).dtype = .real ∧ star (if b then s.conj else s).val = (if b then s.conj else s).val := by
      intro ht
      obtain ⟨h1, h2⟩ := h.2 ht
      cases b <;> simp [Scal.conj, h1, h2]
    have ev : (if b then s.conj else s).val = if b then star s.val else s.val := by cases b <;> rfl
    refine Computes.intro fun d hd => ⟨?_, ?_⟩
    · have := mem_smul (S := T) (fun ht => (hs ht).2) ((ih h.1).mem hd)
      rw [ev] at this
      exact this
    have := runs_checkDim (b := b) (S := S) (d := d) hf.2.2.2.2 hf.2.2.1
      (Runs.bind_ok (k := fun r y => y.scaleInPlace (env n J r) (if b then s.conj else s)) ((ih h.1).runs hd) (runs_scaleInPlace_vec (J := J) hf.2.1 hs ((ih h.1).mem hd)))
    refine this.congr (fun r _ => ?_) fun _ _ => by rw [ev]; rfl
    simp only [MOp.map, MOp.run, Prog.bind_eq]
  | sum A B ihA ihB =>
    intro b S T h
    have hf := Typed.facts (e := .sum A B) h
    refine Computes.intro fun d hd => ⟨mem_add ((ihA h.1).mem hd) ((ihB h.2).mem hd), ?_⟩
    have := runs_checkDim (b := b) (S := S) (d := d) hf.2.2.2.2 hf.2.2.1
      (Runs.bind_ok (k := fun r y => (MOp.run (env n J r) b (B.map (prim · r)) (S.vec n d r)).bind fun z => y.add (env n J r) z)
        ((ihA h.1).runs hd) (Runs.bind_ok ((ihB h.2).runs hd) (runs_add_vec (J := J) hf.2.1 ((ihA h.1).mem hd) ((ihB h.2).mem hd))))
    refine this.congr (fun r _ => ?_) fun _ _ => rfl
    simp only [MOp.map, MOp.run, Prog.bind_eq]
  | pow A p ih =>
    intro b S T h
    have hf := Typed.facts (e := .pow A p) h
    obtain ⟨rfl, h⟩ := h
    refine Computes.intro fun d hd => ⟨(runs_powLoop hf.1 (ih h) p hd).1, ?_⟩
    have := runs_checkDim (b := b) (S := S) (d := d) hf.2.2.2.2 hf.2.2.1
      (Runs.bind_ok (runs_copy_vec (J := J) hf.1 hd) (runs_powLoop hf.1 (ih h) p hd).2)
    refine this.congr (fun r _ => ?_) fun _ _ => rfl
    simp only [MOp.map, MOp.run, Prog.bind_eq]
  | conj A ih =>
    intro b S T h
    have hf := Typed.facts (e := .conj A) h
    refine Computes.intro fun d hd => ⟨mem_conj ((ih (b := b) h).mem (mem_conj hd)), ?_⟩
    have := runs_checkDim (b := b) (S := S) (d := d) hf.2.2.2.2 hf.2.2.1
      (Runs.bind_ok (k := fun r x => (MOp.run (env n J r) (b) (A.map (prim · r)) x).bind fun y => y.conj (env n J r))
        (runs_conj_vec (J := J) hf.1 hd) (Runs.bind_ok ((ih (b := b) h).runs (mem_conj hd)) (runs_conj_vec (J := J) hf.2.1 ((ih (b := b) h).mem (mem_conj hd)))))
    refine this.congr (fun r _ => ?_) fun _ _ => rfl
    simp only [MOp.map, MOp.run, Prog.bind_eq]

end Verif

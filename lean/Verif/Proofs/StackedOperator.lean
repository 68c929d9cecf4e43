import Verif.Proofs.XVec
import Verif.Proofs.Algebra

set_option linter.unusedSectionVars false

namespace Verif
open NDArray

variable {K ι : Type} [Field K] [StarRing K] [CharZero K] {lv : Leaves K ι} {n : Nat} {J : Nat → Nat → K} {prim : ι → Nat → Prim K}

/-- shapes of the constituents on rank `r` -/
theorem vshape_map {ops : List (MOp K ι)} {r : Nat} (h : ∀ e ∈ ops, (e.map (prim · r)).shape Prim.shape = e.shape lv.sh) :
    (ops.map (MOp.map (prim · r))).map (fun o => (o.shape Prim.shape).1) = ops.map (fun o => (o.shape lv.sh).1) ∧
    (ops.map (MOp.map (prim · r))).map (fun o => (o.shape Prim.shape).2) = ops.map (fun o => (o.shape lv.sh).2) := by
  constructor <;>
  · rw [List.map_map]
    apply List.map_congr_left
    intro e he
    simp only [Function.comp, h e he]

theorem forall₂_mem_left {α β : Type} {R : α → β → Prop} {l : List α} {m : List β} (h : List.Forall₂ R l m) : ∀ a ∈ l, ∃ b ∈ m, R a b := by
  induction h with
  | nil => intro a ha; cases ha
  | cons h1 h2 ih =>
    intro a ha
    rcases List.mem_cons.1 ha with rfl | ha
    · exact ⟨_, by simp, h1⟩
    · obtain ⟨b, hb, hr⟩ := ih a ha; exact ⟨b, by simp [hb], hr⟩

theorem forall₂_mem_right {α β : Type} {R : α → β → Prop} {l : List α} {m : List β} (h : List.Forall₂ R l m) : ∀ b ∈ m, ∃ a ∈ l, R a b := by
  induction h with
  | nil => intro a ha; cases ha
  | cons h1 h2 ih =>
    intro a ha
    rcases List.mem_cons.1 ha with rfl | ha
    · exact ⟨_, by simp, h1⟩
    · obtain ⟨b, hb, hr⟩ := ih a ha; exact ⟨b, by simp [hb], hr⟩

/-- what the facts about typed expressions are -/
structure XFacts (n : Nat) (lvsh sh : Nat × Nat) (b : Bool) (S T : XSpace) : Prop where
  wfS : S.WF n
  wfT : T.WF n
  dimS : S.dim = dimOf sh b
  dimT : T.dim = dimOf sh (!b)
  flatS : S.Flat
  flatT : T.Flat

theorem dim_of_forall₂ {ops : List (MOp K ι)} {Ts : SSpace} {g : MOp K ι → Nat} (h : List.Forall₂ (fun e (T : VSpace) => T.L.gshape = [g e]) ops Ts) :
    SSpace.dim Ts = (ops.map g).sum := by
  induction h with
  | nil => rfl
  | cons h1 h2 ih => rw [SSpace.dim_cons, ih, h1]; simp

theorem vtyped_facts {ops : List (MOp K ι)} {b : Bool} {S T : XSpace} (h : VTyped lv n J prim ops b S T) :
    XFacts n (0, 0) (SOp.vshape lv.sh ops) b S T ∧ ops ≠ [] ∧ (∀ e ∈ ops, (e.shape lv.sh).2 = (SOp.vshape lv.sh ops).2) ∧
      ∀ e ∈ ops, ∀ r < n, (e.map (prim · r)).shape Prim.shape = e.shape lv.sh := by
  match b, S, T, h with
  | false, .one S, .stack Ts, ⟨h0, h⟩ =>
    obtain ⟨e, es, rfl⟩ := List.exists_cons_of_ne_nil h0
    have hcols : ∀ e' ∈ e :: es, S.L.gshape = [(e'.shape lv.sh).2] := fun e' he' => by
      obtain ⟨T, _, hT⟩ := forall₂_mem_left h e' he'
      exact (Typed.facts hT).2.2.1
    have hv : (SOp.vshape lv.sh (e :: es)).2 = (e.shape lv.sh).2 := rfl
    have h1 := hcols e (by simp)
    refine ⟨⟨?_, ?_, ?_, ?_, ?_, ?_⟩, h0, ?_, ?_⟩
    · obtain ⟨T, _, hT⟩ := forall₂_mem_left h e (by simp)
      exact (Typed.facts hT).1
    · intro T hT
      obtain ⟨e', _, hT'⟩ := forall₂_mem_right h T hT
      exact (Typed.facts hT').2.1
    · simp only [XSpace.dim, h1, dimOf, hv]; simp
    · simp only [XSpace.dim, dimOf, Bool.not_false, if_true]
      exact dim_of_forall₂ (g := fun e => (e.shape lv.sh).1) (h.imp fun e T hT => (Typed.facts hT).2.2.2.1)
    · simp [XSpace.Flat, h1]
    · intro T hT
      obtain ⟨e', _, hT'⟩ := forall₂_mem_right h T hT
      rw [(Typed.facts hT').2.2.2.1]; rfl
    · intro e' he'
      have := hcols e' he'
      rw [h1] at this
      rw [hv]; simpa using this.symm
    · intro e' he' r hr
      obtain ⟨T, _, hT⟩ := forall₂_mem_left h e' he'
      exact (Typed.facts hT).2.2.2.2 r hr
  | true, .stack Ss, .one T, ⟨h0, h⟩ =>
    obtain ⟨e, es, rfl⟩ := List.exists_cons_of_ne_nil h0
    have hcols : ∀ e' ∈ e :: es, T.L.gshape = [(e'.shape lv.sh).2] := fun e' he' => by
      obtain ⟨S, _, hS⟩ := forall₂_mem_left h e' he'
      exact (Typed.facts hS).2.2.2.1
    have hv : (SOp.vshape lv.sh (e :: es)).2 = (e.shape lv.sh).2 := rfl
    have h1 := hcols e (by simp)
    refine ⟨⟨?_, ?_, ?_, ?_, ?_, ?_⟩, h0, ?_, ?_⟩
    · intro S hS
      obtain ⟨e', _, hS'⟩ := forall₂_mem_right h S hS
      exact (Typed.facts hS').1
    · obtain ⟨S, _, hS⟩ := forall₂_mem_left h e (by simp)
      exact (Typed.facts hS).2.1
    · simp only [XSpace.dim, dimOf, if_true]
      exact dim_of_forall₂ (g := fun e => (e.shape lv.sh).1) (h.imp fun e S hS => (Typed.facts hS).2.2.1)
    · simp only [XSpace.dim, h1, dimOf, hv]; simp
    · intro S hS
      obtain ⟨e', _, hS'⟩ := forall₂_mem_right h S hS
      rw [(Typed.facts hS').2.2.1]; rfl
    · simp [XSpace.Flat, h1]
    · intro e' he'
      have := hcols e' he'
      rw [h1] at this
      rw [hv]; simpa using this.symm
    · intro e' he' r hr
      obtain ⟨S, _, hS⟩ := forall₂_mem_left h e' he'
      exact (Typed.facts hS).2.2.2.2 r hr

theorem btyped_facts {ops : List (MOp K ι)} {b : Bool} {S T : XSpace} (h : BTyped lv n J prim ops b S T) :
    XFacts n (0, 0) ((SOp.bdiag ops).shape lv.sh) b S T ∧ ∀ e ∈ ops, ∀ r < n, (e.map (prim · r)).shape Prim.shape = e.shape lv.sh := by
  match S, T, h with
  | .stack Ss, .stack Ts, ⟨hl, h⟩ =>
    have key : ∀ {Ss : SSpace} {ops : List (MOp K ι)} {Ts : SSpace}, Ss.length = ops.length →
        List.Forall₂ (fun (p : VSpace × MOp K ι) T => Typed lv n J prim b p.2 p.1 T) (Ss.zip ops) Ts →
        SSpace.WF Ss n ∧ SSpace.WF Ts n ∧ SSpace.dim Ss = (ops.map fun e => dimOf (e.shape lv.sh) b).sum ∧
        SSpace.dim Ts = (ops.map fun e => dimOf (e.shape lv.sh) (!b)).sum ∧ (∀ V ∈ Ss, V.L.gshape.length = 1) ∧ (∀ V ∈ Ts, V.L.gshape.length = 1) ∧
        ∀ e ∈ ops, ∀ r < n, (e.map (prim · r)).shape Prim.shape = e.shape lv.sh := by
      intro Ss
      induction Ss with
      | nil =>
        intro ops Ts hl h
        have : ops = [] := List.length_eq_zero_iff.1 hl.symm
        subst this
        cases h
        exact ⟨by simp [SSpace.WF], by simp [SSpace.WF], rfl, rfl, by simp, by simp, by simp⟩
      | cons V Ss ih =>
        intro ops Ts hl h
        cases ops with
        | nil => simp at hl
        | cons e ops =>
          rw [List.zip_cons_cons] at h
          cases h with
          | cons h1 h2 =>
            obtain ⟨i1, i2, i3, i4, i5, i6, i7⟩ := ih (by simpa using hl) h2
            obtain ⟨f1, f2, f3, f4, f5⟩ := Typed.facts h1
            simp only at f3 f4 f5
            refine ⟨?_, ?_, ?_, ?_, ?_, ?_, ?_⟩
            · intro W hW; rcases List.mem_cons.1 hW with rfl | hW
              · exact f1
              · exact i1 W hW
            · intro W hW; rcases List.mem_cons.1 hW with rfl | hW
              · exact f2
              · exact i2 W hW
            · rw [SSpace.dim_cons, i3, f3]; simp
            · rw [SSpace.dim_cons, i4, f4]; simp
            · intro W hW; rcases List.mem_cons.1 hW with rfl | hW
              · rw [f3]; rfl
              · exact i5 W hW
            · intro W hW; rcases List.mem_cons.1 hW with rfl | hW
              · rw [f4]; rfl
              · exact i6 W hW
            · intro e' he'; rcases List.mem_cons.1 he' with rfl | he'
              · exact f5
              · exact i7 e' he'
    obtain ⟨i1, i2, i3, i4, i5, i6, i7⟩ := key hl h
    have ed : ∀ b : Bool, dimOf ((SOp.bdiag ops).shape lv.sh) b = (ops.map fun e => dimOf (e.shape lv.sh) b).sum := by
      intro b; cases b <;> simp [SOp.shape, dimOf]
    exact ⟨⟨i1, i2, by rw [ed]; exact i3, by rw [ed]; exact i4, i5, i6⟩, i7⟩

theorem XFacts.swap {s : Nat × Nat} {sh : Nat × Nat} {b : Bool} {S T : XSpace} (h : XFacts n s sh (!b) S T) : XFacts n s (sh.2, sh.1) b S T :=
  ⟨h.wfS, h.wfT, by rw [h.dimS, dimOf_swap], by rw [h.dimT, dimOf_swap], h.flatS, h.flatT⟩

theorem STyped.facts {e : SOp K ι} : ∀ {b : Bool} {S T : XSpace}, STyped lv n J prim b e S T →
    XFacts n (0, 0) (e.shape lv.sh) b S T ∧ ∀ r < n, (e.map (prim · r)).shape Prim.shape = e.shape lv.sh := by
  induction e with
  | vstack ops =>
    intro b S T h
    obtain ⟨h1, _, _, h3⟩ := vtyped_facts h
    refine ⟨h1, fun r hr => ?_⟩
    obtain ⟨e1, e2⟩ := vshape_map (fun e he => h3 e he r hr)
    simp only [SOp.map, SOp.shape, SOp.vshape, e1, e2]
  | grad ops =>
    intro b S T h
    obtain ⟨h1, _, _, h3⟩ := vtyped_facts h
    refine ⟨h1, fun r hr => ?_⟩
    obtain ⟨e1, e2⟩ := vshape_map (fun e he => h3 e he r hr)
    simp only [SOp.map, SOp.shape, SOp.vshape, e1, e2]
  | bdiag ops =>
    intro b S T h
    obtain ⟨h1, h3⟩ := btyped_facts h
    refine ⟨h1, fun r hr => ?_⟩
    obtain ⟨e1, e2⟩ := vshape_map (fun e he => h3 e he r hr)
    simp only [SOp.map, SOp.shape, e1, e2]
  | adj A ih =>
    intro b S T h
    obtain ⟨h1, h2⟩ := ih (b := !b) h
    exact ⟨h1.swap, fun r hr => by simp [SOp.map, SOp.shape, h2 r hr]⟩
  | trans A ih =>
    intro b S T h
    obtain ⟨h1, h2⟩ := ih (b := !b) h
    exact ⟨h1.swap, fun r hr => by simp [SOp.map, SOp.shape, h2 r hr]⟩
  | prod A B ihA ihB =>
    intro b S T h
    cases b with
    | false =>
      obtain ⟨U, hB, hA⟩ := h
      obtain ⟨a1, a2⟩ := ihA hA
      obtain ⟨b1, b2⟩ := ihB hB
      exact ⟨⟨b1.wfS, a1.wfT, b1.dimS, a1.dimT, b1.flatS, a1.flatT⟩, fun r hr => by simp [SOp.map, SOp.shape, a2 r hr, b2 r hr]⟩
    | true =>
      obtain ⟨U, hA, hB⟩ := h
      obtain ⟨a1, a2⟩ := ihA hA
      obtain ⟨b1, b2⟩ := ihB hB
      exact ⟨⟨a1.wfS, b1.wfT, a1.dimS, b1.dimT, a1.flatS, b1.flatT⟩, fun r hr => by simp [SOp.map, SOp.shape, a2 r hr, b2 r hr]⟩
  | scaled A s ih =>
    intro b S T h
    obtain ⟨h1, h2⟩ := ih h.1
    exact ⟨h1, fun r hr => by simp [SOp.map, SOp.shape, h2 r hr]⟩
  | sum A B ihA ihB =>
    intro b S T h
    obtain ⟨h1, h2⟩ := ihA h.1
    exact ⟨h1, fun r hr => by simp [SOp.map, SOp.shape, h2 r hr]⟩
  | pow A p ih =>
    intro b S T h
    obtain ⟨rfl, _, h⟩ := h
    obtain ⟨h1, h2⟩ := ih h
    exact ⟨h1, fun r hr => by simp [SOp.map, SOp.shape, h2 r hr]⟩
  | conj A ih =>
    intro b S T h
    obtain ⟨h1, h2⟩ := ih (b := b) h
    exact ⟨h1, fun r hr => by simp [SOp.map, SOp.shape, h2 r hr]⟩

theorem runs_scheckDim {sh : Nat × Nat} {b : Bool} {S : XSpace} {d : List K} {k : Nat → P K (XArr K)} {ρ : Nat → Except Err (XArr K)}
    {shs : Nat → Nat × Nat} (hs : ∀ r < n, shs r = sh) (hf : S.Flat) (hg : S.dim = dimOf sh b) (h : Runs n k ρ) :
    Runs n (fun r => SOp.checkDim (shs r) b (S.vec n d r) (k r)) ρ := by
  refine h.congr (fun r hr => ?_) fun _ _ => rfl
  cases S with
  | one V =>
    simp only [XSpace.vec, SOp.checkDim]
    rw [hs r hr, if_neg]
    have h0 : (V.vec n d r : DArr K).gshape = V.L.gshape := rfl
    rw [h0]
    simp only [XSpace.dim, XSpace.Flat] at hf hg
    obtain ⟨a, ha⟩ := List.length_eq_one_iff.1 hf
    rw [ha] at hg ⊢
    simp [dimOf] at hg
    simp [hg]
  | stack Ss =>
    simp only [XSpace.vec, SOp.checkDim]
    have e1 : ∀ {Ss : SSpace} {d : List K}, (∀ V ∈ Ss, V.L.gshape.length = 1) → ∀ x ∈ Ss.vec n d r, x.gshape.length = 1 := by
      intro Ss d h x hx
      have : x.gshape ∈ (Ss.vec n d r).map (·.gshape) := List.mem_map_of_mem hx
      rw [SSpace.gshape_vec, List.mem_map] at this
      obtain ⟨V, hV, e⟩ := this
      rw [← e]; exact h V hV
    have e2 : ((Ss.vec n d r).map fun x => x.gshape.sum) = Ss.map fun V => V.L.gshape.sum := by
      have := congrArg (List.map List.sum) (SSpace.gshape_vec (n := n) (S := Ss) (d := d) (r := r))
      rw [List.map_map, List.map_map] at this
      exact this
    have e3 : (Ss.map fun V => V.L.gshape.sum) = Ss.map fun V => V.L.gshape.prod := by
      apply List.map_congr_left
      intro V hV
      obtain ⟨a, ha⟩ := List.length_eq_one_iff.1 (hf V hV)
      simp [ha]
    rw [hs r hr, if_neg, if_neg]
    · rw [e2, e3, not_not]; exact hg
    · have hall := e1 (d := d) hf
      intro hany
      obtain ⟨x, hx, hne⟩ := List.any_eq_true.1 hany
      apply (of_decide_eq_true hne)
      rw [hall x hx]
      generalize hv : Ss.vec n d r = l at hx hall
      cases l with
      | nil => cases hx
      | cons y l => simp only [List.map_cons, List.headD_cons]; exact (hall y (by simp)).symm

theorem take_left' {a b : List K} {k : Nat} (h : a.length = k) : (a ++ b).take k = a := by rw [← h]; exact List.take_left
theorem drop_left' {a b : List K} {k : Nat} (h : a.length = k) : (a ++ b).drop k = b := by rw [← h]; exact List.drop_left

/-- MPIStackedVStack forward -/
theorem runs_vsMv {ops : List (MOp K ι)} {S : VSpace} {Ts : SSpace} (h : List.Forall₂ (fun e T => Typed lv n J prim false e S T) ops Ts) {d : List K} (hd : S.Mem d) :
    Ts.Mem (vcat false (ops.map (MOp.toLOp lv)) d) ∧
    Runs n (fun r => forList (fun o => MOp.run (env n J r) false o (S.vec n d r)) (ops.map (MOp.map (prim · r))))
      (fun r => .ok (Ts.vec n (vcat false (ops.map (MOp.toLOp lv)) d) r)) := by
  induction h with
  | nil => exact ⟨rfl, runs_forList_nil⟩
  | @cons e T es Ts h1 h2 ih =>
    have c := typed_computes h1
    have hm := c.mem hd
    have ev : vcat false ((e :: es).map (MOp.toLOp lv)) d = den lv false e d ++ vcat false (es.map (MOp.toLOp lv)) d := by
      simp only [vcat, List.map_cons, List.flatMap_cons]; rfl
    rw [ev]
    refine ⟨⟨?_, ?_⟩, ?_⟩
    · rw [take_left' hm.1]; exact hm
    · rw [drop_left' hm.1]; exact ih.1
    · have := runs_forList_cons (f := fun r o => MOp.run (env n J r) false o (S.vec n d r)) (c.runs hd) ih.2
      simp only [SSpace.vec, take_left' hm.1, drop_left' hm.1]
      exact this

/-- the loop of the adjoint -/
theorem runs_vsLoop {ops : List (MOp K ι)} {Ss : SSpace} {T : VSpace} (hT : T.L.WF n) (h : List.Forall₂ (fun e S => Typed lv n J prim true e S T) ops Ss) :
    ∀ {y d : List K}, T.Mem y → Ss.Mem d →
    T.Mem ((slices true (ops.map (MOp.toLOp lv)) d).foldl vadd y) ∧ (∀ z ∈ slices true (ops.map (MOp.toLOp lv)) d, T.Mem z) ∧
    Runs n (fun r => SOp.vsLoop (env n J r) (T.vec n y r) ((Ss.vec n d r).zip (ops.map (MOp.map (prim · r)))))
      (fun r => .ok (T.vec n ((slices true (ops.map (MOp.toLOp lv)) d).foldl vadd y) r)) := by
  induction h with
  | nil => intro y d hy hd; exact ⟨hy, by simp [slices], Runs.ret _⟩
  | @cons e S es Ss h1 h2 ih =>
    intro y d hy hd
    have c := typed_computes h1
    have hm := c.mem hd.1
    have hk : S.L.gshape.prod = (e.toLOp lv).inDim true := by
      rw [(Typed.facts h1).2.2.1]; simp [dimOf, LOp.inDim, MOp.toLOp]
    have es' : slices true ((e :: es).map (MOp.toLOp lv)) d
        = den lv true e (d.take S.L.gshape.prod) :: slices true (es.map (MOp.toLOp lv)) (d.drop S.L.gshape.prod) := by
      rw [hk]; rfl
    rw [es']
    obtain ⟨i1, i2, i3⟩ := ih (y := vadd y (den lv true e (d.take S.L.gshape.prod))) (mem_add hy hm) hd.2
    refine ⟨i1, ?_, ?_⟩
    · intro z hz
      rcases List.mem_cons.1 hz with rfl | hz
      · exact hm
      · exact i2 z hz
    · simp only [SSpace.vec, List.map_cons, List.zip_cons_cons, SOp.vsLoop, Prog.bind_eq, List.foldl_cons]
      refine Runs.bind_ok (k := fun r z => ((T.vec n y r).add (env n J r) z).bind fun y => SOp.vsLoop (env n J r) y _) (c.runs hd.1) ?_
      refine Runs.bind_ok (runs_add_vec (J := J) hT hy hm) i3

/-- MPIStackedVStack adjoint -/
theorem runs_vsRmv {ops : List (MOp K ι)} {Ss : SSpace} {T : VSpace} {N : Nat} (hN : T.L.gshape = [N]) (h0 : ops ≠ []) (h : List.Forall₂ (fun e S => Typed lv n J prim true e S T) ops Ss)
    {d : List K} (hd : Ss.Mem d) :
    T.Mem (hsum true N (ops.map (MOp.toLOp lv)) d) ∧
    Runs n (fun r => SOp.vsRmv (env n J r) (ops.map (MOp.map (prim · r))) (.stack (Ss.vec n d r))) (fun r => .ok (.one (T.vec n (hsum true N (ops.map (MOp.toLOp lv)) d) r))) := by
  cases h with
  | nil => exact absurd rfl h0
  | @cons e S es Ss h1 h2 =>
    have c := typed_computes h1
    have hm := c.mem hd.1
    have hT := (Typed.facts h1).2.1
    have hk : S.L.gshape.prod = (e.toLOp lv).inDim true := by
      rw [(Typed.facts h1).2.2.1]; simp [dimOf, LOp.inDim, MOp.toLOp]
    have es' : slices true ((e :: es).map (MOp.toLOp lv)) d
        = den lv true e (d.take S.L.gshape.prod) :: slices true (es.map (MOp.toLOp lv)) (d.drop S.L.gshape.prod) := by
      rw [hk]; rfl
    obtain ⟨i1, i2, i3⟩ := runs_vsLoop hT h2 hm hd.2
    have hlen : ∀ z : List K, T.Mem z → z.length = N := fun z hz => by rw [hz.1, hN]; simp
    have ef : hsum true N ((e :: es).map (MOp.toLOp lv)) d = (slices true (es.map (MOp.toLOp lv)) (d.drop S.L.gshape.prod)).foldl vadd (den lv true e (d.take S.L.gshape.prod)) := by
      unfold hsum
      rw [es', vsum_cons, foldl_vadd (hlen _ hm) (fun z hz => hlen z (i2 z hz))]
    rw [ef]
    refine ⟨i1, ?_⟩
    simp only [SSpace.vec, SOp.vsRmv, List.map_cons, Prog.bind_eq]
    refine Runs.bind_ok (k := fun r y => (SOp.vsLoop (env n J r) y _).bind fun y => .ret (XArr.one y)) (c.runs hd.1) ?_
    exact Runs.map_ok XArr.one i3

/-- MPIStackedBlockDiag -/
theorem runs_bdMv {b : Bool} : ∀ {Ss : SSpace} {ops : List (MOp K ι)} {Ts : SSpace}, Ss.length = ops.length →
    List.Forall₂ (fun (p : VSpace × MOp K ι) T => Typed lv n J prim b p.2 p.1 T) (Ss.zip ops) Ts → ∀ {d : List K}, Ss.Mem d →
    Ts.Mem (blockDiag b (ops.map (MOp.toLOp lv)) d) ∧
    Runs n (fun r => forList (fun p : DArr K × MOp K (Prim K) => MOp.run (env n J r) b p.2 p.1) ((Ss.vec n d r).zip (ops.map (MOp.map (prim · r)))))
      (fun r => .ok (Ts.vec n (blockDiag b (ops.map (MOp.toLOp lv)) d) r)) := by
  intro Ss
  induction Ss with
  | nil =>
    intro ops Ts hl h d hd
    have : ops = [] := List.length_eq_zero_iff.1 hl.symm
    subst this
    cases h
    exact ⟨rfl, runs_forList_nil⟩
  | cons S Ss ih =>
    intro ops Ts hl h d hd
    cases ops with
    | nil => simp at hl
    | cons e ops =>
      rw [List.zip_cons_cons] at h
      cases h with
      | @cons _ T _ Ts h1 h2 =>
        have c := typed_computes h1
        have hm := c.mem hd.1
        have hk : S.L.gshape.prod = (e.toLOp lv).inDim b := by
          rw [(Typed.facts h1).2.2.1]; cases b <;> simp [dimOf, LOp.inDim, MOp.toLOp]
        have ef : (e.toLOp lv).fn b = den lv b e := by cases b <;> rfl
        have ev : blockDiag b ((e :: ops).map (MOp.toLOp lv)) d = den lv b e (d.take S.L.gshape.prod) ++ blockDiag b (ops.map (MOp.toLOp lv)) (d.drop S.L.gshape.prod) := by
          simp only [blockDiag, List.map_cons, slices, List.flatten_cons, hk, ef]
        obtain ⟨i1, i2⟩ := ih (by simpa using hl) h2 hd.2
        rw [ev]
        refine ⟨⟨?_, ?_⟩, ?_⟩
        · rw [take_left' hm.1]; exact hm
        · rw [drop_left' hm.1]; exact i1
        · have := runs_forList_cons (f := fun r (p : DArr K × MOp K (Prim K)) => MOp.run (env n J r) b p.2 p.1)
            (a := fun r => (S.vec n (d.take S.L.gshape.prod) r, e.map (prim · r))) (c.runs hd.1) i2
          simp only [SSpace.vec, take_left' hm.1, drop_left' hm.1]
          exact this

theorem runs_spow_one {V : VSpace} (hV : V.L.WF n) {mv : Nat → Ctx K → XArr K → P K (XArr K)} {f : List K → List K} (h : XComputes n J mv (.one V) (.one V) f) (p : Nat) :
    ∀ {d : List K}, V.Mem d → V.Mem (f^[p] d) ∧
      Runs n (fun r => SOp.powLoop (env n J r) (mv r (env n J r)) p (.one (V.vec n d r))) (fun r => .ok (.one (V.vec n (f^[p] d) r))) := by
  induction p with
  | zero => intro d hd; exact ⟨hd, Runs.ret _⟩
  | succ p ih =>
    intro d hd
    have hm : V.Mem (f d) := h.mem (S := .one V) hd
    obtain ⟨i1, i2⟩ := ih hm
    refine ⟨by rw [Function.iterate_succ_apply]; exact i1, ?_⟩
    rw [Function.iterate_succ_apply]
    simp only [SOp.powLoop, Prog.bind_eq]
    refine Runs.bind_ok (a := fun r => XArr.one (V.vec n (f d) r)) (h.runs (S := .one V) hd) ?_
    dsimp only
    exact Runs.bind_ok (runs_set_vec hV hd hm) i2

/-- on stacked vectors the power operator only copies -/
theorem runs_spow_stack {S T : XSpace} {Ss : SSpace} (hS : S = .stack Ss) {mv : Nat → Ctx K → XArr K → P K (XArr K)} {f : List K → List K} (h : XComputes n J mv S T f) (p : Nat) {d : List K} (hd : S.Mem d) :
    Runs n (fun r => SOp.powLoop (env n J r) (mv r (env n J r)) p (S.vec n d r)) (fun r => .ok (S.vec n d r)) := by
  subst hS
  induction p with
  | zero => exact Runs.ret _
  | succ p ih =>
    simp only [XSpace.vec, SOp.powLoop, Prog.bind_eq]
    exact Runs.bind_ok (h.runs (S := .stack Ss) hd) ih

theorem vtyped_computes {ops : List (MOp K ι)} {b : Bool} {S T : XSpace} (h : VTyped lv n J prim ops b S T) :
    XComputes n J (fun r c x => if b then SOp.vsRmv c (ops.map (MOp.map (prim · r))) x else SOp.vsMv c (ops.map (MOp.map (prim · r))) x) S T
      (if b then hsum true (SOp.vshape lv.sh ops).2 (ops.map (MOp.toLOp lv)) else vcat false (ops.map (MOp.toLOp lv))) := by
  have hf := vtyped_facts h
  refine XComputes.intro fun d hd => ?_
  match b, S, T, h, hd with
  | false, .one S, .stack Ts, ⟨h0, h⟩, hd =>
    obtain ⟨i1, i2⟩ := runs_vsMv h hd
    exact ⟨i1, Runs.map_ok XArr.stack i2⟩
  | true, .stack Ss, .one T, ⟨h0, h⟩, hd =>
    have hN : T.L.gshape = [(SOp.vshape lv.sh ops).2] := by
      have h1 := hf.1.flatT
      have h2 := hf.1.dimT
      simp only [XSpace.Flat, XSpace.dim] at h1 h2
      obtain ⟨a, ha⟩ := List.length_eq_one_iff.1 h1
      rw [ha] at h2 ⊢
      simp [dimOf] at h2
      rw [h2]
    exact runs_vsRmv hN h0 h hd

theorem styped_computes {e : SOp K ι} : ∀ {b : Bool} {S T : XSpace}, STyped lv n J prim b e S T →
    XComputes n J (fun r c x => SOp.run c b (e.map (prim · r)) x) S T (sden lv b e) := by
  induction e with
  | vstack ops =>
    intro b S T h
    have hf := STyped.facts (e := .vstack ops) h
    have c := vtyped_computes (b := b) h
    have ed : sden lv b (.vstack ops) = (if b then hsum true (SOp.vshape lv.sh ops).2 (ops.map (MOp.toLOp lv)) else vcat false (ops.map (MOp.toLOp lv))) := by
      funext x; cases b <;> simp [sden]
    rw [ed]
    refine XComputes.intro fun d hd => ⟨c.mem hd, ?_⟩
    have := runs_scheckDim (b := b) (S := S) (d := d) hf.2 hf.1.flatS hf.1.dimS (c.runs hd)
    refine this.congr (fun r _ => ?_) fun _ _ => rfl
    simp only [SOp.map, SOp.run]
  | grad ops =>
    intro b S T h
    have hf := STyped.facts (e := .grad ops) h
    have c := vtyped_computes (b := b) h
    have ed : sden lv b (.grad ops) = (if b then hsum true (SOp.vshape lv.sh ops).2 (ops.map (MOp.toLOp lv)) else vcat false (ops.map (MOp.toLOp lv))) := by
      funext x; cases b <;> simp [sden]
    rw [ed]
    refine XComputes.intro fun d hd => ⟨c.mem hd, ?_⟩
    have := runs_scheckDim (b := b) (S := S) (d := d) hf.2 hf.1.flatS hf.1.dimS (c.runs hd)
    refine this.congr (fun r _ => ?_) fun _ _ => rfl
    simp only [SOp.map, SOp.run]
  | bdiag ops =>
    intro b S T h
    have hf := STyped.facts (e := .bdiag ops) h
    have hrun : ∀ d, S.Mem d → T.Mem (sden lv b (.bdiag ops) d) ∧ Runs n (fun r => SOp.bdMv (env n J r) b (ops.map (MOp.map (prim · r))) (S.vec n d r)) (fun r => .ok (T.vec n (sden lv b (.bdiag ops) d) r)) := by
      intro d hd
      have ed : sden lv b (.bdiag ops) d = blockDiag b (ops.map (MOp.toLOp lv)) d := by cases b <;> simp [sden]
      rw [ed]
      match S, T, h, hd with
      | .stack Ss, .stack Ts, ⟨hl, h⟩, hd =>
        obtain ⟨i1, i2⟩ := runs_bdMv hl h hd
        exact ⟨i1, Runs.map_ok XArr.stack i2⟩
    refine XComputes.intro fun d hd => ⟨(hrun d hd).1, ?_⟩
    have := runs_scheckDim (b := b) (S := S) (d := d) hf.2 hf.1.flatS hf.1.dimS (hrun d hd).2
    refine this.congr (fun r _ => ?_) fun _ _ => rfl
    simp only [SOp.map, SOp.run]
  | adj A ih =>
    intro b S T h
    have hf := STyped.facts (e := .adj A) h
    have c := ih (b := !b) h
    refine XComputes.intro fun d hd => ?_
    have ed : sden lv b (.adj A) d = sden lv (!b) A d := by cases b <;> simp [sden]
    rw [ed]
    refine ⟨c.mem hd, ?_⟩
    have := runs_scheckDim (b := b) (S := S) (d := d) hf.2 hf.1.flatS hf.1.dimS (c.runs hd)
    refine this.congr (fun r _ => ?_) fun _ _ => rfl
    simp only [SOp.map, SOp.run]
  | trans A ih =>
    intro b S T h
    have hf := STyped.facts (e := .trans A) h
    have c := ih (b := !b) h
    refine XComputes.intro fun d hd => ?_
    have ed : sden lv b (.trans A) d = (sden lv (!b) A (d.map star)).map star := by cases b <;> simp [sden, vconj]
    rw [ed]
    refine ⟨XSpace.mem_conj (c.mem (XSpace.mem_conj hd)), ?_⟩
    have := runs_scheckDim (b := b) (S := S) (d := d) hf.2 hf.1.flatS hf.1.dimS
      (Runs.bind_ok (k := fun r x => (SOp.run (env n J r) (!b) (A.map (prim · r)) x).bind fun y => y.conj (env n J r))
        (runs_conj_xvec (J := J) hf.1.wfS hd) (Runs.bind_ok (c.runs (XSpace.mem_conj hd)) (runs_conj_xvec (J := J) hf.1.wfT (c.mem (XSpace.mem_conj hd)))))
    refine this.congr (fun r _ => ?_) fun _ _ => rfl
    simp only [SOp.map, SOp.run, Prog.bind_eq]
  | prod A B ihA ihB =>
    intro b S T h
    have hf := STyped.facts (e := .prod A B) h
    cases b with
    | false =>
      obtain ⟨U, hB, hA⟩ := h
      refine XComputes.intro fun d hd => ?_
      have ed : sden lv false (.prod A B) d = sden lv false A (sden lv false B d) := by simp [sden]
      rw [ed]
      refine ⟨(ihA hA).mem ((ihB hB).mem hd), ?_⟩
      have := runs_scheckDim (b := false) (S := S) (d := d) hf.2 hf.1.flatS hf.1.dimS (Runs.bind_ok ((ihB hB).runs hd) ((ihA hA).runs ((ihB hB).mem hd)))
      refine this.congr (fun r _ => ?_) fun _ _ => rfl
      simp only [SOp.map, SOp.run, Prog.bind_eq]
    | true =>
      obtain ⟨U, hA, hB⟩ := h
      refine XComputes.intro fun d hd => ?_
      have ed : sden lv true (.prod A B) d = sden lv true B (sden lv true A d) := by simp [sden]
      rw [ed]
      refine ⟨(ihB hB).mem ((ihA hA).mem hd), ?_⟩
      have := runs_scheckDim (b := true) (S := S) (d := d) hf.2 hf.1.flatS hf.1.dimS (Runs.bind_ok ((ihA hA).runs hd) ((ihB hB).runs ((ihA hA).mem hd)))
      refine this.congr (fun r _ => ?_) fun _ _ => rfl
      simp only [SOp.map, SOp.run, Prog.bind_eq]
  | scaled A s ih =>
    intro b S T h
    have hf := STyped.facts (e := .scaled A s) h
    have c := ih h.1
    have hs : T.HasReal → star (if b then s.conj else s).val = (if b then s.conj else s).val := by
      intro ht
      have h2 := h.2 ht
      cases b <;> simp [Scal.conj, h2]
    refine XComputes.intro fun d hd => ?_
    have ed : sden lv b (.scaled A s) d = (sden lv b A d).map (· * (if b then s.conj else s).val) := by cases b <;> simp [sden, vscale, Scal.conj]
    rw [ed]
    refine ⟨XSpace.mem_smul hs (c.mem hd), ?_⟩
    have := runs_scheckDim (b := b) (S := S) (d := d) hf.2 hf.1.flatS hf.1.dimS
      (Runs.bind_ok (k := fun r y => y.smul (env n J r) (if b then s.conj else s).dtype (if b then s.conj else s).val) (c.runs hd) (runs_smul_xvec (J := J) hf.1.wfT hs (c.mem hd)))
    refine this.congr (fun r _ => ?_) fun _ _ => rfl
    simp only [SOp.map, SOp.run, Prog.bind_eq]
  | sum A B ihA ihB =>
    intro b S T h
    have hf := STyped.facts (e := .sum A B) h
    refine XComputes.intro fun d hd => ?_
    have ed : sden lv b (.sum A B) d = List.zipWith (· + ·) (sden lv b A d) (sden lv b B d) := by cases b <;> simp [sden, vadd]
    rw [ed]
    refine ⟨XSpace.mem_add ((ihA h.1).mem hd) ((ihB h.2).mem hd), ?_⟩
    have := runs_scheckDim (b := b) (S := S) (d := d) hf.2 hf.1.flatS hf.1.dimS
      (Runs.bind_ok (k := fun r y => (SOp.run (env n J r) b (B.map (prim · r)) (S.vec n d r)).bind fun z => y.add (env n J r) z)
        ((ihA h.1).runs hd) (Runs.bind_ok ((ihB h.2).runs hd) (runs_add_xvec (J := J) hf.1.wfT ((ihA h.1).mem hd) ((ihB h.2).mem hd))))
    refine this.congr (fun r _ => ?_) fun _ _ => rfl
    simp only [SOp.map, SOp.run, Prog.bind_eq]
  | pow A p ih =>
    intro b S T h
    have hf := STyped.facts (e := .pow A p) h
    obtain ⟨rfl, ⟨V, rfl⟩, h⟩ := h
    have c := ih h
    refine XComputes.intro fun d hd => ?_
    have ed : sden lv b (.pow A p) d = (sden lv b A)^[p] d := by cases b <;> simp [sden]
    rw [ed]
    obtain ⟨i1, i2⟩ := runs_spow_one hf.1.wfS c p hd
    refine ⟨i1, ?_⟩
    have := runs_scheckDim (b := b) (S := .one V) (d := d) hf.2 hf.1.flatS hf.1.dimS
      (Runs.bind_ok (runs_copy_xvec (J := J) hf.1.wfS hd) i2)
    refine this.congr (fun r _ => ?_) fun _ _ => rfl
    simp only [SOp.map, SOp.run, Prog.bind_eq]
  | conj A ih =>
    intro b S T h
    have hf := STyped.facts (e := .conj A) h
    have c := ih (b := b) h
    refine XComputes.intro fun d hd => ?_
    have ed : sden lv b (.conj A) d = (sden lv b A (d.map star)).map star := by cases b <;> simp [sden, vconj]
    rw [ed]
    refine ⟨XSpace.mem_conj (c.mem (XSpace.mem_conj hd)), ?_⟩
    have := runs_scheckDim (b := b) (S := S) (d := d) hf.2 hf.1.flatS hf.1.dimS
      (Runs.bind_ok (k := fun r x => (SOp.run (env n J r) (b) (A.map (prim · r)) x).bind fun y => y.conj (env n J r))
        (runs_conj_xvec (J := J) hf.1.wfS hd) (Runs.bind_ok (c.runs (XSpace.mem_conj hd)) (runs_conj_xvec (J := J) hf.1.wfT (c.mem (XSpace.mem_conj hd)))))
    refine this.congr (fun r _ => ?_) fun _ _ => rfl
    simp only [SOp.map, SOp.run, Prog.bind_eq]

end Verif

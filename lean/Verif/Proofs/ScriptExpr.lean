/-
  Expressions of operators in scripts.
-/
import Verif.Proofs.Script
import Verif.Proofs.Algebra

namespace Verif
namespace Script
open NDArray
set_option linter.unusedSectionVars false

variable {K ι : Type} [RCLike K] {n : Nat} {J : Nat → Nat → K} {dt : DType} {prim : ι → Nat → Prim K} {lv : Leaves K ι}

theorem expr_shape (hp : ∀ i, ∀ r < n, (prim i r).shape = lv.sh i) (e : MOp K ι) {r : Nat} (hr : r < n) : (e.map (prim · r)).shape Prim.shape = e.shape lv.sh :=
  shape_map e fun i => hp i r hr

theorem add_or (hn : 0 < n) (hdt : dt = .real → ∀ k : K, star k = k) {s : List Nat} {Y Y' : Layout} (hY : Held n s Y) (hY' : Held n s Y') {d d' : List K} (hd : d.length = s.prod)
    (hd' : d'.length = s.prod) :
    RunsOr n (fun r => (VSpace.vec ⟨Y, dt⟩ n d r).add (env n J r) (VSpace.vec ⟨Y', dt⟩ n d' r)) fun r => .ok (VSpace.vec ⟨Y, dt⟩ n (vadd d d') r) := by
  by_cases hc : ∀ r < n, Compatible (VSpace.vec ⟨Y, dt⟩ n d r) (VSpace.vec ⟨Y', dt⟩ n d' r)
  · obtain ⟨-, he⟩ := held_eq hn hY hY' hc
    exact .inl ((runs_add_vec (J := J) (hY.wf hn) (hY.mem hdt hd) (hY.mem hdt hd')).congr (fun r hr => by rw [he d' r hr]) fun _ _ => rfl)
  · exact .inr (raises_binary (J := J) (S := ⟨Y, dt⟩) (S' := ⟨Y', dt⟩) (hY'.wf hn) (hY'.mem hdt hd') .add (by push Not at hc; exact hc))

/-- the check of the dimensions passes -/
theorem or_checkDim {sh : Nat × Nat} {b : Bool} {X : Layout} (hX : Held n [dimOf sh b] X) {d : List K} {ps : Nat → P K (DArr K)} {ρ : Nat → Except Err (DArr K)} (h : RunsOr n ps ρ)
    {sh' : Nat → Nat × Nat} (hs : ∀ r < n, sh' r = sh) : RunsOr n (fun r => checkDim (sh' r) b (VSpace.vec ⟨X, dt⟩ n d r) (ps r)) ρ := by
  refine h.congr (fun r hr => ?_) fun _ _ => rfl
  unfold Verif.checkDim
  rw [if_neg]
  rw [hs r hr]
  exact not_not.mpr hX.shape

theorem expr_or (hn : 0 < n) (hdt : dt = .real → ∀ k : K, star k = k) (hops : OpsOr n J dt prim lv) (e : MOp K ι) (he : Expression dt e) (hs : Shaped lv.sh e) :
    ∀ b X, Held n [dimOf (e.shape lv.sh) b] X → ∃ Y, Held n [dimOf (e.shape lv.sh) (!b)] Y ∧
      ∀ d, d.length = dimOf (e.shape lv.sh) b → (den lv b e d).length = dimOf (e.shape lv.sh) (!b) ∧
        RunsOr n (fun r => MOp.run (env n J r) b (e.map (prim · r)) (VSpace.vec ⟨X, dt⟩ n d r)) fun r => .ok (VSpace.vec ⟨Y, dt⟩ n (den lv b e d) r) := by
  have hp : ∀ i, ∀ r < n, (prim i r).shape = lv.sh i := fun i => (hops i).1
  have hmem : ∀ {N : Nat} {X : Layout} {d : List K}, Held n [N] X → d.length = N → VSpace.Mem ⟨X, dt⟩ d := fun hX hd => hX.mem hdt (by simpa using hd)
  induction e with
  | leaf i =>
    intro b X hX
    obtain ⟨Y, hY, h⟩ := (hops i).2 b X hX
    refine ⟨Y, hY, fun d hd => ?_⟩
    obtain ⟨h1, h2⟩ := h d (hmem hX hd)
    refine ⟨by have := h1.1; rw [show (VSpace.L ⟨Y, dt⟩).gshape = _ from hY.shape] at this; simp only [List.prod_cons, List.prod_nil, mul_one] at this; exact this, ?_⟩
    simp only [MOp.map, MOp.run]
    exact or_checkDim hX (h2.imp Always.runs id) (hp i)
  | adj A ih =>
    intro b X hX
    have hX' : Held n [dimOf (A.shape lv.sh) (!b)] X := by cases b <;> exact hX
    obtain ⟨Y, hY, h⟩ := ih he hs (!b) X hX'
    refine ⟨Y, by cases b <;> exact hY, fun d hd => ?_⟩
    obtain ⟨h1, h2⟩ := h d (by cases b <;> exact hd)
    refine ⟨by cases b <;> exact h1, ?_⟩
    simp only [MOp.map, MOp.run]
    exact or_checkDim hX h2 fun r hr => expr_shape hp (.adj A) hr
  | trans A ih =>
    intro b X hX
    have hX' : Held n [dimOf (A.shape lv.sh) (!b)] X := by cases b <;> exact hX
    obtain ⟨Y, hY, h⟩ := ih he hs (!b) X hX'
    refine ⟨Y, by cases b <;> exact hY, fun d hd => ?_⟩
    obtain ⟨h1, h2⟩ := h (vconj d) (by unfold vconj; rw [List.length_map]; cases b <;> exact hd)
    refine ⟨by unfold den vconj; rw [List.length_map]; cases b <;> exact h1, ?_⟩
    simp only [MOp.map, MOp.run, Prog.bind_eq]
    refine or_checkDim hX ?_ fun r hr => expr_shape hp (.trans A) hr
    exact RunsOr.bind_ok (k := fun r x => (MOp.run (env n J r) (!b) (A.map (prim · r)) x).bind fun y => y.conj (env n J r))
      ((runs_conj_vec (J := J) (hX.wf hn) (hmem hX hd)).or) (RunsOr.bind_ok h2 ((runs_conj_vec (J := J) (hY.wf hn) (hmem hY h1)).or))
  | prod A B ihA ihB =>
    intro b X hX
    obtain ⟨sA, sB, sAB⟩ := hs
    cases b with
    | false =>
      obtain ⟨U, hU, hB⟩ := ihB he.2 sB false X hX
      obtain ⟨Y, hY, hA⟩ := ihA he.1 sA false U (by rw [show dimOf (A.shape lv.sh) false = dimOf (B.shape lv.sh) !false from sAB]; exact hU)
      refine ⟨Y, hY, fun d hd => ?_⟩
      obtain ⟨b1, b2⟩ := hB d hd
      obtain ⟨a1, a2⟩ := hA _ (b1.trans sAB.symm)
      refine ⟨a1, ?_⟩
      simp only [MOp.map, MOp.run, Prog.bind_eq]
      exact or_checkDim (b := false) hX (RunsOr.bind_ok b2 a2) fun r hr => expr_shape hp (.prod A B) hr
    | true =>
      obtain ⟨U, hU, hA⟩ := ihA he.1 sA true X hX
      obtain ⟨Y, hY, hB⟩ := ihB he.2 sB true U (by rw [show dimOf (B.shape lv.sh) true = dimOf (A.shape lv.sh) !true from sAB.symm]; exact hU)
      refine ⟨Y, hY, fun d hd => ?_⟩
      obtain ⟨a1, a2⟩ := hA d hd
      obtain ⟨b1, b2⟩ := hB _ (a1.trans sAB)
      refine ⟨b1, ?_⟩
      simp only [MOp.map, MOp.run, Prog.bind_eq]
      exact or_checkDim (b := true) hX (RunsOr.bind_ok a2 b2) fun r hr => expr_shape hp (.prod A B) hr
  | scaled A s ih =>
    intro b X hX
    obtain ⟨Y, hY, h⟩ := ih he.1 hs b X hX
    refine ⟨Y, hY, fun d hd => ?_⟩
    obtain ⟨h1, h2⟩ := h d hd
    have hsr : dt = .real → (if b then s.conj else s).dtype = .real ∧ star (if b then s.conj else s).val = (if b then s.conj else s).val := by
      intro ht
      refine ⟨?_, hdt ht _⟩
      cases b <;> exact he.2 ht
    have ev : (if b then s.conj else s).val = if b then star s.val else s.val := by cases b <;> rfl
    refine ⟨by unfold den vscale; rw [List.length_map]; exact h1, ?_⟩
    have := RunsOr.bind_ok (k := fun r y => y.scaleInPlace (env n J r) (if b then s.conj else s)) h2
      ((runs_scaleInPlace_vec (J := J) (S := ⟨Y, dt⟩) (hY.wf hn) hsr (hmem hY h1)).or)
    rw [ev] at this
    simp only [MOp.map, MOp.run, Prog.bind_eq]
    exact or_checkDim hX this fun r hr => expr_shape hp (.scaled A s) hr
  | sum A B ihA ihB =>
    intro b X hX
    obtain ⟨sA, sB, sAB⟩ := hs
    obtain ⟨Y, hY, hA⟩ := ihA he.1 sA b X hX
    obtain ⟨Y', hY', hB⟩ := ihB he.2 sB b X (by rw [← sAB]; exact hX)
    rw [← sAB] at hY'
    refine ⟨Y, hY, fun d hd => ?_⟩
    obtain ⟨a1, a2⟩ := hA d hd
    obtain ⟨b1, b2⟩ := hB d (by rw [← sAB]; exact hd)
    rw [← sAB] at b1
    refine ⟨by unfold den vadd; rw [List.length_zipWith, a1, b1, Nat.min_self]; rfl, ?_⟩
    simp only [MOp.map, MOp.run, Prog.bind_eq]
    refine or_checkDim hX ?_ fun r hr => expr_shape hp (.sum A B) hr
    exact RunsOr.bind_ok (k := fun r y => (MOp.run (env n J r) b (B.map (prim · r)) (VSpace.vec ⟨X, dt⟩ n d r)).bind fun z => y.add (env n J r) z) a2
      (RunsOr.bind_ok b2 (add_or hn hdt hY hY' (by simpa using a1) (by simpa using b1)))
  | pow A p ih => exact he.elim
  | conj A ih =>
    intro b X hX
    obtain ⟨Y, hY, h⟩ := ih he hs b X hX
    refine ⟨Y, hY, fun d hd => ?_⟩
    obtain ⟨h1, h2⟩ := h (vconj d) (by unfold vconj; rw [List.length_map]; exact hd)
    refine ⟨by unfold den vconj; rw [List.length_map]; exact h1, ?_⟩
    simp only [MOp.map, MOp.run, Prog.bind_eq]
    refine or_checkDim hX ?_ fun r hr => expr_shape hp (.conj A) hr
    exact RunsOr.bind_ok (k := fun r x => (MOp.run (env n J r) b (A.map (prim · r)) x).bind fun y => y.conj (env n J r))
      ((runs_conj_vec (J := J) (hX.wf hn) (hmem hX hd)).or) (RunsOr.bind_ok h2 ((runs_conj_vec (J := J) (hY.wf hn) (hmem hY h1)).or))

/-- expressions of operators in the default layout are typed -/
theorem expr_typed (hn : 0 < n) (hdt : dt = .real → ∀ k : K, star k = k) (hops : OpsStandard n J dt prim lv) (e : MOp K ι) (he : PowerExpression dt e) (hs : Shaped lv.sh e) :
    ∀ b, Typed lv n J prim b e ⟨standard n [dimOf (e.shape lv.sh) b], dt⟩ ⟨standard n [dimOf (e.shape lv.sh) (!b)], dt⟩ := by
  have hw : ∀ N, (standard n [N]).WF n := fun N => (standard_held hn (by simp)).wf hn
  induction e with
  | leaf i => exact fun b => ⟨(hops i).1, hw _, hw _, rfl, rfl, (hops i).2 b⟩
  | adj A ih => intro b; have := ih he hs (!b); cases b <;> exact this
  | trans A ih => intro b; have := ih he hs (!b); cases b <;> exact this
  | prod A B ihA ihB =>
    intro b
    obtain ⟨sA, sB, sAB⟩ := hs
    have hA := ihA he.1 sA b
    have hB := ihB he.2 sB b
    cases b with
    | false =>
      refine ⟨_, hB, ?_⟩
      rw [show dimOf (A.shape lv.sh) false = dimOf (B.shape lv.sh) !false from sAB] at hA
      exact hA
    | true =>
      refine ⟨_, hA, ?_⟩
      rw [show dimOf (B.shape lv.sh) true = dimOf (A.shape lv.sh) !true from sAB.symm] at hB
      exact hB
  | scaled A s ih => exact fun b => ⟨ih he.1 hs b, fun ht => ⟨he.2 ht, hdt ht _⟩⟩
  | sum A B ihA ihB =>
    intro b
    obtain ⟨sA, sB, sAB⟩ := hs
    have hB := ihB he.2 sB b
    rw [← sAB] at hB
    exact ⟨ihA he.1 sA b, hB⟩
  | pow A p ih =>
    intro b
    obtain ⟨sA, sq⟩ := hs
    have hA := ih he sA b
    have e1 : dimOf (A.shape lv.sh) (!b) = dimOf (A.shape lv.sh) b := by cases b <;> simp [dimOf, sq]
    have e2 : dimOf ((MOp.pow A p).shape lv.sh) (!b) = dimOf ((MOp.pow A p).shape lv.sh) b := e1
    rw [e1] at hA
    rw [e2]
    exact ⟨rfl, hA⟩
  | conj A ih => exact fun b => ih he hs b

end Script
end Verif

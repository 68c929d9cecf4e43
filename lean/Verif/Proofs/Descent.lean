/- Where `cgls` stops for an adjoint pair of operators, and pairs that are adjoint on real vectors only. -/
import Verif.Proofs.Regularised
import Verif.Spec.MDC

set_option linter.unusedSectionVars false

namespace Verif
open NDArray Serial

variable {K : Type} [RCLike K] {M N : Nat}

section
variable {A : Vec K M →ₗ[K] Vec K N} {B : Vec K N →ₗ[K] Vec K M} (hAB : ∀ x z, inner K (A x) z = inner K x (B z))
include hAB

/-- undamped `cgls` stops after at most as many steps as there are unknowns, without division by zero, at a point that fits the data at least as well as the starting point -/
theorem cgls_stops (y : Vec K N) (x0 : Vec K M) {tol : ℝ} (htol : 0 ≤ tol) (mx : Int) :
    ∃ m ≤ M, Stops (fun i => (CGLS.seq K A B 0 (0 ^ 2) y x0 i).k) mx tol 0 m ∧ (∀ i < m, ¬ CGLS.Breaks (0 ^ 2) (CGLS.seq K A B 0 (0 ^ 2) y x0 i)) ∧
      ‖y - A (CGLS.seq K A B 0 (0 ^ 2) y x0 m).x‖ ^ 2 ≤ ‖y - A x0‖ ^ 2 ∧
      (mx ≤ m ∨ ‖B (y - A (CGLS.seq K A B 0 (0 ^ 2) y x0 m).x)‖ ^ 2 ≤ tol) ∧
      (tol = 0 → (M : Int) ≤ mx → ∀ z, ‖y - A (CGLS.seq K A B 0 (0 ^ 2) y x0 m).x‖ ^ 2 ≤ ‖y - A z‖ ^ 2) := by
  have hd : (0 : ℝ) = 0 ∨ (0 : ℝ) = 1 ∨ x0 = 0 := .inl rfl
  have ho : ∀ x, objective A (0 ^ 2) y x = ‖y - A x‖ ^ 2 := fun x => by simp [objective]
  have hg : ∀ x, dgrad A B 0 y x = B (y - A x) := fun x => by simp [dgrad]
  have hk := cgls_k (damp := 0) (y := y) hAB hd
  obtain ⟨m0, h1, h2, h3⟩ := cgls_terminates (damp := 0) (y := y) hAB hd
  classical
  have hex : ∃ m : Nat, mx ≤ m ∨ (CGLS.seq K A B 0 (0 ^ 2) y x0 m).k ≤ tol := ⟨m0, .inr (by rw [hk, h3]; simpa using htol)⟩
  have hle : Nat.find hex ≤ m0 := Nat.find_min' hex (.inr (by rw [hk, h3]; simpa using htol))
  have hdec : ∀ m ≤ m0, ‖y - A (CGLS.seq K A B 0 (0 ^ 2) y x0 m).x‖ ^ 2 ≤ ‖y - A x0‖ ^ 2 := by
    intro m hm
    induction m with
    | zero => exact le_rfl
    | succ m ih =>
      have := cgls_decrease (damp := 0) (y := y) hAB hd (m := m) fun i hi => h2 i (by omega)
      rw [ho, ho] at this
      exact this.le.trans (ih (by omega))
  refine ⟨Nat.find hex, hle.trans h1, ⟨Nat.zero_le _, fun i _ hi => ?_, Nat.find_spec hex⟩, fun i hi => cgls_no_break hAB hd fun k hk => h2 k (by omega), hdec _ hle, ?_, fun ht hM z => ?_⟩
  · have := Nat.find_min hex hi
    rw [not_or, not_le, not_le] at this
    exact this
  · rcases Nat.find_spec hex with h | h
    · exact .inl h
    · rw [hk, hg] at h
      exact .inr h
  · have h0 : dgrad A B 0 y (CGLS.seq K A B 0 (0 ^ 2) y x0 (Nat.find hex)).x = 0 := by
      rcases Nat.find_spec hex with h | h
      · have : Nat.find hex = m0 := by omega
        rw [this]; exact h3
      · rw [hk] at h
        have := le_antisymm (h.trans ht.le) (sq_nonneg _)
        simpa using this
    have := cgls_min (damp := 0) (y := y) hAB hd h0 z
    rwa [ho, ho] at this

end

/-! ### Real vectors -/

theorem ip_real {u v : List K} (hu : FitsL .real u) (hv : FitsL .real v) : star (ip u v) = ip u v := by
  unfold ip
  induction u generalizing v with
  | nil => simp
  | cons a u ih =>
    cases v with
    | nil => simp
    | cons b v =>
      have h1 := hu rfl a (by simp)
      have h2 := hv rfl b (by simp)
      have h3 := ih (v := v) (fun _ x hx => hu rfl x (by simp [hx])) (fun _ x hx => hv rfl x (by simp [hx]))
      simp only [List.zipWith_cons_cons, List.sum_cons, star_add, star_mul', star_star] at h3 ⊢
      rw [h3, h1, h2]

theorem ip_of_rip {u v u' v' : List K} (hu : FitsL .real u) (hv : FitsL .real v) (hu' : FitsL .real u') (hv' : FitsL .real v') (h : rip u v = rip u' v') : ip u v = ip u' v' := by
  unfold rip at h
  rw [ip_real hu hv, ip_real hu' hv', ← two_mul, ← two_mul] at h
  exact mul_left_cancel₀ two_ne_zero h

theorem toL_single_real (j : Fin M) : FitsL .real (toL (EuclideanSpace.single j (1 : K))) := by
  intro _ x hx
  simp only [toL, List.mem_ofFn] at hx
  obtain ⟨i, rfl⟩ := hx
  by_cases h : i = j <;> simp [h]

/-- functions of lists that are adjoint to each other on real vectors agree there with linear maps that are adjoint to each other -/
theorem exists_linear_real {f g : List K → List K} (hf : ∀ x, x.length = M → (f x).length = N) (hg : ∀ y, y.length = N → (g y).length = M)
    (ha : ∀ u v, u.length = M → v.length = N → FitsL .real u → FitsL .real v → ip (f u) v = ip u (g v)) :
    ∃ (A : Vec K M →ₗ[K] Vec K N) (B : Vec K N →ₗ[K] Vec K M), (∀ x, FitsL .real (toL x) → toL (A x) = f (toL x)) ∧ (∀ y, FitsL .real (toL y) → toL (B y) = g (toL y)) ∧
      ∀ x y, inner K (A x) y = inner K x (B y) := by
  let A0 (x : Vec K M) : Vec K N := ofL N (f (toL x))
  let B0 (y : Vec K N) : Vec K M := ofL M (g (toL y))
  have hA : ∀ x, toL (A0 x) = f (toL x) := fun x => toL_ofL (hf _ (length_toL x))
  have hB : ∀ y, toL (B0 y) = g (toL y) := fun y => toL_ofL (hg _ (length_toL y))
  have had : ∀ x y, FitsL .real (toL x) → FitsL .real (toL y) → inner K (A0 x) y = inner K x (B0 y) := fun x y hx hy => by
    rw [← ip_toL, ← ip_toL, hA, hB]; exact ha _ _ (length_toL x) (length_toL y) hx hy
  let A : Vec K M →ₗ[K] Vec K N := (EuclideanSpace.basisFun (Fin M) K).toBasis.constr K fun j => A0 (EuclideanSpace.single j 1)
  have hAs : ∀ j, A (EuclideanSpace.single j 1) = A0 (EuclideanSpace.single j 1) := fun j => by
    have := (EuclideanSpace.basisFun (Fin M) K).toBasis.constr_basis K (fun j => A0 (EuclideanSpace.single j 1)) j
    rwa [OrthonormalBasis.coe_toBasis, EuclideanSpace.basisFun_apply] at this
  have hadj : ∀ x y, inner K (A x) y = inner K x (LinearMap.adjoint A y) := fun x y => (LinearMap.adjoint_inner_right A x y).symm
  have hBs : ∀ y, FitsL .real (toL y) → LinearMap.adjoint A y = B0 y := fun y hy => by
    ext j
    have h1 := hadj (EuclideanSpace.single j 1) y
    rw [hAs, had _ _ (toL_single_real j) hy] at h1
    rw [EuclideanSpace.inner_single_left, EuclideanSpace.inner_single_left, map_one, one_mul, one_mul] at h1
    exact h1.symm
  refine ⟨A, LinearMap.adjoint A, fun x hx => ?_, fun y hy => by rw [hBs y hy, hB], hadj⟩
  rw [← hA]
  congr 1
  ext i
  have h1 := hadj x (EuclideanSpace.single i 1)
  rw [hBs _ (toL_single_real i), ← had _ _ hx (toL_single_real i)] at h1
  rw [EuclideanSpace.inner_single_right, EuclideanSpace.inner_single_right, one_mul, one_mul] at h1
  exact star_injective h1

/-- `CGLS` for two pairs of operators that agree on real vectors -/
theorem cgls_seq_real {A A' : Vec K M → Vec K N} {B B' : Vec K N → Vec K M} (hA : ∀ x, FitsL .real (toL x) → A x = A' x ∧ FitsL .real (toL (A x)))
    (hB : ∀ y, FitsL .real (toL y) → B y = B' y ∧ FitsL .real (toL (B y))) {y : Vec K N} {x0 : Vec K M} (hy : FitsL .real (toL y)) (hx : FitsL .real (toL x0)) (δ₀ δ : ℝ) (j : Nat) :
    CGLS.seq K A B δ₀ δ y x0 j = CGLS.seq K A' B' δ₀ δ y x0 j ∧ FitsL .real (toL (CGLS.seq K A B δ₀ δ y x0 j).x) := by
  have wfA : ∀ N, (XSpace.one ⟨.all N, .real⟩).WF 0 := fun N => all_wf rfl
  let S : XSpace := .one ⟨.all M, .real⟩
  let T : XSpace := .one ⟨.all N, .real⟩
  have has : ∀ {M : Nat} (x : Vec K M), (XSpace.one ⟨.all M, .real⟩).Has x ↔ FitsL .real (toL x) := fun x => ⟨fun h => h.2, fun h => ⟨by simp [Layout.all], h⟩⟩
  have h : CGLSHyp 0 (fun _ _ => 0) (fun _ => ⟨fun _ x => .ret x, fun _ x => .ret x⟩) S T A B y x0 :=
    ⟨wfA M, wfA N, rfl, rfl, by simp [T], fun x hx => ⟨(has _).2 (hA x ((has _).1 hx)).2, Runs.of_zero.always⟩, fun x hx => ⟨(has _).2 (hB x ((has _).1 hx)).2, Runs.of_zero.always⟩,
      (has _).2 hy, (has _).2 hx⟩
  refine ⟨?_, ((has _).1 (cgls_has h δ₀ δ j).1)⟩
  induction j with
  | zero =>
    have h1 := has_sub h.hy (h.mv.has h.hx)
    have h2 : S.Has (B (y - A x0) - (δ₀ : K) • x0) := has_sub (h.rmv.has h1) (has_smul _ h.hx)
    show CGLS.init A B δ₀ K y x0 = CGLS.init A' B' δ₀ K y x0
    have e1 := (hA _ hx).1
    have e2 := (hB _ ((has _).1 h1)).1
    have e3 := (hA _ ((has _).1 h2)).1
    unfold CGLS.init
    rw [e3, e2, e1]
  | succ j ih =>
    obtain ⟨h1, h2, h3, h4⟩ := cgls_has h δ₀ δ j
    rw [CGLS.seq_succ, CGLS.seq_succ, ← ih]
    have hxx : S.Has (CGLS.next K A B δ (CGLS.seq K A B δ₀ δ y x0 j)).x := has_add h1 (has_smul _ h3)
    have hs : T.Has (CGLS.next K A B δ (CGLS.seq K A B δ₀ δ y x0 j)).s := has_sub h2 (has_smul _ h4)
    have hg : S.Has (CGLS.grad K B δ (CGLS.seq K A B δ₀ δ y x0 j)) := has_sub (h.rmv.has hs) (has_smul _ hxx)
    have hc : S.Has (CGLS.next K A B δ (CGLS.seq K A B δ₀ δ y x0 j)).c := has_add hg (has_smul _ h3)
    have e1 : CGLS.grad K B δ (CGLS.seq K A B δ₀ δ y x0 j) = CGLS.grad K B' δ (CGLS.seq K A B δ₀ δ y x0 j) := by
      have := (hB _ ((has _).1 hs)).1
      unfold CGLS.next at this
      unfold CGLS.grad
      rw [this]
    have e2 := (hA _ ((has _).1 hc)).1
    unfold CGLS.next at e2 ⊢
    rw [e2, e1]

end Verif

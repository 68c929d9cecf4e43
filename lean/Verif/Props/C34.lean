/- C34: MPIGradient stacks the first derivatives along all axes. -/
import Verif.Proofs.Gradient

namespace Verif
open NDArray
set_option linter.unusedSectionVars false

variable {K : Type} [Field K] [StarRing K] [CharZero K]

/-- build the operator and apply its `matvec` (`b = false`) or `rmatvec` (`b = true`) -/
def gradRun (fd : Serial K FDKind) (dims : List Nat) (sampling : List K) (edge : Bool) (k : FDKind) (dt : DType) (b : Bool) (c : Ctx K) (x : XArr K) : P K (XArr K) := do
  let e ← mkGradient c fd dims sampling edge k dt
  SOp.run c b e x

variable {fd : Serial K FDKind} {n N : Nat} {rest : List Nat} {edge : Bool} {dt dx : DType} {X : Layout} {J : Nat → Nat → K} {k : FDKind}

/-- What is needed of the sampling steps: one for each axis, real and not zero; enough rows of the first axis on the ranks; the serial operators made by `fd` on the local
    shapes compute the first difference along the other axes. -/
def GradOk (fd : Serial K FDKind) (n N : Nat) (rest : List Nat) (k : FDKind) (edge : Bool) (dt : DType) (sampling : List K) : Prop :=
  sampling.length = rest.length + 1 ∧ ∀ t ∈ gterms 0 sampling, t.Good fd n N rest k edge dt

theorem runs_mkGradient (hn : 0 < n) {sampling : List K} (h : GradOk fd n N rest k edge dt sampling) :
    Runs n (fun r => mkGradient (env n J r) fd (N :: rest) sampling edge k dt)
      (fun r => .ok ((SOp.grad ((gterms 0 sampling).map .leaf)).map (gradPrim fd n N rest k edge dt · r))) := by
  obtain ⟨hl, hg⟩ := h
  unfold mkGradient
  rw [List.take_of_length_le (by simp [hl])]
  cases sampling with
  | nil => simp at hl
  | cons s l =>
    simp only [Prog.bind_eq]
    have h0 := hg ⟨0, s⟩ (by simp [gterms])
    refine Runs.bind_ok (runs_gradLoop (ax := 0) fun t ht => hg t (by simp [gterms]; exact .inr ht)) ?_
    refine (Runs.ret _).congr (fun r _ => ?_) fun _ _ => rfl
    have e0 : gradPrim fd n N rest k edge dt ⟨0, s⟩ r = firstDerivative k ⟨N :: rest, s, edge, dt⟩ := by simp [gradPrim, if_pos h0]
    have hsh : ∀ t : GTerm K, ((MOp.leaf (gradPrim fd n N rest k edge dt t r) : MOp K (Prim K)).shape Prim.shape).2 = N * rest.prod :=
      fun t => congrArg Prod.snd (gradPrim_shape hn t r)
    rw [if_neg (by simp at hl ⊢; omega)]
    unfold SOp.mkVStack
    dsimp only
    rw [← e0, if_neg]
    · simp [Prog.lift, SOp.map, gterms, MOp.map, Function.comp_def]
    · simp only [List.any_map, List.any_eq_true, Function.comp_apply, hsh]
      simp

theorem gradient_eq {l : List K} (hl : ∀ t ∈ gterms ax l, t.Good fd n N rest k edge dt) (d : List K) :
    vcat false (((gterms ax l).map .leaf).map (MOp.toLOp (gradLeaves fd n N rest k edge dt))) d = gradient k edge (N :: rest) ax l d := by
  induction l generalizing ax with
  | nil => rfl
  | cons s l ih =>
    have h0 := hl ⟨ax, s⟩ (by simp [gterms])
    have := ih (ax := ax + 1) fun t ht => hl t (by simp [gterms]; exact .inr ht)
    simp only [vcat, gterms, List.map_cons, List.flatMap_cons, gradient] at this ⊢
    rw [this]
    congr 1
    simp [LOp.fn, MOp.toLOp, den, gradLeaves, if_pos h0, GTerm.fwd]

/-- **C34** (partial: enough rows on all ranks, a scattered input with boundaries near those of the rows).  `matvec` gives the stack of the first differences of the kind that
    is asked for along all the axes, in order. -/
theorem C34_matvec_partial (hn : 0 < n) {sampling : List K} (h : GradOk fd n N rest k edge dt sampling) (hdt : dt = .real → dx = .real)
    (hX : X.WF n) (hg : X.gshape = [N * rest.prod]) (hp : X.part = .scatter) (hN : Near n X (.slab n N rest)) :
    XComputes n J (fun _ => gradRun fd (N :: rest) sampling edge k dt false) (.one ⟨X, dx⟩) (.stack (List.replicate (rest.length + 1) ⟨.flat n N rest, dt⟩))
      (gradient k edge (N :: rest) 0 sampling) := by
  have ht : STyped (gradLeaves fd n N rest k edge dt) n J (gradPrim fd n N rest k edge dt) false (.grad ((gterms 0 sampling).map .leaf)) (.one ⟨X, dx⟩)
      (.stack (List.replicate (rest.length + 1) ⟨.flat n N rest, dt⟩)) := by
    have hl : (gterms 0 sampling).length = rest.length + 1 := (length_gterms _ _).trans h.1
    refine ⟨by intro e; simp at e; simp [e] at hl, ?_⟩
    rw [← hl, ← List.map_const', List.forall₂_map_left_iff, List.forall₂_map_right_iff, List.forall₂_same]
    exact fun t ht => grad_typed hn hdt hX hg hp hN (h.2 t ht) false
  intro d hd
  obtain ⟨h1, h2⟩ := styped_computes ht d hd
  have e : sden (gradLeaves fd n N rest k edge dt) false (.grad ((gterms 0 sampling).map .leaf)) d = gradient k edge (N :: rest) 0 sampling d := gradient_eq h.2 d
  rw [e] at h1 h2
  refine ⟨h1, Runs.always ?_⟩
  unfold gradRun
  exact Runs.bind_ok (runs_mkGradient hn h) h2.runs

/-- **C34** (partial as above; the components of the input may be laid out differently).  `rmatvec` computes the adjoint. -/
theorem C34_rmatvec_partial (hn : 0 < n) {sampling : List K} (h : GradOk fd n N rest k edge dt sampling) {Ss : SSpace} (hS : Ss.length = rest.length + 1)
    (hV : ∀ V ∈ Ss, (dt = .real → V.dt = .real) ∧ V.L.WF n ∧ V.L.gshape = [N * rest.prod] ∧ V.L.part = .scatter ∧ Near n V.L (.slab n N rest)) :
    ∃ g : List K → List K,
      XComputes n J (fun _ => gradRun fd (N :: rest) sampling edge k dt true) (.stack Ss) (.one ⟨.flat n N rest, dt⟩) g ∧
      ∀ u v : List K, u.length = N * rest.prod → v.length = (rest.length + 1) * (N * rest.prod) → ip (gradient k edge (N :: rest) 0 sampling u) v = ip u (g v) := by
  have hl : (gterms 0 sampling).length = rest.length + 1 := (length_gterms _ _).trans h.1
  have h0 : ((gterms 0 sampling).map .leaf : List (MOp K (GTerm K))) ≠ [] := by intro e; simp at e; simp [e] at hl
  have ht : STyped (gradLeaves fd n N rest k edge dt) n J (gradPrim fd n N rest k edge dt) true (.grad ((gterms 0 sampling).map .leaf)) (.stack Ss)
      (.one ⟨.flat n N rest, dt⟩) := by
    refine ⟨h0, ?_⟩
    rw [List.forall₂_map_left_iff, List.forall₂_iff_get]
    refine ⟨by rw [hl, hS], fun i h1 h2 => ?_⟩
    obtain ⟨k1, k2, k3, k4, k5⟩ := hV _ (List.get_mem Ss ⟨i, h2⟩)
    exact grad_typed hn k1 k2 k3 k4 k5 (h.2 _ (List.get_mem _ _)) true
  refine ⟨_, fun d hd => ⟨(styped_computes ht d hd).1, Runs.always ?_⟩, fun u v hu hv => ?_⟩
  · unfold gradRun
    exact Runs.bind_ok (runs_mkGradient hn h) (styped_computes ht d hd).2.runs
  · have hcol : (SOp.vshape (gradLeaves fd n N rest k edge dt).sh ((gterms 0 sampling).map .leaf : List (MOp K (GTerm K)))).2 = N * rest.prod := by
      cases e : gterms 0 sampling with
      | nil => simp [e] at hl
      | cons t l => rfl
    have hrow : (SOp.vshape (gradLeaves fd n N rest k edge dt).sh ((gterms 0 sampling).map .leaf : List (MOp K (GTerm K)))).1 = (rest.length + 1) * (N * rest.prod) := by
      rw [← hl]
      simp only [SOp.vshape, List.map_map]
      rw [show ((fun o : MOp K (GTerm K) => (o.shape (gradLeaves fd n N rest k edge dt).sh).1) ∘ MOp.leaf) = fun _ => N * rest.prod from rfl]
      simp
    have := C36_vstack_adjoint (lv := gradLeaves fd n N rest k edge dt) (grad_sized hn) (grad_adjoint hn) (ops := (gterms 0 sampling).map .leaf)
      ⟨h0, fun o ho => by obtain ⟨t, -, rfl⟩ := List.mem_map.1 ho; trivial, fun o ho => by obtain ⟨t, -, rfl⟩ := List.mem_map.1 ho; exact hcol.symm⟩
      (u := u) (v := v) (hu.trans hcol.symm) (hv.trans hrow.symm)
    rw [← gradient_eq h.2]
    exact this

/-! ### An example -/

/-- serial operators that compute the differences and their transposes -/
def refFD : Serial ℚ FDKind := fun dims ax s k edge dt => refOp (fdAt k edge) (fdAdj k edge) s ax dims dt

theorem refFD_good {ax : Nat} {s : ℚ} (hs : s ≠ 0) (h0 : ax = 0 → fdRoom k edge n N ∧ fdRoomAdj k edge n N) (h1 : ax ≤ rest.length)
    (hr : ∀ N ∈ rest, fdRoomAdj k edge 1 N) : GTerm.Good refFD n N rest k edge dt ⟨ax, s⟩ := by
  refine ⟨hs, rfl, h0, fun a ha => ⟨by change ax = a + 1 at ha; omega, fun r => ?_⟩⟩
  change ax = a + 1 at ha
  subst ha
  refine refOp_isDeriv (fun M hM => ?_) (fun M => conj_fdAt k) (fun M => conj_fdAdj k) rfl (by simpa using h1)
  have hM' : M ∈ rest := List.mem_of_getElem? (by simpa using hM)
  have h := hr M hM'
  cases k with
  | forward => exact transpose_forward
  | backward => exact transpose_backward
  | centered3 =>
    have h : 2 * 1 ≤ M ∨ 1 = 1 ∧ edge = false ∧ 1 ≤ M := h
    exact transpose_centered3 fun he => by simp [he] at h; omega
  | centered5 =>
    have h : 4 * 1 ≤ M ∨ 1 = 1 ∧ edge = false ∧ 3 ≤ M := h
    exact transpose_centered5 fun he => by simp [he] at h; omega

theorem gradEx : GradOk refFD 2 4 [3] .centered3 true .real [2, 5] := by
  refine ⟨rfl, fun t ht => ?_⟩
  have hr : ∀ N ∈ [3], fdRoomAdj .centered3 true 1 N := fun N hN => (show N = 3 by simpa using hN) ▸ (.inl (by decide) : 2 * 1 ≤ 3 ∨ _)
  simp only [gterms, List.mem_cons, List.not_mem_nil, or_false] at ht
  rcases ht with rfl | rfl
  · exact refFD_good (by norm_num) (fun _ => ⟨(by decide : 2 * 2 ≤ 4), .inl (by decide)⟩) (by simp) hr
  · exact refFD_good (by norm_num) (fun h => by cases h) (by simp) hr

/-- Non-vacuity: four rows of three entries on two ranks, centered with edges. -/
example : XComputes 2 (fun _ _ => (0 : ℚ)) (fun _ => gradRun refFD [4, 3] [2, 5] true .centered3 .real false) (.one ⟨.flat 2 4 [3], .real⟩)
    (.stack (List.replicate 2 ⟨.flat 2 4 [3], .real⟩)) (gradient .centered3 true [4, 3] 0 [2, 5]) :=
  C34_matvec_partial (n := 2) (N := 4) (rest := [3]) (by decide) gradEx (fun _ => rfl) (flat_wf (by decide)) rfl rfl near_flat

example : gradient .centered3 true [2, 3] 0 [2, 5] [(1 : ℚ), 2, 4, 11, 13, 17] = [5, 11 / 2, 13 / 2, 5, 11 / 2, 13 / 2] ++ [1 / 5, 3 / 10, 2 / 5, 2 / 5, 3 / 5, 4 / 5] := by decide +kernel

/-- **C34 fails for an input held by all ranks**: ValueError, although the first derivative itself takes such an input. -/
theorem C34_violated_bcast :
    Always 2 (fun r => do
        let _ ← gradRun refFD [2, 2] [1, 1] false .forward .real false (env 2 (fun _ _ => 0) r) (.one (VSpace.vec ⟨.all 4, .real⟩ 2 [(1 : ℚ), 2, 3, 4] r))
        .ret ())
      (fun r => [.error .value, .error .value].getD r (.error .protocol)) := (runs_of_sim 100 (n := 2) (out := [.error .value, .error .value]) (by decide +kernel) rfl).always

end Verif

/- C81: regularised inversion by the normal equations and by the stacked system. -/
import Verif.Proofs.Poststack
import Verif.Props.C41
import Verif.Props.C46

set_option linter.unusedSectionVars false

namespace Verif
open NDArray Serial

variable {K ι : Type} [RCLike K] {lv : Leaves K ι} {n : Nat} {J : Nat → Nat → K} {prim : ι → Nat → Prim K} {G R : MOp K ι} {V W₁ W₂ : VSpace} {eps : ℝ} {d x0 : List K}

namespace RegHyp

/-- the stacked data -/
theorem has_data (h : RegHyp lv n J prim G R V W₁ W₂ eps d x0) : (XSpace.stack [W₁, W₂]).Has (ofL (W₁.L.gshape.prod + W₂.L.gshape.prod) (d ++ zeros W₂) : Vec K _) := by
  unfold XSpace.Has
  rw [toL_ofL (by simp [h.hd.1])]
  refine ⟨by simpa [← h.hd.1] using h.hd, ?_, ?_⟩
  · rw [← h.hd.1, List.drop_left, List.take_of_length_le (by simp)]
    exact ⟨by simp, fun _ z hz => by simp [List.eq_of_mem_replicate hz]⟩
  · simp [h.hd.1, SSpace.Mem]

theorem part_data (h : RegHyp lv n J prim G R V W₁ W₂ eps d x0) (r : Nat) :
    (XSpace.stack [W₁, W₂]).part n (ofL (W₁.L.gshape.prod + W₂.L.gshape.prod) (d ++ zeros W₂) : Vec K _) r = .stack [W₁.vec n d r, W₂.vec n (zeros W₂) r] := by
  unfold XSpace.part
  rw [toL_ofL (by simp [h.hd.1])]
  simp only [XSpace.vec, SSpace.vec]
  rw [← h.hd.1, List.take_left, List.drop_left, List.take_of_length_le (by simp)]

end RegHyp

theorem reg_runs (h : RegHyp lv n J prim G R V W₁ W₂ eps d x0) :
    ∃ (A : Vec K V.L.gshape.prod →ₗ[K] Vec K (W₁.L.gshape.prod + W₂.L.gshape.prod)) (B : Vec K (W₁.L.gshape.prod + W₂.L.gshape.prod) →ₗ[K] Vec K V.L.gshape.prod)
      (op : Nat → XOp K) (op' : Nat → XOp K),
      (∀ x, toL (A x) = den lv false G (toL x) ++ vscale (Real.sqrt eps : K) (den lv false R (toL x))) ∧ (∀ x y, inner K (A x) y = inner K x (B y)) ∧
      Acts n J (fun r => (op r).mv) (.one V) (.one V) (CGLS.normal A B 0) ∧
      CGLSHyp n J op' (.one V) (.stack [W₁, W₂]) A B (ofL _ (d ++ RegHyp.zeros W₂)) (ofL _ x0) ∧
      (XSpace.one V).Has (B (ofL _ (d ++ RegHyp.zeros W₂))) ∧
      (∀ (niter : Option Int) (tol : ℝ) (ρ : Nat → Except Err (XArr K × Nat × List ℝ × List (XArr K))),
        Always n (fun r => CGS.solve (env n J r) (op r) ((XSpace.one V).part n (B (ofL _ (d ++ RegHyp.zeros W₂))) r) ((XSpace.one V).part n (ofL V.L.gshape.prod x0) r) niter tol) ρ →
        Always n (fun r => regCG (env n J r) (G.map (prim · r)) (R.map (prim · r)) eps (W₁.vec n d r) (V.vec n x0 r) niter tol) ρ) ∧
      (∀ (niter : Option Int) (tol : ℝ) (ρ : Nat → Except Err (CGLSS.Result K)),
        Always n (fun r => CGLSS.solve (env n J r) (op' r) ((XSpace.stack [W₁, W₂]).part n (ofL (W₁.L.gshape.prod + W₂.L.gshape.prod) (d ++ RegHyp.zeros W₂) : Vec K _) r)
          ((XSpace.one V).part n (ofL V.L.gshape.prod x0) r) niter 0 tol) ρ →
        Always n (fun r => regCGLS (env n J r) (G.map (prim · r)) (R.map (prim · r)) eps (W₁.vec n d r) (W₂.vec n (RegHyp.zeros W₂) r) (V.vec n x0 r) niter tol) ρ) := by
  obtain ⟨gh, rh, g1, r1, n1, n2⟩ := h.normalOp_eq
  obtain ⟨A, B, hA, hB, hAB, hN, hy⟩ := h.serial g1 r1
  have fV := (Typed.facts h.tG).1
  have f1 := (Typed.facts h.tG).2.1
  have f2 := (Typed.facts h.tR).2.1
  have te : Typed lv n J prim false (.sum (.prod gh G) (.prod (.scaled rh ⟨.real, (eps : K)⟩) R)) V V :=
    ⟨⟨W₁, h.tG, typed_H g1 h.tG'⟩, ⟨W₂, h.tR, typed_H r1 h.tR', fun _ => ⟨rfl, RCLike.conj_ofReal _⟩⟩⟩
  have ts : STyped lv n J prim false (RegHyp.st G R eps) (.one V) (.stack [W₁, W₂]) :=
    ⟨by simp, .cons h.tG (.cons ⟨h.tR, fun _ => ⟨rfl, RCLike.conj_ofReal _⟩⟩ .nil)⟩
  have ts' : STyped lv n J prim true (RegHyp.st G R eps) (.stack [W₁, W₂]) (.one V) :=
    ⟨by simp, .cons h.tG' (.cons ⟨h.tR', fun _ => ⟨rfl, RCLike.conj_ofReal _⟩⟩ .nil)⟩
  have hx : toL (ofL V.L.gshape.prod x0) = x0 := toL_ofL h.hx.1
  have ty := typed_computes (typed_H g1 (b := false) h.tG') d h.hd
  rw [den_H g1] at ty
  refine ⟨A, B, fun r => MOp.toX ((MOp.sum (.prod gh G) (.prod (.scaled rh ⟨.real, (eps : K)⟩) R)).map (prim · r)), fun r => SOp.toX ((RegHyp.st G R eps).map (prim · r)),
    fun x => by rw [hA, h.sden_fwd], hAB, typed_acts te fun x _ => hN x, ?_, ?_, fun niter tol ρ hc => ?_, fun niter tol ρ hc => ?_⟩
  · refine ⟨fV, fun W hW => ?_, h.mV, fun W hW => ?_, by simp, styped_acts (b := false) ts fun x _ => hA x, styped_acts (b := true) ts' fun x _ => hB x, h.has_data, ?_⟩
    · simp only [List.mem_cons, List.not_mem_nil, or_false] at hW
      rcases hW with rfl | rfl
      · exact f1
      · exact f2
    · simp only [List.mem_cons, List.not_mem_nil, or_false] at hW
      rcases hW with rfl | rfl
      · exact h.m1
      · exact h.m2
    · show V.Mem _
      rw [hx]; exact h.hx
  · show V.Mem _
    rw [hy]; exact ty.1
  · refine Runs.always (Runs.congr (ps := fun r => ((gh.map (prim · r)).run (env n J r) false (W₁.vec n d r)).bind fun y =>
      CGS.solve (env n J r) (MOp.toX ((MOp.sum (.prod gh G) (.prod (.scaled rh ⟨.real, (eps : K)⟩) R)).map (prim · r))) (.one y) (.one (V.vec n x0 r)) niter tol) (ρ := ρ)
        (Runs.bind_ok ty.2.runs ?_) (fun r hr => ?_) fun r _ => rfl)
    · refine Runs.congr hc.runs (fun r _ => ?_) fun r _ => rfl
      show CGS.solve _ _ (.one (V.vec n (toL _) r)) (.one (V.vec n (toL _) r)) _ _ = _
      rw [hy, hx]
      rfl
    · unfold regCG
      rw [(n2 r hr).1, (n2 r hr).2]
      rfl
  · refine Runs.always (Runs.congr hc.runs (fun r hr => ?_) fun r _ => rfl)
    unfold regCGLS
    rw [h.mkVStack_eq r hr, h.part_data]
    show CGLSS.solve _ _ _ (.one (V.vec n (toL _) r)) _ _ _ = _
    rw [hx]
    rfl

/-- **C81** (same iterates).  For all operators, weights, data, starting points, limits and tolerances, and in all executions on any number of ranks: either both inversions return on all
    ranks the same array after the same number of steps and with the same arguments of the callback, or both raise the same exception on all ranks. -/
theorem C81_same (h : RegHyp lv n J prim G R V W₁ W₂ eps d x0) (niter : Option Int) (tol : ℝ) :
    (∃ (m : Nat) (xs : Nat → List K) (cost : List ℝ) (res : Nat → CGLSS.Result K),
      Always n (fun r => regCG (env n J r) (G.map (prim · r)) (R.map (prim · r)) eps (W₁.vec n d r) (V.vec n x0 r) niter tol)
        (fun r => .ok (.one (V.vec n (xs m) r), m, cost, (List.range' 1 m).map fun i => .one (V.vec n (xs i) r))) ∧
      Always n (fun r => regCGLS (env n J r) (G.map (prim · r)) (R.map (prim · r)) eps (W₁.vec n d r) (W₂.vec n (RegHyp.zeros W₂) r) (V.vec n x0 r) niter tol) (fun r => .ok (res r)) ∧
      ∀ r, (res r).x = .one (V.vec n (xs m) r) ∧ (res r).iiter = m ∧ (res r).trace = (List.range' 1 m).map fun i => .one (V.vec n (xs i) r)) ∨
    ∃ err : Err,
      Always n (fun r => regCG (env n J r) (G.map (prim · r)) (R.map (prim · r)) eps (W₁.vec n d r) (V.vec n x0 r) niter tol) (fun _ => .error err) ∧
      Always n (fun r => regCGLS (env n J r) (G.map (prim · r)) (R.map (prim · r)) eps (W₁.vec n d r) (W₂.vec n (RegHyp.zeros W₂) r) (V.vec n x0 r) niter tol) (fun _ => .error err) := by
  obtain ⟨A, B, op, op', hA, hAB, ac, hyp, hy, c1, c2⟩ := reg_runs h
  set y : Vec K (W₁.L.gshape.prod + W₂.L.gshape.prod) := ofL _ (d ++ RegHyp.zeros W₂)
  set z : Vec K V.L.gshape.prod := ofL _ x0
  cases niter with
  | none => exact .inr ⟨.value, c1 _ _ _ (C41_cg_none hyp.wfS hyp.maskS ac hy hyp.hx), c2 _ _ _ (C41_cgls_none hyp)⟩
  | some mx =>
    have hk : (fun i => (CGLS.seq K A B 0 (0 ^ 2) y z i).k) = fun i => (CG.seq K (CGLS.normal A B 0) (B y) z i).k := by
      funext i; exact (reg_cg hAB y z i).2.1
    have hbr : ∀ i, CGLS.Breaks (0 ^ 2) (CGLS.seq K A B 0 (0 ^ 2) y z i) ↔ CG.Breaks K (CGLS.normal A B 0) (CG.seq K (CGLS.normal A B 0) (B y) z i) := fun i => by
      obtain ⟨_, h2, h3⟩ := reg_cg hAB y z i
      unfold CGLS.Breaks CG.Breaks
      rw [h3, h2]
    obtain ⟨m, hb, hst⟩ := stops_or_hits (fun i => (CG.seq K (CGLS.normal A B 0) (B y) z i).k) (fun i => CG.Breaks K (CGLS.normal A B 0) (CG.seq K (CGLS.normal A B 0) (B y) z i))
      mx tol mx.toNat 0 (by omega) (by simp)
    have hb' : ∀ i < m, ¬ CGLS.Breaks (0 ^ 2) (CGLS.seq K A B 0 (0 ^ 2) y z i) := fun i hi => by rw [hbr]; exact hb i hi
    rcases hst with hst | hst
    · obtain ⟨res, r1, r2⟩ := C46_cgls (damp := 0) hyp (by rw [hk]; exact hst) hb'
      refine .inl ⟨m, fun i => toL (CG.seq K (CGLS.normal A B 0) (B y) z i).x, _, res, c1 _ _ _ (C46_cg hyp.wfS hyp.maskS ac hy hyp.hx hst hb), c2 _ _ _ r2, fun r => ?_⟩
      obtain ⟨q1, q2, _, _, q5⟩ := r1 r
      refine ⟨by rw [q1, (reg_cg hAB y z m).1]; rfl, q2, ?_⟩
      rw [q5]
      refine List.map_congr_left fun i _ => ?_
      rw [(reg_cg hAB y z i).1]
      rfl
    · classical
      refine .inr ⟨if inner K (CG.seq K (CGLS.normal A B 0) (B y) z m).c (CGLS.normal A B 0 (CG.seq K (CGLS.normal A B 0) (B y) z m).c) = 0 then .nonfinite else .zeroDiv,
        c1 _ _ _ ?_, c2 _ _ _ ?_⟩
      · have h3 := runs_cg_run_break (niter := some mx) (niter1 := some mx) hyp.wfS hyp.maskS ac hy hyp.hx rfl hst hb
        have h4 := Runs.bind (k := fun r q => .ret (q.2.1, q.1.iiter, q.1.cost, q.2.2)) h3 (Runs.throw _)
        refine (h4.congr (fun r _ => ?_) fun r _ => rfl).always
        simp only [CGS.solve, CGS.steps, Prog.bind_eq, Prog.bind_assoc]
      · have hh : Hits (fun i => (CGLS.seq K A B 0 (0 ^ 2) y z i).k) (fun i => CGLS.Breaks (0 ^ 2) (CGLS.seq K A B 0 (0 ^ 2) y z i)) mx tol 0 m := by
          rw [hk]; exact ⟨hst.1, hst.2.1, (hbr m).2 hst.2.2⟩
        have := (runs_cgls_solve_break hyp hh hb').always
        simpa only [(reg_cg hAB y z m).2.2] using this

/-- ‖d - G x‖² + eps ‖R x‖² -/
noncomputable def regObjective (lv : Leaves K ι) (G R : MOp K ι) (eps : ℝ) (d x : List K) : ℝ :=
  sqN (List.zipWith (· - ·) d (den lv false G x)) + eps * sqN (den lv false R x)

/-- **C81** (minimiser).  With tolerance 0 and a limit that is at least the number of unknowns, neither inversion raises an exception and both return, after at most that number of
    steps, a minimiser of ‖d - G x‖² + eps ‖R x‖²; when `G` and `sqrt(eps) R` vanish together only at 0 it is the only one. -/
theorem C81_minimises (h : RegHyp lv n J prim G R V W₁ W₂ eps d x0) {mx : Int} (hmx : (V.L.gshape.prod : Int) ≤ mx) :
    ∃ (m : Nat) (x : List K) (cost : List ℝ) (tr : Nat → List (XArr K)) (res : Nat → CGLSS.Result K), m ≤ V.L.gshape.prod ∧ V.Mem x ∧
      Always n (fun r => regCG (env n J r) (G.map (prim · r)) (R.map (prim · r)) eps (W₁.vec n d r) (V.vec n x0 r) (some mx) 0) (fun r => .ok (.one (V.vec n x r), m, cost, tr r)) ∧
      Always n (fun r => regCGLS (env n J r) (G.map (prim · r)) (R.map (prim · r)) eps (W₁.vec n d r) (W₂.vec n (RegHyp.zeros W₂) r) (V.vec n x0 r) (some mx) 0) (fun r => .ok (res r)) ∧
      (∀ r, (res r).x = .one (V.vec n x r) ∧ (res r).iiter = m) ∧
      (∀ z : List K, z.length = V.L.gshape.prod → regObjective lv G R eps d x ≤ regObjective lv G R eps d z) ∧
      ((∀ u : List K, u.length = V.L.gshape.prod → (∀ a ∈ den lv false G u, a = 0) → (∀ a ∈ den lv false R u, (eps : K) * a = 0) → ∀ a ∈ u, a = 0) →
        ∀ z : List K, z.length = V.L.gshape.prod → regObjective lv G R eps d z = regObjective lv G R eps d x → z = x) := by
  obtain ⟨A, B, op, op', hA, hAB, ac, hyp, hy, c1, c2⟩ := reg_runs h
  obtain ⟨e1, e2, e3, e4⟩ := h.dims
  set y : Vec K (W₁.L.gshape.prod + W₂.L.gshape.prod) := ofL _ (d ++ RegHyp.zeros W₂) with hyd
  set z : Vec K V.L.gshape.prod := ofL _ x0
  have hobj : ∀ x : Vec K V.L.gshape.prod, objective A (0 ^ 2) y x = regObjective lv G R eps d (toL x) := fun x => by
    have lx := length_toL x
    unfold objective regObjective
    rw [← sqN_toL, toL_sub, hA, hyd, toL_ofL (by simp [h.hd.1]), List.zipWith_append, sqN_append, sqN_zero_sub, Real.sq_sqrt h.eps0]
    · simp
    · rw [length_den h.sized h.shR (b := false) (by simp [dimOf, e1, e4])]; simp [dimOf, e3]
    · rw [length_den h.sized h.shG (b := false) (by simp [dimOf, e1]), h.hd.1]; simp [dimOf, e2]
  obtain ⟨m, hm, h2, h3⟩ := cgls_terminates (damp := 0) (y := y) (x0 := z) hAB (.inl rfl)
  have hk : (fun i => (CGLS.seq K A B 0 (0 ^ 2) y z i).k) = fun i => (CG.seq K (CGLS.normal A B 0) (B y) z i).k := by
    funext i; exact (reg_cg hAB y z i).2.1
  have hbr : ∀ i, CGLS.Breaks (0 ^ 2) (CGLS.seq K A B 0 (0 ^ 2) y z i) ↔ CG.Breaks K (CGLS.normal A B 0) (CG.seq K (CGLS.normal A B 0) (B y) z i) := fun i => by
    obtain ⟨_, h2, h3⟩ := reg_cg hAB y z i
    unfold CGLS.Breaks CG.Breaks
    rw [h3, h2]
  have hst : Stops (fun i => (CGLS.seq K A B 0 (0 ^ 2) y z i).k) mx 0 0 m := by
    refine ⟨by omega, fun i _ hi => ⟨by omega, ?_⟩, .inr ?_⟩
    · dsimp only
      rw [cgls_k hAB (.inl rfl)]
      have := h2 i hi
      positivity
    · dsimp only
      rw [cgls_k hAB (.inl rfl), h3]; simp
  have hb' : ∀ i < m, ¬ CGLS.Breaks (0 ^ 2) (CGLS.seq K A B 0 (0 ^ 2) y z i) := fun i hi => cgls_no_break hAB (.inl rfl) fun k hk => h2 k (by omega)
  obtain ⟨res, r1, r2⟩ := C46_cgls (damp := 0) hyp hst hb'
  have hcg := C46_cg hyp.wfS hyp.maskS ac hy hyp.hx (by rw [← hk]; exact hst) fun i hi => by rw [← hbr]; exact hb' i hi
  refine ⟨m, toL (CG.seq K (CGLS.normal A B 0) (B y) z m).x, _, _, res, hm, ?_, c1 _ _ _ hcg, c2 _ _ _ r2, fun r => ?_, fun w hw => ?_, fun hker w hw heq => ?_⟩
  · rw [← (reg_cg hAB y z m).1]
    exact (cgls_has hyp 0 (0 ^ 2) m).1
  · exact ⟨by rw [(r1 r).1, (reg_cg hAB y z m).1]; rfl, (r1 r).2.1⟩
  · have := cgls_min hAB (.inl rfl) (x0 := z) h3 (ofL _ w)
    rw [hobj, hobj, toL_ofL hw, (reg_cg hAB y z m).1] at this
    exact this
  · rw [← (reg_cg hAB y z m).1] at heq ⊢
    set x := (CGLS.seq K A B 0 (0 ^ 2) y z m).x
    have hadd := CGLS.objective_add hAB (δ := 0 ^ 2) y x (ofL _ w - x)
    have hz : B y - CGLS.normal A B (0 ^ 2) x = 0 := by rw [← h3, dgrad, CGLS.normal_apply, map_sub]; abel
    rw [add_sub_cancel, hobj, hobj, toL_ofL hw, heq, hz, inner_zero_right, CGLS.inner_normal hAB, RCLike.ofReal_re] at hadd
    have h0 : ‖A (ofL _ w - x)‖ ^ 2 = 0 := by simp at hadd ⊢; exact hadd
    have h1 : A (ofL _ w - x) = 0 := by simpa using h0
    have h4 : ∀ a ∈ toL (A (ofL _ w - x)), a = 0 := by rw [h1]; simp [toL]
    rw [hA] at h4
    have h5 := hker (toL (ofL _ w - x)) (length_toL _) (fun a ha => h4 a (by simp [ha])) fun a ha => by
      have := h4 (a * (Real.sqrt eps : K)) (by simp only [List.mem_append, vscale, List.mem_map]; exact .inr ⟨a, ha, rfl⟩)
      rcases mul_eq_zero.1 this with h6 | h6
      · simp [h6]
      · have : Real.sqrt eps = 0 := by exact_mod_cast h6
        rw [Real.sqrt_eq_zero h.eps0] at this
        simp [this]
    have h6 : ofL _ w - x = 0 := by
      ext i
      exact h5 _ (by rw [toL, List.mem_ofFn]; exact ⟨i, rfl⟩)
    rw [← toL_ofL hw, sub_eq_zero.1 h6]

/-! ### Post-stack inversion -/

section
variable {sd : Serial K SDKind} {N : Nat} {rest : List Nat} {edge : Bool} {kind : SDKind} {dt : DType} {ops : Nat → List (LOp K)} {p0 : Nat × K × Scal K} {l : List (Nat × K × Scal K)}

theorem post_cg {P : Nat → Prim K} (h : PostHyp sd n N rest edge kind dt ops p0 l)
    (hP : Runs n (fun r => mkLaplacian (env n J r) sd (N :: rest) ((p0 :: l).map (·.1)) ((p0 :: l).map (·.2.2)) ((p0 :: l).map (·.2.1)) edge kind dt) (fun r => .ok (P r)))
    {niter : Option Int} {tol : ℝ} {d x0 : Nat → DArr K} {ρ : Nat → Except Err (XArr K × Nat × List ℝ × List (XArr K))}
    (hr : Always n (fun r => regCG (env n J r) (.leaf (bdPrim n ops none dt r)) (.leaf (P r)) eps (d r) (x0 r) niter tol) ρ) :
    Always n (fun r => poststackCG (env n J r) (ops r) sd (N :: rest) ((p0 :: l).map (·.1)) ((p0 :: l).map (·.2.2)) ((p0 :: l).map (·.2.1)) edge kind dt eps (d r) (x0 r) niter tol) ρ := by
  refine Runs.always ?_
  simp only [poststackCG, Prog.bind_eq]
  exact Runs.bind_ok (runs_mkBlockDiag h.dtype) (Runs.bind_ok hP hr.runs)

theorem post_cgls {P : Nat → Prim K} (h : PostHyp sd n N rest edge kind dt ops p0 l)
    (hP : Runs n (fun r => mkLaplacian (env n J r) sd (N :: rest) ((p0 :: l).map (·.1)) ((p0 :: l).map (·.2.2)) ((p0 :: l).map (·.2.1)) edge kind dt) (fun r => .ok (P r)))
    {niter : Option Int} {tol : ℝ} {d z x0 : Nat → DArr K} {ρ : Nat → Except Err (CGLSS.Result K)}
    (hr : Always n (fun r => regCGLS (env n J r) (.leaf (bdPrim n ops none dt r)) (.leaf (P r)) eps (d r) (z r) (x0 r) niter tol) ρ) :
    Always n (fun r => poststackCGLS (env n J r) (ops r) sd (N :: rest) ((p0 :: l).map (·.1)) ((p0 :: l).map (·.2.2)) ((p0 :: l).map (·.2.1)) edge kind dt eps (d r) (z r) (x0 r) niter tol) ρ := by
  refine Runs.always ?_
  simp only [poststackCGLS, Prog.bind_eq]
  exact Runs.bind_ok (runs_mkBlockDiag h.dtype) (Runs.bind_ok hP hr.runs)

/-- **C81** (post-stack inversion).  The two inversions of the tutorial, including the construction of MPIBlockDiag and MPILaplacian: same array, number of steps and callback arguments on all
    ranks, or the same exception. -/
theorem C81_poststack (h : PostHyp sd n N rest edge kind dt ops p0 l) (h0 : 0 ≤ eps) (hd : VSpace.Mem ⟨.flat n N rest, dt⟩ d) (hx : VSpace.Mem ⟨.flat n N rest, dt⟩ x0)
    (niter : Option Int) (tol : ℝ) :
    let V : VSpace := ⟨.flat n N rest, dt⟩
    let cg r := poststackCG (env n J r) (ops r) sd (N :: rest) ((p0 :: l).map (·.1)) ((p0 :: l).map (·.2.2)) ((p0 :: l).map (·.2.1)) edge kind dt eps (V.vec n d r) (V.vec n x0 r) niter tol
    let cgls r := poststackCGLS (env n J r) (ops r) sd (N :: rest) ((p0 :: l).map (·.1)) ((p0 :: l).map (·.2.2)) ((p0 :: l).map (·.2.1)) edge kind dt eps (V.vec n d r)
      (V.vec n (List.replicate (N * rest.prod) 0) r) (V.vec n x0 r) niter tol
    (∃ (m : Nat) (xs : Nat → List K) (cost : List ℝ) (res : Nat → CGLSS.Result K),
      Always n cg (fun r => .ok (.one (V.vec n (xs m) r), m, cost, (List.range' 1 m).map fun i => .one (V.vec n (xs i) r))) ∧ Always n cgls (fun r => .ok (res r)) ∧
      ∀ r, (res r).x = .one (V.vec n (xs m) r) ∧ (res r).iiter = m ∧ (res r).trace = (List.range' 1 m).map fun i => .one (V.vec n (xs i) r)) ∨
    ∃ err : Err, Always n cg (fun _ => .error err) ∧ Always n cgls (fun _ => .error err) := by
  intro V cg cgls
  obtain ⟨P, hP, hr⟩ := h.reg (J := J) h0 hd hx
  have ez : RegHyp.zeros (⟨.flat n N rest, dt⟩ : VSpace) = List.replicate (N * rest.prod) (0 : K) := by simp [RegHyp.zeros, Layout.lin]
  rcases C81_same hr niter tol with ⟨m, xs, cost, res, h1, h2, h3⟩ | ⟨err, h1, h2⟩
  · rw [ez] at h2
    exact .inl ⟨m, xs, cost, res, post_cg h hP h1, post_cgls h hP h2, h3⟩
  · rw [ez] at h2
    exact .inr ⟨err, post_cg h hP h1, post_cgls h hP h2⟩

/-- **C81** (post-stack inversion, minimiser).  With tolerance 0 and a limit that is at least the number of unknowns both return a minimiser of ‖d - G x‖² + eps ‖L x‖², where `G` is the
    block-diagonal operator and `L` the Laplacian. -/
theorem C81_poststack_minimises (h : PostHyp sd n N rest edge kind dt ops p0 l) (h0 : 0 ≤ eps) (hd : VSpace.Mem ⟨.flat n N rest, dt⟩ d) (hx : VSpace.Mem ⟨.flat n N rest, dt⟩ x0)
    {mx : Int} (hmx : ((N * rest.prod : Nat) : Int) ≤ mx) :
    let V : VSpace := ⟨.flat n N rest, dt⟩
    let cg r := poststackCG (env n J r) (ops r) sd (N :: rest) ((p0 :: l).map (·.1)) ((p0 :: l).map (·.2.2)) ((p0 :: l).map (·.2.1)) edge kind dt eps (V.vec n d r) (V.vec n x0 r) (some mx) 0
    let cgls r := poststackCGLS (env n J r) (ops r) sd (N :: rest) ((p0 :: l).map (·.1)) ((p0 :: l).map (·.2.2)) ((p0 :: l).map (·.2.1)) edge kind dt eps (V.vec n d r)
      (V.vec n (List.replicate (N * rest.prod) 0) r) (V.vec n x0 r) (some mx) 0
    let obj (x : List K) : ℝ := sqN (List.zipWith (· - ·) d (blockDiag false (allOps n ops) x)) + eps * sqN (laplacian edge (N :: rest) ((p0.1, p0.2.1, kind, p0.2.2.val) ::
      l.map fun p => (p.1, p.2.1, .centered, p.2.2.val)) x)
    ∃ (m : Nat) (x : List K) (cost : List ℝ) (tr : Nat → List (XArr K)) (res : Nat → CGLSS.Result K), m ≤ N * rest.prod ∧ V.Mem x ∧
      Always n cg (fun r => .ok (.one (V.vec n x r), m, cost, tr r)) ∧ Always n cgls (fun r => .ok (res r)) ∧ (∀ r, (res r).x = .one (V.vec n x r) ∧ (res r).iiter = m) ∧
      ∀ z : List K, z.length = N * rest.prod → obj x ≤ obj z := by
  intro V cg cgls obj
  obtain ⟨P, hP, hr⟩ := h.reg (J := J) h0 hd hx
  have ez : RegHyp.zeros (⟨.flat n N rest, dt⟩ : VSpace) = List.replicate (N * rest.prod) (0 : K) := by simp [RegHyp.zeros, Layout.lin]
  have eN : (Layout.flat n N rest).gshape.prod = N * rest.prod := by simp [Layout.lin]
  obtain ⟨m, x, cost, tr, res, h1, h2, h3, h4, h5, h6, -⟩ := C81_minimises hr (mx := mx) (by simpa [Layout.lin] using hmx)
  have hobj : ∀ z : List K, z.length = N * rest.prod → regObjective (PostHyp.lv sd n N rest edge kind dt ops p0 l) (.leaf false) (.leaf true) eps d z = obj z := fun z hz => by
    have e1 : den (lapLeaves sd n N rest edge dt) false (.scaled (.leaf ⟨p0.1, p0.2.1, kind⟩) p0.2.2) z
        = vscale p0.2.2.val (alongAxis (sdAt kind edge) (p0.2.1 ^ 2) p0.1 (N :: rest) z) := by
      simp only [den]
      congr 1
      simp [lapLeaves, if_pos h.first.1, LTerm.fwd]
    have e2 := length_den (lv := lapLeaves sd n N rest edge dt) (lap_sized h.pos) (e := .scaled (.leaf ⟨p0.1, p0.2.1, kind⟩) p0.2.2) trivial (b := false) (x := z) hz
    have e3 : den (lapLeaves sd n N rest edge dt) false (lapE kind p0 l) z = laplacian edge (N :: rest) ((p0.1, p0.2.1, kind, p0.2.2.val) ::
        l.map fun p => (p.1, p.2.1, .centered, p.2.2.val)) z := by
      unfold lapE
      rw [lapExpr_den h.pos hz e2 (fun q hq => by obtain ⟨p, hp, rfl⟩ := List.mem_map.1 hq; exact (h.others p hp).1), e1]
      unfold laplacian
      rw [List.map_cons, vsum_cons, List.map_map, List.map_map, List.prod_cons]
      rfl
    show sqN (List.zipWith (· - ·) d (blockDiag false (allOps n ops) z)) + eps * sqN (den (lapLeaves sd n N rest edge dt) false (lapE kind p0 l) z) = obj z
    rw [e3]
  rw [ez] at h4
  rw [eN] at h1 h6
  have hxl : x.length = N * rest.prod := by rw [h2.1, eN]
  exact ⟨m, x, cost, tr, res, h1, h2, post_cg h hP h3, post_cgls h hP h4, h5, fun z hz => by rw [← hobj x hxl, ← hobj z hz]; exact h6 z hz⟩

end

/-! ### An example -/

/-- three times the identity on two entries -/
noncomputable def tripleOp : LOp ℝ := ⟨2, 2, .real, fun x => x.map (3 * ·), fun x => x.map (3 * ·)⟩

theorem triple_hyp (sd : Serial ℝ SDKind) : PostHyp sd 2 4 [] false .centered .real (fun _ => [tripleOp]) (0, 1, ⟨.real, 2⟩) [] where
  pos := by decide
  size b r := by
    have : balanced 4 2 r = 2 := by simp [balanced]
    rw [this]
    cases b <;> simp [inSum, LOp.inDim, tripleOp]
  some r _ := by simp
  dtype r _ := rfl
  ok b o ho := by
    obtain rfl : o = tripleOp := by simp [allOps] at ho; exact ho.2
    refine ⟨fun x hx => ?_, fun x _ _ _ z _ => by simp⟩
    cases b <;> simpa [tripleOp, LOp.fn, LOp.inDim, LOp.outDim] using hx
  adj o ho := by
    obtain rfl : o = tripleOp := by simp [allOps] at ho; exact ho.2
    intro u v hu hv
    simp only [ip, tripleOp, List.zipWith_map_left, List.zipWith_map_right]
    congr 2
    funext a b
    simp
    ring
  first := ⟨⟨by norm_num, rfl, fun _ => ⟨by show 1 * 2 ≤ 4; decide, by show 2 * 2 ≤ 4 ∨ 2 = 1 ∧ 1 ≤ 4; decide⟩, fun a ha => by cases ha⟩, fun _ => ⟨rfl, rfl⟩⟩
  others := by simp

/-- Non-vacuity: four unknowns on two ranks, the modelling operator three times the identity, twice the second difference as regularisation with weight 5. -/
example (sd : Serial ℝ SDKind) : ∃ (m : Nat) (x : List ℝ) (cost : List ℝ) (tr : Nat → List (XArr ℝ)), m ≤ 4 ∧ Always 2
    (fun r => poststackCG (env 2 (fun _ _ => 0) r) [tripleOp] sd [4] [0] [⟨.real, 2⟩] [1] false .centered .real 5 (VSpace.vec ⟨.flat 2 4 [], .real⟩ 2 [1, 2, 3, 4] r)
      (VSpace.vec ⟨.flat 2 4 [], .real⟩ 2 [0, 0, 0, 0] r) (some 4) 0)
    (fun r => .ok (.one (VSpace.vec ⟨.flat 2 4 [], .real⟩ 2 x r), m, cost, tr r)) := by
  obtain ⟨m, x, cost, tr, res, h1, _, h3, _⟩ := C81_poststack_minimises (J := fun _ _ => 0) (eps := 5) (d := [1, 2, 3, 4]) (x0 := [0, 0, 0, 0]) (mx := 4) (triple_hyp sd) (by norm_num)
    ⟨rfl, fun _ z _ => by simp⟩ ⟨rfl, fun _ z _ => by simp⟩ (by simp)
  exact ⟨m, x, cost, tr, by simpa using h1, h3⟩

end Verif

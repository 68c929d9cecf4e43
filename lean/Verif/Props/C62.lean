/- C62: what the callback of a solver gets. -/
import Verif.Props.C43
import Verif.Props.C47
import Verif.MPI.Follow

namespace Verif
open NDArray Serial

/-! ### programs on the memory and the values they can return -/

theorem Yields.bind_congr {M α β : Type} {Q : α → Prop} {p : Prog M α} {f g : α → Prog M β} (h : Yields Q p) (hfg : ∀ a, Q a → f a = g a) : p.bind f = p.bind g := by
  induction h with
  | ret h => exact hfg _ h
  | throw => rfl
  | send _ ih => simp only [Prog.bind, ih]
  | recv _ ih => simp only [Prog.bind, ih]
  | coll _ ih => simp only [Prog.bind, ih]

section
variable {K : Type} {α β : Type}

/-- in any memory, all values that the program can return satisfy `Q` -/
def HYields (Q : α → Prop) (m : HP K α) : Prop := ∀ h, Yields (fun p => ∀ a, p.1 = .ok a → Q a) (m h)

theorem HYields.ret {Q : α → Prop} {a : α} (h : Q a) : HYields Q (HP.ret a : HP K α) := fun _ => .ret fun _ e => by cases e; exact h

theorem HYields.throw {Q : α → Prop} {e : Err} : HYields Q (HP.throw e : HP K α) := fun _ => .ret fun _ e => by cases e

theorem HYields.bind {P : α → Prop} {Q : β → Prop} {m : HP K α} {k : α → HP K β} (h : HYields P m) (hk : ∀ a, P a → HYields Q (k a)) : HYields Q (m >>= k) := fun h0 =>
  (h h0).bind fun p hp => by
    obtain ⟨o, h1⟩ := p
    cases o with
    | ok a => exact hk a (hp a rfl) h1
    | error e => exact .ret fun _ e => by cases e

theorem HYields.after {Q : β → Prop} {m : HP K α} {k : α → HP K β} (hk : ∀ a, HYields Q (k a)) : HYields Q (m >>= k) :=
  HYields.bind (P := fun _ => True) (fun _ => Yields.trivial (fun _ _ _ => trivial) _) fun a _ => hk a

theorem HYields.bind_congr {Q : α → Prop} {m : HP K α} {f g : α → HP K β} (h : HYields Q m) (hfg : ∀ a, Q a → f a = g a) : (m >>= f) = (m >>= g) := by
  funext h0
  refine (h h0).bind_congr fun p hp => ?_
  obtain ⟨o, h1⟩ := p
  cases o with
  | ok a => exact congrFun (hfg a (hp a rfl)) h1
  | error e => rfl

/-- `x += y` returns `x` -/
theorem HX.iadd_same [Field K] [StarRing K] (c : Ctx K) (x y : XRef) : HYields (· = x) (HX.iadd (K := K) c x y) := by
  cases x <;> cases y
  · refine HYields.bind (P := (· = _)) (.after fun _ => .after fun _ => .after fun _ => .after fun _ => .after fun _ => .ret rfl) fun a ha => .ret (by rw [ha])
  · exact .throw
  · exact .throw
  · refine HYields.bind (P := (· = _)) (.after fun _ => .after fun _ => .ret rfl) fun a ha => .ret (by rw [ha])

end

variable {K : Type} [RCLike K]

section
variable (c : Ctx K) (cb : XRef → HP K Unit) (op : HXOp K)

theorem HCG.step_same (s : HCG) (x : XRef) : HYields (fun p => p.2 = x) (HCG.step c op s x) := by
  unfold HCG.step
  refine .after fun _ => .after fun _ => .after fun _ => .after fun _ => HYields.bind (HX.iadd_same c x _) fun z hz => ?_
  refine .after fun _ => .after fun _ => .after fun _ => .after fun _ => .after fun _ => .after fun _ => .ret hz

theorem HCGLS.step_same (s : HCGLS) (x : XRef) : HYields (fun p => p.2 = x) (HCGLS.step c op s x) := by
  unfold HCGLS.step
  refine .after fun _ => .after fun _ => .after fun _ => .after fun _ => .after fun _ => .after fun _ => HYields.bind (HX.iadd_same c x _) fun z hz => ?_
  refine .after fun _ => .after fun _ => .after fun _ => .after fun _ => .after fun _ => .after fun _ => .after fun _ => .after fun _ => .after fun _ => .after fun _ =>
    .after fun _ => .after fun _ => .after fun _ => .ret hz

theorem HCG.loop_same (m : Int) : ∀ (k : Nat) (s : HCG) (x : XRef) (tr : List (XArr K)),
    HYields (fun p => p.2.1 = x) (HCG.loop c op cb m k s x tr) ∧ HCG.loop c op cb m k s x tr = HCG.loop c op (fun _ => cb x) m k s x tr := by
  intro k
  induction k with
  | zero => intro s x tr; exact ⟨.ret rfl, rfl⟩
  | succ k ih =>
    intro s x tr
    simp only [HCG.loop]
    split_ifs
    · refine ⟨HYields.bind (HCG.step_same c op s x) fun p hp => .after fun v => .after fun _ => ?_, HYields.bind_congr (HCG.step_same c op s x) fun p hp => ?_⟩
      · rw [hp]; exact (ih _ _ _).1
      · rw [hp]
        congr 1; funext v
        congr 1; funext _
        exact (ih _ _ _).2
    · exact ⟨.ret rfl, rfl⟩

theorem HCGLS.loop_same (m : Int) : ∀ (k : Nat) (s : HCGLS) (x : XRef) (tr : List (XArr K)),
    HYields (fun p => p.2.1 = x) (HCGLS.loop c op cb m k s x tr) ∧ HCGLS.loop c op cb m k s x tr = HCGLS.loop c op (fun _ => cb x) m k s x tr := by
  intro k
  induction k with
  | zero => intro s x tr; exact ⟨.ret rfl, rfl⟩
  | succ k ih =>
    intro s x tr
    simp only [HCGLS.loop]
    split_ifs
    · refine ⟨HYields.bind (HCGLS.step_same c op s x) fun p hp => .after fun v => .after fun _ => ?_, HYields.bind_congr (HCGLS.step_same c op s x) fun p hp => ?_⟩
      · rw [hp]; exact (ih _ _ _).1
      · rw [hp]
        congr 1; funext v
        congr 1; funext _
        exact (ih _ _ _).2
    · exact ⟨.ret rfl, rfl⟩

theorem HCG.run_same (s : HCG) (x : XRef) (niter : Option Int) :
    HYields (fun p => p.2.1 = x) (HCG.run c op cb s x niter) ∧ HCG.run c op cb s x niter = HCG.run c op (fun _ => cb x) s x niter := by
  unfold HCG.run
  cases niter with
  | some m => exact HCG.loop_same c cb op m _ s x []
  | none =>
    cases h : s.niter with
    | none => exact ⟨.throw, rfl⟩
    | some m => exact HCG.loop_same c cb op m _ s x []

theorem HCGLS.run_same (s : HCGLS) (x : XRef) (niter : Option Int) :
    HYields (fun p => p.2.1 = x) (HCGLS.run c op cb s x niter) ∧ HCGLS.run c op cb s x niter = HCGLS.run c op (fun _ => cb x) s x niter := by
  unfold HCGLS.run
  cases niter with
  | some m => exact HCGLS.loop_same c cb op m _ s x []
  | none =>
    cases h : s.niter with
    | none => exact ⟨.throw, rfl⟩
    | some m => exact HCGLS.loop_same c cb op m _ s x []

/-- **C62** (`cg`).  For any operator, callback, arguments and memory: the array object that `setup` makes is the argument of every call of the callback, and the array that `cg` returns. -/
theorem C62_cg (y x0 : XRef) (niter : Option Int) (tol : ℝ) :
    HCG.solve c op cb y x0 niter tol = (do
      let p ← HCG.setup c op y x0 niter tol
      let q ← HCG.run c op (fun _ => cb p.2) p.1 p.2 niter
      HP.ret (p.2, q.1.iiter, q.1.cost, q.2.2)) := by
  unfold HCG.solve
  congr 1
  funext p
  rw [(HCG.run_same c cb op p.1 p.2 niter).2]
  exact HYields.bind_congr (HCG.run_same c (fun _ => cb p.2) op p.1 p.2 niter).1 fun q hq => by rw [hq]

/-- **C62** (`cgls`). -/
theorem C62_cgls (y x0 : XRef) (niter : Option Int) (damp tol : ℝ) :
    HCGLS.solve c op cb y x0 niter damp tol = (do
      let p ← HCGLS.setup c op y x0 niter damp tol
      let q ← HCGLS.run c op (fun _ => cb p.2) p.1 p.2 niter
      HCGLS.finalize q.1 p.2 q.2.2) := by
  unfold HCGLS.solve
  congr 1
  funext p
  rw [(HCGLS.run_same c cb op p.1 p.2 niter).2]
  exact HYields.bind_congr (HCGLS.run_same c (fun _ => cb p.2) op p.1 p.2 niter).1 fun q hq => by rw [hq]

/-- The array passed to `run` (and to `step`) is the one that is updated, passed to the callback and returned. -/
theorem C62_run (s : HCG) (x : XRef) (niter : Option Int) :
    HCG.run c op cb s x niter = (do let q ← HCG.run c op (fun _ => cb x) s x niter; HP.ret (q.1, x, q.2.2)) := by
  rw [(HCG.run_same c cb op s x niter).2]
  have := HYields.bind_congr (f := HP.ret) (g := fun q => HP.ret (q.1, x, q.2.2)) (HCG.run_same c (fun _ => cb x) op s x niter).1 fun q hq => by rw [← hq]
  rw [← this]
  funext h
  show _ = Prog.bind _ _
  conv_lhs => rw [← Prog.bind_ret (HCG.run c op (fun _ => cb x) s x niter h)]
  congr 1
  funext p
  obtain ⟨o, h'⟩ := p
  cases o <;> rfl

end

/-! ### the array has changed when the solver goes on -/

section
variable {n N : Nat} {J : Nat → Nat → K} {S T : XSpace}

theorem XSpace.part_inj (hn : 0 < n) (hS : S.WF n) (hm : S.NoMask) {x y : Vec K N} (hx : S.Has x) (hy : S.Has y) (h : ∀ r < n, S.part n x r = S.part n y r) : x = y := by
  have h1 := runs_sub_part (J := fun _ _ => 0) hS hx hy
  have h2 := runs_sub_part (J := fun _ _ => 0) hS hy hy
  have h3 := h1.always.unique (h2.congr (ps' := fun r => (S.part n x r).sub' (env n (fun _ _ => 0) r) (S.part n y r)) (fun r hr => by rw [h r hr]) fun _ _ => rfl).always
  have h4 := runs_absDot_part (J := fun _ _ => 0) hS hm (has_sub hx hy) (has_sub hx hy)
  have h5 := runs_absDot_part (J := fun _ _ => 0) hS hm (has_sub hy hy) (has_sub hy hy)
  have h6 := h4.always.unique (h5.congr (ps' := fun r => absDot (env n (fun _ _ => 0) r) (S.part n (x - y) r) (S.part n (x - y) r)) (fun r hr => by
    rw [Except.ok.inj (h3 r hr)]) fun _ _ => rfl).always 0 hn
  have h7 := Except.ok.inj h6
  rw [sub_self, inner_self_eq_norm_sq_to_K] at h7
  simp only [inner_self_eq_norm_sq_to_K, norm_zero] at h7
  have h8 : ‖x - y‖ = 0 := by simpa using h7
  exact sub_eq_zero.1 (norm_eq_zero.1 h8)

theorem cg_moves {A : Vec K N → Vec K N} {s : CG (Vec K N)} (h : ¬ CG.Breaks K A s) : (CG.next K A s).x ≠ s.x := by
  intro e
  have h1 : (CG.alpha K A s : K) • s.c = 0 := by simpa [CG.next] using e
  rcases smul_eq_zero.1 h1 with h2 | h2
  · have h3 : CG.alpha K A s = 0 := by exact_mod_cast h2
    rcases div_eq_zero_iff.1 h3 with h4 | h4
    · exact h (.inr h4)
    · exact h (.inl (norm_eq_zero.1 h4))
  · exact h (.inl (by rw [h2, inner_zero_left]))

theorem cgls_moves {M : Nat} {A : Vec K M → Vec K N} {B : Vec K N → Vec K M} {δ₀ δ : ℝ} {y : Vec K N} {x0 : Vec K M} (hA : A 0 = 0) {i : Nat}
    (h : ¬ CGLS.Breaks δ (CGLS.seq K A B δ₀ δ y x0 i)) : (CGLS.seq K A B δ₀ δ y x0 (i + 1)).x ≠ (CGLS.seq K A B δ₀ δ y x0 i).x := by
  intro e
  have hq : ∀ i, (CGLS.seq K A B δ₀ δ y x0 i).q = A (CGLS.seq K A B δ₀ δ y x0 i).c := fun i => by
    cases i with
    | zero => rfl
    | succ i => rw [CGLS.seq_succ]; rfl
  rw [CGLS.seq_succ] at e
  have h1 : (CGLS.alpha δ (CGLS.seq K A B δ₀ δ y x0 i) : K) • (CGLS.seq K A B δ₀ δ y x0 i).c = 0 := by simpa [CGLS.next] using e
  rcases smul_eq_zero.1 h1 with h2 | h2
  · have h3 : CGLS.alpha δ (CGLS.seq K A B δ₀ δ y x0 i) = 0 := by exact_mod_cast h2
    rcases div_eq_zero_iff.1 (abs_eq_zero.1 h3) with h4 | h4
    · exact h (.inr h4)
    · exact h (.inl h4)
  · exact h (.inl (by rw [hq, h2, hA]; simp))

variable {h : Nat → Heap K} {op : Nat → HXOp K} {op' : Nat → XOp K} {cb : Nat → XRef → HP K Unit} {yr xr : Nat → XRef} {damp tol : ℝ} {mx : Int} {m : Nat}

/-- **C62 is false** for `cg` when a callback keeps its arguments to look at them later.  If `cg` makes `m + 2` iterations: the argument of the callback had the value of the iterate `m + 1`
    in the last but one call; it is the array that `cg` returns (`C62_cg`), which now has the value of the iterate `m + 2`; and these values differ on some rank. -/
theorem C62_cg_changed {A : Vec K N → Vec K N} {y x0 : Vec K N} (hn : 0 < n) (hS : S.WF n) (hm : S.NoMask) (hA : Acts n J (fun r => (op' r).mv) S S A) (hy : S.Has y) (hx : S.Has x0)
    (hh : ∀ r < n, Reachable (h r)) (hop : ∀ r < n, Implements (env n J r) ((op r).mv (env n J r)) ((op' r).mv (env n J r))) (hcb : ∀ r < n, Harmless (cb r))
    (hyr : ∀ r < n, HasX (h r) (yr r) (S.part n y r)) (hxr : ∀ r < n, HasX (h r) (xr r) (S.part n x0 r))
    (hst : Stops (fun i => (CG.seq K A y x0 i).k) mx tol 0 (m + 2)) (hb : ∀ i < m + 2, ¬ CG.Breaks K A (CG.seq K A y x0 i)) :
    ∃ out : Nat → Except Err (XRef × Nat × List ℝ × List (XArr K)) × Heap K,
      Always n (fun r => HCG.solve (env n J r) (op r) (cb r) (yr r) (xr r) (some mx) tol (h r)) (fun r => .ok (out r)) ∧
      (∀ r < n, ∃ z cost tr, (out r).1 = .ok (z, m + 2, cost, tr) ∧ tr[m]? = some (S.part n (CG.seq K A y x0 (m + 1)).x r) ∧ HasX (out r).2 z (S.part n (CG.seq K A y x0 (m + 2)).x r)) ∧
      ∃ r < n, S.part n (CG.seq K A y x0 (m + 1)).x r ≠ S.part n (CG.seq K A y x0 (m + 2)).x r := by
  obtain ⟨out, h1, h2⟩ := C47_cg_refines hh hop hcb hyr hxr (C46_cg hS hm hA hy hx hst hb)
  refine ⟨out, h1, fun r hr => ?_, ?_⟩
  · obtain ⟨z, e1, e2, -⟩ := h2 r hr
    exact ⟨z, _, _, e1, by simp [Nat.add_comm], e2⟩
  · by_contra hc
    push Not at hc
    refine cg_moves (hb (m + 1) (by omega)) ?_
    rw [← CG.seq_succ]
    exact XSpace.part_inj hn hS hm (cg_has hA hy hx _).1 (cg_has hA hy hx _).1 fun r hr => (hc r hr).symm

/-- **C62 is false** for `cgls` when a callback keeps its arguments to look at them later. -/
theorem C62_cgls_changed {M : Nat} {A : Vec K M → Vec K N} {B : Vec K N → Vec K M} {y : Vec K N} {x0 : Vec K M} (hn : 0 < n) (hA : A 0 = 0) (hyp : CGLSHyp n J op' S T A B y x0)
    (hh : ∀ r < n, Reachable (h r)) (hop : ∀ r < n, Implements (env n J r) ((op r).mv (env n J r)) ((op' r).mv (env n J r)))
    (hop' : ∀ r < n, Implements (env n J r) ((op r).rmv (env n J r)) ((op' r).rmv (env n J r))) (hcb : ∀ r < n, Harmless (cb r))
    (hyr : ∀ r < n, HasX (h r) (yr r) (T.part n y r)) (hxr : ∀ r < n, HasX (h r) (xr r) (S.part n x0 r))
    (hst : Stops (fun i => (CGLS.seq K A B damp (damp ^ 2) y x0 i).k) mx tol 0 (m + 2)) (hb : ∀ i < m + 2, ¬ CGLS.Breaks (damp ^ 2) (CGLS.seq K A B damp (damp ^ 2) y x0 i)) :
    ∃ out : Nat → Except Err (HCGLS.Result K) × Heap K,
      Always n (fun r => HCGLS.solve (env n J r) (op r) (cb r) (yr r) (xr r) (some mx) damp tol (h r)) (fun r => .ok (out r)) ∧
      (∀ r < n, ∃ res, (out r).1 = .ok res ∧ res.trace[m]? = some (S.part n (CGLS.seq K A B damp (damp ^ 2) y x0 (m + 1)).x r) ∧
        HasX (out r).2 res.x (S.part n (CGLS.seq K A B damp (damp ^ 2) y x0 (m + 2)).x r)) ∧
      ∃ r < n, S.part n (CGLS.seq K A B damp (damp ^ 2) y x0 (m + 1)).x r ≠ S.part n (CGLS.seq K A B damp (damp ^ 2) y x0 (m + 2)).x r := by
  obtain ⟨out, h1, h2⟩ := C47_cgls_refines hh hop hop' hcb hyr hxr (runs_cgls_solve hyp hst hb).always
  refine ⟨out, h1, fun r hr => ?_, ?_⟩
  · obtain ⟨z, e1, e2, -⟩ := h2 r hr
    exact ⟨_, e1, by simp [Nat.add_comm], e2⟩
  · by_contra hc
    push Not at hc
    refine cgls_moves hA (hb (m + 1) (by omega)) ?_
    exact XSpace.part_inj hn hyp.wfS hyp.maskS (cgls_has hyp _ _ _).1 (cgls_has hyp _ _ _).1 fun r hr => (hc r hr).symm

end
/-! ### Non-vacuity -/

theorem diag2_seq1 : CG.seq ℝ (Diag2.A 2 5) !₂[2, 5] 0 1 = ⟨!₂[58 / 133, 145 / 133], !₂[150 / 133, -60 / 133], !₂[21750 / 17689, -3480 / 17689], 26100 / 17689⟩ := by
  have h0 : CG.seq ℝ (Diag2.A 2 5) !₂[2, 5] 0 0 = ⟨0, !₂[2, 5], !₂[2, 5], 29⟩ := by
    simp [CG.seq, CG.init, Diag2.A, EuclideanSpace.norm_sq_eq, Fin.sum_univ_two]; norm_num
  have ha : CG.alpha ℝ (Diag2.A 2 5) ⟨0, !₂[2, 5], !₂[2, 5], 29⟩ = 29 / 133 := by
    simp [CG.alpha, Diag2.A, PiLp.inner_apply, Fin.sum_univ_two]; norm_num
  have hr : CG.res ℝ (Diag2.A 2 5) ⟨0, !₂[2, 5], !₂[2, 5], 29⟩ = !₂[150 / 133, -60 / 133] := by
    rw [CG.res, ha]
    ext i; fin_cases i <;> simp [Diag2.A] <;> norm_num
  have hk : ‖!₂[(150 / 133 : ℝ), -60 / 133]‖ ^ 2 = 26100 / 17689 := by
    simp [EuclideanSpace.norm_sq_eq, Fin.sum_univ_two]; norm_num
  rw [CG.seq_succ, h0, CG.next, hr, ha, hk]
  congr 1
  · ext i; fin_cases i <;> simp <;> norm_num
  · ext i; fin_cases i <;> simp <;> norm_num

theorem diag2_ok1 : ¬ CG.Breaks ℝ (Diag2.A 2 5) (CG.seq ℝ (Diag2.A 2 5) !₂[2, 5] 0 1) := by
  rw [diag2_seq1]
  rintro (h | h)
  · simp [Diag2.A, PiLp.inner_apply, Fin.sum_univ_two] at h
    norm_num at h
  · norm_num at h

/-- Two steps of `cg` for diag(2, 5) on two ranks: what a callback keeps in the first step changes its value in the second. -/
theorem C62_cg_example : ∃ out : Nat → Except Err (XRef × Nat × List ℝ × List (XArr ℝ)) × Heap ℝ,
    Always 2 (fun r => HCG.solve (env 2 (fun _ _ => 0) r) (((MOp.leaf (bdPrim 2 (Diag2.ops 2 5) none .real r)).map Prim.heap).toHX) (fun _ => HP.ret ()) (.one 1) (.one 2) (some 2) 0 (Diag2.heap r))
      (fun r => .ok (out r)) ∧
    (∀ r < 2, ∃ z cost tr, (out r).1 = .ok (z, 2, cost, tr) ∧ tr[0]? = some ((XSpace.one Diag2.V).part 2 (CG.seq ℝ (Diag2.A 2 5) !₂[2, 5] 0 1).x r) ∧
      HasX (out r).2 z ((XSpace.one Diag2.V).part 2 (CG.seq ℝ (Diag2.A 2 5) !₂[2, 5] 0 2).x r)) ∧
    ∃ r < 2, (XSpace.one Diag2.V).part 2 (CG.seq ℝ (Diag2.A 2 5) !₂[2, 5] 0 1).x r ≠ (XSpace.one Diag2.V).part 2 (CG.seq ℝ (Diag2.A 2 5) !₂[2, 5] 0 2).x r := by
  refine C62_cg_changed (op' := Diag2.op 2 5) (m := 0) (by decide) Diag2.wf Diag2.noMask (Diag2.acts 2 5 false (fun _ _ => 0)) (Diag2.has _) (Diag2.has _) (fun r _ => Diag2.heap_reachable r)
    (fun r _ => MOp.toHX_mv (pr := id) (fun p => p.heap_is) (.leaf (bdPrim 2 (Diag2.ops 2 5) none .real r))) (fun r _ h a hw _ => Impl.ret hw trivial) (fun r _ => ?_) (fun r _ => ?_)
    ⟨by omega, fun i _ hi => ?_, .inl (by simp)⟩ fun i hi => ?_
  · show (Diag2.heap r).get? 1 = some (Diag2.V.vec 2 (toL !₂[(2 : ℝ), 5]) r)
    have : toL !₂[(2 : ℝ), 5] = [2, 5] := by simp [toL, List.ofFn_succ]
    rw [this]
    rfl
  · show (Diag2.heap r).get? 2 = some (Diag2.V.vec 2 (toL (0 : Vec ℝ 2)) r)
    have : toL (0 : Vec ℝ 2) = [0, 0] := by simp [toL, List.ofFn_succ]
    rw [this]
    rfl
  · obtain rfl | rfl : i = 0 ∨ i = 1 := by omega
    · refine ⟨by simp, ?_⟩
      simp [CG.seq, CG.init, EuclideanSpace.norm_sq_eq, Fin.sum_univ_two, Diag2.A]; norm_num
    · refine ⟨by simp, ?_⟩
      show (CG.seq ℝ (Diag2.A 2 5) !₂[2, 5] 0 1).k > 0
      rw [diag2_seq1]; norm_num
  · obtain rfl | rfl : i = 0 ∨ i = 1 := by omega
    · exact diag2_ok
    · exact diag2_ok1

theorem diag2_cgls_seq0 : CGLS.seq ℝ (Diag2.A (1 / 2) (1 / 5)) (Diag2.A (1 / 2) (1 / 5)) 0 (0 ^ 2) !₂[2, 5] 0 0 = ⟨0, !₂[2, 5], !₂[1, 1], !₂[1 / 2, 1 / 5], 2⟩ := by
  have hr : Diag2.A (1 / 2) (1 / 5) (!₂[2, 5] - Diag2.A (1 / 2) (1 / 5) 0) - ((0 : ℝ) : ℝ) • (0 : Vec ℝ 2) = !₂[1, 1] := by
    ext i; fin_cases i <;> simp [Diag2.A]
  show CGLS.init _ _ _ _ _ _ = _
  rw [CGLS.init]
  simp only [RCLike.ofReal_real_eq_id, id]
  rw [hr]
  congr 1
  · ext i; fin_cases i <;> simp [Diag2.A]
  · ext i; fin_cases i <;> simp [Diag2.A]
  · simp [EuclideanSpace.norm_sq_eq, Fin.sum_univ_two]; norm_num

theorem diag2_cgls_seq1 : (CGLS.seq ℝ (Diag2.A (1 / 2) (1 / 5)) (Diag2.A (1 / 2) (1 / 5)) 0 (0 ^ 2) !₂[2, 5] 0 1).k = 882 / 841 ∧
    (CGLS.seq ℝ (Diag2.A (1 / 2) (1 / 5)) (Diag2.A (1 / 2) (1 / 5)) 0 (0 ^ 2) !₂[2, 5] 0 1).q = !₂[-84 / 841, 210 / 841] := by
  have ha : CGLS.alpha (0 ^ 2) (⟨0, !₂[2, 5], !₂[1, 1], !₂[1 / 2, 1 / 5], 2⟩ : CGLS (Vec ℝ 2) (Vec ℝ 2)) = 200 / 29 := by
    simp [CGLS.alpha, EuclideanSpace.norm_sq_eq, Fin.sum_univ_two]; norm_num
  have hr : CGLS.grad ℝ (Diag2.A (1 / 2) (1 / 5)) (0 ^ 2) (⟨0, !₂[2, 5], !₂[1, 1], !₂[1 / 2, 1 / 5], 2⟩ : CGLS (Vec ℝ 2) (Vec ℝ 2)) = !₂[-21 / 29, 21 / 29] := by
    rw [CGLS.grad, ha]
    ext i; fin_cases i <;> simp [Diag2.A] <;> norm_num
  have hk : ‖!₂[(-21 / 29 : ℝ), 21 / 29]‖ ^ 2 = 882 / 841 := by
    simp [EuclideanSpace.norm_sq_eq, Fin.sum_univ_two]; norm_num
  rw [CGLS.seq_succ, diag2_cgls_seq0, CGLS.next, hr, ha, hk]
  refine ⟨rfl, ?_⟩
  ext i; fin_cases i <;> simp [Diag2.A] <;> norm_num

theorem diag2_cgls_ok : ∀ i < 2, ¬ CGLS.Breaks (0 ^ 2) (CGLS.seq ℝ (Diag2.A (1 / 2) (1 / 5)) (Diag2.A (1 / 2) (1 / 5)) 0 (0 ^ 2) !₂[2, 5] 0 i) := by
  intro i hi
  obtain rfl | rfl : i = 0 ∨ i = 1 := by omega
  · rw [diag2_cgls_seq0]
    rintro (h | h)
    · simp [EuclideanSpace.norm_sq_eq, Fin.sum_univ_two] at h; norm_num at h
    · norm_num at h
  · rintro (h | h)
    · rw [diag2_cgls_seq1.2] at h
      simp [EuclideanSpace.norm_sq_eq, Fin.sum_univ_two] at h; norm_num at h
    · rw [diag2_cgls_seq1.1] at h; norm_num at h

/-- Two steps of `cgls` for diag(1/2, 1/5) on two ranks. -/
theorem C62_cgls_example : ∃ (out : Nat → Except Err (HCGLS.Result ℝ) × Heap ℝ) (x1 x2 : Nat → XArr ℝ),
    Always 2 (fun r => HCGLS.solve (env 2 (fun _ _ => 0) r) (((MOp.leaf (bdPrim 2 (Diag2.ops (1 / 2) (1 / 5)) none .real r)).map Prim.heap).toHX) (fun _ => HP.ret ()) (.one 1) (.one 2) (some 2) 0 0
      (Diag2.heap r)) (fun r => .ok (out r)) ∧
    (∀ r < 2, ∃ res, (out r).1 = .ok res ∧ res.trace[0]? = some (x1 r) ∧ HasX (out r).2 res.x (x2 r)) ∧ ∃ r < 2, x1 r ≠ x2 r := by
  refine (C62_cgls_changed (op' := Diag2.op (1 / 2) (1 / 5)) (m := 0) (damp := 0) (by decide) (by ext i; fin_cases i <;> simp [Diag2.A]) (Diag2.hyp (1 / 2) (1 / 5) (fun _ _ => 0) !₂[2, 5] 0)
    (fun r _ => Diag2.heap_reachable r)
    (fun r _ => MOp.toHX_mv (pr := id) (fun p => p.heap_is) (.leaf (bdPrim 2 (Diag2.ops (1 / 2) (1 / 5)) none .real r)))
    (fun r _ => MOp.toHX_rmv (pr := id) (fun p => p.heap_is) (.leaf (bdPrim 2 (Diag2.ops (1 / 2) (1 / 5)) none .real r))) (fun r _ h a hw _ => Impl.ret hw trivial) (fun r _ => ?_) (fun r _ => ?_)
    ⟨by omega, fun i _ hi => ?_, .inl (by simp)⟩ diag2_cgls_ok).imp fun out h => ⟨_, _, h⟩
  · show (Diag2.heap r).get? 1 = some (Diag2.V.vec 2 (toL !₂[(2 : ℝ), 5]) r)
    have : toL !₂[(2 : ℝ), 5] = [2, 5] := by simp [toL, List.ofFn_succ]
    rw [this]
    rfl
  · show (Diag2.heap r).get? 2 = some (Diag2.V.vec 2 (toL (0 : Vec ℝ 2)) r)
    have : toL (0 : Vec ℝ 2) = [0, 0] := by simp [toL, List.ofFn_succ]
    rw [this]
    rfl
  · obtain rfl | rfl : i = 0 ∨ i = 1 := by omega
    · refine ⟨by simp, ?_⟩
      show (CGLS.seq ℝ (Diag2.A (1 / 2) (1 / 5)) (Diag2.A (1 / 2) (1 / 5)) 0 (0 ^ 2) !₂[2, 5] 0 0).k > 0
      rw [diag2_cgls_seq0]; norm_num
    · refine ⟨by simp, ?_⟩
      show (CGLS.seq ℝ (Diag2.A (1 / 2) (1 / 5)) (Diag2.A (1 / 2) (1 / 5)) 0 (0 ^ 2) !₂[2, 5] 0 1).k > 0
      rw [diag2_cgls_seq1.1]; norm_num

end Verif

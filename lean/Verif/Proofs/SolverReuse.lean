/- C80: executions of the solver objects of Model/SolverObject. -/
import Verif.Proofs.SolverObject

set_option linter.unusedSectionVars false

namespace Verif
open NDArray Serial

section
variable {K : Type} [RCLike K] {n : Nat}

theorem HP.runs_bind {α β : Type} {m : Nat → HP K α} {k : Nat → α → HP K β} {h h' : Nat → Heap K} {a : Nat → α} {σ : Nat → Except Err (Except Err β × Heap K)}
    (h1 : Runs n (fun r => m r (h r)) (fun r => .ok (.ok (a r), h' r))) (h2 : Runs n (fun r => k r (a r) (h' r)) σ) : Runs n (fun r => (m r >>= k r) (h r)) σ :=
  Runs.bind_ok (k := fun r (p : Except Err α × Heap K) => match p.1 with
    | .ok a => k r a p.2
    | .error e => .ret (.error e, p.2)) h1 h2

variable {h : Heap K} {c : Ctx K} {op : HXOp K} {op' : XOp K} {cb : XRef → HP K Unit}

/-- `setup` and `run` on the memory -/
theorem HCG.start_impl (hop : Implements c (op.mv c) (op'.mv c)) (hcb : Harmless cb) {y x0 : XRef} {y' x0' : XArr K} (hw : h.WF) (hy : HasX h y y') (hx : HasX h x0 x0') (m : Int) (tol : ℝ) :
    Impl h (HCG.setup c op y x0 (some m) tol >>= fun p => HCG.run c op cb p.1 p.2 (some m)) ((CGS.setup c op' y' x0' (some m) tol).bind fun p => CGS.run c op' p.1 p.2 (some m)) []
      (fun q h' q' => HCG.Rel h' q.1 q.2.1 q'.1 q'.2.1 ∧ q.2.2 = q'.2.2) := by
  refine Impl.bind (fun p => p.2.refs ++ p.1.r.refs) (HCG.setup_impl hop hw hy hx (some m) tol) (by simp) fun p h1 p' hw1 hf1 hp => ⟨fun i hi => .inr ?_, ?_⟩
  · rcases List.mem_append.1 hi with hi | hi
    · exact hp.2.2 i hi
    · exact hp.2.1 i hi
  · unfold HCG.run CGS.run
    rw [hp.1.iiter]
    exact (HCG.loop_impl hop hcb _ _ hw1 hp.1 _).mono (fun i hi => hi) fun _ _ _ _ _ h => ⟨h.1, h.2.2⟩

theorem HCGLS.start_impl (hop : Implements c (op.mv c) (op'.mv c)) (hop' : Implements c (op.rmv c) (op'.rmv c)) (hcb : Harmless cb) {y x0 : XRef} {y' x0' : XArr K} (hw : h.WF)
    (hy : HasX h y y') (hx : HasX h x0 x0') (m : Int) (damp tol : ℝ) :
    Impl h (HCGLS.setup c op y x0 (some m) damp tol >>= fun p => HCGLS.run c op cb p.1 p.2 (some m))
      ((CGLSS.setup c op' y' x0' (some m) damp tol).bind fun p => CGLSS.run c op' p.1 p.2 (some m)) [] (fun q h' q' => HCGLS.Rel h' q.1 q.2.1 q'.1 q'.2.1 ∧ q.2.2 = q'.2.2) := by
  refine Impl.bind (fun p => p.2.refs ++ p.1.s.refs) (HCGLS.setup_impl hop hop' hw hy hx (some m) damp tol) (by simp) fun p h1 p' hw1 hf1 hp => ⟨fun i hi => .inr ?_, ?_⟩
  · rcases List.mem_append.1 hi with hi | hi
    · exact hp.2.2 i hi
    · exact hp.2.1 i hi
  · unfold HCGLS.run CGLSS.run
    rw [hp.1.iiter]
    exact (HCGLS.loop_impl hop hop' hcb _ _ hw1 hp.1 _).mono (fun i hi => hi) fun _ _ _ _ _ h => ⟨h.1, h.2.2⟩

/-- `HCGLS.update` on values -/
noncomputable def CGLSS.update (c : Ctx K) (op : XOp K) (st : CGLSS K) (x : XArr K) : P K (XArr K) := do
  let qc ← st.q.conj c
  let qq ← st.q.dot c qc
  let ccj ← st.c.conj c
  let cc ← st.c.dot c ccj
  let av ← npDiv (st.kold : K) (qq + (st.damp : K) * cc)
  let a := ‖av‖
  let ac ← XArr.fmul c a st.c
  let x ← x.iadd c ac
  let aq ← XArr.fmul c a st.q
  let s ← st.s.isub c aq
  let dx ← XArr.fmul c st.damp x
  let rs ← op.rmv c s
  let r ← rs.sub' c dx
  let k ← absDot c r r
  let b ← pyDiv k st.kold
  let bc ← XArr.fmul c b st.c
  let cn ← r.add c bc
  let _ ← op.mv c cn
  .ret x

theorem HCGLS.update_impl (hop : Implements c (op.mv c) (op'.mv c)) (hop' : Implements c (op.rmv c) (op'.rmv c)) {s : HCGLS} {x : XRef} {s' : CGLSS K} {x' : XArr K} (hw : h.WF)
    (hi : HCGLS.Rel h s x s' x') : Impl h (HCGLS.update c op s x) (CGLSS.update c op' s' x') (x.refs ++ s.s.refs) (fun p h' p' => HasX h' x p') := by
  unfold HCGLS.update CGLSS.update
  simp only [Prog.bind_eq]
  obtain ⟨e1, e2, e3, e4, e5, e6, e7, hs, hc, hq, hx, ns, nx, sc, sq, xc, xq, xs⟩ := hi
  refine Impl.bind_nil (HX.conj_impl hw hq) fun qc h1 qc' hw1 hf1 hqc => ?_
  have hqc := hqc.2.2
  have hs := hf1.hasX hw hs (by simp); have hc := hf1.hasX hw hc (by simp); have hq := hf1.hasX hw hq (by simp); have hx := hf1.hasX hw hx (by simp)
  refine Impl.bind_nil (HX.dot_impl hw1 hq hqc) fun qq h2 qq' hw2 hf2 eq => ?_
  obtain ⟨rfl, -⟩ := eq
  have hs := hf2.hasX hw1 hs (by simp); have hc := hf2.hasX hw1 hc (by simp); have hq := hf2.hasX hw1 hq (by simp); have hx := hf2.hasX hw1 hx (by simp)
  refine Impl.bind_nil (HX.conj_impl hw2 hc) fun cj h3 cj' hw3 hf3 hcj => ?_
  have hcj := hcj.2.2
  have hs := hf3.hasX hw2 hs (by simp); have hc := hf3.hasX hw2 hc (by simp); have hq := hf3.hasX hw2 hq (by simp); have hx := hf3.hasX hw2 hx (by simp)
  refine Impl.bind_nil (HX.dot_impl hw3 hc hcj) fun cv h4 cv' hw4 hf4 eq => ?_
  obtain ⟨rfl, -⟩ := eq
  have hs := hf4.hasX hw3 hs (by simp); have hc := hf4.hasX hw3 hc (by simp); have hq := hf4.hasX hw3 hq (by simp); have hx := hf4.hasX hw3 hx (by simp)
  rw [e1, e4]
  refine Impl.lift_bind hw4 fun av => ?_
  refine Impl.bind_nil (HX.smul_impl hw4 hc _ _) fun ac h5 ac' hw5 hf5 hac => ?_
  have xac := new_disj hx.live hac.1
  have hac := hac.2.2
  have hs := hf5.hasX hw4 hs (by simp); have hc := hf5.hasX hw4 hc (by simp); have hq := hf5.hasX hw4 hq (by simp); have hx := hf5.hasX hw4 hx (by simp)
  refine Impl.bind (fun _ => x.refs ++ s.s.refs) (HX.iadd_impl hw5 hx hac nx xac) (fun i hi => by simp [hi]) fun x1 h6 x1' hw6 hf6 hx6 => ⟨fun i hi => .inl hi, ?_⟩
  obtain ⟨rfl, hx⟩ := hx6
  have hs := hf6.hasX hw5 hs (fun i hi hi' => xs i hi' hi); have hc := hf6.hasX hw5 hc (fun i hi hi' => xc i hi' hi); have hq := hf6.hasX hw5 hq (fun i hi hi' => xq i hi' hi)
  refine Impl.bind_nil (HX.smul_impl hw6 hq _ _) fun aq h7 aq' hw7 hf7 haq => ?_
  have haq := haq.2.2
  have hs := hf7.hasX hw6 hs (by simp); have hc := hf7.hasX hw6 hc (by simp); have hx := hf7.hasX hw6 hx (by simp)
  refine Impl.bind (fun _ => x1.refs ++ s.s.refs) (HX.isub_impl hw7 hs haq ns) (fun i hi => by simp [hi]) fun s1 h8 s1' hw8 hf8 hs8 => ⟨fun i hi => .inl hi, ?_⟩
  obtain ⟨es, hs⟩ := hs8
  subst es
  have hc := hf8.hasX hw7 hc (fun i hi hi' => sc i hi' hi); have hx := hf8.hasX hw7 hx xs
  refine Impl.bind_nil (HX.smul_impl hw8 hx _ _) fun dx h9 dx' hw9 hf9 hdx => ?_
  have hdx := hdx.2.2
  have hs := hf9.hasX hw8 hs (by simp); have hc := hf9.hasX hw8 hc (by simp); have hx := hf9.hasX hw8 hx (by simp)
  refine Impl.bind_nil (hop' h9 _ _ hw9 hs) fun rs h10 rs' hw10 hf10 hrs => ?_
  have hrs := hrs.2.2
  have hs := hf10.hasX hw9 hs (by simp); have hc := hf10.hasX hw9 hc (by simp); have hx := hf10.hasX hw9 hx (by simp); have hdx := hf10.hasX hw9 hdx (by simp)
  refine Impl.bind_nil (HX.sub_impl hw10 hrs hdx) fun r h11 r' hw11 hf11 hr => ?_
  have hr := hr.2.2
  have hs := hf11.hasX hw10 hs (by simp); have hc := hf11.hasX hw10 hc (by simp); have hx := hf11.hasX hw10 hx (by simp)
  refine Impl.bind_nil (absDot_impl hw11 hr hr) fun k h12 k' hw12 hf12 ek => ?_
  subst ek
  have hs := hf12.hasX hw11 hs (by simp); have hc := hf12.hasX hw11 hc (by simp); have hx := hf12.hasX hw11 hx (by simp); have hr := hf12.hasX hw11 hr (by simp)
  refine Impl.lift_bind hw12 fun β => ?_
  refine Impl.bind_nil (HX.smul_impl hw12 hc _ _) fun bc h13 bc' hw13 hf13 hbc => ?_
  have hbc := hbc.2.2
  have hs := hf13.hasX hw12 hs (by simp); have hx := hf13.hasX hw12 hx (by simp); have hr := hf13.hasX hw12 hr (by simp)
  refine Impl.bind_nil (HX.add_impl hw13 hr hbc) fun cn h14 cn' hw14 hf14 hcn => ?_
  have sc := new_disj hs.live hcn.1
  have xc := new_disj hx.live hcn.1
  have hcn := hcn.2.2
  have hs := hf14.hasX hw13 hs (by simp); have hx := hf14.hasX hw13 hx (by simp)
  refine Impl.bind_nil (hop h14 _ _ hw14 hcn) fun q h15 q' hw15 hf15 hq => ?_
  have sq := new_disj hs.live hq.1
  have xq := new_disj hx.live hq.1
  have hq := hq.2.2
  have hs := hf15.hasX hw14 hs (by simp); have hx := hf15.hasX hw14 hx (by simp); have hcn := hf15.hasX hw14 hcn (by simp)
  exact Impl.ret hw15 hx

variable {J : Nat → Nat → K} {S T : XSpace} {M N : Nat} {A : Vec K M → Vec K N} {B : Vec K N → Vec K M} {y : Vec K N} {x0 : Vec K M} {niter : Option Int} {damp tol : ℝ} {opv : Nat → XOp K}

theorem cgls_update_ok (h : CGLSHyp n J opv S T A B y x0) (j : Nat) (hb : ¬ CGLS.Breaks (damp ^ 2) (CGLS.seq K A B damp (damp ^ 2) y x0 j)) :
    Runs n (fun r => CGLSS.update (env n J r) (opv r) (cglsState S T n y x0 niter damp tol A B j r) (S.part n (CGLS.seq K A B damp (damp ^ 2) y x0 j).x r))
      (fun r => .ok (S.part n (CGLS.seq K A B damp (damp ^ 2) y x0 (j + 1)).x r)) := by
  obtain ⟨h1, h2, h3, h4⟩ := cgls_has h damp (damp ^ 2) j
  have en : CGLS.seq K A B damp (damp ^ 2) y x0 (j + 1) = CGLS.next K A B (damp ^ 2) (CGLS.seq K A B damp (damp ^ 2) y x0 j) := CGLS.seq_succ ..
  simp only [CGLSS.update, cglsState, Prog.bind_eq]
  set s := CGLS.seq K A B damp (damp ^ 2) y x0 with hs
  have hden : inner K (s j).q (s j).q + ((damp ^ 2 : ℝ) : K) * inner K (s j).c (s j).c = ((‖(s j).q‖ ^ 2 + damp ^ 2 * ‖(s j).c‖ ^ 2 : ℝ) : K) := by
    rw [inner_self_eq_norm_sq_to_K, inner_self_eq_norm_sq_to_K]; push_cast; rfl
  have hb1 : ¬ ((‖(s j).q‖ ^ 2 + damp ^ 2 * ‖(s j).c‖ ^ 2 : ℝ) : K) = 0 := by
    intro h0; exact hb (.inl (by exact_mod_cast h0))
  have hb2 : ¬ (s j).k = 0 := fun h => hb (.inr h)
  have ea : ‖((s j).k : K) / ((‖(s j).q‖ ^ 2 + damp ^ 2 * ‖(s j).c‖ ^ 2 : ℝ) : K)‖ = CGLS.alpha (damp ^ 2) (s j) := by
    unfold CGLS.alpha; rw [← RCLike.ofReal_div, RCLike.norm_ofReal]
  refine Runs.bind_ok (runs_conj_part h.wfT h4) ?_
  refine Runs.bind_ok (runs_dotc_part h.wfT h.maskT h4 h4) ?_
  refine Runs.bind_ok (runs_conj_part h.wfS h3) ?_
  refine Runs.bind_ok (runs_dotc_part h.wfS h.maskS h3 h3) ?_
  simp only [hden, npDiv, if_neg hb1, Prog.ret_bind, ea, pyDiv, if_neg hb2]
  have hx' : S.Has ((s j).x + (CGLS.alpha (damp ^ 2) (s j) : K) • (s j).c) := has_add h1 (has_smul _ h3)
  have hs' : T.Has ((s j).s - (CGLS.alpha (damp ^ 2) (s j) : K) • (s j).q) := has_sub h2 (has_smul _ h4)
  have hg : S.Has (CGLS.grad K B (damp ^ 2) (s j)) := has_sub (h.rmv.has hs') (has_smul _ hx')
  have hc : S.Has (CGLS.grad K B (damp ^ 2) (s j) + ((‖CGLS.grad K B (damp ^ 2) (s j)‖ ^ 2 / (s j).k : ℝ) : K) • (s j).c) := has_add hg (has_smul _ h3)
  refine Runs.bind_ok (runs_fmul_part h.wfS _ h3) ?_
  refine Runs.bind_ok (runs_iadd_part h.wfS h1 (has_smul _ h3)) ?_
  refine Runs.bind_ok (runs_fmul_part h.wfT _ h4) ?_
  refine Runs.bind_ok (runs_isub_part h.wfT h2 (has_smul _ h4)) ?_
  refine Runs.bind_ok (runs_fmul_part h.wfS _ hx') ?_
  refine Runs.bind_ok (h.rmv.runs hs') ?_
  refine Runs.bind_ok (runs_sub_part h.wfS (h.rmv.has hs') (has_smul _ hx')) ?_
  refine Runs.bind_ok (runs_absSelf_part h.wfS h.maskS hg) ?_
  refine Runs.bind_ok (runs_fmul_part h.wfS _ h3) ?_
  refine Runs.bind_ok (runs_add_part h.wfS hg (has_smul _ h3)) ?_
  refine Runs.bind_ok (h.mv.runs hc) ?_
  refine (Runs.ret _).congr (fun r _ => rfl) fun r _ => ?_
  rw [en]
  rfl

end
end Verif

/- CG and CGLS on arrays with a mask when the groups stop after different numbers of steps: the ranks of the other groups wait forever. -/
import Verif.Proofs.GroupSolvers
import Verif.Proofs.GroupOperators
import Verif.MPI.Partial

set_option linter.unusedSectionVars false

namespace Verif
open NDArray Serial Relation

section
variable {M α β : Type} {n : Nat}

/-- the program waits for all ranks -/
def WaitsAll (n : Nat) (p : Prog M α) : Prop := ∃ kind v k, p = .coll kind (List.range n) v k

/-- there is an execution without buffering that reaches a state in which the ranks with `o r = some a` have returned `a` and the others wait for all ranks; one rank has returned -/
def Halts (n : Nat) (ps : Nat → Prog M α) (o : Nat → Option α) : Prop :=
  ∃ qs, ReflTransGen (SStep n) ps qs ∧ (∃ q < n, (o q).isSome) ∧ ∀ r < n, match o r with | some a => qs r = .ret a | none => WaitsAll n (qs r)

theorem WaitsAll.bind {p : Prog M α} (h : WaitsAll n p) (k : α → Prog M β) : WaitsAll n (p.bind k) := by
  obtain ⟨kind, v, k', rfl⟩ := h
  exact ⟨kind, v, _, rfl⟩

theorem Halts.ends {ps : Nat → Prog M α} {o : Nat → Option α} (h : Halts n ps o) : Ends n ps (fun r => (o r).map .ok) := by
  obtain ⟨qs, h1, ⟨q, hq, ho⟩, h2⟩ := h
  obtain ⟨a, ha⟩ := Option.isSome_iff_exists.1 ho
  have hqs := h2 q hq
  rw [ha] at hqs
  refine Ends.of_blocked h1 fun r hr => ?_
  have := h2 r hr
  cases e : o r with
  | some a => rw [e] at this; exact this
  | none =>
    rw [e] at this
    obtain ⟨kind, v, k, h⟩ := this
    exact .inr ⟨kind, _, v, k, h, q, by simpa using hq, fun v' k' h' => by rw [show qs q = .ret a from hqs] at h'; cases h'⟩

theorem Ends.congr' {ps ps' : Nat → Prog M α} {o o' : Nat → Option (Except Err α)} (h : Ends n ps o) (he : ps = ps') (ho : ∀ r < n, o r = o' r) : Ends n ps' o' := by
  subst he
  exact ⟨h.terminates, fun s h1 h2 r hr => by rw [← ho r hr]; exact h.outcome s h1 h2 r hr⟩

theorem Halts.congr {ps ps' : Nat → Prog M α} {o o' : Nat → Option α} (h : Halts n ps o) (he : ∀ r < n, ps r = ps' r) (ho : ∀ r < n, o r = o' r) : Halts n ps' o' := by
  obtain ⟨qs, h1, ⟨q, hq, h2⟩, h3⟩ := h
  have : ∃ qs', ReflTransGen (SStep n) ps' qs' ∧ ∀ r < n, qs r = qs' r := by
    clear h3
    induction h1 with
    | refl => exact ⟨ps', .refl, he⟩
    | tail _ h2 ih =>
      obtain ⟨q1, h3, h4⟩ := ih
      obtain ⟨q2, h5, h6⟩ := h2.congr h4
      exact ⟨q2, h3.tail h5, h6⟩
  obtain ⟨qs', h4, h5⟩ := this
  exact ⟨qs', h4, ⟨q, hq, by rw [← ho q hq]; exact h2⟩, fun r hr => by rw [← ho r hr, ← h5 r hr]; exact h3 r hr⟩

theorem steps_bind {ps qs : Nat → Prog M α} (h : ReflTransGen (SStep n) ps qs) (k : Nat → α → Prog M β) :
    ReflTransGen (SStep n) (fun r => (ps r).bind (k r)) (fun r => (qs r).bind (k r)) := by
  induction h with
  | refl => exact .refl
  | tail _ h2 ih => exact ih.tail (h2.bind k)

/-- sequencing after a computation that succeeds on all ranks -/
theorem Halts.after {ps : Nat → Prog M α} {a : Nat → α} {k : Nat → α → Prog M β} {o : Nat → Option β} (h1 : Runs n ps (fun r => .ok (a r))) (h2 : Halts n (fun r => k r (a r)) o) :
    Halts n (fun r => (ps r).bind (k r)) o := by
  obtain ⟨qs, h, hf⟩ := h1
  obtain ⟨qs', h3, h4⟩ := h2.congr (ps' := fun r => (qs r).bind (k r)) (fun r hr => by rw [hf r hr]; rfl) fun _ _ => rfl
  exact ⟨qs', (steps_bind h k).trans h3, h4⟩

/-- something done at the end without communication -/
theorem Halts.map {ps : Nat → Prog M α} {o : Nat → Option α} {k : Nat → α → Prog M β} (f : Nat → α → β) (h : Halts n ps o) (hk : ∀ r < n, ∀ a, o r = some a → k r a = .ret (f r a)) :
    Halts n (fun r => (ps r).bind (k r)) (fun r => (o r).map (f r)) := by
  obtain ⟨qs, h1, ⟨q, hq, h2⟩, h3⟩ := h
  refine ⟨_, steps_bind h1 k, ⟨q, hq, by simpa using h2⟩, fun r hr => ?_⟩
  have := h3 r hr
  show match (o r).map (f r) with | some a => (qs r).bind (k r) = .ret a | none => WaitsAll n ((qs r).bind (k r))
  cases e : o r with
  | some a =>
    rw [e] at this
    show (qs r).bind (k r) = _
    rw [show qs r = .ret a from this, Prog.ret_bind, hk r hr a e]
  | none => rw [e] at this; exact WaitsAll.bind this _

theorem Halts.now {ps : Nat → Prog M α} {P : Nat → Prop} [DecidablePred P] {a : Nat → α} {q : Nat} (hq : q < n) (hP : ¬ P q) (h1 : ∀ r < n, P r → WaitsAll n (ps r))
    (h2 : ∀ r < n, ¬ P r → ps r = .ret (a r)) : Halts n ps (fun r => if P r then none else some (a r)) := by
  refine ⟨ps, .refl, ⟨q, hq, by simp [hP]⟩, fun r hr => ?_⟩
  by_cases h : P r
  · simp only [if_pos h]; exact h1 r hr h
  · simp only [if_neg h]; exact h2 r hr h

end

variable {K : Type} [RCLike K] {n : Nat} {J : Nat → Nat → K} {V W : VSpace} {M N : Nat → Nat}

theorem waits_conj (x : ∀ γ, Vec K (N γ)) (r : Nat) : WaitsAll n ((V.gpart n x r).conj (env n J r)) := by
  simp only [VSpace.gpart, XArr.conj, DArr.conj, DArr.like, DArr.likeMask, DArr.localShapes, allgather, gather, Prog.bind_eq, Prog.bind]
  exact ⟨_, _, _, rfl⟩

/-! ### CG -/

section
variable {op : Nat → XOp K} {A : ∀ γ, Vec K (N γ) → Vec K (N γ)} {y x0 : ∀ γ, Vec K (N γ)} {niter : Option Int} {tol : ℝ}

open Classical in
theorem halts_gcg_loop (h : GCGHyp n J op V A y x0) {mx : Int} {m : Nat}
    (hw : ∀ x : ∀ γ, Vec K (N γ), V.GHas n x → ∀ r < n, WaitsAll n ((op r).mv (env n J r) (V.gpart n x r)))
    (hgo : ∀ r < n, ∀ i < m, (i : Int) < mx ∧ tol < (CG.seq K (A (V.L.color r)) (y (V.L.color r)) (x0 (V.L.color r)) i).k)
    (hb : ∀ r < n, ∀ i < m, ¬ CG.Breaks K (A (V.L.color r)) (CG.seq K (A (V.L.color r)) (y (V.L.color r)) (x0 (V.L.color r)) i))
    {q : Nat} (hq : q < n) (hqs : ¬ ((m : Int) < mx ∧ tol < (CG.seq K (A (V.L.color q)) (y (V.L.color q)) (x0 (V.L.color q)) m).k)) :
    ∀ (f j : Nat) (tr : Nat → List (XArr K)), j ≤ m → (f : Int) = max (mx - j) 0 →
    Halts n (fun r => CGS.loop (env n J r) (op r) mx f (gcgState V n y x0 niter tol A j r) (V.gpart n (fun γ => (CG.seq K (A γ) (y γ) (x0 γ) j).x) r) (tr r))
      (fun r => if (m : Int) < mx ∧ tol < (CG.seq K (A (V.L.color r)) (y (V.L.color r)) (x0 (V.L.color r)) m).k then none
        else some (gcgState V n y x0 niter tol A m r, V.gpart n (fun γ => (CG.seq K (A γ) (y γ) (x0 γ) m).x) r,
          tr r ++ (List.range' (j + 1) (m - j)).map fun i => V.gpart n (fun γ => (CG.seq K (A γ) (y γ) (x0 γ) i).x) r)) := by
  intro f
  induction f with
  | zero =>
    intro j tr hj hf
    have hmj : m = j := by
      by_contra hne
      have := (hgo q hq j (by omega)).1
      omega
    subst hmj
    have hno : ¬ (m : Int) < mx := by omega
    refine Halts.now hq hqs (fun r hr hc => absurd hc.1 hno) fun r hr _ => ?_
    simp [CGS.loop]
  | succ f ih =>
    intro j tr hj hf
    rcases Nat.lt_or_eq_of_le hj with hlt | rfl
    · have := Halts.after (k := fun r p => CGS.loop (env n J r) (op r) mx f p.1 p.2 (tr r ++ [p.2])) (gcg_step_ok (J := J) (niter := niter) (tol := tol) h j fun r hr => hb r hr j hlt)
        (ih (j + 1) (fun r => tr r ++ [V.gpart n (fun γ => (CG.seq K (A γ) (y γ) (x0 γ) (j + 1)).x) r]) hlt (by omega))
      refine this.congr (fun r hr => ?_) fun r _ => ?_
      · simp only [CGS.loop, Prog.bind_eq]
        rw [if_pos]
        exact hgo r hr j hlt
      · have e : m - j = (m - (j + 1)) + 1 := by omega
        rw [e, List.range'_succ]
        simp
    · refine Halts.now hq hqs (fun r hr hc => ?_) fun r hr hc => ?_
      · simp only [CGS.loop]
        rw [if_pos (by exact hc)]
        simp only [CGS.step, Prog.bind_eq, Prog.bind_assoc]
        exact WaitsAll.bind (hw _ (gcg_has h j).2.2 r hr) _
      · simp only [CGS.loop]
        rw [if_neg (by exact hc)]
        simp

open Classical in
theorem halts_gcg_solve (h : GCGHyp n J op V A y x0) {mx : Int} {m : Nat}
    (hw : ∀ x : ∀ γ, Vec K (N γ), V.GHas n x → ∀ r < n, WaitsAll n ((op r).mv (env n J r) (V.gpart n x r)))
    (hgo : ∀ r < n, ∀ i < m, (i : Int) < mx ∧ tol < (CG.seq K (A (V.L.color r)) (y (V.L.color r)) (x0 (V.L.color r)) i).k)
    (hb : ∀ r < n, ∀ i < m, ¬ CG.Breaks K (A (V.L.color r)) (CG.seq K (A (V.L.color r)) (y (V.L.color r)) (x0 (V.L.color r)) i))
    {q : Nat} (hq : q < n) (hqs : ¬ ((m : Int) < mx ∧ tol < (CG.seq K (A (V.L.color q)) (y (V.L.color q)) (x0 (V.L.color q)) m).k)) :
    Ends n (fun r => CGS.solve (env n J r) (op r) (V.gpart n y r) (V.gpart n x0 r) (some mx) tol)
      (fun r => if (m : Int) < mx ∧ tol < (CG.seq K (A (V.L.color r)) (y (V.L.color r)) (x0 (V.L.color r)) m).k then none
        else some (.ok (V.gpart n (fun γ => (CG.seq K (A γ) (y γ) (x0 γ) m).x) r, m,
          (List.range (m + 1)).map fun i => Real.sqrt (CG.seq K (A (V.L.color r)) (y (V.L.color r)) (x0 (V.L.color r)) i).k,
          (List.range' 1 m).map fun i => V.gpart n (fun γ => (CG.seq K (A γ) (y γ) (x0 γ) i).x) r))) := by
  have h1 := halts_gcg_loop (niter := some mx) h hw hgo hb hq hqs (mx - (0 : Nat)).toNat 0 (fun _ => []) (by omega) (by omega)
  have h2 := Halts.map (k := fun r q => .ret (q.2.1, q.1.iiter, q.1.cost, q.2.2)) (fun _ q => (q.2.1, q.1.iiter, q.1.cost, q.2.2)) h1 fun _ _ _ _ => rfl
  have h3 := (Halts.after (k := fun r p => (CGS.run (env n J r) (op r) p.1 p.2 (some mx)).bind fun q => .ret (q.2.1, q.1.iiter, q.1.cost, q.2.2))
    (runs_gcg_setup (niter := some mx) (tol := tol) h) (h2.congr (fun r _ => rfl) fun r _ => rfl)).ends
  refine h3.congr' (by simp only [CGS.solve, Prog.bind_eq]) fun r _ => ?_
  split_ifs <;> simp [gcgState]

end

/-! ### CGLS -/

section
variable {op : Nat → XOp K} {A : ∀ γ, Vec K (M γ) → Vec K (N γ)} {B : ∀ γ, Vec K (N γ) → Vec K (M γ)} {y : ∀ γ, Vec K (N γ)} {x0 : ∀ γ, Vec K (M γ)} {niter : Option Int} {damp tol : ℝ}

open Classical in
theorem halts_gcgls_loop (h : GCGLSHyp n J op V W A B y x0) {mx : Int} {m : Nat}
    (hgo : ∀ r < n, ∀ i < m, (i : Int) < mx ∧ tol < (gcgls A B damp y x0 i (V.L.color r)).k)
    (hb : ∀ r < n, ∀ i < m, ¬ CGLS.Breaks (damp ^ 2) (gcgls A B damp y x0 i (V.L.color r)))
    {q : Nat} (hq : q < n) (hqs : ¬ ((m : Int) < mx ∧ tol < (gcgls A B damp y x0 m (V.L.color q)).k)) :
    ∀ (f j : Nat) (tr : Nat → List (XArr K)), j ≤ m → (f : Int) = max (mx - j) 0 →
    Halts n (fun r => CGLSS.loop (env n J r) (op r) mx f (gcglsState V W n y x0 niter damp tol A B j r) (V.gpart n (fun γ => (gcgls A B damp y x0 j γ).x) r) (tr r))
      (fun r => if (m : Int) < mx ∧ tol < (gcgls A B damp y x0 m (V.L.color r)).k then none
        else some (gcglsState V W n y x0 niter damp tol A B m r, V.gpart n (fun γ => (gcgls A B damp y x0 m γ).x) r,
          tr r ++ (List.range' (j + 1) (m - j)).map fun i => V.gpart n (fun γ => (gcgls A B damp y x0 i γ).x) r)) := by
  intro f
  induction f with
  | zero =>
    intro j tr hj hf
    have hmj : m = j := by
      by_contra hne
      have := (hgo q hq j (by omega)).1
      omega
    subst hmj
    have hno : ¬ (m : Int) < mx := by omega
    refine Halts.now hq hqs (fun r hr hc => absurd hc.1 hno) fun r hr _ => ?_
    simp [CGLSS.loop]
  | succ f ih =>
    intro j tr hj hf
    rcases Nat.lt_or_eq_of_le hj with hlt | rfl
    · have := Halts.after (k := fun r p => CGLSS.loop (env n J r) (op r) mx f p.1 p.2 (tr r ++ [p.2])) (gcgls_step_ok (J := J) (niter := niter) (tol := tol) h j fun r hr => hb r hr j hlt)
        (ih (j + 1) (fun r => tr r ++ [V.gpart n (fun γ => (gcgls A B damp y x0 (j + 1) γ).x) r]) hlt (by omega))
      refine this.congr (fun r hr => ?_) fun r _ => ?_
      · simp only [CGLSS.loop, Prog.bind_eq]
        rw [if_pos]
        exact hgo r hr j hlt
      · have e : m - j = (m - (j + 1)) + 1 := by omega
        rw [e, List.range'_succ]
        simp
    · refine Halts.now hq hqs (fun r hr hc => ?_) fun r hr hc => ?_
      · simp only [CGLSS.loop]
        rw [if_pos (by exact hc)]
        simp only [CGLSS.step, Prog.bind_eq, Prog.bind_assoc]
        exact WaitsAll.bind (waits_conj _ _) _
      · simp only [CGLSS.loop]
        rw [if_neg (by exact hc)]
        simp

open Classical in
theorem halts_gcgls_solve (h : GCGLSHyp n J op V W A B y x0) {mx : Int} {m : Nat}
    (hgo : ∀ r < n, ∀ i < m, (i : Int) < mx ∧ tol < (gcgls A B damp y x0 i (V.L.color r)).k)
    (hb : ∀ r < n, ∀ i < m, ¬ CGLS.Breaks (damp ^ 2) (gcgls A B damp y x0 i (V.L.color r)))
    {q : Nat} (hq : q < n) (hqs : ¬ ((m : Int) < mx ∧ tol < (gcgls A B damp y x0 m (V.L.color q)).k)) :
    Ends n (fun r => CGLSS.solve (env n J r) (op r) (W.gpart n y r) (V.gpart n x0 r) (some mx) damp tol)
      (fun r => if (m : Int) < mx ∧ tol < (gcgls A B damp y x0 m (V.L.color r)).k then none
        else some (.ok ⟨V.gpart n (fun γ => (gcgls A B damp y x0 m γ).x) r, if (gcgls A B damp y x0 m (V.L.color r)).k < tol then 1 else 2, m, (gcgls A B damp y x0 m (V.L.color r)).k,
          cglsCost1 (A (V.L.color r)) (B (V.L.color r)) damp (y (V.L.color r)) (x0 (V.L.color r)) m,
          (List.range (m + 1)).map fun i => ‖(gcgls A B damp y x0 i (V.L.color r)).s‖, (List.range' 1 m).map fun i => V.gpart n (fun γ => (gcgls A B damp y x0 i γ).x) r⟩)) := by
  have h1 := halts_gcgls_loop (niter := some mx) h hgo hb hq hqs (mx - (0 : Nat)).toNat 0 (fun _ => []) (by omega) (by omega)
  have h2 := Halts.map (k := fun r q => CGLSS.finalize q.1 q.2.1 q.2.2) (fun r _ => (⟨V.gpart n (fun γ => (gcgls A B damp y x0 m γ).x) r,
          if (gcgls A B damp y x0 m (V.L.color r)).k < tol then 1 else 2, m, (gcgls A B damp y x0 m (V.L.color r)).k,
          cglsCost1 (A (V.L.color r)) (B (V.L.color r)) damp (y (V.L.color r)) (x0 (V.L.color r)) m,
          (List.range (m + 1)).map fun i => ‖(gcgls A B damp y x0 i (V.L.color r)).s‖, (List.range' 1 m).map fun i => V.gpart n (fun γ => (gcgls A B damp y x0 i γ).x) r⟩ : CGLSS.Result K))
    h1 fun r _ a ha => by
      split_ifs at ha
      obtain rfl := Option.some.inj ha
      have e : (gcglsState V W n y x0 (some mx) damp tol A B m r).cost1[m]? = some (cglsCost1 (A (V.L.color r)) (B (V.L.color r)) damp (y (V.L.color r)) (x0 (V.L.color r)) m) := by
        simp [gcglsState]
      unfold CGLSS.finalize
      have e' : (gcglsState V W n y x0 (some mx) damp tol A B m r).iiter = m := rfl
      simp only [e', e]
      simp only [gcglsState, List.nil_append, Nat.sub_zero, Nat.zero_add]
      rfl
  have h3 := (Halts.after (k := fun r p => (CGLSS.run (env n J r) (op r) p.1 p.2 (some mx)).bind fun q => CGLSS.finalize q.1 q.2.1 q.2.2)
    (runs_gcgls_setup (niter := some mx) (damp := damp) (tol := tol) h) (h2.congr (fun r _ => rfl) fun r _ => rfl)).ends
  refine h3.congr' (by simp only [CGLSS.solve, Prog.bind_eq]) fun r _ => ?_
  by_cases hc : (m : Int) < mx ∧ tol < (gcgls A B damp y x0 m (V.L.color r)).k
  · rw [if_pos hc, if_pos hc]; rfl
  · rw [if_neg hc, if_neg hc]; rfl

end

/-! ### MPIBlockDiag waits for all ranks -/

theorem waits_mkDArr {N : Nat} {f : Nat → Nat} (dt : DType) {r : Nat} (hr : r < n) :
    WaitsAll n (mkDArr (env n J r) [N] .scatter 0 (some ((List.range n).map fun q => [f q])) none dt) := by
  have h0 : ((List.range n).map fun q => [f q]) ≠ [] := by
    intro h
    have := congrArg List.length h
    simp at this
    omega
  have h1 : ((List.range n).map fun q => [f q])[r]? = some [f r] := by simp [hr]
  simp only [mkDArr, mkSub, checkLocalShapes, Option.getD_some, List.getD_eq_getElem?_getD, Prog.bind_eq, Prog.ret_bind]
  rw [if_neg (by simp), if_neg h0, if_neg (by simp [env])]
  simp only [env_rank, h1, Partition.isBroadcast]
  simp [allreduce, gather, Prog.bind_eq, Prog.bind, WaitsAll]

theorem waits_blockDiag {ops : Nat → List (LOp K)} {mask : Option (List Nat)} {dx dt : DType} {b : Bool} {L : Layout} (hp : L.part = .scatter) (hg : L.gshape = [inSum b (allOps n ops)])
    (x : ∀ γ, Vec K (N γ)) {r : Nat} (hr : r < n) :
    WaitsAll n ((MOp.toX (.leaf (bdPrim n ops mask dt r))).dir b (env n J r) (VSpace.gpart ⟨L, dx⟩ n x r)) := by
  have e : (MOp.toX (.leaf (bdPrim n ops mask dt r))).dir b (env n J r) (VSpace.gpart ⟨L, dx⟩ n x r)
      = (blockDiagMv (ops r) mask dt b ((List.range n).map fun q => [inSum b (ops q)]) ((List.range n).map fun q => [outSum b (ops q)]) (outSum b (allOps n ops)) (env n J r)
          (VSpace.gvec ⟨L, dx⟩ n (fun γ => toL (x γ)) r)).bind fun y => .ret (.one y) := by
    have hs : (VSpace.gvec ⟨L, dx⟩ n (fun γ => toL (x γ)) r).gshape = L.gshape := rfl
    cases b <;> simp [XOp.dir, MOp.toX, VSpace.gpart, MOp.run, checkDim, hs, hg, bdPrim, outSum, Prog.bind_eq]
  rw [e]
  refine WaitsAll.bind ?_ _
  simp only [blockDiagMv, reshaped, redistribute, Prog.bind_eq, Prog.bind_assoc]
  rw [if_neg (by simp [VSpace.gvec, Layout.fam, hp])]
  simp only [VSpace.gvec, Layout.fam, hg]
  exact WaitsAll.bind (WaitsAll.bind (waits_mkDArr _ hr) _) _

end Verif

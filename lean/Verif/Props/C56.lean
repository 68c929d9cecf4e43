/- C56: the solvers can be interrupted and resumed. -/
import Verif.Props.C41
import Verif.Model.HeapSolvers

namespace Verif
open NDArray

variable {K : Type}

theorem bind_congr' {M α β : Type} {p : Prog M α} {f g : α → Prog M β} (h : ∀ a, f a = g a) : p.bind f = p.bind g := by rw [funext h]

namespace CGS
variable [RCLike K] {c : Ctx K} {op : XOp K}

theorem step_bind_congr {β : Type} {s : CGS K} {x : XArr K} {f g : CGS K × XArr K → P K β}
    (h : ∀ p : CGS K × XArr K, p.1.iiter = s.iiter + 1 → f p = g p) : (step c op s x).bind f = (step c op s x).bind g := by
  unfold step
  simp only [Prog.bind_eq, Prog.bind_assoc, Prog.ret_bind]
  repeat refine bind_congr' fun _ => ?_
  exact h _ rfl

/-- more fuel than iterations left makes no difference -/
theorem loop_fuel (m : Int) : ∀ (a : Nat) (s : CGS K) (x : XArr K) (tr : List (XArr K)), (m - s.iiter).toNat ≤ a →
    loop c op m a s x tr = loop c op m (m - s.iiter).toNat s x tr := by
  intro a
  induction a with
  | zero => intro s x tr h; rw [Nat.le_zero.1 h]
  | succ a ih =>
    intro s x tr h
    by_cases hlt : (s.iiter : Int) < m
    · obtain ⟨b, hb⟩ : ∃ b, (m - s.iiter).toNat = b + 1 := ⟨(m - s.iiter).toNat - 1, by omega⟩
      rw [hb]
      simp only [loop]
      split_ifs with hc
      · refine step_bind_congr fun p hp => ?_
        have e : b = (m - p.1.iiter).toNat := by omega
        rw [e]
        exact ih p.1 p.2 _ (by omega)
      · rfl
    · have e : (m - s.iiter).toNat = 0 := by omega
      rw [e]
      simp only [loop]
      rw [if_neg fun hc => hlt hc.1]

/-- the iterates are added to the trace -/
theorem loop_trace (m : Int) : ∀ (a : Nat) (s : CGS K) (x : XArr K) (tr : List (XArr K)),
    loop c op m a s x tr = (loop c op m a s x []).bind fun q => .ret (q.1, q.2.1, tr ++ q.2.2) := by
  intro a
  induction a with
  | zero => intro s x tr; simp [loop]
  | succ a ih =>
    intro s x tr
    simp only [loop]
    split_ifs with hc
    · simp only [Prog.bind_eq, Prog.bind_assoc]
      congr 1
      funext p
      rw [ih _ _ (tr ++ [p.2]), ih _ _ ([] ++ [p.2]), Prog.bind_assoc]
      congr 1
      funext q
      simp
    · simp

theorem loop_loop {k m : Int} (hkm : k ≤ m) : ∀ (a : Nat) (s : CGS K) (x : XArr K) (tr : List (XArr K)), (k - s.iiter).toNat = a →
    (loop c op k a s x tr).bind (fun q => loop c op m (m - q.1.iiter).toNat q.1 q.2.1 q.2.2) = loop c op m (m - s.iiter).toNat s x tr := by
  intro a
  induction a with
  | zero => intro s x tr h; rfl
  | succ a ih =>
    intro s x tr h
    obtain ⟨b, hb⟩ : ∃ b, (m - s.iiter).toNat = b + 1 := ⟨(m - s.iiter).toNat - 1, by omega⟩
    rw [hb]
    simp only [loop]
    by_cases ht : s.kold > s.tol
    · rw [if_pos ⟨by omega, ht⟩, if_pos ⟨by omega, ht⟩]
      simp only [Prog.bind_eq, Prog.bind_assoc]
      refine step_bind_congr fun p hp => ?_
      have e : b = (m - p.1.iiter).toNat := by omega
      rw [e]
      exact ih p.1 p.2 _ (by omega)
    · rw [if_neg fun h => ht h.2, if_neg fun h => ht h.2, Prog.ret_bind]
      dsimp only
      rw [hb]
      simp only [loop]
      rw [if_neg fun h => ht h.2]

end CGS

/-- **C56** (CG).  For any operator and any state of the solver: `run(niter=k)` followed by `run(niter=m)` with k ≤ m performs exactly the computation and
    communication of `run(niter=m)`, calls the callback with the same iterates, and ends in the same state. -/
theorem C56_cg [RCLike K] (c : Ctx K) (op : XOp K) (s : CGS K) (x : XArr K) {k m : Int} (hkm : k ≤ m) :
    (s.run c op x (some k)).bind (fun q => (q.1.run c op q.2.1 (some m)).bind fun q' => .ret (q'.1, q'.2.1, q.2.2 ++ q'.2.2)) = s.run c op x (some m) := by
  have h := CGS.loop_loop (c := c) (op := op) hkm _ s x [] rfl
  simp only [CGS.run]
  rw [← h]
  congr 1
  funext q
  exact (CGS.loop_trace m _ q.1 q.2.1 q.2.2).symm

namespace CGLSS
variable [RCLike K] {c : Ctx K} {op : XOp K}

theorem step_bind_congr {β : Type} {s : CGLSS K} {x : XArr K} {f g : CGLSS K × XArr K → P K β}
    (h : ∀ p : CGLSS K × XArr K, p.1.iiter = s.iiter + 1 → f p = g p) : (step c op s x).bind f = (step c op s x).bind g := by
  unfold step
  simp only [Prog.bind_eq, Prog.bind_assoc, Prog.ret_bind]
  repeat refine bind_congr' fun _ => ?_
  exact h _ rfl

/-- more fuel than iterations left makes no difference -/
theorem loop_fuel (m : Int) : ∀ (a : Nat) (s : CGLSS K) (x : XArr K) (tr : List (XArr K)), (m - s.iiter).toNat ≤ a →
    loop c op m a s x tr = loop c op m (m - s.iiter).toNat s x tr := by
  intro a
  induction a with
  | zero => intro s x tr h; rw [Nat.le_zero.1 h]
  | succ a ih =>
    intro s x tr h
    by_cases hlt : (s.iiter : Int) < m
    · obtain ⟨b, hb⟩ : ∃ b, (m - s.iiter).toNat = b + 1 := ⟨(m - s.iiter).toNat - 1, by omega⟩
      rw [hb]
      simp only [loop]
      split_ifs with hc
      · refine step_bind_congr fun p hp => ?_
        have e : b = (m - p.1.iiter).toNat := by omega
        rw [e]
        exact ih p.1 p.2 _ (by omega)
      · rfl
    · have e : (m - s.iiter).toNat = 0 := by omega
      rw [e]
      simp only [loop]
      rw [if_neg fun hc => hlt hc.1]

/-- the iterates are added to the trace -/
theorem loop_trace (m : Int) : ∀ (a : Nat) (s : CGLSS K) (x : XArr K) (tr : List (XArr K)),
    loop c op m a s x tr = (loop c op m a s x []).bind fun q => .ret (q.1, q.2.1, tr ++ q.2.2) := by
  intro a
  induction a with
  | zero => intro s x tr; simp [loop]
  | succ a ih =>
    intro s x tr
    simp only [loop]
    split_ifs with hc
    · simp only [Prog.bind_eq, Prog.bind_assoc]
      congr 1
      funext p
      rw [ih _ _ (tr ++ [p.2]), ih _ _ ([] ++ [p.2]), Prog.bind_assoc]
      congr 1
      funext q
      simp
    · simp

theorem loop_loop {k m : Int} (hkm : k ≤ m) : ∀ (a : Nat) (s : CGLSS K) (x : XArr K) (tr : List (XArr K)), (k - s.iiter).toNat = a →
    (loop c op k a s x tr).bind (fun q => loop c op m (m - q.1.iiter).toNat q.1 q.2.1 q.2.2) = loop c op m (m - s.iiter).toNat s x tr := by
  intro a
  induction a with
  | zero => intro s x tr h; rfl
  | succ a ih =>
    intro s x tr h
    obtain ⟨b, hb⟩ : ∃ b, (m - s.iiter).toNat = b + 1 := ⟨(m - s.iiter).toNat - 1, by omega⟩
    rw [hb]
    simp only [loop]
    by_cases ht : s.kold > s.tol
    · rw [if_pos ⟨by omega, ht⟩, if_pos ⟨by omega, ht⟩]
      simp only [Prog.bind_eq, Prog.bind_assoc]
      refine step_bind_congr fun p hp => ?_
      have e : b = (m - p.1.iiter).toNat := by omega
      rw [e]
      exact ih p.1 p.2 _ (by omega)
    · rw [if_neg fun h => ht h.2, if_neg fun h => ht h.2, Prog.ret_bind]
      dsimp only
      rw [hb]
      simp only [loop]
      rw [if_neg fun h => ht h.2]

end CGLSS

/-- **C56** (CGLS).  For any operator and any state of the solver: `run(niter=k)` followed by `run(niter=m)` with k ≤ m performs exactly the computation and
    communication of `run(niter=m)`, calls the callback with the same iterates, and ends in the same state. -/
theorem C56_cgls [RCLike K] (c : Ctx K) (op : XOp K) (s : CGLSS K) (x : XArr K) {k m : Int} (hkm : k ≤ m) :
    (s.run c op x (some k)).bind (fun q => (q.1.run c op q.2.1 (some m)).bind fun q' => .ret (q'.1, q'.2.1, q.2.2 ++ q'.2.2)) = s.run c op x (some m) := by
  have h := CGLSS.loop_loop (c := c) (op := op) hkm _ s x [] rfl
  simp only [CGLSS.run]
  rw [← h]
  congr 1
  funext q
  exact (CGLSS.loop_trace m _ q.1 q.2.1 q.2.2).symm

/-! ### with the in-place updates of the arrays and an arbitrary callback -/

section
variable {α β γ : Type}

theorem hbind_eq (p : HP K α) (f : α → HP K β) : p >>= f = HP.bind p f := rfl
theorem hret_bind (a : α) (f : α → HP K β) : HP.bind (HP.ret a) f = f a := rfl
theorem hbind_assoc (p : HP K α) (f : α → HP K β) (g : β → HP K γ) : HP.bind (HP.bind p f) g = HP.bind p fun a => HP.bind (f a) g := by
  funext h
  simp only [HP.bind, Prog.bind_assoc]
  congr 1
  funext q
  rcases q with ⟨_ | _, _⟩ <;> rfl
theorem hbind_congr {p : HP K α} {f g : α → HP K β} (h : ∀ a, f a = g a) : HP.bind p f = HP.bind p g := by rw [funext h]

end

namespace HCG
variable [RCLike K] {c : Ctx K} {op : HXOp K} {cb : XRef → HP K Unit}

theorem step_bind_congr {β : Type} {s : HCG} {x : XRef} {f g : HCG × XRef → HP K β}
    (h : ∀ p : HCG × XRef, p.1.iiter = s.iiter + 1 → f p = g p) : HP.bind (step c op s x) f = HP.bind (step c op s x) g := by
  unfold step
  simp only [hbind_eq, hbind_assoc, hret_bind]
  repeat refine hbind_congr fun _ => ?_
  exact h _ rfl

/-- more fuel than iterations left makes no difference -/
theorem loop_fuel (m : Int) : ∀ (a : Nat) (s : HCG) (x : XRef) (tr : List (XArr K)), (m - s.iiter).toNat ≤ a →
    loop c op cb m a s x tr = loop c op cb m (m - s.iiter).toNat s x tr := by
  intro a
  induction a with
  | zero => intro s x tr h; rw [Nat.le_zero.1 h]
  | succ a ih =>
    intro s x tr h
    by_cases hlt : (s.iiter : Int) < m
    · obtain ⟨b, hb⟩ : ∃ b, (m - s.iiter).toNat = b + 1 := ⟨(m - s.iiter).toNat - 1, by omega⟩
      rw [hb]
      simp only [loop]
      split_ifs with hc
      · refine step_bind_congr fun p hp => ?_
        have e : b = (m - p.1.iiter).toNat := by omega
        rw [e]
        exact hbind_congr fun v => hbind_congr fun _ => ih p.1 p.2 _ (by omega)
      · rfl
    · have e : (m - s.iiter).toNat = 0 := by omega
      rw [e]
      simp only [loop]
      rw [if_neg fun hc => hlt hc.1]

/-- the iterates are added to the trace -/
theorem loop_trace (m : Int) : ∀ (a : Nat) (s : HCG) (x : XRef) (tr : List (XArr K)),
    loop c op cb m a s x tr = HP.bind (loop c op cb m a s x []) fun q => HP.ret (q.1, q.2.1, tr ++ q.2.2) := by
  intro a
  induction a with
  | zero => intro s x tr; simp [loop, hret_bind]
  | succ a ih =>
    intro s x tr
    simp only [loop]
    split_ifs with hc
    · simp only [hbind_eq, hbind_assoc]
      refine hbind_congr fun p => hbind_congr fun v => hbind_congr fun _ => ?_
      rw [ih _ _ (tr ++ [v]), ih _ _ ([] ++ [v]), hbind_assoc]
      refine hbind_congr fun q => ?_
      simp [hret_bind]
    · simp [hret_bind]

theorem loop_loop {k m : Int} (hkm : k ≤ m) : ∀ (a : Nat) (s : HCG) (x : XRef) (tr : List (XArr K)), (k - s.iiter).toNat = a →
    HP.bind (loop c op cb k a s x tr) (fun q => loop c op cb m (m - q.1.iiter).toNat q.1 q.2.1 q.2.2) = loop c op cb m (m - s.iiter).toNat s x tr := by
  intro a
  induction a with
  | zero => intro s x tr h; rfl
  | succ a ih =>
    intro s x tr h
    obtain ⟨b, hb⟩ : ∃ b, (m - s.iiter).toNat = b + 1 := ⟨(m - s.iiter).toNat - 1, by omega⟩
    rw [hb]
    simp only [loop]
    by_cases ht : s.kold > s.tol
    · rw [if_pos ⟨by omega, ht⟩, if_pos ⟨by omega, ht⟩]
      simp only [hbind_eq, hbind_assoc]
      refine step_bind_congr fun p hp => ?_
      have e : b = (m - p.1.iiter).toNat := by omega
      rw [e]
      exact hbind_congr fun v => hbind_congr fun _ => ih p.1 p.2 _ (by omega)
    · rw [if_neg fun h => ht h.2, if_neg fun h => ht h.2, hret_bind]
      dsimp only
      rw [hb]
      simp only [loop]
      rw [if_neg fun h => ht h.2]

end HCG

/-- **C56** (CG, on the memory).  The same for the solvers with in-place updates, any operator (also one that changes its argument) and any callback: the same reads
    and writes of the memory happen, and the returned iterate is the same object. -/
theorem C56_cg_memory [RCLike K] (c : Ctx K) (op : HXOp K) (cb : XRef → HP K Unit) (s : HCG) (x : XRef) {k m : Int} (hkm : k ≤ m) :
    (do let q ← s.run c op cb x (some k)
        let q' ← q.1.run c op cb q.2.1 (some m)
        HP.ret (q'.1, q'.2.1, q.2.2 ++ q'.2.2)) = s.run c op cb x (some m) := by
  have h := HCG.loop_loop (c := c) (op := op) (cb := cb) hkm _ s x [] rfl
  simp only [HCG.run, hbind_eq]
  rw [← h]
  exact hbind_congr fun q => (HCG.loop_trace m _ q.1 q.2.1 q.2.2).symm

namespace HCGLS
variable [RCLike K] {c : Ctx K} {op : HXOp K} {cb : XRef → HP K Unit}

theorem step_bind_congr {β : Type} {s : HCGLS} {x : XRef} {f g : HCGLS × XRef → HP K β}
    (h : ∀ p : HCGLS × XRef, p.1.iiter = s.iiter + 1 → f p = g p) : HP.bind (step c op s x) f = HP.bind (step c op s x) g := by
  unfold step
  simp only [hbind_eq, hbind_assoc, hret_bind]
  repeat refine hbind_congr fun _ => ?_
  exact h _ rfl

/-- more fuel than iterations left makes no difference -/
theorem loop_fuel (m : Int) : ∀ (a : Nat) (s : HCGLS) (x : XRef) (tr : List (XArr K)), (m - s.iiter).toNat ≤ a →
    loop c op cb m a s x tr = loop c op cb m (m - s.iiter).toNat s x tr := by
  intro a
  induction a with
  | zero => intro s x tr h; rw [Nat.le_zero.1 h]
  | succ a ih =>
    intro s x tr h
    by_cases hlt : (s.iiter : Int) < m
    · obtain ⟨b, hb⟩ : ∃ b, (m - s.iiter).toNat = b + 1 := ⟨(m - s.iiter).toNat - 1, by omega⟩
      rw [hb]
      simp only [loop]
      split_ifs with hc
      · refine step_bind_congr fun p hp => ?_
        have e : b = (m - p.1.iiter).toNat := by omega
        rw [e]
        exact hbind_congr fun v => hbind_congr fun _ => ih p.1 p.2 _ (by omega)
      · rfl
    · have e : (m - s.iiter).toNat = 0 := by omega
      rw [e]
      simp only [loop]
      rw [if_neg fun hc => hlt hc.1]

/-- the iterates are added to the trace -/
theorem loop_trace (m : Int) : ∀ (a : Nat) (s : HCGLS) (x : XRef) (tr : List (XArr K)),
    loop c op cb m a s x tr = HP.bind (loop c op cb m a s x []) fun q => HP.ret (q.1, q.2.1, tr ++ q.2.2) := by
  intro a
  induction a with
  | zero => intro s x tr; simp [loop, hret_bind]
  | succ a ih =>
    intro s x tr
    simp only [loop]
    split_ifs with hc
    · simp only [hbind_eq, hbind_assoc]
      refine hbind_congr fun p => hbind_congr fun v => hbind_congr fun _ => ?_
      rw [ih _ _ (tr ++ [v]), ih _ _ ([] ++ [v]), hbind_assoc]
      refine hbind_congr fun q => ?_
      simp [hret_bind]
    · simp [hret_bind]

theorem loop_loop {k m : Int} (hkm : k ≤ m) : ∀ (a : Nat) (s : HCGLS) (x : XRef) (tr : List (XArr K)), (k - s.iiter).toNat = a →
    HP.bind (loop c op cb k a s x tr) (fun q => loop c op cb m (m - q.1.iiter).toNat q.1 q.2.1 q.2.2) = loop c op cb m (m - s.iiter).toNat s x tr := by
  intro a
  induction a with
  | zero => intro s x tr h; rfl
  | succ a ih =>
    intro s x tr h
    obtain ⟨b, hb⟩ : ∃ b, (m - s.iiter).toNat = b + 1 := ⟨(m - s.iiter).toNat - 1, by omega⟩
    rw [hb]
    simp only [loop]
    by_cases ht : s.kold > s.tol
    · rw [if_pos ⟨by omega, ht⟩, if_pos ⟨by omega, ht⟩]
      simp only [hbind_eq, hbind_assoc]
      refine step_bind_congr fun p hp => ?_
      have e : b = (m - p.1.iiter).toNat := by omega
      rw [e]
      exact hbind_congr fun v => hbind_congr fun _ => ih p.1 p.2 _ (by omega)
    · rw [if_neg fun h => ht h.2, if_neg fun h => ht h.2, hret_bind]
      dsimp only
      rw [hb]
      simp only [loop]
      rw [if_neg fun h => ht h.2]

end HCGLS

/-- **C56** (CGLS, on the memory).  The same for the solvers with in-place updates, any operator (also one that changes its argument) and any callback: the same reads
    and writes of the memory happen, and the returned iterate is the same object. -/
theorem C56_cgls_memory [RCLike K] (c : Ctx K) (op : HXOp K) (cb : XRef → HP K Unit) (s : HCGLS) (x : XRef) {k m : Int} (hkm : k ≤ m) :
    (do let q ← s.run c op cb x (some k)
        let q' ← q.1.run c op cb q.2.1 (some m)
        HP.ret (q'.1, q'.2.1, q.2.2 ++ q'.2.2)) = s.run c op cb x (some m) := by
  have h := HCGLS.loop_loop (c := c) (op := op) (cb := cb) hkm _ s x [] rfl
  simp only [HCGLS.run, hbind_eq]
  rw [← h]
  exact hbind_congr fun q => (HCGLS.loop_trace m _ q.1 q.2.1 q.2.2).symm

/-! ### consequences -/

/-- **C56** (`solve`).  `cg` with `niter = m` is `setup`, `run(niter=k)` and `run(niter=m)`; a further `run` with a smaller number of iterations does nothing. -/
theorem C56_cg_solve [RCLike K] (c : Ctx K) (op : XOp K) (y x0 : XArr K) (tol : ℝ) {k m : Int} (hkm : k ≤ m) :
    CGS.solve c op y x0 (some m) tol = (do
      let p ← CGS.setup c op y x0 (some m) tol
      let q ← CGS.run c op p.1 p.2 (some k)
      let q' ← CGS.run c op q.1 q.2.1 (some m)
      .ret (q'.2.1, q'.1.iiter, q'.1.cost, q.2.2 ++ q'.2.2)) := by
  simp only [CGS.solve, Prog.bind_eq]
  refine bind_congr' fun p => ?_
  rw [← C56_cg c op p.1 p.2 hkm, Prog.bind_assoc]
  refine bind_congr' fun q => ?_
  rw [Prog.bind_assoc]
  rfl

/-- the same for `cgls` -/
theorem C56_cgls_solve [RCLike K] (c : Ctx K) (op : XOp K) (y x0 : XArr K) (damp tol : ℝ) {k m : Int} (hkm : k ≤ m) :
    CGLSS.solve c op y x0 (some m) damp tol = (do
      let p ← CGLSS.setup c op y x0 (some m) damp tol
      let q ← CGLSS.run c op p.1 p.2 (some k)
      let q' ← CGLSS.run c op q.1 q.2.1 (some m)
      CGLSS.finalize q'.1 q'.2.1 (q.2.2 ++ q'.2.2)) := by
  simp only [CGLSS.solve, Prog.bind_eq]
  refine bind_congr' fun p => ?_
  rw [← C56_cgls c op p.1 p.2 hkm, Prog.bind_assoc]
  refine bind_congr' fun q => ?_
  rw [Prog.bind_assoc]
  rfl

/-- a `run` with a number of iterations already reached does nothing -/
theorem C56_done [RCLike K] (c : Ctx K) (op : XOp K) (x : XArr K) {m : Int} :
    (∀ s : CGS K, m ≤ s.iiter → s.run c op x (some m) = .ret (s, x, [])) ∧ ∀ s : CGLSS K, m ≤ s.iiter → s.run c op x (some m) = .ret (s, x, []) := by
  refine ⟨fun s h => ?_, fun s h => ?_⟩
  · have e : (m - s.iiter).toNat = 0 := by omega
    simp only [CGS.run, e, CGS.loop]
  · have e : (m - s.iiter).toNat = 0 := by omega
    simp only [CGLSS.run, e, CGLSS.loop]

/-- Non-vacuity: diag(2, 5) on two ranks, 1 and then 2 iterations. -/
example (J : Nat → Nat → ℝ) (r : Nat) (s : CGS ℝ) (x : XArr ℝ) :
    (s.run (env 2 J r) (Diag2.op 2 5 r) x (some 1)).bind (fun q => (q.1.run (env 2 J r) (Diag2.op 2 5 r) q.2.1 (some 2)).bind fun q' => .ret (q'.1, q'.2.1, q.2.2 ++ q'.2.2))
      = s.run (env 2 J r) (Diag2.op 2 5 r) x (some 2) := C56_cg _ _ s x (by norm_num)

end Verif

/- C55: dispatch of `*`, `@`, `**` and `.H` on arbitrary operators. -/
import Verif.Model.Dispatch
import Verif.Props.C28

namespace Verif
open NDArray

variable {K : Type} [Field K] [StarRing K] {c : Ctx K}

section
variable {A B C : MOp K (Prim K)}

theorem run_mismatch (A : MOp K (Prim K)) (b : Bool) {x : DArr K} (h : x.gshape ≠ [if b then (A.shape Prim.shape).1 else (A.shape Prim.shape).2]) :
    A.run c b x = .throw .value := by
  cases A <;> cases b <;> simp only [MOp.run, checkDim] <;> exact if_pos h

theorem run_ndim (A : MOp K (Prim K)) (b : Bool) {x : DArr K} (h : x.gshape.length ≠ 1) : A.run c b x = .throw .value :=
  run_mismatch A b fun e => h (by rw [e]; rfl)

theorem checkDim_absorb {sh : Nat × Nat} {b : Bool} {x : DArr K} {k : P K (DArr K)} (h : x.gshape ≠ [if b then sh.1 else sh.2] → k = .throw .value) :
    checkDim sh b x k = k := by
  unfold checkDim
  by_cases h1 : x.gshape ≠ [if b then sh.1 else sh.2]
  · rw [if_pos h1, h h1]
  · rw [if_neg h1]

theorem dot_array (A : MOp K (Prim K)) (x : DArr K) : A.dot c (.array x) = (A.run c false x).bind fun y => .ret (.array y) := by
  simp only [MOp.dot, Prog.bind_eq]
  split_ifs with h
  · rfl
  · rw [run_ndim A false h]; rfl

/-- the sum of two operands, if they are arrays -/
def Operand.plus (c : Ctx K) : Operand K → Operand K → P K (Operand K)
  | .array x, .array y => (x.add c y).bind fun z => .ret (.array z)
  | _, _ => .throw .type

/-- **C55** (product).  For any two operators, whatever their classes do, if `A * B` is accepted then `(A * B) * x` performs exactly the computation and
    communication of `A * (B * x)`. -/
theorem C55_mul (h : A.mul Prim.shape B = .ok C) (x : DArr K) :
    C.times c (.array x) = (B.times c (.array x)).bind fun y => A.times c y := by
  unfold MOp.mul at h
  split_ifs at h
  obtain rfl := (Except.ok.inj h).symm
  simp only [MOp.times, dot_array, Prog.bind_assoc, Prog.ret_bind, MOp.run, Prog.bind_eq]
  rw [checkDim_absorb, Prog.bind_assoc]
  intro h1
  rw [run_mismatch B false (by simpa [MOp.shape] using h1)]
  rfl

/-- **C55** (sum).  `(A + B) * x` performs exactly the computation and communication of `A * x + B * x`. -/
theorem C55_add (h : A.add Prim.shape B = .ok C) (x : DArr K) :
    C.times c (.array x) = (A.times c (.array x)).bind fun y => (B.times c (.array x)).bind fun z => y.plus c z := by
  unfold MOp.add at h
  split_ifs at h
  obtain rfl := (Except.ok.inj h).symm
  simp only [MOp.times, dot_array, Prog.bind_assoc, Prog.ret_bind, MOp.run, Prog.bind_eq, Operand.plus]
  rw [checkDim_absorb, Prog.bind_assoc]
  · simp only [Prog.bind_assoc]
  · intro h1
    rw [run_mismatch A false (by simpa [MOp.shape] using h1)]
    rfl

/-- **C55** (multiple).  `A * s` and `s * A` are the same operator, and applying it is `A * x` followed by the multiplication of the result in place. -/
theorem C55_scale (A : MOp K (Prim K)) (s : Scal K) (x : DArr K) :
    A.times c (.scalar s) = .ret (.op (.scaled A s)) ∧ A.rtimes (.scalar s) = some (.op (.scaled A s)) ∧
    (MOp.scaled A s).times c (.array x) = (A.run c false x).bind fun y => (y.scaleInPlace c s).bind fun z => .ret (.array z) := by
  refine ⟨rfl, rfl, ?_⟩
  simp only [MOp.times, dot_array, MOp.run, Prog.bind_eq]
  rw [checkDim_absorb, Prog.bind_assoc]
  · rfl
  · intro h1
    rw [run_mismatch A false (by simpa [MOp.shape] using h1)]
    rfl

/-- **C55** (`@`, `**`).  `@` is `*` except that scalars are rejected on either side; arrays that are not one-dimensional are rejected; negative powers are rejected
    and the other ones are those of C27. -/
theorem C55_matmul (A B : MOp K (Prim K)) (s : Scal K) (x : DArr K) (p : Int) :
    A.matmul c (.op B) = A.times c (.op B) ∧ A.matmul c (.array x) = A.times c (.array x) ∧
    A.matmul c (.scalar s) = .throw .value ∧ A.rmatmul (.scalar s) = .throw .value ∧
    (x.gshape.length ≠ 1 → A.times c (.array x) = .throw .value) ∧
    (p < 0 → A.ipower p = .error .value) ∧ (0 ≤ p → A.ipower p = A.power Prim.shape p.toNat) := by
  refine ⟨rfl, rfl, rfl, rfl, fun h => ?_, fun h => ?_, fun h => ?_⟩
  · simp [MOp.times, dot_array, run_ndim A false h]
  · unfold MOp.ipower
    split_ifs <;> rfl
  · unfold MOp.ipower MOp.power
    rw [if_neg (show ¬ p < 0 by omega)]

theorem conj_conj (s : Scal K) : s.conj.conj = s := by simp [Scal.conj]

/-- **C55** (adjoint).  If `A.H` is accepted, it has the transposed shape, and its `matvec` and `rmatvec` perform exactly the computation and
    communication of `rmatvec` and `matvec` of `A` — whatever the classes of the leaves do. -/
theorem C55_H {A A' : MOp K (Prim K)} (h : A.H Prim.shape = .ok A') :
    A'.shape Prim.shape = ((A.shape Prim.shape).2, (A.shape Prim.shape).1) ∧ ∀ (b : Bool) (x : DArr K), A'.run c b x = A.run c (!b) x := by
  have hadj : ∀ {A : MOp K (Prim K)}, ((MOp.adj A).shape Prim.shape = ((A.shape Prim.shape).2, (A.shape Prim.shape).1) ∧
      ∀ (b : Bool) (x : DArr K), (MOp.adj A).run c b x = A.run c (!b) x) := by
    intro A
    refine ⟨rfl, fun b x => ?_⟩
    simp only [MOp.run]
    refine checkDim_absorb fun h1 => run_mismatch A _ ?_
    cases b <;> simpa [MOp.shape] using h1
  induction A generalizing A' with
  | leaf p => obtain rfl := (Except.ok.inj h).symm; exact hadj
  | adj A ih => obtain rfl := (Except.ok.inj h).symm; exact hadj
  | trans A ih => obtain rfl := (Except.ok.inj h).symm; exact hadj
  | pow A p ih => obtain rfl := (Except.ok.inj h).symm; exact hadj
  | prod A B ihA ihB =>
    simp only [MOp.H] at h
    cases hB : B.H Prim.shape with
    | error e => rw [hB] at h; cases h
    | ok B' =>
      cases hA : A.H Prim.shape with
      | error e => rw [hB, hA] at h; cases h
      | ok A1 =>
        rw [hB, hA] at h
        change B'.mul Prim.shape A1 = .ok A' at h
        unfold MOp.mul at h
        split_ifs at h
        obtain rfl := (Except.ok.inj h).symm
        obtain ⟨sA, rA⟩ := ihA hA
        obtain ⟨sB, rB⟩ := ihB hB
        refine ⟨by simp only [MOp.shape, sA, sB], fun b x => ?_⟩
        cases b <;> simp only [MOp.run, MOp.shape, sA, sB, rA, rB, checkDim] <;> rfl
  | scaled A s ih =>
    simp only [MOp.H] at h
    cases hA : A.H Prim.shape with
    | error e => rw [hA] at h; cases h
    | ok A1 =>
      rw [hA] at h
      obtain rfl := (Except.ok.inj h).symm
      obtain ⟨sA, rA⟩ := ih hA
      refine ⟨sA, fun b x => ?_⟩
      cases b <;> simp only [MOp.run, MOp.shape, sA, rA, checkDim, conj_conj] <;> rfl
  | sum A B ihA ihB =>
    simp only [MOp.H] at h
    cases hA : A.H Prim.shape with
    | error e => rw [hA] at h; cases h
    | ok A1 =>
      cases hB : B.H Prim.shape with
      | error e => rw [hA, hB] at h; cases h
      | ok B' =>
        rw [hA, hB] at h
        change A1.add Prim.shape B' = .ok A' at h
        unfold MOp.add at h
        split_ifs at h
        obtain rfl := (Except.ok.inj h).symm
        obtain ⟨sA, rA⟩ := ihA hA
        obtain ⟨sB, rB⟩ := ihB hB
        refine ⟨sA, fun b x => ?_⟩
        cases b <;> simp only [MOp.run, MOp.shape, sA, rA, rB, checkDim] <;> rfl
  | conj A ih =>
    simp only [MOp.H] at h
    cases hA : A.H Prim.shape with
    | error e => rw [hA] at h; cases h
    | ok A1 =>
      rw [hA] at h
      obtain rfl := (Except.ok.inj h).symm
      obtain ⟨sA, rA⟩ := ih hA
      refine ⟨sA, fun b x => ?_⟩
      cases b <;> simp only [MOp.run, MOp.shape, sA, rA, checkDim] <;> rfl

/-- **C55** (`A.H.H`). -/
theorem C55_HH {A A' A'' : MOp K (Prim K)} (h : A.H Prim.shape = .ok A') (h' : A'.H Prim.shape = .ok A'') (b : Bool) (x : DArr K) :
    A''.run c b x = A.run c b x := by
  rw [(C55_H h').2, (C55_H h).2, Bool.not_not]

/-- **C55** (`.H` exists) for operators whose construction was accepted. -/
theorem C55_H_ok [CharZero K] {A : MOp K (Prim K)} (hA : Shaped Prim.shape A) : ∃ A', A.H Prim.shape = .ok A' ∧ ∀ (b : Bool) (x : DArr K), A'.run c b x = A.run c (!b) x := by
  obtain ⟨A', h, _⟩ := H_shaped Prim.shape hA
  exact ⟨A', h, (C55_H h).2⟩
end

/-! ### stacked operators -/

section
variable {A B C : SOp K (Prim K)}

theorem scheck_cases (sh : Nat × Nat) (b : Bool) (x : XArr K) : (∀ k, SOp.checkDim sh b x k = k) ∨ ∀ k, SOp.checkDim sh b x k = .throw .value := by
  unfold SOp.checkDim
  cases x with
  | one d =>
    by_cases h : d.gshape ≠ [if b then sh.1 else sh.2]
    · exact .inr fun k => if_pos h
    · exact .inl fun k => if_neg h
  | stack l =>
    dsimp only
    by_cases h : (l.any fun d => d.gshape.length ≠ ((l.map fun e => e.gshape.length).headD 0)) = true
    · exact .inr fun k => if_pos h
    · by_cases h' : (l.map fun d => d.gshape.sum).sum ≠ (if b then sh.1 else sh.2)
      · exact .inr fun k => by rw [if_neg h, if_pos h']
      · exact .inl fun k => by rw [if_neg h, if_neg h']

theorem srun_mismatch (A : SOp K (Prim K)) (b : Bool) {x : XArr K} (h : ∀ k, SOp.checkDim (A.shape Prim.shape) b x k = .throw .value) :
    A.run c b x = .throw .value := by
  cases A <;> cases b <;> simp only [SOp.run] <;> exact h _

theorem scheck_absorb {sh : Nat × Nat} {b : Bool} {x : XArr K} {k : P K (XArr K)} (h : (∀ k, SOp.checkDim sh b x k = .throw .value) → k = .throw .value) :
    SOp.checkDim sh b x k = k := by
  rcases scheck_cases sh b x with h1 | h1
  · exact h1 k
  · rw [h1, h h1]

theorem smul_ok (h : A.mul Prim.shape B = .ok C) : C = .prod A B := by
  unfold SOp.mul at h
  by_cases h1 : A.type = .vstack ∧ B.type = .vstack
  · rw [if_pos h1] at h; cases h
  · rw [if_neg h1] at h
    by_cases h2 : (A.shape Prim.shape).2 ≠ (B.shape Prim.shape).1
    · simp only [if_pos h2] at h
      split at h
      · split at h <;> cases h
      · cases h
    · simp only [if_neg h2] at h
      split at h
      · split at h
        · cases h
        · exact (Except.ok.inj h).symm
      · exact (Except.ok.inj h).symm

theorem sadd_ok (h : A.add Prim.shape B = .ok C) : C = .sum A B ∧ A.shape Prim.shape = B.shape Prim.shape := by
  unfold SOp.add at h
  split_ifs at h with h1 h2
  exact ⟨(Except.ok.inj h).symm, not_not.1 h2⟩

/-- **C55** (stacked product).  If `A * B` is accepted, its matvec performs exactly the computation and communication of the matvecs of B and A, its rmatvec
    those of the rmatvecs of A and B. -/
theorem C55_stacked_mul (h : A.mul Prim.shape B = .ok C) (x : XArr K) :
    C.run c false x = (B.run c false x).bind (fun y => A.run c false y) ∧ C.run c true x = (A.run c true x).bind (fun y => B.run c true y) := by
  obtain rfl := smul_ok h
  constructor <;> simp only [SOp.run, Prog.bind_eq]
  · exact scheck_absorb fun h1 => by rw [srun_mismatch B false h1]; rfl
  · exact scheck_absorb fun h1 => by rw [srun_mismatch A true h1]; rfl

/-- **C55** (stacked sum). -/
theorem C55_stacked_add (h : A.add Prim.shape B = .ok C) (b : Bool) (x : XArr K) :
    C.run c b x = (A.run c b x).bind fun y => (B.run c b x).bind fun z => y.add c z := by
  obtain ⟨rfl, _⟩ := sadd_ok h
  simp only [SOp.run, Prog.bind_eq]
  exact scheck_absorb fun h1 => by rw [srun_mismatch A b h1]; rfl

/-- **C55** (stacked `@`, `**`, `dot`). -/
theorem C55_stacked_matmul (A B : SOp K (Prim K)) (s : Scal K) (x : XArr K) (p : Int) :
    A.matmul c (.op B) = A.times c (.op B) ∧ A.matmul c (.array x) = A.times c (.array x) ∧ A.matmul c (.scalar s) = .throw .value ∧
    A.times c (.scalar s) = .ret (some (.op (.scaled A s))) ∧
    (p < 0 → A.ipower p = .error .value) ∧ (0 ≤ p → A.ipower p = A.power Prim.shape p.toNat) := by
  refine ⟨rfl, rfl, rfl, rfl, fun h => ?_, fun h => ?_⟩
  · unfold SOp.ipower
    split_ifs <;> rfl
  · unfold SOp.ipower SOp.power
    rw [if_neg (show ¬ p < 0 by omega)]

/-- **C55** (stacked adjoint). -/
theorem C55_stacked_H {A A' : SOp K (Prim K)} (h : A.H Prim.shape = .ok A') :
    A'.shape Prim.shape = ((A.shape Prim.shape).2, (A.shape Prim.shape).1) ∧ ∀ (b : Bool) (x : XArr K), A'.run c b x = A.run c (!b) x := by
  have hadj : ∀ {A : SOp K (Prim K)}, ((SOp.adj A).shape Prim.shape = ((A.shape Prim.shape).2, (A.shape Prim.shape).1) ∧
      ∀ (b : Bool) (x : XArr K), (SOp.adj A).run c b x = A.run c (!b) x) := by
    intro A
    refine ⟨rfl, fun b x => ?_⟩
    simp only [SOp.run]
    refine scheck_absorb fun h1 => srun_mismatch A _ fun k => ?_
    rw [← h1 k]
    cases b <;> rfl
  have hflip : ∀ (m k : Nat) (b : Bool) (x : XArr K) (q : P K (XArr K)), SOp.checkDim (k, m) b x q = SOp.checkDim (m, k) (!b) x q := by
    intro m k b x q
    cases b <;> rfl
  induction A generalizing A' with
  | vstack l => obtain rfl := (Except.ok.inj h).symm; exact hadj
  | bdiag l => obtain rfl := (Except.ok.inj h).symm; exact hadj
  | grad l => obtain rfl := (Except.ok.inj h).symm; exact hadj
  | adj A ih => obtain rfl := (Except.ok.inj h).symm; exact hadj
  | trans A ih => obtain rfl := (Except.ok.inj h).symm; exact hadj
  | pow A p ih => obtain rfl := (Except.ok.inj h).symm; exact hadj
  | prod A B ihA ihB =>
    simp only [SOp.H] at h
    cases hB : B.H Prim.shape with
    | error e => rw [hB] at h; cases h
    | ok B' =>
      cases hA : A.H Prim.shape with
      | error e => rw [hB, hA] at h; cases h
      | ok A1 =>
        rw [hB, hA] at h
        obtain rfl := smul_ok (show B'.mul Prim.shape A1 = .ok A' from h)
        obtain ⟨sA, rA⟩ := ihA hA
        obtain ⟨sB, rB⟩ := ihB hB
        refine ⟨by simp only [SOp.shape, sA, sB], fun b x => ?_⟩
        cases b <;> simp only [SOp.run, SOp.shape, sA, sB, rA, rB] <;> exact hflip ..
  | scaled A s ih =>
    simp only [SOp.H] at h
    cases hA : A.H Prim.shape with
    | error e => rw [hA] at h; cases h
    | ok A1 =>
      rw [hA] at h
      obtain rfl := (Except.ok.inj h).symm
      obtain ⟨sA, rA⟩ := ih hA
      refine ⟨sA, fun b x => ?_⟩
      cases b <;> simp only [SOp.run, SOp.shape, sA, rA, conj_conj] <;> exact hflip ..
  | sum A B ihA ihB =>
    simp only [SOp.H] at h
    cases hA : A.H Prim.shape with
    | error e => rw [hA] at h; cases h
    | ok A1 =>
      cases hB : B.H Prim.shape with
      | error e => rw [hA, hB] at h; cases h
      | ok B' =>
        rw [hA, hB] at h
        obtain ⟨rfl, _⟩ := sadd_ok (show A1.add Prim.shape B' = .ok A' from h)
        obtain ⟨sA, rA⟩ := ihA hA
        obtain ⟨sB, rB⟩ := ihB hB
        refine ⟨sA, fun b x => ?_⟩
        cases b <;> simp only [SOp.run, SOp.shape, sA, rA, rB] <;> exact hflip ..
  | conj A ih =>
    simp only [SOp.H] at h
    cases hA : A.H Prim.shape with
    | error e => rw [hA] at h; cases h
    | ok A1 =>
      rw [hA] at h
      obtain rfl := (Except.ok.inj h).symm
      obtain ⟨sA, rA⟩ := ih hA
      refine ⟨sA, fun b x => ?_⟩
      cases b <;> simp only [SOp.run, SOp.shape, sA, rA] <;> exact hflip ..

end

/-! ### Non-vacuity -/

/-- diag(2, 5) on two ranks: `A * A.H`, `A + A`, `(A * A).H` and the stacked `V.H * V`, `V + V` with V = [A; A] are accepted. -/
example (r : Nat) :
    let A : MOp ℚ (Prim ℚ) := .leaf (bdPrim 2 dgOps none .real r)
    let V : SOp ℚ (Prim ℚ) := .vstack [A, A]
    A.mul Prim.shape (.adj A) = .ok (.prod A (.adj A)) ∧ A.add Prim.shape A = .ok (.sum A A) ∧ (MOp.prod A A).H Prim.shape = .ok (.prod (.adj A) (.adj A)) ∧
    Shaped Prim.shape (.prod A A) ∧
    (SOp.adj V).mul Prim.shape V = .ok (.prod (.adj V) V) ∧ V.add Prim.shape V = .ok (.sum V V) ∧ (SOp.sum V V).H Prim.shape = .ok (.sum (.adj V) (.adj V)) := by
  have e : ∀ r, (bdPrim 2 dgOps none .real r).rows = 2 ∧ (bdPrim 2 dgOps none .real r).cols = 2 := fun _ => ⟨rfl, rfl⟩
  simp [MOp.mul, MOp.add, MOp.H, MOp.shape, Shaped, SOp.mul, SOp.add, SOp.H, SOp.shape, SOp.vshape, SOp.type, e r, bind, Except.bind]

end Verif

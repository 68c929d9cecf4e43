/- C54: serial operators wrapped as distributed ones, on replicated vectors. -/
import Verif.Model.Dispatch
import Verif.Proofs.MDC
import Verif.Spec.Examples

namespace Verif
open NDArray

variable {K ι : Type} [Field K] [StarRing K] [CharZero K]

/-- the serial operators as leaves -/
def serialLeaves (o : ι → LOp K) : Leaves K ι := ⟨fun i => ((o i).rows, (o i).cols), fun i b => (o i).fn b⟩

/-- the scalars in the expression are real if the operators are -/
def ScalOk (dt : DType) : MOp K ι → Prop
  | .leaf _ => True
  | .adj A | .trans A | .pow A _ | .conj A => ScalOk dt A
  | .prod A B | .sum A B => ScalOk dt A ∧ ScalOk dt B
  | .scaled A s => ScalOk dt A ∧ (dt = .real → s.dtype = .real ∧ star s.val = s.val)

theorem wrap_typed {o : ι → LOp K} {dt : DType} (hdt : ∀ i, (o i).dtype = dt) (hok : ∀ i b, (o i).Ok b dt dt) {n : Nat} {J : Nat → Nat → K}
    {part : Partition} (hp : part.isBroadcast = true) {e : MOp K ι} (he : Shaped (serialLeaves o).sh e) (hs : ScalOk dt e) (b : Bool) :
    Typed (serialLeaves o) n J (fun i _ => wrap (o i)) b e ⟨.all (dimOf (e.shape (serialLeaves o).sh) b) part, dt⟩
      ⟨.all (dimOf (e.shape (serialLeaves o).sh) (!b)) part, dt⟩ := by
  induction e generalizing b with
  | leaf i =>
    have hin : ∀ b, (o i).inDim b = dimOf ((serialLeaves o).sh i) b := fun b => by cases b <;> rfl
    refine ⟨fun _ _ => rfl, all_wf hp, all_wf hp, rfl, rfl, ?_⟩
    have h := wrapMv_computes (n := n) (J := J) (o := o i) (b := b) (X := .all (dimOf ((serialLeaves o).sh i) b) part) (dx := dt)
      (by rw [hdt i]; exact hok i b) (all_wf hp) hp (by rw [hin]; rfl)
    rw [hdt i, LOp.outDim, hin] at h
    cases b <;> exact h
  | adj A ih =>
    have h := ih he hs (!b)
    have e : ∀ b, dimOf ((MOp.adj A).shape (serialLeaves o).sh) b = dimOf (A.shape (serialLeaves o).sh) (!b) := fun b => by cases b <;> rfl
    rw [e b, e (!b)]
    exact h
  | trans A ih =>
    have h := ih he hs (!b)
    have e : ∀ b, dimOf ((MOp.trans A).shape (serialLeaves o).sh) b = dimOf (A.shape (serialLeaves o).sh) (!b) := fun b => by cases b <;> rfl
    rw [e b, e (!b)]
    exact h
  | prod A B ihA ihB =>
    obtain ⟨hA, hB, hAB⟩ := he
    cases b with
    | false =>
      have e1 : dimOf (A.shape (serialLeaves o).sh) false = dimOf (B.shape (serialLeaves o).sh) true := hAB
      have h1 := ihA hA hs.1 false
      rw [e1] at h1
      exact ⟨_, ihB hB hs.2 false, h1⟩
    | true =>
      have e1 : dimOf (B.shape (serialLeaves o).sh) true = dimOf (A.shape (serialLeaves o).sh) false := hAB.symm
      have h1 := ihB hB hs.2 true
      rw [e1] at h1
      exact ⟨_, ihA hA hs.1 true, h1⟩
  | scaled A s ih => exact ⟨ih he hs.1 b, hs.2⟩
  | sum A B ihA ihB =>
    obtain ⟨hA, hB, hAB⟩ := he
    have h1 := ihB hB hs.2 b
    rw [← hAB] at h1
    exact ⟨ihA hA hs.1 b, h1⟩
  | pow A p ih =>
    obtain ⟨hA, hsq⟩ := he
    have h1 := ih hA hs b
    have e : ∀ b, dimOf ((MOp.pow A p).shape (serialLeaves o).sh) b = dimOf (A.shape (serialLeaves o).sh) true := fun b => by
      cases b
      · exact hsq.symm
      · rfl
    have e' : ∀ b, dimOf (A.shape (serialLeaves o).sh) b = dimOf (A.shape (serialLeaves o).sh) true := fun b => by
      cases b
      · exact hsq.symm
      · rfl
    rw [e' b, e' (!b)] at h1
    rw [e b, e (!b)]
    exact ⟨rfl, h1⟩
  | conj A ih => exact ih he hs b

/-- **C54**.  Let `e` be any expression (products, sums, multiples, powers, adjoints, transposes, conjugates, of any depth) of operators
    `MPILinearOperator(o i)` of the same dtype, accepted by the shape checks.  `matvec` (`b = false`) and `rmatvec` (`b = true`), given a vector that
    every rank holds in full, leave on every rank, in all executions and for any number of ranks, the whole of the vector that the same
    expression of the serial operators gives. -/
theorem C54 {o : ι → LOp K} {dt : DType} (hdt : ∀ i, (o i).dtype = dt) (hok : ∀ i b, (o i).Ok b dt dt) {e : MOp K ι}
    (he : Shaped (serialLeaves o).sh e) (hs : ScalOk dt e) (n : Nat) (J : Nat → Nat → K) {part : Partition} (hp : part.isBroadcast = true) (b : Bool)
    {d : List K} (hd : d.length = dimOf (e.shape (serialLeaves o).sh) b) (hf : FitsL dt d) :
    ∃ y : Nat → DArr K,
      Always n (fun r => MOp.run (env n J r) b (e.map fun i => wrap (o i)) (VSpace.vec ⟨.all d.length part, dt⟩ n d r)) (fun r => .ok (y r)) ∧
      ∀ r < n, (y r).part = part ∧ (y r).gshape = [dimOf (e.shape (serialLeaves o).sh) (!b)] ∧
        (y r).larr = ⟨[dimOf (e.shape (serialLeaves o).sh) (!b)], dt, den (serialLeaves o) b e d⟩ := by
  have hm : VSpace.Mem ⟨.all d.length part, dt⟩ d := ⟨by simp [Layout.all], hf⟩
  have ht := wrap_typed hdt hok (n := n) (J := J) hp he hs b
  rw [← hd] at ht
  refine ⟨_, (typed_computes ht d hm).2, fun r _ => ⟨rfl, rfl, ?_⟩⟩
  have hl := lshape_bcast (L := .all (dimOf (e.shape (serialLeaves o).sh) (!b)) part) hp r
  simp only [VSpace.vec, Layout.fam, hl]
  simp [Layout.piece, Layout.all, hp]

/-- **C54** (`asmpilinearoperator`).  A distributed operator is returned as it is, a serial one is wrapped; matvec and rmatvec of a wrapped operator reject
    vectors of another global shape. -/
theorem C54_as (o : LOp K) (A : MOp K (Prim K)) (c : Ctx K) (x : DArr K) (b : Bool) :
    asMPI (.mpi A) = A ∧ (asMPI (.serial o)).shape Prim.shape = (o.rows, o.cols) ∧
    (x.gshape ≠ [o.inDim b] → MOp.run c b (asMPI (.serial o)) x = .throw .value) := by
  refine ⟨rfl, rfl, fun h => ?_⟩
  cases b <;> exact if_pos h

/-- Non-vacuity: 2 (A.H A) + A.H A with A = [1 2], on three ranks. -/
example (J : Nat → Nat → ℚ) : ∃ y : Nat → DArr ℚ,
    Always 3 (fun r => MOp.run (env 3 J r) false (.sum (.scaled (.prod (.adj (.leaf (wrap (.row [1, 2])))) (.leaf (wrap (.row [1, 2])))) ⟨.real, 2⟩)
      (.prod (.adj (.leaf (wrap (.row [1, 2])))) (.leaf (wrap (.row [1, 2]))))) (VSpace.vec ⟨.all 2 .broadcast, .real⟩ 3 [1, 10] r)) (fun r => .ok (y r)) ∧
    ∀ r < 3, (y r).larr.data = [63, 126] := by
  obtain ⟨y, h1, h2⟩ := C54 (ι := Unit) (o := fun _ => LOp.row [1, 2]) (dt := .real) (fun _ => rfl) (fun _ b => LOp.row_ok _ b _ _)
    (e := .sum (.scaled (.prod (.adj (.leaf ())) (.leaf ())) ⟨.real, 2⟩) (.prod (.adj (.leaf ())) (.leaf ())))
    (by simp [Shaped, serialLeaves, MOp.shape, LOp.row]) (by simp [ScalOk]) 3 J (part := .broadcast) rfl false (d := [1, 10]) (by decide) (fits_rat _ _)
  refine ⟨y, h1, fun r hr => ?_⟩
  rw [(h2 r hr).2.2]
  decide +kernel

/-- **The claim is false for scattered vectors**: with A = [1 2] and (1, 10) scattered over two ranks, `MPILinearOperator(A)` passes the local part to the
    serial operator, which raises ValueError on both ranks. -/
theorem C54_violated_scatter :
    Always 2 (fun r => MOp.run (env 2 (fun _ _ => 0) r) false (asMPI (.serial (.row [1, 2]))) (VSpace.vec ⟨.lin 2 (fun _ => 1), .real⟩ 2 [1, 10] r))
      (fun _ => .error .value) := by
  refine Runs.always ((Runs.throw fun _ => Err.value).congr (fun r hr => ?_) fun _ _ => rfl)
  match r, hr with
  | 0, _ => rfl
  | 1, _ => rfl

end Verif

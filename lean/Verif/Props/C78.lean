/-
  C78: with arithmetic that rounds every operation, the results of reductions over the ranks are the exact ones up to small errors, for all numbers of ranks and all layouts.
-/
import Verif.Proofs.Rounding
import Verif.Proofs.BinaryFloat
import Verif.Proofs.BlockSolvers
import Verif.Props.C77

namespace Verif
open NDArray

variable {K : Type} [RCLike K] {u : ℝ}

section
variable {A : Arith K} {n : Nat} {J : Nat → Nat → K} {L : Layout} {x y : SVec K} {m : Nat}

/-- `dot`: all ranks get the same number.  It differs from the sum of the products by at most `(1 + u) ^ (m + n - 1) - 1` times the sum of their absolute values, where no rank contributes more than
    `m` products. -/
theorem C78_dot (hA : Rounding A u) (hL : L.WF n) (hm : L.mask = none) (hn : 0 < n) (hx : x.v.length = L.gshape.prod) (hy : y.v.length = L.gshape.prod)
    (sx : L.part.isBroadcast = true → x.Stored A) (sy : L.part.isBroadcast = true → y.Stored A) (hb : ∀ q < n, (x.block A L n q).length ≤ m) :
    ∃ v : K, Always n (fun r => A.ddot (env n J r) (x.dpart L n r) (y.dpart L n r)) (fun _ => .ok v) ∧
      ‖v - ((x.v.zip y.v).map fun p => p.1 * p.2).sum‖ ≤ ((1 + u) ^ (m + n - 1) - 1) * ((x.v.zip y.v).map fun p => ‖p.1 * p.2‖).sum := by
  refine ⟨x.blockDot A L n y, (b_dot A hL hm hx hy).always, ?_⟩
  obtain ⟨h1, h2, h3⟩ := blockLayout_wf hn hL
  have hl : ∀ q < n, (x.block A L n q).length = (y.block A L n q).length := fun q hq => (length_block A hL hx hq).trans (length_block A hL hy hq).symm
  have k := hA.sum_near (n := n) (m := m) (a := fun q => A.dot (x.block A L n q) (y.block A L n q)) fun q hq => hA.dot_near (hl q hq) (hb q hq)
  have e : ∀ q, ((blockLayout L n).piece x.v q).zip ((blockLayout L n).piece y.v q) = (blockLayout L n).piece (x.v.zip y.v) q := fun q => (a_piece_zip Prod.mk (hx.trans hy.symm) q).symm
  have hp : ((List.range n).flatMap fun q => (x.block A L n q).zip (y.block A L n q)).Perm (x.v.zip y.v) := by
    simp only [block_eq A x sx, block_eq A y sy, e]
    exact a_perm_pieces h1 h2 (by rw [h3, List.length_zip, hx, hy, min_self])
  have s1 : ∀ {M : Type} [AddCommMonoid M] (f : K × K → M), ((List.range n).map fun q => (((x.block A L n q).zip (y.block A L n q)).map f).sum).sum = ((x.v.zip y.v).map f).sum := by
    intro M _ f
    rw [← (hp.map f).sum_eq, List.map_flatMap, List.flatMap_def, List.sum_flatten, List.map_map]; rfl
  rw [s1, s1] at k
  have := k.err
  rwa [show m + (n - 1) = m + n - 1 by omega] at this

/-- `norm`: all ranks get the Euclidean norm up to a relative error of at most `(1 + u) ^ (m + n) - 1` -/
theorem C78_norm (hA : Rounding A u) (hL : L.WF n) (hm : L.mask = none) (hn : 0 < n) (hx : x.v.length = L.gshape.prod) (sx : L.part.isBroadcast = true → x.Stored A)
    (hb : ∀ q < n, (x.block A L n q).length ≤ m) :
    ∃ v : K, Always n (fun r => A.dnorm (env n J r) (x.dpart L n r)) (fun _ => .ok v) ∧
      ‖v - ((√(x.v.map fun a => ‖a‖ ^ 2).sum : ℝ) : K)‖ ≤ ((1 + u) ^ (m + n) - 1) * √(x.v.map fun a => ‖a‖ ^ 2).sum := by
  refine ⟨x.blockNorm A L n, (b_norm A hL hm hx).always, ?_⟩
  obtain ⟨h1, h2, h3⟩ := blockLayout_wf hn hL
  have k := hA.sum_near (n := n) (m := m) (a := fun q => A.sumSq (x.block A L n q)) fun q hq => hA.sumSq_near (hb q hq)
  have hp : ((List.range n).flatMap fun q => x.block A L n q).Perm x.v := by
    simp only [block_eq A x sx]
    exact a_perm_pieces h1 h2 (by rw [h3, hx])
  have s1 : ∀ {M : Type} [AddCommMonoid M] (f : K → M), ((List.range n).map fun q => ((x.block A L n q).map f).sum).sum = (x.v.map f).sum := by
    intro M _ f
    rw [← (hp.map f).sum_eq, List.map_flatMap, List.flatMap_def, List.sum_flatten, List.map_map]; rfl
  rw [s1, s1] at k
  have e : (x.v.map fun a => ((‖a‖ ^ 2 : ℝ) : K)).sum = (((x.v.map fun a => ‖a‖ ^ 2).sum : ℝ) : K) := by
    induction x.v with
    | nil => simp
    | cons a l ih => simp only [List.map_cons, List.sum_cons, ih]; push_cast; rfl
  rw [e] at k
  have := root_near hA k
  rwa [show m + (n - 1) + 1 = m + n by omega] at this

end

section
variable {A : Arith K} {n₁ n₂ : Nat} {J₁ J₂ : Nat → Nat → K} {L₁ L₂ : Layout} {x y : SVec K} {m₁ m₂ : Nat}

theorem both_near {a b c : K} {ε δ s : ℝ} (h1 : ‖a - c‖ ≤ ε * s) (h2 : ‖b - c‖ ≤ δ * s) : ‖a - b‖ ≤ (ε + δ) * s := by
  have h3 := norm_sub_le_norm_sub_add_norm_sub a c b
  rw [norm_sub_rev c b] at h3
  linarith

/-- so dot products on different numbers of ranks or with different layouts are close to each other -/
theorem C78_dot_ranks (hA : Rounding A u) (hL₁ : L₁.WF n₁) (hL₂ : L₂.WF n₂) (hm₁ : L₁.mask = none) (hm₂ : L₂.mask = none) (hn₁ : 0 < n₁) (hn₂ : 0 < n₂)
    (hx₁ : x.v.length = L₁.gshape.prod) (hx₂ : x.v.length = L₂.gshape.prod) (hy : y.v.length = x.v.length)
    (sx : L₁.part.isBroadcast = true ∨ L₂.part.isBroadcast = true → x.Stored A) (sy : L₁.part.isBroadcast = true ∨ L₂.part.isBroadcast = true → y.Stored A)
    (hb₁ : ∀ q < n₁, (x.block A L₁ n₁ q).length ≤ m₁) (hb₂ : ∀ q < n₂, (x.block A L₂ n₂ q).length ≤ m₂) :
    ∃ v₁ v₂ : K, Always n₁ (fun r => A.ddot (env n₁ J₁ r) (x.dpart L₁ n₁ r) (y.dpart L₁ n₁ r)) (fun _ => .ok v₁) ∧
      Always n₂ (fun r => A.ddot (env n₂ J₂ r) (x.dpart L₂ n₂ r) (y.dpart L₂ n₂ r)) (fun _ => .ok v₂) ∧
      ‖v₁ - v₂‖ ≤ (((1 + u) ^ (m₁ + n₁ - 1) - 1) + ((1 + u) ^ (m₂ + n₂ - 1) - 1)) * ((x.v.zip y.v).map fun p => ‖p.1 * p.2‖).sum := by
  obtain ⟨v₁, a1, a2⟩ := C78_dot (J := J₁) hA hL₁ hm₁ hn₁ hx₁ (hy.trans hx₁) (fun h => sx (.inl h)) (fun h => sy (.inl h)) hb₁
  obtain ⟨v₂, b1, b2⟩ := C78_dot (J := J₂) hA hL₂ hm₂ hn₂ hx₂ (hy.trans hx₂) (fun h => sx (.inr h)) (fun h => sy (.inr h)) hb₂
  exact ⟨v₁, v₂, a1, b1, both_near a2 b2⟩

/-- and so are norms -/
theorem C78_norm_ranks (hA : Rounding A u) (hL₁ : L₁.WF n₁) (hL₂ : L₂.WF n₂) (hm₁ : L₁.mask = none) (hm₂ : L₂.mask = none) (hn₁ : 0 < n₁) (hn₂ : 0 < n₂)
    (hx₁ : x.v.length = L₁.gshape.prod) (hx₂ : x.v.length = L₂.gshape.prod) (sx : L₁.part.isBroadcast = true ∨ L₂.part.isBroadcast = true → x.Stored A)
    (hb₁ : ∀ q < n₁, (x.block A L₁ n₁ q).length ≤ m₁) (hb₂ : ∀ q < n₂, (x.block A L₂ n₂ q).length ≤ m₂) :
    ∃ v₁ v₂ : K, Always n₁ (fun r => A.dnorm (env n₁ J₁ r) (x.dpart L₁ n₁ r)) (fun _ => .ok v₁) ∧ Always n₂ (fun r => A.dnorm (env n₂ J₂ r) (x.dpart L₂ n₂ r)) (fun _ => .ok v₂) ∧
      ‖v₁ - v₂‖ ≤ (((1 + u) ^ (m₁ + n₁) - 1) + ((1 + u) ^ (m₂ + n₂) - 1)) * √(x.v.map fun a => ‖a‖ ^ 2).sum := by
  obtain ⟨v₁, a1, a2⟩ := C78_norm (J := J₁) hA hL₁ hm₁ hn₁ hx₁ (fun h => sx (.inl h)) hb₁
  obtain ⟨v₂, b1, b2⟩ := C78_norm (J := J₂) hA hL₂ hm₂ hn₂ hx₂ (fun h => sx (.inr h)) hb₂
  exact ⟨v₁, v₂, a1, b1, both_near a2 b2⟩

end

/-! ### sums of products -/

section
variable {A : OpArith K} {n : Nat} {J : Nat → Nat → K} {ops : Nat → List (FOp K)} {dtype : Option DType} {dt dx : DType} {N k w : Nat} {b : Bool} {X : Layout} {M : FOp K → Nat → Nat → K} {x : SVec K}

theorem copy_stored {A : Arith K} (hx : x.Stored A) : (x.copy A).v = x.v := by
  simp only [SVec.copy, SVec.map, id]
  conv_rhs => rw [← List.map_id x.v]
  exact List.map_congr_left hx

/-- The adjoint of `MPIVStack` (`b = true`) and the product with `MPIHStack` (`b = false`).  The operators multiply by their matrices, up to rounding errors of `k` operations; each rank has at
    most `w` of them.  All ranks get vectors whose entries are those of the product with all matrices side by side, up to rounding errors of `k + w + n - 1` operations. -/
theorem C78_stack (hA : OpRounding A u) (hd : Stores A.toArith u dt) (hn : 0 < n) (hne : ∀ r < n, ops r ≠ []) (hdt : ∀ r < n, fopsDType (ops r) dtype = .ok dt) (hw : ∀ r < n, (ops r).length ≤ w)
    (ho : ∀ o ∈ allFOps n ops, o.Multiplies u k b x.dt (M o) ∧ o.inDim (!b) = N) (hs : ∀ o ∈ allFOps n ops, o.Sized b) (hX : Feeds n (fopIn b (allFOps n ops)) (fun r => fopIn b (ops r)) X)
    (hm : b = false → X.mask = none) (hx : x.v.length = X.gshape.prod) (sx : x.Stored A.toArith) :
    ∃ y : SVec K, y.dt = dt ∧ y.v.length = N ∧
      Always n (fun r => do
        let op ← if b then A.mkVStack (env n J r) (ops r) dtype else A.mkHStack (env n J r) (ops r) dtype
        op.prod b (env n J r) (x.dpart X n r)) (fun r => .ok (y.dpart (.all N) n r)) ∧
      ∀ j < N, SumUpTo u (k + w + n - 1) (sideTerms M b j (allFOps n ops) x.v) (y.v.getD j 0) := by
  have hdim : ∀ o ∈ allFOps n ops, o.inDim (!b) = N := fun o h => (ho o h).2
  have hgX : X.gshape.prod = fopIn b (allFOps n ops) := by rw [hX.shape]; simp
  refine ⟨A.sumSlices dt b N ((List.range n).map ops) x, rfl, by simp [OpArith.sumSlices], ?_, fun j hj => ?_⟩
  · cases b with
    | true =>
      obtain ⟨op, h1, -, -, h4⟩ := C73_vstack A (J := J) hn hne hdt hdim
      exact (Runs.bind_ok h1.runs ((h4 x.dt X hs hX).run hx rfl)).always
    | false =>
      obtain ⟨op, h1, -, h3, -⟩ := C73_hstack A (J := J) hn hne hdt hdim
      exact (Runs.bind_ok h1.runs ((h3 x.dt X (hm rfl) hs hX).run hx rfl)).always
  · have hf : ((List.range n).map ops).flatten = allFOps n ops := by rw [allFOps, List.flatMap_def]
    have h := sumArr_approx (M := M) (b := b) (t := x.dt) (k := k) (N := N) (j := j) hA (gs := (List.range n).map ops) (v := x.v) (w := w) (by rw [hf, hx, hgX])
      (fun g hg => by obtain ⟨r, hr, rfl⟩ := List.mem_map.1 hg; exact hw r (List.mem_range.1 hr))
      (fun g hg o h => by
        obtain ⟨r, hr, rfl⟩ := List.mem_map.1 hg
        exact ho o (by rw [← hf]; exact List.mem_flatten.2 ⟨_, hg, h⟩)) hj
    have h2 := h.round hA.nonneg (hd _)
    rw [hf, List.length_map, List.length_range] at h2
    have hw1 : 1 ≤ w := (List.length_pos_of_ne_nil (hne 0 hn)).trans_le (hw 0 hn)
    have h3 := (h2.weaken hA.nonneg (l := k + w + n - 1) (by omega)).err
    unfold SumUpTo
    refine le_trans (le_of_eq ?_) h3
    congr 2
    simp [OpArith.sumSlices, List.getD_eq_getElem?_getD, hj, copy_stored sx]

/-- so the results on different numbers of ranks, with the same operators in the same order, are close to each other -/
theorem C78_stack_ranks {n₁ n₂ w₁ w₂ : Nat} {J₁ J₂ : Nat → Nat → K} {ops₁ ops₂ : Nat → List (FOp K)} {X₁ X₂ : Layout} {os : List (FOp K)} (hA : OpRounding A u) (hd : Stores A.toArith u dt)
    (hn₁ : 0 < n₁) (hn₂ : 0 < n₂) (e₁ : allFOps n₁ ops₁ = os) (e₂ : allFOps n₂ ops₂ = os) (hne₁ : ∀ r < n₁, ops₁ r ≠ []) (hne₂ : ∀ r < n₂, ops₂ r ≠ [])
    (hdt₁ : ∀ r < n₁, fopsDType (ops₁ r) dtype = .ok dt) (hdt₂ : ∀ r < n₂, fopsDType (ops₂ r) dtype = .ok dt) (hw₁ : ∀ r < n₁, (ops₁ r).length ≤ w₁) (hw₂ : ∀ r < n₂, (ops₂ r).length ≤ w₂)
    (ho : ∀ o ∈ os, o.Multiplies u k b x.dt (M o) ∧ o.inDim (!b) = N) (hs : ∀ o ∈ os, o.Sized b) (hX₁ : Feeds n₁ (fopIn b os) (fun r => fopIn b (ops₁ r)) X₁)
    (hX₂ : Feeds n₂ (fopIn b os) (fun r => fopIn b (ops₂ r)) X₂) (hm : b = false → X₁.mask = none ∧ X₂.mask = none) (hx : x.v.length = fopIn b os) (sx : x.Stored A.toArith) :
    let prog (n : Nat) (J : Nat → Nat → K) (ops : Nat → List (FOp K)) (X : Layout) (r : Nat) : P K (DArr K) := do
      let op ← if b then A.mkVStack (env n J r) (ops r) dtype else A.mkHStack (env n J r) (ops r) dtype
      op.prod b (env n J r) (x.dpart X n r)
    ∃ y₁ y₂ : SVec K, Always n₁ (prog n₁ J₁ ops₁ X₁) (fun r => .ok (y₁.dpart (.all N) n₁ r)) ∧ Always n₂ (prog n₂ J₂ ops₂ X₂) (fun r => .ok (y₂.dpart (.all N) n₂ r)) ∧
      ∀ j < N, ‖y₁.v.getD j 0 - y₂.v.getD j 0‖ ≤ (errBound u (k + w₁ + n₁ - 1) + errBound u (k + w₂ + n₂ - 1)) * ((sideTerms M b j os x.v).map (‖·‖)).sum := by
  intro prog
  obtain ⟨y₁, -, -, a1, a2⟩ := C78_stack (J := J₁) (w := w₁) hA hd hn₁ hne₁ hdt₁ hw₁ (e₁ ▸ ho) (e₁ ▸ hs) (e₁ ▸ hX₁) (fun h => (hm h).1) (by rw [hx, hX₁.shape]; simp) sx
  obtain ⟨y₂, -, -, b1, b2⟩ := C78_stack (J := J₂) (w := w₂) hA hd hn₂ hne₂ hdt₂ hw₂ (e₂ ▸ ho) (e₂ ▸ hs) (e₂ ▸ hX₂) (fun h => (hm h).2) (by rw [hx, hX₂.shape]; simp) sx
  rw [e₁] at a2
  rw [e₂] at b2
  exact ⟨y₁, y₂, a1, b1, fun j hj => both_near (a2 j hj) (b2 j hj)⟩

end

/-! ### derivatives -/

section
variable {A : ArrArith K} {n N k : Nat} {J : Nat → Nat → K} {X : Layout} {x : SVec K} {dt : DType} {edge : Bool} {s s2 : K} {rest : List Nat} {M c : ℝ}

theorem received_stored (sx : x.Stored A.toArith) : (A.received X x).v = x.v := by
  unfold ArrArith.received
  have h : x.copy A.toArith = x := by
    have := copy_stored sx
    cases x
    simp only [SVec.copy, SVec.map] at this ⊢
    rw [this]
  split_ifs <;> simp [h]

/-- from the columns to the array -/
theorem along_approx (hA : ArrRounding A u) (hd : Stores A.toArith u dt) {E D : (Nat → K) → Nat → K} (hE : ∀ v : Nat → K, (∀ i, ‖v i‖ ≤ M) → ∀ p < N, Approx u k (E v p) (D v p / s) c)
    (sx : x.Stored A.toArith) (hM : ∀ a ∈ x.v, ‖a‖ ≤ M) (hM0 : 0 ≤ M) {i : Nat} (hi : i < N * rest.prod) :
    ‖(A.along dt N rest E (A.received X x)).v.getD i 0 - (alongRows D s N rest.prod x.v).getD i 0‖ ≤ errBound u (k + 1) * c := by
  have hw : 0 < rest.prod := Nat.pos_of_ne_zero fun h => by rw [h] at hi; simp at hi
  have hp : i / rest.prod < N := Nat.div_lt_of_lt_mul (by rwa [Nat.mul_comm] at hi)
  have hb : ∀ q, ‖x.v.getD q 0‖ ≤ M := fun q => by
    by_cases hq : q < x.v.length
    · rw [List.getD_eq_getElem?_getD, List.getElem?_eq_getElem hq]
      exact hM _ (List.getElem_mem hq)
    · rw [List.getD_eq_getElem?_getD, List.getElem?_eq_none (by omega)]
      simpa using hM0
  have h := hE (fun q => x.v.getD (q * rest.prod + i % rest.prod) 0) (fun q => hb _) _ hp
  have e1 : (alongRows D s N rest.prod x.v).getD i 0 = D (fun q => x.v.getD (q * rest.prod + i % rest.prod) 0) (i / rest.prod) / s := by
    simp [alongRows, tab, entry, List.getD_eq_getElem?_getD, hi]
  have e2 : (A.along dt N rest E (A.received X x)).v.getD i 0 =
      (fun y => if rest = [] then y else A.cast dt y) (E (fun q => x.v.getD (q * rest.prod + i % rest.prod) 0) (i / rest.prod)) := by
    simp [ArrArith.along, tab, List.getD_eq_getElem?_getD, hi, received_stored sx, hA.zero]
  rw [e1, e2]
  show ‖(if rest = [] then _ else _) - _‖ ≤ _
  split_ifs
  · exact (h.weaken hA.nonneg (Nat.le_succ _)).err
  · exact (ap_cast hA hd h).err

/-- `MPIFirstDerivative`: the entries are those of the exact difference quotients up to errors of 10 operations on numbers of at most this size, for all numbers of ranks -/
theorem C78_first (hA : ArrRounding A u) (hd : Stores A.toArith u dt) (kd : FDKind) (hn : 0 < n) (hroom : fdRoom kd edge n N) (hN : edge = true → 2 ≤ N) (hX : Rowable n N rest X)
    (hx : x.v.length = X.gshape.prod) (sx : x.Stored A.toArith) (hM : ∀ a ∈ x.v, ‖a‖ ≤ M) (hM0 : 0 ≤ M) (hs : s ≠ 0) :
    ∃ y : SVec K, y.dt = dt ∧ y.v.length = N * rest.prod ∧
      Always n (fun r => (A.firstDerivative kd ⟨N :: rest, s, edge, dt⟩).mv (env n J r) (x.part X n r)) (fun r => .ok (y.part (.flat n N rest) n r)) ∧
      ∀ i < N * rest.prod, ‖y.v.getD i 0 - (alongRows (fdAt kd edge N) s N rest.prod x.v).getD i 0‖ ≤ ((1 + u) ^ 10 - 1) * (2 * M / ‖s‖) :=
  ⟨_, rfl, by simp [ArrArith.along, tab], C72_first A kd hn hroom hX hx, fun _ hi => along_approx hA hd (fun _ hv _ hp => fdEntry_approx hA hd kd hs hv hp hN) sx hM hM0 hi⟩

/-- the adjoint -/
theorem C78_first_adj (hA : ArrRounding A u) (hd : Stores A.toArith u dt) (kd : FDKind) (hn : 0 < n) (hroom : fdRoomAdj kd edge n N) (hdt : dt = .real → x.dt = .real) (hX : Rowable n N rest X)
    (hx : x.v.length = X.gshape.prod) (sx : x.Stored A.toArith) (hM : ∀ a ∈ x.v, ‖a‖ ≤ M) (hM0 : 0 ≤ M) (hs : s ≠ 0) :
    ∃ y : SVec K, y.dt = dt ∧ y.v.length = N * rest.prod ∧
      Always n (fun r => (A.firstDerivative kd ⟨N :: rest, s, edge, dt⟩).rmv (env n J r) (x.part X n r)) (fun r => .ok (y.part (.flat n N rest) n r)) ∧
      ∀ i < N * rest.prod, ‖y.v.getD i 0 - (alongRows (fdAdj kd edge N) s N rest.prod x.v).getD i 0‖ ≤ ((1 + u) ^ 25 - 1) * (8 * M / ‖s‖) :=
  ⟨_, rfl, by simp [ArrArith.along, tab], C72_first_adj A kd hn hroom hdt hX hx, fun _ hi => along_approx hA hd (fun _ hv _ _ => fdEntryAdj_approx hA hd kd hs hv) sx hM hM0 hi⟩

/-- `MPISecondDerivative`; `s2` is the computed square of the sampling step -/
theorem C78_second (hA : ArrRounding A u) (hd : Stores A.toArith u dt) (kd : SDKind) (hn : 0 < n) (hroom : sdRoom kd edge n N) (hN : edge = true → 2 ≤ N) (hX : Rowable n N rest X)
    (hx : x.v.length = X.gshape.prod) (sx : x.Stored A.toArith) (hM : ∀ a ∈ x.v, ‖a‖ ≤ M) (hM0 : 0 ≤ M) (hq : A.pySq s = .ok s2) (hs : s2 ≠ 0) :
    ∃ y : SVec K, y.dt = dt ∧ y.v.length = N * rest.prod ∧
      Always n (fun r => (A.secondDerivative kd ⟨N :: rest, s, edge, dt⟩).mv (env n J r) (x.part X n r)) (fun r => .ok (y.part (.flat n N rest) n r)) ∧
      ∀ i < N * rest.prod, ‖y.v.getD i 0 - (alongRows (sdAt kd edge N) s2 N rest.prod x.v).getD i 0‖ ≤ ((1 + u) ^ 7 - 1) * (4 * M / ‖s2‖) :=
  ⟨_, rfl, by simp [ArrArith.along, tab], C72_second A kd hn hroom hq hX hx, fun _ hi => along_approx hA hd (fun _ hv _ hp => sdEntry_approx hA hd kd hs hv hp hN) sx hM hM0 hi⟩

/-- the adjoint -/
theorem C78_second_adj (hA : ArrRounding A u) (hd : Stores A.toArith u dt) (kd : SDKind) (hn : 0 < n) (hroom : sdRoomAdj kd edge n N) (hdt : dt = .real → x.dt = .real) (hX : Rowable n N rest X)
    (hx : x.v.length = X.gshape.prod) (sx : x.Stored A.toArith) (hM : ∀ a ∈ x.v, ‖a‖ ≤ M) (hM0 : 0 ≤ M) (hq : A.pySq s = .ok s2) (hs : s2 ≠ 0) :
    ∃ y : SVec K, y.dt = dt ∧ y.v.length = N * rest.prod ∧
      Always n (fun r => (A.secondDerivative kd ⟨N :: rest, s, edge, dt⟩).rmv (env n J r) (x.part X n r)) (fun r => .ok (y.part (.flat n N rest) n r)) ∧
      ∀ i < N * rest.prod, ‖y.v.getD i 0 - (alongRows (sdAdj kd edge N) s2 N rest.prod x.v).getD i 0‖ ≤ ((1 + u) ^ 21 - 1) * (12 * M / ‖s2‖) :=
  ⟨_, rfl, by simp [ArrArith.along, tab], C72_second_adj A kd hn hroom hdt hq hX hx, fun _ hi => along_approx hA hd (fun _ hv _ _ => sdEntryAdj_approx hA hd kd hs hv) sx hM hM0 hi⟩

end
/-! ### slice-wise products -/

section
variable {A : MatArith K} {n : Nat} {J : Nat → Nat → K} {sz : Nat → Nat} {nx ny nz : Nat} {sg : Bool} {dG dt : DType} {g : List K} {X : Layout} {x : SVec K}

/-- `MPIFredholm1` with `usematmul=True`: entry `(k, i, z)` of the product is the sum over the columns of slice `k`, up to errors of `ny + 1` operations, for all numbers of ranks -/
theorem C78_fredholm (hA : MatRounding A u) (hd : Stores A.toArith u dt) (hg : g.length = psum sz n * (nx * ny)) (h : FredOk n sz nx ny nz true false) (hX : X.part.isBroadcast = true)
    (hXg : X.gshape = [psum sz n * ny * nz]) (hx : x.v.length = psum sz n * ny * nz) :
    ∃ y : SVec K, y.dt = dt ∧ y.v.length = psum sz n * nx * nz ∧
      Always n (fun r => do
        let op ← A.mkFredholm (env n J r) (kern sz nx ny dG g r) nz sg true dt
        op.prod false (env n J r) (x.dpart X n r)) (fun r => .ok (y.dpart (.all (psum sz n * nx * nz)) n r)) ∧
      ∀ k < psum sz n, ∀ i < nx, ∀ z < nz, SumUpTo u (ny + 1) ((List.range ny).map fun l => g.getD (k * (nx * ny) + (i * ny + l)) 0 * x.v.getD (k * (ny * nz) + (l * nz + z)) 0)
        (y.v.getD (k * (nx * nz) + (i * nz + z)) 0) := by
  obtain ⟨op, e1, -, e3⟩ := C77_fredholm A (J := J) (nz := nz) (sg := sg) (um := true) (dG := dG) (dt := dt) h.slices hg
  have t := e3 false X x.dt h hX hXg
  have hx' : x.v.length = X.gshape.prod := by rw [hx, hXg]; simp
  refine ⟨_, rfl, by simpa [Layout.all] using t.length x hx' rfl, (Runs.bind_ok e1.runs (t.run hx' rfl)).always, fun k hk i hi z hz => ?_⟩
  have hq : i * nz + z < nx * nz := lt_of_lt_of_le (by rw [Nat.add_one_mul]; omega) (Nat.mul_le_mul_right nz hi)
  have hdiv : (i * nz + z) / nz = i := by rw [Nat.mul_comm, Nat.mul_add_div (by omega), Nat.div_eq_of_lt hz, Nat.add_zero]
  have hmod : (i * nz + z) % nz = z := by rw [Nat.mul_comm, Nat.mul_add_mod, Nat.mod_eq_of_lt hz]
  obtain ⟨t, h1, h2⟩ := hA.mm .fwd dG x.dt nx ny nz (sliceOf (nx * ny) g k) (sliceOf (ny * nz) x.v k) _ hq
  have sl : ∀ (w : Nat) (d : List K) (q : Nat), q < w → (sliceOf w d k).getD q 0 = d.getD (k * w + q) 0 := fun w d q hq => by
    simp [sliceOf, List.getD_eq_getElem?_getD, List.getElem?_take, hq, List.getElem?_drop]
  have h1' : List.Forall₂ (fun v l => Rounded u v (g.getD (k * (nx * ny) + (i * ny + l)) 0 * x.v.getD (k * (ny * nz) + (l * nz + z)) 0)) t (List.range ny) := by
    obtain ⟨a, b⟩ := List.forall₂_iff_zip.1 h1
    refine List.forall₂_iff_zip.2 ⟨a, fun {v l} hm => ?_⟩
    have hl : l < ny := by simpa using (List.of_mem_zip hm).2
    have := b hm
    rwa [hdiv, hmod, sl _ _ _ (lt_of_lt_of_le (by rw [Nat.add_one_mul]; omega) (Nat.mul_le_mul_right ny hi)), sl _ _ _ (lt_of_lt_of_le (by rw [Nat.add_one_mul]; omega) (Nat.mul_le_mul_right nz hl))] at this
  have h := (h2.terms hA.nonneg (m := ny) (e := fun l => g.getD (k * (nx * ny) + (i * ny + l)) 0 * x.v.getD (k * (ny * nz) + (l * nz + z)) 0) h1' (by simp)).round hA.nonneg (hd _)
  rw [List.getD_eq_getElem?_getD, C77_entry A hk hq, Option.getD_some]
  unfold SumUpTo
  rw [List.map_map]
  exact h.err

end

/-- the bounds in the usual form -/
theorem C78_gamma (hu : 0 ≤ u) (hu1 : u ≤ 1) {k : Nat} (hk : k * u < 1) : (1 + u) ^ k - 1 ≤ k * u / (1 - k * u) := by
  have h1 : 1 + (k : ℝ) * (-u) ≤ (1 + -u) ^ k := one_add_mul_le_pow (by linarith) k
  have h2 : (1 + u) ^ k * (1 + -u) ^ k ≤ 1 := by
    rw [← mul_pow]
    exact pow_le_one₀ (mul_nonneg (by linarith) (by linarith)) (by nlinarith)
  have h3 : (0 : ℝ) ≤ (1 + u) ^ k := by positivity
  rw [le_div_iff₀ (by linarith)]
  nlinarith [mul_le_mul_of_nonneg_left h1 h3]

/-- sums from the first number to the last are sums in this sense -/
theorem RoundedSum.foldl {add : K → K → K} (h : ∀ x y, Rounded u (add x y) (x + y)) (x : K) (l : List K) : RoundedSum u (x :: l) (l.foldl add x) := by
  have key : ∀ (l m : List K) (s : K), m ≠ [] → RoundedSum u m s → RoundedSum u (m ++ l) (l.foldl add s) := by
    intro l
    induction l with
    | nil => intro m s _ hs; simpa using hs
    | cons y l ih =>
      intro m s hm hs
      have := ih (m ++ [y]) (add s y) (by simp) (.add hm (by simp) hs (.one y) (h s y))
      simpa using this
  exact key l [x] x (by simp) (.one x)

/-- sums by halves (as NumPy's pairwise summation) also -/
theorem RoundedSum.halves {add : K → K → K} (h : ∀ x y, Rounded u (add x y) (x + y)) {l m : List K} {s t : K} (hl : l ≠ []) (hm : m ≠ []) (hs : RoundedSum u l s) (ht : RoundedSum u m t) :
    RoundedSum u (l ++ m) (add s t) := .add hl hm hs ht (h s t)

/-! ### examples -/

section

/-- sum from the first number to the last -/
noncomputable def rdSum (p : Nat) : List ℝ → ℝ
  | [] => 0
  | x :: l => l.foldl (fun s y => rd p (s + y)) x

theorem rdSum_rounded (p : Nat) (l : List ℝ) : RoundedSum ((1 / 2) ^ (p + 1)) l (rdSum p l) := by
  cases l with
  | nil => exact .nil
  | cons x l => exact RoundedSum.foldl (fun x y => rd_rounded p (x + y)) x l

open Classical in
/-- floating-point arithmetic with `p + 1` significant bits (53 for `float64`), without overflow -/
noncomputable def binary (p : Nat) : MatArith ℝ where
  cast _ x := rd p x
  zero := 0
  neg x := -x
  conj x := x
  abs x := |x|
  sqrt x := rd p √x
  add x y := rd p (x + y)
  mul x y := rd p (x * y)
  npDiv x y := .ok (rd p (x / y))
  pyDiv x y := if y = 0 then .error .zeroDiv else .ok (rd p (x / y))
  pySq x := .ok (rd p (x ^ 2))
  dot a b := rdSum p ((a.zip b).map fun x => rd p (x.1 * x.2))
  sumSq a := rdSum p (a.map fun x => rd p (‖x‖ ^ 2))
  root s := rd p √‖s‖
  stackNorm l := rd p √‖rdSum p (l.map fun x => rd p (x ^ 2))‖
  sum := rdSum p
  gt x y := decide (x > y)
  lt x y := decide (x < y)
  sub x y := rd p (x - y)
  div x y := rd p (x / y)
  half := 1 / 2
  two := 2
  three := 3
  twelve := 12
  sumRows rows j := rdSum p (rows.map (·.getD j 0))
  sumArr rows j := rdSum p (rows.map (·.getD j 0))
  negOne := -1
  mm _ _ _ _ k q a b i := rdSum p ((List.range k).map fun l => rd p (a.getD (i / q * k + l) 0 * b.getD (l * q + i % q) 0))
  ndot _ _ _ s s' a b i := rdSum p ((List.range (s.getLastD 0)).map fun l => rd p (a.getD (i / s'.getLastD 0 * s.getLastD 0 + l) 0 * b.getD (l * s'.getLastD 0 + i % s'.getLastD 0) 0))

theorem binary_rounding (p : Nat) : MatRounding (binary p) ((1 / 2) ^ (p + 1)) where
  nonneg := by positivity
  dot a b _ := ⟨_, by rw [List.forall₂_map_left_iff]; exact List.forall₂_same.2 fun x _ => rd_rounded p _, rdSum_rounded p _⟩
  sumSq a := ⟨_, by rw [List.forall₂_map_left_iff]; exact List.forall₂_same.2 fun x _ => rd_rounded p _, rdSum_rounded p _⟩
  sum l := rdSum_rounded p l
  root s := rd_rounded p _
  zero := rfl
  add x y := rd_rounded p _
  sub x y := rd_rounded p _
  mul x y := rd_rounded p _
  div x y _ := rd_rounded p _
  half := rfl
  two := rfl
  three := rfl
  twelve := rfl
  sumRows rows j _ := rdSum_rounded p _
  sumArr rows j _ := rdSum_rounded p _
  mm _ _ _ _ k q a b i _ := ⟨_, by rw [List.forall₂_map_left_iff]; exact List.forall₂_same.2 fun x _ => rd_rounded p _, rdSum_rounded p _⟩

theorem binary_stores (p : Nat) (dt : DType) : Stores (binary p).toArith ((1 / 2) ^ (p + 1)) dt := fun a => rd_rounded p a

theorem binary_idem (p : Nat) (dt : DType) (a : ℝ) : (binary p).cast dt ((binary p).cast dt a) = (binary p).cast dt a := rd_idem p a

/-- all vectors that have been stored once -/
theorem binary_copy (p : Nat) (x : SVec ℝ) : (x.copy (binary p).toArith).Stored (binary p).toArith := SVec.stored_map _ (binary_idem p) _ _

/-- `float64`: dot products of vectors of length 3 on one rank and on two ranks differ by less than `10 ^ -15` times the sum of the absolute values -/
example (J₁ J₂ : Nat → Nat → ℝ) (a b c a' b' c' : ℝ) :
    ∃ v₁ v₂ : ℝ, Always 1 (fun r => (binary 52).ddot (env 1 J₁ r) ((⟨.real, [a, b, c]⟩ : SVec ℝ).dpart threeOnOne 1 r) ((⟨.real, [a', b', c']⟩ : SVec ℝ).dpart threeOnOne 1 r)) (fun _ => .ok v₁) ∧
      Always 2 (fun r => (binary 52).ddot (env 2 J₂ r) ((⟨.real, [a, b, c]⟩ : SVec ℝ).dpart threeOnTwo 2 r) ((⟨.real, [a', b', c']⟩ : SVec ℝ).dpart threeOnTwo 2 r)) (fun _ => .ok v₂) ∧
      ‖v₁ - v₂‖ ≤ 1 / 10 ^ 15 * (|a * a'| + (|b * b'| + (|c * c'| + 0))) := by
  obtain ⟨v₁, v₂, h1, h2, h3⟩ := C78_dot_ranks (J₁ := J₁) (J₂ := J₂) (x := ⟨.real, [a, b, c]⟩) (y := ⟨.real, [a', b', c']⟩) (m₁ := 3) (m₂ := 2) (binary_rounding 52).toRounding threeOnOne_wf threeOnTwo_wf
    rfl rfl (by norm_num) (by norm_num) rfl rfl rfl (fun h => by rcases h with h | h <;> cases h) (fun h => by rcases h with h | h <;> cases h) 
    (fun q hq => by rw [length_block _ threeOnOne_wf rfl hq]; interval_cases q; decide)
    (fun q hq => by rw [length_block _ threeOnTwo_wf rfl hq]; interval_cases q <;> decide)
  refine ⟨v₁, v₂, h1, h2, h3.trans ?_⟩
  simp only [List.zip_cons_cons, List.zip_nil_right, List.map_cons, List.map_nil, List.sum_cons, List.sum_nil, Real.norm_eq_abs]
  refine mul_le_mul_of_nonneg_right (by norm_num) (by positivity)

/-- a replicated vector: every rank sums its part, and all get the norm -/
example (J : Nat → Nat → ℝ) (x : SVec ℝ) (hx : x.v.length = 5) :
    ∃ v : ℝ, Always 3 (fun r => (binary 52).dnorm (env 3 J r) ((x.copy (binary 52).toArith).dpart (.all 5) 3 r)) (fun _ => .ok v) ∧
      ‖v - √((x.copy (binary 52).toArith).v.map fun a => ‖a‖ ^ 2).sum‖ ≤ ((1 + (1 / 2) ^ 53) ^ 5 - 1) * √((x.copy (binary 52).toArith).v.map fun a => ‖a‖ ^ 2).sum := by
  have hw : (Layout.all 5).WF 3 := all_wf rfl
  have hl := SVec.length_copy (binary 52).toArith hx
  exact C78_norm (J := J) (m := 2) (binary_rounding 52).toRounding hw rfl (by norm_num) (by rw [hl]; rfl) (fun _ => binary_copy 52 x) fun q hq => by
    rw [length_block _ hw (by rw [hl]; rfl) hq]
    interval_cases q <;> decide

/-- matrices with one column and two rows; their adjoints are computed with floating-point numbers -/
noncomputable def column (p : Nat) (a b : ℝ) : FOp ℝ :=
  ⟨2, 1, .real, fun _ v => [rd p (a * v.getD 0 0), rd p (b * v.getD 0 0)], fun _ v => [rdSum p ((List.range 2).map fun i => rd p ((if i = 0 then a else b) * v.getD i 0))]⟩

theorem column_multiplies (p : Nat) (a b : ℝ) : (column p a b).Multiplies ((1 / 2) ^ (p + 1)) 2 true .real fun _ i => if i = 0 then a else b := by
  refine fun v _ => ⟨rfl, fun j hj => ?_⟩
  obtain rfl : j = 0 := Nat.lt_one_iff.1 hj
  have h := (rdSum_rounded p ((List.range 2).map fun i => rd p ((if i = 0 then a else b) * v.getD i 0))).terms (m := 2) (T := List.range 2) (e := fun i => (if i = 0 then a else b) * v.getD i 0)
    (by positivity) (by rw [List.forall₂_map_left_iff]; exact List.forall₂_same.2 fun x _ => rd_rounded p _) (by simp)
  have h' := h.err
  unfold SumUpTo
  rw [rowTerms, List.map_map]
  exact h'

theorem column_sized (p : Nat) (a b : ℝ) : (column p a b).Sized true := fun _ _ _ => rfl

noncomputable def columns1 (a b : ℝ) (_ : Nat) : List (FOp ℝ) := [column 52 a b, column 52 a b, column 52 a b]
noncomputable def columns2 (a b : ℝ) (r : Nat) : List (FOp ℝ) := if r = 0 then [column 52 a b] else [column 52 a b, column 52 a b]

/-- three matrices below each other, all on one rank or one and two on two ranks: the adjoint adds 6 products -/
example (J₁ J₂ : Nat → Nat → ℝ) (a b : ℝ) (x : SVec ℝ) (hx : x.v.length = 6) (hd : x.dt = .real) :=
  C78_stack_ranks (A := (binary 52).toOpArith) (k := 2) (w₁ := 3) (w₂ := 2) (N := 1) (b := true) (dtype := none) (dt := .real) (n₁ := 1) (n₂ := 2) (J₁ := J₁) (J₂ := J₂) (os := columns1 a b 0)
    (ops₁ := columns1 a b) (ops₂ := columns2 a b) (X₁ := opIn true 1 (columns1 a b)) (X₂ := opIn true 2 (columns2 a b)) (x := x.copy (binary 52).toArith) (M := fun _ _ i => if i = 0 then a else b)
    (binary_rounding 52).toOpRounding (binary_stores 52 .real) (by norm_num) (by norm_num) rfl rfl
    (fun r _ => by simp [columns1]) (fun r _ => by unfold columns2; split_ifs <;> simp) (fun r _ => rfl) (fun r _ => by unfold columns2; split_ifs <;> rfl)
    (fun r _ => by simp [columns1]) (fun r _ => by unfold columns2; split_ifs <;> simp)
    (fun o ho => by
      obtain rfl : o = column 52 a b := by simpa [columns1] using ho
      exact ⟨by rw [show (x.copy (binary 52).toArith).dt = .real from hd]; exact column_multiplies 52 a b, rfl⟩)
    (fun o ho => by
      obtain rfl : o = column 52 a b := by simpa [columns1] using ho
      exact column_sized 52 a b)
    (opIn_feeds (ops := columns1 a b) (n := 1)) (opIn_feeds (ops := columns2 a b) (n := 2)) (fun h => by cases h) (by rw [SVec.length_copy _ hx]; rfl) (binary_copy 52 x)

/-- the five-point derivative of a 7 × 2 array on two ranks -/
example (J : Nat → Nat → ℝ) (s M : ℝ) (hs : s ≠ 0) (hM0 : 0 ≤ M) (x : SVec ℝ) (hx : x.v.length = 14) (hM : ∀ a ∈ (x.copy (binary 52).toArith).v, ‖a‖ ≤ M) :=
  C78_first (J := J) (A := (binary 52).toArrArith) (n := 2) (N := 7) (rest := [2]) (edge := true) (dt := .real) (s := s) (X := .flat 2 7 [2]) (x := x.copy (binary 52).toArith)
    (binary_rounding 52).toArrRounding (binary_stores 52 .real) .centered5 (by norm_num) (by show 3 * 2 ≤ 7; decide) (fun _ => by norm_num) (rowable_flat (by norm_num))
    (by rw [SVec.length_copy _ hx]; rfl) (binary_copy 52 x) hM hM0 hs

/-- and its adjoint; a step of one tenth is also rounded, so its square is not exactly the square of one tenth -/
example (J : Nat → Nat → ℝ) (s M : ℝ) (hs : rd 52 (s ^ 2) ≠ 0) (hM0 : 0 ≤ M) (x : SVec ℝ) (hd : x.dt = .real) (hx : x.v.length = 14) (hM : ∀ a ∈ (x.copy (binary 52).toArith).v, ‖a‖ ≤ M) :=
  C78_second_adj (J := J) (A := (binary 52).toArrArith) (n := 2) (N := 7) (rest := [2]) (edge := true) (dt := .real) (s := s) (X := .flat 2 7 [2]) (x := x.copy (binary 52).toArith)
    (binary_rounding 52).toArrRounding (binary_stores 52 .real) .centered (by norm_num) (by show 3 * 2 ≤ 7; decide) (fun _ => hd) (rowable_flat (by norm_num))
    (by rw [SVec.length_copy _ hx]; rfl) (binary_copy 52 x) hM hM0 rfl hs

/-- two slices of 2 × 3 matrices on each of two ranks -/
example (J : Nat → Nat → ℝ) (g : List ℝ) (hg : g.length = 24) (x : SVec ℝ) (hx : x.v.length = 12) :=
  C78_fredholm (A := binary 52) (J := J) (n := 2) (sz := fun _ => 2) (nx := 2) (ny := 3) (nz := 1) (sg := true) (dG := .real) (dt := .real) (X := .all 12) (binary_rounding 52) (binary_stores 52 .real)
    (g := g) hg ⟨fun _ _ => by decide, by decide, .inl rfl⟩ rfl rfl hx

end

end Verif

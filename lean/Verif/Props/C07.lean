/- C07, C08, C11: dot products. -/
import Verif.Proofs.Norm
import Mathlib.Data.Rat.Star
import Mathlib.Analysis.RCLike.Lemmas

namespace Verif
open NDArray

set_option linter.unusedSectionVars false

section
variable {K : Type} [Field K] [StarRing K] [CharZero K] {n : Nat} {J : Nat → Nat → K}

/-- **C07**.  Without a mask, every execution of `x.dot(y)` returns on every rank the unconjugated
    dot product of the flattened global arrays — for every partition, axis, valid local sizes and
    number of ranks (arrays that are broadcast, safely or not, hold the same data on all ranks). -/
theorem C07_dot {L : Layout} {dt : DType} {a b : Nat → List K} (hL : L.WF n) (hm : L.mask = none)
    (ha : L.Good n dt a) (hb : L.Good n dt b)
    (hga : L.part.isBroadcast = true → ∀ r < n, a r = a 0) (hgb : L.part.isBroadcast = true → ∀ r < n, b r = b 0) :
    Always n (fun r => (L.fam n dt a r).dot (env n J r) (L.fam n dt b r))
      (fun _ => .ok (List.zipWith (· * ·) (L.global n dt a).data (L.global n dt b).data).sum) := by
  rcases Nat.eq_zero_or_pos n with rfl | hn
  · exact Runs.of_zero.always
  refine ((runs_dot (J := J) hn hL ha hb hga hgb).congr (fun _ _ => rfl) fun r hr => ?_).always
  simp only [Layout.members, hm]
  rw [sum_dot_global hn hL ha.length hb.length]
  rfl

/-- **C08** (dot).  With a mask, `x.dot(y)` of scattered arrays returns on rank `r` the dot product
    restricted to the local arrays of the ranks with the same mask value. -/
theorem C08_dot {L : Layout} {dt : DType} {a b : Nat → List K} {m : List Nat} (hL : L.WF n) (hm : L.mask = some m)
    (hp : L.part = .scatter) (ha : L.Good n dt a) (hb : L.Good n dt b) :
    Always n (fun r => (L.fam n dt a r).dot (env n J r) (L.fam n dt b r))
      (fun r => .ok (((List.range n).filter fun q => m.getD q 0 = m.getD r 0).map fun q =>
        (List.zipWith (· * ·) (a q) (b q)).sum).sum) := by
  rcases Nat.eq_zero_or_pos n with rfl | hn
  · exact Runs.of_zero.always
  have hb' : ¬ L.part.isBroadcast = true := by rw [hp]; simp [Partition.isBroadcast]
  refine ((runs_dot (J := J) hn hL ha hb (fun h => absurd h hb') (fun h => absurd h hb')).congr (fun _ _ => rfl) fun r hr => ?_).always
  simp only [Layout.members, hm, Layout.shard, if_neg hb']

/-- Non-vacuity of C07 and C08: (1, 2, 3)·(4, 5, 6) over two ranks; with the mask (0, 1) rank 0 gets
    the first two terms and rank 1 the last. -/
def exLayout (m : Option (List Nat)) : Layout := ⟨[3], .scatter, 0, fun r => if r = 0 then 2 else 1, m⟩

theorem exLayout_wf (m) (h : ∀ l, m = some l → 2 ≤ l.length) : (exLayout m).WF 2 := ⟨by simp [exLayout], fun _ => rfl, h⟩

theorem exLayout_good (m) (a : Nat → List ℚ) (h : (a 0).length = 2) (h1 : (a 1).length = 1) : (exLayout m).Good 2 .real a := by
  refine ⟨fun r hr => ?_, fun _ _ _ _ _ => rfl, fun h => by simp [exLayout] at h⟩
  match r, hr with
  | 0, _ => exact h
  | 1, _ => exact h1

example : Always 2 (fun r => ((exLayout none).fam 2 .real (fun r => if r = 0 then [1, 2] else [(3 : ℚ)]) r).dot
      (env 2 (fun _ _ => 0) r) ((exLayout none).fam 2 .real (fun r => if r = 0 then [4, 5] else [6]) r))
    (fun _ => .ok 32) := by
  have := C07_dot (J := fun _ _ => (0 : ℚ)) (exLayout_wf none (by simp)) rfl
    (exLayout_good none (fun r => if r = 0 then [1, 2] else [3]) rfl rfl)
    (exLayout_good none (fun r => if r = 0 then [4, 5] else [6]) rfl rfl) (by simp [exLayout, Partition.isBroadcast])
      (by simp [exLayout, Partition.isBroadcast])
  exact this.congr fun _ _ => congrArg Except.ok (by decide +kernel)

example : Always 2 (fun r => ((exLayout (some [0, 1])).fam 2 .real (fun r => if r = 0 then [1, 2] else [(3 : ℚ)]) r).dot
      (env 2 (fun _ _ => 0) r) ((exLayout (some [0, 1])).fam 2 .real (fun r => if r = 0 then [4, 5] else [6]) r))
    (fun r => .ok (if r = 0 then 14 else 18)) := by
  have := C08_dot (J := fun _ _ => (0 : ℚ)) (exLayout_wf (some [0, 1]) (by simp)) rfl rfl
    (exLayout_good (some [0, 1]) (fun r => if r = 0 then [1, 2] else [3]) rfl rfl)
    (exLayout_good (some [0, 1]) (fun r => if r = 0 then [4, 5] else [6]) rfl rfl)
  refine this.congr fun r hr => ?_
  match r, hr with
  | 0, _ => exact congrArg Except.ok (by decide +kernel)
  | 1, _ => exact congrArg Except.ok (by decide +kernel)
end

section
variable {K : Type} [RCLike K] {n : Nat} {J : Nat → Nat → K}

/-- **C08** (norm).  With a mask, `x.norm(ord)` of a scattered array returns on rank `r` the norm of
    the entries held by the ranks with the same mask value.  As for C09, orders must be admissible
    for the entries and the maximum / minimum needs non-empty local arrays. -/
theorem C08_norm_partial {L : Layout} {dt : DType} {a : Nat → List K} {m : List Nat} {o : NormOrd} (hL : L.WF n)
    (hm : L.mask = some m) (hp : L.part = .scatter) (ha : L.Good n dt a)
    (hok : ∀ q < n, ∀ x ∈ a q, OrdOk o dt x) (hne : o.extremal → ∀ q < n, a q ≠ []) (hfro : o ≠ .fro ∧ o ≠ .nuc) :
    Always n (fun r => (L.fam n dt a r).norm (env n J r) o none)
      (fun r => .ok ⟨[], .real, [vecNorm o (((List.range n).filter fun q => m.getD q 0 = m.getD r 0).flatMap a)]⟩) := by
  rcases Nat.eq_zero_or_pos n with rfl | hn
  · exact Runs.of_zero.always
  have hb' : ¬ L.part.isBroadcast = true := by rw [hp]; simp [Partition.isBroadcast]
  have es : L.shard n a = a := by funext q; simp only [Layout.shard, if_neg hb']
  have er : L.red n = L := by simp only [Layout.red, if_neg hb']
  refine ((runs_norm_flat (J := J) (o := o) hn hL ha (fun h => absurd h hb') hok (by rw [es]; exact hne) hfro).congr (fun _ _ => rfl) fun r hr => ?_).always
  rw [es, er]
  simp only [Layout.members, hm]

theorem zipWith_star_sum (l : List K) :
    (List.zipWith (· * ·) l (l.map star)).sum = ((l.map fun x => ‖x‖ ^ 2).sum : ℝ) := by
  induction l with
  | nil => simp
  | cons x l ih =>
    rw [List.map_cons, List.zipWith_cons_cons, List.sum_cons, ih, List.map_cons, List.sum_cons]
    push_cast
    congr 1
    exact RCLike.mul_conj x

theorem shard_map {L : Layout} (f : K → K) (a : Nat → List K) (q : Nat) :
    L.shard n (fun r => (a r).map f) q = (L.shard n a q).map f := by
  unfold Layout.shard
  split_ifs
  · have hs : ¬ (L.scattered n).part.isBroadcast = true := by simp [Layout.scattered, Partition.isBroadcast]
    unfold Layout.piece
    rw [if_neg hs, if_neg hs, sliceData, sliceData, List.map_flatMap]
    apply List.flatMap_congr
    intro o _
    simp [chunk_map]
  · rfl

/-- `x.norm()` and `x.dot(x.conj())` -/
noncomputable def normAndDot (c : Ctx K) (x : DArr K) : P K (NDArray FNum × K) := do
  let y ← x.conj c
  let v ← x.dot c y
  let s ← x.norm c .none none
  .ret (s, v)

/-- results of both, in terms of the shards -/
theorem runs_normAndDot {L : Layout} {dt : DType} {a : Nat → List K} (hn : 0 < n) (hL : L.WF n) (ha : L.Good n dt a)
    (hg : L.part.isBroadcast = true → ∀ r < n, a r = a 0) :
    Runs n (fun r => normAndDot (env n J r) (L.fam n dt a r))
      (fun r => .ok (⟨[], .real, [.fin (Real.sqrt ((((L.red n).members n r).flatMap (L.shard n a)).map fun x => ‖x‖ ^ 2).sum)]⟩,
        ((((L.members n r).flatMap (L.shard n a)).map fun x => ‖x‖ ^ 2).sum : ℝ))) := by
  unfold normAndDot
  simp only [Prog.bind_eq]
  have hc : L.Good n dt (fun r => (a r).map star) := good_map star (fun _ x hx => by rw [hx, hx]) ha
  refine Runs.bind_ok (runs_conj (J := J) hL ha) ?_
  refine Runs.bind_ok (runs_dot (J := J) hn hL ha hc hg (fun h r hr => by simp only [hg h r hr])) ?_
  refine Runs.bind_ok (runs_norm_flat (J := J) (o := .none) hn hL ha hg (fun _ _ _ _ => trivial) (fun h => h.elim)
    ⟨by simp, by simp⟩) ?_
  refine Runs.congr (Runs.ret _) (fun _ _ => rfl) (fun r hr => ?_)
  congr 2
  simp only [shard_map, zipWith_star_sum]
  generalize L.members n r = l
  induction l with
  | nil => simp
  | cons q l ih => rw [List.map_cons, List.sum_cons, ih]; simp

/-- **C11**, partial.  `x.norm()**2 == x.dot(x.conj())` on every rank, for unmasked arrays of any
    partition and for masked scattered arrays.  Missing: masked broadcast arrays, where it is
    false (`C11_violated`). -/
theorem C11_partial {L : Layout} {dt : DType} {a : Nat → List K} (hL : L.WF n) (ha : L.Good n dt a)
    (hg : L.part.isBroadcast = true → ∀ r < n, a r = a 0) (hm : L.mask = none ∨ L.part = .scatter) :
    ∃ s : Nat → ℝ, (∀ r, 0 ≤ s r) ∧
      Always n (fun r => normAndDot (env n J r) (L.fam n dt a r))
        (fun r => .ok (⟨[], .real, [.fin (s r)]⟩, ((s r : ℝ) : K) ^ 2)) := by
  rcases Nat.eq_zero_or_pos n with rfl | hn
  · exact ⟨fun _ => 0, fun _ => le_refl _, Runs.of_zero.always⟩
  refine ⟨fun r => Real.sqrt ((((L.red n).members n r).flatMap (L.shard n a)).map fun x => ‖x‖ ^ 2).sum, fun r => Real.sqrt_nonneg _, ?_⟩
  refine ((runs_normAndDot (J := J) hn hL ha hg).congr (fun _ _ => rfl) fun r hr => ?_).always
  have e : (L.red n).members n r = L.members n r := by
    rcases hm with hm | hp
    · unfold Layout.red
      split_ifs
      · simp only [Layout.scattered, Layout.members, hm]
      · rfl
    · have hb' : ¬ L.part.isBroadcast = true := by rw [hp]; simp [Partition.isBroadcast]
      simp only [Layout.red, if_neg hb']
  dsimp only
  rw [e]
  refine congrArg Except.ok (Prod.ext rfl ?_)
  dsimp only
  rw [← RCLike.ofReal_pow, Real.sq_sqrt]
  apply List.sum_nonneg
  intro x hx
  obtain ⟨y, _, rfl⟩ := List.mem_map.1 hx
  positivity

/-- **C11 is false** for masked broadcast arrays: the vector (1, 1) broadcast to two ranks with mask
    (0, 1) has norm √2, but its dot product with its conjugate is 1 on each rank. -/
theorem C11_violated :
    Always 2 (fun r => normAndDot (env 2 (fun _ _ => (0 : ℝ)) r)
        ((Layout.mk [2] .broadcast 0 (fun _ => 0) (some [0, 1])).fam 2 .real (fun _ => [1, 1]) r))
      (fun _ => .ok (⟨[], .real, [.fin (Real.sqrt 2)]⟩, 1)) := by
  have hL : (Layout.mk [2] .broadcast 0 (fun _ => 0) (some [0, 1])).WF 2 :=
    ⟨by decide, by simp, by rintro m ⟨⟩; decide⟩
  have ha : (Layout.mk [2] .broadcast 0 (fun _ => 0) (some [0, 1])).Good 2 .real (fun _ => [(1 : ℝ), 1]) :=
    ⟨fun _ _ => rfl, fun _ _ _ _ _ => rfl, fun _ _ _ => rfl⟩
  refine ((runs_normAndDot (J := fun _ _ => (0 : ℝ)) (by decide) hL ha (fun _ _ _ => rfl)).congr (fun _ _ => rfl) fun r hr => ?_).always
  have s0 : ∀ q < 2, (Layout.mk [2] .broadcast 0 (fun _ => 0) (some [0, 1])).shard 2 (fun _ => [(1 : ℝ), 1]) q = [1] := by
    intro q hq
    match q, hq with
    | 0, _ => rfl
    | 1, _ => rfl
  have r0 : ((Layout.mk [2] .broadcast 0 (fun _ => 0) (some [0, 1])).red 2).members 2 r = [0, 1] := rfl
  have m0 : (Layout.mk [2] .broadcast 0 (fun _ => 0) (some [0, 1])).members 2 r = [r] := by
    match r, hr with
    | 0, _ => rfl
    | 1, _ => rfl
  rw [r0, m0]
  simp [s0 0 (by decide), s0 1 (by decide), s0 r hr]
  norm_num

/-- Non-vacuity of the partial theorem: a masked scattered complex array. -/
example : (exLayout (some [1, 1])).WF 2 ∧ (exLayout (some [1, 1])).Good 2 .cplx
    (fun r => if r = 0 then [1, Complex.I] else [2 - Complex.I]) := by
  refine ⟨exLayout_wf _ (by simp), fun r hr => ?_, fun _ _ h => by simp at h, fun h => by simp [exLayout] at h⟩
  match r, hr with
  | 0, _ => rfl
  | 1, _ => rfl

end
end Verif

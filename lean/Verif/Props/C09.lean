/- C09, C10: norms. -/
import Verif.Proofs.Norm
import Verif.MPI.Partial
import Mathlib.Analysis.RCLike.Lemmas

namespace Verif
open NDArray

set_option linter.unusedSectionVars false

variable {K : Type} [RCLike K] {n : Nat} {J : Nat → Nat → K}

/-! The specification `vecNorm` on ordinary vectors. -/

/-- for positive orders it is the usual p-norm -/
theorem vecNorm_pos {p : ℝ} (hp : 0 < p) (l : List K) :
    vecNorm (.num p) l = .fin ((l.map fun x => ‖x‖ ^ p).sum ^ (1 / p)) := by
  have e : (fun x : K => powAbs p ‖x‖) = fun x => FNum.fin (‖x‖ ^ p) := by
    funext x
    by_cases h : ‖x‖ = 0
    · simp only [powAbs, h, if_true, hp, Real.zero_rpow hp.ne']
    · simp only [powAbs, h, if_false]
  have e2 : (l.map fun x : K => FNum.fin (‖x‖ ^ p)) = (l.map fun x => ‖x‖ ^ p).map FNum.fin := by rw [List.map_map]; rfl
  simp only [vecNorm, if_neg hp.ne', e, e2, FNum.sum_fin, FNum.root]
  split_ifs with h
  · rw [h, Real.zero_rpow (by positivity)]
  · rfl

/-- the infinity norm is the least upper bound of the absolute values -/
theorem vecNorm_inf {l : List K} {m : ℝ} : vecNorm .inf l = .fin m ↔ (∃ x ∈ l, ‖x‖ = m) ∧ ∀ x ∈ l, ‖x‖ ≤ m := by
  have key : vecNorm .inf l = .fin m ↔ (l.map fun x => ‖x‖).max? = some m := by
    simp only [vecNorm]
    split <;> simp_all
  rw [key, List.max?_eq_some_iff]
  simp

theorem vecNorm_ninf {l : List K} {m : ℝ} : vecNorm .ninf l = .fin m ↔ (∃ x ∈ l, ‖x‖ = m) ∧ ∀ x ∈ l, m ≤ ‖x‖ := by
  have key : vecNorm .ninf l = .fin m ↔ (l.map fun x => ‖x‖).min? = some m := by
    simp only [vecNorm]
    split <;> simp_all
  rw [key, List.min?_eq_some_iff]
  simp

/-- **C09**, partial.  Without a mask, every execution of `x.norm(ord)` returns on every rank the
    `ord`-norm of the global array.  Missing: orders that are not admissible for the entries
    (`OrdOk`), and ±inf when a rank holds no entries; there the claim is false
    (`C09_violated_fractional`, `C09_violated_negative`, `C09_violated_empty`). -/
theorem C09_partial {L : Layout} {dt : DType} {a : Nat → List K} {o : NormOrd} (hL : L.WF n) (hm : L.mask = none)
    (ha : L.Good n dt a) (hg : L.part.isBroadcast = true → ∀ r < n, a r = a 0)
    (hok : ∀ q < n, ∀ x ∈ a q, OrdOk o dt x) (hne : o.extremal → ∀ q < n, L.shard n a q ≠ [])
    (hfro : o ≠ .fro ∧ o ≠ .nuc) :
    Always n (fun r => (L.fam n dt a r).norm (env n J r) o none)
      (fun _ => .ok ⟨[], .real, [vecNorm o (L.global n dt a).data]⟩) := by
  rcases Nat.eq_zero_or_pos n with rfl | hn
  · exact Runs.of_zero.always
  refine ((runs_norm_flat (J := J) hn hL ha hg hok hne hfro).congr (fun _ _ => rfl) fun r hr => ?_).always
  have e : (L.red n).members n r = List.range n := by
    unfold Layout.red
    split_ifs
    · rfl
    · simp only [Layout.members, hm]
  rw [e, vecNorm_perm (perm_shard hn hL ha.length)]
  rfl

/-- **C09** for the default order: no side conditions. -/
theorem C09_euclidean {L : Layout} {dt : DType} {a : Nat → List K} (hL : L.WF n) (hm : L.mask = none)
    (ha : L.Good n dt a) (hg : L.part.isBroadcast = true → ∀ r < n, a r = a 0) :
    Always n (fun r => (L.fam n dt a r).norm (env n J r) .none none)
      (fun _ => .ok ⟨[], .real, [.fin (Real.sqrt ((L.global n dt a).data.map fun x => ‖x‖ ^ 2).sum)]⟩) :=
  C09_partial hL hm ha hg (fun _ _ _ _ => trivial) (fun h => h.elim) ⟨by simp, by simp⟩

/-- **C09** for positive orders on complex arrays: no side conditions. -/
theorem C09_positive {L : Layout} {a : Nat → List K} {p : ℝ} (hp : 0 < p) (hL : L.WF n) (hm : L.mask = none)
    (ha : L.Good n .cplx a) (hg : L.part.isBroadcast = true → ∀ r < n, a r = a 0) :
    Always n (fun r => (L.fam n .cplx a r).norm (env n J r) (.num p) none)
      (fun _ => .ok ⟨[], .real, [.fin (((L.global n .cplx a).data.map fun x => ‖x‖ ^ p).sum ^ (1 / p))]⟩) := by
  have := C09_partial (J := J) (o := .num p) hL hm ha hg (fun _ _ _ _ => .inr ⟨by simp, fun _ => .inl hp⟩) (fun h => h.elim) ⟨by simp, by simp⟩
  rwa [vecNorm_pos hp] at this

/-- **C09** for integer orders on real arrays: no side conditions. -/
theorem C09_integer {L : Layout} {a : Nat → List K} {p : ℤ} (hL : L.WF n) (hm : L.mask = none)
    (ha : L.Good n .real a) (hg : L.part.isBroadcast = true → ∀ r < n, a r = a 0) :
    Always n (fun r => (L.fam n .real a r).norm (env n J r) (.num p) none)
      (fun _ => .ok ⟨[], .real, [vecNorm (.num p) (L.global n .real a).data]⟩) :=
  C09_partial hL hm ha hg (fun _ _ _ _ => .inr ⟨fun _ => .inl ⟨p, rfl⟩, by simp⟩) (fun h => h.elim) ⟨by simp, by simp⟩

/-- orders 'fro' and 'nuc' raise ValueError everywhere -/
theorem C09_fro {L : Layout} {dt : DType} {a : Nat → List K} {o : NormOrd} (hL : L.WF n)
    (ha : L.Good n dt a) (hg : L.part.isBroadcast = true → ∀ r < n, a r = a 0) (ho : o = .fro ∨ o = .nuc) :
    Always n (fun r => (L.fam n dt a r).norm (env n J r) o none) (fun _ => .error .value) := by
  rcases Nat.eq_zero_or_pos n with rfl | hn
  · exact Runs.of_zero.always
  unfold DArr.norm
  simp only [Prog.bind_eq]
  refine (Runs.bind_ok (runs_toScatter (J := J) hn hL ha hg) ?_).always
  refine Runs.congr (Runs.throw fun _ => .value) (fun r _ => ?_) (fun _ _ => rfl)
  rcases ho with rfl | rfl <;> rfl

theorem root_nan (p : ℝ) : FNum.root p .nan = .nan := rfl

/-- one rank, one entry -/
theorem norm_single {dt : DType} {x : K} {p : ℝ} (hp : p ≠ 0) :
    Always 1 (fun r => ((Layout.mk [1] .scatter 0 (fun _ => 1) none).fam 1 dt (fun _ => [x]) r).norm (env 1 J r) (.num p) none)
      (fun _ => .ok ⟨[], .real, [FNum.root p (absFloatPower dt p x)]⟩) := by
  apply Runs.always
  unfold DArr.norm
  simp only [Prog.bind_eq]
  have h0 : Runs 1 (fun r => ((Layout.mk [1] .scatter 0 (fun _ => 1) none).fam 1 dt (fun _ => [x]) r).toScatter (env 1 J r)
      ((Layout.mk [1] .scatter 0 (fun _ => 1) none).fam 1 dt (fun _ => [x]) r).part) (fun r => .ok ((Layout.mk [1] .scatter 0 (fun _ => 1) none).fam 1 dt (fun _ => [x]) r)) :=
    Runs.congr (Runs.ret _) (fun r _ => by unfold DArr.toScatter; exact (if_neg (by simp [Layout.fam, Partition.isBroadcast])).symm) (fun _ _ => rfl)
  refine Runs.bind_ok h0 ?_
  unfold computeVectorNorm
  simp only [if_neg hp, Prog.bind_eq]
  refine Runs.congr (ps := fun r => (allreduce ((Layout.mk [1] .scatter 0 (fun _ => 1) none).members 1 r) (combine (· + ·))
    (RArr.mk ⟨[], .real, (List.range 1).map fun _ => absFloatPower dt p x⟩)).bind fun s => .ret (s.val.map (FNum.root p)))
    (runs_reduceBuf (K := K) (· + ·) (w := fun _ _ => absFloatPower dt p x) ?_ (Runs.ret _)) ?_ (fun _ _ => rfl)
  · intro r hr q l h j hj
    have : (Layout.mk [1] .scatter 0 (fun _ => 1) none).members 1 r = [0] := rfl
    rw [this] at h
    obtain ⟨rfl, rfl⟩ := List.cons.inj h
    rfl
  · intro r hr
    have : reduceAxis (fun l => (.ok (l.map (absFloatPower dt p)).sum : Except Err FNum)) 0
        ((Layout.mk [1] .scatter 0 (fun _ => 1) none).fam 1 dt (fun _ => [x]) r).larr.flatten
        = .ok ⟨[], .real, [([x].map (absFloatPower dt p)).sum]⟩ := by
      have h1 := column_flat [x]
      have h2 : outer ((Layout.mk [1] .scatter 0 (fun _ => 1) none).fam 1 dt (fun _ => [x]) r).larr.flatten.shape 0
        * inner ((Layout.mk [1] .scatter 0 (fun _ => 1) none).fam 1 dt (fun _ => [x]) r).larr.flatten.shape 0 = 1 := rfl
      unfold reduceAxis
      rw [h2, mapM_ok]
      simp only [List.range_one, List.map_cons, List.map_nil, Nat.zero_div, Nat.zero_mod]
      have h3 : column (len ((Layout.mk [1] .scatter 0 (fun _ => 1) none).fam 1 dt (fun _ => [x]) r).larr.flatten.shape 0)
        (inner ((Layout.mk [1] .scatter 0 (fun _ => 1) none).fam 1 dt (fun _ => [x]) r).larr.flatten.shape 0)
        ((Layout.mk [1] .scatter 0 (fun _ => 1) none).fam 1 dt (fun _ => [x]) r).larr.flatten.data 0 0 = [x] := h1
      rw [h3]
      rfl
    have e : ((Layout.mk [1] .scatter 0 (fun _ => 1) none).fam 1 dt (fun _ => [x]) r).larr.flatten.dtype = dt := rfl
    rw [e, this]
    simp only [List.map_cons, List.map_nil, List.sum_cons, List.sum_nil, add_zero]
    rfl

/-- **C09 is false** for a fractional order on a real array with a negative entry: the ½-norm of
    the vector (-4) is 4, the code returns NaN. -/
theorem C09_violated_fractional :
    Always 1 (fun r => ((Layout.mk [1] .scatter 0 (fun _ => 1) none).fam 1 .real (fun _ => [(-4 : ℝ)]) r).norm
        (env 1 (fun _ _ => 0) r) (.num (1 / 2)) none)
      (fun _ => .ok ⟨[], .real, [.nan]⟩) ∧
    vecNorm (.num (1 / 2)) [(-4 : ℝ)] = .fin 4 := by
  constructor
  · refine (norm_single (by norm_num)).congr fun r _ => ?_
    have : ¬ ∃ m : ℤ, (1 / 2 : ℝ) = m := by
      rintro ⟨m, hm⟩
      have h2 : (2 * m : ℝ) = 1 := by rw [← hm]; norm_num
      have h3 : (2 * m : ℤ) = 1 := by exact_mod_cast h2
      omega
    simp only [absFloatPower]
    simp only [RCLike.re_to_real]
    rw [if_neg (by norm_num), if_neg (by norm_num), if_neg this, root_nan]
  · rw [vecNorm_pos (by norm_num)]
    congr 1
    simp only [List.map_cons, List.map_nil, List.sum_cons, List.sum_nil, add_zero]
    rw [← Real.rpow_mul (norm_nonneg _)]
    norm_num

/-- **C09 is false** for a negative order on a complex array with a zero entry: the (-1)-norm of
    (0) is 0 (the reciprocal of infinity), the code returns NaN. -/
theorem C09_violated_negative :
    Always 1 (fun r => ((Layout.mk [1] .scatter 0 (fun _ => 1) none).fam 1 .cplx (fun _ => [(0 : ℂ)]) r).norm
        (env 1 (fun _ _ => 0) r) (.num (-1)) none)
      (fun _ => .ok ⟨[], .real, [.nan]⟩) ∧
    vecNorm (.num (-1)) [(0 : ℂ)] = .fin 0 := by
  constructor
  · refine (norm_single (by norm_num)).congr fun r _ => ?_
    simp only [absFloatPower]
    rw [if_pos trivial, if_neg (by norm_num), root_nan]
  · have h : ¬ (0 : ℝ) < -1 := by norm_num
    have h' : ¬ (-1 : ℝ) = 0 := by norm_num
    simp [vecNorm, powAbs, h, FNum.root]

/-- **C09 is false** for ±inf when a rank holds no entries: on two ranks, the vector (1) (all of it
    on rank 0) makes rank 1 raise ValueError while rank 0 waits forever. -/
theorem C09_violated_empty (o : NormOrd) (ho : o.extremal) :
    Ends 2 (fun r => ((Layout.mk [1] .scatter 0 (fun r => 1 - r) none).fam 2 .real (fun r => if r = 0 then [(1 : ℝ)] else []) r).norm
        (env 2 (fun _ _ => 0) r) o none)
      (fun r => if r = 0 then none else some (.error .value)) := by
  refine Ends.of_blocked .refl fun r hr => ?_
  cases o with
  | inf =>
    match r, hr with
    | 0, _ =>
      right
      refine ⟨.allreduce, [0, 1], _, _, rfl, 1, by simp, ?_⟩
      intro v' k' h
      cases h
    | 1, _ => rfl
  | ninf =>
    match r, hr with
    | 0, _ =>
      right
      refine ⟨.allreduce, [0, 1], _, _, rfl, 1, by simp, ?_⟩
      intro v' k' h
      cases h
    | 1, _ => rfl
  | none => exact ho.elim
  | num p => exact ho.elim
  | fro => exact ho.elim
  | nuc => exact ho.elim

/-- **C10** (value), partial.  For a scattered array without mask, `x.norm(ord, axis=x.axis)` is,
    entry by entry, the norm along that axis of the global array, on every rank.  Missing: the same
    orders as in C09. -/
theorem C10_value_partial {L : Layout} {dt : DType} {a : Nat → List K} {o : NormOrd} (hL : L.WF n) (hm : L.mask = none)
    (hp : L.part = .scatter) (ha : L.Good n dt a) (hok : ∀ q < n, ∀ x ∈ a q, OrdOk o dt x)
    (hne : o.extremal → ∀ q < n, L.sizes q ≠ 0) (hfro : o ≠ .fro ∧ o ≠ .nuc) :
    Always n (fun r => (L.fam n dt a r).norm (env n J r) o (some L.axis))
      (fun _ => .ok ⟨L.gshape.eraseIdx L.axis, .real,
        (List.range (L.gshape.take L.axis).prod).flatMap fun i =>
          (List.range (L.gshape.drop (L.axis + 1)).prod).map fun k =>
            vecNorm o ((List.range (L.gshape.getD L.axis 0)).map fun j =>
              (L.global n dt a).data.getD ((i * L.gshape.getD L.axis 0 + j) * (L.gshape.drop (L.axis + 1)).prod + k) 0)⟩) := by
  rcases Nat.eq_zero_or_pos n with rfl | hn
  · exact Runs.of_zero.always
  refine ((runs_norm_axis (J := J) hn hL hp ha hok hne hfro hm).congr (fun _ _ => rfl) fun r hr => ?_).always
  rw [range_mul_flatMap (f := fun i k => vecNorm o (column (len L.gshape L.axis) (inner L.gshape L.axis) (L.globalData n a) i k))]
  congr 2
  apply List.flatMap_congr
  intro i _
  apply List.map_congr_left
  intro k _
  congr 1
  unfold column
  apply List.map_congr_left
  intro j _
  show (L.globalData n a).getD _ 0 = _
  congr 1
  show i * (len L.gshape L.axis * inner L.gshape L.axis) + j * inner L.gshape L.axis + k
    = (i * len L.gshape L.axis + j) * inner L.gshape L.axis + k
  ring

/-- **C10** (other axes).  Any other non-negative axis raises NotImplementedError on every rank. -/
theorem C10_other_axis {L : Layout} {dt : DType} {a : Nat → List K} {o : NormOrd} {ax : Nat}
    (hp : L.part = .scatter) (hax : ax ≠ L.axis) :
    Always n (fun r => (L.fam n dt a r).norm (env n J r) o (some ax)) (fun _ => .error .notImplemented) := by
  have hb : ¬ L.part.isBroadcast = true := by rw [hp]; simp [Partition.isBroadcast]
  unfold DArr.norm
  simp only [Prog.bind_eq]
  have h0 : Runs n (fun r => (L.fam n dt a r).toScatter (env n J r) (L.fam n dt a r).part) (fun r => .ok (L.fam n dt a r)) := by
    refine Runs.congr (Runs.ret _) (fun r _ => ?_) (fun _ _ => rfl)
    unfold DArr.toScatter
    exact (if_neg hb).symm
  refine (Runs.bind_ok h0 ?_).always
  refine Runs.congr (Runs.throw fun _ => .notImplemented) (fun r _ => ?_) (fun _ _ => rfl)
  exact (if_pos hax).symm

/-- Non-vacuity: a 2×3 real array scattered along axis 1 over two ranks; order 3. -/
example : (Layout.mk [2, 3] .scatter 1 (fun r => if r = 0 then 2 else 1) none).WF 2 ∧
    (Layout.mk [2, 3] .scatter 1 (fun r => if r = 0 then 2 else 1) none).Good 2 .real
      (fun r => if r = 0 then [1, -2, 3, 4] else [(5 : ℝ), 6]) ∧
    ∀ q < 2, ∀ x ∈ (fun r => if r = 0 then [1, -2, 3, 4] else [(5 : ℝ), 6]) q, OrdOk (.num 3) .real x := by
  refine ⟨⟨by decide, fun _ => rfl, by simp⟩, ⟨fun r hr => ?_, fun _ _ _ _ _ => rfl, by simp⟩, fun _ _ _ _ => ?_⟩
  · match r, hr with
    | 0, _ => rfl
    | 1, _ => rfl
  · exact .inr ⟨fun _ => .inl ⟨3, by norm_num⟩, by simp⟩

/-- Non-vacuity for ±inf: every rank holds an entry of a broadcast array of two entries. -/
example : ∀ q < 2, (Layout.mk [2] .broadcast 0 (fun _ => 0) none).shard 2 (fun _ => [(3 : ℝ), -4]) q ≠ [] := by
  intro q hq
  match q, hq with
  | 0, _ => exact List.cons_ne_nil _ _
  | 1, _ => exact List.cons_ne_nil _ _

end Verif

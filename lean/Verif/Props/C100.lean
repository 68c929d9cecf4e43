/- C100: the first part of the gallery script on stacked arrays. -/
import Verif.Model.GalleryStacked
import Verif.Props.C35
import Verif.Props.C94

set_option linter.unusedSectionVars false

namespace Verif
open NDArray

variable {K : Type} [RCLike K] {n : Nat} {J : Nat → Nat → K} {p q : Nat}

/-- the two arrays with `p` and `q` entries per rank -/
def pairSpace (n p q : Nat) : SSpace := [⟨.lin (n * p) fun _ => p, .real⟩, ⟨.lin (n * q) fun _ => q, .real⟩]

theorem pair_wf : (pairSpace n p q).WF n := fun V hV => by
  simp only [pairSpace, List.mem_cons, List.not_mem_nil, or_false] at hV
  rcases hV with rfl | rfl <;> exact lin_wf (psum_const _ n) (by simp)

theorem pair_mask : (pairSpace n p q).NoMask := fun V hV => by
  simp only [pairSpace, List.mem_cons, List.not_mem_nil, or_false] at hV
  rcases hV with rfl | rfl <;> rfl

theorem pair_ne : pairSpace n p q ≠ [] := by simp [pairSpace]

theorem pair_vec {a b : List K} (ha : a.length = n * p) (hb : b.length = n * q) (r : Nat) :
    (pairSpace n p q).vec n (a ++ b) r = [VSpace.vec ⟨.lin (n * p) fun _ => p, .real⟩ n a r, VSpace.vec ⟨.lin (n * q) fun _ => q, .real⟩ n b r] := by
  have e1 : (Layout.lin (n * p) fun _ => p).gshape.prod = a.length := by simp [Layout.lin, ha]
  have e2 : (Layout.lin (n * q) fun _ => q).gshape.prod = b.length := by simp [Layout.lin, hb]
  simp only [pairSpace, SSpace.vec, e1, e2, List.take_left, List.drop_left, List.take_length]

theorem pair_mem {a b : List K} (ha : a.length = n * p) (hb : b.length = n * q) (fa : FitsL .real a) (fb : FitsL .real b) : (pairSpace n p q).Mem (a ++ b) := by
  have e1 : (Layout.lin (n * p) fun _ => p).gshape.prod = a.length := by simp [Layout.lin, ha]
  have e2 : (Layout.lin (n * q) fun _ => q).gshape.prod = b.length := by simp [Layout.lin, hb]
  simp only [pairSpace, SSpace.Mem, VSpace.Mem, e1, e2, List.take_left, List.drop_left, List.take_length, List.drop_length, and_true, true_and]
  exact ⟨fa, fb⟩

theorem fits_replicate {k : Nat} {u : K} (hu : star u = u) : FitsL .real (List.replicate k u) := fun _ z hz => by rw [(List.mem_replicate.1 hz).2]; exact hu

theorem setAll_scatter {L : Layout} (hL : L.part = .scatter) {a : Nat → List K} {u : K} (hu : star u = u) {r : Nat} (ha : (a r).length = (L.lshape r).prod) :
    (L.fam n .real a r).setAll (env n J r) (scalar .real u) = .ret (L.fam n .real (fun r => List.replicate (L.lshape r).prod u) r) := by
  have h1 : castTo .real u = u := castTo_fit fun _ => hu
  have hb : ¬ (L.fam n .real a r).part = .broadcast := by show ¬ L.part = .broadcast; rw [hL]; simp
  unfold DArr.setAll DArr.setItem
  rw [if_neg hb]
  simp only [Prog.bind_eq]
  rw [setIndex_all_scalar (by exact ha)]
  simp [Layout.fam, h1]

theorem piece_const (k : Nat) (u : K) {r : Nat} (hr : r < n) : (Layout.lin (n * k) fun _ => k).piece (List.replicate (n * k) u) r = List.replicate k u := by
  have := piece_rep (n := n) (List.length_replicate (n := k) (a := u)) hr
  rwa [rep_replicate] at this

theorem runs_exPair (hn : 0 < n) {u v : K} (hu : star u = u) (hv : star v = v) :
    Runs n (fun r => exPair (env n J r) p q u v) (fun r => .ok ((pairSpace n p q).vec n (List.replicate (n * p) u ++ List.replicate (n * q) v) r)) := by
  have wf : ∀ k, (Layout.lin (n * k) fun _ => k).WF n := fun k => lin_wf (psum_const k n) (by simp)
  have bal : ∀ k, (Layout.lin (n * k) fun _ => k).part = .scatter → (Layout.lin (n * k) fun _ => k).sizes = balanced (len (Layout.lin (n * k) fun _ => k).gshape (Layout.lin (n * k) fun _ => k).axis) n :=
    fun k _ => by simp [Layout.lin, len, balanced_const k hn]
  unfold exPair
  simp only [Prog.bind_eq]
  refine Runs.bind_ok (runs_mkDArr_none (L := .lin (n * p) fun _ => p) (wf p) (bal p)) ?_
  refine Runs.bind_ok (runs_mkDArr_none (L := .lin (n * q) fun _ => q) (wf q) (bal q)) ?_
  refine (Runs.ret fun r => [(Layout.lin (n * p) fun _ => p).fam n .real (fun r => List.replicate ((Layout.lin (n * p) fun _ => p).lshape r).prod u) r,
    (Layout.lin (n * q) fun _ => q).fam n .real (fun r => List.replicate ((Layout.lin (n * q) fun _ => q).lshape r).prod v) r]).congr (fun r hr => ?_) fun r hr => ?_
  · rw [setAll_scatter (L := .lin (n * p) fun _ => p) rfl hu (length_junk r), setAll_scatter (L := .lin (n * q) fun _ => q) rfl hv (length_junk r)]
    rfl
  · rw [pair_vec (by simp) (by simp)]
    simp only [VSpace.vec, Layout.fam, piece_const _ _ hr, lshape_lin]
    simp

/-- what the first array contains after rank 0 has written `w` into its part -/
def modified (n p : Nat) (u w : K) : List K := List.replicate p w ++ List.replicate ((n - 1) * p) u

theorem length_modified (hn : 0 < n) (u w : K) : (modified n p u w).length = n * p := by
  obtain ⟨k, rfl⟩ : ∃ k, n = k + 1 := ⟨n - 1, by omega⟩
  simp [modified]
  ring

theorem piece_modified (hn : 0 < n) (u w : K) {r : Nat} (hr : r < n) : (Layout.lin (n * p) fun _ => p).piece (modified n p u w) r = List.replicate p (if r = 0 then w else u) := by
  rw [piece_lin (n := n) (psum_const p n) (length_modified hn u w) r, psum_const]
  cases r with
  | zero => simp [modified]
  | succ r =>
    have e : (modified n p u w).drop ((r + 1) * p) = List.replicate ((n - 1) * p - r * p) u := by
      rw [show (r + 1) * p = (List.replicate p w).length + r * p by rw [List.length_replicate]; ring, ← List.drop_drop, modified, List.drop_left, List.drop_replicate]
    have h1 : p ≤ (n - 1) * p - r * p := by
      rw [← Nat.sub_mul]
      exact Nat.le_mul_of_pos_left p (by omega)
    rw [e, List.take_replicate, min_eq_left h1]
    simp

theorem runs_exModify (hn : 0 < n) {u v w : K} (hw : star w = w) :
    Runs n (fun r => exModify (env n J r) w ((pairSpace n p q).vec n (List.replicate (n * p) u ++ List.replicate (n * q) v) r))
      (fun r => .ok ((pairSpace n p q).vec n (modified n p u w ++ List.replicate (n * q) v) r)) := by
  refine (Runs.ret fun r => (pairSpace n p q).vec n (modified n p u w ++ List.replicate (n * q) v) r).congr (fun r hr => ?_) fun _ _ => rfl
  rw [pair_vec (length_modified hn u w) (by simp), pair_vec (a := List.replicate (n * p) u) (by simp) (by simp)]
  unfold exModify
  have hrk : (env n J r).rank = r := rfl
  rw [hrk]
  split_ifs with h0
  · subst h0
    simp only [Prog.bind_eq, VSpace.vec]
    rw [setAll_scatter (L := .lin (n * p) fun _ => p) rfl hw (by simp only [piece_const p u hn, lshape_lin]; simp)]
    simp only [Prog.ret_bind, Layout.fam, piece_modified hn u w hn, lshape_lin]
    simp
  · simp only [VSpace.vec, Layout.fam, piece_modified hn u w hr, if_neg h0, piece_const p u hr]

theorem pair_normOk (hp : 0 < p) (hq : 0 < q) {a b : List K} (ha : a.length = n * p) (hb : b.length = n * q) {o : NormOrd} (ho : ∀ x : K, OrdOk o .real x) :
    (pairSpace n p q).NormOk n o (a ++ b) := by
  have e1 : (Layout.lin (n * p) fun _ => p).gshape.prod = a.length := by simp [Layout.lin, ha]
  have e2 : (Layout.lin (n * q) fun _ => q).gshape.prod = b.length := by simp [Layout.lin, hb]
  have key : ∀ {k : Nat} {d : List K}, 0 < k → d.length = n * k → VSpace.NormOk ⟨.lin (n * k) fun _ => k, .real⟩ n o d := by
    intro k d hk hd
    refine ⟨fun x _ => ho x, fun _ r hr he => ?_⟩
    have h1 : (Layout.lin (n * k) fun _ => k).shard n ((Layout.lin (n * k) fun _ => k).piece d) r = (Layout.lin (n * k) fun _ => k).piece d r := by
      simp [Layout.shard, Layout.lin, Partition.isBroadcast]
    rw [h1, piece_lin (n := n) (psum_const k n) hd r, psum_const] at he
    have h2 := congrArg List.length he
    rw [List.length_take, List.length_drop, hd, ← Nat.sub_mul, List.length_nil] at h2
    have h3 : k ≤ (n - r) * k := Nat.le_mul_of_pos_left k (by omega)
    rw [min_eq_left h3] at h2
    omega
  intro x hx
  simp only [pairSpace, SSpace.parts, e1, e2, List.take_left, List.drop_left, List.take_length, List.zip_cons_cons, List.zip_nil_right, List.mem_cons, List.not_mem_nil, or_false] at hx
  rcases hx with rfl | rfl
  · exact key hp ha
  · exact key hq hb

theorem pair_parts {a b : List K} (ha : a.length = n * p) (hb : b.length = n * q) : (pairSpace n p q).parts (a ++ b) = [a, b] := by
  have e1 : (Layout.lin (n * p) fun _ => p).gshape.prod = a.length := by simp [Layout.lin, ha]
  have e2 : (Layout.lin (n * q) fun _ => q).gshape.prod = b.length := by simp [Layout.lin, hb]
  simp only [pairSpace, SSpace.parts, e1, e2, List.take_left, List.drop_left, List.take_length]

theorem runs_pair_asarray {d : List K} (hd : (pairSpace n p q).Mem d) :
    Runs n (fun r => ((pairSpace n p q).vec n d r).asarray (env n J r)) (fun _ => .ok ⟨[n * p + n * q], .real, d⟩) := by
  have h := runs_asarray_svec (J := J) (S := pairSpace n p q) pair_wf pair_ne hd
  have e1 : (pairSpace n p q).dim = n * p + n * q := by simp [pairSpace, SSpace.dim, Layout.lin]
  have e2 : (pairSpace n p q).dtype = .real := rfl
  rwa [e1, e2] at h

/-- **C100** (any sizes and numbers).  With `p > 0` and `q > 0` entries per rank, on any number `n > 0` of ranks, for all real numbers that are written into the arrays, in every execution all
    ranks end with the arrays and numbers that NumPy gives for the two vectors
    `a` = `w` in the first `p` entries, `u₁` in the other `(n - 1) p` and `u₂` in the last `n q`, and `b` = `v₁` in `n p` entries and `v₂` in `n q`:
    the two vectors, -a, a + b, a - b, a * b, their dot product and the norms of `a` of order 0, 1, 2 and infinity.  Only rank 0 writes `w`. -/
theorem C100_stack (hn : 0 < n) (hp : 0 < p) (hq : 0 < q) {u₁ u₂ w v₁ v₂ : K} (hu₁ : star u₁ = u₁) (hu₂ : star u₂ = u₂) (hw : star w = w) (hv₁ : star v₁ = v₁) (hv₂ : star v₂ = v₂)
    {a b : List K} (ha : a = (List.replicate p w ++ List.replicate ((n - 1) * p) u₁) ++ List.replicate (n * q) u₂) (hb : b = List.replicate (n * p) v₁ ++ List.replicate (n * q) v₂) :
    Always n (fun r => exStackOps (env n J r) p q u₁ u₂ w v₁ v₂) (fun _ => .ok
      { full1 := ⟨[n * p + n * q], .real, List.replicate (n * p) u₁ ++ List.replicate (n * q) u₂⟩
        modified := ⟨[n * p + n * q], .real, a⟩
        full2 := ⟨[n * p + n * q], .real, b⟩
        neg := ⟨[n * p + n * q], .real, a.map (- ·)⟩
        sum := ⟨[n * p + n * q], .real, List.zipWith (· + ·) a b⟩
        sub := ⟨[n * p + n * q], .real, List.zipWith (· - ·) a b⟩
        mult := ⟨[n * p + n * q], .real, List.zipWith (· * ·) a b⟩
        dot := (List.zipWith (· * ·) a b).sum
        l0 := vecNorm (.num 0) a
        l1 := vecNorm (.num 1) a
        l2 := vecNorm (.num 2) a
        linf := vecNorm .inf a }) := by
  have ea : a = modified n p u₁ w ++ List.replicate (n * q) u₂ := ha
  have lm := length_modified (p := p) hn u₁ w
  have fm : FitsL .real (modified n p u₁ w) := fun _ z hz => by
    rcases List.mem_append.1 hz with h | h
    · exact fits_replicate hw rfl z h
    · exact fits_replicate hu₁ rfl z h
  have m1 : (pairSpace n p q).Mem (List.replicate (n * p) u₁ ++ List.replicate (n * q) u₂) := pair_mem (by simp) (by simp) (fits_replicate hu₁) (fits_replicate hu₂)
  have ma : (pairSpace n p q).Mem a := ea ▸ pair_mem lm (by simp) fm (fits_replicate hu₂)
  have mb : (pairSpace n p q).Mem b := hb ▸ pair_mem (by simp) (by simp) (fits_replicate hv₁) (fits_replicate hv₂)
  have nrm : ∀ {o : NormOrd}, (∀ x : K, OrdOk o .real x) → (o ≠ .fro ∧ o ≠ .nuc) →
      Runs n (fun r => ((pairSpace n p q).vec n a r).norm (env n J r) o) (fun _ => .ok (vecNorm o a)) := fun ho hf => by
    refine runs_norm_svec pair_wf pair_mask pair_ne ma (by rw [ea]; exact pair_normOk hp hq lm (by simp) ho) hf fun _ e he h0 => ?_
    rw [ea, pair_parts lm (by simp)] at he
    have h1 : 0 < n * p := Nat.mul_pos hn hp
    have h2 : 0 < n * q := Nat.mul_pos hn hq
    simp only [List.mem_cons, List.not_mem_nil, or_false] at he
    rcases he with rfl | rfl
    · rw [h0] at lm; simp at lm; omega
    · have := congrArg List.length h0; simp at this; omega
  have nint : ∀ (k : ℤ) (x : K), OrdOk (.num k) .real x := fun k x => .inr ⟨fun _ => .inl ⟨k, rfl⟩, fun h => by cases h⟩
  refine Runs.always ?_
  unfold exStackOps
  simp only [Prog.bind_eq]
  refine Runs.bind_ok (runs_exPair hn hu₁ hu₂) ?_
  refine Runs.bind_ok (runs_pair_asarray m1) ?_
  refine Runs.bind_ok (runs_exModify hn hw) ?_
  rw [← ea]
  refine Runs.bind_ok (runs_pair_asarray ma) ?_
  refine Runs.bind_ok (runs_exPair hn hv₁ hv₂) ?_
  rw [← hb]
  refine Runs.bind_ok (runs_pair_asarray mb) ?_
  refine Runs.bind_ok (runs_neg_svec pair_wf ma) ?_
  refine Runs.bind_ok (runs_pair_asarray (SSpace.mem_neg ma)) ?_
  refine Runs.bind_ok (runs_add_svec pair_wf ma mb) ?_
  refine Runs.bind_ok (runs_pair_asarray (SSpace.mem_add ma mb)) ?_
  refine Runs.bind_ok (runs_sub_svec pair_wf ma mb) ?_
  refine Runs.bind_ok (runs_pair_asarray (SSpace.mem_sub ma mb)) ?_
  refine Runs.bind_ok (runs_mul_svec pair_wf ma mb) ?_
  refine Runs.bind_ok (runs_pair_asarray (SSpace.Mem.zip (f := fun x y => x * y) (fun x y hx hy => by simp [hx, hy]) ma mb)) ?_
  refine Runs.bind_ok (runs_dot_svec pair_wf pair_mask ma mb) ?_
  refine Runs.bind_ok (nrm (by simpa using nint 0) ⟨by simp, by simp⟩) ?_
  refine Runs.bind_ok (nrm (by simpa using nint 1) ⟨by simp, by simp⟩) ?_
  refine Runs.bind_ok (nrm (by simpa using nint 2) ⟨by simp, by simp⟩) ?_
  exact Runs.bind_ok (nrm (fun _ => trivial) ⟨by simp, by simp⟩) (Runs.ret _)

/-! ### the numbers of the script -/

/-- **C100** (plot_stacked_array.py, with its numbers).  On any number `n > 0` of ranks, in every execution, all ranks end with the arrays below, the dot product 98 n + 450 and the norms
    14 n, 18 n + 90, √(26 n + 990) and 10. -/
theorem C100_script (hn : 0 < n) {J : Nat → Nat → ℝ} : Always n (fun r => exStackOps (env n J r) 10 4 (1 : ℝ) 2 10 5 6) (fun _ => .ok
    { full1 := ⟨[n * 10 + n * 4], .real, List.replicate (n * 10) 1 ++ List.replicate (n * 4) 2⟩
      modified := ⟨[n * 10 + n * 4], .real, List.replicate 10 10 ++ List.replicate ((n - 1) * 10) 1 ++ List.replicate (n * 4) 2⟩
      full2 := ⟨[n * 10 + n * 4], .real, List.replicate (n * 10) 5 ++ List.replicate (n * 4) 6⟩
      neg := ⟨[n * 10 + n * 4], .real, List.replicate 10 (-10) ++ List.replicate ((n - 1) * 10) (-1) ++ List.replicate (n * 4) (-2)⟩
      sum := ⟨[n * 10 + n * 4], .real, List.replicate 10 15 ++ List.replicate ((n - 1) * 10) 6 ++ List.replicate (n * 4) 8⟩
      sub := ⟨[n * 10 + n * 4], .real, List.replicate 10 5 ++ List.replicate ((n - 1) * 10) (-4) ++ List.replicate (n * 4) (-4)⟩
      mult := ⟨[n * 10 + n * 4], .real, List.replicate 10 50 ++ List.replicate ((n - 1) * 10) 5 ++ List.replicate (n * 4) 12⟩
      dot := 98 * n + 450
      l0 := .fin (14 * n)
      l1 := .fin (18 * n + 90)
      l2 := .fin (Real.sqrt (26 * n + 990))
      linf := .fin 10 }) := by
  obtain ⟨k, rfl⟩ : ∃ k, n = k + 1 := ⟨n - 1, by omega⟩
  have h := C100_stack (J := J) hn (p := 10) (q := 4) (by norm_num) (by norm_num) (u₁ := 1) (u₂ := 2) (w := 10) (v₁ := 5) (v₂ := 6) (by simp) (by simp) (by simp) (by simp) (by simp) rfl rfl
  have hz : ∀ f : ℝ → ℝ → ℝ, List.zipWith f (List.replicate 10 10 ++ List.replicate ((k + 1 - 1) * 10) 1 ++ List.replicate ((k + 1) * 4) 2) (List.replicate ((k + 1) * 10) 5 ++ List.replicate ((k + 1) * 4) 6)
      = List.replicate 10 (f 10 5) ++ List.replicate ((k + 1 - 1) * 10) (f 1 5) ++ List.replicate ((k + 1) * 4) (f 2 6) := by
    intro f
    have e : List.replicate ((k + 1) * 10) (5 : ℝ) = List.replicate 10 5 ++ List.replicate ((k + 1 - 1) * 10) 5 := by
      rw [← List.replicate_add]; congr 1; simp; ring
    rw [e, List.zipWith_append (by simp), List.zipWith_append (by simp), List.zipWith_replicate, List.zipWith_replicate, List.zipWith_replicate]
    simp
  rw [hz, hz, hz] at h
  refine h.congr fun r _ => ?_
  congr 1
  have hsum : ∀ x y z : ℝ, (List.replicate 10 x ++ List.replicate ((k + 1 - 1) * 10) y ++ List.replicate ((k + 1) * 4) z).sum = 10 * x + k * 10 * y + (k + 1) * 4 * z := by
    intro x y z
    simp only [List.sum_append, List.sum_replicate, nsmul_eq_mul, Nat.add_sub_cancel]
    push_cast
    ring
  have hmap : ∀ {β : Type} (g : ℝ → β), (List.replicate 10 (10 : ℝ) ++ List.replicate ((k + 1 - 1) * 10) 1 ++ List.replicate ((k + 1) * 4) 2).map g
      = List.replicate 10 (g 10) ++ List.replicate ((k + 1 - 1) * 10) (g 1) ++ List.replicate ((k + 1) * 4) (g 2) := by
    intro β g
    simp only [List.map_append, List.map_replicate]
  have hpow : ∀ {t : ℝ}, (List.replicate 10 (10 : ℝ) ++ List.replicate ((k + 1 - 1) * 10) 1 ++ List.replicate ((k + 1) * 4) 2).map (fun x => powAbs t ‖x‖)
      = ((List.replicate 10 ((10 : ℝ) ^ t) ++ List.replicate ((k + 1 - 1) * 10) ((1 : ℝ) ^ t) ++ List.replicate ((k + 1) * 4) ((2 : ℝ) ^ t))).map FNum.fin := by
    intro t
    rw [hmap]
    simp only [List.map_append, List.map_replicate]
    congr 1
    · congr 1 <;> congr 1 <;> simp [powAbs]
    · congr 1; simp [powAbs]
  have hl0 : vecNorm (.num 0) (List.replicate 10 (10 : ℝ) ++ List.replicate ((k + 1 - 1) * 10) 1 ++ List.replicate ((k + 1) * 4) 2) = .fin (14 * ((k + 1 : ℕ) : ℝ)) := by
    simp only [vecNorm, if_true, List.countP_append, List.countP_replicate]
    norm_num
    ring
  have hl1 : vecNorm (.num 1) (List.replicate 10 (10 : ℝ) ++ List.replicate ((k + 1 - 1) * 10) 1 ++ List.replicate ((k + 1) * 4) 2) = .fin (18 * ((k + 1 : ℕ) : ℝ) + 90) := by
    have h0 : (18 * ((k + 1 : ℕ) : ℝ) + 90) ≠ 0 := by positivity
    simp only [vecNorm, one_ne_zero, if_false]
    rw [hpow, FNum.sum_fin, hsum]
    have e : 10 * (10 : ℝ) ^ (1 : ℝ) + k * 10 * (1 : ℝ) ^ (1 : ℝ) + (k + 1) * 4 * (2 : ℝ) ^ (1 : ℝ) = 18 * ((k + 1 : ℕ) : ℝ) + 90 := by
      simp only [Real.rpow_one]; push_cast; ring
    rw [e, FNum.root, if_neg h0]
    norm_num
  have hl2 : vecNorm (.num 2) (List.replicate 10 (10 : ℝ) ++ List.replicate ((k + 1 - 1) * 10) 1 ++ List.replicate ((k + 1) * 4) 2) = .fin (Real.sqrt (26 * ((k + 1 : ℕ) : ℝ) + 990)) := by
    have h0 : (26 * ((k + 1 : ℕ) : ℝ) + 990) ≠ 0 := by positivity
    simp only [vecNorm, two_ne_zero, if_false]
    rw [hpow, FNum.sum_fin, hsum]
    have e : 10 * (10 : ℝ) ^ (2 : ℝ) + k * 10 * (1 : ℝ) ^ (2 : ℝ) + (k + 1) * 4 * (2 : ℝ) ^ (2 : ℝ) = 26 * ((k + 1 : ℕ) : ℝ) + 990 := by
      simp only [Real.rpow_two]; push_cast; ring
    rw [e, FNum.root, if_neg h0, Real.sqrt_eq_rpow]
  have hli : vecNorm .inf (List.replicate 10 (10 : ℝ) ++ List.replicate ((k + 1 - 1) * 10) 1 ++ List.replicate ((k + 1) * 4) 2) = .fin 10 := by
    have : ((List.replicate 10 (10 : ℝ) ++ List.replicate ((k + 1 - 1) * 10) 1 ++ List.replicate ((k + 1) * 4) 2).map fun x => ‖x‖).max? = some 10 := by
      rw [hmap, List.max?_eq_some_iff]
      constructor
      · simp
      · intro b hb
        simp only [List.mem_append, List.mem_replicate] at hb
        rcases hb with (⟨_, rfl⟩ | ⟨_, rfl⟩) | ⟨_, rfl⟩ <;> norm_num
    simp only [vecNorm, this]
  rw [hl0, hl1, hl2, hli, hsum, hmap]
  congr 1 <;> first | rfl | norm_num
  ring

/-- Non-vacuity: three ranks, other sizes and numbers; the stack starts with two entries written by rank 0. -/
example (J : Nat → Nat → ℝ) : ∃ o, Always 3 (fun r => exStackOps (env 3 J r) 2 1 (1 : ℝ) 2 (-7) 5 6) (fun _ => .ok o) ∧
    o.modified.data = [-7, -7, 1, 1, 1, 1, 2, 2, 2] ∧ o.mult.data = [-35, -35, 5, 5, 5, 5, 12, 12, 12] :=
  ⟨_, C100_stack (n := 3) (J := J) (by norm_num) (p := 2) (q := 1) (by norm_num) (by norm_num) (by simp) (by simp) (by simp) (by simp) (by simp) rfl rfl,
    by simp [List.replicate], by norm_num [List.replicate]⟩

end Verif

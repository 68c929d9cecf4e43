/- `cgls` for operators that carry a subspace into another one like a smaller operator, and vectors that are one block repeated. -/
import Verif.Proofs.Descent

set_option linter.unusedSectionVars false

namespace Verif
open NDArray Serial

section
variable {K : Type} [RCLike K] {E F E' F' : Type} [NormedAddCommGroup E] [InnerProductSpace K E] [NormedAddCommGroup F] [InnerProductSpace K F]
  [NormedAddCommGroup E'] [InnerProductSpace K E'] [NormedAddCommGroup F'] [InnerProductSpace K F']
  {A : E → F} {B : F → E} {A' : E' → F'} {B' : F' → E'} {I : E →ₗ[K] E'} {G : F →ₗ[K] F'} {ν : ℝ}

/-- if the operators `A'` and `B'` act on the images of `I` and `G` like `A` and `B`, and both embeddings scale squared norms by `ν`, then the states of `cgls` are embedded, step by step -/
theorem seq_embed (hν : ν ≠ 0) (hI : ∀ x, ‖I x‖ ^ 2 = ν * ‖x‖ ^ 2) (hG : ∀ y, ‖G y‖ ^ 2 = ν * ‖y‖ ^ 2) (hA : ∀ x, A' (I x) = G (A x)) (hB : ∀ y, B' (G y) = I (B y))
    (δ₀ δ : ℝ) (y : F) (x0 : E) (j : Nat) :
    let s := CGLS.seq K A B δ₀ δ y x0 j
    CGLS.seq K A' B' δ₀ δ (G y) (I x0) j = ⟨I s.x, G s.s, I s.c, G s.q, ν * s.k⟩ := by
  induction j with
  | zero =>
    show CGLS.init A' B' δ₀ K (G y) (I x0) = _
    simp only [CGLS.seq, Function.iterate_zero, id_eq, CGLS.init, hA, ← map_sub, hB, ← map_smul, hI]
  | succ j ih =>
    intro s
    have e : s = CGLS.next K A B δ (CGLS.seq K A B δ₀ δ y x0 j) := Function.iterate_succ_apply' _ _ _
    have e' : CGLS.seq K A' B' δ₀ δ (G y) (I x0) (j + 1) = CGLS.next K A' B' δ (CGLS.seq K A' B' δ₀ δ (G y) (I x0) j) := Function.iterate_succ_apply' _ _ _
    rw [e', e, ih]
    set t := CGLS.seq K A B δ₀ δ y x0 j
    have ha : CGLS.alpha δ (⟨I t.x, G t.s, I t.c, G t.q, ν * t.k⟩ : CGLS E' F') = CGLS.alpha δ t := by
      unfold CGLS.alpha
      simp only [hI, hG]
      rw [show ν * ‖t.q‖ ^ 2 + δ * (ν * ‖t.c‖ ^ 2) = ν * (‖t.q‖ ^ 2 + δ * ‖t.c‖ ^ 2) by ring, mul_div_mul_left _ _ hν]
    have hg : CGLS.grad K B' δ (⟨I t.x, G t.s, I t.c, G t.q, ν * t.k⟩ : CGLS E' F') = I (CGLS.grad K B δ t) := by
      unfold CGLS.grad
      rw [ha]
      simp only [← map_smul, ← map_sub, ← map_add, hB]
    unfold CGLS.next
    simp only [ha, hg, hI, mul_div_mul_left _ _ hν]
    simp only [← map_smul, ← map_sub, ← map_add, hA]

theorem breaks_embed (hν : ν ≠ 0) (hI : ∀ x, ‖I x‖ ^ 2 = ν * ‖x‖ ^ 2) (hG : ∀ y, ‖G y‖ ^ 2 = ν * ‖y‖ ^ 2) {δ : ℝ} {t : CGLS E F} :
    CGLS.Breaks δ (⟨I t.x, G t.s, I t.c, G t.q, ν * t.k⟩ : CGLS E' F') ↔ CGLS.Breaks δ t := by
  unfold CGLS.Breaks
  simp only [hI, hG]
  rw [show ν * ‖t.q‖ ^ 2 + δ * (ν * ‖t.c‖ ^ 2) = ν * (‖t.q‖ ^ 2 + δ * ‖t.c‖ ^ 2) by ring]
  simp [hν]

end

variable {K : Type} [RCLike K] {n M : Nat}

/-- the vector `v`, `n` times -/
def rep (n : Nat) (v : List K) : List K := (List.replicate n v).flatten

theorem length_rep (v : List K) : (rep n v).length = n * v.length := by simp [rep]

theorem sqN_rep (n : Nat) (v : List K) : sqN (rep n v) = n * sqN v := by
  induction n with
  | zero => simp [rep, sqN]
  | succ n ih =>
    have : rep (n + 1) v = v ++ rep n v := by simp [rep, List.replicate_succ]
    rw [this, sqN_append, ih]
    push_cast
    ring

theorem rep_succ (n : Nat) (v : List K) : rep (n + 1) v = v ++ rep n v := by simp [rep, List.replicate_succ]

theorem rep_replicate (n M : Nat) (z : K) : rep n (List.replicate M z) = List.replicate (n * M) z := by
  simp [rep]

/-- the embedding that repeats a vector `n` times -/
noncomputable def repV (K : Type) [RCLike K] (n M : Nat) : Vec K M →ₗ[K] Vec K (n * M) where
  toFun x := WithLp.toLp 2 fun i : Fin (n * M) => x (Fin.modNat i)
  map_add' x y := by ext i; simp
  map_smul' c x := by ext i; simp

theorem toL_repV (x : Vec K M) : toL (repV K n M x) = rep n (toL x) := by
  have e : toL (repV K n M x) = List.ofFn fun i : Fin (n * M) => x (Fin.modNat i) := rfl
  rw [e, List.ofFn_mul]
  unfold rep
  congr 1
  have : (fun i : Fin n => List.ofFn fun j : Fin M => x (Fin.modNat (⟨↑i * M + ↑j, by
      calc (i : Nat) * M + j < (i + 1) * M := by rw [Nat.add_mul]; have := j.2; omega
        _ ≤ n * M := Nat.mul_le_mul_right _ i.2⟩ : Fin (n * M)))) = fun _ => toL x := by
    funext i
    unfold toL
    congr 1
    funext j
    have : Fin.modNat (⟨↑i * M + ↑j, by
      calc (i : Nat) * M + j < (i + 1) * M := by rw [Nat.add_mul]; have := j.2; omega
        _ ≤ n * M := Nat.mul_le_mul_right _ i.2⟩ : Fin (n * M)) = j := by
      apply Fin.ext
      simp [Fin.modNat, Nat.add_mod, Nat.mod_eq_of_lt j.2]
    rw [this]
  rw [this, List.ofFn_const]

theorem norm_repV (x : Vec K M) : ‖repV K n M x‖ ^ 2 = n * ‖x‖ ^ 2 := by
  rw [← sqN_toL, toL_repV, sqN_rep, sqN_toL]

theorem allOps_const (n : Nat) (o : LOp K) : allOps n (fun _ => [o]) = List.replicate n o := by
  unfold allOps
  induction n with
  | zero => rfl
  | succ n ih => rw [List.range_succ, List.flatMap_append, ih, List.replicate_succ']; rfl

theorem inSum_const (b : Bool) (n : Nat) (o : LOp K) : inSum b (allOps n fun _ => [o]) = n * o.inDim b := by
  rw [allOps_const]; simp [inSum]

/-- equal blocks on equal slices -/
theorem blockDiag_rep {b : Bool} {o : LOp K} {x : List K} (hx : x.length = o.inDim b) (n : Nat) :
    blockDiag b (allOps n fun _ => [o]) (rep n x) = rep n (o.fn b x) := by
  rw [allOps_const]
  induction n with
  | zero => rfl
  | succ n ih =>
    unfold blockDiag at ih ⊢
    rw [List.replicate_succ, rep_succ, rep_succ, slices, List.flatten_cons, ← hx, List.take_left, List.drop_left, ih]

end Verif

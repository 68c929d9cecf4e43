/- C35: stacked arrays. -/
import Verif.Proofs.StackedNorm
import Verif.MPI.Sim
import Verif.Spec.Gauss

set_option linter.unusedSectionVars false

namespace Verif
open NDArray

section
variable {K : Type} [Field K] [StarRing K] [CharZero K] {n : Nat} {J : Nat → Nat → K} {S : SSpace}

/-- **C35**, partial.  For stacks of any number of components, any layouts and any number of ranks: the operations leave on all ranks, in all executions, their parts of
    the result of the operation on the concatenation `d` (and `e`) of the flattened components.
    Missing for the full statement: operands with different dtypes (`C35_violated_dtype`), complex factors on real components, masks and
    inadmissible orders of the norm (see C09, C11). -/
theorem C35_partial (hS : S.WF n) {d e : List K} (hd : S.Mem d) (he : S.Mem e) {t : DType} {s : K} (hs : ∀ V ∈ S, V.dt = .real → star s = s) :
    Always n (fun r => (S.vec n d r).copy (env n J r)) (fun r => .ok (S.vec n d r)) ∧
    Always n (fun r => (S.vec n d r).conj (env n J r)) (fun r => .ok (S.vec n (d.map star) r)) ∧
    Always n (fun r => (S.vec n d r).neg (env n J r)) (fun r => .ok (S.vec n (d.map (- ·)) r)) ∧
    Always n (fun r => (S.vec n d r).add (env n J r) (S.vec n e r)) (fun r => .ok (S.vec n (List.zipWith (· + ·) d e) r)) ∧
    Always n (fun r => (S.vec n d r).iadd (env n J r) (S.vec n e r)) (fun r => .ok (S.vec n (List.zipWith (· + ·) d e) r)) ∧
    Always n (fun r => (S.vec n d r).sub' (env n J r) (S.vec n e r)) (fun r => .ok (S.vec n (List.zipWith (· - ·) d e) r)) ∧
    Always n (fun r => (S.vec n d r).isub (env n J r) (S.vec n e r)) (fun r => .ok (S.vec n (List.zipWith (· - ·) d e) r)) ∧
    Always n (fun r => (S.vec n d r).mul (env n J r) (S.vec n e r)) (fun r => .ok (S.vec n (List.zipWith (· * ·) d e) r)) ∧
    Always n (fun r => (S.vec n d r).smul (env n J r) t s) (fun r => .ok (S.vec n (d.map (· * s)) r)) :=
  ⟨(runs_copy_svec hS hd).always, (runs_conj_svec hS hd).always, (runs_neg_svec hS hd).always, (runs_add_svec hS hd he).always,
    (runs_iadd_svec hS hd he).always, (runs_sub_svec hS hd he).always, (runs_isub_svec hS hd he).always, (runs_mul_svec hS hd he).always,
    (runs_smul_svec hS hs hd).always⟩

/-- **C35** (dot).  The dot product of two stacks is that of their concatenations. -/
theorem C35_dot_partial (hS : S.WF n) (hm : S.NoMask) {d e : List K} (hd : S.Mem d) (he : S.Mem e) :
    Always n (fun r => (S.vec n d r).dot (env n J r) (S.vec n e r)) (fun _ => .ok (List.zipWith (· * ·) d e).sum) :=
  (runs_dot_svec hS hm hd he).always

/-- **C35** (gathering). `asarray` returns the concatenation on every rank; an empty stack raises. -/
theorem C35_asarray (hS : S.WF n) {d : List K} (hd : S.Mem d) :
    (S ≠ [] → Always n (fun r => (S.vec n d r).asarray (env n J r)) (fun _ => .ok ⟨[S.dim], S.dtype, d⟩)) ∧
    (S = [] → Always n (fun r => (S.vec n d r).asarray (env n J r)) (fun _ => .error .value)) := by
  refine ⟨fun h => (runs_asarray_svec hS h hd).always, fun h => ?_⟩
  subst h
  exact ((Runs.throw fun _ => .value).congr (fun _ _ => rfl) fun _ _ => rfl).always

/-- **C35** (rejection).  Stacks with different numbers of components, or with a component of different global shape, are rejected with ValueError on every rank,
    whatever the components are. -/
theorem C35_reject {x y : Nat → SArr K} (h : ∀ r < n, (x r).length ≠ (y r).length ∨ (x r).map (·.gshape) ≠ (y r).map (·.gshape)) :
    Always n (fun r => (x r).add (env n J r) (y r)) (fun _ => .error .value) ∧
    Always n (fun r => (x r).iadd (env n J r) (y r)) (fun _ => .error .value) ∧
    Always n (fun r => (x r).mul (env n J r) (y r)) (fun _ => .error .value) ∧
    Always n (fun r => (x r).dot (env n J r) (y r)) (fun _ => .error .value) := by
  have hc : ∀ r < n, SArr.checkSize (x r) (y r) = .throw .value := by
    intro r hr
    unfold SArr.checkSize
    split_ifs with h1 h2
    · rfl
    · rfl
    · exact absurd (h r hr) (by simp [not_not.1 h1, not_not.1 h2])
  refine ⟨?_, ?_, ?_, ?_⟩ <;>
  · refine ((Runs.throw fun _ => .value).congr (fun r hr => ?_) fun _ _ => rfl).always
    simp only [SArr.add, SArr.iadd, SArr.mul, SArr.dot, Prog.bind_eq, hc r hr, Prog.throw_bind]

end

section
variable {K : Type} [RCLike K] {n : Nat} {J : Nat → Nat → K} {S : SSpace}

/-- **C35** (norm), partial: the norm of a stack is the norm of the concatenation, for all orders admissible for each component. -/
theorem C35_norm_partial (hS : S.WF n) (hm : S.NoMask) (h0 : S ≠ []) {o : NormOrd} {d : List K} (hd : S.Mem d) (ho : S.NormOk n o d)
    (hfro : o ≠ .fro ∧ o ≠ .nuc) (hne : o.extremal → ∀ e ∈ S.parts d, e ≠ []) :
    Always n (fun r => (S.vec n d r).norm (env n J r) o) (fun _ => .ok (vecNorm o d)) :=
  (runs_norm_svec hS hm h0 hd ho hfro hne).always

/-- the Euclidean norm: no side conditions on the entries -/
theorem C35_norm_euclidean (hS : S.WF n) (hm : S.NoMask) (h0 : S ≠ []) {d : List K} (hd : S.Mem d) :
    Always n (fun r => (S.vec n d r).norm (env n J r) .none) (fun _ => .ok (.fin (Real.sqrt (d.map fun x => ‖x‖ ^ 2).sum))) :=
  C35_norm_partial hS hm h0 hd (fun _ _ => ⟨fun _ _ => trivial, fun h => h.elim⟩) ⟨by simp, by simp⟩ (fun h => h.elim)

end

/-- a stack of a scattered and a broadcast vector on two ranks, used below -/
def exStack : SSpace := [⟨.lin 3 (fun r => if r = 0 then 2 else 1), .real⟩, ⟨.all 2, .real⟩]

/-- Non-vacuity: the stack above is valid on two ranks and [1, 2, 3, 4, 5] is a vector of it. -/
example : exStack.WF 2 ∧ exStack.NoMask ∧ exStack ≠ [] ∧ exStack.Mem ([1, 2, 3, 4, 5] : List ℚ) ∧ exStack.Mem ([0, 1, 0, 2, 3] : List ℚ) := by
  refine ⟨fun V hV => ?_, fun V hV => ?_, by simp [exStack], ?_, ?_⟩
  · simp only [exStack, List.mem_cons, List.not_mem_nil, or_false] at hV
    rcases hV with rfl | rfl
    · exact ⟨by decide, fun _ => by decide, by simp [Layout.lin]⟩
    · exact ⟨by decide, fun h => by simp [Layout.all] at h, by simp [Layout.all]⟩
  · simp only [exStack, List.mem_cons, List.not_mem_nil, or_false] at hV
    rcases hV with rfl | rfl <;> rfl
  · exact ⟨⟨rfl, fun _ _ _ => rfl⟩, ⟨rfl, fun _ _ _ => rfl⟩, rfl⟩
  · exact ⟨⟨rfl, fun _ _ _ => rfl⟩, ⟨rfl, fun _ _ _ => rfl⟩, rfl⟩

/-- Non-vacuity of the rejection: a stack with one more component. -/
example : ∀ r < 2, (exStack.vec 2 ([1, 2, 3, 4, 5] : List ℚ) r).length ≠ ((exStack ++ exStack).vec 2 ([1, 2, 3, 4, 5, 1, 2, 3, 4, 5] : List ℚ) r).length := by
  intro r _
  rw [SSpace.length_vec, SSpace.length_vec]
  simp [exStack]

/-- **C35 is false** for operands of different dtypes: x = [[1]] (real), y = [[i]] (complex) on one rank: `x + y` holds 1 instead of 1 + i. -/
theorem C35_violated_dtype :
    ∃ σ : Nat → SArr QI, Always 1 (fun r => SArr.add (env 1 (fun _ _ => 0) r) (SSpace.vec 1 [⟨.lin 1 fun _ => 1, .real⟩] [1] r)
        (SSpace.vec 1 [⟨.lin 1 fun _ => 1, .cplx⟩] [QI.I] r)) (fun r => .ok (σ r)) ∧
      ∀ r < 1, ([[[1]]] : List (List (List QI)))[r]? = some ((σ r).map (·.larr.data)) := by
  obtain ⟨σ, h1, h2⟩ := runs_of_simOk 40 (ps := fun r => SArr.add (env 1 (fun _ _ => (0 : QI)) r) (SSpace.vec 1 [⟨.lin 1 fun _ => 1, .real⟩] [1] r)
        (SSpace.vec 1 [⟨.lin 1 fun _ => 1, .cplx⟩] [QI.I] r)) (g := fun s : SArr QI => s.map (·.larr.data)) (n := 1) (outs := [[[1]]]) (by decide) (by decide +kernel)
  exact ⟨σ, h1.always, h2⟩

end Verif

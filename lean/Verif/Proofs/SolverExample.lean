/- Operator expressions as the operator of a solver, and the operator diag(a, b) on two ranks used in the examples. -/
import Verif.Proofs.Solvers
import Verif.Props.C27
import Verif.Proofs.StackedOperator

set_option linter.unusedSectionVars false

namespace Verif
open NDArray

section
variable {K ι : Type} [RCLike K] {lv : Leaves K ι} {n : Nat} {J : Nat → Nat → K} {prim : ι → Nat → Prim K} {M N : Nat}

/-- matvec (`b = false`) or rmatvec (`b = true`) of the operator of a solver -/
def XOp.dir (o : XOp K) (b : Bool) : Ctx K → XArr K → P K (XArr K) := if b then o.rmv else o.mv

theorem typed_acts {e : MOp K ι} {b : Bool} {S T : VSpace} (h : Typed lv n J prim b e S T) {A : Vec K M → Vec K N}
    (hA : ∀ x, S.Mem (toL x) → toL (A x) = den lv b e (toL x)) :
    Acts n J (fun r => (MOp.toX (e.map (prim · r))).dir b) (.one S) (.one T) A := by
  refine XComputes.acts (f := den lv b e) (fun d hd => ?_) hA
  obtain ⟨h1, h2⟩ := typed_computes h d hd
  refine ⟨h1, Runs.always ?_⟩
  have := Runs.map_ok XArr.one h2.runs
  refine this.congr (fun r _ => ?_) fun r _ => rfl
  cases b <;> rfl

theorem styped_acts {e : SOp K ι} {b : Bool} {S T : XSpace} (h : STyped lv n J prim b e S T) {A : Vec K M → Vec K N}
    (hA : ∀ x, S.Has x → toL (A x) = sden lv b e (toL x)) :
    Acts n J (fun r => (SOp.toX (e.map (prim · r))).dir b) S T A := by
  refine XComputes.acts (f := sden lv b e) ?_ hA
  have := styped_computes h
  cases b <;> exact this

end

/-! ### diag(a, b) on two ranks -/

namespace Diag2

/-- the 1 × 1 matrix `a` -/
noncomputable def one (a : ℝ) : LOp ℝ := ⟨1, 1, .real, fun x => x.map (a * ·), fun x => x.map (a * ·)⟩
/-- each rank has one number -/
noncomputable def ops (a b : ℝ) (r : Nat) : List (LOp ℝ) := if r = 0 then [one a] else [one b]
/-- two entries, one on each rank -/
def V : VSpace := ⟨.lin 2 fun _ => 1, .real⟩
/-- `MPIBlockDiag` -/
noncomputable def op (a b : ℝ) (r : Nat) : XOp ℝ := MOp.toX (.leaf (bdPrim 2 (ops a b) none .real r))
/-- the matrix diag(a, b) -/
noncomputable def A (a b : ℝ) : Vec ℝ 2 →ₗ[ℝ] Vec ℝ 2 where
  toFun x := !₂[a * x 0, b * x 1]
  map_add' x y := by ext i; fin_cases i <;> simp [mul_add]
  map_smul' c x := by ext i; fin_cases i <;> simp <;> ring

theorem wf : (XSpace.one V).WF 2 := lin_wf (by simp [psum]) (by simp)

theorem has (x : Vec ℝ 2) : (XSpace.one V).Has x := ⟨by simp [V, Layout.lin], fun _ z _ => by simp⟩

theorem noMask : (XSpace.one V).NoMask := rfl

theorem inL_eq (a b : ℝ) (d : Bool) : inL d 2 (ops a b) = V.L := by
  unfold inL V
  have : (fun r => inSum d (ops a b r)) = fun _ => 1 := by
    funext r; unfold ops; split_ifs <;> cases d <;> simp [inSum, LOp.inDim, one]
  rw [this]
  cases d <;> simp [inSum, LOp.inDim, one, allOps, ops, List.range_succ]

theorem ok (a b : ℝ) (d : Bool) {o : LOp ℝ} (h : o ∈ allOps 2 (ops a b)) : o.Ok d .real .real := by
  have : ∃ a, o = one a := by
    simp only [allOps, List.mem_flatMap, List.mem_range, ops] at h
    obtain ⟨q, _, h⟩ := h
    split_ifs at h <;> exact ⟨_, by simpa using h⟩
  obtain ⟨c, rfl⟩ := this
  refine ⟨fun x hx => ?_, fun x _ _ _ z _ => by simp⟩
  cases d <;> simpa [one, LOp.fn, LOp.inDim, LOp.outDim] using hx

theorem acts (a b : ℝ) (d : Bool) (J : Nat → Nat → ℝ) : Acts 2 J (fun r => (op a b r).dir d) (.one V) (.one V) (A a b) := by
  let lv : Leaves ℝ Unit := ⟨fun _ => (2, 2), fun _ d => blockDiag d (allOps 2 (ops a b))⟩
  have h := typed_blockDiag (lv := lv) (J := J) (n := 2) (prim := fun _ => bdPrim 2 (ops a b) none .real) (i := ()) (b := d) (dx := .real) (dt := .real)
      (ops := ops a b) (fun _ => rfl) (by simp [lv, inSum, LOp.inDim, one, allOps, ops, List.range_succ]) rfl (fun o ho => ok a b d ho)
      (fun r _ => by unfold ops; split_ifs <;> simp)
  rw [inL_eq, inL_eq] at h
  refine typed_acts (e := .leaf ()) h fun x hx => ?_
  cases d <;> simp [den, lv, allOps, ops, List.range_succ, blockDiag, slices, one, LOp.inDim, LOp.fn, toL, List.ofFn_succ, A]

theorem adj (a b : ℝ) (x z : Vec ℝ 2) : inner ℝ (A a b x) z = inner ℝ x (A a b z) := by
  simp [A, PiLp.inner_apply, Fin.sum_univ_two]
  ring

end Diag2
end Verif

/- Operations on the parts of vectors of a Euclidean space. -/
import Verif.Spec.Solvers
import Verif.Model.Solvers
import Verif.Proofs.XVec

set_option linter.unusedSectionVars false

namespace Verif
open NDArray

variable {K : Type} [RCLike K] {n : Nat} {J : Nat → Nat → K} {S T : XSpace} {M N : Nat}

@[simp] theorem length_toL (x : Vec K N) : (toL x).length = N := by simp [toL]

theorem toL_zip (f : K → K → K) {x y z : Vec K N} (h : ∀ i, z i = f (x i) (y i)) : toL z = List.zipWith f (toL x) (toL y) := by
  apply List.ext_getElem
  · simp
  · intro i h1 h2
    simp [toL, h]

theorem toL_map (f : K → K) {x z : Vec K N} (h : ∀ i, z i = f (x i)) : toL z = (toL x).map f := by
  apply List.ext_getElem
  · simp
  · intro i h1 h2
    simp [toL, h]

theorem toL_add (x y : Vec K N) : toL (x + y) = List.zipWith (· + ·) (toL x) (toL y) := toL_zip _ fun _ => rfl
theorem toL_sub (x y : Vec K N) : toL (x - y) = List.zipWith (· - ·) (toL x) (toL y) := toL_zip _ fun _ => rfl
theorem toL_smul (a : K) (x : Vec K N) : toL (a • x) = (toL x).map (· * a) := toL_map _ fun i => by simp [mul_comm]

theorem sum_toL (x y : Vec K N) : (List.zipWith (· * ·) (toL x) ((toL y).map star)).sum = inner K y x := by
  have : List.zipWith (· * ·) (toL x) ((toL y).map star) = List.ofFn fun i => x i * star (y i) := by
    apply List.ext_getElem
    · simp
    · intro i h1 h2; simp [toL]
  rw [this, List.sum_ofFn, PiLp.inner_apply]
  apply Finset.sum_congr rfl
  intro i _
  rw [RCLike.inner_apply]
  rfl

theorem norm_toL (x : Vec K N) : Real.sqrt ((toL x).map fun z => ‖z‖ ^ 2).sum = ‖x‖ := by
  rw [EuclideanSpace.norm_eq]
  congr 1
  rw [toL, List.map_ofFn, List.sum_ofFn]
  rfl

theorem XSpace.Has.dim {x : Vec K N} (h : S.Has x) : S.dim = N := by
  have := XSpace.Mem.length h
  rw [length_toL] at this
  exact this.symm

theorem has_add {x y : Vec K N} (hx : S.Has x) (hy : S.Has y) : S.Has (x + y) := by unfold XSpace.Has; rw [toL_add]; exact XSpace.mem_add hx hy
theorem has_sub {x y : Vec K N} (hx : S.Has x) (hy : S.Has y) : S.Has (x - y) := by unfold XSpace.Has; rw [toL_sub]; exact XSpace.mem_sub hx hy
theorem has_smul (a : ℝ) {x : Vec K N} (hx : S.Has x) : S.Has ((a : K) • x) := by
  unfold XSpace.Has; rw [toL_smul]; exact XSpace.mem_smul (fun _ => by simp) hx

theorem runs_copy_part (hS : S.WF n) {x : Vec K N} (hx : S.Has x) : Runs n (fun r => (S.part n x r).copy (env n J r)) (fun r => .ok (S.part n x r)) :=
  runs_copy_xvec hS hx

theorem runs_add_part (hS : S.WF n) {x y : Vec K N} (hx : S.Has x) (hy : S.Has y) :
    Runs n (fun r => (S.part n x r).add (env n J r) (S.part n y r)) (fun r => .ok (S.part n (x + y) r)) := by
  unfold XSpace.part; rw [toL_add]; exact runs_add_xvec hS hx hy

theorem runs_iadd_part (hS : S.WF n) {x y : Vec K N} (hx : S.Has x) (hy : S.Has y) :
    Runs n (fun r => (S.part n x r).iadd (env n J r) (S.part n y r)) (fun r => .ok (S.part n (x + y) r)) := by
  unfold XSpace.part; rw [toL_add]; exact runs_iadd_xvec hS hx hy

theorem runs_sub_part (hS : S.WF n) {x y : Vec K N} (hx : S.Has x) (hy : S.Has y) :
    Runs n (fun r => (S.part n x r).sub' (env n J r) (S.part n y r)) (fun r => .ok (S.part n (x - y) r)) := by
  unfold XSpace.part; rw [toL_sub]; exact runs_sub_xvec hS hx hy

theorem runs_isub_part (hS : S.WF n) {x y : Vec K N} (hx : S.Has x) (hy : S.Has y) :
    Runs n (fun r => (S.part n x r).isub (env n J r) (S.part n y r)) (fun r => .ok (S.part n (x - y) r)) := by
  unfold XSpace.part; rw [toL_sub]; exact runs_isub_xvec hS hx hy

theorem runs_fmul_part (hS : S.WF n) (a : ℝ) {x : Vec K N} (hx : S.Has x) :
    Runs n (fun r => XArr.fmul (env n J r) a (S.part n x r)) (fun r => .ok (S.part n ((a : K) • x) r)) := by
  unfold XSpace.part; rw [toL_smul]; exact runs_smul_xvec hS (fun _ => by simp) hx

theorem runs_conj_part (hS : S.WF n) {x : Vec K N} (hx : S.Has x) :
    Runs n (fun r => (S.part n x r).conj (env n J r)) (fun r => .ok (S.vec n ((toL x).map star) r)) := runs_conj_xvec hS hx

theorem runs_dotc_part (hS : S.WF n) (hm : S.NoMask) {x y : Vec K N} (hx : S.Has x) (hy : S.Has y) :
    Runs n (fun r => (S.part n x r).dot (env n J r) (S.vec n ((toL y).map star) r)) (fun _ => .ok (inner K y x)) := by
  have := runs_dot_xvec (J := J) hS hm hx (XSpace.mem_conj hy)
  rw [sum_toL] at this
  exact this

theorem runs_absDot_part (hS : S.WF n) (hm : S.NoMask) {x y : Vec K N} (hx : S.Has x) (hy : S.Has y) :
    Runs n (fun r => absDot (env n J r) (S.part n x r) (S.part n y r)) (fun _ => .ok ‖inner K y x‖) := by
  simp only [absDot, Prog.bind_eq]
  refine Runs.bind_ok (runs_conj_part hS hy) ?_
  refine Runs.bind_ok (runs_dotc_part hS hm hx hy) ?_
  exact Runs.ret _

theorem runs_absSelf_part (hS : S.WF n) (hm : S.NoMask) {x : Vec K N} (hx : S.Has x) :
    Runs n (fun r => absDot (env n J r) (S.part n x r) (S.part n x r)) (fun _ => .ok (‖x‖ ^ 2)) := by
  have := runs_absDot_part (J := J) hS hm hx hx
  rw [inner_self_eq_norm_sq_to_K, norm_pow, RCLike.norm_ofReal, abs_of_nonneg (norm_nonneg x)] at this
  exact this

theorem runs_norm_part (hS : S.WF n) (hm : S.NoMask) (h0 : S ≠ .stack []) {x : Vec K N} (hx : S.Has x) :
    Runs n (fun r => (S.part n x r).norm (env n J r)) (fun _ => .ok (.fin ‖x‖)) := by
  have := runs_norm_xvec (J := J) hS hm h0 hx
  rw [norm_toL] at this
  exact this

theorem Acts.runs {mv : Nat → Ctx K → XArr K → P K (XArr K)} {A : Vec K M → Vec K N} (h : Acts n J mv S T A) {x : Vec K M} (hx : S.Has x) :
    Runs n (fun r => mv r (env n J r) (S.part n x r)) (fun r => .ok (T.part n (A x) r)) := (h x hx).2.runs
theorem Acts.has {mv : Nat → Ctx K → XArr K → P K (XArr K)} {A : Vec K M → Vec K N} (h : Acts n J mv S T A) {x : Vec K M} (hx : S.Has x) : T.Has (A x) := (h x hx).1

/-- operators computing `f` act as `A` when `f` and `A` agree -/
theorem XComputes.acts {mv : Nat → Ctx K → XArr K → P K (XArr K)} {f : List K → List K} (h : XComputes n J mv S T f) {A : Vec K M → Vec K N}
    (hA : ∀ x, S.Has x → toL (A x) = f (toL x)) : Acts n J mv S T A := by
  intro x hx
  have := h (toL x) hx
  unfold XSpace.Has XSpace.part
  rw [hA x hx]
  exact this

end Verif

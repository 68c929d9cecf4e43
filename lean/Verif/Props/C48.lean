/- C48: dottest verdict. -/
import Verif.Props.C28
import Mathlib.Analysis.RCLike.Basic

set_option linter.unusedSectionVars false

namespace Verif
open NDArray

variable {K ι : Type} [RCLike K] {lv : Leaves K ι} {n : Nat} {J : Nat → Nat → K} {prim : ι → Nat → Prim K}

open Classical in
/-- `numpy.isclose(a, b, rtol, atol)` for finite numbers -/
noncomputable def isclose (rtol atol : ℝ) (a b : K) : Bool := decide (‖a - b‖ ≤ atol + rtol * ‖b‖)

theorem runs_dottest {e : MOp K ι} {S T S' T' : VSpace} (h : Typed lv n J prim false e S T') (h' : Typed lv n J prim true e T S')
    {u v : List K} (hu : S.Mem u) (hv : T.Mem v) {nr nc : Option Nat} (hnr : nr.getD (e.shape lv.sh).1 = (e.shape lv.sh).1)
    (hnc : nc.getD (e.shape lv.sh).2 = (e.shape lv.sh).2) (close : K → K → Bool) (raiseerror : Bool) :
    Runs n (fun r => dottest (env n J r) (e.map (prim · r)) (S.vec n u r) (T.vec n v r) nr nc close raiseerror)
      (fun _ => if close (ip u (den lv true e v)) (ip (den lv false e u) v) then .ok true else if raiseerror then .error .assertion else .ok false) := by
  have f := Typed.facts h
  have f' := Typed.facts h'
  have hp := runs_dotPair (J := J) (op := fun r => e.map (prim · r)) f.1 f'.1 f'.2.1 f.2.1 hu hv ((typed_computes h').mem hv) ((typed_computes h).mem hu)
    (by rw [f.2.2.1, f'.2.2.2.1]; rfl) (by rw [f.2.2.2.1, f'.2.2.1]; rfl) ((typed_computes h).runs hu) ((typed_computes h').runs hv)
  have h2 : Runs n (fun r => (dotPair (env n J r) (e.map (prim · r)) (S.vec n u r) (T.vec n v r)).bind fun p =>
        if !close p.2 p.1 && raiseerror then .throw .assertion else .ret (close p.2 p.1))
      (fun _ => if close (ip u (den lv true e v)) (ip (den lv false e u) v) then .ok true else if raiseerror then .error .assertion else .ok false) := by
    refine Runs.bind_ok (k := fun _ p => if !close p.2 p.1 && raiseerror then .throw .assertion else .ret (close p.2 p.1)) hp ?_
    dsimp only
    cases close (ip u (den lv true e v)) (ip (den lv false e u) v)
    · cases raiseerror
      · exact Runs.ret fun _ => false
      · exact Runs.throw fun _ => Err.assertion
    · exact Runs.ret fun _ => true
  refine h2.congr (fun r hr => ?_) fun _ _ => rfl
  unfold dottest
  dsimp only
  rw [f.2.2.2.2 r hr, hnr, hnc, if_neg (by simp)]
  rfl

/-- **C48** (verdict).  With `nr`, `nc` absent or equal to the shape, on all ranks and in all executions, `dottest` returns `True` if
    |u^H(Op^H v) - (Op u)^H v| ≤ atol + rtol |(Op u)^H v|, and otherwise raises AssertionError (`raiseerror`) or returns `False`. -/
theorem C48_verdict {e : MOp K ι} {S T S' T' : VSpace} (h : Typed lv n J prim false e S T') (h' : Typed lv n J prim true e T S')
    {u v : List K} (hu : S.Mem u) (hv : T.Mem v) {nr nc : Option Nat} (hnr : nr = none ∨ nr = some (e.shape lv.sh).1) (hnc : nc = none ∨ nc = some (e.shape lv.sh).2)
    (rtol atol : ℝ) (raiseerror : Bool) :
    (‖ip u (den lv true e v) - ip (den lv false e u) v‖ ≤ atol + rtol * ‖ip (den lv false e u) v‖ →
      Always n (fun r => dottest (env n J r) (e.map (prim · r)) (S.vec n u r) (T.vec n v r) nr nc (isclose rtol atol) raiseerror) (fun _ => .ok true)) ∧
    (¬ ‖ip u (den lv true e v) - ip (den lv false e u) v‖ ≤ atol + rtol * ‖ip (den lv false e u) v‖ →
      Always n (fun r => dottest (env n J r) (e.map (prim · r)) (S.vec n u r) (T.vec n v r) nr nc (isclose rtol atol) raiseerror)
        (fun _ => if raiseerror then .error .assertion else .ok false)) := by
  have hr := runs_dottest h h' hu hv (nr := nr) (nc := nc) (by rcases hnr with rfl | rfl <;> rfl) (by rcases hnc with rfl | rfl <;> rfl) (isclose rtol atol) raiseerror
  constructor <;> intro hc
  · have e1 : isclose rtol atol (ip u (den lv true e v)) (ip (den lv false e u) v) = true := by simp [isclose, hc]
    rw [e1] at hr
    exact hr.always
  · have e1 : isclose rtol atol (ip u (den lv true e v)) (ip (den lv false e u) v) = false := by simp only [isclose, hc, decide_false]
    rw [e1] at hr
    exact hr.always

/-- **C48** (rejection).  `nr` or `nc` different from the shape: AssertionError on all ranks, before anything is communicated. -/
theorem C48_reject (op : Nat → MOp K (Prim K)) (sh : Nat × Nat) (hsh : ∀ r < n, (op r).shape Prim.shape = sh) (u v : Nat → DArr K) {nr nc : Option Nat}
    (hn : (∃ k, nr = some k ∧ k ≠ sh.1) ∨ (∃ k, nc = some k ∧ k ≠ sh.2)) (rtol atol : ℝ) (raiseerror : Bool) :
    Always n (fun r => dottest (env n J r) (op r) (u r) (v r) nr nc (isclose rtol atol) raiseerror) (fun _ => .error .assertion) := by
  refine ((Runs.throw fun _ => Err.assertion).congr (fun r hr => ?_) fun _ _ => rfl).always
  unfold dottest
  dsimp only
  rw [hsh r hr, if_pos]
  intro heq
  have h1 := congrArg Prod.fst heq
  have h2 := congrArg Prod.snd heq
  rcases hn with ⟨k, rfl, hk⟩ | ⟨k, rfl, hk⟩
  · exact hk h1
  · exact hk h2

/-- **C48** (exact adjoint pairs always pass). -/
theorem C48_pass (hs : lv.Sized) (ha : lv.Adjoint) {e : MOp K ι} (he : Shaped lv.sh e) {S T S' T' : VSpace} (h : Typed lv n J prim false e S T')
    (h' : Typed lv n J prim true e T S') {u v : List K} (hu : S.Mem u) (hv : T.Mem v) {rtol atol : ℝ} (hr : 0 ≤ rtol) (hat : 0 ≤ atol) (raiseerror : Bool) :
    Always n (fun r => dottest (env n J r) (e.map (prim · r)) (S.vec n u r) (T.vec n v r) none none (isclose rtol atol) raiseerror) (fun _ => .ok true) := by
  have f := Typed.facts h
  have f' := Typed.facts h'
  have hlu : u.length = (e.shape lv.sh).2 := by rw [hu.1, f.2.2.1]; simp [dimOf]
  have hlv : v.length = (e.shape lv.sh).1 := by rw [hv.1, f'.2.2.1]; simp [dimOf]
  refine (C48_verdict h h' hu hv (.inl rfl) (.inl rfl) rtol atol raiseerror).1 ?_
  rw [C28_adjoint hs ha he hlu hlv, sub_self, norm_zero]
  positivity

/-- Non-vacuity: one rank, the operator x ↦ 2x on real numbers and u = v = (1): both inner products are 2. -/
def twoOps : Nat → List (LOp ℝ) := fun _ => [⟨1, 1, .real, fun x => x.map (2 * ·), fun x => x.map (2 * ·)⟩]
theorem two_ok {o : LOp ℝ} (h : o ∈ allOps 1 twoOps) (b : Bool) : o.Ok b .real .real := by
  simp only [allOps, List.mem_flatMap, twoOps, List.mem_singleton] at h
  obtain ⟨_, _, rfl⟩ := h
  refine ⟨fun d hd => ?_, fun d _ _ _ x _ => by simp⟩
  cases b <;> simpa [LOp.fn, LOp.inDim, LOp.outDim] using hd

def twoLeaves : Leaves ℝ Unit := ⟨fun _ => (1, 1), fun _ b => blockDiag b (allOps 1 twoOps)⟩
theorem two_typed (b : Bool) : Typed twoLeaves 1 (fun _ _ => (0 : ℝ)) (fun _ => bdPrim 1 twoOps none .real) b (.leaf ())
    ⟨.lin 1 (fun _ => 1), .real⟩ ⟨.lin 1 (fun _ => 1), .real⟩ := by
  have := typed_blockDiag (lv := twoLeaves) (J := fun _ _ => (0 : ℝ)) (n := 1) (prim := fun _ => bdPrim 1 twoOps none .real) (i := ()) (b := b) (dx := .real)
    (dt := .real) (ops := twoOps) (fun _ => rfl) (by rfl) rfl (fun o ho => two_ok ho b) (fun r _ => by simp [twoOps])
  cases b <;> exact this

example : Always 1 (fun r => dottest (env 1 (fun _ _ => (0 : ℝ)) r) (.leaf (bdPrim 1 twoOps none .real r)) (VSpace.vec ⟨.lin 1 (fun _ => 1), .real⟩ 1 [1] r)
      (VSpace.vec ⟨.lin 1 (fun _ => 1), .real⟩ 1 [1] r) none (some 1) (isclose 0 0) true) (fun _ => .ok true) := by
  have hm : VSpace.Mem ⟨.lin 1 (fun _ => 1), .real⟩ [(1 : ℝ)] := ⟨rfl, fun _ x _ => by simp⟩
  refine (C48_verdict (e := .leaf ()) (two_typed false) (two_typed true) hm hm (.inl rfl) (.inr rfl) 0 0 true).1 ?_
  simp [den, twoLeaves, blockDiag, slices, allOps, twoOps, LOp.fn, LOp.inDim, ip]

theorem two_sized : twoLeaves.Sized := by
  intro i b x hx
  cases i
  have h := length_blockDiag (b := b) (din := .real) (dout := .real) (l := allOps 1 twoOps) (fun o ho => two_ok ho b) (x := x) (by rw [hx]; cases b <;> decide)
  show (blockDiag b (allOps 1 twoOps) x).length = _
  rw [h]
  cases b <;> decide
theorem two_adjoint : twoLeaves.Adjoint := by
  intro i u v hu hv
  obtain ⟨a, rfl⟩ := List.length_eq_one_iff.1 (show u.length = 1 from hu)
  obtain ⟨b, rfl⟩ := List.length_eq_one_iff.1 (show v.length = 1 from hv)
  simp [twoLeaves, blockDiag, slices, allOps, twoOps, LOp.fn, LOp.inDim, ip]
  ring

example (u v : ℝ) : Always 1 (fun r => dottest (env 1 (fun _ _ => (0 : ℝ)) r) (.leaf (bdPrim 1 twoOps none .real r)) (VSpace.vec ⟨.lin 1 (fun _ => 1), .real⟩ 1 [u] r)
      (VSpace.vec ⟨.lin 1 (fun _ => 1), .real⟩ 1 [v] r) none none (isclose 0 0) true) (fun _ => .ok true) :=
  C48_pass (e := .leaf ()) two_sized two_adjoint trivial (two_typed false) (two_typed true) ⟨rfl, fun _ x _ => by simp⟩ ⟨rfl, fun _ x _ => by simp⟩ le_rfl le_rfl true

end Verif

/- C53: applying an operator leaves its argument unchanged. -/
import Verif.Props.C06
import Verif.Props.C19

set_option linter.unusedSectionVars false

namespace Verif
open NDArray

section
variable {K : Type} [Field K] [StarRing K] {h : Heap K} {c : Ctx K} {n r : Nat}

/-- **C53**.  Any operator that can be built with the library (`LibM`: the operator classes, constructed in any execution, and all expressions of them), any existing array `x` in any
    reachable memory: in any execution, whatever the other ranks do, `matvec` (`b = false`) and `rmatvec` leave `x`, every other array and every NumPy buffer unchanged, also when they raise an
    exception, and the array they return shares no memory with anything that existed before. -/
theorem C53 {e : MOp K (HPrim K)} (he : LibM e) (b : Bool) (hh : Reachable h) {x : Nat} (hx : x < h.objs.length) (hr : r < n) {ps : Nat → P K (Except Err Nat × Heap K)}
    (hp : ps r = MOp.hrun c b e x h) {s : St (Msg K) (Except Err Nat × Heap K)} (hs : Run n (St.init ps) s) {o : Except Err Nat} {h' : Heap K} (ho : s.prog r = .ret (o, h')) :
    (∀ x d, h.get? x = some d → h'.get? x = some d) ∧ (∀ (m : Nat) (v : NDArray K), h.bufs[m]? = some v → h'.bufs[m]? = some v) ∧ ∀ z, o = .ok z → Fresh h h' (.one z) := by
  have hw := C06_no_sharing hh
  obtain ⟨d, hd⟩ := hw.get hx
  obtain ⟨e', he'⟩ := he.same
  obtain ⟨y, hy, -, hf, hq⟩ := ((he'.run (c := c) b hw hd).hpost (Q := fun z h' => New h z ∧ ∃ d, h'.get? z = some d) fun _ _ _ hv => ⟨hv.1, _, hv.2⟩).sound hr hp hs (o := .ok (o, h')) ho
  cases hy
  refine ⟨fun x d hd => hf.get hw (by simp) hd, fun m v hm => hf.same m v hm (by simp), fun z hz => ?_⟩
  obtain ⟨h1, d', h2⟩ := hq z hz
  exact fresh_of hf (by simpa [XRef.refs] using h1) (by simpa [Live, XRef.refs] using Heap.lt_of_get? h2)

/-- **C53** for stacked operators (StackedVStack, StackedBlockDiag, Gradient and all expressions of them); the components of the result are different objects. -/
theorem C53_stacked {e : SOp K (HPrim K)} (he : LibS e) (b : Bool) (hh : Reachable h) {a : XRef} (hx : Live h a.refs) (hr : r < n) {ps : Nat → P K (Except Err XRef × Heap K)}
    (hp : ps r = SOp.hrun c b e a h) {s : St (Msg K) (Except Err XRef × Heap K)} (hs : Run n (St.init ps) s) {o : Except Err XRef} {h' : Heap K} (ho : s.prog r = .ret (o, h')) :
    (∀ x d, h.get? x = some d → h'.get? x = some d) ∧ (∀ (m : Nat) (v : NDArray K), h.bufs[m]? = some v → h'.bufs[m]? = some v) ∧ ∀ z, o = .ok z → Fresh h h' z ∧ z.refs.Nodup := by
  have hw := C06_no_sharing hh
  obtain ⟨u, hu⟩ := hw.hasX (a := a) hx
  obtain ⟨e', he'⟩ := he.same
  obtain ⟨y, hy, -, hf, hq⟩ := ((he'.run (c := c) b hw hu).hpost (Q := fun z h' => (∀ x ∈ z.refs, New h x) ∧ Live h' z.refs ∧ z.refs.Nodup) fun z h' _ hv => ⟨hv.1, (show Live h' z.refs from hv.2.2.lt), hv.2.1⟩).sound hr hp hs (o := .ok (o, h')) ho
  cases hy
  exact ⟨fun x d hd => hf.get hw (by simp) hd, fun m v hm => hf.same m v hm (by simp), fun z hz => ⟨fresh_of hf (hq z hz).1 (hq z hz).2.1, (hq z hz).2.2⟩⟩

/-! ### The operators on the memory compute what the operators on values compute

So the theorems about operators on values (C19 - C39) hold for the methods that fill their result by in-place assignments. -/

/-- `matvec` and `rmatvec` on the memory of `n` ranks: if the operator on values always ends with the results `ρ`, then so does the operator on the memory, with a new array of the same value (or
    the same exception) on each rank, and the value of `x` unchanged. -/
theorem C53_value {J : Nat → Nat → K} {h : Nat → Heap K} {e : Nat → MOp K (HPrim K)} {e' : Nat → MOp K (Prim K)} (he : ∀ r < n, MOp.Same (e r) (e' r)) (b : Bool) (hh : ∀ r < n, Reachable (h r))
    {x : Nat → Nat} {d : Nat → DArr K} (hx : ∀ r < n, (h r).get? (x r) = some (d r)) {ρ : Nat → Except Err (DArr K)} (hρ : Always n (fun r => MOp.run (env n J r) b (e' r) (d r)) ρ) :
    ∃ out : Nat → Except Err Nat × Heap K, Always n (fun r => MOp.hrun (env n J r) b (e r) (x r) (h r)) (fun r => .ok (out r)) ∧
      ∀ r < n, (out r).2.get? (x r) = some (d r) ∧ match ρ r with
        | .ok v => ∃ z, (out r).1 = .ok z ∧ New (h r) z ∧ (out r).2.get? z = some v
        | .error err => (out r).1 = .error err := by
  have hw := fun r hr => C06_no_sharing (hh r hr)
  obtain ⟨out, h1, h2⟩ := HRel.always (fun r hr => (he r hr).run (c := env n J r) b (hw r hr) (hx r hr)) hρ
  refine ⟨out, h1, fun r hr => ?_⟩
  have h3 := h2 r hr
  cases hc : ρ r with
  | ok v =>
    rw [hc] at h3
    obtain ⟨z, h4, -, h5, h6, h7⟩ := h3
    exact ⟨h5.get (hw r hr) (by simp) (hx r hr), z, h4, h6, h7⟩
  | error err =>
    rw [hc] at h3
    exact ⟨h3.2.2.get (hw r hr) (by simp) (hx r hr), h3.1⟩

/-- Each class on the memory implements the class on values. -/
theorem C53_classes (c : Ctx K) : (∀ o : LOp K, HPrim.Is c (hwrap o) (wrap o)) ∧ (∀ k (o : Deriv K), HPrim.Is c (hfirstDerivative k o) (firstDerivative k o)) ∧
    (∀ k (o : Deriv K), HPrim.Is c (hsecondDerivative k o) (secondDerivative k o)) :=
  ⟨fun o => hwrap_is o c, fun k o => hfirstDerivative_is k o c, fun k o => hsecondDerivative_is k o c⟩

end

/-! ### Non-vacuity -/

section

/-- the operator 3 (D + A Aᴴ), with the first derivative D and a block-diagonal operator A -/
def exOp (A : HPrim ℚ) : MOp ℚ (HPrim ℚ) := .scaled (.sum (.leaf (hfirstDerivative .forward ⟨[2], 1, false, .real⟩)) (.prod (.leaf A) (.adj (.leaf A)))) ⟨.real, 3⟩

/-- the block [[1, 1], [0, 1]] -/
def exBlock : LOp ℚ := ⟨2, 2, .real, fun l => [l.sum, l.getD 1 0], fun l => [l.getD 0 0, l.sum]⟩

/-- the block-diagonal operator is constructed, and the operator applied to object 0; the entries of the result and of the objects 0 and 1 are read -/
def exProg (c : Ctx ℚ) : HP ℚ (List (List ℚ)) := do
  let A ← hmkBlockDiag c [exBlock] none none
  let y ← MOp.hrun c false (exOp A) 0
  let d ← HP.read y
  let a ← HP.read 0
  let b ← HP.read 1
  HP.ret [d.larr.data, a.larr.data, b.larr.data]

/-- Non-vacuity of `C53` and `C53_value`: the memory with the vectors (1, 2) and (5, 7) is reachable, and the operator above can be built. -/
example : Reachable (exHeap [[1, 2], [5, 7]]) ∧ ∃ A, LibM (exOp A) := by
  refine ⟨exHeap_reachable, ?_⟩
  obtain ⟨σ, h1, h2⟩ := runs_of_simOk 60 (ps := fun r => hmkBlockDiag (env 1 (fun _ _ => 0) r) [exBlock] none none (⟨[], []⟩ : Heap ℚ)) (g := fun p => match p.1 with | .ok _ => true | .error _ => false) (n := 1)
    (outs := [true]) (by decide) (by decide +kernel)
  obtain ⟨qs, h3, h4⟩ := h1
  have h5 := h2 0 (by decide)
  have h6 := h4 0 (by decide)
  cases hA : (σ 0).1 with
  | error e => simp [hA] at h5
  | ok A =>
    have hL : Library A := .blockDiag (c := env 1 (fun _ _ => 0) 0) (ops := [exBlock]) (mask := none) (dt := none)
      ⟨1, 0, ⟨[], []⟩, (σ 0).2, _, St.init qs, by decide, ⟨by simp, by simp⟩, rfl, (SStep.nbRun h3).run, by rw [← hA]; exact h6⟩
    exact ⟨A, .scaled (.sum (.leaf (.firstDerivative _ _)) (.prod (.leaf hL) (.adj (.leaf hL)))) _⟩

/-- Constructing and applying it: in all executions 3 (D + A Aᴴ) (1, 2) = 3 ((1, 0) + A (1, 3)) = (15, 9), and the arrays (1, 2) and (5, 7) are unchanged. -/
example : ∃ out : Nat → Except Err (List (List ℚ)) × Heap ℚ, Always 1 (fun r => exProg (env 1 (fun _ _ => 0) r) (exHeap [[1, 2], [5, 7]])) (fun r => .ok (out r)) ∧
    ∀ r < 1, (out r).1.toOption = some [[15, 9], [1, 2], [5, 7]] := by
  obtain ⟨σ, h1, h2⟩ := runs_of_simOk 400 (ps := fun r => exProg (env 1 (fun _ _ => 0) r) (exHeap [[1, 2], [5, 7]])) (g := fun p => p.1.toOption) (n := 1)
    (outs := [some [[15, 9], [1, 2], [5, 7]]]) (by decide) (by decide +kernel)
  refine ⟨σ, h1.always, fun r hr => ?_⟩
  have := h2 r hr
  obtain rfl : r = 0 := by omega
  simpa using this.symm

/-- **The property does not extend to user-defined operators that return their argument** (as an identity operator may): multiplying such an operator by 2 and applying it to the array `x` = (1, 2)
    changes `x` to (2, 4), in all executions, because `_ScaledLinearOperator` scales the array that it gets in place. -/
theorem C53_violated_user : Reachable (exHeap [[1, 2], [5, 7]]) ∧ ∃ out : Nat → Except Err Nat × Heap ℚ,
    Always 1 (fun r => MOp.hrun (env 1 (fun _ _ => 0) r) false (.scaled (.leaf ⟨2, 2, fun _ x => HP.ret x, fun _ x => HP.ret x⟩) ⟨.real, 2⟩) 0 (exHeap [[1, 2], [5, 7]])) (fun r => .ok (out r)) ∧
    ∀ r < 1, (out r).1 = .ok 0 ∧ (out r).2 = exHeap [[2, 4], [5, 7]] := by
  refine ⟨exHeap_reachable, ?_⟩
  obtain ⟨σ, h1, h2⟩ := runs_of_simOk 60 (ps := fun r => MOp.hrun (env 1 (fun _ _ => 0) r) false (.scaled (.leaf ⟨2, 2, fun _ x => HP.ret x, fun _ x => HP.ret x⟩) ⟨.real, 2⟩) 0 (exHeap [[1, 2], [5, 7]]))
    (g := id) (n := 1) (outs := [(.ok 0, exHeap [[2, 4], [5, 7]])]) (by decide) (by decide +kernel)
  refine ⟨σ, h1.always, fun r hr => ?_⟩
  have := h2 r hr
  obtain rfl : r = 0 := by omega
  have h3 : σ 0 = (.ok 0, exHeap [[2, 4], [5, 7]]) := by simpa using this.symm
  rw [h3]
  exact ⟨rfl, rfl⟩

end

end Verif

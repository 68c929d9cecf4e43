/- C36: stacked operators act block-wise and are adjoint pairs. -/
import Verif.Proofs.StackedOperator
import Verif.Props.C28

set_option linter.unusedSectionVars false

namespace Verif
open NDArray

variable {K ι : Type} [Field K] [StarRing K] [CharZero K] {lv : Leaves K ι} {n : Nat} {J : Nat → Nat → K} {prim : ι → Nat → Prim K}

/-- the components of a vector -/
def split (l : List Nat) (x : List K) : List (List K) := match l with
  | [] => []
  | k :: l => x.take k :: split l (x.drop k)

/-- **C36** (MPIStackedVStack, matvec).  For every non-empty list of operators (any expressions) from one space `S`: the result is the stack of the results
    of the operators on the input, in order. -/
theorem C36_vstack_matvec {ops : List (MOp K ι)} {S : VSpace} {Ts : SSpace} (h0 : ops ≠ [])
    (h : List.Forall₂ (fun e T => Typed lv n J prim false e S T) ops Ts) {d : List K} (hd : S.Mem d) :
    Ts.Mem (ops.map fun e => den lv false e d).flatten ∧
    Always n (fun r => SOp.run (env n J r) false (.vstack (ops.map (MOp.map (prim · r)))) (.one (S.vec n d r)))
      (fun r => .ok (.stack (Ts.vec n (ops.map fun e => den lv false e d).flatten r))) := by
  have := styped_computes (e := .vstack ops) (b := false) (S := .one S) (T := .stack Ts) ⟨h0, h⟩ d hd
  have e : sden lv false (.vstack ops) d = (ops.map fun e => den lv false e d).flatten := by
    simp only [sden, vcat, List.flatMap, List.map_map]; rfl
  rw [e] at this
  exact this

theorem slices_split (b : Bool) (ops : List (MOp K ι)) : ∀ x : List K, slices b (ops.map (MOp.toLOp lv)) x
    = List.zipWith (fun e y => den lv b e y) ops (split (ops.map fun e => dimOf (e.shape lv.sh) b) x) := by
  induction ops with
  | nil => intro x; rfl
  | cons e ops ih =>
    intro x
    have hk : (e.toLOp lv).inDim b = dimOf (e.shape lv.sh) b := by cases b <;> simp [dimOf, LOp.inDim, MOp.toLOp]
    have ef : (e.toLOp lv).fn b = den lv b e := by cases b <;> rfl
    simp only [List.map_cons, slices, split, List.zipWith_cons_cons, hk, ef, ih]

/-- **C36** (MPIStackedVStack, rmatvec).  The result is the sum of the adjoints of the operators on the components of the input. -/
theorem C36_vstack_rmatvec {ops : List (MOp K ι)} {Ss : SSpace} {T : VSpace} (h0 : ops ≠ [])
    (h : List.Forall₂ (fun e S => Typed lv n J prim true e S T) ops Ss) {d : List K} (hd : Ss.Mem d) :
    let z := (List.zipWith (fun e y => den lv true e y) ops (split (ops.map fun e => (e.shape lv.sh).1) d)).foldr vadd (List.replicate T.L.gshape.prod 0)
    T.Mem z ∧ Always n (fun r => SOp.run (env n J r) true (.vstack (ops.map (MOp.map (prim · r)))) (.stack (Ss.vec n d r))) (fun r => .ok (.one (T.vec n z r))) := by
  intro z
  have ht : STyped lv n J prim true (.vstack ops) (.stack Ss) (.one T) := ⟨h0, h⟩
  have := styped_computes (e := .vstack ops) ht d hd
  have e : sden lv true (.vstack ops) d = z := by
    have hN : (SOp.vshape lv.sh ops).2 = T.L.gshape.prod := ((STyped.facts ht).1.dimT.trans rfl).symm
    simp only [sden, hsum, vsum, slices_split, hN]; rfl
  rw [e] at this
  exact this

/-- **C36** (MPIStackedBlockDiag).  matvec (`b = false`) and rmatvec (`b = true`) apply the operators to the components of the input, in order. -/
theorem C36_blockDiag {ops : List (MOp K ι)} {b : Bool} {Ss Ts : SSpace} (hl : Ss.length = ops.length)
    (h : List.Forall₂ (fun (p : VSpace × MOp K ι) T => Typed lv n J prim b p.2 p.1 T) (Ss.zip ops) Ts) {d : List K} (hd : Ss.Mem d) :
    let z := (List.zipWith (fun e y => den lv b e y) ops (split (ops.map fun e => dimOf (e.shape lv.sh) b) d)).flatten
    Ts.Mem z ∧ Always n (fun r => SOp.run (env n J r) b (.bdiag (ops.map (MOp.map (prim · r)))) (.stack (Ss.vec n d r))) (fun r => .ok (.stack (Ts.vec n z r))) := by
  intro z
  have := styped_computes (e := .bdiag ops) (b := b) (S := .stack Ss) (T := .stack Ts) ⟨hl, h⟩ d hd
  have e : sden lv b (.bdiag ops) d = z := by
    cases b <;> simp only [sden, blockDiag, slices_split] <;> rfl
  rw [e] at this
  exact this

/-! ### Adjoints -/

theorem toLOp_sized (hs : lv.Sized) {e : MOp K ι} (he : Shaped lv.sh e) :
    (∀ d, d.length = (e.toLOp lv).cols → ((e.toLOp lv).fwd d).length = (e.toLOp lv).rows) ∧ (∀ d, d.length = (e.toLOp lv).rows → ((e.toLOp lv).adj d).length = (e.toLOp lv).cols) :=
  ⟨fun _ hd => length_den hs he (b := false) hd, fun _ hd => length_den hs he (b := true) hd⟩

theorem toLOp_adjoint (hs : lv.Sized) (ha : lv.Adjoint) {e : MOp K ι} (he : Shaped lv.sh e) : (e.toLOp lv).Adjoint :=
  fun _ _ hu hv => C28_adjoint hs ha he hu hv

theorem inSum_toLOp (b : Bool) (ops : List (MOp K ι)) : inSum b (ops.map (MOp.toLOp lv)) = (ops.map fun e => dimOf (e.shape lv.sh) b).sum := by
  unfold inSum
  rw [List.map_map]
  congr 1
  apply List.map_congr_left
  intro e _
  cases b <;> simp [dimOf, LOp.inDim, MOp.toLOp]

/-- the two directions of a vertical stack -/
theorem vden_adjoint (hs : lv.Sized) (ha : lv.Adjoint) {ops : List (MOp K ι)} (h : (∀ o ∈ ops, Shaped lv.sh o) ∧ ∀ o ∈ ops, (o.shape lv.sh).2 = (SOp.vshape lv.sh ops).2)
    {u v : List K} (hu : u.length = (SOp.vshape lv.sh ops).2) (hv : v.length = (SOp.vshape lv.sh ops).1) :
    ip (vcat false (ops.map (MOp.toLOp lv)) u) v = ip u (hsum true (SOp.vshape lv.sh ops).2 (ops.map (MOp.toLOp lv)) v) := by
  refine ip_vcat ?_ ?_ ?_ ?_ hu (by rw [inSum_toLOp, hv]; rfl)
  all_goals
    intro o ho
    obtain ⟨e, he, rfl⟩ := List.mem_map.1 ho
  · exact toLOp_adjoint hs ha (h.1 e he)
  · exact h.2 e he
  · exact (toLOp_sized hs (h.1 e he)).1
  · exact (toLOp_sized hs (h.1 e he)).2

theorem bden_adjoint (hs : lv.Sized) (ha : lv.Adjoint) {ops : List (MOp K ι)} (h : ∀ o ∈ ops, Shaped lv.sh o)
    {u v : List K} (hu : u.length = (ops.map fun e => (e.shape lv.sh).2).sum) (hv : v.length = (ops.map fun e => (e.shape lv.sh).1).sum) :
    ip (blockDiag false (ops.map (MOp.toLOp lv)) u) v = ip u (blockDiag true (ops.map (MOp.toLOp lv)) v) := by
  refine ip_blockDiag ?_ ?_ ?_ (by rw [inSum_toLOp, hu]; rfl) (by rw [inSum_toLOp, hv]; rfl)
  all_goals
    intro o ho
    obtain ⟨e, he, rfl⟩ := List.mem_map.1 ho
  · exact toLOp_adjoint hs ha (h e he)
  · exact (toLOp_sized hs (h e he)).1
  · exact (toLOp_sized hs (h e he)).2

/-- **C36** (adjoint of a vertical stack).  If the leaves are adjoint pairs then ⟨Op u, v⟩ = ⟨u, Op^H v⟩.  Quantified over all operator lists of equal numbers of columns. -/
theorem C36_vstack_adjoint (hs : lv.Sized) (ha : lv.Adjoint) {ops : List (MOp K ι)} (h : SShaped lv.sh (.vstack ops))
    {u v : List K} (hu : u.length = ((SOp.vstack ops).shape lv.sh).2) (hv : v.length = ((SOp.vstack ops).shape lv.sh).1) :
    ip (sden lv false (.vstack ops) u) v = ip u (sden lv true (.vstack ops) v) := vden_adjoint hs ha h.2 hu hv

/-- **C36** (adjoint of a block-diagonal stack). -/
theorem C36_blockDiag_adjoint (hs : lv.Sized) (ha : lv.Adjoint) {ops : List (MOp K ι)} (h : SShaped lv.sh (.bdiag ops))
    {u v : List K} (hu : u.length = ((SOp.bdiag ops).shape lv.sh).2) (hv : v.length = ((SOp.bdiag ops).shape lv.sh).1) :
    ip (sden lv false (.bdiag ops) u) v = ip u (sden lv true (.bdiag ops) v) := bden_adjoint hs ha h hu hv

/-- **C36** (execution).  On `n` ranks, `Op.matvec(u).conj().dot(v)` and `u.conj().dot(Op.rmatvec(v))`, the inner products that compare a stacked operator with its
    adjoint, are the same number ⟨Op u, v⟩ on all ranks and in all executions.  `e` may be a vertical or a block-diagonal stack. -/
theorem C36_dottest {e : SOp K ι} (he : ∀ u v : List K, u.length = (e.shape lv.sh).2 → v.length = (e.shape lv.sh).1 → ip (sden lv false e u) v = ip u (sden lv true e v))
    {S T : XSpace} (h : STyped lv n J prim false e S T) (h' : STyped lv n J prim true e T S) (hm : S.NoMask) (hm' : T.NoMask)
    {u v : List K} (hu : S.Mem u) (hv : T.Mem v) :
    Always n (fun r => do
        let y ← SOp.run (env n J r) false (e.map (prim · r)) (S.vec n u r)
        let y ← y.conj (env n J r)
        y.dot (env n J r) (T.vec n v r)) (fun _ => .ok (ip (sden lv false e u) v)) ∧
    Always n (fun r => do
        let x ← SOp.run (env n J r) true (e.map (prim · r)) (T.vec n v r)
        let w ← (S.vec n u r).conj (env n J r)
        w.dot (env n J r) x) (fun _ => .ok (ip (sden lv false e u) v)) := by
  have f := (STyped.facts h).1
  have c := styped_computes h
  have c' := styped_computes h'
  have ei : ∀ a b : List K, (List.zipWith (· * ·) (a.map star) b).sum = ip a b := by
    intro a b; rw [List.zipWith_map_left]; rfl
  constructor
  · have := Runs.bind_ok (k := fun r y => (y.conj (env n J r)).bind fun y => y.dot (env n J r) (T.vec n v r))
      (c.runs hu) (Runs.bind_ok (k := fun r y => y.dot (env n J r) (T.vec n v r)) (runs_conj_xvec (J := J) f.wfT (c.mem hu)) (runs_dot_xvec (J := J) f.wfT hm' (XSpace.mem_conj (c.mem hu)) hv))
    rw [ei] at this
    exact this.always
  · have := Runs.bind_ok (k := fun r x => ((S.vec n u r).conj (env n J r)).bind fun w => w.dot (env n J r) x)
      (c'.runs hv) (Runs.bind_ok (runs_conj_xvec (J := J) f.wfS hu) (runs_dot_xvec (J := J) f.wfS hm (XSpace.mem_conj hu) (c'.mem hv)))
    rw [ei, ← he u v (hu.length.trans f.dimS) (hv.length.trans f.dimT)] at this
    exact this.always

/-! ### Example: the vertical stack of `A = diag(2, 5)` and `3 A + …` (the expression of C27) on two ranks -/

theorem dg_typed_true (J : Nat → Nat → ℚ) : Typed dgLeaves 2 J (fun _ => bdPrim 2 dgOps none .real) true dgExpr
    ⟨inL false 2 dgOps, .real⟩ ⟨inL false 2 dgOps, .real⟩ := by
  have h := dg_typed J
  obtain ⟨⟨U, ⟨rfl, h1⟩, h2, h3⟩, h4⟩ := h
  exact ⟨⟨_, ⟨h3, h2⟩, rfl, h3⟩, fun _ => ⟨rfl, by simp⟩⟩

def dgStack : SOp ℚ Unit := .vstack [dgExpr, .leaf ()]

theorem dgStack_typed (J : Nat → Nat → ℚ) : STyped dgLeaves 2 J (fun _ => bdPrim 2 dgOps none .real) false dgStack
      (.one ⟨inL false 2 dgOps, .real⟩) (.stack [⟨inL false 2 dgOps, .real⟩, ⟨inL false 2 dgOps, .real⟩]) ∧
    STyped dgLeaves 2 J (fun _ => bdPrim 2 dgOps none .real) true dgStack
      (.stack [⟨inL false 2 dgOps, .real⟩, ⟨inL false 2 dgOps, .real⟩]) (.one ⟨inL false 2 dgOps, .real⟩) := by
  have h := dg_typed J
  have h' := dg_typed_true J
  refine ⟨⟨by simp, .cons h (.cons ?_ .nil)⟩, ⟨by simp, .cons h' (.cons ?_ .nil)⟩⟩
  · obtain ⟨⟨U, ⟨rfl, h1⟩, h2, h3⟩, h4⟩ := h
    exact h1
  · obtain ⟨⟨U, ⟨rfl, h1⟩, h2, h3⟩, h4⟩ := h
    exact h3

example : Always 2 (fun r => SOp.run (env 2 (fun _ _ => 0) r) false (dgStack.map (fun _ => bdPrim 2 dgOps none .real r)) (.one (VSpace.vec ⟨inL false 2 dgOps, .real⟩ 2 [1, 1] r)))
    (fun r => .ok (.stack (SSpace.vec 2 [⟨inL false 2 dgOps, .real⟩, ⟨inL false 2 dgOps, .real⟩] [48, 750, 2, 5] r))) := by
  have h := ((styped_computes (dgStack_typed (fun _ _ => 0)).1) [1, 1] ⟨rfl, fits_rat _ _⟩).2
  have e : sden dgLeaves false dgStack [1, 1] = [48, 750, 2, 5] := by decide +kernel
  rwa [e] at h

example : ip (sden dgLeaves false dgStack [1, 2]) [3, 4, 5, 6] = ip [1, 2] (sden dgLeaves true dgStack [3, 4, 5, 6]) :=
  C36_vstack_adjoint dg_sized dg_adjoint ⟨by simp, by
    refine ⟨fun o ho => ?_, fun o ho => ?_⟩ <;> rcases List.mem_cons.1 ho with rfl | ho
    · exact dg_shaped
    · rw [List.mem_singleton.1 ho]; trivial
    · rfl
    · rw [List.mem_singleton.1 ho]; rfl⟩ rfl rfl

end Verif

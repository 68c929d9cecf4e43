/-
  C67: with any arithmetic (rounding, overflow, NaN, any order of summation) the solvers keep the ranks in step.
-/
import Verif.Proofs.FloatExact
import Verif.Proofs.GroupDeadlock
import Verif.Proofs.Norm

namespace Verif
open NDArray

variable {K : Type}

section
variable (A : Arith K) {n : Nat} {J : Nat → Nat → K} {agree may : Prop} {S T : XLayout} {op : XOp K} {y x0 : Nat → XArr K}

/-- `cg`: either all ranks return, or (only if `may` holds) all ranks raise.  If they return, then with arrays of the layout of the start vector, the same number of
    iterations and the same `cost`; the local data of BROADCAST arrays are equal.  Nothing is assumed about the numbers. -/
theorem C67_cg (niter : Option Int) (tol : K) (hS : S.WF n) (hop : InStep n J agree may op.mv S S) (hy : XFam n agree S y) (hx : XFam n agree S x0)
    (hmay : ¬ may → niter ≠ none ∧ (∀ a b, ∃ v, A.npDiv a b = .ok v) ∧ ∀ a b, A.gt b tol = true → ∃ v, A.pyDiv a b = .ok v) :
    Together n may (fun r => FCG.solve A (env n J r) op (y r) (x0 r) niter tol) fun out => XFam n agree S (fun r => (out r).1) ∧
      (∀ r < n, (out r).1.replicas = (out 0).1.replicas) ∧ ∃ it cost, (∀ r < n, (out r).2.1 = it ∧ (out r).2.2.1 = cost) ∧ cost.length = it + 1 ∧ Traced n agree S it (fun r => (out r).2.2.2) ∧
        ∃ m, niter = some m ∧ (it : Int) ≤ max m 0 ∧ ((it : Int) < m → ∃ k, cost.getLast? = some (A.sqrt k) ∧ A.gt k tol = false) := by
  refine Tog.together ?_
  unfold FCG.solve
  simp only [Prog.bind_eq]
  refine (cgf_setup A hS hop hy hx).bind ?_
  rintro p ⟨⟨k, cs, hp⟩, hni⟩
  cases niter with
  | none =>
    have hmay : may := by_contra fun h => (hmay h).1 rfl
    simp only [FCG.run, hni]
    exact Tog.throw hmay _
  | some m =>
    simp only [FCG.run, hp.iiter]
    refine (cgf_loop A (niter := m) (fun h => (hmay h).2.1) (fun h => (hmay h).2.2) hS hop _ rfl hp (t := fun _ => []) ⟨[], rfl, by simp, by simp⟩).bind ?_
    rintro q ⟨it, k', cs', hq, ht, hle, hst⟩
    exact Tog.ret ⟨hq.x.1, hq.x.2, it, cs', fun r _ => ⟨hq.iiter r, hq.cost r⟩, hq.len, ht, m, rfl, hle, fun h => ⟨k', hq.last, hst h⟩⟩

/-- `cgls`: likewise, with the same `istop`, `r1norm`, `r2norm` on all ranks -/
theorem C67_cgls (niter : Option Int) (damp tol : K) (hS : S.WF n) (hT : T.WF n) (hop : InStep n J agree may op.mv S T) (hop' : InStep n J agree may op.rmv T S)
    (hy : XFam n agree T y) (hx : XFam n agree S x0)
    (hmay : ¬ may → niter ≠ none ∧ T ≠ .stack [] ∧ (∀ a, ∃ v, A.pySq a = .ok v) ∧ (∀ a b, ∃ v, A.npDiv a b = .ok v) ∧ ∀ a b, A.gt b tol = true → ∃ v, A.pyDiv a b = .ok v) :
    Together n may (fun r => FCGLS.solve A A.normX (env n J r) op (y r) (x0 r) niter damp tol) fun out => XFam n agree S (fun r => (out r).x) ∧
      (∀ r < n, (out r).x.replicas = (out 0).x.replicas) ∧ ∃ it cost r1 r2, (∀ r < n, (out r).iiter = it ∧ (out r).cost = cost ∧ (out r).r1norm = r1 ∧ (out r).r2norm = r2 ∧ (out r).istop = if A.lt r1 tol then 1 else 2) ∧
        cost.length = it + 1 ∧ Traced n agree S it (fun r => (out r).trace) ∧ ∃ m, niter = some m ∧ (it : Int) ≤ max m 0 ∧ ((it : Int) < m → A.gt r1 tol = false) := by
  refine Tog.together ?_
  unfold FCGLS.solve
  simp only [Prog.bind_eq]
  refine (cglsf_setup A (fun h => (hmay h).2.2.1) (fun h => (hmay h).2.1) hS hT hop hop' hy hx).bind ?_
  rintro p ⟨⟨k, cs, cs1, hp⟩, hni⟩
  cases niter with
  | none =>
    have hmay : may := by_contra fun h => (hmay h).1 rfl
    simp only [FCGLS.run, hni]
    exact Tog.throw hmay _
  | some m =>
    simp only [FCGLS.run, hp.iiter]
    refine (cglsf_loop A (niter := m) (fun h => (hmay h).2.2.1) (fun h => (hmay h).2.1) (fun h => (hmay h).2.2.2.1) (fun h => (hmay h).2.2.2.2) hS hT hop hop' _ rfl hp
      (t := fun _ => []) ⟨[], rfl, by simp, by simp⟩).bind ?_
    rintro q ⟨it, k', cs', cs1', hq, ht, hle, hst⟩
    have hlt : it < cs1'.length := by rw [hq.len1]; omega
    simp only [FCGLS.finalize, hq.cost1, hq.iiter, hq.kold, hq.tol, hq.cost, List.getElem?_eq_getElem hlt]
    exact Tog.ret ⟨hq.x.1, hq.x.2, it, cs', k', cs1'[it], fun r _ => ⟨rfl, rfl, rfl, rfl, rfl⟩, hq.len, ht, m, rfl, hle, hst⟩

end

/-- the exact model of `cg` is an instance: same program, same messages, same result -/
theorem C67_exact_cg [RCLike K] (c : Ctx K) (op : XOp K) (y x0 : XArr K) (niter : Option Int) (tol : ℝ) :
    FCG.solve Arith.exact c op y x0 niter (tol : K) = (CGS.solve c op y x0 niter tol).bind fun p => .ret (p.1, p.2.1, p.2.2.1.map (fun v : ℝ => (v : K)), p.2.2.2) :=
  exact_cg c op y x0 niter tol

/-- the same for `cgls`, with the norm of the exact model -/
theorem C67_exact_cgls [RCLike K] (c : Ctx K) (op : XOp K) (y x0 : XArr K) (niter : Option Int) (damp tol : ℝ) :
    FCGLS.solve Arith.exact exactNorm c op y x0 niter (damp : K) (tol : K) = (CGLSS.solve c op y x0 niter damp tol).bind fun p => .ret p.toF :=
  exact_cgls c op y x0 niter damp tol

/-- and in exact arithmetic `norm` is the Euclidean norm, as in the exact model (`C09_euclidean`) -/
theorem C67_exact_norm [RCLike K] {n : Nat} {J : Nat → Nat → K} {L : Layout} {dt : DType} {a : Nat → List K} (hL : L.WF n) (hm : L.mask = none)
    (ha : L.Good n dt a) (hg : L.part.isBroadcast = true → ∀ r < n, a r = a 0) :
    Always n (fun r => (Arith.exact (K := K)).dnorm (env n J r) (L.fam n dt a r)) fun _ => .ok ((Real.sqrt ((L.global n dt a).data.map fun x => ‖x‖ ^ 2).sum : ℝ) : K) := by
  rcases Nat.eq_zero_or_pos n with rfl | hn
  · exact Runs.of_zero.always
  have hs : ∀ l : List (List K), ((l.map fun m => (((m.map fun x => ‖x‖ ^ 2).sum : ℝ) : K)).sum) = (((l.flatten.map fun x => ‖x‖ ^ 2).sum : ℝ) : K) := by
    intro l
    induction l with
    | nil => simp
    | cons m l ih => simp only [List.map_cons, List.sum_cons, ih, List.flatten_cons, List.map_append, List.sum_append, RCLike.ofReal_add]
  have e : ∀ r, (L.red n).members n r = List.range n := by
    intro r
    unfold Layout.red
    split_ifs
    · rfl
    · simp only [Layout.members, hm]
  unfold Arith.dnorm
  simp only [Prog.bind_eq]
  refine Runs.always ((runs_toScatter (J := J) hn hL ha hg).bind_ok ?_)
  unfold Arith.reduce
  simp only [Prog.bind_eq, Prog.bind_assoc]
  refine Runs.congr (ps := fun r => (gather .allreduce (List.range n) (Sc.mk ((Arith.exact (K := K)).sumSq (L.shard n a r)))).bind fun l =>
    (match l with | y :: ys => Prog.ret ((Arith.exact (K := K)).sum (y.val :: ys.map Sc.val)) | [] => .throw .protocol : P K K).bind fun s => .ret ((Arith.exact (K := K)).root s))
    (runs_gather ?_) (fun r hr => by
      show _ = (gather .allreduce ((L.red n).members n r) _).bind _
      rw [e]; rfl) fun _ _ => rfl
  obtain ⟨m, rfl⟩ : ∃ m, n = m + 1 := ⟨n - 1, by omega⟩
  refine (Runs.ret (fun _ => ((Real.sqrt ((L.global (m + 1) dt a).data.map fun x => ‖x‖ ^ 2).sum : ℝ) : K))).congr (fun r _ => ?_) fun _ _ => rfl
  have h2 : ((Arith.exact (K := K)).sum (((List.range (m + 1)).map fun r => Sc.mk ((Arith.exact (K := K)).sumSq (L.shard (m + 1) a r))).map Sc.val)) =
      (((L.global (m + 1) dt a).data.map fun x => ‖x‖ ^ 2).sum : ℝ) := by
    have h3 := hs ((List.range (m + 1)).map (L.shard (m + 1) a))
    rw [List.map_map, ← List.flatMap_def] at h3
    rw [List.map_map]
    refine h3.trans ?_
    rw [((perm_shard hn hL ha.length).map _).sum_eq]
    rfl
  rw [List.range_succ_eq_map] at h2 ⊢
  simp only [List.map_cons] at h2 ⊢
  simp only [Prog.ret_bind]
  rw [h2]
  simp [Arith.exact]

/-! ### that all ranks compute in the same way is necessary -/

/-- if the comparison of the residual with `tol` can differ between ranks (different machines or libraries, or a reduction that is not broadcast), then the ranks that
    stop return and the others wait forever -/
theorem C67_needs_same (A : Arith K) {n : Nat} {J : Nat → Nat → K} {agree : Prop} {S : XLayout} {op : XOp K} {y x0 : Nat → XArr K} (m : Int) (tol : K) (hS : S.WF n)
    (hop : InStep n J agree False op.mv S S) (hw : ∀ x, XFam n agree S x → ∀ r < n, WaitsAll n (op.mv (env n J r) (x r))) (hy : XFam n agree S y) (hx : XFam n agree S x0)
    (go : Nat → Bool) (hm : 0 < m) {q : Nat} (hq : q < n) (hgo : go q = false) :
    ∃ out : Nat → XArr K × Nat × List K × List (XArr K), Ends n (fun r => FCG.solve { A with gt := fun _ _ => go r } (env n J r) op (y r) (x0 r) (some m) tol) fun r => if go r = true then none else some (.ok (out r)) := by
  rcases cgf_setup A (niter := some m) (tol := tol) hS hop hy hx with ⟨p, ⟨⟨k, cs, hp⟩, -⟩, hr⟩ | ⟨h, -⟩
  · obtain ⟨j, hj⟩ : ∃ j, (m - 0).toNat = j + 1 := ⟨m.toNat - 1, by omega⟩
    have h1 : Halts n (fun r => FCG.run { A with gt := fun _ _ => go r } (env n J r) op (p r).1 (p r).2 (some m)) fun r => if go r = true then none else some ((p r).1, (p r).2, []) := by
      refine Halts.now (a := fun r => ((p r).1, (p r).2, [])) hq (by simp [hgo]) (fun r hr h => ?_) fun r hr h => ?_
      · simp only [FCG.run, hp.iiter, Nat.cast_zero, hj, FCG.loop]
        rw [if_pos ⟨hm, h⟩]
        simp only [FCG.step, Prog.bind_eq]
        exact ((hw _ hp.c r hr).bind _).bind _
      · simp only [FCG.run, hp.iiter, Nat.cast_zero, hj, FCG.loop]
        rw [if_neg fun hc => h hc.2]
    have h2 := Halts.after (k := fun r p => (FCG.run { A with gt := fun _ _ => go r } (env n J r) op p.1 p.2 (some m)).bind fun q => .ret (q.2.1, q.1.iiter, q.1.cost, q.2.2)) hr
      (h1.map (k := fun _ q => .ret (q.2.1, q.1.iiter, q.1.cost, q.2.2)) (fun _ q => (q.2.1, q.1.iiter, q.1.cost, q.2.2)) fun _ _ _ _ => rfl)
    refine ⟨fun r => ((p r).2, (p r).1.iiter, (p r).1.cost, []), h2.ends.congr' rfl fun r _ => ?_⟩
    by_cases h : go r = true <;> simp [h]
  · exact h.elim

/-! ### cases -/

/-- the floats of Lean; sums from left to right -/
def floatArith : Arith Float where
  cast _ x := x
  zero := 0
  neg x := -x
  conj x := x
  abs := Float.abs
  sqrt := Float.sqrt
  add := (· + ·)
  mul := (· * ·)
  npDiv a b := .ok (a / b)
  pyDiv a b := if b == 0 then .error .zeroDiv else .ok (a / b)
  pySq a := .ok (a * a)
  dot a b := (List.zipWith (· * ·) a b).foldl (· + ·) 0
  sumSq l := (l.map fun x => x * x).foldl (· + ·) 0
  root := Float.sqrt
  stackNorm l := ((l.map fun x => x * x).foldl (· + ·) 0).sqrt
  sum l := l.foldl (· + ·) 0
  gt a b := a > b
  lt a b := a < b

/-- integers between -9 and 9 that overflow to `none`, which plays the part of NaN: addition is not associative, and no comparison with NaN holds -/
def tinyArith : Arith (Option Int) where
  cast _ x := x
  zero := some 0
  neg x := x.map (- ·)
  conj x := x
  abs x := x.map fun v => (v.natAbs : Int)
  sqrt x := x
  add x y := x.bind fun a => y.bind fun b => if (a + b).natAbs ≤ 9 then some (a + b) else none
  mul x y := x.bind fun a => y.bind fun b => if (a * b).natAbs ≤ 9 then some (a * b) else none
  npDiv x y := .ok (x.bind fun a => y.bind fun b => if b = 0 then none else some (a / b))
  pyDiv x y := if y = some 0 then .error .zeroDiv else .ok (x.bind fun a => y.bind fun b => some (a / b))
  pySq x := .ok (x.bind fun a => if (a * a).natAbs ≤ 9 then some (a * a) else none)
  dot a b := (List.zipWith (fun x y => x.bind fun a => y.bind fun b => some (a * b)) a b).foldl (fun x y => x.bind fun a => y.bind fun b => if (a + b).natAbs ≤ 9 then some (a + b) else none) (some 0)
  sumSq l := l.head?.join
  root x := x
  stackNorm l := l.head?.join
  sum l := l.foldl (fun x y => x.bind fun a => y.bind fun b => if (a + b).natAbs ≤ 9 then some (a + b) else none) (some 0)
  gt x y := match x, y with | some a, some b => a > b | _, _ => false
  lt x y := match x, y with | some a, some b => a < b | _, _ => false

/-- five entries on three ranks -/
def fiveOnThree : Layout := ⟨[5], .scatter, 0, fun r => if r < 2 then 2 else if r = 2 then 1 else 0, none⟩

/-- a vector of length 2 held by all ranks -/
def twoEverywhere : Layout := ⟨[2], .unsafeBroadcast, 0, fun _ => 0, none⟩

theorem fiveOnThree_wf : fiveOnThree.WF 3 := ⟨by decide, fun _ => by decide, fun _ h => by simp [fiveOnThree] at h⟩
theorem twoEverywhere_wf : twoEverywhere.WF 3 := ⟨by decide, fun h => by simp [twoEverywhere] at h, fun _ h => by simp [twoEverywhere] at h⟩

/-- the operator that copies its argument, like `pylops.Identity` -/
def copyOp (A : Arith K) : XOp K := ⟨A.copy, A.copy⟩

theorem copyOp_inStep (A : Arith K) {n : Nat} {J : Nat → Nat → K} {agree may : Prop} {S : XLayout} (hS : S.WF n) : InStep n J agree may (copyOp A).mv S S :=
  fun _ hx => ((x_copy A hS hx).imp fun _ h => h.1).together

/-- a stack of a scattered and a replicated array -/
def mixedStack : XLayout := .stack [fiveOnThree, twoEverywhere]

theorem mixedStack_wf : mixedStack.WF 3 := by
  intro L hL
  simp only [List.mem_cons, List.not_mem_nil, or_false] at hL
  rcases hL with rfl | rfl
  · exact ⟨fiveOnThree_wf, rfl⟩
  · exact ⟨twoEverywhere_wf, rfl⟩

/-- the stack with the value `v` everywhere -/
def constStack (v : K) (r : Nat) : XArr K :=
  .stack [fiveOnThree.fam 3 .real (fun r => List.replicate (fiveOnThree.lshape r).prod v) r, twoEverywhere.fam 3 .real (fun _ => [v, v]) r]

theorem constStack_fam (v : K) : XFam 3 True mixedStack (constStack v) :=
  ⟨[fiveOnThree.fam 3 .real (fun r => List.replicate (fiveOnThree.lshape r).prod v), twoEverywhere.fam 3 .real (fun _ => [v, v])],
    .cons ⟨_, _, fun r _ => by simp, fun _ h => by simp [fiveOnThree, Partition.isBroadcast] at h, fun _ _ => rfl⟩
      (.cons ⟨_, _, fun r _ => by rw [lshape_bcast (L := twoEverywhere) rfl]; rfl, fun _ _ _ _ => rfl, fun _ _ => rfl⟩ .nil), fun _ _ => rfl⟩

/-- Lean's floats: the ranks stay in step, and the replicas of the second array stay equal -/
example (J : Nat → Nat → Float) : Together 3 True (fun r => FCG.solve floatArith (env 3 J r) (copyOp floatArith) (constStack 1 r) (constStack 0 r) (some 10) 1e-4)
    fun out => XFam 3 True mixedStack fun r => (out r).1 :=
  (C67_cg floatArith (some 10) 1e-4 mixedStack_wf (copyOp_inStep _ mixedStack_wf) (constStack_fam 1) (constStack_fam 0) (fun h => absurd trivial h)).imp
    (fun ⟨a, h, ha⟩ => ⟨a, h.1, ha⟩) id

/-- the tiny numbers: all ranks return -/
example (J : Nat → Nat → Option Int) : ∃ out : Nat → FCGLS.Result (Option Int), XFam 3 True mixedStack (fun r => (out r).x) ∧
    Always 3 (fun r => FCGLS.solve tinyArith tinyArith.normX (env 3 J r) (copyOp tinyArith) (constStack (some 1) r) (constStack (some 0) r) (some 10) (some 1) (some 0)) fun r => .ok (out r) := by
  rcases C67_cgls tinyArith (may := False) (some 10) (some 1) (some 0) mixedStack_wf mixedStack_wf (copyOp_inStep _ (J := J) mixedStack_wf) (copyOp_inStep _ mixedStack_wf) (constStack_fam (some 1))
    (constStack_fam (some 0)) (fun _ => ⟨by simp, by simp [mixedStack], fun _ => ⟨_, rfl⟩, fun _ _ => ⟨_, rfl⟩, fun a b h => ⟨_, if_neg (by rintro rfl; simp [tinyArith] at h)⟩⟩)
    with ⟨a, h, ha⟩ | h
  · exact ⟨a, h.1, ha⟩
  · exact h.1.elim

/-- rank 1 stops, ranks 0 and 2 go on and wait forever -/
example (J : Nat → Nat → Option Int) : ∃ out : Nat → XArr (Option Int) × Nat × List (Option Int) × List (XArr (Option Int)), Ends 3 (fun r => FCG.solve { tinyArith with gt := fun _ _ => r != 1 } (env 3 J r) (copyOp tinyArith) (constStack (some 1) r) (constStack (some 0) r)
    (some 10) (some 0)) fun r => if (r != 1) = true then none else some (.ok (out r)) := by
  refine C67_needs_same (agree := True) tinyArith 10 (some 0) mixedStack_wf (copyOp_inStep _ mixedStack_wf) (fun x hx r hr => ?_) (constStack_fam (some 1)) (constStack_fam (some 0)) (fun r => r != 1)
    (by decide) (q := 1) (by decide) (by decide)
  obtain ⟨ds, hd, hx⟩ := hx
  rw [hx r hr]
  cases hd with
  | cons h1 h2 => exact ⟨_, _, _, rfl⟩

/-- addition of the tiny numbers is not associative -/
example : tinyArith.add (tinyArith.add (some 8) (some 8)) (some (-8)) ≠ tinyArith.add (some 8) (tinyArith.add (some 8) (some (-8))) := by decide

end Verif

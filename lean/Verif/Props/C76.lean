/-
  C76: with any arithmetic, MPILaplacian and MPIGradient compute the weighted sum and the stack of the derivatives along the axes, in a fixed order of operations that does not depend on
  the number of ranks.
-/
import Verif.Proofs.FloatLaplacian
import Verif.Props.C75

namespace Verif
open NDArray

variable {K : Type}

section
variable (A : OpArith K) {n N : Nat} {J : Nat → Nat → K} {rest : List Nat} {edge b : Bool} {dt dx : DType} {X : Layout}

/-! ### MPILaplacian -/

section
variable {sd : FSerial K SDKind} {g : Nat → K → SDKind → Bool → DType → List K → List K} {kind : SDKind} {p0 : Nat × K × Scal K} {l : List (Nat × K × Scal K)}

/-- `MPILaplacian`: construction succeeds on all ranks; the products are the weighted sums of the second derivatives, added from the first axis of the list to the last.  The terms after the
    first are centered differences, whatever kind is asked for. -/
theorem C76_laplacian (hn : 0 < n) (h : ∀ p ∈ lapTerms kind p0 l, AxisOk sd rest edge dt g p.1 p.2.1 p.2.2.1) :
    ∃ op : Nat → Prim K,
      Always n (fun r => A.mkLaplacian (env n J r) sd (N :: rest) ((p0 :: l).map (·.1)) ((p0 :: l).map (·.2.2)) ((p0 :: l).map (·.2.1)) edge kind dt) (fun r => .ok (op r)) ∧
      (∀ r, (op r).shape = (N * rest.prod, N * rest.prod) ∧ (op r).dtype = dt) ∧
      ∀ b X dx, Rows n N rest X → (b = true → dt = .real → dx = .real) →
        (∀ p ∈ lapTerms kind p0 l, SecondOk A n N edge b p.1 p.2.1 p.2.2.1 ∧ (dt = .real → p.2.2.2.dtype = .real)) →
        TakesTo n J (fun r => (op r).prod b) ⟨X, dx⟩ ⟨.flat n N rest, dt⟩
          (A.lapSum edge dt N rest g b ((lapTerms kind p0 l).map fun p => (p.1, p.2.1, p.2.2.1, p.2.2.2.val))) := by
  have h0 := h (p0.1, p0.2.1, kind, p0.2.2) (by simp [lapTerms])
  have hl : ∀ p ∈ l, AxisOk sd rest edge dt g p.1 p.2.1 .centered := fun p hp =>
    h (p.1, p.2.1, .centered, p.2.2) (by simp only [lapTerms, List.mem_cons, List.mem_map]; exact .inr ⟨p, hp, rfl⟩)
  let prim := lapOp A sd n N rest edge dt
  let ex : MOp K (Nat × K × SDKind) := wsum (.scaled (.leaf (p0.1, p0.2.1, kind)) p0.2.2) (l.map fun p => ((p.1, p.2.1, .centered), p.2.2))
  let e (r : Nat) : MOp K (Prim K) := ex.map (prim · r)
  have ee : ∀ r, e r = wsum (.scaled (.leaf (prim (p0.1, p0.2.1, kind) r)) p0.2.2) (l.map fun p => (prim (p.1, p.2.1, .centered) r, p.2.2)) := by
    intro r
    show (wsum _ _).map _ = _
    rw [wsum_map, List.map_map]
    rfl
  have hsh : ∀ r, (e r).shape Prim.shape = (N * rest.prod, N * rest.prod) := by
    intro r
    rw [ee, wsum_shape]
    exact lapOp_shape A hn h0 r
  have hshd : ∀ r, Shaped Prim.shape (e r) := by
    intro r
    rw [ee]
    refine wsum_shaped trivial fun p hp => ?_
    obtain ⟨q, hq, rfl⟩ := List.mem_map.1 hp
    exact (lapOp_shape A hn (hl q hq) r).trans (lapOp_shape A hn h0 r).symm
  refine ⟨fun r => ⟨N * rest.prod, N * rest.prod, dt, fun c x => A.run c false (e r) x, fun c x => (Prog.lift (A.opH Prim.shape (e r))).bind fun h => A.run c false h x⟩, ?_, fun r => ⟨rfl, rfl⟩, fun b X dx hX hdt hs => ?_⟩
  · refine Runs.always ?_
    unfold OpArith.mkLaplacian
    have c1 : ((p0 :: l).map (·.1)).any ((N :: rest).length ≤ ·) = false := by
      rw [List.any_eq_false]
      intro a ha
      obtain ⟨p, hp, rfl⟩ := List.mem_map.1 ha
      have : p.1 ≤ rest.length := by
        rcases List.mem_cons.1 hp with rfl | hp
        · exact h0.1
        · exact (hl p hp).1
      simpa using by omega
    have c2 : ((p0 :: l).map (·.1)).zip (((p0 :: l).map (·.2.1)).zip ((p0 :: l).map (·.2.2))) = p0 :: l := by
      generalize p0 :: l = q
      induction q with
      | nil => rfl
      | cons a q ih => simp [ih]
    simp only [c1, c2, Bool.false_eq_true, if_false, List.length_map, and_self, not_true_eq_false, Prog.bind_eq]
    refine Runs.bind_ok (runs_flapTerm A h0) ?_
    refine Runs.bind_ok (a := e) ((runs_flapLoop A hn hl (e := fun r => .scaled (.leaf (prim (p0.1, p0.2.1, kind) r)) p0.2.2) fun r => lapOp_shape A hn h0 r).congr (fun _ _ => rfl)
      fun r _ => by rw [ee]) ?_
    refine (Runs.ret _).congr (fun r _ => ?_) fun _ _ => rfl
    rw [hsh r]
  · have lfs : ∀ t w, (t.1, t.2.1, t.2.2, w) ∈ lapTerms kind p0 l →
        Accepts n J prim (fun _ => (N * rest.prod, N * rest.prod)) (fun t b => A.second edge dt N rest g b t.1 t.2.1 t.2.2) b (.leaf t) ⟨X, dx⟩ ⟨.flat n N rest, dt⟩ := by
      intro t w ht
      refine ⟨fun r _ => lapOp_shape A hn (h _ ht) r, ⟨hX.wf, hX.mask⟩, ⟨flat_wf hn, rfl⟩, ?_, ?_, lapOp_takes A hn (h _ ht) (hs _ ht).1 hdt hX⟩
      · cases b <;> exact hX.shape
      · cases b <;> rfl
    have ha : Accepts n J prim (fun _ => (N * rest.prod, N * rest.prod)) (fun t b => A.second edge dt N rest g b t.1 t.2.1 t.2.2) b ex ⟨X, dx⟩ ⟨.flat n N rest, dt⟩ := by
      refine wsum_accepts ⟨lfs (p0.1, p0.2.1, kind) p0.2.2 (by simp [lapTerms]), (hs (p0.1, p0.2.1, kind, p0.2.2) (by simp [lapTerms])).2⟩ fun q hq => ?_
      obtain ⟨p, hp, rfl⟩ := List.mem_map.1 hq
      have hm : (p.1, p.2.1, SDKind.centered, p.2.2) ∈ lapTerms kind p0 l := by
        simp only [lapTerms, List.mem_cons, List.mem_map]
        exact .inr ⟨p, hp, rfl⟩
      exact ⟨lfs (p.1, p.2.1, .centered) p.2.2 hm, (hs _ hm).2⟩
    refine ((accepts_takes A ha).congr_fn fun x _ _ => ?_).congr_prog fun r hr x => ?_
    · show A.eval _ b (wsum _ _) x = _
      rw [wsum_eval]
      unfold OpArith.lapSum lapTerms
      simp only [List.map_cons, List.map_map, SVec.addAll, OpArith.eval]
      rfl
    · cases b with
      | false => rfl
      | true =>
        obtain ⟨e', he, -, -⟩ := C73_H_ok A Prim.shape (hshd r)
        show ((Prog.lift (A.opH Prim.shape (e r))).bind fun h => A.run (env n J r) false h x) = A.run (env n J r) true (e r) x
        rw [he]
        exact (C73_H A he).2 false x (fun h => nomatch h)

/-- so the result does not depend on the number of ranks -/
theorem C76_laplacian_ranks {n₁ n₂ : Nat} {J₁ J₂ : Nat → Nat → K} {X₁ X₂ : Layout} {x : SVec K} (hn₁ : 0 < n₁) (hn₂ : 0 < n₂)
    (h : ∀ p ∈ lapTerms kind p0 l, AxisOk sd rest edge dt g p.1 p.2.1 p.2.2.1 ∧ (dt = .real → p.2.2.2.dtype = .real))
    (h₁ : ∀ p ∈ lapTerms kind p0 l, SecondOk A n₁ N edge b p.1 p.2.1 p.2.2.1) (h₂ : ∀ p ∈ lapTerms kind p0 l, SecondOk A n₂ N edge b p.1 p.2.1 p.2.2.1)
    (hdt : b = true → dt = .real → x.dt = .real) (hX₁ : Rows n₁ N rest X₁) (hX₂ : Rows n₂ N rest X₂) (hx : x.v.length = N * rest.prod) :
    let prog (n : Nat) (J : Nat → Nat → K) (X : Layout) (r : Nat) : P K (DArr K) := do
      let op ← A.mkLaplacian (env n J r) sd (N :: rest) ((p0 :: l).map (·.1)) ((p0 :: l).map (·.2.2)) ((p0 :: l).map (·.2.1)) edge kind dt
      op.prod b (env n J r) (x.dpart X n r)
    ∃ y : SVec K, y.dt = dt ∧ y.v.length = N * rest.prod ∧ Always n₁ (prog n₁ J₁ X₁) (fun r => .ok (y.dpart (.flat n₁ N rest) n₁ r)) ∧
      Always n₂ (prog n₂ J₂ X₂) (fun r => .ok (y.dpart (.flat n₂ N rest) n₂ r)) := by
  intro prog
  have key : ∀ {n : Nat} {J : Nat → Nat → K} {X : Layout}, 0 < n → (∀ p ∈ lapTerms kind p0 l, SecondOk A n N edge b p.1 p.2.1 p.2.2.1) → Rows n N rest X →
      let y := A.lapSum edge dt N rest g b ((lapTerms kind p0 l).map fun p => (p.1, p.2.1, p.2.2.1, p.2.2.2.val)) x
      y.dt = dt ∧ y.v.length = N * rest.prod ∧ Always n (prog n J X) (fun r => .ok (y.dpart (.flat n N rest) n r)) := by
    intro n J X hn hs hX y
    obtain ⟨op, h1, -, h3⟩ := C76_laplacian A (J := J) (n := n) (N := N) hn fun p hp => (h p hp).1
    have t := h3 b X x.dt hX hdt fun p hp => ⟨hs p hp, (h p hp).2⟩
    have hx' : x.v.length = X.gshape.prod := by rw [hx, hX.shape]; simp
    refine ⟨t.dtype x hx' rfl, ?_, ?_⟩
    · have := t.length x hx' rfl
      simpa [Layout.lin] using this
    · exact (Runs.bind_ok h1.runs (t.run hx' rfl)).always
  obtain ⟨a1, a2, a3⟩ := key (J := J₁) hn₁ h₁ hX₁
  exact ⟨_, a1, a2, a3, (key (J := J₂) hn₂ h₂ hX₂).2.2⟩

/-- axes that are out of range and lists of different lengths are rejected; with no axes there is an IndexError -/
theorem C76_laplacian_rejects (dims axes : List Nat) (weights : List (Scal K)) (sampling : List K) (c : Ctx K) :
    ((∃ a ∈ axes, dims.length ≤ a) → A.mkLaplacian c sd dims axes weights sampling edge kind dt = .throw .value) ∧
    (axes.length ≠ weights.length ∨ weights.length ≠ sampling.length → A.mkLaplacian c sd dims axes weights sampling edge kind dt = .throw .value) ∧
    A.mkLaplacian c sd dims [] [] [] edge kind dt = .throw .index := by
  refine ⟨fun ⟨a, ha, h⟩ => ?_, fun h => ?_, ?_⟩
  · exact if_pos (List.any_eq_true.2 ⟨a, ha, by simpa using h⟩)
  · unfold OpArith.mkLaplacian
    split_ifs with h1 h2
    · rfl
    · omega
    · rfl
  · simp [OpArith.mkLaplacian]

end

/-! ### MPIGradient -/

section
variable {fd : FSerial K FDKind} {g : Nat → K → FDKind → Bool → DType → List K → List K} {k : FDKind} {sampling : List K}

/-- leaves of the expressions below: the axes with their steps -/
abbrev gradLeaf (edge : Bool) (dt : DType) (N : Nat) (rest : List Nat) (g : Nat → K → FDKind → Bool → DType → List K → List K) (k : FDKind) (p : K × Nat) (b : Bool) : SVec K → SVec K :=
  A.first edge dt N rest g b p.2 p.1 k

/-- `MPIGradient`: construction succeeds on all ranks and gives the stack of the derivatives along the axes, which can be applied as any stacked operator (see C75) -/
theorem C76_gradient_op (hn : 0 < n) (hl : sampling.length = rest.length + 1) (h : ∀ p ∈ sampling.zipIdx, AxisOk fd rest edge dt g p.2 p.1 k) :
    ∃ prim : K × Nat → Nat → Prim K,
      Always n (fun r => A.mkGradient (env n J r) fd (N :: rest) sampling edge k dt) (fun r => .ok ((SOp.grad (sampling.zipIdx.map .leaf)).map (prim · r))) ∧
      (∀ X dx, Rows n N rest X → FirstOk n N edge false k →
        SAccepts n J prim (fun _ => (N * rest.prod, N * rest.prod)) (gradLeaf A edge dt N rest g k) false (.grad (sampling.zipIdx.map .leaf))
          (.one ⟨X, dx⟩) (.stack (List.replicate (rest.length + 1) ⟨.flat n N rest, dt⟩))) ∧
      (∀ Vs : List VSpace, Vs.length = rest.length + 1 → (∀ V ∈ Vs, Rows n N rest V.L ∧ (dt = .real → V.dt = .real)) → FirstOk n N edge true k →
        SAccepts n J prim (fun _ => (N * rest.prod, N * rest.prod)) (gradLeaf A edge dt N rest g k) true (.grad (sampling.zipIdx.map .leaf))
          (.stack Vs) (.one ⟨.flat n N rest, dt⟩)) := by
  have lfs : ∀ {b X dx p}, p ∈ sampling.zipIdx → Rows n N rest X → (b = true → dt = .real → dx = .real) → FirstOk n N edge b k →
      Accepts n J (gradOp A fd n N rest edge k dt) (fun _ => (N * rest.prod, N * rest.prod)) (gradLeaf A edge dt N rest g k) b (.leaf p) ⟨X, dx⟩ ⟨.flat n N rest, dt⟩ := by
    intro b X dx p hp hX hdt hr
    refine ⟨fun r _ => gradOp_shape A hn (h p hp) r, ⟨hX.wf, hX.mask⟩, ⟨flat_wf hn, rfl⟩, ?_, ?_, gradOp_takes A hn (h p hp) hr hdt hX⟩
    · cases b <;> exact hX.shape
    · cases b <;> rfl
  cases sampling with
  | nil => simp at hl
  | cons s l =>
    refine ⟨gradOp A fd n N rest edge k dt, Runs.always ?_, fun X dx hX hr => ?_, fun Vs hV hX hr => ?_⟩
    · unfold OpArith.mkGradient
      rw [List.take_of_length_le (by simp [hl])]
      simp only [Prog.bind_eq]
      refine Runs.bind_ok (runs_fgradLoop A (ax := 0) fun p hp => h p (by simp only [List.zipIdx_cons, List.mem_cons]; exact .inr hp)) ?_
      refine (Runs.ret _).congr (fun r _ => ?_) fun _ _ => rfl
      have e0 : gradOp A fd n N rest edge k dt (s, 0) r = A.fdPrim k ⟨N :: rest, s, edge, dt⟩ := by simp [gradOp]
      rw [if_neg (by simp at hl ⊢; omega)]
      unfold OpArith.mkStackedV
      dsimp only
      rw [← e0, if_neg]
      · simp [Prog.lift, SOp.map, MOp.map, Function.comp_def]
      · rw [Bool.not_eq_true, List.any_eq_false]
        intro q hq
        obtain ⟨p, hp, rfl⟩ := List.mem_map.1 hq
        have h1 := gradOp_shape A (N := N) hn (h p (by simp only [List.zipIdx_cons, List.mem_cons]; exact .inr hp)) r
        have h2 := gradOp_shape A (N := N) hn (h (s, 0) (by simp)) r
        simp only [MOp.shape, h1, h2]
        simp
    · refine ⟨by simp, ?_⟩
      have e : rest.length + 1 = ((s :: l).zipIdx).length := by rw [List.length_zipIdx, hl]
      rw [e, ← List.map_const', List.forall₂_map_left_iff, List.forall₂_map_right_iff, List.forall₂_same]
      exact fun p hp => lfs hp hX (fun h => nomatch h) hr
    · have key : ∀ {q : List (K × Nat)} {Vs : List VSpace}, (∀ p ∈ q, p ∈ (s :: l).zipIdx) → Vs.length = q.length → (∀ V ∈ Vs, Rows n N rest V.L ∧ (dt = .real → V.dt = .real)) →
          List.Forall₂ (fun o V => ∃ t, Accepts n J (gradOp A fd n N rest edge k dt) (fun _ => (N * rest.prod, N * rest.prod)) (gradLeaf A edge dt N rest g k) true o V ⟨.flat n N rest, t⟩)
            (q.map .leaf) Vs := by
        intro q
        induction q with
        | nil => intro Vs _ hV _; obtain rfl : Vs = [] := by simpa using hV
                 exact .nil
        | cons p q ih =>
          intro Vs hp hV hX
          cases Vs with
          | nil => simp at hV
          | cons V Vs =>
            exact .cons ⟨dt, lfs (hp p (by simp)) (hX V (by simp)).1 (fun _ => (hX V (by simp)).2) hr⟩ (ih (fun p' h' => hp p' (by simp [h'])) (by simpa using hV) fun V' h' => hX V' (by simp [h']))
      cases Vs with
      | nil => simp at hV
      | cons V Vs =>
        simp only [List.zipIdx_cons, List.map_cons]
        refine ⟨lfs (by simp) (hX V (by simp)).1 (fun _ => (hX V (by simp)).2) hr, key (fun p hp => ?_) ?_ fun V' h' => hX V' (by simp [h'])⟩
        · simp only [List.zipIdx_cons, List.mem_cons]
          exact .inr hp
        · simp at hV hl ⊢
          omega

/-- `matvec` gives the stack of the first derivatives along all axes, in order -/
theorem C76_gradient (hn : 0 < n) (hl : sampling.length = rest.length + 1) (h : ∀ p ∈ sampling.zipIdx, AxisOk fd rest edge dt g p.2 p.1 k) (hr : FirstOk n N edge false k) (hX : Rows n N rest X)
    {x : SVec K} (hx : x.v.length = N * rest.prod) :
    Always n (fun r => do
        let op ← A.mkGradient (env n J r) fd (N :: rest) sampling edge k dt
        A.srun (env n J r) false op (x.part X n r))
      (fun r => .ok (.stack (sampling.zipIdx.map fun p => (A.first edge dt N rest g false p.2 p.1 k x).dpart (.flat n N rest) n r))) := by
  obtain ⟨prim, h1, h2, -⟩ := C76_gradient_op A (J := J) (N := N) hn hl h
  have t := C75_expr A (h2 X x.dt hX hr)
  have hx' : x.v.length = X.gshape.prod := by rw [hx, hX.shape]; simp
  have k := (t.runs (.one x) hx' rfl).runs
  refine (Runs.bind_ok h1.runs k).always.congr fun r _ => ?_
  congr 1
  have e : rest.length + 1 = (sampling.zipIdx).length := by rw [List.length_zipIdx, hl]
  simp only [OpArith.seval, OpArith.evalStack, XDom.lay, XVec.part, e]
  congr 1
  generalize sampling.zipIdx = q
  induction q with
  | nil => rfl
  | cons p q ih => 
    simp only [List.map_cons, List.length_cons, List.replicate_succ, List.zipWith_cons_cons]
    rw [ih]
    simp only [OpArith.eval]
    rfl

/-- `rmatvec` adds the adjoints of the derivatives, from the first axis to the last -/
theorem C76_gradient_adj (hn : 0 < n) (hl : sampling.length = rest.length + 1) (h : ∀ p ∈ sampling.zipIdx, AxisOk fd rest edge dt g p.2 p.1 k) (hr : FirstOk n N edge true k)
    {Ls : List Layout} {xs : List (SVec K)} (hL : Ls.length = rest.length + 1)
    (hx : List.Forall₂ (fun L x => Rows n N rest L ∧ x.v.length = N * rest.prod ∧ (dt = .real → x.dt = .real)) Ls xs) :
    Always n (fun r => do
        let op ← A.mkGradient (env n J r) fd (N :: rest) sampling edge k dt
        A.srun (env n J r) true op ((XVec.stack xs).part (.stack Ls) n r))
      (fun r => .ok ((SVec.addAll A.toArith (List.zipWith (fun p x => A.first edge dt N rest g true p.2 p.1 k x) sampling.zipIdx xs)).part (.flat n N rest) n r)) := by
  obtain ⟨prim, h1, -, h2⟩ := C76_gradient_op A (J := J) (N := N) hn hl h
  let Vs : List VSpace := List.zipWith (fun L x => ⟨L, x.dt⟩) Ls xs
  have hV : Vs.map VSpace.L = Ls ∧ Vs.map VSpace.dt = xs.map SVec.dt ∧ (∀ V ∈ Vs, Rows n N rest V.L ∧ (dt = .real → V.dt = .real)) ∧ (XVec.stack xs).Fits (.stack Ls) := by
    clear hL h2
    induction hx with
    | nil => exact ⟨rfl, rfl, (fun V hV => by simp [Vs] at hV), .nil⟩
    | cons a _ ih =>
      obtain ⟨i1, i2, i3, i4⟩ := ih
      refine ⟨?_, ?_, ?_, .cons (by rw [a.2.1, a.1.shape]; simp) i4⟩
      · simpa [Vs] using i1
      · simpa [Vs] using i2
      · intro V hV
        simp only [Vs, List.zipWith_cons_cons, List.mem_cons] at hV
        rcases hV with rfl | hV
        · exact ⟨a.1, a.2.2⟩
        · exact i3 V hV
  obtain ⟨v1, v2, v3, v4⟩ := hV
  have t := C75_expr A (h2 Vs (by rw [← hL, ← v1, List.length_map]) v3 hr)
  have e : (XDom.stack Vs).lay = .stack Ls := congrArg XLay.stack v1
  have k := (t.runs (.stack xs) (by rw [e]; exact v4) v2.symm).runs
  rw [e] at k
  refine (Runs.bind_ok h1.runs k).always.congr fun r _ => ?_
  congr 1
  have ez : ∀ (q : List (K × Nat)) (ys : List (SVec K)), List.zipWith (fun o x => A.eval (gradLeaf A edge dt N rest g ‹FDKind›) true o x) (q.map .leaf) ys =
      List.zipWith (fun p x => A.first edge dt N rest g true p.2 p.1 ‹FDKind› x) q ys := by
    intro q
    induction q with
    | nil => intro ys; rfl
    | cons p q ih =>
      intro ys
      cases ys with
      | nil => rfl
      | cons y ys =>
        simp only [List.map_cons, List.zipWith_cons_cons]
        rw [ih]
        simp only [OpArith.eval]
  simp only [OpArith.seval, OpArith.evalStack]
  rw [ez]
  rfl

/-- `CGLS` with MPIGradient as operator: the same results on all numbers of ranks, if dot products and norms do not depend on the order of summation -/
theorem C76_gradient_cgls (hA : OrderFree A.toArith) {n₁ n₂ : Nat} {J₁ J₂ : Nat → Nat → K} (hn₁ : 0 < n₁) (hn₂ : 0 < n₂) (hl : sampling.length = rest.length + 1)
    (h : ∀ p ∈ sampling.zipIdx, AxisOk fd rest edge dt g p.2 p.1 k) (h₁ : ∀ b, FirstOk n₁ N edge b k) (h₂ : ∀ b, FirstOk n₂ N edge b k)
    {x0 : SVec K} {y : List (SVec K)} {damp tol : K} {niter : Int} (hx : x0.v.length = N * rest.prod) (hy : y.length = rest.length + 1)
    (hy' : ∀ z ∈ y, z.v.length = N * rest.prod ∧ (dt = .real → z.dt = .real)) :
    let M (n : Nat) : XLay := .one (.flat n N rest)
    let D (n : Nat) : XLay := .stack (List.replicate (rest.length + 1) (.flat n N rest))
    let prog (n : Nat) (J : Nat → Nat → K) (r : Nat) := do
      let op ← A.mkGradient (env n J r) fd (N :: rest) sampling edge k dt
      FCGLS.solve A.toArith A.normX (env n J r) (A.asStackedOp op) ((XVec.stack y).part (D n) n r) ((XVec.one x0).part (M n) n r) (some niter) damp tol
    (∃ (x : XVec K) (istop it : Nat) (r1 r2 : K) (cost : List K) (xs : List (XVec K)),
      Always n₁ (prog n₁ J₁) (fun r => .ok ⟨x.part (M n₁) n₁ r, istop, it, r1, r2, cost, xs.map fun z => z.part (M n₁) n₁ r⟩) ∧
      Always n₂ (prog n₂ J₂) (fun r => .ok ⟨x.part (M n₂) n₂ r, istop, it, r1, r2, cost, xs.map fun z => z.part (M n₂) n₂ r⟩)) ∨
    ∃ er, Always n₁ (prog n₁ J₁) (fun _ => .error er) ∧ Always n₂ (prog n₂ J₂) (fun _ => .error er) := by
  intro M D prog
  obtain ⟨prim₁, a1, a2, a3⟩ := C76_gradient_op A (J := J₁) (N := N) hn₁ hl h
  obtain ⟨prim₂, b1, b2, b3⟩ := C76_gradient_op A (J := J₂) (N := N) hn₂ hl h
  have hR : ∀ {n : Nat}, 0 < n → Rows n N rest (.flat n N rest) := fun hn => ⟨flat_wf hn, rfl, rfl, rfl, near_flat⟩
  have hrep : ∀ n, ¬ (M n).Replicated ∧ ¬ (D n).Replicated := by
    intro n
    refine ⟨fun h => absurd h Bool.false_ne_true, fun ⟨L, hL, h⟩ => ?_⟩
    obtain rfl := List.eq_of_mem_replicate hL
    exact absurd h Bool.false_ne_true
  have hsame : (D n₁).SameSize (D n₂) := by
    show List.Forall₂ _ _ _
    generalize rest.length + 1 = m
    induction m with
    | zero => exact .nil
    | succ m ih => exact .cons rfl ih
  have hfit : (XVec.stack y).Fits (D n₁) := by
    show List.Forall₂ _ _ _
    rw [← hy]
    clear hy hsame hrep
    induction y with
    | nil => exact .nil
    | cons z y ih => exact .cons (by rw [(hy' z (by simp)).1]; simp [Layout.lin]) (ih fun z hz => hy' z (by simp [hz]))
  let P : List DType → Prop := fun d => d.length = rest.length + 1 ∧ (dt = .real → ∀ t ∈ d, t = .real)
  have adj : ∀ {n : Nat} {J : Nat → Nat → K} {prim : K × Nat → Nat → Prim K}, 0 < n → (∀ b, FirstOk n N edge b k) →
      (∀ Vs : List VSpace, Vs.length = rest.length + 1 → (∀ V ∈ Vs, Rows n N rest V.L ∧ (dt = .real → V.dt = .real)) → FirstOk n N edge true k →
        SAccepts n J prim (fun _ => (N * rest.prod, N * rest.prod)) (gradLeaf A edge dt N rest g k) true (.grad (sampling.zipIdx.map .leaf))
          (.stack Vs) (.one ⟨.flat n N rest, dt⟩)) → ∀ d, P d → ∃ S T : XDom, S.lay = D n ∧ T.lay = M n ∧ S.dts = d ∧ (∃ t, T.dts = [t]) ∧
        SAccepts n J prim (fun _ => (N * rest.prod, N * rest.prod)) (gradLeaf A edge dt N rest g k) true (.grad (sampling.zipIdx.map .leaf)) S T := by
    intro n J prim hn hf hS d hd
    refine ⟨.stack (d.map fun t => ⟨.flat n N rest, t⟩), .one ⟨.flat n N rest, dt⟩, ?_, rfl, ?_, ⟨dt, rfl⟩, hS _ (by simpa using hd.1) (fun V hV => ?_) (hf true)⟩
    · simp only [XDom.lay, List.map_map, D]
      congr 1
      rw [← hd.1]
      exact List.map_const' ..
    · simp only [XDom.dts, List.map_map]
      exact List.map_id _
    · obtain ⟨t, ht, rfl⟩ := List.mem_map.1 hV
      exact ⟨hR hn, fun h => hd.2 h t ht⟩
  have lays : ∀ n, (XDom.stack (List.replicate (rest.length + 1) ⟨.flat n N rest, dt⟩)).lay = D n := fun n => by
    simp only [XDom.lay, List.map_replicate]
    rfl
  have c := C75_cgls A hA (e := .grad (sampling.zipIdx.map .leaf)) (lf := gradLeaf A edge dt N rest g k) (prim₁ := prim₁) (prim₂ := prim₂)
    (sh₁ := fun _ => (N * rest.prod, N * rest.prod)) (sh₂ := fun _ => (N * rest.prod, N * rest.prod)) (D := fun d => ∃ t, d = [t]) (D' := P) hn₁ hn₂ (J₁ := J₁) (J₂ := J₂)
    (L₁ := M n₁) (L₂ := M n₂) (L₁' := D n₁) (L₂' := D n₂) (damp := damp) (tol := tol) (niter := niter)
    (fun h => by rcases h with h | h | h | h; exacts [absurd h (hrep n₁).1, absurd h (hrep n₁).2, absurd h (hrep n₂).1, absurd h (hrep n₂).2])
    (fun h => h.elim (fun h => absurd h (hrep n₁).2) fun h => absurd h (hrep n₂).2) rfl hsame
    (fun d ⟨t, ht⟩ => ⟨.one ⟨.flat n₁ N rest, t⟩, _, rfl, lays n₁, ht.symm, a2 _ t (hR hn₁) (h₁ false)⟩)
    (fun d ⟨t, ht⟩ => ⟨.one ⟨.flat n₂ N rest, t⟩, _, rfl, lays n₂, ht.symm, b2 _ t (hR hn₂) (h₂ false)⟩)
    (adj hn₁ h₁ a3) (fun d hd => by obtain ⟨S, T, q1, q2, q3, -, q5⟩ := adj hn₂ h₂ b3 d hd; exact ⟨S, T, q1, q2, q3, q5⟩)
    (y := .stack y) (x0 := .one x0) hfit (by rw [show (XVec.one x0).Fits (M n₁) ↔ x0.v.length = (Layout.flat n₁ N rest).gshape.prod from Iff.rfl, hx]; simp [Layout.lin])
    ⟨by simpa [XVec.dts] using hy, fun h t ht => by obtain ⟨z, hz, rfl⟩ := List.mem_map.1 ht; exact (hy' z hz).2 h⟩ ⟨_, rfl⟩
  rcases c with ⟨x, istop, it, r1, r2, cost, xs, c1, c2⟩ | ⟨er, c1, c2⟩
  · exact .inl ⟨x, istop, it, r1, r2, cost, xs, (Runs.bind_ok a1.runs c1.runs).always, (Runs.bind_ok b1.runs c2.runs).always⟩
  · exact .inr ⟨er, (Runs.bind_ok a1.runs c1.runs).always, (Runs.bind_ok b1.runs c2.runs).always⟩

/-- too few sampling steps give an IndexError -/
theorem C76_gradient_rejects (hn : 0 < n) (hl : sampling.length < rest.length + 1) (h : ∀ p ∈ sampling.zipIdx, AxisOk fd rest edge dt g p.2 p.1 k) :
    Always n (fun r => A.mkGradient (env n J r) fd (N :: rest) sampling edge k dt) (fun _ => .error .index) := by
  refine Runs.always ?_
  unfold OpArith.mkGradient
  rw [List.take_of_length_le (by simp; omega)]
  cases sampling with
  | nil => exact (Runs.throw fun _ => .index).congr (fun _ _ => rfl) fun _ _ => rfl
  | cons s l =>
    simp only [Prog.bind_eq]
    refine Runs.bind_ok (runs_fgradLoop A (ax := 0) fun p hp => h p (by simp only [List.zipIdx_cons, List.mem_cons]; exact .inr hp)) ?_
    refine (Runs.throw fun _ => .index).congr (fun r _ => ?_) fun _ _ => rfl
    rw [if_pos (by simp at hl ⊢; omega)]

end

end

/-! ### exact arithmetic -/

section
variable [RCLike K] {N ax : Nat} {rest : List Nat} {dt : DType} {s : K} {edge b : Bool} {x : SVec K}

omit [RCLike K] in
theorem perRow_eq (w : Nat) (f : List K → List K) (m : Nat) (d : List K) : perRow w f m d = onBlocks w f m d := by
  induction m generalizing d with
  | zero => rfl
  | succ m ih => simp only [perRow, onBlocks, ih]

/-- second differences of a row along its axis `ax - 1`, and their adjoints -/
def sdRow (edge : Bool) (rest : List Nat) (ax : Nat) (s : K) (k : SDKind) (b : Bool) (_ : DType) (v : List K) : List K :=
  alongAxis (fun N => if b then sdAdj k edge N else sdAt k edge N) (s ^ 2) (ax - 1) rest v

/-- first differences -/
def fdRow (edge : Bool) (rest : List Nat) (ax : Nat) (s : K) (k : FDKind) (b : Bool) (_ : DType) (v : List K) : List K :=
  alongAxis (fun N => if b then fdAdj k edge N else fdAt k edge N) s (ax - 1) rest v

theorem axisFn_exact {D : Nat → (Nat → K) → Nat → K} {E : (Nat → K) → Nat → K} {g : DType → List K → List K} (hD : ∀ N, Conj (D N)) (hs : star s = s) (hx : x.Fits)
    (hd : dt = .real → x.dt = .real) (hax : ax ≤ rest.length) (h0 : ax = 0 → OpArith.exact.along dt N rest E x = ⟨dt, alongRows (D N) s N rest.prod x.v⟩)
    (hg : g x.dt = alongAxis D s (ax - 1) rest) : OpArith.exact.axisFn dt N rest ax E g x = ⟨dt, alongAxis D s ax (N :: rest) x.v⟩ := by
  have hc : x.copy OpArith.exact.toArith = x := copy_exact hx
  unfold OpArith.axisFn
  split_ifs with h
  · rw [hc, h0 h, h]
    rfl
  · obtain ⟨a, rfl⟩ := Nat.exists_eq_succ_of_ne_zero h
    unfold OpArith.rowsFn
    have hf : FitsL dt (alongAxis D s (a + 1) (N :: rest) x.v) := fits_alongAxis hD hs (by simpa using hax) fun h => hx (hd h)
    rw [hc, hg, perRow_eq]
    congr 1
    exact castTo_of_fits hf

/-- with exact arithmetic the terms of MPILaplacian are the second differences along the axes, as in C33 -/
theorem C76_exact_second (k : SDKind) (hN : edge = true → ax = 0 → 2 ≤ N) (hs : star s = s) (hx : x.Fits) (hd : dt = .real → x.dt = .real) (hax : ax ≤ rest.length) :
    OpArith.exact.second edge dt N rest (sdRow edge rest) false ax s k x = ⟨dt, alongAxis (sdAt k edge) (s ^ 2) ax (N :: rest) x.v⟩ ∧
    OpArith.exact.second edge dt N rest (sdRow edge rest) true ax s k x = ⟨dt, alongAxis (sdAdj k edge) (s ^ 2) ax (N :: rest) x.v⟩ := by
  have hs2 : star (s ^ 2) = s ^ 2 := by rw [star_pow, hs]
  have hq : OpArith.exact.sqOf s = s ^ 2 := rfl
  refine ⟨axisFn_exact (fun _ => conj_sdAt k) hs2 hx hd hax (fun h => ?_) rfl, axisFn_exact (fun _ => conj_sdAdj k) hs2 hx hd hax (fun h => ?_) rfl⟩
  · have := (C72_exact_second (X := .flat 1 N rest) (rest := rest) (dt := dt) k (fun e => hN e h) hs2 hx hd).1
    rw [received_exact hx] at this
    exact this
  · have := (C72_exact_second (X := .flat 1 N rest) (rest := rest) (dt := dt) k (fun e => hN e h) hs2 hx hd).2
    rw [received_exact hx] at this
    exact this

/-- the components of MPIGradient are the first differences, as in C34 -/
theorem C76_exact_first (k : FDKind) (hN : edge = true → ax = 0 → 2 ≤ N) (hs : star s = s) (hx : x.Fits) (hd : dt = .real → x.dt = .real) (hax : ax ≤ rest.length) :
    OpArith.exact.first edge dt N rest (fdRow edge rest) false ax s k x = ⟨dt, alongAxis (fdAt k edge) s ax (N :: rest) x.v⟩ ∧
    OpArith.exact.first edge dt N rest (fdRow edge rest) true ax s k x = ⟨dt, alongAxis (fdAdj k edge) s ax (N :: rest) x.v⟩ := by
  refine ⟨axisFn_exact (fun _ => conj_fdAt k) hs hx hd hax (fun h => ?_) rfl, axisFn_exact (fun _ => conj_fdAdj k) hs hx hd hax (fun h => ?_) rfl⟩
  · have := (C72_exact (X := .flat 1 N rest) (rest := rest) (dt := dt) k (fun e => hN e h) hs hx hd).1
    rw [received_exact hx] at this
    exact this
  · have := (C72_exact (X := .flat 1 N rest) (rest := rest) (dt := dt) k (fun e => hN e h) hs hx hd).2
    rw [received_exact hx] at this
    exact this

theorem addAll_exact {P : Nat} {v : List K} {vs : List (List K)} (hf : FitsL dt v) (hfs : ∀ w ∈ vs, FitsL dt w) (hl : v.length = P) (hls : ∀ w ∈ vs, w.length = P) :
    SVec.addAll OpArith.exact.toArith ((v :: vs).map (SVec.mk dt)) = ⟨dt, vsum P (v :: vs)⟩ := by
  rw [vsum_cons, ← foldl_vadd hl hls]
  show (vs.map (SVec.mk dt)).foldl (SVec.add Arith.exact) ⟨dt, v⟩ = _
  clear hl hls
  induction vs generalizing v with
  | nil => rfl
  | cons w vs ih =>
    have hw := fits_vadd hf (hfs w (by simp))
    have e : SVec.add Arith.exact ⟨dt, v⟩ ⟨dt, w⟩ = ⟨dt, vadd v w⟩ := by
      show SVec.mk dt (List.zipWith (fun a b => castTo dt (a + b)) v w) = _
      rw [← castTo_of_fits hw]
      congr 1
      exact (List.map_zipWith ..).symm
    rw [List.map_cons, List.foldl_cons, List.foldl_cons, e]
    exact ih hw fun w' h' => hfs w' (by simp [h'])

/-- with exact arithmetic the sum is the Laplacian of C33 -/
theorem C76_exact_laplacian {l : List (Nat × K × SDKind × K)} (hl : l ≠ []) (hx : x.Fits) (hd : dt = .real → x.dt = .real) (hlen : x.v.length = N * rest.prod)
    (h : ∀ p ∈ l, p.1 ≤ rest.length ∧ (edge = true → p.1 = 0 → 2 ≤ N) ∧ star p.2.1 = p.2.1 ∧ (dt = .real → star p.2.2.2 = p.2.2.2)) :
    OpArith.exact.lapSum edge dt N rest (sdRow edge rest) false l x = ⟨dt, laplacian edge (N :: rest) l x.v⟩ := by
  have key : ∀ p ∈ l, let y := vscale p.2.2.2 (alongAxis (sdAt p.2.2.1 edge) (p.2.1 ^ 2) p.1 (N :: rest) x.v)
      FitsL dt y ∧ y.length = N * rest.prod ∧
      (OpArith.exact.second edge dt N rest (sdRow edge rest) false p.1 p.2.1 p.2.2.1 x).scale OpArith.exact.toArith p.2.2.2 = ⟨dt, y⟩ := by
    intro p hp y
    obtain ⟨h1, h2, h3, h4⟩ := h p hp
    have hf : FitsL dt y := by
      intro e z hz
      obtain ⟨u, hu, rfl⟩ := List.mem_map.1 hz
      rw [StarMul.star_mul, h4 e, fits_alongAxis (dt := dt) (fun _ => conj_sdAt _) (by rw [star_pow, h3]) (by simpa using Nat.lt_succ_of_le h1) (fun h => hx (hd h)) e u hu, mul_comm]
    refine ⟨hf, ?_, ?_⟩
    · have := length_alongAxis (D := sdAt p.2.2.1 edge) (s := p.2.1 ^ 2) (ax := p.1) (dims := N :: rest) (by simpa using Nat.lt_succ_of_le h1) (d := x.v) (by simpa using hlen)
      simpa [y, vscale] using this
    · rw [(C76_exact_second p.2.2.1 h2 h3 hx hd h1).1]
      show SVec.mk dt (List.map (fun a => castTo dt (a * p.2.2.2)) _) = _
      rw [← castTo_of_fits hf]
      refine congrArg (SVec.mk dt) ?_
      simp only [y, vscale, List.map_map]
      rfl
  unfold OpArith.lapSum laplacian
  cases l with
  | nil => exact absurd rfl hl
  | cons p l =>
    simp only [Bool.false_eq_true, if_false]
    rw [List.map_congr_left (fun q hq => (key q hq).2.2), List.prod_cons]
    have := addAll_exact (P := N * rest.prod) (key p (by simp)).1 (vs := l.map fun q => vscale q.2.2.2 (alongAxis (sdAt q.2.2.1 edge) (q.2.1 ^ 2) q.1 (N :: rest) x.v))
      (fun w hw => by obtain ⟨q, hq, rfl⟩ := List.mem_map.1 hw; exact (key q (by simp [hq])).1) (key p (by simp)).2.1
      (fun w hw => by obtain ⟨q, hq, rfl⟩ := List.mem_map.1 hw; exact (key q (by simp [hq])).2.1)
    simpa [Function.comp_def] using this

end

/-! ### cases -/

/-- second differences of rows of three, with step 1: `a - 2 b + c`, rounded, in the first position for `forward` and in the middle otherwise -/
def rowDiff (k : SDKind) (b : Bool) (v : List Int) : List Int :=
  match k, b, v with
  | .forward, false, [a, b, c] => [rough (a - 2 * b + c), 0, 0]
  | .forward, true, [a, _, _] => [a, rough (-2 * a), a]
  | _, false, [a, b, c] => [0, rough (a - 2 * b + c), 0]
  | _, true, [_, a, _] => [a, rough (-2 * a), a]
  | _, _, v => v

/-- the serial operators on arrays with rows of three -/
def rowSecond : FSerial Int SDKind := fun dims _ _ k _ dt =>
  ⟨dims.prod, dims.prod, dt, fun _ v => perRow 3 (rowDiff k false) (dims.headD 0) v, fun _ v => perRow 3 (rowDiff k true) (dims.headD 0) v⟩

theorem rowSecond_byRows (k : SDKind) (s : Int) (edge : Bool) (dt : DType) (ax : Nat) : ByRows rowSecond [3] edge dt (fun b _ => rowDiff k b) ax s k where
  rows _ := by simp [rowSecond]
  cols _ := by simp [rowSecond]
  dtype _ := rfl
  row b t v hv := by
    match v, hv with
    | [a, b', c], _ => cases k <;> cases b <;> rfl
  fn m b t v _ := by cases b <;> rfl

/-- MPILaplacian((5, 3), weights=(1, 3)) with any kind on one or two ranks -/
example (n : Nat) (hn : 0 < n) (h5 : n ≤ 2) (J : Nat → Nat → Int) (k : SDKind) :
    Always n (fun r => do
        let op ← wholeOps.mkLaplacian (env n J r) rowSecond [5, 3] [0, 1] [⟨.real, 1⟩, ⟨.real, 3⟩] [1, 1] false k .real
        op.mv (env n J r) ((⟨.real, [1, 2, 4, 0, 0, 5, 1, 33, 2, 0, 1, 0, 7, 7, 7]⟩ : SVec Int).dpart (.flat n 5 [3]) n r))
      (fun r => .ok ((wholeOps.lapSum false .real 5 [3] (fun _ _ k b _ => rowDiff k b) false [(0, 1, k, 1), (1, 1, .centered, 3)]
        ⟨.real, [1, 2, 4, 0, 0, 5, 1, 33, 2, 0, 1, 0, 7, 7, 7]⟩).dpart (.flat n 5 [3]) n r)) := by
  have hax : ∀ p ∈ lapTerms k ((0, 1, ⟨.real, 1⟩) : Nat × Int × Scal Int) [(1, 1, ⟨.real, 3⟩)], AxisOk rowSecond [3] false .real (fun _ _ k b _ => rowDiff k b) p.1 p.2.1 p.2.2.1 := by
    intro p hp
    simp only [lapTerms, List.map_cons, List.map_nil, List.mem_cons, List.not_mem_nil, or_false] at hp
    rcases hp with rfl | rfl
    · exact ⟨Nat.zero_le _, fun h => absurd rfl h⟩
    · exact ⟨Nat.le_refl 1, fun _ => rowSecond_byRows ..⟩
  obtain ⟨op, h1, -, h3⟩ := C76_laplacian wholeOps (J := J) (n := n) (N := 5) hn hax
  have t := h3 false (.flat n 5 [3]) .real ⟨flat_wf hn, rfl, rfl, rfl, near_flat⟩ (fun _ _ => rfl) fun p hp => ⟨fun _ => ⟨?_, _, rfl⟩, fun _ => ?_⟩
  · exact (Runs.bind_ok h1.runs (t.run rfl rfl)).always
  · generalize p.2.2.1 = k'
    cases k' <;> simp [sdRoom] <;> omega
  · simp only [lapTerms, List.map_cons, List.map_nil, List.mem_cons, List.not_mem_nil, or_false] at hp
    rcases hp with rfl | rfl <;> rfl

/-- the sum in this example: only the first term is a forward difference, and sums are rounded -/
example : wholeOps.lapSum false .real 5 [3] (fun _ _ k b _ => rowDiff k b) false [(0, 1, .forward, 1), (1, 1, .centered, 3)]
    ⟨.real, [1, 2, 4, 0, 0, 5, 1, 33, 2, 0, 1, 0, 7, 7, 7]⟩ = ⟨.real, [2, 36, -4, -2, -52, 1, 8, -154, 8, 0, -6, 0, 0, 0, 0]⟩ := by rfl

/-- first differences of rows of three: `b - a`, `c - b` -/
def rowStep (b : Bool) (v : List Int) : List Int :=
  match b, v with
  | false, [a, b, c] => [rough (b - a), rough (c - b), 0]
  | true, [a, b, _] => [-a, rough (a - b), b]
  | _, v => v

def rowFirst : FSerial Int FDKind := fun dims _ _ _ _ dt =>
  ⟨dims.prod, dims.prod, dt, fun _ v => perRow 3 (rowStep false) (dims.headD 0) v, fun _ v => perRow 3 (rowStep true) (dims.headD 0) v⟩

theorem rowFirst_byRows (k : FDKind) (s : Int) (edge : Bool) (dt : DType) (ax : Nat) : ByRows rowFirst [3] edge dt (fun b _ => rowStep b) ax s k where
  rows _ := by simp [rowFirst]
  cols _ := by simp [rowFirst]
  dtype _ := rfl
  row b t v hv := by
    match v, hv with
    | [a, b', c], _ => cases b <;> rfl
  fn m b t v _ := by cases b <;> rfl

theorem rowFirst_axes : ∀ p ∈ ([1, 1] : List Int).zipIdx, AxisOk rowFirst [3] false .real (fun _ _ _ b _ => rowStep b) p.2 p.1 .forward := by
  intro p hp
  simp only [List.zipIdx_cons, List.zipIdx_nil, List.mem_cons, List.not_mem_nil, or_false] at hp
  rcases hp with rfl | rfl
  · exact ⟨Nat.zero_le _, fun h => absurd rfl h⟩
  · exact ⟨Nat.le_refl 1, fun _ => rowFirst_byRows ..⟩

/-- MPIGradient((2, 3), kind="forward") on one or two ranks; 31 - 2 = 29 is rounded to 28 -/
example (n : Nat) (hn : 0 < n) (h2 : n ≤ 2) (J : Nat → Nat → Int) :
    Always n (fun r => do
        let op ← wholeOps.mkGradient (env n J r) rowFirst [2, 3] [1, 1] false .forward .real
        wholeOps.srun (env n J r) false op ((⟨.real, [1, 2, 4, 7, 31, 5]⟩ : SVec Int).part (.flat n 2 [3]) n r))
      (fun r => .ok (.stack [(⟨.real, [6, 28, 1, 0, 0, 0]⟩ : SVec Int).dpart (.flat n 2 [3]) n r, (⟨.real, [1, 2, 0, 24, -26, 0]⟩ : SVec Int).dpart (.flat n 2 [3]) n r])) := by
  have h := C76_gradient wholeOps (J := J) (n := n) (N := 2) (X := .flat n 2 [3]) (x := ⟨.real, [1, 2, 4, 7, 31, 5]⟩) hn rfl rowFirst_axes h2 ⟨flat_wf hn, rfl, rfl, rfl, near_flat⟩ rfl
  exact h

/-- `rmatvec`: the adjoints of both are added -/
example (n : Nat) (hn : 0 < n) (h2 : n ≤ 2) (J : Nat → Nat → Int) :
    Always n (fun r => do
        let op ← wholeOps.mkGradient (env n J r) rowFirst [2, 3] [1, 1] false .forward .real
        wholeOps.srun (env n J r) true op ((XVec.stack [⟨.real, [6, 28, 1, 0, 0, 0]⟩, ⟨.real, [1, 2, 0, 24, -26, 0]⟩]).part (.stack [.flat n 2 [3], .flat n 2 [3]]) n r))
      (fun r => .ok ((⟨.real, [-7, -30, 1, -18, 78, -26]⟩ : SVec Int).part (.flat n 2 [3]) n r)) := by
  have hR : Rows n 2 [3] (.flat n 2 [3]) := ⟨flat_wf hn, rfl, rfl, rfl, near_flat⟩
  have h := C76_gradient_adj wholeOps (J := J) (n := n) (N := 2) (Ls := [.flat n 2 [3], .flat n 2 [3]]) (xs := [⟨.real, [6, 28, 1, 0, 0, 0]⟩, ⟨.real, [1, 2, 0, 24, -26, 0]⟩]) hn rfl rowFirst_axes h2 rfl
    (.cons ⟨hR, rfl, fun _ => rfl⟩ (.cons ⟨hR, rfl, fun _ => rfl⟩ .nil))
  exact h

/-- CGLS with this operator on one and on two ranks -/
example (J₁ J₂ : Nat → Nat → Int) (niter damp tol : Int) :=
  C76_gradient_cgls wholeOps wholeArith_free (J₁ := J₁) (J₂ := J₂) (n₁ := 1) (n₂ := 2) (N := 2) (x0 := ⟨.real, [0, 0, 0, 0, 0, 0]⟩) (y := [⟨.real, [6, 28, 1, 0, 0, 0]⟩, ⟨.real, [1, 2, 0, 24, -26, 0]⟩])
    (damp := damp) (tol := tol) (niter := niter) (by decide) (by decide) rfl rowFirst_axes (fun b => by cases b <;> exact Nat.le_succ 1) (fun b => by cases b <;> exact Nat.le_refl 2) rfl rfl
    (fun z hz => by
      simp only [List.mem_cons, List.not_mem_nil, or_false] at hz
      rcases hz with rfl | rfl <;> exact ⟨rfl, fun _ => rfl⟩)

end Verif

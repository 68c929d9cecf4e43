/- C90: Programs that use distributed arrays and operators compute what they compute with NumPy arrays. -/
import Verif.Proofs.Script
import Verif.Props.C83
import Verif.Props.C84

namespace Verif
open NDArray
set_option linter.unusedSectionVars false

namespace Script
variable {K σ ι : Type} [RCLike K] {n : Nat} {J : Nat → Nat → K} {dt : DType} {prim : ι → Nat → Prim K} {lv : Leaves K ι}

/-- **C90** (programs).  Let every operator give the right result or raise.  If the ranks hold the parts of the arrays `G`, each scattered along the first axis in any way or BROADCAST, and run
    the same script, then
    * if the script raises with NumPy arrays, some rank raises, in all executions;
    * if it ends with the arrays and the numbers `G'`, then either all ranks return and hold the parts of the arrays `G'` and the numbers of `G'`, in all executions, or some rank raises, in all
      executions. -/
theorem C90_script (hn : 0 < n) (hdt : dt = .real → ∀ k : K, star k = k) (hops : OpsOr n J dt prim lv) (p : Script K σ ι) {V : Nat → Vars (DArr K) σ}
    {G : Vars (NDArray K) σ} (h : Holds n dt V G) :
    let ps r := p.run dt (prim · r) (env n J r) (V r)
    (∀ e, p.serial dt lv G = .error e → Raises n ps) ∧
    ∀ G', p.serial dt lv G = .ok G' → (∃ V', Holds n dt V' G' ∧ Always n ps fun r => .ok (V' r)) ∨ Raises n ps := by
  intro ps
  rcases script_outcome hn hdt hops p V G h with ⟨G1, h1, V1, h2, h3⟩ | hr
  · refine ⟨fun e he => (by rw [h1] at he; cases he), fun G' hG => .inl ⟨V1, ?_, h3.always⟩⟩
    rw [h1] at hG
    obtain rfl := Except.ok.inj hG
    exact h2
  · exact ⟨fun _ _ => hr, fun _ _ => .inr hr⟩

/-- what is left of the variables of the ranks without the arrays -/
theorem holds_start (s : σ) : Holds n dt (fun _ => ⟨fun _ => none, s⟩) (⟨fun _ => none, s⟩ : Vars (NDArray K) σ) := ⟨fun _ _ => rfl, fun _ _ _ => rfl⟩

/-- **C90** (results).  A script that starts without arrays: if all ranks return in some execution, then the script returns with NumPy arrays, and all ranks have its numbers, its gathered arrays and
    whatever else it keeps, in all executions. -/
theorem C90_results (hn : 0 < n) (hdt : dt = .real → ∀ k : K, star k = k) (hops : OpsOr n J dt prim lv) (p : Script K σ ι) (s : σ) {V : Nat → Vars (DArr K) σ}
    (hc : Completes n (fun r => p.run dt (prim · r) (env n J r) ⟨fun _ => none, s⟩) V) :
    ∃ G', p.serial dt lv ⟨fun _ => none, s⟩ = .ok G' ∧ Holds n dt V G' ∧ Always n (fun r => p.run dt (prim · r) (env n J r) ⟨fun _ => none, s⟩) fun r => .ok (V r) := by
  obtain ⟨st, hst, hret⟩ := hc
  rcases script_outcome hn hdt hops p _ _ (holds_start s) with ⟨G1, h1, V1, h2, h3⟩ | ⟨m, hm, e, he⟩
  · have e1 := h3.completes ⟨st, hst, hret⟩
    refine ⟨G1, h1, ⟨fun r hr => by rw [e1 r hr]; exact h2.1 r hr, fun x => ?_⟩, (h3.congr (fun _ _ => rfl) fun r hr => by rw [e1 r hr]).always⟩
    have hx := h2.2 x
    cases hG : G1.arr x with
    | none =>
      rw [hG] at hx
      exact fun r hr => by rw [e1 r hr]; exact hx r hr
    | some a =>
      rw [hG] at hx
      obtain ⟨h1, h2, L, h3, h4⟩ := hx
      exact ⟨h1, h2, L, h3, fun r hr => by rw [e1 r hr]; exact h4 r hr⟩
  · cases (he st hst).2 (.ok (V m)) (hret m hm)

/-- **C90** (scripts that do not raise).  Let the operators also return for vectors in the default layout, and give their results in that layout.  A script that neither makes BROADCAST arrays nor calls
    `ravel`, on arrays in the default layout: all ranks return if and only if the script returns with NumPy arrays, and then they hold the parts of its arrays in the default layout. -/
theorem C90_plain (hn : 0 < n) (hdt : dt = .real → ∀ k : K, star k = k) (hops : OpsStandard n J dt prim lv) (p : Script K σ ι) (hp : p.Plain)
    {V : Nat → Vars (DArr K) σ} {G G' : Vars (NDArray K) σ} (h : HoldsStandard n dt V G) (hs : p.serial dt lv G = .ok G') :
    ∃ V', HoldsStandard n dt V' G' ∧ Always n (fun r => p.run dt (prim · r) (env n J r) (V r)) fun r => .ok (V' r) := by
  obtain ⟨V', h1, h2⟩ := script_good hn hdt hops p hp V G h G' hs
  exact ⟨V', h1, h2.always⟩

theorem HoldsStandard.holds (hn : 0 < n) {V : Nat → Vars (DArr K) σ} {G : Vars (NDArray K) σ} (h : HoldsStandard n dt V G) : Holds n dt V G := by
  refine ⟨h.1, fun x => ?_⟩
  have hx := h.2 x
  cases hG : G.arr x with
  | none => rw [hG] at hx; exact hx
  | some a =>
    rw [hG] at hx
    obtain ⟨h1, h2, h3, h4⟩ := hx
    exact ⟨h1, h2, _, standard_held hn h3, h4⟩

/-- **C90** (when scripts raise).  With operators that satisfy both hypotheses, some rank raises if and only if the script raises with NumPy arrays. -/
theorem C90_plain_iff (hn : 0 < n) (hdt : dt = .real → ∀ k : K, star k = k) (ho : OpsOr n J dt prim lv) (hops : OpsStandard n J dt prim lv) (p : Script K σ ι)
    (hp : p.Plain) {V : Nat → Vars (DArr K) σ} {G : Vars (NDArray K) σ} (h : HoldsStandard n dt V G) :
    Raises n (fun r => p.run dt (prim · r) (env n J r) (V r)) ↔ ∃ e, p.serial dt lv G = .error e := by
  constructor
  · intro hr
    cases hs : p.serial dt lv G with
    | error e => exact ⟨e, rfl⟩
    | ok G' =>
      obtain ⟨V', -, h2⟩ := C90_plain hn hdt hops p hp h hs
      exact (C83_exclusive h2 hr).elim
  · rintro ⟨e, he⟩
    exact (C90_script hn hdt ho p (HoldsStandard.holds hn h)).1 e he

/-! ### operators -/

theorem Held.vecIn {N : Nat} {X : Layout} (h : Held n [N] X) : VecIn n N X := by
  rcases h with ⟨h1, h2, h3, -⟩ | ⟨-, h⟩
  · exact .inl ⟨h1, h2, h3⟩
  · exact .inr h

/-- an operator given by its two directions -/
def wrap (sh : Nat × Nat) (dt : DType) (f : Bool → Ctx K → DArr K → P K (DArr K)) : Prim K := ⟨sh.1, sh.2, dt, f false, f true⟩

/-- **C90** (MPIBlockDiag). -/
theorem C90_blockDiag (hn : 0 < n) {ops : Nat → List (LOp K)} (hok : ∀ b, ∀ o ∈ allOps n ops, o.Ok b dt dt) (h0 : ∀ r < n, ops r ≠ []) :
    OpOr n J dt (bdPrim n ops none dt) (inSum true (allOps n ops), inSum false (allOps n ops)) fun b => blockDiag b (allOps n ops) := by
  refine ⟨fun r _ => rfl, fun b X hX => ⟨inL (!b) n ops, .inl ⟨inL_wf (fun _ h => by cases h), ?_, rfl, rfl, rfl⟩, ?_⟩⟩
  · cases b <;> rfl
  · refine C83_blockDiag hn (hok b) h0 ?_
    cases b <;> exact hX.vecIn

/-- **C90** (MPIFredholm1). -/
theorem C90_fredholm {sz : Nat → Nat} {nx ny nz : Nat} {sg um : Bool} {dG : DType} {g : List K} (hg : g.length = psum sz n * (nx * ny)) (fg : FitsL dt g) :
    OpOr n J dt (fun r => wrap (psum sz n * nx * nz, psum sz n * ny * nz) dt (fredRun (kern sz nx ny dG g r) nz sg um dt))
      (psum sz n * nx * nz, psum sz n * ny * nz) fun b => if b then fredholmAdj (psum sz n) nx ny nz g else fredholm (psum sz n) nx ny nz g := by
  refine ⟨fun r _ => rfl, fun b X hX => ⟨.all (psum sz n * (if b then ny else nx) * nz), .inr ⟨by simp, ?_⟩, ?_⟩⟩
  · cases b <;> rfl
  · have h := C84_fredholm (n := n) (J := J) (nz := nz) (sg := sg) (um := um) (dG := dG) (dx := dt) (X := X) hg fg (fun h => h) b (by rw [hX.shape]; cases b <;> rfl)
    cases b <;> exact h

/-- **C90** (MPILaplacian). -/
theorem C90_laplacian (hn : 0 < n) {sd : Serial K SDKind} {N : Nat} {rest : List Nat} {edge : Bool} {kind : SDKind} (hN : 1 ≤ N) {p0 : Nat × K × Scal K}
    {l : List (Nat × K × Scal K)} (h0 : LapFits sd n N rest edge dt kind p0) (hl : ∀ p ∈ l, LapFits sd n N rest edge dt .centered p) (hs : p0.1 = 0 → ¬ sdSilent kind n N) :
    ∃ g : List K → List K,
      OpOr n J dt (fun _ => wrap (N * rest.prod, N * rest.prod) dt (lapRun sd (N :: rest) ((p0 :: l).map (·.1)) ((p0 :: l).map (·.2.2)) ((p0 :: l).map (·.2.1)) edge kind dt))
        (N * rest.prod, N * rest.prod)
        (fun b => if b then g else laplacian edge (N :: rest) ((p0.1, p0.2.1, kind, p0.2.2.val) :: l.map fun p => (p.1, p.2.1, .centered, p.2.2.val))) ∧
      ∀ u v : List K, u.length = N * rest.prod → v.length = N * rest.prod →
        ip (laplacian edge (N :: rest) ((p0.1, p0.2.1, kind, p0.2.2.val) :: l.map fun p => (p.1, p.2.1, .centered, p.2.2.val)) u) v = ip u (g v) := by
  obtain ⟨g, h1, h2⟩ := lap_adjoint_all (J := J) (dx := dt) hn hN h0 hl (fun h => h) hs
  refine ⟨g, ⟨fun _ _ => rfl, fun b X hX => ⟨.flat n N rest, .inl ⟨flat_wf hn, ?_, rfl, rfl, rfl⟩, ?_⟩⟩, h2⟩
  · cases b <;> rfl
  · cases b with
    | false => exact C83_laplacian hn hN h0 hl (fun h => h) hX.vecIn
    | true => exact h1 X hX.vecIn

/-- **C90** (MPIBlockDiag in the default layout).  If the numbers of rows and of columns on the ranks are those of the default layout, nothing raises. -/
theorem C90_blockDiag_standard (hn : 0 < n) {ops : ι → Nat → List (LOp K)} (hok : ∀ i b, ∀ o ∈ allOps n (ops i), o.Ok b dt dt) (h0 : ∀ i, ∀ r < n, ops i r ≠ [])
    (hsz : ∀ i b r, inSum b (ops i r) = if r < inSum b (allOps n (ops i)) % n then inSum b (allOps n (ops i)) / n + 1 else inSum b (allOps n (ops i)) / n) :
    OpsStandard n J dt (fun i => bdPrim n (ops i) none dt)
      ⟨fun i => (inSum true (allOps n (ops i)), inSum false (allOps n (ops i))), fun i b => blockDiag b (allOps n (ops i))⟩ := by
  have hL : ∀ i b, standard n [inSum b (allOps n (ops i))] = inL b n (ops i) := by
    intro i b
    unfold standard inL Layout.lin
    congr 1
    funext r
    rw [hsz i b r]
    rfl
  refine fun i => ⟨fun _ _ => rfl, fun b d hd => ?_⟩
  have e1 : standard n [dimOf (inSum true (allOps n (ops i)), inSum false (allOps n (ops i))) b] = inL b n (ops i) := by
    cases b <;> exact hL i _
  have e2 : standard n [dimOf (inSum true (allOps n (ops i)), inSum false (allOps n (ops i))) !b] = inL (!b) n (ops i) := by
    cases b <;> exact hL i _
  dsimp only at hd ⊢
  rw [e1] at hd ⊢
  rw [e2]
  have hw : (inL b n (ops i)).WF n := inL_wf (fun _ h => by cases h)
  refine ⟨mem_blockDiag (mask := none) (hok i b) (by rw [hd.1]; simp [inL, Layout.lin]) hd.2, ?_⟩
  have h := runs_blockDiagMv (J := J) (mask := none) (conform_in hw rfl rfl rfl) (fun r hr => ⟨psum_mono _ (by omega), psum_mono _ (by omega)⟩) (hok i b) (h0 i) (by simp) hd
  refine (h.congr (fun r _ => ?_) fun _ _ => rfl).always
  cases b <;> rfl

/-! ### a limit -/

/-- **C90** (limit: arrays scattered along another axis are not in scope).  On 2 ranks, an array of shape (4, 2) scattered along axis 0 and an array of shape (2, 4) scattered along axis 1 are added without
    an exception, although NumPy refuses arrays of these shapes. -/
theorem C90_needs_axis (d e : List K) (hd : d.length = 8) (he : e.length = 8) (J : Nat → Nat → K) :
    let L : Layout := ⟨[4, 2], .scatter, 0, fun _ => 2, none⟩
    let L' : Layout := ⟨[2, 4], .scatter, 1, fun _ => 2, none⟩
    L.WF 2 ∧ L'.WF 2 ∧ (∃ a : Nat → DArr K, Always 2 (fun r => (VSpace.vec ⟨L, .cplx⟩ 2 d r).add (env 2 J r) (VSpace.vec ⟨L', .cplx⟩ 2 e r)) fun r => .ok (a r)) ∧
      elementwise (· + ·) ⟨[4, 2], .cplx, d⟩ ⟨[2, 4], .cplx, e⟩ = .error .value := by
  intro L L'
  have w : L.WF 2 := ⟨by decide, fun _ => rfl, (fun _ h => by cases h)⟩
  have w' : L'.WF 2 := ⟨by decide, fun _ => rfl, (fun _ h => by cases h)⟩
  have g := good_vec (S := ⟨L, .cplx⟩) w ⟨hd, (fun h => by cases h)⟩
  have g' := good_vec (S := ⟨L', .cplx⟩) w' ⟨he, (fun h => by cases h)⟩
  refine ⟨w, w', ⟨_, (runs_add (J := J) w g (b := L'.piece e) ⟨fun r hr => g'.length r hr, g'.fits, fun h => by cases h⟩).always⟩, rfl⟩

/-! ### examples -/

/-- the numbers of conjugate gradients and the array at the end -/
structure CGState where
  k : ℝ
  t : ℝ
  out : List ℝ

/-- conjugate gradients as a user would write it with the library: y = 0, x = 1, r = 2, c = 3, the others are temporary -/
noncomputable def cgScript (N : Nat) (y : Nat → ℝ) (niter : Nat) (tol : ℝ) : Script ℝ CGState Unit :=
  .seq (.dist 0 false (fun _ => [N]) fun _ => y) <|
  .seq (.unary (fun _ => .zeros) 1 0) <|
  .seq (.unary (fun _ => .copy) 2 0) <|
  .seq (.unary (fun _ => .copy) 3 2) <|
  .seq (.dot 2 2 fun k s => { s with k := k }) <|
  .seq (.loop (fun _ => niter) (fun s => decide (s.k ≤ tol)) <|
    .seq (.apply () false 4 3) <|
    .seq (.dot 3 4 fun t s => { s with t := t }) <|
    .seq (.ite (fun s => decide (s.t = 0)) (.pure fun _ => .error .zeroDiv) (.pure .ok)) <|
    .seq (.unary (fun s => .smul (s.k / s.t)) 5 3) <|
    .seq (.iadd 1 5) <|
    .seq (.unary (fun s => .smul (s.k / s.t)) 5 4) <|
    .seq (.isub 2 5) <|
    .seq (.dot 2 2 fun t s => { s with t := t }) <|
    .seq (.unary (fun s => .smul (s.t / s.k)) 5 3) <|
    .seq (.binary .add 3 2 5) <|
    .pure fun s => .ok { s with k := s.t })
  (.gather 1 fun a s => { s with out := a.data })

theorem cgScript_plain (N : Nat) (y : Nat → ℝ) (niter : Nat) (tol : ℝ) : (cgScript N y niter tol).Plain := by
  simp [cgScript, Plain]

/-- **C90** (example).  Conjugate gradients with a block diagonal operator whose blocks are distributed as the arrays are: all ranks have the result of the serial program, on any number of ranks. -/
theorem C90_cg (hn : 0 < n) {J : Nat → Nat → ℝ} {ops : Nat → List (LOp ℝ)} (hok : ∀ b, ∀ o ∈ allOps n ops, o.Ok b .real .real) (h0 : ∀ r < n, ops r ≠ [])
    (hsz : ∀ b r, inSum b (ops r) = if r < inSum b (allOps n ops) % n then inSum b (allOps n ops) / n + 1 else inSum b (allOps n ops) / n) (y : Nat → ℝ) (niter : Nat) (tol : ℝ)
    (s : CGState) {G : Vars (NDArray ℝ) CGState}
    (hs : (cgScript (inSum false (allOps n ops)) y niter tol).serial .real
      ⟨fun _ : Unit => (inSum true (allOps n ops), inSum false (allOps n ops)), fun _ b => blockDiag b (allOps n ops)⟩ ⟨fun _ => none, s⟩ = .ok G) :
    ∃ V, HoldsStandard n .real V G ∧
      Always n (fun r => (cgScript (inSum false (allOps n ops)) y niter tol).run .real (fun _ => bdPrim n ops none .real r) (env n J r) ⟨fun _ => none, s⟩) fun r => .ok (V r) :=
  C90_plain (prim := fun _ => bdPrim n ops none .real) hn (fun _ _ => rfl) (C90_blockDiag_standard (ι := Unit) (ops := fun _ => ops) hn (fun _ => hok) (fun _ => h0) (fun _ => hsz)) _
    (cgScript_plain _ _ _ _) (V := fun _ => ⟨fun _ => none, s⟩) (G := ⟨fun _ => none, s⟩) ⟨fun _ _ => rfl, fun _ _ _ => rfl⟩ hs

/-- multiplication by 2, one entry on each rank -/
def doubles : Nat → List (LOp ℝ) := fun _ => [⟨1, 1, .real, fun x => x.map (2 * ·), fun x => x.map (2 * ·)⟩]

theorem blockDiag_doubles (b : Bool) (x y : ℝ) : blockDiag b (allOps 2 doubles) [x, y] = [2 * x, 2 * y] := by
  cases b <;> simp [blockDiag, slices, allOps, doubles, List.range_succ, LOp.fn, LOp.inDim]

/-- With NumPy arrays the script returns after one step, with the solution (1/2, 3/2). -/
theorem serial_doubles : ((cgScript 2 (fun i => if i = 0 then 1 else 3) 5 0).serial .real
    ⟨fun _ : Unit => (2, 2), fun _ b => blockDiag b (allOps 2 doubles)⟩ ⟨fun _ => none, ⟨0, 0, []⟩⟩).map (·.loc.out) = .ok [1 / 2, 3 / 2] := by
  norm_num [cgScript, serial, serialLoop, applyTo, Vars.get, Vars.set, NDArray.tab, elementwise, Except.bind, Except.map, UnaryOp.fn, BinaryOp.fn, dimOf, List.range_succ, blockDiag_doubles]

theorem doubles_ok {b : Bool} {o : LOp ℝ} (h : o ∈ allOps n doubles) : o.Ok b .real .real := by
  obtain ⟨r, -, h⟩ := List.mem_flatMap.1 h
  obtain rfl := List.mem_singleton.1 h
  cases b <;> exact ⟨fun d hd => by simpa [LOp.fn, LOp.inDim, LOp.outDim] using hd, fun _ _ _ _ _ _ => rfl⟩

/-- On 2 ranks, in all executions, both ranks return and have the solution. -/
example (J : Nat → Nat → ℝ) : ∃ V : Nat → Vars (DArr ℝ) CGState, (∀ r < 2, (V r).loc.out = [1 / 2, 3 / 2]) ∧
    Always 2 (fun r => (cgScript 2 (fun i => if i = 0 then 1 else 3) 5 0).run .real (fun _ => bdPrim 2 doubles none .real r) (env 2 J r) ⟨fun _ => none, ⟨0, 0, []⟩⟩)
      fun r => .ok (V r) := by
  have h := serial_doubles
  cases hs : (cgScript 2 (fun i => if i = 0 then 1 else 3) 5 0).serial .real ⟨fun _ : Unit => (2, 2), fun _ b => blockDiag b (allOps 2 doubles)⟩ ⟨fun _ => none, ⟨0, 0, []⟩⟩ with
  | error e => rw [hs] at h; cases h
  | ok G =>
    rw [hs] at h
    obtain ⟨V, h1, h2⟩ := C90_cg (J := J) (n := 2) (by decide) (ops := doubles) (fun _ _ h => doubles_ok h) (fun _ _ => by simp [doubles]) (by intro b r; cases b <;> rfl) _ 5 0 _ hs
    exact ⟨V, fun r hr => by rw [h1.1 r hr]; exact Except.ok.inj h, h2⟩

/-- With a BROADCAST array and `ravel`: the array is scattered along the first axis in unequal parts, and the block diagonal operator redistributes it or raises. -/
example (hn : 0 < n) (J : Nat → Nat → ℝ) (s : List ℝ) :
    let p : Script ℝ (List ℝ) Unit := .seq (.dist 0 false (fun _ => [n, 1]) fun s i => s.getD i 0) <| .seq (.ravel 1 0) <| .seq (.apply () true 2 1) <|
      .seq (.dist 3 true (fun _ => [n]) fun _ _ => 1) <| .gather 2 fun a _ => a.data
    OpsOr n J .real (fun _ : Unit => bdPrim n doubles none .real) ⟨fun _ => (inSum true (allOps n doubles), inSum false (allOps n doubles)), fun _ b => blockDiag b (allOps n doubles)⟩ ∧
      Holds n .real (fun _ => ⟨fun _ => none, s⟩) (⟨fun _ => none, s⟩ : Vars (NDArray ℝ) (List ℝ)) ∧ ¬ p.Plain :=
  ⟨fun _ => C90_blockDiag hn (fun _ _ h => doubles_ok h) fun _ _ => by simp [doubles], holds_start s, by simp [Plain]⟩

end Script
end Verif

/- C37: algebra of stacked operators. -/
import Verif.Props.C36

set_option linter.unusedSectionVars false

namespace Verif
open NDArray

variable {K ι : Type} [Field K] [StarRing K] [CharZero K] {lv : Leaves K ι} {n : Nat} {J : Nat → Nat → K} {prim : ι → Nat → Prim K}

/-- **C37**, partial.  For every expression `e` of any depth over stacked operators that is `STyped` from the space `S` to the space `T`, `matvec` (`b = false`) and
    `rmatvec` (`b = true`), applied to the parts of any vector `d`, leave on all ranks, in all executions, their parts of the vector denoted by the expression.
    Missing for the full statement: powers acting on stacked vectors (`C37_violated_power`), differences (`C37_violated_sub`), complex multiples of
    real stacks (`C37_violated_scale`), and combinations of operators whose results have different dtypes or layouts. -/
theorem C37_partial {e : SOp K ι} {b : Bool} {S T : XSpace} (h : STyped lv n J prim b e S T) {d : List K} (hd : S.Mem d) :
    T.Mem (sden lv b e d) ∧
    Always n (fun r => SOp.run (env n J r) b (e.map (prim · r)) (S.vec n d r)) (fun r => .ok (T.vec n (sden lv b e d) r)) :=
  styped_computes h d hd

/-- **C37** (what the expressions denote). -/
theorem C37_combinators (A B : SOp K ι) (s : Scal K) (p : Nat) (x : List K) :
    sden lv false A.neg x = (sden lv false A x).map (- ·) ∧
    sden lv false (.scaled A s) x = (sden lv false A x).map (s.val * ·) ∧
    sden lv false (.prod A B) x = sden lv false A (sden lv false B x) ∧
    sden lv false (.pow A p) x = (sden lv false A)^[p] x ∧
    sden lv false (.sum A B) x = List.zipWith (· + ·) (sden lv false A x) (sden lv false B x) ∧
    sden lv false (.conj A) x = (sden lv false A (x.map star)).map star ∧
    sden lv false (.trans A) x = (sden lv true A (x.map star)).map star ∧
    sden lv false (.adj A) x = sden lv true A x := by
  refine ⟨?_, ?_, rfl, rfl, rfl, rfl, rfl, rfl⟩
  · simp only [SOp.neg, sden, vscale]
    exact List.map_congr_left fun a _ => by simp
  · simp only [sden, vscale]
    exact List.map_congr_left fun a _ => by simp [mul_comm]

/-- **C37** (`Op @ x`).  For non-empty stacks, and for distributed arrays, `Op @ x` is `Op.matvec(x)`. -/
theorem C37_dot {e : SOp K ι} {S T : XSpace} (h : STyped lv n J prim false e S T) (h0 : S ≠ .stack []) {d : List K} (hd : S.Mem d) :
    Always n (fun r => SOp.dotArr (env n J r) (e.map (prim · r)) (S.vec n d r)) (fun r => .ok (some (T.vec n (sden lv false e d) r))) := by
  have c := (styped_computes h).runs hd
  have hf := (STyped.facts h).1.flatS
  have := Runs.map_ok some c
  refine (this.congr (fun r _ => ?_) fun _ _ => rfl).always
  cases S with
  | one V =>
    simp only [XSpace.vec, SOp.dotArr]
    rw [if_pos (by exact hf)]
    rfl
  | stack Ss =>
    simp only [XSpace.vec, SOp.dotArr]
    rw [if_pos]
    · rfl
    · constructor
      · intro hn
        have := congrArg List.length hn
        rw [SSpace.length_vec] at this
        exact h0 (by rw [List.length_eq_zero_iff.1 this])
      · rw [List.all_eq_true]
        intro x hx
        have : x.gshape ∈ (Ss.vec n d r).map (·.gshape) := List.mem_map_of_mem hx
        rw [SSpace.gshape_vec, List.mem_map] at this
        obtain ⟨V, hV, e⟩ := this
        rw [← e]; exact decide_eq_true (hf V hV)

/-! ### Adjoints -/

theorem length_sden (hs : lv.Sized) {e : SOp K ι} (he : SShaped lv.sh e) :
    ∀ {b : Bool} {x : List K}, x.length = dimOf (e.shape lv.sh) b → (sden lv b e x).length = dimOf (e.shape lv.sh) (!b) := by
  have hvc : ∀ {ops : List (MOp K ι)}, (∀ o ∈ ops, Shaped lv.sh o) → ∀ {N : Nat}, (∀ o ∈ ops, (o.shape lv.sh).2 = N) → ∀ {x : List K}, x.length = N →
      (vcat false (ops.map (MOp.toLOp lv)) x).length = (ops.map fun o => (o.shape lv.sh).1).sum := by
    intro ops h1 N h2 x hx
    induction ops with
    | nil => rfl
    | cons o os ih =>
      have ev : vcat false ((o :: os).map (MOp.toLOp lv)) x = den lv false o x ++ vcat false (os.map (MOp.toLOp lv)) x := rfl
      rw [ev, List.length_append, ih (fun o ho => h1 o (by simp [ho])) (fun o ho => h2 o (by simp [ho])),
        length_den hs (h1 o (by simp)) (b := false) (by rw [hx, ← h2 o (by simp)]; rfl)]
      simp [dimOf]
  have hsl : ∀ {ops : List (MOp K ι)} {b : Bool}, (∀ o ∈ ops, Shaped lv.sh o) → ∀ {x : List K}, x.length = (ops.map fun o => dimOf (o.shape lv.sh) b).sum →
      (slices b (ops.map (MOp.toLOp lv)) x).map List.length = ops.map fun o => dimOf (o.shape lv.sh) (!b) := by
    intro ops b h1
    induction ops with
    | nil => intro x _; rfl
    | cons o os ih =>
      intro x hx
      simp only [List.map_cons, List.sum_cons] at hx
      have hk : (o.toLOp lv).inDim b = dimOf (o.shape lv.sh) b := by cases b <;> simp [dimOf, LOp.inDim, MOp.toLOp]
      have ef : (o.toLOp lv).fn b = den lv b o := by cases b <;> rfl
      simp only [List.map_cons, slices, hk, ef]
      rw [ih (fun o ho => h1 o (by simp [ho])) (by rw [List.length_drop, hx]; omega), length_den hs (h1 o (by simp)) (by rw [List.length_take, hx]; omega)]
  have hh : ∀ {ops : List (MOp K ι)} {N : Nat}, (∀ o ∈ ops, Shaped lv.sh o) → (∀ o ∈ ops, (o.shape lv.sh).2 = N) → ∀ {x : List K},
      x.length = (ops.map fun o => (o.shape lv.sh).1).sum → (hsum true N (ops.map (MOp.toLOp lv)) x).length = N := by
    intro ops N h1 h2 x hx
    refine length_vsum fun y hy => ?_
    have := hsl (b := true) h1 (x := x) hx
    have hy' : y.length ∈ (slices true (ops.map (MOp.toLOp lv)) x).map List.length := List.mem_map_of_mem hy
    rw [this, List.mem_map] at hy'
    obtain ⟨o, ho, e⟩ := hy'
    rw [← e]; exact h2 o ho
  have hv : ∀ {ops : List (MOp K ι)}, ((∀ o ∈ ops, Shaped lv.sh o) ∧ ∀ o ∈ ops, (o.shape lv.sh).2 = (SOp.vshape lv.sh ops).2) → ∀ {b : Bool} {x : List K},
      x.length = dimOf (SOp.vshape lv.sh ops) b → (sden lv b (.vstack ops) x).length = dimOf (SOp.vshape lv.sh ops) (!b) := by
    intro ops h b x hx
    cases b with
    | false => exact hvc h.1 h.2 hx
    | true => exact hh h.1 h.2 hx
  induction e with
  | vstack ops => intro b x hx; exact hv he.2 hx
  | grad ops =>
    intro b x hx
    have := hv he.2 hx
    cases b <;> exact this
  | bdiag ops =>
    intro b x hx
    have h1 : x.length = (ops.map fun o => dimOf (o.shape lv.sh) b).sum := by rw [hx]; cases b <;> rfl
    have e1 : sden lv b (.bdiag ops) x = (slices b (ops.map (MOp.toLOp lv)) x).flatten := by cases b <;> rfl
    rw [e1, List.length_flatten, hsl he h1]
    cases b <;> rfl
  | adj A ih =>
    intro b x hx
    have := ih he (b := !b) (x := x) (by rw [hx]; cases b <;> rfl)
    simp only [sden, this]
    cases b <;> rfl
  | trans A ih =>
    intro b x hx
    have := ih he (b := !b) (x := vconj x) (by rw [vconj, List.length_map, hx]; cases b <;> rfl)
    simp only [sden, vconj, List.length_map] at this ⊢
    rw [this]
    cases b <;> rfl
  | prod A B ihA ihB =>
    intro b x hx
    obtain ⟨hA, hB, hAB⟩ := he
    cases b with
    | false => exact ihA hA (b := false) (by rw [ihB hB (b := false) hx]; exact hAB.symm)
    | true => exact ihB hB (b := true) (by rw [ihA hA (b := true) hx]; exact hAB)
  | scaled A s ih => intro b x hx; simp only [sden, vscale, List.length_map]; exact ih he hx
  | sum A B ihA ihB =>
    intro b x hx
    obtain ⟨hA, hB, hAB, _⟩ := he
    simp only [sden, vadd, List.length_zipWith]
    rw [ihA hA hx, ihB hB (b := b) (by rw [← hAB]; exact hx), ← hAB, Nat.min_self]
    rfl
  | pow A p ih =>
    intro b x hx
    obtain ⟨hA, hAA⟩ := he
    have e1 : ∀ b, dimOf (A.shape lv.sh) b = (A.shape lv.sh).1 := by intro b; cases b <;> simp [dimOf, hAA]
    simp only [sden, SOp.shape, e1] at hx ⊢
    induction p generalizing x with
    | zero => exact hx
    | succ p ihp => rw [Function.iterate_succ_apply]; exact ihp (by have := ih hA (b := b) (x := x) (by rw [e1, hx]); rw [this, e1])
  | conj A ih =>
    intro b x hx
    have := ih he (b := b) (x := vconj x) (by rw [vconj, List.length_map, hx]; rfl)
    simp only [sden, vconj, List.length_map] at this ⊢
    rw [this]
    rfl

/-- **C37** (adjoint identity).  For every expression of any depth whose leaves are adjoint pairs, the denoted operators are adjoint: ⟨Op u, v⟩ = ⟨u, Op^H v⟩. -/
theorem C37_adjoint (hs : lv.Sized) (ha : lv.Adjoint) {e : SOp K ι} (he : SShaped lv.sh e) :
    ∀ {u v : List K}, u.length = (e.shape lv.sh).2 → v.length = (e.shape lv.sh).1 → ip (sden lv false e u) v = ip u (sden lv true e v) := by
  induction e with
  | vstack ops => intro u v hu hv; exact vden_adjoint hs ha he.2 hu hv
  | grad ops => intro u v hu hv; exact vden_adjoint hs ha he.2 hu hv
  | bdiag ops => intro u v hu hv; exact bden_adjoint hs ha he hu hv
  | adj A ih => intro u v hu hv; exact ip_swap (ih he hv hu)
  | trans A ih =>
    intro u v hu hv
    simp only [sden, Bool.not_false, Bool.not_true]
    have h := ih he (u := vconj v) (v := vconj u) ((List.length_map ..).trans hv) ((List.length_map ..).trans hu)
    rw [ip_vconj, ← ip_comm (vconj v), ← h, star_star, ← ip_comm _ u, ip_vconj, star_star]
  | prod A B ihA ihB =>
    intro u v hu hv
    obtain ⟨hA, hB, hAB⟩ := he
    have h1 : (sden lv false B u).length = (A.shape lv.sh).2 := by
      rw [length_sden hs hB (b := false) (x := u) hu]; exact hAB.symm
    have h2 : (sden lv true A v).length = (B.shape lv.sh).1 := by
      rw [length_sden hs hA (b := true) (x := v) hv]; exact hAB
    simp only [sden]
    rw [ihA hA h1 hv, ihB hB hu h2]
  | scaled A s ih =>
    intro u v hu hv
    simp only [sden, vscale]
    rw [ip_smul_left, ip_smul_right, ih he hu hv]
    simp [mul_comm]
  | sum A B ihA ihB =>
    intro u v hu hv
    obtain ⟨hA, hB, hAB, _⟩ := he
    have hu' : u.length = (B.shape lv.sh).2 := by rw [← hAB]; exact hu
    have hv' : v.length = (B.shape lv.sh).1 := by rw [← hAB]; exact hv
    simp only [sden]
    rw [ip_vadd_left, ip_vadd_right, ihA hA hu hv, ihB hB hu' hv']
    · rw [length_sden hs hA (b := true) hv, length_sden hs hB (b := true) hv', hAB]
    · rw [length_sden hs hA (b := false) hu, length_sden hs hB (b := false) hu', hAB]
  | pow A p ih =>
    intro u v hu hv
    obtain ⟨hA, hAA⟩ := he
    simp only [sden, SOp.shape] at hu hv ⊢
    have hlen : ∀ b p (x : List K), x.length = (A.shape lv.sh).1 → ((sden lv b A)^[p] x).length = (A.shape lv.sh).1 := by
      intro b p x hx
      have e1 : ∀ b, dimOf (A.shape lv.sh) b = (A.shape lv.sh).1 := by intro b; cases b <;> simp [dimOf, hAA]
      have := length_sden (e := .pow A p) hs ⟨hA, hAA⟩ (b := b) (x := x) (by rw [hx]; exact (e1 b).symm)
      rw [show dimOf ((SOp.pow A p).shape lv.sh) (!b) = _ from e1 _] at this
      cases b <;> exact this
    induction p generalizing u v with
    | zero => rfl
    | succ p ihp =>
      rw [Function.iterate_succ_apply, Function.iterate_succ_apply']
      have h1 : (sden lv false A u).length = (A.shape lv.sh).1 := hlen false 1 u (by rw [hu, hAA])
      rw [ihp (by rw [h1, hAA]) hv]
      exact ih hA hu (hlen true p v hv)
  | conj A ih =>
    intro u v hu hv
    simp only [sden]
    have h := ih he (u := vconj u) (v := vconj v) ((List.length_map ..).trans hu) ((List.length_map ..).trans hv)
    rw [ip_vconj, h, ← ip_comm _ u, ip_vconj, star_star, ip_comm]

/-- the type of `A.H` is determined by the type of `A`, and is not a stack -/
def SType.H : SType → SType
  | .prod => .prod
  | .scaled => .scaled
  | .sum => .sum
  | .conj => .conj
  | _ => .adj

/-- **C37** (`.H`).  `.H` never fails on an expression that could be built, has the transposed shape, and denotes the adjoint. -/
theorem C37_H {e : SOp K ι} (he : SShaped lv.sh e) :
    ∃ e', e.H lv.sh = .ok e' ∧ SShaped lv.sh e' ∧ e'.shape lv.sh = ((e.shape lv.sh).2, (e.shape lv.sh).1) ∧ e'.type = e.type.H ∧
      (∀ b x, sden lv b e' x = sden lv (!b) e x) ∧ ∀ {b S T}, STyped lv n J prim (!b) e S T → STyped lv n J prim b e' S T := by
  induction e with
  | vstack ops => exact ⟨_, rfl, he, rfl, rfl, fun b x => by cases b <;> rfl, fun h => h⟩
  | grad ops => exact ⟨_, rfl, he, rfl, rfl, fun b x => by cases b <;> rfl, fun h => h⟩
  | bdiag ops => exact ⟨_, rfl, he, rfl, rfl, fun b x => by cases b <;> rfl, fun h => h⟩
  | adj A ih => exact ⟨_, rfl, he, rfl, rfl, fun b x => by cases b <;> rfl, fun h => h⟩
  | trans A ih => exact ⟨_, rfl, he, rfl, rfl, fun b x => by cases b <;> rfl, fun h => h⟩
  | pow A p ih => exact ⟨_, rfl, he, rfl, rfl, fun b x => by cases b <;> rfl, fun h => h⟩
  | prod A B ihA ihB =>
    obtain ⟨hA, hB, hAB⟩ := he
    obtain ⟨a, a1, a2, a3, a4, a5, a6⟩ := ihA hA
    obtain ⟨b, b1, b2, b3, b4, b5, b6⟩ := ihB hB
    have hm : (b.shape lv.sh).2 = (a.shape lv.sh).1 := by rw [a3, b3]; exact hAB.symm
    refine ⟨.prod b a, ?_, ⟨b2, a2, hm⟩, ?_, rfl, ?_, ?_⟩
    · simp only [SOp.H, a1, b1]
      show b.mul lv.sh a = _
      unfold SOp.mul
      have t : ¬ (b.type = .vstack ∧ a.type = .vstack) := by
        rw [b4]; intro h; cases hB' : B.type <;> rw [hB'] at h <;> cases h.1
      rw [if_neg t]
      split
      · rename_i a' b'
        exfalso
        have : SType.bdiag = A.type.H := a4
        cases hA' : A.type <;> rw [hA'] at this <;> cases this
      · rw [if_neg (by simpa using hm)]
    · simp [SOp.shape, a3, b3]
    · intro c x; cases c <;> simp only [sden, a5, b5] <;> rfl
    · intro c S T h
      cases c with
      | false => obtain ⟨U, t1, t2⟩ := h; exact ⟨U, a6 t1, b6 t2⟩
      | true => obtain ⟨U, t1, t2⟩ := h; exact ⟨U, b6 t1, a6 t2⟩
  | scaled A s ih =>
    obtain ⟨a, a1, a2, a3, a4, a5, a6⟩ := ih he
    refine ⟨.scaled a s.conj, ?_, a2, a3, rfl, ?_, ?_⟩
    · simp only [SOp.H, a1]; rfl
    · intro b x; cases b <;> simp [sden, a5, Scal.conj]
    · intro b S T h; exact ⟨a6 h.1, fun hr => by simp [Scal.conj, h.2 hr]⟩
  | sum A B ihA ihB =>
    obtain ⟨hA, hB, hAB, hty⟩ := he
    obtain ⟨a, a1, a2, a3, a4, a5, a6⟩ := ihA hA
    obtain ⟨b, b1, b2, b3, b4, b5, b6⟩ := ihB hB
    have hm : a.shape lv.sh = b.shape lv.sh := by rw [a3, b3, hAB]
    have ht : a.type = b.type := by rw [a4, b4, hty]
    refine ⟨.sum a b, ?_, ⟨a2, b2, hm, ht⟩, a3, rfl, ?_, ?_⟩
    · simp only [SOp.H, a1, b1, SOp.add]
      show (if a.type ≠ b.type then _ else _) = _
      rw [if_neg (by simpa using ht), if_neg (by simpa using hm)]
    · intro c x; cases c <;> simp [sden, a5, b5]
    · intro c S T h; exact ⟨a6 h.1, b6 h.2⟩
  | conj A ih =>
    obtain ⟨a, a1, a2, a3, a4, a5, a6⟩ := ih he
    refine ⟨.conj a, ?_, a2, a3, rfl, ?_, ?_⟩
    · simp only [SOp.H, a1]; rfl
    · intro b x; cases b <;> simp [sden, a5]
    · intro b S T h; exact a6 (b := b) h

/-- **C37** (`.H`, execution).  `Op.H.matvec` (`b = false`) gives what `Op.rmatvec` gives, and conversely. -/
theorem C37_H_run {e : SOp K ι} (he : SShaped lv.sh e) {b : Bool} {S T : XSpace} (h : STyped lv n J prim (!b) e S T) {d : List K} (hd : S.Mem d) :
    ∃ e', e.H lv.sh = .ok e' ∧
      Always n (fun r => SOp.run (env n J r) b (e'.map (prim · r)) (S.vec n d r)) (fun r => .ok (T.vec n (sden lv (!b) e d) r)) ∧
      Always n (fun r => SOp.run (env n J r) (!b) (e.map (prim · r)) (S.vec n d r)) (fun r => .ok (T.vec n (sden lv (!b) e d) r)) := by
  obtain ⟨e', h1, _, _, _, h5, h6⟩ := C37_H (n := n) (J := J) (prim := prim) he
  refine ⟨e', h1, ?_, (styped_computes h d hd).2⟩
  have := (styped_computes (h6 h) d hd).2
  rwa [h5] at this

/-! ### Rejection -/

/-- **C37** (rejection).  Products need matching shapes and are not built from two vertical stacks or from block-diagonal stacks with different numbers of
    blocks; sums need the same class and the same shape; powers need square operators. -/
theorem C37_reject {ℓ : Type} (sh : ℓ → Nat × Nat) (A B : SOp K ℓ) (p : Nat) :
    ((A.shape sh).2 ≠ (B.shape sh).1 → A.mul sh B = .error .value) ∧
    (A.mul sh B = .error .value ∨ A.mul sh B = .ok (.prod A B)) ∧
    (A.add sh B = if A.type = B.type ∧ A.shape sh = B.shape sh then .ok (.sum A B) else .error .value) ∧
    (A.power sh p = if (A.shape sh).1 = (A.shape sh).2 then .ok (.pow A p) else .error .value) := by
  refine ⟨fun h => ?_, ?_, ?_, ?_⟩
  · unfold SOp.mul
    split_ifs
    · rfl
    · split
      · split_ifs <;> rfl
      · rfl
  · unfold SOp.mul
    split_ifs
    · exact .inl rfl
    · split
      · split_ifs <;> first | exact .inl rfl | exact .inr rfl
      · exact .inl rfl
    · split
      · split_ifs <;> first | exact .inl rfl | exact .inr rfl
      · exact .inr rfl
  · unfold SOp.add; by_cases h1 : A.type = B.type <;> by_cases h2 : A.shape sh = B.shape sh <;> simp [h1, h2]
  · unfold SOp.power; by_cases h1 : (A.shape sh).1 = (A.shape sh).2 <;> simp [h1]

/-- the vertical stacks built by the constructor satisfy `SShaped` -/
theorem C37_mkVStack (sh : ι → Nat × Nat) (ops : List (MOp K ι)) (h : ∀ o ∈ ops, Shaped sh o) :
    (∀ e, SOp.mkVStack sh ops = .ok e → e = .vstack ops ∧ SShaped sh e) ∧
    ((∃ o ∈ ops, ∃ q ∈ ops, (o.shape sh).2 ≠ (q.shape sh).2) → SOp.mkVStack sh ops = .error .value) := by
  cases ops with
  | nil => exact ⟨fun e h => by simp [SOp.mkVStack] at h, fun ⟨o, ho, _⟩ => by simp at ho⟩
  | cons o os =>
    unfold SOp.mkVStack
    constructor
    · intro e he
      dsimp only at he
      split_ifs at he with h1
      obtain rfl := (Except.ok.inj he).symm
      refine ⟨rfl, by simp, h, fun q hq => ?_⟩
      show (q.shape sh).2 = (o.shape sh).2
      rcases List.mem_cons.1 hq with rfl | hq
      · rfl
      · by_contra hne
        exact h1 (List.any_eq_true.2 ⟨q, hq, decide_eq_true hne⟩)
    · rintro ⟨a, ha, b, hb, hab⟩
      dsimp only
      rw [if_pos]
      by_contra hall
      have hq : ∀ q ∈ o :: os, (q.shape sh).2 = (o.shape sh).2 := by
        intro q hq
        rcases List.mem_cons.1 hq with rfl | hq
        · rfl
        · by_contra hne
          exact hall (List.any_eq_true.2 ⟨q, hq, decide_eq_true hne⟩)
      exact hab ((hq a ha).trans (hq b hb).symm)

/-! ### Where the claim is false -/

/-- **C37 is false for differences.**  `A - B` is `A + (-B)`, and sums require operators of the same class; `-B` is always a `_ScaledStackedLinearOperator`.
    Hence `A - B` raises ValueError for every `A` that is not itself a scaled operator (e.g. every plain stack), also when the shapes agree. -/
theorem C37_violated_sub {ℓ : Type} (sh : ℓ → Nat × Nat) (A B : SOp K ℓ) (h : A.type ≠ .scaled) : A.sub sh B = .error .value := by
  unfold SOp.sub SOp.add
  rw [if_pos]
  exact h

/-- for scaled operators the difference is built and denotes the difference -/
theorem C37_sub_scaled (A B : SOp K ι) (s : Scal K) (h : A.shape lv.sh = B.shape lv.sh) (x : List K) :
    ∃ e, (SOp.scaled A s).sub lv.sh B = .ok e ∧ sden lv false e x = List.zipWith (· - ·) (sden lv false (.scaled A s) x) (sden lv false B x) := by
  refine ⟨.sum (.scaled A s) B.neg, ?_, ?_⟩
  · unfold SOp.sub SOp.add
    rw [if_neg (by simp [SOp.neg, SOp.type]), if_neg (by simp [SOp.neg, SOp.shape, h])]
  · simp only [SOp.neg, sden, vadd, vscale, Bool.false_eq_true, if_false]
    rw [List.zipWith_map_right]
    congr 1
    funext a b
    simp [sub_eq_add_neg]

/-- **C37 is false for powers on stacked vectors.**  For every `A` mapping a space of stacked vectors to itself, every exponent and every vector, `(A ** p) x` is `x`. -/
theorem C37_violated_power {A : SOp K ι} {b : Bool} {Ss : SSpace} (h : STyped lv n J prim b A (.stack Ss) (.stack Ss)) (p : Nat) {d : List K} (hd : Ss.Mem d) :
    Always n (fun r => SOp.run (env n J r) b ((SOp.pow A p).map (prim · r)) (.stack (Ss.vec n d r))) (fun r => .ok (.stack (Ss.vec n d r))) := by
  have hf := STyped.facts h
  have := runs_scheckDim (b := b) (S := .stack Ss) (d := d) hf.2 hf.1.flatS hf.1.dimS
    (Runs.bind_ok (runs_copy_xvec (J := J) (S := .stack Ss) hf.1.wfS hd) (runs_spow_stack (S := .stack Ss) rfl (styped_computes h) p hd))
  refine (this.congr (fun r _ => ?_) fun _ _ => rfl).always
  simp only [SOp.map, SOp.run, Prog.bind_eq, XSpace.vec]
  rfl

/-- a witness: the block-diagonal stack of diag(2, 5) and diag(2, 5) on two ranks multiplies (1, 1, 1, 1) to (2, 5, 2, 5), its power with exponent 1 returns (1, 1, 1, 1) -/
theorem C37_violated_power_witness :
    let V : VSpace := ⟨inL false 2 dgOps, .real⟩
    let P : Unit → Nat → Prim ℚ := fun _ => bdPrim 2 dgOps none .real
    let A : SOp ℚ Unit := .bdiag [.leaf (), .leaf ()]
    Always 2 (fun r => SOp.run (env 2 (fun _ _ => 0) r) false (A.map (P · r)) (.stack (SSpace.vec 2 [V, V] [1, 1, 1, 1] r)))
      (fun r => .ok (.stack (SSpace.vec 2 [V, V] [2, 5, 2, 5] r))) ∧
    Always 2 (fun r => SOp.run (env 2 (fun _ _ => 0) r) false ((SOp.pow A 1).map (P · r)) (.stack (SSpace.vec 2 [V, V] [1, 1, 1, 1] r)))
      (fun r => .ok (.stack (SSpace.vec 2 [V, V] [1, 1, 1, 1] r))) := by
  intro V P A
  have ht : STyped dgLeaves 2 (fun _ _ => 0) P false A (.stack [V, V]) (.stack [V, V]) := by
    obtain ⟨⟨U, ⟨rfl, h1⟩, h2, h3⟩, h4⟩ := dg_typed (fun _ _ => 0)
    exact ⟨rfl, .cons h1 (.cons h1 .nil)⟩
  have hd : SSpace.Mem [V, V] [(1 : ℚ), 1, 1, 1] := ⟨⟨rfl, fits_rat _ _⟩, ⟨rfl, fits_rat _ _⟩, rfl⟩
  refine ⟨?_, C37_violated_power ht 1 hd⟩
  have := (styped_computes ht _ hd).2
  have e : sden dgLeaves false A [1, 1, 1, 1] = [2, 5, 2, 5] := by decide +kernel
  rw [e] at this
  exact this

/-- **C37 is false for complex multiples of real stacked operators**: with Op the real identity on vectors of size 1, `1j * Op` applied to the stack ((3)) gives ((0)): the
    imaginary part is silently dropped. -/
theorem C37_violated_scale :
    ∃ σ : Nat → NDArray QI, Always 1 (fun r => do
        let p ← mkBlockDiag (env 1 (fun _ _ => 0) r) [LOp.times .real 1] none none
        let y ← SOp.run (env 1 (fun _ _ => 0) r) false (.scaled (.bdiag [.leaf p]) ⟨.cplx, QI.I⟩) (.stack (SSpace.vec 1 [⟨.lin 1 (fun _ => 1), .real⟩] [3] r))
        match y with
        | .stack l => l.asarray (env 1 (fun _ _ => 0) r)
        | .one d => d.asarray (env 1 (fun _ _ => 0) r)) (fun r => .ok (σ r)) ∧ (σ 0).data = [0] := by
  obtain ⟨σ, h1, h2⟩ := runs_of_simOk 40
    (ps := fun r => do
        let p ← mkBlockDiag (env 1 (fun _ _ => 0) r) [LOp.times .real 1] none none
        let y ← SOp.run (env 1 (fun _ _ => 0) r) false (.scaled (.bdiag [.leaf p]) ⟨.cplx, QI.I⟩) (.stack (SSpace.vec 1 [⟨.lin 1 (fun _ => 1), .real⟩] [3] r))
        match y with
        | .stack l => l.asarray (env 1 (fun _ _ => 0) r)
        | .one d => d.asarray (env 1 (fun _ _ => 0) r))
    (g := fun x : NDArray QI => x.data) (n := 1) (outs := [[0]]) (by decide) (by decide +kernel)
  exact ⟨σ, h1.always, by simpa using (h2 0 (by omega)).symm⟩

/-- `Op @ x` for a stack with a component that is not 1-D raises nothing and returns `None`. -/
theorem C37_dot_none {A : SOp K (Prim K)} {c : Ctx K} {l : SArr K} (h : ∃ d ∈ l, d.gshape.length ≠ 1) : SOp.dotArr c A (.stack l) = .ret none := by
  unfold SOp.dotArr
  dsimp only
  rw [if_neg]
  rintro ⟨_, h2⟩
  obtain ⟨d, hd, hne⟩ := h
  exact hne (of_decide_eq_true (List.all_eq_true.1 h2 d hd))

/-- Non-vacuity: `2 V.H (V + V)` for the vertical stack `V` of C36, a square operator on distributed vectors, to the power 2. -/
def dgSExpr : SOp ℚ Unit := .pow (.scaled (.prod (.adj dgStack) (.sum dgStack dgStack)) ⟨.real, 2⟩) 2
theorem dgSExpr_typed (J : Nat → Nat → ℚ) : STyped dgLeaves 2 J (fun _ => bdPrim 2 dgOps none .real) false dgSExpr
    (.one ⟨inL false 2 dgOps, .real⟩) (.one ⟨inL false 2 dgOps, .real⟩) := by
  obtain ⟨h1, h2⟩ := dgStack_typed J
  exact ⟨rfl, ⟨_, rfl⟩, ⟨_, ⟨h1, h1⟩, h2⟩, fun _ => rfl⟩

example : sden dgLeaves false dgSExpr [1, 0] = [85229824, 0] := by decide +kernel

end Verif

/- C28: adjoint of composite operators. -/
import Verif.Props.C27

set_option linter.unusedSectionVars false

namespace Verif
open NDArray

variable {K ι : Type} [Field K] [StarRing K] [CharZero K] {lv : Leaves K ι} {n : Nat} {J : Nat → Nat → K} {prim : ι → Nat → Prim K}

theorem length_den (hs : lv.Sized) {e : MOp K ι} (he : Shaped lv.sh e) :
    ∀ {b : Bool} {x : List K}, x.length = dimOf (e.shape lv.sh) b → (den lv b e x).length = dimOf (e.shape lv.sh) (!b) := by
  induction e with
  | leaf i => intro b x hx; exact hs i b x hx
  | adj A ih =>
    intro b x hx
    have := ih he (b := !b) (x := x) (by rw [hx]; cases b <;> rfl)
    simp only [den, this]
    cases b <;> rfl
  | trans A ih =>
    intro b x hx
    have := ih he (b := !b) (x := vconj x) (by rw [vconj, List.length_map, hx]; cases b <;> rfl)
    simp only [den, vconj, List.length_map] at this ⊢
    rw [this]
    cases b <;> rfl
  | prod A B ihA ihB =>
    intro b x hx
    obtain ⟨hA, hB, hAB⟩ := he
    cases b with
    | false => exact ihA hA (b := false) (by rw [ihB hB (b := false) hx]; exact hAB.symm)
    | true => exact ihB hB (b := true) (by rw [ihA hA (b := true) hx]; exact hAB)
  | scaled A s ih => intro b x hx; simp only [den, vscale, List.length_map]; exact ih he hx
  | sum A B ihA ihB =>
    intro b x hx
    obtain ⟨hA, hB, hAB⟩ := he
    simp only [den, vadd, List.length_zipWith]
    rw [ihA hA hx, ihB hB (b := b) (by rw [← hAB]; exact hx), ← hAB, Nat.min_self]
    rfl
  | pow A p ih =>
    intro b x hx
    obtain ⟨hA, hAA⟩ := he
    have e1 : ∀ b, dimOf (A.shape lv.sh) b = (A.shape lv.sh).1 := by intro b; cases b <;> simp [dimOf, hAA]
    simp only [den, MOp.shape, e1] at hx ⊢
    induction p generalizing x with
    | zero => exact hx
    | succ p ihp => rw [Function.iterate_succ_apply]; exact ihp (by have := ih hA (b := b) (x := x) (by rw [e1, hx]); rw [this, e1])
  | conj A ih =>
    intro b x hx
    have := ih he (b := b) (x := vconj x) (by rw [vconj, List.length_map, hx]; rfl)
    simp only [den, vconj, List.length_map] at this ⊢
    rw [this]
    rfl

theorem ip_swap {f g : List K → List K} {u v : List K} (h : ip (f v) u = ip v (g u)) : ip (g u) v = ip u (f v) := by
  rw [← ip_comm v, ← h, ip_comm]

theorem vconj_vconj (x : List K) : vconj (vconj x) = x := by simp [vconj, Function.comp_def]
theorem ip_vconj (u v : List K) : ip (vconj u) v = star (ip u (vconj v)) := by
  conv_lhs => rw [← vconj_vconj v]
  exact ip_star u (vconj v)

/-- **C28** (adjoint identity).  For every expression of any depth whose leaves are adjoint pairs, ⟨Op u, v⟩ = ⟨u, Op^H v⟩. -/
theorem C28_adjoint (hs : lv.Sized) (ha : lv.Adjoint) {e : MOp K ι} (he : Shaped lv.sh e) :
    ∀ {u v : List K}, u.length = (e.shape lv.sh).2 → v.length = (e.shape lv.sh).1 → ip (den lv false e u) v = ip u (den lv true e v) := by
  induction e with
  | leaf i => intro u v hu hv; exact ha i u v hu hv
  | adj A ih => intro u v hu hv; exact ip_swap (ih he hv hu)
  | trans A ih =>
    intro u v hu hv
    simp only [den, Bool.not_false, Bool.not_true]
    have h := ih he (u := vconj v) (v := vconj u) ((List.length_map ..).trans hv) ((List.length_map ..).trans hu)
    rw [ip_vconj, ← ip_comm (vconj v), ← h, star_star, ← ip_comm _ u, ip_vconj, star_star]
  | prod A B ihA ihB =>
    intro u v hu hv
    obtain ⟨hA, hB, hAB⟩ := he
    have h1 : (den lv false B u).length = (A.shape lv.sh).2 := by
      rw [length_den hs hB (b := false) (x := u) hu]; exact hAB.symm
    have h2 : (den lv true A v).length = (B.shape lv.sh).1 := by
      rw [length_den hs hA (b := true) (x := v) hv]; exact hAB
    simp only [den]
    rw [ihA hA h1 hv, ihB hB hu h2]
  | scaled A s ih =>
    intro u v hu hv
    simp only [den, vscale]
    rw [ip_smul_left, ip_smul_right, ih he hu hv]
    simp [mul_comm]
  | sum A B ihA ihB =>
    intro u v hu hv
    obtain ⟨hA, hB, hAB⟩ := he
    have hu' : u.length = (B.shape lv.sh).2 := by rw [← hAB]; exact hu
    have hv' : v.length = (B.shape lv.sh).1 := by rw [← hAB]; exact hv
    simp only [den]
    rw [ip_vadd_left, ip_vadd_right, ihA hA hu hv, ihB hB hu' hv']
    · rw [length_den hs hA (b := true) hv, length_den hs hB (b := true) hv', hAB]
    · rw [length_den hs hA (b := false) hu, length_den hs hB (b := false) hu', hAB]
  | pow A p ih =>
    intro u v hu hv
    obtain ⟨hA, hAA⟩ := he
    simp only [den, MOp.shape] at hu hv ⊢
    have hlen : ∀ b p (x : List K), x.length = (A.shape lv.sh).1 → ((den lv b A)^[p] x).length = (A.shape lv.sh).1 := by
      intro b p x hx
      have e1 : ∀ b, dimOf (A.shape lv.sh) b = (A.shape lv.sh).1 := by intro b; cases b <;> simp [dimOf, hAA]
      have := length_den (e := .pow A p) hs ⟨hA, hAA⟩ (b := b) (x := x) (by rw [hx]; exact (e1 b).symm)
      rw [show dimOf ((MOp.pow A p).shape lv.sh) (!b) = _ from e1 _] at this
      exact this
    induction p generalizing u v with
    | zero => rfl
    | succ p ihp =>
      rw [Function.iterate_succ_apply, Function.iterate_succ_apply']
      have h1 : (den lv false A u).length = (A.shape lv.sh).1 := hlen false 1 u (by rw [hu, hAA])
      rw [ihp (by rw [h1, hAA]) hv]
      exact ih hA hu (hlen true p v hv)
  | conj A ih =>
    intro u v hu hv
    simp only [den]
    have h := ih he (u := vconj u) (v := vconj v) ((List.length_map ..).trans hu) ((List.length_map ..).trans hv)
    rw [ip_vconj, h, ← ip_comm _ u, ip_vconj, star_star, ip_comm]

/-- `.H` never fails on an expression that could be built; the result has the transposed shape. -/
theorem H_shaped (sh : ι → Nat × Nat) {e : MOp K ι} (he : Shaped sh e) :
    ∃ e', e.H sh = .ok e' ∧ Shaped sh e' ∧ e'.shape sh = ((e.shape sh).2, (e.shape sh).1) := by
  induction e with
  | leaf i => exact ⟨_, rfl, he, rfl⟩
  | adj A ih => exact ⟨_, rfl, he, rfl⟩
  | trans A ih => exact ⟨_, rfl, he, rfl⟩
  | pow A p ih => exact ⟨_, rfl, he, rfl⟩
  | prod A B ihA ihB =>
    obtain ⟨hA, hB, hAB⟩ := he
    obtain ⟨a, a1, a2, a3⟩ := ihA hA
    obtain ⟨b, b1, b2, b3⟩ := ihB hB
    have hm : (b.shape sh).2 = (a.shape sh).1 := by rw [a3, b3]; exact hAB.symm
    refine ⟨.prod b a, ?_, ⟨b2, a2, hm⟩, ?_⟩
    · simp only [MOp.H, a1, b1, MOp.mul]
      show (if (b.shape sh).2 ≠ (a.shape sh).1 then _ else _) = _
      rw [if_neg (by simpa using hm)]
    · simp [MOp.shape, a3, b3]
  | scaled A s ih =>
    obtain ⟨a, a1, a2, a3⟩ := ih he
    refine ⟨.scaled a s.conj, ?_, a2, a3⟩
    simp only [MOp.H, a1]
    rfl
  | sum A B ihA ihB =>
    obtain ⟨hA, hB, hAB⟩ := he
    obtain ⟨a, a1, a2, a3⟩ := ihA hA
    obtain ⟨b, b1, b2, b3⟩ := ihB hB
    have hm : a.shape sh = b.shape sh := by rw [a3, b3, hAB]
    refine ⟨.sum a b, ?_, ⟨a2, b2, hm⟩, a3⟩
    simp only [MOp.H, a1, b1, MOp.add]
    show (if a.shape sh ≠ b.shape sh then _ else _) = _
    rw [if_neg (by simpa using hm)]
  | conj A ih =>
    obtain ⟨a, a1, a2, a3⟩ := ih he
    refine ⟨.conj a, ?_, a2, a3⟩
    simp only [MOp.H, a1]
    rfl

theorem H_inv (sh : ι → Nat × Nat) {e e' : MOp K ι} (h : e.H sh = .ok e') :
    (e' = .adj e) ∨ (∃ A B a b, e = .prod A B ∧ A.H sh = .ok a ∧ B.H sh = .ok b ∧ e' = .prod b a) ∨
    (∃ A s a, e = .scaled A s ∧ A.H sh = .ok a ∧ e' = .scaled a s.conj) ∨
    (∃ A B a b, e = .sum A B ∧ A.H sh = .ok a ∧ B.H sh = .ok b ∧ e' = .sum a b) ∨
    (∃ A a, e = .conj A ∧ A.H sh = .ok a ∧ e' = .conj a) := by
  cases e with
  | leaf i => exact .inl (Except.ok.inj h).symm
  | adj A => exact .inl (Except.ok.inj h).symm
  | trans A => exact .inl (Except.ok.inj h).symm
  | pow A p => exact .inl (Except.ok.inj h).symm
  | prod A B =>
    cases hb : B.H sh with
    | error x => simp only [MOp.H, hb] at h; cases h
    | ok b =>
      cases ha : A.H sh with
      | error x => simp only [MOp.H, hb, ha] at h; cases h
      | ok a =>
        simp only [MOp.H, hb, ha] at h
        change b.mul sh a = _ at h
        unfold MOp.mul at h
        split_ifs at h
        exact .inr (.inl ⟨A, B, a, b, rfl, ha, hb, (Except.ok.inj h).symm⟩)
  | scaled A s =>
    cases ha : A.H sh with
    | error x => simp only [MOp.H, ha] at h; cases h
    | ok a =>
      simp only [MOp.H, ha] at h
      exact .inr (.inr (.inl ⟨A, s, a, rfl, ha, (Except.ok.inj h).symm⟩))
  | sum A B =>
    cases ha : A.H sh with
    | error x => simp only [MOp.H, ha] at h; cases h
    | ok a =>
      cases hb : B.H sh with
      | error x => simp only [MOp.H, hb, ha] at h; cases h
      | ok b =>
        simp only [MOp.H, hb, ha] at h
        change a.add sh b = _ at h
        unfold MOp.add at h
        split_ifs at h
        exact .inr (.inr (.inr (.inl ⟨A, B, a, b, rfl, ha, hb, (Except.ok.inj h).symm⟩)))
  | conj A =>
    cases ha : A.H sh with
    | error x => simp only [MOp.H, ha] at h; cases h
    | ok a =>
      simp only [MOp.H, ha] at h
      exact .inr (.inr (.inr (.inr ⟨A, a, rfl, ha, (Except.ok.inj h).symm⟩)))

/-- `Op.H` denotes the adjoint of `Op` -/
theorem den_H {e : MOp K ι} : ∀ {e' : MOp K ι}, e.H lv.sh = .ok e' → ∀ b x, den lv b e' x = den lv (!b) e x := by
  induction e with
  | leaf i => intro e' h b x; obtain rfl := (Except.ok.inj h).symm; rfl
  | adj A ih => intro e' h b x; obtain rfl := (Except.ok.inj h).symm; rfl
  | trans A ih => intro e' h b x; obtain rfl := (Except.ok.inj h).symm; rfl
  | pow A p ih => intro e' h b x; obtain rfl := (Except.ok.inj h).symm; rfl
  | prod A B ihA ihB =>
    intro e' h b x
    rcases H_inv _ h with rfl | ⟨A, B, a, b', h1, h2, h3, rfl⟩ | ⟨_, _, _, h1, _⟩ | ⟨_, _, _, _, h1, _⟩ | ⟨_, _, h1, _⟩ <;> cases b <;> first | rfl | cases h1
    · simp only [den, Bool.not_false, ihA h2, ihB h3]
    · simp only [den, Bool.not_true, ihA h2, ihB h3]
  | scaled A s ih =>
    intro e' h b x
    rcases H_inv _ h with rfl | ⟨_, _, _, _, h1, _⟩ | ⟨A, s, a, h1, h2, rfl⟩ | ⟨_, _, _, _, h1, _⟩ | ⟨_, _, h1, _⟩ <;> first | rfl | cases h1
    simp only [den, ih h2]
    cases b <;> simp [Scal.conj]
  | sum A B ihA ihB =>
    intro e' h b x
    rcases H_inv _ h with rfl | ⟨_, _, _, _, h1, _⟩ | ⟨_, _, _, h1, _⟩ | ⟨A, B, a, b', h1, h2, h3, rfl⟩ | ⟨_, _, h1, _⟩ <;> first | rfl | cases h1
    simp only [den, ihA h2, ihB h3]
  | conj A ih =>
    intro e' h b x
    rcases H_inv _ h with rfl | ⟨_, _, _, _, h1, _⟩ | ⟨_, _, _, h1, _⟩ | ⟨_, _, _, _, h1, _⟩ | ⟨A, a, h1, h2, rfl⟩ <;> first | rfl | cases h1
    simp only [den, ih h2]

theorem typed_H {e : MOp K ι} : ∀ {e' : MOp K ι}, e.H lv.sh = .ok e' → ∀ {b S T}, Typed lv n J prim (!b) e S T → Typed lv n J prim b e' S T := by
  induction e with
  | leaf i => intro e' h b S T ht; obtain rfl := (Except.ok.inj h).symm; exact ht
  | adj A ih => intro e' h b S T ht; obtain rfl := (Except.ok.inj h).symm; exact ht
  | trans A ih => intro e' h b S T ht; obtain rfl := (Except.ok.inj h).symm; exact ht
  | pow A p ih => intro e' h b S T ht; obtain rfl := (Except.ok.inj h).symm; exact ht
  | prod A B ihA ihB =>
    intro e' h b S T ht
    rcases H_inv _ h with rfl | ⟨A, B, a, b', h1, h2, h3, rfl⟩ | ⟨_, _, _, h1, _⟩ | ⟨_, _, _, _, h1, _⟩ | ⟨_, _, h1, _⟩ <;> first | exact ht | cases h1
    cases b with
    | false => obtain ⟨U, t1, t2⟩ := ht; exact ⟨U, ihA h2 t1, ihB h3 t2⟩
    | true => obtain ⟨U, t1, t2⟩ := ht; exact ⟨U, ihB h3 t1, ihA h2 t2⟩
  | scaled A s ih =>
    intro e' h b S T ht
    rcases H_inv _ h with rfl | ⟨_, _, _, _, h1, _⟩ | ⟨A, s, a, h1, h2, rfl⟩ | ⟨_, _, _, _, h1, _⟩ | ⟨_, _, h1, _⟩ <;> first | exact ht | cases h1
    exact ⟨ih h2 ht.1, fun hr => ⟨(ht.2 hr).1, by simp [Scal.conj, (ht.2 hr).2]⟩⟩
  | sum A B ihA ihB =>
    intro e' h b S T ht
    rcases H_inv _ h with rfl | ⟨_, _, _, _, h1, _⟩ | ⟨_, _, _, h1, _⟩ | ⟨A, B, a, b', h1, h2, h3, rfl⟩ | ⟨_, _, h1, _⟩ <;> first | exact ht | cases h1
    exact ⟨ihA h2 ht.1, ihB h3 ht.2⟩
  | conj A ih =>
    intro e' h b S T ht
    rcases H_inv _ h with rfl | ⟨_, _, _, _, h1, _⟩ | ⟨_, _, _, h1, _⟩ | ⟨_, _, _, _, h1, _⟩ | ⟨A, a, h1, h2, rfl⟩ <;> first | exact ht | cases h1
    exact ih (b := b) h2 ht

/-- **C28** (`Op.H.matvec` is `Op.rmatvec`).  `Op.H` exists for every expression, and its `matvec` (`b = false`) and `rmatvec` (`b = true`) give, on all ranks and in all executions,
    the results of `Op.rmatvec` and `Op.matvec`. -/
theorem C28_H {e : MOp K ι} (he : Shaped lv.sh e) {b : Bool} {S T : VSpace} (h : Typed lv n J prim (!b) e S T) {d : List K} (hd : S.Mem d) :
    ∃ e', e.H lv.sh = .ok e' ∧ e'.shape lv.sh = ((e.shape lv.sh).2, (e.shape lv.sh).1) ∧
      Always n (fun r => MOp.run (env n J r) b (e'.map (prim · r)) (S.vec n d r)) (fun r => .ok (T.vec n (den lv (!b) e d) r)) ∧
      Always n (fun r => MOp.run (env n J r) (!b) (e.map (prim · r)) (S.vec n d r)) (fun r => .ok (T.vec n (den lv (!b) e d) r)) := by
  obtain ⟨e', h1, _, h3⟩ := H_shaped lv.sh he
  refine ⟨e', h1, h3, ?_, (typed_computes h d hd).2⟩
  have := (typed_computes (typed_H h1 h) d hd).2
  rwa [den_H h1] at this

/-- **C28** (`Op.H.H` is `Op`). -/
theorem C28_HH {e : MOp K ι} (he : Shaped lv.sh e) {b : Bool} {S T : VSpace} (h : Typed lv n J prim b e S T) {d : List K} (hd : S.Mem d) :
    ∃ e' e'', e.H lv.sh = .ok e' ∧ e'.H lv.sh = .ok e'' ∧ e''.shape lv.sh = e.shape lv.sh ∧
      Always n (fun r => MOp.run (env n J r) b (e''.map (prim · r)) (S.vec n d r)) (fun r => .ok (T.vec n (den lv b e d) r)) := by
  obtain ⟨e', h1, h2, h3⟩ := H_shaped lv.sh he
  obtain ⟨e'', k1, k2, k3⟩ := H_shaped lv.sh h2
  refine ⟨e', e'', h1, k1, by rw [k3, h3], ?_⟩
  have := (typed_computes (typed_H k1 (typed_H h1 (b := !b) (by rw [Bool.not_not]; exact h))) d hd).2
  rwa [den_H k1, den_H h1, Bool.not_not] at this

/-- **C28** (execution).  The two inner products computed by a dot test are equal. -/
theorem C28_dottest (hs : lv.Sized) (ha : lv.Adjoint) {e : MOp K ι} (he : Shaped lv.sh e) {S T S' T' : VSpace}
    (h : Typed lv n J prim false e S T') (h' : Typed lv n J prim true e T S') {u v : List K} (hu : S.Mem u) (hv : T.Mem v) :
    Always n (fun r => dotPair (env n J r) (e.map (prim · r)) (S.vec n u r) (T.vec n v r)) (fun _ => .ok (ip (den lv false e u) v, ip (den lv false e u) v)) := by
  have f := Typed.facts h
  have f' := Typed.facts h'
  have hlu : u.length = (e.shape lv.sh).2 := by rw [hu.1, f.2.2.1]; simp [dimOf]
  have hlv : v.length = (e.shape lv.sh).1 := by rw [hv.1, f'.2.2.1]; simp [dimOf]
  have := runs_dotPair (J := J) (op := fun r => e.map (prim · r)) f.1 f'.1 f'.2.1 f.2.1 hu hv ((typed_computes h').mem hv) ((typed_computes h).mem hu)
    (by rw [f.2.2.1, f'.2.2.2.1]; rfl) (by rw [f.2.2.2.1, f'.2.2.1]; rfl) ((typed_computes h).runs hu) ((typed_computes h').runs hv)
  rw [← C28_adjoint hs ha he hlu hlv] at this
  exact this.always

/-- Non-vacuity: the expression of C27's example. -/
theorem dg_sized : dgLeaves.Sized := by
  intro i b x hx
  cases i
  have h := length_blockDiag (b := b) (din := .real) (dout := .real) (l := allOps 2 dgOps)
    (fun o ho => by obtain ⟨c, rfl⟩ := dgOps_row ho; exact LOp.row_ok _ _ _ _) (x := x)
    (by rw [hx]; cases b <;> decide)
  show (blockDiag b (allOps 2 dgOps) x).length = _
  rw [h]
  cases b <;> decide
theorem dg_adjoint : dgLeaves.Adjoint := by
  intro i u v hu hv
  cases i
  refine ip_blockDiag (fun o ho => by obtain ⟨c, rfl⟩ := dgOps_row ho; exact LOp.row_adjoint _) (fun o ho => ?_) (fun o ho => ?_) (by rw [hu]; decide) (by rw [hv]; decide)
  · obtain ⟨c, rfl⟩ := dgOps_row ho; exact (LOp.row_ok c false .real .real).length
  · obtain ⟨c, rfl⟩ := dgOps_row ho; exact (LOp.row_ok c true .real .real).length
theorem dg_shaped : Shaped dgLeaves.sh dgExpr := ⟨⟨trivial, trivial, rfl⟩, ⟨trivial, rfl⟩, rfl⟩

example : ip (den dgLeaves false dgExpr [1, 2]) [3, 4] = ip [1, 2] (den dgLeaves true dgExpr [3, 4]) :=
  C28_adjoint dg_sized dg_adjoint dg_shaped rfl rfl

example : ip (den dgLeaves false dgExpr [1, 2]) [3, 4] = 6144 := by decide +kernel

end Verif

/-
  The number of calls of stacked operators, of the Laplacian and of the gradient.
-/
import Verif.Proofs.TrafficSolvers
import Verif.Model.Laplacian

namespace Verif
open NDArray

variable {K : Type} {ok : CommCall (Msg K) → Prop} [Field K] [StarRing K]

section stacked
variable {c : Ctx K} {kl m s : Nat}

theorem counts_vsMv (hok : SizesOK ok) (hm : s ≤ m) {ops : List (MOp K (Prim K))} (ho : ∀ o ∈ ops, o.leavesAre (Prim.Quiet c ok kl))
    (hl : ops.length ≤ s) {x : XArr K} (hx : x.Quiet m s) :
    Counts ok (ops.map fun o => o.calls kl + 3).sum (SOp.vsMv c ops x) (XArr.Quiet m s) := by
  cases x with
  | stack l => exact .throw
  | one d =>
    have key : ∀ os : List (MOp K (Prim K)), (∀ o ∈ os, o.leavesAre (Prim.Quiet c ok kl)) →
        Counts ok (os.map fun o => o.calls kl + 3).sum (forList (fun o => MOp.run c false o d) os) fun l => AllQuiet l ∧ l.length = os.length := by
      intro os
      induction os with
      | nil => exact fun _ => .ret ⟨fun _ h => absurd h List.not_mem_nil, rfl⟩
      | cons o os ih =>
        intro ho
        simp only [forList, Prog.bind_eq, List.map_cons, List.sum_cons]
        refine Counts.step (counts_expr hok o (ho o (by simp)) false d hx.1) (by omega) fun y hy => ?_
        refine Counts.step (ih fun o h => ho o (by simp [h])) (by omega) fun l hl => ?_
        refine .ret ⟨fun z hz => ?_, by rw [List.length_cons, hl.2, List.length_cons]⟩
        rcases List.mem_cons.mp hz with rfl | hz
        · exact hy
        · exact hl.1 z hz
    exact Counts.step (key ops ho) le_rfl fun l h => .ret ⟨h.1, by omega, hm⟩

theorem counts_bdMv (hok : SizesOK ok) (hm : s ≤ m) (b : Bool) {ops : List (MOp K (Prim K))} (ho : ∀ o ∈ ops, o.leavesAre (Prim.Quiet c ok kl))
    (hl : ops.length ≤ s) {x : XArr K} (hx : x.Quiet m s) :
    Counts ok (ops.map fun o => o.calls kl + 3).sum (SOp.bdMv c b ops x) (XArr.Quiet m s) := by
  cases x with
  | one d => exact .throw
  | stack xs =>
    have key : ∀ (os : List (MOp K (Prim K))) (xs : List (DArr K)), AllQuiet xs → (∀ o ∈ os, o.leavesAre (Prim.Quiet c ok kl)) →
        Counts ok (os.map fun o => o.calls kl + 3).sum (forList (fun p : DArr K × MOp K (Prim K) => MOp.run c b p.2 p.1) (xs.zip os))
          fun l => AllQuiet l ∧ l.length ≤ os.length := by
      intro os
      induction os with
      | nil => intro xs _ _; rw [List.zip_nil_right]; exact .ret ⟨fun _ h => absurd h List.not_mem_nil, le_rfl⟩
      | cons o os ih =>
        intro xs hxs ho
        cases xs with
        | nil => exact .ret ⟨fun _ h => absurd h List.not_mem_nil, Nat.zero_le _⟩
        | cons x xs =>
          simp only [List.zip_cons_cons, forList, Prog.bind_eq, List.map_cons, List.sum_cons]
          refine Counts.step (counts_expr hok o (ho o (by simp)) b x (hxs x (by simp))) (by omega) fun y hy => ?_
          refine Counts.step (ih xs (fun d hd => hxs d (by simp [hd])) fun o h => ho o (by simp [h])) (by omega) fun l hl => ?_
          refine .ret ⟨fun z hz => ?_, by simp only [List.length_cons]; omega⟩
          rcases List.mem_cons.mp hz with rfl | hz
          · exact hy
          · exact hl.1 z hz
    exact Counts.step (key ops xs hx.1 ho) le_rfl fun l h => .ret ⟨h.1, by omega, hm⟩

theorem counts_vsRmv (hok : SizesOK ok) (hm : 1 ≤ m) {ops : List (MOp K (Prim K))} (ho : ∀ o ∈ ops, o.leavesAre (Prim.Quiet c ok kl))
    {x : XArr K} (hx : x.Quiet m s) : Counts ok (ops.map fun o => o.calls kl + 3).sum (SOp.vsRmv c ops x) (XArr.Quiet m s) := by
  have key : ∀ (os : List (MOp K (Prim K))) (xs : List (DArr K)) (y : DArr K), AllQuiet xs → (∀ o ∈ os, o.leavesAre (Prim.Quiet c ok kl)) →
      y.part ≠ .broadcast → Counts ok (os.map fun o => o.calls kl + 3).sum (SOp.vsLoop c y (xs.zip os)) fun y => y.part ≠ .broadcast := by
    intro os
    induction os with
    | nil => intro xs y _ _ hy; rw [List.zip_nil_right]; exact .ret hy
    | cons o os ih =>
      intro xs y hxs ho hy
      cases xs with
      | nil => exact .ret hy
      | cons x xs =>
        simp only [List.zip_cons_cons, SOp.vsLoop, Prog.bind_eq, List.map_cons, List.sum_cons]
        refine Counts.step (counts_expr hok o (ho o (by simp)) true x (hxs x (by simp))) (by omega) fun z _ => ?_
        refine Counts.step (counts_add hok hy) (by omega) fun y hy => ?_
        exact (ih xs y (fun d hd => hxs d (by simp [hd])) (fun o h => ho o (by simp [h])) hy).more (by omega) fun _ => id
  cases x with
  | one d => exact .throw
  | stack xs =>
    cases xs with
    | nil => exact .throw
    | cons x xs =>
      cases ops with
      | nil => exact .throw
      | cons o os =>
        simp only [SOp.vsRmv, Prog.bind_eq, List.map_cons, List.sum_cons]
        refine Counts.step (counts_expr hok o (ho o (by simp)) true x (hx.1 x (by simp))) (by omega) fun y hy => ?_
        refine Counts.step (key os xs y (fun d hd => hx.1 d (by simp [hd])) (fun o h => ho o (by simp [h])) hy) (by omega) fun z hz => ?_
        exact .ret ⟨hz, hm⟩

theorem counts_spowLoop {f : XArr K → P K (XArr K)} {k : Nat} (hf : ∀ x : XArr K, x.Quiet m s → Counts ok k (f x) (XArr.Quiet m s)) :
    ∀ (p : Nat) (res : XArr K), res.Quiet m s → Counts ok (p * k) (SOp.powLoop c f p res) (XArr.Quiet m s)
  | 0, _, h => .ret h
  | p + 1, res, h => by
    simp only [SOp.powLoop, Prog.bind_eq]
    refine Counts.step (hf res h) (by rw [Nat.succ_mul]; omega) fun z _ => ?_
    have e : (p + 1) * k - k = p * k := by rw [Nat.succ_mul]; omega
    rw [e]
    cases res with
    | stack l => exact counts_spowLoop hf p _ h
    | one d =>
      cases z with
      | stack l => exact .throw
      | one e =>
        refine Counts.step (counts_setAll h.1 e.larr) (Nat.zero_le _) fun r hr => ?_
        exact (counts_spowLoop hf p (.one r) ⟨hr, h.2⟩).more (by omega) fun _ => id

theorem counts_sexpr (hok : SizesOK ok) (hm : 1 ≤ m) (hsm : s ≤ m) (e : SOp K (Prim K)) (he : e.leavesAre (Prim.Quiet c ok kl) s) :
    ∀ (b : Bool) (x : XArr K), x.Quiet m s → Counts ok (e.calls kl m s) (SOp.run c b e x) (XArr.Quiet m s) := by
  have hcheck : ∀ (sh : Nat × Nat) (b : Bool) (x : XArr K) (p : P K (XArr K)) (k : Nat), Counts ok k p (XArr.Quiet m s) →
      Counts ok k (SOp.checkDim sh b x p) (XArr.Quiet m s) := by
    intro sh b x p k h
    unfold SOp.checkDim
    cases x with
    | one d =>
      dsimp only
      by_cases hd : d.gshape ≠ [if b then sh.1 else sh.2]
      · rw [if_pos hd]; exact .throw
      · rw [if_neg hd]; exact h
    | stack l =>
      dsimp only
      generalize (if b then sh.1 else sh.2) = t
      split
      · exact .throw
      · split
        · exact .throw
        · exact h
  induction e with
  | vstack ops =>
    intro b x hx
    unfold SOp.run
    refine hcheck _ _ _ _ _ ?_
    cases b
    · exact counts_vsMv hok hsm he.1 he.2 hx
    · exact counts_vsRmv hok hm he.1 hx
  | grad ops =>
    intro b x hx
    unfold SOp.run
    refine hcheck _ _ _ _ _ ?_
    cases b
    · exact counts_vsMv hok hsm he.1 he.2 hx
    · exact counts_vsRmv hok hm he.1 hx
  | bdiag ops =>
    intro b x hx
    unfold SOp.run
    exact hcheck _ _ _ _ _ (counts_bdMv hok hsm b he.1 he.2 hx)
  | adj A ih =>
    intro b x hx
    unfold SOp.run
    exact hcheck _ _ _ _ _ (ih he (!b) x hx)
  | trans A ih =>
    intro b x hx
    unfold SOp.run
    refine hcheck _ _ _ _ _ ?_
    simp only [Prog.bind_eq, SOp.calls]
    refine Counts.step (counts_xconj hok hx) (by omega) fun z hz => ?_
    refine Counts.step (ih he (!b) z hz) (by omega) fun y hy => ?_
    exact (counts_xconj hok hy).more (by omega) fun _ => id
  | prod A B iA iB =>
    intro b x hx
    cases b
    · unfold SOp.run
      refine hcheck _ _ _ _ _ ?_
      simp only [Prog.bind_eq, SOp.calls]
      refine Counts.step (iB he.2 false x hx) (by omega) fun y hy => ?_
      exact (iA he.1 false y hy).more (by omega) fun _ => id
    · unfold SOp.run
      refine hcheck _ _ _ _ _ ?_
      simp only [Prog.bind_eq, SOp.calls]
      refine Counts.step (iA he.1 true x hx) (by omega) fun y hy => ?_
      exact (iB he.2 true y hy).more (by omega) fun _ => id
  | scaled A t ih =>
    intro b x hx
    unfold SOp.run
    refine hcheck _ _ _ _ _ ?_
    simp only [Prog.bind_eq, SOp.calls]
    refine Counts.step (ih he b x hx) (by omega) fun y hy => ?_
    exact (counts_xsmul hok hy _ _).more (by omega) fun _ => id
  | sum A B iA iB =>
    intro b x hx
    unfold SOp.run
    refine hcheck _ _ _ _ _ ?_
    simp only [Prog.bind_eq, SOp.calls]
    refine Counts.step (iA he.1 b x hx) (by omega) fun y hy => ?_
    refine Counts.step (iB he.2 b x hx) (by omega) fun z hz => ?_
    exact (counts_xadd hok hy).more (by omega) fun _ => id
  | pow A p ih =>
    intro b x hx
    unfold SOp.run
    refine hcheck _ _ _ _ _ ?_
    simp only [Prog.bind_eq, SOp.calls]
    refine Counts.step (counts_xcopy hok hx) (by omega) fun y hy => ?_
    exact (counts_spowLoop (fun z hz => ih he b z hz) p y hy).more (by omega) fun _ => id
  | conj A ih =>
    intro b x hx
    unfold SOp.run
    refine hcheck _ _ _ _ _ ?_
    simp only [Prog.bind_eq, SOp.calls]
    refine Counts.step (counts_xconj hok hx) (by omega) fun z hz => ?_
    refine Counts.step (ih he b z hz) (by omega) fun y hy => ?_
    exact (counts_xconj hok hy).more (by omega) fun _ => id

theorem SOp.quiet_toX (hok : SizesOK ok) (hm : 1 ≤ m) (hsm : s ≤ m) {e : SOp K (Prim K)} (he : e.leavesAre (Prim.Quiet c ok kl) s) :
    (SOp.toX e).Quiet c ok m s (e.calls kl m s) (e.calls kl m s) := fun x hx =>
  ⟨counts_sexpr hok hm hsm e he false x hx, counts_sexpr hok hm hsm e he true x hx⟩

end stacked

/-! ### operators that are built from others -/

theorem MOp.calls_H {kl : Nat} {φ : Prim K → Prop} {sh : Prim K → Nat × Nat} (e : MOp K (Prim K)) (he : e.leavesAre φ) :
    ∀ h, e.H sh = .ok h → h.leavesAre φ ∧ h.calls kl = e.calls kl := by
  induction e with
  | prod A B iA iB =>
    intro h hh
    unfold MOp.H at hh
    cases hB : B.H sh with
    | error x => rw [hB] at hh; cases hh
    | ok b =>
      cases hA : A.H sh with
      | error x => rw [hB, hA] at hh; cases hh
      | ok a =>
        rw [hB, hA] at hh
        replace hh : b.mul sh a = .ok h := hh
        unfold MOp.mul at hh
        split at hh
        · cases hh
        · obtain rfl := Except.ok.inj hh
          have h1 := iA he.1 a hA
          have h2 := iB he.2 b hB
          exact ⟨⟨h2.1, h1.1⟩, by simp only [MOp.calls]; omega⟩
  | scaled A t ih =>
    intro h hh
    unfold MOp.H at hh
    cases hA : A.H sh with
    | error x => rw [hA] at hh; cases hh
    | ok a =>
      rw [hA] at hh
      obtain rfl := Except.ok.inj hh
      exact ih he a hA
  | sum A B iA iB =>
    intro h hh
    unfold MOp.H at hh
    cases hA : A.H sh with
    | error x => rw [hA] at hh; cases hh
    | ok a =>
      cases hB : B.H sh with
      | error x => rw [hA, hB] at hh; cases hh
      | ok b =>
        rw [hA, hB] at hh
        replace hh : a.add sh b = .ok h := hh
        unfold MOp.add at hh
        split at hh
        · cases hh
        · obtain rfl := Except.ok.inj hh
          have h1 := iA he.1 a hA
          have h2 := iB he.2 b hB
          exact ⟨⟨h1.1, h2.1⟩, by simp only [MOp.calls]; omega⟩
  | conj A ih =>
    intro h hh
    unfold MOp.H at hh
    cases hA : A.H sh with
    | error x => rw [hA] at hh; cases hh
    | ok a =>
      rw [hA] at hh
      obtain rfl := Except.ok.inj hh
      have h1 := ih he a hA
      exact ⟨h1.1, by simp only [MOp.calls]; omega⟩
  | leaf p => intro h hh; obtain rfl := Except.ok.inj hh; exact ⟨he, rfl⟩
  | adj A _ => intro h hh; obtain rfl := Except.ok.inj hh; exact ⟨he, rfl⟩
  | trans A _ => intro h hh; obtain rfl := Except.ok.inj hh; exact ⟨he, rfl⟩
  | pow A p _ => intro h hh; obtain rfl := Except.ok.inj hh; exact ⟨he, rfl⟩

theorem quiet_blockDiag {c : Ctx K} (hok : NearOK c.rank ok) (ops : List (LOp K)) (mask : Option (List Nat)) (dt : DType) (lin lout : List (List Nat))
    (M N : Nat) : Prim.Quiet c ok 15 ⟨M, N, dt, blockDiagMv ops mask dt false lin lout M, blockDiagMv ops mask dt true lout lin N⟩ :=
  fun x _ => ⟨(calls_blockDiag hok ops mask dt false lin lout M x).counts.more le_rfl fun _ h => by rw [h]; simp,
    (calls_blockDiag hok ops mask dt true lout lin N x).counts.more le_rfl fun _ h => by rw [h]; simp⟩

theorem quiet_derivative {c : Ctx K} (hok : NearOK c.rank ok) (o : Deriv K) (k : FDKind) (k' : SDKind) :
    Prim.Quiet c ok 40 (firstDerivative k o) ∧ Prim.Quiet c ok 40 (secondDerivative k' o) := by
  have key : ∀ {f : Ctx K → Deriv K → DArr K → P K (DArr K)} (x : DArr K), x.part ≠ .broadcast →
      (∀ arr g, GhostOK c arr g (fun _ _ _ => True) ok → Cheap (fun _ _ _ => True) ok
        (g * rowSize arr.larr.shape arr.axis) (f c o arr)) → Counts ok 40 (derivApply c o f x) fun y => y.part ≠ .broadcast :=
    fun x hx hf => (calls_derivApply hok o x hx hf).counts.more le_rfl fun _ h => by rw [h]; simp
  exact ⟨fun x hx => ⟨key x hx fun arr g hg => calls_fdMv hg o k, key x hx fun arr g hg => calls_fdRmv hg o k⟩,
    fun x hx => ⟨key x hx fun arr g hg => calls_sdMv hg o k', key x hx fun arr g hg => calls_sdRmv hg o k'⟩⟩

omit [Field K] [StarRing K] in
theorem Prim.Quiet.more {c : Ctx K} {k k' : Nat} {p : Prim K} (h : p.Quiet c ok k) (hk : k ≤ k') : p.Quiet c ok k' := fun x hx =>
  ⟨(h x hx).1.more hk fun _ => id, (h x hx).2.more hk fun _ => id⟩

theorem counts_mkBlockDiag {c : Ctx K} (hok : NearOK c.rank ok) (ops : List (LOp K)) (mask : Option (List Nat)) (dt : Option DType) :
    Counts ok 4 (mkBlockDiag c ops mask dt) (Prim.Quiet c ok 15) := by
  unfold mkBlockDiag allgather
  simp only [Prog.bind_eq]
  refine Counts.step (calls_gather _ _ _ (hok.sizes _ _ _ rfl)).counts (by omega) fun lm _ => ?_
  refine Counts.step (calls_gather _ _ _ (hok.sizes _ _ _ rfl)).counts (by omega) fun ln _ => ?_
  refine Counts.step (calls_allreduce _ _ _ (hok.sizes _ _ _ rfl)).counts (by omega) fun M _ => ?_
  refine Counts.step (calls_allreduce _ _ _ (hok.sizes _ _ _ rfl)).counts (by omega) fun N _ => ?_
  exact CallsW.liftBind fun t _ => .ret (quiet_blockDiag hok ops mask t lm ln M N)

theorem counts_lapTerm {c : Ctx K} (hok : NearOK c.rank ok) (sd : Serial K SDKind) (dims : List Nat) (edge : Bool) (dt : DType) (ax : Nat) (s : K)
    (kind : SDKind) : Counts ok 4 (lapTerm c sd dims edge dt ax s kind) (Prim.Quiet c ok 40) := by
  unfold lapTerm
  split
  · exact .ret (quiet_derivative hok _ .forward kind).2
  · exact (counts_mkBlockDiag hok _ _ _).more le_rfl fun _ h => h.more (by omega)

theorem counts_lapLoop {c : Ctx K} (hok : NearOK c.rank ok) (sd : Serial K SDKind) (dims : List Nat) (edge : Bool) (dt : DType) :
    ∀ (l : List (Nat × K × Scal K)) (e : MOp K (Prim K)), e.leavesAre (Prim.Quiet c ok 40) →
      Counts ok (4 * l.length) (lapLoop c sd dims edge dt l e)
        fun e' => e'.leavesAre (Prim.Quiet c ok 40) ∧ e'.calls 40 = e.calls 40 + 43 * l.length
  | [], e, he => .ret ⟨he, by simp⟩
  | (ax, s, w) :: l, e, he => by
    simp only [lapLoop, Prog.bind_eq, List.length_cons]
    refine Counts.step (counts_lapTerm hok sd dims edge dt ax s .centered) (by omega) fun p hp => ?_
    refine CallsW.liftBind fun e' he' => ?_
    unfold MOp.add at he'
    split at he'
    · cases he'
    · obtain rfl := Except.ok.inj he'
      refine (counts_lapLoop hok sd dims edge dt l (.sum e (.scaled (.leaf p) w)) ⟨he, hp⟩).more (by omega) fun e'' h => ⟨h.1, ?_⟩
      rw [h.2]
      simp only [MOp.calls]
      omega

theorem counts_mkLaplacian {c : Ctx K} (hok : NearOK c.rank ok) (sd : Serial K SDKind) (dims axes : List Nat) (weights : List (Scal K))
    (sampling : List K) (edge : Bool) (kind : SDKind) (dt : DType) :
    Counts ok (4 * axes.length) (mkLaplacian c sd dims axes weights sampling edge kind dt) (Prim.Quiet c ok (43 * axes.length)) := by
  unfold mkLaplacian
  split
  · exact .throw
  split
  · exact .throw
  have hlen : (axes.zip (sampling.zip weights)).length ≤ axes.length := by simp
  split
  · exact .throw
  · rename_i ax s w l hl
    rw [hl, List.length_cons] at hlen
    simp only [Prog.bind_eq]
    refine Counts.step (counts_lapTerm hok sd dims edge dt ax s kind) (by omega) fun p hp => ?_
    refine Counts.step (counts_lapLoop hok sd dims edge dt l (.scaled (.leaf p) w) hp) (by omega) fun e he => ?_
    have hc : e.calls 40 ≤ 43 * axes.length := by
      rw [he.2]
      simp only [MOp.calls]
      omega
    refine .ret fun x hx => ⟨(counts_expr hok.sizes.sizes e he.1 false x hx).more hc fun _ => id, ?_⟩
    refine CallsW.liftBind fun h hh => ?_
    obtain ⟨h1, h2⟩ := MOp.calls_H (kl := 40) e he.1 h hh
    exact (counts_expr hok.sizes.sizes h h1 false x hx).more (by omega) fun _ => id

theorem counts_gradLoop {c : Ctx K} (hok : NearOK c.rank ok) (fd : Serial K FDKind) (dims : List Nat) (edge : Bool) (kind : FDKind) (dt : DType) :
    ∀ (l : List K) (iax : Nat), Counts ok (4 * l.length) (gradLoop c fd dims edge kind dt iax l)
      fun ops => (∀ o ∈ ops, o.leavesAre (Prim.Quiet c ok 40) ∧ o.calls 40 = 40) ∧ ops.length = l.length
  | [], _ => .ret ⟨by simp, rfl⟩
  | s :: l, iax => by
    simp only [gradLoop, Prog.bind_eq, List.length_cons]
    refine Counts.step (counts_mkBlockDiag hok _ _ _) (by omega) fun p hp => ?_
    refine Counts.step (counts_gradLoop hok fd dims edge kind dt l (iax + 1)) (by omega) fun ops ho => ?_
    refine .ret ⟨fun o h => ?_, by rw [List.length_cons, ho.2]⟩
    rcases List.mem_cons.mp h with rfl | h
    · exact ⟨hp.more (by omega), rfl⟩
    · exact ho.1 o h

/-- the gradient: a stack of at most `dims.length` operators, each with at most 40 calls -/
theorem counts_mkGradient {c : Ctx K} (hok : NearOK c.rank ok) (fd : Serial K FDKind) (dims : List Nat) (sampling : List K) (edge : Bool)
    (kind : FDKind) (dt : DType) :
    Counts ok (4 * dims.length) (mkGradient c fd dims sampling edge kind dt)
      fun e => e.leavesAre (Prim.Quiet c ok 40) dims.length ∧ ∀ m s, e.calls 40 m s ≤ 43 * dims.length := by
  unfold mkGradient
  have hlen : (sampling.take dims.length).length ≤ dims.length := List.length_take_le _ _
  split
  · exact .throw
  · rename_i s l hl
    rw [hl, List.length_cons] at hlen
    simp only [Prog.bind_eq]
    refine Counts.step (counts_gradLoop hok fd dims edge kind dt l 1) (by omega) fun ops ho => ?_
    split
    · exact .throw
    · refine CallsW.liftBind fun e he => ?_
      unfold SOp.mkVStack at he
      split at he
      · cases he
      · rename_i o os hos
        split at he
        · cases he
        · obtain rfl := Except.ok.inj he
          refine .ret ?_
          rw [← hos]
          have hall : ∀ o ∈ (MOp.leaf (firstDerivative kind ⟨dims, s, edge, dt⟩) : MOp K (Prim K)) :: ops,
              o.leavesAre (Prim.Quiet c ok 40) ∧ o.calls 40 = 40 := by
            intro o h
            rcases List.mem_cons.mp h with rfl | h
            · exact ⟨(quiet_derivative hok _ kind .forward).1, rfl⟩
            · exact ho.1 o h
          refine ⟨⟨fun o h => (hall o h).1, by rw [List.length_cons, ho.2]; exact hlen⟩, fun m s => ?_⟩
          show (List.map (fun o => MOp.calls 40 o + 3) _).sum ≤ _
          rw [List.map_congr_left (g := fun _ => 43) fun o h => by rw [(hall o h).2]]
          simp only [List.map_const', List.sum_replicate, List.length_cons, ho.2, smul_eq_mul]
          omega

end Verif

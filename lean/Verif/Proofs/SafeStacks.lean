/- MPIBlockDiag, MPIVStack and MPIHStack for all lists of operators and all 1-D inputs: when the result is returned, and that otherwise some rank raises. -/
import Verif.Proofs.SafeFredholm
import Verif.Props.C24Empty

set_option linter.unusedSectionVars false

namespace Verif
open NDArray

variable {K : Type} [Field K] [StarRing K] [CharZero K] {n N M : Nat} {J : Nat → Nat → K} {ops : Nat → List (LOp K)} {dt dx : DType} {X : Layout} {dtype : Option DType}
  {mask : Option (List Nat)} {b : Bool}

theorem Raises.of_runs_at {α : Type} {ps : Nat → P K α} {ρ : Nat → Except Err α} {e : Err} {q : Nat} (hq : q < n) (h : Runs n ps ρ) (he : ρ q = .error e) : Raises n ps := by
  obtain ⟨qs, h1, h2⟩ := h
  exact ⟨q, hq, e, RankEnds.of_steps h1 (by rw [h2 q hq, he])⟩

theorem Raises.after {α β : Type} {ps : Nat → P K α} {a : Nat → α} {k : Nat → α → P K β} (h : Runs n ps (fun r => .ok (a r))) (h2 : Raises n (fun r => k r (a r))) :
    Raises n (fun r => (ps r).bind (k r)) := by
  obtain ⟨m, hm, e, h2⟩ := h2
  exact ⟨m, hm, e, rankEnds_bind_ok hm h h2⟩

theorem HaltsE.raises {α : Type} {ps : Nat → P K α} {o : Nat → Option (Except Err α)} {e : Err} {q : Nat} (hq : q < n) (h : HaltsE n ps o) (he : o q = some (.error e)) : Raises n ps := by
  obtain ⟨qs, h1, -, h2⟩ := h
  have := h2 q hq
  rw [he] at this
  exact ⟨q, hq, e, RankEnds.of_steps h1 this⟩

/-- an array of another global shape is refused -/
theorem raises_dim (hn : 0 < n) {p : Nat → Prim K} {L : Nat} (hg : X.gshape = [L]) (hL : ∀ r < n, L ≠ (if b then (p r).rows else (p r).cols)) {d : List K} :
    Raises n (fun r => MOp.run (env n J r) b (.leaf (p r)) (VSpace.vec ⟨X, dx⟩ n d r)) := by
  refine Raises.of_runs hn (e := .value) ((Runs.throw fun _ => Err.value).congr (fun r hr => ?_) fun _ _ => rfl)
  have hgs : (VSpace.vec ⟨X, dx⟩ n d r : DArr K).gshape = [L] := hg
  simp only [MOp.run, checkDim, Prim.shape]
  rw [if_pos]
  rw [hgs]
  simpa using hL r hr

theorem run_leaf {p : Prim K} {c : Ctx K} {x : DArr K} (h : x.gshape = [if b then p.rows else p.cols]) : MOp.run c b (.leaf p) x = if b then p.rmv c x else p.mv c x := by
  simp only [MOp.run, checkDim, Prim.shape]
  rw [if_neg (by rw [h]; simp)]

theorem opsDType_error {l : List (LOp K)} {e : Err} (h : opsDType l dtype = .error e) : l = [] ∧ e = .value := by
  cases dtype with
  | some t => cases h
  | none =>
    cases l with
    | nil => exact ⟨rfl, by injection h with h; exact h.symm⟩
    | cons o os => cases h

/-- the same dtype on all ranks, or a rank without operators for which no dtype is given -/
theorem dtypes_or (hdt : ∀ r < n, ∀ t, opsDType (ops r) dtype = .ok t → t = dt) : (∀ r < n, opsDType (ops r) dtype = .ok dt) ∨ ∃ q < n, opsDType (ops q) dtype = .error .value := by
  by_cases h : ∀ r < n, opsDType (ops r) dtype = .ok dt
  · exact .inl h
  · push Not at h
    obtain ⟨q, hq, h⟩ := h
    refine .inr ⟨q, hq, ?_⟩
    cases e : opsDType (ops q) dtype with
    | ok t => exact absurd (by rw [e, hdt q hq t e]) h
    | error t => rw [(opsDType_error e).2]

theorem axis_of {L : Nat} (hX : X.WF n) (hg : X.gshape = [L]) : X.axis = 0 := by have := hX.axis_lt; rw [hg] at this; simpa using this

/-- an input that does not fit the blocks is refused -/
theorem reshaped_raises (hn : 0 < n) (hX : X.WF n) (hg : X.gshape = [inSum b (allOps n ops)])
    (h : ¬ (X.part = .scatter ∧ Near n X (.lin (inSum b (allOps n ops)) fun r => inSum b (ops r)))) {f : Nat → DArr K → P K (DArr K)} {d : List K} (hd : VSpace.Mem ⟨X, dx⟩ d) :
    Raises n (fun r => reshaped (env n J r) (VSpace.vec ⟨X, dx⟩ n d r : DArr K).gshape (some ((List.range n).map fun q => [inSum b (ops q)])) (f r) (VSpace.vec ⟨X, dx⟩ n d r)) := by
  by_cases hp : X.part = .scatter
  · have hN : ¬ Near n X (inL b n ops) := fun hN => h ⟨hp, hN⟩
    obtain ⟨m, hm, h⟩ := C21_raises (J := J) (conform_in (ops := ops) (b := b) hX hg hp (axis_of hX hg)) hN (.inl rfl) hd
    have h' : RankEnds n (fun r => redistribute (env n J r) (VSpace.vec ⟨X, dx⟩ n d r).gshape (some ((List.range n).map fun q => [inSum b (ops q)])) (VSpace.vec ⟨X, dx⟩ n d r)) m (.error .value) := by
      refine RankEnds.congr_prog h (fun r hr => ?_) hm
      show _ = redistribute _ X.gshape _ _
      rw [hg]
      rfl
    refine ⟨m, hm, .value, ?_⟩
    unfold reshaped
    simp only [Prog.bind_eq]
    exact h'.bind_error _
  · refine Raises.of_runs hn (e := .value) ((Runs.throw fun _ => Err.value).congr (fun r _ => ?_) fun _ _ => rfl)
    unfold reshaped redistribute
    simp only [Prog.bind_eq]
    rw [if_pos (by simpa [VSpace.vec, Layout.fam] using hp)]
    rfl

/-! ### MPIBlockDiag -/

theorem mkBlockDiag_raises {q : Nat} (hq : q < n) (h : opsDType (ops q) dtype = .error .value) : Raises n (fun r => mkBlockDiag (env n J r) (ops r) mask dtype) := by
  have : Runs n (fun r => mkBlockDiag (env n J r) (ops r) mask dtype) (fun r => (opsDType (ops r) dtype).map fun t => bdPrim n ops mask t r) := by
    unfold mkBlockDiag
    simp only [Prog.bind_eq]
    refine runs_allgather (J := J) (v := fun r => [inSum false (ops r)]) ?_
    refine runs_allgather (J := J) (v := fun r => [inSum true (ops r)]) ?_
    refine runs_allreduce_nat (J := J) (v := fun r => inSum true (ops r)) ?_
    refine runs_allreduce_nat (J := J) (v := fun r => inSum false (ops r)) ?_
    refine (Runs.lift _).congr (fun r hr => ?_) fun _ _ => rfl
    rw [← inSum_allOps, ← inSum_allOps]
    cases opsDType (ops r) dtype with
    | error e => rfl
    | ok t => rfl
  exact Raises.of_runs_at hq this (by rw [h]; rfl)

theorem bd_cases (hn : 0 < n) (hok : ∀ o ∈ allOps n ops, o.Ok b dx dt) (hdt : ∀ r < n, ∀ t, opsDType (ops r) dtype = .ok t → t = dt) (hm : ∀ m, mask = some m → n ≤ m.length)
    (hX : X.WF n) {L : Nat} (hg : X.gshape = [L]) {d : List K} (hd : VSpace.Mem ⟨X, dx⟩ d) :
    RunsIf (BDGood n ops b X) n (bdProg n J ops mask dtype b (VSpace.vec ⟨X, dx⟩ n d))
      (fun r => .ok (VSpace.vec ⟨.lin (outSum b (allOps n ops)) (fun r => outSum b (ops r)) mask, dt⟩ n (blockDiag b (allOps n ops) d) r)) := by
  have hnil : ∀ {q}, q < n → opsDType (ops q) dtype = .error .value → ops q = [] := fun _ h => (opsDType_error h).1
  refine ⟨fun ⟨h1, h2, h3, h4⟩ => ?_, fun h => ?_⟩
  · rcases dtypes_or hdt with hd' | ⟨q, hq, he⟩
    · exact runs_bdProg hX h2 h3 (axis_of hX hg) h4 hd' hok h1 hm hd
    · exact absurd (hnil hq he) (h1 q hq)
  · rcases dtypes_or hdt with hd' | ⟨q, hq, he⟩
    · unfold bdProg
      simp only [Prog.bind_eq]
      by_cases hL : X.gshape = [inSum b (allOps n ops)]
      · have hrun : ∀ r, MOp.run (env n J r) b (.leaf (bdPrim n ops mask dt r)) (VSpace.vec ⟨X, dx⟩ n d r) =
            blockDiagMv (ops r) mask dt b ((List.range n).map fun q => [inSum b (ops q)]) ((List.range n).map fun q => [outSum b (ops q)]) (outSum b (allOps n ops)) (env n J r)
              (VSpace.vec ⟨X, dx⟩ n d r) := fun r => by
          rw [run_leaf]
          · cases b <;> rfl
          · show X.gshape = _
            rw [hL]
            cases b <;> simp [bdPrim, outSum]
        by_cases hs : X.part = .scatter ∧ Near n X (.lin (inSum b (allOps n ops)) fun r => inSum b (ops r))
        · have : ∃ q < n, ops q = [] := by
            by_contra hne
            push Not at hne
            exact h ⟨hne, hL, hs.1, hs.2⟩
          obtain ⟨q, hq, h0⟩ := this
          have hdt' : dtype = some dt := by
            have := hd' q hq
            rw [h0] at this
            cases dtype with
            | some t => injection this with this; rw [this]
            | none => cases this
          subst hdt'
          have := runs_bdProg_any (J := J) hX hL hs.1 (axis_of hX hg) hs.2 hok hm hd
          have h2 := Raises.of_runs_at hq this (e := .value) (by rw [if_pos h0])
          unfold bdProg at h2
          simpa only [Prog.bind_eq] using h2
        · refine Raises.after (runs_mkBlockDiag (J := J) (mask := mask) hd') ?_
          exact (reshaped_raises (f := fun r => _) hn hX hL hs hd).congr fun r _ => (hrun r).symm
      · refine Raises.after (runs_mkBlockDiag (J := J) (mask := mask) hd') (raises_dim hn hg fun r _ hl => hL ?_)
        rw [hg, hl]
        cases b <;> simp [bdPrim, outSum]
    · unfold bdProg
      simp only [Prog.bind_eq]
      exact (mkBlockDiag_raises hq he).bind _

/-! ### MPIVStack -/

theorem mkVStack_raises (hN : ∀ o ∈ allOps n ops, o.cols = N) (hne : allOps n ops ≠ []) {q : Nat} (hq : q < n) (h : opsDType (ops q) dtype = .error .value) :
    Raises n (fun r => mkVStack (env n J r) (ops r) dtype) := by
  have : Runs n (fun r => mkVStack (env n J r) (ops r) dtype) (fun r => (opsDType (ops r) dtype).map fun t => vsPrim n ops N t r) := by
    unfold mkVStack
    simp only [Prog.bind_eq]
    refine runs_allgather (J := J) (v := fun r => [inSum true (ops r)]) ?_
    refine runs_allgather (J := J) (v := fun r => (ops r).map (·.cols)) ?_
    have e : ((List.range n).map fun r => (ops r).map (·.cols)).flatten = List.replicate (allOps n ops).length N := by
      rw [flatten_map, List.eq_replicate_iff]
      exact ⟨by simp, fun x hx => by obtain ⟨o, ho, rfl⟩ := List.mem_map.1 hx; exact hN o ho⟩
    have hlen : (allOps n ops).length = (allOps n ops).length - 1 + 1 := by
      have := List.length_pos_iff.2 hne; omega
    rw [e, hlen, List.replicate_succ]
    dsimp only
    have hany : ¬ ((List.replicate ((allOps n ops).length - 1) N).any fun x => decide (x ≠ N)) = true := by simp
    simp only [if_neg hany]
    refine runs_allreduce_nat (J := J) (v := fun r => inSum true (ops r)) ?_
    refine (Runs.lift _).congr (fun r hr => ?_) fun _ _ => rfl
    rw [← inSum_allOps]
    cases opsDType (ops r) dtype with
    | error e => rfl
    | ok t => rfl
  exact Raises.of_runs_at hq this (by rw [h]; rfl)

/-- the constructor of MPIVStack succeeds or raises -/
theorem mkVStack_or (hn : 0 < n) (hdt : ∀ r < n, ∀ t, opsDType (ops r) dtype = .ok t → t = dt) :
    (∃ N, (∀ o ∈ allOps n ops, o.cols = N) ∧ allOps n ops ≠ [] ∧ (∀ r < n, opsDType (ops r) dtype = .ok dt) ∧
      Runs n (fun r => mkVStack (env n J r) (ops r) dtype) (fun r => .ok (vsPrim n ops N dt r))) ∨
    (Raises n (fun r => mkVStack (env n J r) (ops r) dtype) ∧ ¬ ((∀ r < n, ops r ≠ []) ∧ ∃ N, ∀ o ∈ allOps n ops, o.cols = N)) := by
  by_cases h0 : allOps n ops = []
  · exact .inr ⟨Raises.of_runs hn (C24_no_operators h0).runs, fun h => allOps_ne hn h.1 h0⟩
  by_cases hc : ∃ N, ∀ o ∈ allOps n ops, o.cols = N
  · obtain ⟨N, hc⟩ := hc
    rcases dtypes_or hdt with hd' | ⟨q, hq, he⟩
    · exact .inl ⟨N, hc, h0, hd', runs_mkVStack hd' hc h0⟩
    · exact .inr ⟨mkVStack_raises hc h0 hq he, fun h => h.1 q hq (opsDType_error he).1⟩
  · right
    refine ⟨?_, fun h => hc h.2⟩
    obtain ⟨o, ho⟩ := List.exists_mem_of_ne_nil _ h0
    have : ∃ o' ∈ allOps n ops, o.cols ≠ o'.cols := by
      by_contra hx
      push Not at hx
      exact hc ⟨o.cols, fun o' ho' => (hx o' ho').symm⟩
    obtain ⟨o', ho', hne⟩ := this
    exact Raises.of_runs hn (runs_mkVStack_reject ho ho' hne)

theorem vsRun_fwd_cases (hn : 0 < n) (hok : ∀ o ∈ allOps n ops, o.Ok false dx dt) (hN : ∀ o ∈ allOps n ops, o.cols = N) (hne : allOps n ops ≠ []) (hX : X.WF n) {L : Nat} (hg : X.gshape = [L])
    {d : List K} (hd : VSpace.Mem ⟨X, dx⟩ d) :
    RunsIf (VSGood n ops X) n (fun r => MOp.run (env n J r) false (.leaf (vsPrim n ops N dt r)) (VSpace.vec ⟨X, dx⟩ n d r))
      (fun r => .ok (VSpace.vec ⟨.lin (outSum false (allOps n ops)) (fun r => outSum false (ops r)), dt⟩ n (vcat false (allOps n ops) d) r)) := by
  obtain ⟨o, ho⟩ := List.exists_mem_of_ne_nil _ hne
  have hok' : ∀ o ∈ allOps n ops, o.Ok false dx dt ∧ o.cols = N := fun o ho => ⟨hok o ho, hN o ho⟩
  refine ⟨fun ⟨h1, h2, h3⟩ => ?_, fun h => ?_⟩
  · exact runs_vsRun_fwd hX (by rw [h2 o ho, hN o ho]) h3 hok' h1 hd
  · by_cases hL : L = N
    · subst hL
      have hrun : ∀ r, MOp.run (env n J r) false (.leaf (vsPrim n ops L dt r)) (VSpace.vec ⟨X, dx⟩ n d r) =
          vstackMv (ops r) dt ((List.range n).map fun q => [outSum false (ops q)]) (outSum false (allOps n ops)) (env n J r) (VSpace.vec ⟨X, dx⟩ n d r) := fun r => by
        rw [run_leaf]
        · rfl
        · exact hg
      by_cases hp : X.part.isBroadcast = true
      · have : ∃ q < n, ops q = [] := by
          by_contra hx
          push Not at hx
          exact h ⟨hx, fun o ho => by rw [hg, hN o ho], hp⟩
        obtain ⟨q, hq, h0⟩ := this
        refine (Raises.of_runs_at hq (runs_vstackMv_any (J := J) hX hg hp hok' hd) (e := .value) (by rw [if_pos h0])).congr fun r _ => (hrun r).symm
      · refine Raises.of_runs hn (e := .value) ((Runs.throw fun _ => Err.value).congr (fun r _ => ?_) fun _ _ => rfl)
        rw [hrun r]
        unfold vstackMv
        rw [if_pos (by simpa [VSpace.vec, Layout.fam] using hp)]
    · exact raises_dim hn hg fun r _ hl => hL (by simpa [vsPrim] using hl)

theorem vs_fwd_cases (hn : 0 < n) (hok : ∀ o ∈ allOps n ops, o.Ok false dx dt) (hdt : ∀ r < n, ∀ t, opsDType (ops r) dtype = .ok t → t = dt) (hX : X.WF n) {L : Nat} (hg : X.gshape = [L])
    {d : List K} (hd : VSpace.Mem ⟨X, dx⟩ d) :
    RunsIf (VSGood n ops X) n (vsProg n J ops dtype false (VSpace.vec ⟨X, dx⟩ n d))
      (fun r => .ok (VSpace.vec ⟨.lin (outSum false (allOps n ops)) (fun r => outSum false (ops r)), dt⟩ n (vcat false (allOps n ops) d) r)) := by
  unfold vsProg
  simp only [Prog.bind_eq]
  rcases mkVStack_or (J := J) hn hdt with ⟨N, h1, h2, -, h4⟩ | ⟨h1, h2⟩
  · have := vsRun_fwd_cases (J := J) hn hok h1 h2 hX hg hd
    exact ⟨fun h => Runs.bind_ok h4 (this.1 h), fun h => Raises.after h4 (this.2 h)⟩
  · refine ⟨fun h => absurd ⟨h.1, L, fun o ho => ?_⟩ h2, fun _ => h1.bind _⟩
    have := h.2.1 o ho
    rw [hg] at this
    exact (List.cons.inj this).1.symm

theorem vsRun_adj_cases (hn : 0 < n) (hok : ∀ o ∈ allOps n ops, o.Ok true dx dt) (hN : ∀ o ∈ allOps n ops, o.cols = N) (hX : X.WF n) {L : Nat} (hg : X.gshape = [L])
    {d : List K} (hd : VSpace.Mem ⟨X, dx⟩ d) :
    RunsIf (VSGoodAdj n ops N X) n (fun r => MOp.run (env n J r) true (.leaf (vsPrim n ops N dt r)) (VSpace.vec ⟨X, dx⟩ n d r))
      (fun r => .ok (VSpace.vec ⟨.all N, dt⟩ n (hsum true N (allOps n ops) d) r)) := by
  have hok' : ∀ o ∈ allOps n ops, o.Ok true dx dt ∧ o.cols = N := fun o ho => ⟨hok o ho, hN o ho⟩
  refine ⟨fun ⟨h1, _, h3, h4, h5⟩ => runs_vsRun_adj hX h3 h4 (axis_of hX hg) h5 hok' h1 hd, fun h => ?_⟩
  by_cases hL : L = inSum true (allOps n ops)
  · subst hL
    have hrun : ∀ r, MOp.run (env n J r) true (.leaf (vsPrim n ops N dt r)) (VSpace.vec ⟨X, dx⟩ n d r) =
        vstackRmv (ops r) dt ((List.range n).map fun q => [inSum true (ops q)]) N (env n J r) (VSpace.vec ⟨X, dx⟩ n d r) := fun r => by
      rw [run_leaf]
      · rfl
      · show X.gshape = _
        rw [hg]
        simp [vsPrim, outSum]
    by_cases hs : X.part = .scatter ∧ Near n X (.lin (inSum true (allOps n ops)) fun r => inSum true (ops r))
    · have : ∃ q < n, ops q = [] := by
        by_contra hx
        push Not at hx
        exact h ⟨hx, hN, hg, hs.1, hs.2⟩
      obtain ⟨q, hq, h0⟩ := this
      have := halts_vstackRmv (J := J) (conform_in hX hg hs.1 (axis_of hX hg)) hs.2 hok' hq h0 hd
      exact (this.raises hq (e := .value) (by rw [if_pos h0])).congr fun r _ => (hrun r).symm
    · exact (reshaped_raises (b := true) (f := fun r => _) hn hX hg hs hd).congr fun r _ => (hrun r).symm
  · exact raises_dim hn hg fun r _ hl => hL (hl.trans (by simp [vsPrim, outSum]))

theorem vs_adj_cases (hn : 0 < n) (hok : ∀ o ∈ allOps n ops, o.Ok true dx dt) (hdt : ∀ r < n, ∀ t, opsDType (ops r) dtype = .ok t → t = dt) (hX : X.WF n) {L : Nat} (hg : X.gshape = [L])
    {d : List K} (hd : VSpace.Mem ⟨X, dx⟩ d) :
    (∀ N, VSGoodAdj n ops N X → Runs n (vsProg n J ops dtype true (VSpace.vec ⟨X, dx⟩ n d)) (fun r => .ok (VSpace.vec ⟨.all N, dt⟩ n (hsum true N (allOps n ops) d) r))) ∧
      ((¬ ∃ N, VSGoodAdj n ops N X) → Raises n (vsProg n J ops dtype true (VSpace.vec ⟨X, dx⟩ n d))) := by
  unfold vsProg
  simp only [Prog.bind_eq]
  rcases mkVStack_or (J := J) hn hdt with ⟨N, h1, h2, -, h4⟩ | ⟨h1, h2⟩
  · have := vsRun_adj_cases (J := J) hn hok h1 hX hg hd
    refine ⟨fun N' h => ?_, fun h => Raises.after h4 (this.2 fun hN => h ⟨N, hN⟩)⟩
    obtain ⟨o, ho⟩ := List.exists_mem_of_ne_nil _ h2
    obtain rfl : N = N' := (h1 o ho).symm.trans (h.2.1 o ho)
    exact Runs.bind_ok h4 (this.1 h)
  · exact ⟨fun N h => absurd ⟨h.1, N, h.2.1⟩ h2, fun _ => h1.bind _⟩

/-! ### MPIHStack -/

theorem run_hsPrim {r : Nat} {c : Ctx K} {x : DArr K} : MOp.run c b (.leaf (hsPrim n ops M dt r)) x = MOp.run c (!b) (.leaf (vsPrim n (hOps ops) M dt r)) x := by
  cases b <;> simp only [MOp.run, checkDim, MOp.shape, Prim.shape, hsPrim, vsPrim, Bool.not_false, Bool.not_true, Bool.false_eq_true, if_true, if_false] <;> split_ifs <;> rfl

theorem runs_allgather_self {α : Type} [Enc K α] {v : Nat → α} : Runs n (fun r => allgather (env n J r) (v r)) (fun _ => .ok ((List.range n).map v)) := by
  have : Runs n (fun r => Prog.bind (allgather (env n J r) (v r)) Prog.ret) (fun _ => .ok ((List.range n).map v)) := runs_allgather (J := J) (v := v) (Runs.ret _)
  exact this.congr (fun r _ => Prog.bind_ret _) fun _ _ => rfl

/-- the constructor of MPIHStack succeeds or raises -/
theorem mkHStack_or (hn : 0 < n) (hdt : ∀ r < n, ∀ t, opsDType (ops r) dtype = .ok t → t = dt) :
    (∃ M, (∀ o ∈ allOps n ops, o.rows = M) ∧ allOps n ops ≠ [] ∧
      Runs n (fun r => mkHStack (env n J r) (ops r) dtype) (fun r => .ok (hsPrim n ops M dt r))) ∨
    (Raises n (fun r => mkHStack (env n J r) (ops r) dtype) ∧ ¬ ((∀ r < n, ops r ≠ []) ∧ ∃ M, ∀ o ∈ allOps n ops, o.rows = M)) := by
  by_cases hc : ∃ M, ∀ o ∈ allOps n ops, o.rows = M
  · obtain ⟨M, hc⟩ := hc
    rcases mkVStack_or (J := J) (ops := hOps ops) (dtype := dtype) (dt := dt) hn (fun r hr t ht => hdt r hr t (by rw [← ht]; exact (opsDType_H _ _).symm)) with ⟨N, h1, h2, h3, h4⟩ | ⟨h1, h2⟩
    · have hne : allOps n ops ≠ [] := by rw [allOps_H] at h2; simpa using h2
      exact .inl ⟨M, hc, hne, runs_mkHStack (fun r hr => by rw [← h3 r hr]; exact (opsDType_H _ _).symm) hc hne⟩
    · refine .inr ⟨?_, fun h => h2 ⟨fun r hr => by simpa [hOps] using h.1 r hr, M, fun o ho => ?_⟩⟩
      · unfold mkHStack
        simp only [Prog.bind_eq]
        refine Raises.after (runs_allgather_self (J := J) (v := fun r => (ops r).map (·.rows))) ?_
        have e : ((List.range n).map fun r => (ops r).map (·.rows)).flatten = List.replicate (allOps n ops).length M := by
          rw [flatten_map, List.eq_replicate_iff]
          exact ⟨by simp, fun x hx => by obtain ⟨o, ho, rfl⟩ := List.mem_map.1 hx; exact hc o ho⟩
        rw [e]
        refine (h1.bind fun _ v => Prog.ret
          { rows := v.cols, cols := v.rows, dtype := v.dtype, mv := fun c x => MOp.run c false (.adj (.leaf v)) x, rmv := fun c x => MOp.run c true (.adj (.leaf v)) x }).congr fun r _ => ?_
        exact (if_neg (by
          cases (allOps n ops).length with
          | zero => exact Bool.false_ne_true
          | succ k => simp [List.replicate_succ])).symm
      · rw [allOps_H] at ho
        obtain ⟨q, hq, rfl⟩ := List.mem_map.1 ho
        exact hc q hq
  · right
    refine ⟨?_, fun h => hc h.2⟩
    have h0 : allOps n ops ≠ [] := fun h0 => hc ⟨0, by simp [h0]⟩
    obtain ⟨o, ho⟩ := List.exists_mem_of_ne_nil _ h0
    have : ∃ o' ∈ allOps n ops, o.rows ≠ o'.rows := by
      by_contra hx
      push Not at hx
      exact hc ⟨o.rows, fun o' ho' => (hx o' ho').symm⟩
    obtain ⟨o', ho', hne⟩ := this
    exact Raises.of_runs hn (runs_mkHStack_reject ho ho' hne)

theorem mem_allOps_H {o : LOp K} : o ∈ allOps n (hOps ops) ↔ ∃ q ∈ allOps n ops, q.H = o := by rw [allOps_H]; exact List.mem_map

theorem hsGoodAdj_iff : HSGoodAdj n ops X ↔ VSGood n (hOps ops) X := by
  unfold HSGoodAdj VSGood
  refine and_congr (forall₂_congr fun r _ => by simp [hOps]) (and_congr ⟨fun h o ho => ?_, fun h o ho => ?_⟩ Iff.rfl)
  · obtain ⟨q, hq, rfl⟩ := mem_allOps_H.1 ho
    exact h q hq
  · exact h o.H (mem_allOps_H.2 ⟨o, ho, rfl⟩)

theorem inSum_allH : inSum true (allOps n (hOps ops)) = inSum false (allOps n ops) := by rw [allOps_H, inSum_H]; rfl

theorem inSum_rankH : (fun r => inSum true (hOps ops r)) = fun r => inSum false (ops r) := by funext r; rw [hOps, inSum_H]; rfl

theorem hsGood_iff : HSGood n ops M X ↔ VSGoodAdj n (hOps ops) M X := by
  unfold HSGood VSGoodAdj
  rw [inSum_allH, inSum_rankH]
  refine and_congr (forall₂_congr fun r _ => by simp [hOps]) (and_congr ⟨fun h o ho => ?_, fun h o ho => ?_⟩ Iff.rfl)
  · obtain ⟨q, hq, rfl⟩ := mem_allOps_H.1 ho
    exact h q hq
  · exact h o.H (mem_allOps_H.2 ⟨o, ho, rfl⟩)

theorem ok_H (hok : ∀ o ∈ allOps n ops, o.Ok b dx dt) : ∀ o ∈ allOps n (hOps ops), o.Ok (!b) dx dt := fun o ho => by
  obtain ⟨q, hq, rfl⟩ := mem_allOps_H.1 ho
  exact LOp.H_ok (by rw [Bool.not_not]; exact hok q hq)

theorem hs_adj_cases (hn : 0 < n) (hok : ∀ o ∈ allOps n ops, o.Ok true dx dt) (hdt : ∀ r < n, ∀ t, opsDType (ops r) dtype = .ok t → t = dt) (hX : X.WF n) {L : Nat} (hg : X.gshape = [L])
    {d : List K} (hd : VSpace.Mem ⟨X, dx⟩ d) :
    RunsIf (HSGoodAdj n ops X) n (hsProg n J ops dtype true (VSpace.vec ⟨X, dx⟩ n d))
      (fun r => .ok (VSpace.vec ⟨.lin (inSum false (allOps n ops)) (fun r => inSum false (ops r)), dt⟩ n (vcat true (allOps n ops) d) r)) := by
  unfold hsProg
  simp only [Prog.bind_eq]
  rcases mkHStack_or (J := J) hn hdt with ⟨M, h1, h2, h4⟩ | ⟨h1, h2⟩
  · have := vsRun_fwd_cases (J := J) (ops := hOps ops) (N := M) hn (ok_H hok) (fun o ho => by obtain ⟨q, hq, rfl⟩ := mem_allOps_H.1 ho; exact h1 q hq) (by rw [allOps_H]; simpa using h2) hX hg hd
    refine ⟨fun h => Runs.bind_ok h4 ((this.1 (hsGoodAdj_iff.1 h)).congr (fun r _ => (run_hsPrim (b := true)).symm) fun r _ => ?_),
      fun h => Raises.after h4 ((this.2 (mt hsGoodAdj_iff.2 h)).congr fun r _ => (run_hsPrim (b := true)).symm)⟩
    have e1 : outSum false (allOps n (hOps ops)) = inSum false (allOps n ops) := inSum_allH
    have e2 : (fun r => outSum false (hOps ops r)) = fun r => inSum false (ops r) := inSum_rankH
    rw [e1, e2, allOps_H, vcat_H]
    rfl
  · refine ⟨fun h => absurd ⟨h.1, L, fun o ho => ?_⟩ h2, fun _ => h1.bind _⟩
    have := h.2.1 o ho
    rw [hg] at this
    exact (List.cons.inj this).1.symm

theorem hs_fwd_cases (hn : 0 < n) (hok : ∀ o ∈ allOps n ops, o.Ok false dx dt) (hdt : ∀ r < n, ∀ t, opsDType (ops r) dtype = .ok t → t = dt) (hX : X.WF n) {L : Nat} (hg : X.gshape = [L])
    {d : List K} (hd : VSpace.Mem ⟨X, dx⟩ d) :
    (∀ M, HSGood n ops M X → Runs n (hsProg n J ops dtype false (VSpace.vec ⟨X, dx⟩ n d)) (fun r => .ok (VSpace.vec ⟨.all M, dt⟩ n (hsum false M (allOps n ops) d) r))) ∧
      ((¬ ∃ M, HSGood n ops M X) → Raises n (hsProg n J ops dtype false (VSpace.vec ⟨X, dx⟩ n d))) := by
  unfold hsProg
  simp only [Prog.bind_eq]
  rcases mkHStack_or (J := J) hn hdt with ⟨M, h1, h2, h4⟩ | ⟨h1, h2⟩
  · have := vsRun_adj_cases (J := J) (ops := hOps ops) (N := M) hn (ok_H hok) (fun o ho => by obtain ⟨q, hq, rfl⟩ := mem_allOps_H.1 ho; exact h1 q hq) hX hg hd
    refine ⟨fun M' h => ?_, fun h => Raises.after h4 ((this.2 fun hN => h ⟨M, hsGood_iff.2 hN⟩).congr fun r _ => (run_hsPrim (b := false)).symm)⟩
    obtain ⟨o, ho⟩ := List.exists_mem_of_ne_nil _ h2
    obtain rfl : M = M' := (h1 o ho).symm.trans (h.2.1 o ho)
    refine Runs.bind_ok h4 ((this.1 (hsGood_iff.1 h)).congr (fun r _ => (run_hsPrim (b := false)).symm) fun r _ => ?_)
    rw [allOps_H]; unfold hsum; rw [slices_H]; rfl
  · exact ⟨fun M h => absurd ⟨h.1, M, h.2.1⟩ h2, fun _ => h1.bind _⟩

end Verif

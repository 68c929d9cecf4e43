/- C63: arrays and operators on communicators other than MPI.COMM_WORLD. -/
import Verif.Proofs.SubComm
import Verif.Proofs.Fredholm
import Verif.Props.C07
import Verif.Props.C09
import Verif.Props.C20
import Verif.Props.C24Empty

namespace Verif
open NDArray

set_option linter.unusedSectionVars false

section
variable {K α : Type} {n : Nat} {C : Comms n} {J : Nat → Nat → K}

/-- **C63** (isolation).  The ranks of the world are divided in any way among communicators, and the ranks of each communicator run programs that make MPI calls on it only.
    If on each communicator, taken as the world, all executions of its programs end with the outcomes `ρ`, then so they do when the communicators work at the same time. -/
theorem C63_isolated {ps : Nat → Nat → P K α} {ρ : Nat → Nat → Except Err α} (h : ∀ r < n, Always (C.size (C.grp r)) (ps (C.grp r)) (ρ (C.grp r))) :
    Always n (fun r => (C.base J r).on (ps (C.grp r) (C.idx r))) (fun r => ρ (C.grp r) (C.idx r)) := Always.comms C h

end

section
variable {K : Type} {n : Nat} {C : Comms n} {J : Nat → Nat → K} [Field K] [StarRing K] [CharZero K]

/-- no call of `ravel` -/
def Cmd.NoRavel : Cmd K → Prop
  | .ravel _ => False
  | _ => True

/-- **C63** (histories).  On each communicator any history of API calls (without `ravel`) is executed.  If it completes when the ranks of the communicator are all ranks, then
    it completes in all executions, whatever the other communicators do (if they complete as well), with the same arrays. -/
theorem C63_histories (h : Nat → List (Cmd K)) (_hr : ∀ g, ∀ cmd ∈ h g, cmd.NoRavel) (hi : ∀ g, ∀ cmd ∈ h g, cmd.Init) (σ : Nat → Nat → List (DArr K))
    (hσ : ∀ r < n, Completes (C.size (C.grp r)) (fun i => runHistory (env (C.size (C.grp r)) (fun i => J (C.glob (C.grp r) i)) i) (h (C.grp r)) []) (σ (C.grp r))) :
    Always n (fun r => (C.base J r).on (runHistory (C.base J r).b (h (C.grp r)) [])) (fun r => .ok (σ (C.grp r) (C.idx r))) :=
  C63_isolated (ps := fun g i => runHistory (env (C.size g) (fun i => J (C.glob g i)) i) (h g) []) (ρ := fun g i => .ok (σ g i)) fun r hr =>
    C51_success _ (Nat.lt_of_le_of_lt (Nat.zero_le _) (Comms.idx_lt hr)) _ _ _ (hi _) _ (hσ r hr)

/-- `dot` of scattered arrays makes all its MPI calls on the communicator of the array. -/
theorem dotOn_scatter (B : BCtx K) {d e : DArr K} (hp : d.part = .scatter) : d.dotOn B e = B.on (d.dot B.b e) := by
  have hb : ¬ d.part.isBroadcast = true := by rw [hp]; simp [Partition.isBroadcast]
  unfold DArr.dotOn DArr.dot DArr.toScatter BCtx.on
  simp only [Prog.bind_eq, if_neg hb, Prog.ret_bind, Prog.rename_bind, Prog.rename_lift, Prog.rename]
  congr 1
  unfold DArr.checkCompat
  by_cases h1 : d.part ≠ e.part
  · rw [if_pos h1]; rfl
  · rw [if_neg h1]
    by_cases h2 : d.lshape ≠ e.lshape
    · rw [if_pos h2]; rfl
    · rw [if_neg h2]
      by_cases h3 : d.mask ≠ e.mask
      · rw [if_pos h3]; rfl
      · rw [if_neg h3]; rfl

/-- **C63** (`dot` of scattered arrays).  Each communicator `g` holds two arrays of its own, of any layout: `dot` returns on its ranks the dot product of these arrays. -/
theorem C63_dot_scatter {L : Nat → Layout} {dt : Nat → DType} {a b : Nat → Nat → List K} (hp : ∀ g, (L g).part = .scatter) (hL : ∀ r < n, (L (C.grp r)).WF (C.size (C.grp r)))
    (hm : ∀ g, (L g).mask = none) (ha : ∀ r < n, (L (C.grp r)).Good (C.size (C.grp r)) (dt (C.grp r)) (a (C.grp r)))
    (hb : ∀ r < n, (L (C.grp r)).Good (C.size (C.grp r)) (dt (C.grp r)) (b (C.grp r))) :
    Always n (fun r => ((L (C.grp r)).fam (C.size (C.grp r)) (dt (C.grp r)) (a (C.grp r)) (C.idx r)).dotOn (C.base J r)
        ((L (C.grp r)).fam (C.size (C.grp r)) (dt (C.grp r)) (b (C.grp r)) (C.idx r)))
      (fun r => .ok (List.zipWith (· * ·) ((L (C.grp r)).global (C.size (C.grp r)) (dt (C.grp r)) (a (C.grp r))).data
        ((L (C.grp r)).global (C.size (C.grp r)) (dt (C.grp r)) (b (C.grp r))).data).sum) := by
  have e : (fun r => ((L (C.grp r)).fam (C.size (C.grp r)) (dt (C.grp r)) (a (C.grp r)) (C.idx r)).dotOn (C.base J r)
        ((L (C.grp r)).fam (C.size (C.grp r)) (dt (C.grp r)) (b (C.grp r)) (C.idx r)))
      = fun r => (C.base J r).on (((L (C.grp r)).fam (C.size (C.grp r)) (dt (C.grp r)) (a (C.grp r)) (C.idx r)).dot (C.base J r).b
        ((L (C.grp r)).fam (C.size (C.grp r)) (dt (C.grp r)) (b (C.grp r)) (C.idx r))) := funext fun r => dotOn_scatter _ (hp _)
  rw [e]
  have hnb : ∀ g, ¬ (L g).part.isBroadcast = true := fun g => by rw [hp]; simp [Partition.isBroadcast]
  exact C63_isolated (ps := fun g i => ((L g).fam (C.size g) (dt g) (a g) i).dot (env (C.size g) (fun i => J (C.glob g i)) i) ((L g).fam (C.size g) (dt g) (b g) i))
    (ρ := fun g _ => .ok (List.zipWith (· * ·) ((L g).global (C.size g) (dt g) (a g)).data ((L g).global (C.size g) (dt g) (b g)).data).sum)
    fun r hr => C07_dot (hL r hr) (hm _) (ha r hr) (hb r hr) (fun h => absurd h (hnb _)) fun h => absurd h (hnb _)

/-! ### `dot` of broadcast arrays -/

/-- the rows of the world's rank `q` in a balanced division of the first axis of an array of shape `g` among `n` ranks -/
def rowsOf (g : List Nat) (n q : Nat) (d : List K) : List K := (Layout.mk g .scatter 0 (balanced (len g 0) n) none).piece d q

/-- the broadcast arrays, one for each communicator, of shape `g` -/
def bcastFam (C : Comms n) (p : Partition) (g : List Nat) (ax : Nat) (dt : DType) (a : Nat → List K) (r : Nat) : DArr K :=
  { gshape := g, part := p, axis := ax, mask := none, sub := List.range (C.size (C.grp r)), lshape := g, dtype := dt, larr := ⟨g, dt, a (C.grp r)⟩ }

/-- **C63 is false** for `dot` of broadcast arrays: if each communicator `γ` holds broadcast arrays `a γ` and `b γ` (of one shape), `dot` adds up on the ranks of a
    communicator only the rows that belong to its members when the rows are divided among *all* ranks of the world. -/
theorem C63_dot_broadcast {p : Partition} {g : List Nat} {ax : Nat} {dt : DType} {a b : Nat → List K} (hp : p.isBroadcast = true) (hg : g ≠ [])
    (ha : ∀ r < n, (a (C.grp r)).length = g.prod ∧ FitsL dt (a (C.grp r))) (hb : ∀ r < n, (b (C.grp r)).length = g.prod ∧ FitsL dt (b (C.grp r))) :
    Always n (fun r => (bcastFam C p g ax dt a r).dotOn (C.base J r) (bcastFam C p g ax dt b r))
      (fun r => .ok ((C.mem (C.grp r)).map fun q => (List.zipWith (· * ·) (rowsOf g n q (a (C.grp r))) (rowsOf g n q (b (C.grp r)))).sum).sum) := by
  rcases Nat.eq_zero_or_pos n with rfl | hn
  · exact Runs.of_zero.always
  refine Runs.always ?_
  unfold DArr.dotOn
  simp only [Prog.bind_eq]
  have hc : ∀ r, (bcastFam C p g ax dt a r).checkCompat (bcastFam C p g ax dt b r) = .ret () := fun r => by simp [DArr.checkCompat, bcastFam]
  simp only [hc, Prog.ret_bind]
  have hs : ∀ (a : Nat → List K) r, (bcastFam C p g ax dt a r).toScatter (C.base J r).w p = toDist (env n J r) ⟨g, dt, a (C.grp r)⟩ .scatter 0 none none := fun a r => by
    unfold DArr.toScatter
    rw [if_pos hp]; rfl
  have hpp : ∀ (a : Nat → List K) r, (bcastFam C p g ax dt a r).part = p := fun _ _ => rfl
  simp only [hpp, hs]
  refine Runs.bind_ok (runs_toDist_any (J := J) (a := fun r => a (C.grp r)) hn hg (fun r hr => (ha r hr).1) fun r hr => (ha r hr).2) ?_
  refine Runs.bind_ok (runs_toDist_any (J := J) (a := fun r => b (C.grp r)) hn hg (fun r hr => (hb r hr).1) fun r hr => (hb r hr).2) ?_
  have hW : (Layout.mk g .scatter 0 (balanced (len g 0) n) none).WF n := ⟨List.length_pos_iff.2 hg, fun _ => psum_balanced_total _ hn, by simp⟩
  refine (runs_allreduce_sc_on C (J := J) (v := fun r => (List.zipWith (· * ·) (rowsOf g n r (a (C.grp r))) (rowsOf g n r (b (C.grp r)))).sum) (k := fun _ s => .ret s.val) (Runs.ret _)).congr
    (fun r hr => ?_) fun r hr => ?_
  · have : NDArray.dot ((Layout.mk g .scatter 0 (balanced (len g 0) n) none).fam n dt (fun r => (Layout.mk g .scatter 0 (balanced (len g 0) n) none).piece (a (C.grp r)) r) r).larr.flatten
        ((Layout.mk g .scatter 0 (balanced (len g 0) n) none).fam n dt (fun r => (Layout.mk g .scatter 0 (balanced (len g 0) n) none).piece (b (C.grp r)) r) r).larr.flatten
        = .ok (List.zipWith (· * ·) (rowsOf g n r (a (C.grp r))) (rowsOf g n r (b (C.grp r)))).sum := by
      simp only [NDArray.dot, NDArray.flatten, Layout.fam]
      exact if_pos ((length_piece hW (ha r hr).1 hr).trans (length_piece hW (hb r hr).1 hr).symm)
    rw [this]
    rfl
  · dsimp only
    congr 2
    refine List.map_congr_left fun q hq => ?_
    have hqn := C.lt _ _ hq
    rw [((C.iff q hqn _).1 hq).symm]

/-- two ranks, each with a communicator of its own (MPI.COMM_SELF) -/
def selfComms : Comms 2 where
  grp := id
  mem g := if g < 2 then [g] else []
  nodup g := by split_ifs <;> simp
  lt g q h := by
    split_ifs at h with h2
    · rw [List.mem_singleton.1 h]; exact h2
    · simp at h
  iff r hr g := by
    split_ifs with h
    · rw [List.mem_singleton]; exact eq_comm
    · simp only [List.not_mem_nil, false_iff, id]; omega

end

/-- **C63 is false** for `dot` of broadcast arrays: two ranks, each with the array (1, 1) on MPI.COMM_SELF; the dot product with itself is 2, `dot` returns 1. -/
theorem C63_violated_dot :
    Always 2 (fun r => (bcastFam selfComms .broadcast [2] 0 .real (fun _ => [(1 : ℚ), 1]) r).dotOn (selfComms.base (fun _ _ => 0) r)
        (bcastFam selfComms .broadcast [2] 0 .real (fun _ => [1, 1]) r)) (fun _ => .ok 1) ∧
      (List.zipWith (· * ·) [(1 : ℚ), 1] [1, 1]).sum = 2 := by
  refine ⟨((C63_dot_broadcast (C := selfComms) (J := fun _ _ => (0 : ℚ)) (p := .broadcast) (g := [2]) (ax := 0) (dt := .real) (a := fun _ => [1, 1]) (b := fun _ => [1, 1]) rfl (by simp)
    (fun _ _ => ⟨rfl, fun _ _ _ => rfl⟩) fun _ _ => ⟨rfl, fun _ _ _ => rfl⟩).runs.congr (fun _ _ => rfl) fun r hr => ?_).always, by norm_num⟩
  have h1 : ∀ q < 2, rowsOf [2] 2 q [(1 : ℚ), 1] = [1] := fun q hq => by
    match q, hq with
    | 0, _ => rfl
    | 1, _ => rfl
  have h2 : selfComms.mem (selfComms.grp r) = [r] := if_pos hr
  rw [h2, List.map_singleton, List.sum_singleton, h1 r hr]
  norm_num

section
variable {K : Type} {n : Nat} {C : Comms n} {J : Nat → Nat → K} [Field K] [StarRing K] [CharZero K]

/-- **C63 is false** for `dot` of broadcast arrays when not all ranks of the world call it: the ranks that call it wait forever. -/
theorem C63_dot_waits {p : Partition} {g : List Nat} {ax : Nat} {dt : DType} {a b : Nat → List K} (hp : p.isBroadcast = true) (hg : g ≠ []) {q : Nat} (hq : q < n)
    (calls : Nat → Prop) [DecidablePred calls] (hc : ¬ calls q) :
    Ends n (fun r => if calls r then (bcastFam C p g ax dt a r).dotOn (C.base J r) (bcastFam C p g ax dt b r) else .ret 0)
      (fun r => if calls r then none else some (.ok 0)) := by
  refine (HaltsE.now hq (by simp [hc]) fun r hr => ?_).ends
  by_cases h : calls r
  · rw [if_pos h, if_pos h]
    have h1 : (bcastFam C p g ax dt a r).checkCompat (bcastFam C p g ax dt b r) = .ret () := by simp [DArr.checkCompat, bcastFam]
    have h2 : (bcastFam C p g ax dt a r).toScatter (C.base J r).w (bcastFam C p g ax dt a r).part = toDist (env n J r) ⟨g, dt, a (C.grp r)⟩ .scatter 0 none none := by
      unfold DArr.toScatter
      rw [if_pos (show (bcastFam C p g ax dt a r).part.isBroadcast = true from hp)]; rfl
    have h0 : ¬ g.length ≤ 0 := by have := List.length_pos_iff.2 hg; omega
    unfold DArr.dotOn
    simp only [Prog.bind_eq, h1, Prog.ret_bind, h2]
    refine WaitsAll.bind ?_ _
    unfold toDist mkDArr
    simp only [Prog.bind_eq, if_neg h0, mkSub, Prog.ret_bind, checkLocalShapes, Option.getD_none, if_true]
    rw [if_neg (by simp [Partition.isBroadcast])]
    exact WaitsAll.bind ⟨_, _, _, rfl⟩ _
  · rw [if_neg h, if_neg h]
    rfl

/-- Non-vacuity of the waiting: on two ranks with communicators of their own only rank 0 calls `dot`. -/
example : Ends 2 (fun r => if r = 0 then (bcastFam selfComms .broadcast [2] 0 .real (fun _ => [(1 : ℚ), 1]) r).dotOn (selfComms.base (fun _ _ => 0) r)
        (bcastFam selfComms .broadcast [2] 0 .real (fun _ => [1, 1]) r) else .ret 0) (fun r => if r = 0 then none else some (.ok 0)) :=
  C63_dot_waits (C := selfComms) rfl (by simp) (q := 1) (by decide) (fun r => r = 0) (by decide)

/-! ### operations that raise ValueError -/

/-- the constructor on the world raises ValueError when it is given the local shapes of another number of ranks -/
theorem mkDArr_short {c : Ctx K} {g : List Nat} {p : Partition} {ls : List (List Nat)} {dt : DType} (hg : g ≠ []) (h0 : ls ≠ []) (h : ls.length ≠ c.size) :
    mkDArr c g p 0 (some ls) none dt = .throw .value := by
  have hl : ¬ g.length ≤ 0 := by have := List.length_pos_iff.2 hg; omega
  unfold mkDArr
  simp only [Prog.bind_eq, if_neg hl, mkSub, Prog.ret_bind, checkLocalShapes, Option.getD_some, if_neg h0, if_pos h]
  rfl

theorem size_pos {r : Nat} (hr : r < n) : 0 < C.size (C.grp r) := Nat.lt_of_le_of_lt (Nat.zero_le _) (Comms.idx_lt hr)

/-- **C63 is false** for `ravel` (of arrays without mask): on communicators with fewer ranks than the world it raises ValueError on all ranks, for all arrays. -/
theorem C63_ravel {d : Nat → DArr K} (hm : ∀ r < n, (d r).mask = none) (hk : ∀ r < n, C.size (C.grp r) ≠ n) :
    Always n (fun r => (d r).ravelOn (C.base J r)) (fun _ => .error .value) := by
  refine Runs.always ?_
  unfold DArr.ravelOn DArr.localShapes
  simp only [Prog.bind_eq]
  refine runs_allgather_on C (J := J) (v := fun r => (d r).lshape) ?_
  refine (Runs.throw fun _ => .value).congr (fun r hr => ?_) fun _ _ => rfl
  have h0 := size_pos (C := C) hr
  rw [hm r hr, mkDArr_short (by simp) (by simp only [ne_eq, List.map_eq_nil_iff]; exact List.length_pos_iff.1 h0) (by rw [List.length_map, List.length_map]; exact hk r hr)]
  rfl

theorem reshapedOn_short {B : BCtx K} {g : List Nat} {ls : List (List Nat)} {f : DArr K → P K (DArr K)} {x : DArr K} (hg : g ≠ []) (h0 : ls ≠ []) (h : ls.length ≠ B.w.size) :
    reshapedOn B g (some ls) f x = .throw .value := by
  unfold reshapedOn redistributeOn
  by_cases hp : x.part ≠ .scatter
  · rw [if_pos hp]; rfl
  · rw [if_neg hp]
    simp only [Prog.bind_eq, mkDArr_short hg h0 h]
    rfl

/-- **C63 is false** for MPIBlockDiag: on communicators with fewer ranks than the world the operator can be constructed, but `matvec` and `rmatvec` raise ValueError on all
    ranks, for all operators and all inputs. -/
theorem C63_blockDiag {ops : Nat → List (LOp K)} {mask : Option (List Nat)} {dtype : Option DType} {b : Bool} {x : Nat → DArr K} (h0 : ∀ r < n, ops r ≠ [])
    (hx : ∀ r < n, (x r).gshape ≠ []) (hk : ∀ r < n, C.size (C.grp r) ≠ n) :
    Always n (fun r => do
        let _ ← mkBlockDiagOn (C.base J r) (ops r) mask dtype
        .ret ()) (fun _ => .ok ()) ∧
    Always n (fun r => do
        let A ← mkBlockDiagOn (C.base J r) (ops r) mask dtype
        if b then A.rmv (x r) else A.mv (x r)) (fun _ => .error .value) := by
  have main : ∀ {β : Type} {k : Nat → PrimOn K → P K β} {σ}, Runs n (fun r => k r ⟨blockDiagMvOn (ops r) mask ((opsDType (ops r) dtype).toOption.getD .real) false
        ((C.mem (C.grp r)).map fun q => [((ops q).map (·.cols)).sum]) ((C.mem (C.grp r)).map fun q => [((ops q).map (·.rows)).sum])
        ((C.mem (C.grp r)).map fun q => ((ops q).map (·.rows)).sum).sum (C.base J r),
      blockDiagMvOn (ops r) mask ((opsDType (ops r) dtype).toOption.getD .real) true
        ((C.mem (C.grp r)).map fun q => [((ops q).map (·.rows)).sum]) ((C.mem (C.grp r)).map fun q => [((ops q).map (·.cols)).sum])
        ((C.mem (C.grp r)).map fun q => ((ops q).map (·.cols)).sum).sum (C.base J r)⟩) σ →
      Runs n (fun r => (mkBlockDiagOn (C.base J r) (ops r) mask dtype).bind (k r)) σ := by
    intro β k σ h
    unfold mkBlockDiagOn
    simp only [Prog.bind_eq, Prog.bind_assoc]
    refine runs_allgather_on C (J := J) (v := fun r => [((ops r).map (·.cols)).sum]) ?_
    refine runs_allgather_on C (J := J) (v := fun r => [((ops r).map (·.rows)).sum]) ?_
    refine runs_allreduce_nat_on C (J := J) (v := fun r => ((ops r).map (·.rows)).sum) ?_
    refine runs_allreduce_nat_on C (J := J) (v := fun r => ((ops r).map (·.cols)).sum) ?_
    refine h.congr (fun r hr => ?_) fun _ _ => rfl
    have : ∃ dt, opsDType (ops r) dtype = .ok dt := by
      cases dtype with
      | some dt => exact ⟨dt, rfl⟩
      | none =>
        cases e : ops r with
        | nil => exact absurd e (h0 r hr)
        | cons o os => exact ⟨_, rfl⟩
    obtain ⟨dt, e⟩ := this
    rw [e]
    rfl
  refine ⟨(main (k := fun _ _ => .ret ()) (Runs.ret _)).always, (main (k := fun r A => if b then A.rmv (x r) else A.mv (x r))
    ((Runs.throw fun _ => .value).congr (fun r hr => ?_) fun _ _ => rfl)).always⟩
  have h1 := List.length_pos_iff.1 (size_pos (C := C) hr)
  cases b with
  | false => exact (reshapedOn_short (hx r hr) (by simpa using h1) (by rw [List.length_map]; exact hk r hr)).symm
  | true => exact (reshapedOn_short (hx r hr) (by simpa using h1) (by rw [List.length_map]; exact hk r hr)).symm

/-- **C63 is false** for MPIVStack (and MPIHStack, its adjoint): on communicators with fewer ranks than the world the operator can be constructed, but `matvec` and `rmatvec`
    raise ValueError on all ranks, for all operators and all inputs. -/
theorem C63_vstack {ops : Nat → List (LOp K)} {dtype : Option DType} {N : Nat → Nat} {b : Bool} {x : Nat → DArr K} (h0 : ∀ r < n, ops r ≠ [])
    (hN : ∀ r < n, ∀ o ∈ ops r, o.cols = N (C.grp r)) (hx : ∀ r < n, (x r).gshape ≠ []) (hk : ∀ r < n, C.size (C.grp r) ≠ n) :
    Always n (fun r => do
        let _ ← mkVStackOn (C.base J r) (ops r) dtype
        .ret ()) (fun _ => .ok ()) ∧
    Always n (fun r => do
        let A ← mkVStackOn (C.base J r) (ops r) dtype
        if b then A.rmv (x r) else A.mv (x r)) (fun _ => .error .value) := by
  have main : ∀ {β : Type} {k : Nat → PrimOn K → P K β} {σ}, Runs n (fun r => k r ⟨vstackMvOn (ops r) ((opsDType (ops r) dtype).toOption.getD .real)
        ((C.mem (C.grp r)).map fun q => [((ops q).map (·.rows)).sum]) ((C.mem (C.grp r)).map fun q => ((ops q).map (·.rows)).sum).sum (C.base J r),
      vstackRmvOn (ops r) ((opsDType (ops r) dtype).toOption.getD .real)
        ((C.mem (C.grp r)).map fun q => [((ops q).map (·.rows)).sum]) (N (C.grp r)) (C.base J r)⟩) σ →
      Runs n (fun r => (mkVStackOn (C.base J r) (ops r) dtype).bind (k r)) σ := by
    intro β k σ h
    unfold mkVStackOn
    simp only [Prog.bind_eq, Prog.bind_assoc]
    refine runs_allgather_on C (J := J) (v := fun r => [((ops r).map (·.rows)).sum]) ?_
    refine runs_allgather_on C (J := J) (v := fun r => (ops r).map (·.cols)) ?_
    have hms : ∀ r < n, ∃ m, ((C.mem (C.grp r)).map fun q => (ops q).map (·.cols)).flatten = N (C.grp r) :: List.replicate m (N (C.grp r)) := by
      intro r hr
      have hall : ∀ y ∈ ((C.mem (C.grp r)).map fun q => (ops q).map (·.cols)).flatten, y = N (C.grp r) := by
        intro y hy
        obtain ⟨l, hl, hy⟩ := List.mem_flatten.1 hy
        obtain ⟨q, hq, rfl⟩ := List.mem_map.1 hl
        obtain ⟨o, ho, rfl⟩ := List.mem_map.1 hy
        rw [hN q (C.lt _ _ hq) o ho, ((C.iff q (C.lt _ _ hq) _).1 hq).symm]
      have hpos : ((C.mem (C.grp r)).map fun q => (ops q).map (·.cols)).flatten ≠ [] := by
        intro e
        rw [List.flatten_eq_nil_iff] at e
        have := e ((ops r).map (·.cols)) (List.mem_map.2 ⟨r, Comms.mem_grp hr, rfl⟩)
        exact h0 r hr (List.map_eq_nil_iff.1 this)
      obtain ⟨y, l, e⟩ := List.exists_cons_of_ne_nil hpos
      refine ⟨l.length, ?_⟩
      rw [e] at hall ⊢
      rw [hall y (by simp)]
      congr 1
      exact List.eq_replicate_iff.2 ⟨rfl, fun z hz => hall z (by simp [hz])⟩
    refine Runs.congr (ps := fun r => ((C.base J r).on (allreduce (C.base J r).b.world (fun a b => .ok (a + b)) ((ops r).map (·.rows)).sum)).bind fun M =>
      (Prog.lift (opsDType (ops r) dtype)).bind fun dt => k r ⟨vstackMvOn (ops r) dt ((C.mem (C.grp r)).map fun q => [((ops q).map (·.rows)).sum]) M (C.base J r),
        vstackRmvOn (ops r) dt ((C.mem (C.grp r)).map fun q => [((ops q).map (·.rows)).sum]) (N (C.grp r)) (C.base J r)⟩) ?_ (fun r hr => ?_) fun _ _ => rfl
    · refine runs_allreduce_nat_on C (J := J) (v := fun r => ((ops r).map (·.rows)).sum) ?_
      refine h.congr (fun r hr => ?_) fun _ _ => rfl
      have : ∃ dt, opsDType (ops r) dtype = .ok dt := by
        cases dtype with
        | some dt => exact ⟨dt, rfl⟩
        | none =>
          cases e : ops r with
          | nil => exact absurd e (h0 r hr)
          | cons o os => exact ⟨_, rfl⟩
      obtain ⟨dt, e⟩ := this
      rw [e]
      rfl
    · obtain ⟨m, e⟩ := hms r hr
      rw [e]
      dsimp only
      rw [if_neg (by simp)]
      simp only [Prog.bind_assoc, Prog.ret_bind]
  refine ⟨(main (k := fun _ _ => .ret ()) (Runs.ret _)).always, (main (k := fun r A => if b then A.rmv (x r) else A.mv (x r))
    ((Runs.throw fun _ => .value).congr (fun r hr => ?_) fun _ _ => rfl)).always⟩
  have h1 := List.length_pos_iff.1 (size_pos (C := C) hr)
  cases b with
  | false =>
    show _ = vstackMvOn _ _ _ _ _ _
    unfold vstackMvOn
    by_cases hp : (x r).part.isBroadcast = true
    · rw [if_neg (by simpa using hp)]
      simp only [Prog.bind_eq]
      rw [mkDArr_short (by simp) (by simpa using h1) (by rw [List.length_map]; exact hk r hr)]
      rfl
    · rw [if_pos (by simpa using hp)]
  | true => exact (reshapedOn_short (hx r hr) (by simpa using h1) (by rw [List.length_map]; exact hk r hr)).symm

/-! ### the `reshaped` decorator with the default local shapes: derivative operators -/

/-- **C63 is false** for the operators with the `reshaped` decorator (derivatives): on communicators with more than one rank but fewer ranks than the world `matvec` and
    `rmatvec` raise ValueError on all ranks, for all inputs (`f` is the body of the operator). -/
theorem C63_reshaped {g : List Nat} {f : Nat → DArr K → P K (DArr K)} {x : Nat → DArr K} (hn : 0 < n) (hg : g ≠ []) (hx : ∀ r < n, (x r).part = .scatter)
    (hk : ∀ r < n, 1 < C.size (C.grp r) ∧ C.size (C.grp r) < n) (hdt : ∀ r < n, (x r).dtype = (x 0).dtype) :
    Always n (fun r => reshapedOn (C.base J r) g none (f r) (x r)) (fun _ => .error .value) := by
  refine Runs.always ?_
  have h0 : 0 < g.length := List.length_pos_iff.2 hg
  set L : Layout := ⟨g, .scatter, 0, balanced (len g 0) n, none⟩ with hLd
  have hL : L.WF n := ⟨h0, fun _ => psum_balanced_total _ hn, by simp [hLd]⟩
  have hxe : ∀ r < n, x r = { x r with part := .scatter, dtype := (x 0).dtype } := fun r hr => by
    have h1 := hx r hr
    have h2 := hdt r hr
    generalize x r = y at *
    generalize (x 0).dtype = t at *
    cases y
    simp only at h1 h2
    subst h1 h2
    rfl
  refine Runs.congr (ps := fun r => reshapedOn (C.base J r) g none (f r) { x r with part := .scatter, dtype := (x 0).dtype }) ?_ (fun r hr => by rw [← hxe r hr]) fun _ _ => rfl
  unfold reshapedOn redistributeOn
  simp only [ne_eq, not_true_eq_false, if_false, Prog.bind_eq, Prog.bind_assoc]
  refine Runs.bind_ok (runs_mkDArr_none (J := J) (L := L) (dt := (x 0).dtype) hL fun _ => rfl) ?_
  refine runs_allgather (J := J) (v := fun r => (L.fam n (x 0).dtype (junkData J L (x 0).dtype) r).lshape.prod) ?_
  refine runs_allgather_on C (J := J) (v := fun r => (x r).lshape.prod) ?_
  refine (Runs.throw fun _ => .value).congr (fun r hr => ?_) fun _ _ => rfl
  have hs : ((C.mem (C.grp r)).map fun r => (x r).lshape.prod).length = C.size (C.grp r) := by rw [List.length_map]; rfl
  have := hk r hr
  unfold bsub
  rw [hs, List.length_map, List.length_range, if_neg (by omega), if_neg (by omega), if_neg (by omega)]
  rfl

theorem cumsum_nonpos {l : List Int} (h : ∀ x ∈ l, x ≤ 0) : ∀ x ∈ cumsum l, x ≤ 0 := by
  induction l with
  | nil => simp [cumsum]
  | cons y l ih =>
    intro x hx
    have hy := h y (by simp)
    rcases List.mem_cons.1 hx with rfl | hx
    · exact hy
    · obtain ⟨z, hz, rfl⟩ := List.mem_map.1 hx
      have := ih (fun x hx => h x (by simp [hx])) z hz
      omega

theorem ghost_single {J : Nat → Nat → K} {d : DArr K} {F G : Nat} : Runs 1 (fun r => d.addGhostCells (env 1 J r) (some F) (some G)) (fun _ => .ok d.larr) := by
  unfold DArr.addGhostCells DArr.ghostFront DArr.ghostBack
  simp only [Prog.bind_eq, Prog.bind_assoc]
  refine runs_allgather (J := J) (v := fun _ => F) ?_
  refine Runs.congr (ps := fun r => (allgather (env 1 J r) G).bind fun _ => .ret d.larr) (runs_allgather (J := J) (v := fun _ => G) (k := fun _ _ => .ret d.larr) (Runs.ret _))
    (fun r hr => ?_) fun _ _ => rfl
  have : r = 0 := by omega
  subst this
  rfl

/-- **C63 is false** for the operators with the `reshaped` decorator on communicators of one rank (MPI.COMM_SELF): the operator gets, on each rank of the world, the first rows of
    the rank's own input instead of the whole input, without an error (if the rows divide evenly among the ranks of the world). -/
theorem C63_reshaped_self {m w : Nat} {a : Nat → List K} {dt : DType} (hn : 1 < n) (hk : ∀ r < n, C.size (C.grp r) = 1) (hm : ∀ r < n, (a r).length = n * m * w) (hf : ∀ r < n, FitsL dt (a r)) :
    Always n (fun r => redistributeOn (C.base J r) [n * m, w] none ((Layout.mk [n * m * w] .scatter 0 (fun _ => n * m * w) none).fam 1 dt (fun _ => a r) 0))
      (fun r => .ok ((Layout.mk [n * m, w] .scatter 0 (fun _ => m) none).fam n dt (fun q => (a q).take (m * w)) r)) := by
  refine Runs.always ?_
  set L : Layout := ⟨[n * m, w], .scatter, 0, fun _ => m, none⟩ with hLd
  set X : Layout := ⟨[n * m * w], .scatter, 0, fun _ => n * m * w, none⟩ with hXd
  have hbal : balanced (n * m) n = fun _ => m := by
    funext r
    unfold balanced
    rw [if_neg (by simp), Nat.mul_div_cancel_left _ (by omega)]
  have hL : L.WF n := ⟨by simp [hLd], fun _ => by
    show psum (fun _ => m) n = n * m
    rw [← hbal, psum_balanced_total _ (by omega)], by simp [hLd]⟩
  have hmem : ∀ r < n, C.mem (C.grp r) = [r] := fun r hr => by
    obtain ⟨y, e⟩ := List.length_eq_one_iff.1 (hk r hr)
    have := Comms.mem_grp (C := C) hr
    rw [e] at this ⊢
    rw [List.mem_singleton.1 this]
  have hidx : ∀ r < n, C.idx r = 0 := fun r hr => by
    have := Comms.idx_lt (C := C) hr
    rw [hk r hr] at this
    omega
  unfold redistributeOn
  have hpt : ∀ r, ¬ (X.fam 1 dt (fun _ => a r) 0).part ≠ .scatter := fun r => not_not.2 rfl
  simp only [if_neg (hpt _), Prog.bind_eq]
  refine Runs.bind_ok (runs_mkDArr_none (J := J) (L := L) (dt := dt) hL fun _ => hbal.symm) ?_
  refine runs_allgather (J := J) (v := fun r => (L.fam n dt (junkData J L dt) r).lshape.prod) ?_
  refine runs_allgather_on C (J := J) (v := fun r => (X.fam 1 dt (fun _ => a r) 0).lshape.prod) ?_
  set c : Int := ((m * w : Nat) : Int) - ((n * m * w : Nat) : Int) with hc
  have hc0 : c ≤ 0 := by
    have : m * w ≤ n * m * w := by rw [Nat.mul_assoc]; exact Nat.le_mul_of_pos_left _ (by omega)
    omega
  have hal : (List.range n).map (fun r => (L.fam n dt (junkData J L dt) r).lshape.prod) = List.replicate n (m * w) := by
    refine List.eq_replicate_iff.2 ⟨by simp, fun x hx => ?_⟩
    obtain ⟨q, -, rfl⟩ := List.mem_map.1 hx
    show (L.lshape q).prod = _
    rw [lshape_scatter rfl]
    simp [hLd]
  have hxl : ∀ r, (X.fam 1 dt (fun _ => a r) 0).lshape.prod = n * m * w := fun r => by
    show (X.lshape 0).prod = _
    rw [lshape_scatter rfl]
    simp [hXd]
  have hsub : bsub (List.replicate n (m * w)) [n * m * w] = .ok (List.replicate n c) := by
    unfold bsub
    rw [List.length_replicate, if_neg (by simp; omega), if_pos (show [n * m * w].length = 1 from rfl), List.map_replicate]
    rfl
  have hle := cumsum_nonpos (l := List.replicate n c) fun x hx => by rw [(List.mem_replicate.1 hx).2]; exact hc0
  have hlast : pyPrev (cumsum (List.replicate n c)) 0 ≤ 0 := by
    unfold pyPrev
    rw [if_pos rfl]
    rw [List.getLastD_eq_getLast?]
    cases e : (cumsum (List.replicate n c)).getLast? with
    | none => simp
    | some y => exact hle y (List.mem_of_getLast? e)
  have hfst : (cumsum (List.replicate n c)).getD 0 0 ≤ 0 := by
    obtain ⟨k, rfl⟩ : ∃ k, n = k + 1 := ⟨n - 1, by omega⟩
    rw [List.replicate_succ]
    exact hc0
  refine Runs.congr (ps := fun r => ((C.base J r).on ((X.fam 1 dt (fun _ => a r) 0).addGhostCells (C.base J r).b
      (some (min 0 (pyPrev (cumsum (List.replicate n c)) 0)).natAbs) (some 0))).bind fun g =>
      (Prog.lift ((g.slice 0 0 (m * w + 0)).reshape (L.fam n dt (junkData J L dt) r).lshape)).bind fun v => (L.fam n dt (junkData J L dt) r).setAll (env n J r) v)
    ?_ (fun r hr => ?_) fun _ _ => rfl
  · refine (Runs.on_ok C (J := J) (a := fun g _ => (X.fam 1 dt (fun _ => a (C.glob g 0)) 0).larr) (ps := fun g i => (X.fam 1 dt (fun _ => a (C.glob g 0)) 0).addGhostCells
        (env (C.size g) (fun i => J (C.glob g i)) i) (some (min 0 (pyPrev (cumsum (List.replicate n c)) 0)).natAbs) (some 0))
      (k := fun r g => (Prog.lift ((g.slice 0 0 (m * w + 0)).reshape (L.fam n dt (junkData J L dt) r).lshape)).bind fun v => (L.fam n dt (junkData J L dt) r).setAll (env n J r) v)
      (fun r hr => ?_) ?_).congr (fun r hr => ?_) fun _ _ => rfl
    · rw [hk r hr]
      exact ghost_single
    · have hgl : ∀ r < n, C.glob (C.grp r) 0 = r := fun r hr => by rw [← hidx r hr]; exact Comms.glob_idx hr
      refine (runs_setAll_good (J := J) (L := L) (dt := dt) (a := junkData J L dt) (v := fun r => ⟨L.lshape r, dt, (a r).take (m * w)⟩) (fun r _ => length_junk r)
        (fun r _ => rfl) ⟨fun r hr => ?_, fun r hr h x hx => hf r hr h x (List.mem_of_mem_take hx), fun h => by simp [hLd] at h⟩).congr (fun r hr => ?_) fun _ _ => rfl
      · rw [List.length_take, hm r hr, lshape_scatter rfl]
        have : m * w ≤ n * m * w := by rw [Nat.mul_assoc]; exact Nat.le_mul_of_pos_left _ (by omega)
        simp [hLd, this]
      · have hle : m * w ≤ n * m * w := by rw [Nat.mul_assoc]; exact Nat.le_mul_of_pos_left _ (by omega)
        have hlr : (X.fam 1 dt (fun _ => a r) 0).larr = ⟨[n * m * w], dt, a r⟩ := by
          show (⟨X.lshape 0, dt, a r⟩ : NDArray K) = _
          rw [lshape_scatter rfl]
          rfl
        have hsd : sliceData [n * m * w] 0 0 (0 + m * w) (a r) = (a r).take (m * w) := by
          rw [sliceData_zero (s := []) (by simpa using hm r hr)]
          simp [slab]
        have hsl : ((X.fam 1 dt (fun _ => a r) 0).larr.slice 0 0 (m * w + 0)).reshape (L.lshape r) = .ok ⟨L.lshape r, dt, (a r).take (m * w)⟩ := by
          rw [hlr]
          unfold NDArray.slice NDArray.reshape
          rw [Nat.add_comm, hsd, if_pos]
          rw [List.length_take, hm r hr, lshape_scatter rfl]
          simp [hLd, hle]
        rw [hgl r hr]
        show _ = (Prog.lift (((X.fam 1 dt (fun _ => a r) 0).larr.slice 0 0 (m * w + 0)).reshape (L.lshape r))).bind _
        rw [hsl]
        rfl
    · show _ = ((C.base J r).on ((X.fam 1 dt (fun _ => a r) 0).addGhostCells (C.base J r).b _ _)).bind _
      have hgl : C.glob (C.grp r) 0 = r := by rw [← hidx r hr]; exact Comms.glob_idx hr
      simp only [hgl]
      rfl
  · rw [hmem r hr, List.map_singleton, hxl, hal, hsub]
    have hrk : (C.base J r).b.rank = 0 := hidx r hr
    have hg0 : (List.replicate n (m * w)).getD 0 0 = m * w := by
      obtain ⟨k, rfl⟩ : ∃ k, n = k + 1 := ⟨n - 1, by omega⟩
      rfl
    simp only [Prog.lift_ok, Prog.ret_bind, hrk, max_eq_left hlast, max_eq_left hfst, hg0]
    rfl

/-- Non-vacuity: two ranks with communicators of their own and the inputs (1, 2, 3, 4) and (5, 6, 7, 8); the operator gets (1, 2) and (5, 6), as if they were the two parts of
    one array. -/
example : Always 2 (fun r => redistributeOn (selfComms.base (fun _ _ => (0 : ℚ)) r) [4, 1] none
      ((Layout.mk [4] .scatter 0 (fun _ => 4) none).fam 1 .real (fun _ => if r = 0 then [1, 2, 3, 4] else [5, 6, 7, 8]) 0))
    (fun r => .ok ((Layout.mk [4, 1] .scatter 0 (fun _ => 2) none).fam 2 .real (fun q => if q = 0 then [1, 2] else [5, 6]) r)) := by
  refine ((C63_reshaped_self (C := selfComms) (J := fun _ _ => (0 : ℚ)) (m := 2) (w := 1) (a := fun r => if r = 0 then [1, 2, 3, 4] else [5, 6, 7, 8]) (dt := .real) (by decide)
    (fun r hr => ?_) (fun r _ => by split_ifs <;> rfl) fun r _ => fun _ _ _ => rfl).runs.congr (fun _ _ => rfl) fun r hr => ?_).always
  · match r, hr with
    | 0, _ => rfl
    | 1, _ => rfl
  · match r, hr with
    | 0, _ => rfl
    | 1, _ => rfl

/-! ### Fredholm integral -/

/-- the results that the communicators assign to the array on the world: the one of the communicator of rank 0 is kept on all ranks -/
theorem fredMvOn_runs {o : Nat → Fred K} {b : Bool} {x : Nat → DArr K} {N : Nat} {dt : DType} {t : Nat → DType} {v : Nat → List K} (hx : ∀ r < n, (x r).part.isBroadcast = true)
    (hN : ∀ r < n, (o r).tot * (if b then (o r).ny else (o r).nx) * (o r).nz = N) (hdt : ∀ r < n, (o r).dt = dt)
    (hv : ∀ r < n, Runs (C.size (C.grp r)) (fun i => fredValue (o (C.glob (C.grp r) i)) b (env (C.size (C.grp r)) (fun i => J (C.glob (C.grp r) i)) i) (x (C.glob (C.grp r) i)).larr)
      (fun _ => .ok ⟨[N], t (C.grp r), v (C.grp r)⟩)) (hl : ∀ r < n, (v (C.grp r)).length = N) (hf : ∀ r < n, FitsL dt (v (C.grp r))) :
    Runs n (fun r => fredMvOn (o r) b (C.base J r) (x r)) (fun r => .ok (VSpace.vec ⟨.all N, dt⟩ n (v (C.grp 0)) r)) := by
  have hW : (Layout.all N).WF n := all_wf rfl
  refine Runs.congr (ps := fun r => (mkDArr (env n J r) (Layout.all N).gshape (Layout.all N).part (Layout.all N).axis none (Layout.all N).mask dt).bind fun y =>
      ((C.base J r).on (fredValue (o r) b (C.base J r).b (x r).larr)).bind fun v => y.setAll (env n J r) v) ?_ (fun r hr => ?_) fun _ _ => rfl
  · refine Runs.bind_ok (runs_mkDArr_none (J := J) (L := .all N) (dt := dt) hW (fun h => by simp [Layout.all] at h)) ?_
    refine (Runs.on_ok C (J := J) (a := fun g _ => (⟨[N], t g, v g⟩ : NDArray K))
      (ps := fun g i => fredValue (o (C.glob g i)) b (env (C.size g) (fun i => J (C.glob g i)) i) (x (C.glob g i)).larr)
      (k := fun r v => ((Layout.all N).fam n dt (junkData J (Layout.all N) dt) r).setAll (env n J r) v) hv ?_).congr (fun r hr => ?_) fun _ _ => rfl
    · refine (runs_setAll (J := J) (L := .all N) (dt := dt) (a := junkData J (Layout.all N) dt) (v := fun r => ⟨[N], t (C.grp r), v (C.grp r)⟩) (fun r _ => length_junk r)
        (fun r _ => by rw [lshape_bcast rfl]; rfl) fun r hr => ?_).congr (fun _ _ => rfl) fun r hr => ?_
      · rw [lshape_bcast rfl]; simpa [Layout.all] using hl r hr
      · have h0 : 0 < n := Nat.lt_of_le_of_lt (Nat.zero_le _) hr
        have e : (v (C.grp 0)).map (castTo dt) = v (C.grp 0) := castTo_of_fits (hf 0 h0)
        have e2 : (Layout.all N).sync (fun q => v (C.grp q)) = fun _ => v (C.grp 0) := if_pos rfl
        dsimp only
        rw [e2]
        dsimp only
        rw [e]
        rfl
    · simp only [Comms.glob_idx hr]
      rfl
  · unfold fredMvOn
    rw [if_neg (not_not.2 (hx r hr)), hN r hr, hdt r hr]
    rfl

/-- **C63 is false** for MPIFredholm1: if every communicator `γ` applies its own operator (kernel `g γ`, distributed over its ranks) to its own broadcast input `d γ` and the
    numbers of slices agree, then the result on *all* ranks is the one of the communicator of rank 0 of the world, without an error. -/
theorem C63_fredholm {p : Partition} {sz : Nat → Nat → Nat} {S nx ny nz : Nat} {sg um : Bool} {dG dt dx : DType} {g d : Nat → List K} {b : Bool} (hp : p.isBroadcast = true)
    (hS : ∀ r < n, psum (sz (C.grp r)) (C.size (C.grp r)) = S) (h1 : ∀ r < n, ∀ i < C.size (C.grp r), sz (C.grp r) i ≠ 1)
    (hg : ∀ r < n, (g (C.grp r)).length = S * (nx * ny) ∧ FitsL dt (g (C.grp r))) (hn1 : (if b then nx else ny) ≠ 1)
    (hu : um = true ∨ (if b then ny else nx) ≠ 1 ∨ nz ≠ 1)
    (hd : ∀ r < n, (d (C.grp r)).length = S * ((if b then nx else ny) * nz) ∧ FitsL dt (d (C.grp r))) :
    Always n (fun r => fredMvOn (fredObj (C.size (C.grp r)) (sz (C.grp r)) nx ny nz sg um dG dt (g (C.grp r)) (C.idx r)) b (C.base J r)
        (bcastFam C p [S * (if b then nx else ny) * nz] 0 dx d r))
      (fun r => .ok (VSpace.vec ⟨.all (S * (if b then ny else nx) * nz), dt⟩ n ((if b then fredholmAdj S nx ny nz (g (C.grp 0)) else fredholm S nx ny nz (g (C.grp 0))) (d (C.grp 0))) r)) := by
  have key : ∀ r < n, ∃ t, Runs (C.size (C.grp r)) (fun i => fredValue (fredObj (C.size (C.grp r)) (sz (C.grp r)) nx ny nz sg um dG dt (g (C.grp r)) i) b
        (env (C.size (C.grp r)) (fun i => J (C.glob (C.grp r) i)) i) ⟨[S * (if b then nx else ny) * nz], dx, d (C.grp r)⟩)
      (fun _ => .ok ⟨[S * (if b then ny else nx) * nz], t, (if b then fredholmAdj S nx ny nz (g (C.grp r)) else fredholm S nx ny nz (g (C.grp r))) (d (C.grp r))⟩) ∧
      ((if b then fredholmAdj S nx ny nz (g (C.grp r)) else fredholm S nx ny nz (g (C.grp r))) (d (C.grp r))).length = S * (if b then ny else nx) * nz ∧
      FitsL dt ((if b then fredholmAdj S nx ny nz (g (C.grp r)) else fredholm S nx ny nz (g (C.grp r))) (d (C.grp r))) := by
    intro r hr
    have := runs_fredValue (J := fun i => J (C.glob (C.grp r) i)) (sz := sz (C.grp r)) (nz := nz) (sg := sg) (um := um) (dG := dG) (dt := dt) (dx := dx) (d := d (C.grp r))
      (size_pos (C := C) hr) (h1 r hr) (by rw [hS r hr]; exact (hg r hr).1) (hg r hr).2 b hn1 (by tauto) (by rw [hS r hr]; exact (hd r hr).1) (hd r hr).2
    rwa [hS r hr] at this
  haveI : Nonempty DType := ⟨.real⟩
  have key' : ∀ γ, ∃ t, (∃ r < n, C.grp r = γ) → Runs (C.size γ) (fun i => fredValue (fredObj (C.size γ) (sz γ) nx ny nz sg um dG dt (g γ) i) b
        (env (C.size γ) (fun i => J (C.glob γ i)) i) ⟨[S * (if b then nx else ny) * nz], dx, d γ⟩)
      (fun _ => .ok ⟨[S * (if b then ny else nx) * nz], t, (if b then fredholmAdj S nx ny nz (g γ) else fredholm S nx ny nz (g γ)) (d γ)⟩) := by
    intro γ
    by_cases h : ∃ r < n, C.grp r = γ
    · obtain ⟨r, hr, rfl⟩ := h
      obtain ⟨t, ht, -⟩ := key r hr
      exact ⟨t, fun _ => ht⟩
    · exact ⟨.real, fun h' => absurd h' h⟩
  choose t ht using key'
  refine Runs.always (fredMvOn_runs (t := t) (v := fun γ => (if b then fredholmAdj S nx ny nz (g γ) else fredholm S nx ny nz (g γ)) (d γ))
    (fun r _ => hp) (fun r hr => ?_) (fun _ _ => rfl) (fun r hr => ?_) (fun r hr => ?_) fun r hr => ?_)
  · show psum (sz (C.grp r)) (C.size (C.grp r)) * (if b then ny else nx) * nz = _
    rw [hS r hr]
  · refine (ht (C.grp r) ⟨r, hr, rfl⟩).congr (fun i hi => ?_) fun _ _ => rfl
    simp only [bcastFam, Comms.grp_glob hi, Comms.idx_glob hi]
  · obtain ⟨_, _, h, _⟩ := key r hr; exact h
  · obtain ⟨_, _, _, h⟩ := key r hr; exact h

/-- Two ranks, each with an operator of its own on MPI.COMM_SELF: rank 0 with the kernel slices (1, 0) and (0, 1), rank 1 with (2, 2) and (2, 2), both with the input (1, 2), (3, 4).
    The results are (1, 4) and (6, 14), but rank 1 gets (1, 4), too. -/
theorem C63_violated_fredholm :
    Always 2 (fun r => fredMvOn (fredObj 1 (fun _ => 2) 1 2 1 false true .real .real (if r = 0 then [(1 : ℚ), 0, 0, 1] else [2, 2, 2, 2]) 0) false (selfComms.base (fun _ _ => 0) r)
        (bcastFam selfComms .broadcast [4] 0 .real (fun _ => [1, 2, 3, 4]) r)) (fun r => .ok (VSpace.vec ⟨.all 2, .real⟩ 2 [(1 : ℚ), 4] r)) ∧
      fredholm 2 1 2 1 [(2 : ℚ), 2, 2, 2] [1, 2, 3, 4] = [6, 14] := by
  refine ⟨((C63_fredholm (C := selfComms) (J := fun _ _ => (0 : ℚ)) (p := .broadcast) (sz := fun _ _ => 2) (S := 2) (nx := 1) (ny := 2) (nz := 1) (sg := false) (um := true) (dG := .real)
    (dt := .real) (dx := .real) (g := fun γ => if γ = 0 then [(1 : ℚ), 0, 0, 1] else [2, 2, 2, 2]) (d := fun _ => [1, 2, 3, 4]) (b := false) rfl (fun r hr => ?_) (fun _ _ _ _ => by decide)
    (fun r _ => ⟨by split_ifs <;> rfl, fun _ _ _ => rfl⟩) (by decide) (Or.inl rfl) fun _ _ => ⟨rfl, fun _ _ _ => rfl⟩).runs.congr (fun r hr => ?_) fun r _ => ?_).always, by decide +kernel⟩
  · match r, hr with
    | 0, _ => rfl
    | 1, _ => rfl
  · match r, hr with
    | 0, _ => rfl
    | 1, _ => rfl
  · have : fredholm 2 1 2 1 [(1 : ℚ), 0, 0, 1] [1, 2, 3, 4] = [1, 4] := by decide +kernel
    simp only [Bool.false_eq_true, if_false, show selfComms.grp 0 = 0 from rfl, if_true, this]

end

/-! ### norm -/

section
variable {K : Type} {n : Nat} {C : Comms n} {J : Nat → Nat → K} [RCLike K]

/-- **C63** (`norm` of scattered arrays).  Each communicator `g` holds an array of its own: `norm` returns on its ranks the norm of this array. -/
theorem C63_norm_scatter {L : Nat → Layout} {dt : Nat → DType} {a : Nat → Nat → List K} {o : NormOrd} (hp : ∀ g, (L g).part = .scatter)
    (hL : ∀ r < n, (L (C.grp r)).WF (C.size (C.grp r))) (hm : ∀ g, (L g).mask = none)
    (ha : ∀ r < n, (L (C.grp r)).Good (C.size (C.grp r)) (dt (C.grp r)) (a (C.grp r)))
    (hok : ∀ r < n, ∀ q < C.size (C.grp r), ∀ x ∈ a (C.grp r) q, OrdOk o (dt (C.grp r)) x) (hne : o.extremal → ∀ r < n, ∀ q < C.size (C.grp r), a (C.grp r) q ≠ [])
    (hfro : o ≠ .fro ∧ o ≠ .nuc) :
    Always n (fun r => ((L (C.grp r)).fam (C.size (C.grp r)) (dt (C.grp r)) (a (C.grp r)) (C.idx r)).normOn (C.base J r) o none)
      (fun r => .ok ⟨[], .real, [vecNorm o ((List.range (C.size (C.grp r))).flatMap (a (C.grp r)))]⟩) := by
  have hnb : ∀ g, ¬ (L g).part.isBroadcast = true := fun g => by rw [hp]; simp [Partition.isBroadcast]
  have e : (fun r => ((L (C.grp r)).fam (C.size (C.grp r)) (dt (C.grp r)) (a (C.grp r)) (C.idx r)).normOn (C.base J r) o none)
      = fun r => (C.base J r).on (((L (C.grp r)).fam (C.size (C.grp r)) (dt (C.grp r)) (a (C.grp r)) (C.idx r)).norm (C.base J r).b o none) :=
    funext fun r => if_neg (hnb _)
  rw [e]
  refine C63_isolated (ps := fun g i => ((L g).fam (C.size g) (dt g) (a g) i).norm (env (C.size g) (fun i => J (C.glob g i)) i) o none)
    (ρ := fun g _ => .ok ⟨[], .real, [vecNorm o ((List.range (C.size g)).flatMap (a g))]⟩) fun r hr => ?_
  have es : (L (C.grp r)).shard (C.size (C.grp r)) (a (C.grp r)) = a (C.grp r) := by funext q; simp only [Layout.shard, if_neg (hnb _)]
  have er : (L (C.grp r)).red (C.size (C.grp r)) = L (C.grp r) := by simp only [Layout.red, if_neg (hnb _)]
  refine ((runs_norm_flat (o := o) (size_pos (C := C) hr) (hL r hr) (ha r hr) (fun h => absurd h (hnb _)) (hok r hr) (by rw [es]; exact fun h => hne h r hr) hfro).congr
    (fun _ _ => rfl) fun i hi => ?_).always
  rw [es, er]
  simp only [Layout.members, hm]

/-- **C63 is false** for `norm` of broadcast arrays: if each communicator `γ` holds a broadcast array `a γ` (of one shape), `norm` returns on *all* ranks of the world the norm
    of the array whose rows are taken in turns from the arrays of the communicators, as the rows are divided among all ranks of the world. -/
theorem C63_norm_broadcast {p : Partition} {g : List Nat} {ax : Nat} {dt : DType} {a : Nat → List K} {o : NormOrd} (hp : p.isBroadcast = true) (hg : g ≠ [])
    (ha : ∀ r < n, (a (C.grp r)).length = g.prod ∧ FitsL dt (a (C.grp r))) (hok : ∀ r < n, ∀ x ∈ a (C.grp r), OrdOk o dt x)
    (hne : o.extremal → ∀ r < n, rowsOf g n r (a (C.grp r)) ≠ []) (hfro : o ≠ .fro ∧ o ≠ .nuc) :
    Always n (fun r => (bcastFam C p g ax dt a r).normOn (C.base J r) o none)
      (fun _ => .ok ⟨[], .real, [vecNorm o ((List.range n).flatMap fun q => rowsOf g n q (a (C.grp q)))]⟩) := by
  rcases Nat.eq_zero_or_pos n with rfl | hn
  · exact Runs.of_zero.always
  refine Runs.always ?_
  set S : Layout := ⟨g, .scatter, 0, balanced (len g 0) n, none⟩ with hS
  have hW : S.WF n := ⟨List.length_pos_iff.2 hg, fun _ => psum_balanced_total _ hn, by simp [hS]⟩
  have hb : ¬ S.part.isBroadcast = true := by simp [hS, Partition.isBroadcast]
  have e : ∀ r, (bcastFam C p g ax dt a r).normOn (C.base J r) o none = (toDist (env n J r) ⟨g, dt, a (C.grp r)⟩ .scatter 0 none none).bind
      fun x => computeVectorNorm x.sub x.larr.flatten 0 o := fun r => by
    unfold DArr.normOn DArr.norm DArr.toScatter
    simp only [Prog.bind_eq]
    rw [if_pos (show (bcastFam C p g ax dt a r).part.isBroadcast = true from hp), if_pos (show (bcastFam C p g ax dt a r).part.isBroadcast = true from hp)]
    rfl
  simp only [e]
  refine Runs.bind_ok (runs_toDist_any (J := J) (a := fun r => a (C.grp r)) hn hg (fun r hr => (ha r hr).1) fun r hr => (ha r hr).2) ?_
  have hG : S.Good n dt fun q => rowsOf g n q (a (C.grp q)) :=
    ⟨fun r hr => (good_piece hW (ha r hr).1 (ha r hr).2).length r hr, fun r hr => (good_piece hW (ha r hr).1 (ha r hr).2).fits r hr, fun h => by simp [hS] at h⟩
  have es : S.shard n (fun q => rowsOf g n q (a (C.grp q))) = fun q => rowsOf g n q (a (C.grp q)) := by funext q; simp only [Layout.shard, if_neg hb]
  have er : S.red n = S := by simp only [Layout.red, if_neg hb]
  refine (runs_norm_flat (J := J) (o := o) hn hW hG (fun h => absurd h hb) (fun q hq x hx => hok q hq x (mem_piece hx)) (by rw [es]; exact hne) hfro).congr (fun r hr => ?_) fun r hr => ?_
  · unfold DArr.norm DArr.toScatter
    rw [if_neg (show ¬ (S.fam n dt (fun q => rowsOf g n q (a (C.grp q))) r).part.isBroadcast = true from hb)]
    rfl
  · rw [es, er]
    rfl

end

/-- Two ranks, each with an array on MPI.COMM_SELF: (3, 4) on rank 0 and (0, 0) on rank 1.  The norms are 5 and 0, `norm` returns 3 on both ranks. -/
theorem C63_violated_norm :
    Always 2 (fun r => (bcastFam selfComms .broadcast [2] 0 .real (fun γ => if γ = 0 then [(3 : ℝ), 4] else [0, 0]) r).normOn (selfComms.base (fun _ _ => 0) r) .none none)
        (fun _ => .ok ⟨[], .real, [.fin 3]⟩) ∧
      vecNorm .none [(3 : ℝ), 4] = .fin 5 ∧ vecNorm .none [(0 : ℝ), 0] = .fin 0 := by
  refine ⟨((C63_norm_broadcast (C := selfComms) (J := fun _ _ => (0 : ℝ)) (p := .broadcast) (g := [2]) (ax := 0) (dt := .real) (a := fun γ => if γ = 0 then [(3 : ℝ), 4] else [0, 0])
    (o := .none) rfl (by simp) (fun r _ => ⟨by split_ifs <;> rfl, fun _ x _ => by simp⟩) (fun _ _ _ _ => trivial) (fun h => h.elim) (by simp)).runs.congr (fun _ _ => rfl) fun r hr => ?_).always,
    ?_, ?_⟩
  · have h : ((List.range 2).flatMap fun q => rowsOf [2] 2 q (if selfComms.grp q = 0 then [(3 : ℝ), 4] else [0, 0])) = [3, 0] := rfl
    rw [h]
    simp [vecNorm]
  · have : (3 : ℝ) ^ 2 + 4 ^ 2 = 5 ^ 2 := by norm_num
    simp [vecNorm, this]
  · simp [vecNorm]

/-! ### Non-vacuity of the rejections -/

theorem selfComms_size {r : Nat} (hr : r < 2) : selfComms.size (selfComms.grp r) ≠ 2 := by
  match r, hr with
  | 0, _ => decide
  | 1, _ => decide

/-- Two ranks with communicators of their own: `ravel` of an array of shape (1, 2). -/
example : Always 2 (fun r => ((Layout.mk [1, 2] .scatter 0 (fun _ => 1) none).fam 1 .real (fun _ => [(1 : ℚ), 2]) 0).ravelOn (selfComms.base (fun _ _ => 0) r))
    (fun _ => .error .value) :=
  C63_ravel (C := selfComms) (fun _ _ => rfl) fun _ => selfComms_size

/-- Two ranks with communicators of their own and the operator x ↦ 2 x on one entry, as a block diagonal operator and as a vertical stack. -/
example : Always 2 (fun r => do
      let A ← mkBlockDiagOn (selfComms.base (fun _ _ => 0) r) [⟨1, 1, .real, fun x => x.map (2 * ·), fun x => x.map ((2 : ℚ) * ·)⟩] none none
      A.mv ((Layout.mk [1] .scatter 0 (fun _ => 1) none).fam 1 .real (fun _ => [1]) 0)) (fun _ => .error .value) :=
  (C63_blockDiag (C := selfComms) (b := false) (ops := fun _ => [⟨1, 1, .real, fun x => x.map (2 * ·), fun x => x.map ((2 : ℚ) * ·)⟩]) (fun _ _ => by simp)
    (fun _ _ => by simp [Layout.fam]) fun _ => selfComms_size).2

example : Always 2 (fun r => do
      let A ← mkVStackOn (selfComms.base (fun _ _ => 0) r) [⟨1, 1, .real, fun x => x.map (2 * ·), fun x => x.map ((2 : ℚ) * ·)⟩] none
      A.rmv ((Layout.mk [1] .scatter 0 (fun _ => 1) none).fam 1 .real (fun _ => [1]) 0)) (fun _ => .error .value) :=
  (C63_vstack (C := selfComms) (b := true) (ops := fun _ => [⟨1, 1, .real, fun x => x.map (2 * ·), fun x => x.map ((2 : ℚ) * ·)⟩]) (N := fun _ => 1) (fun _ _ => by simp)
    (fun _ _ o ho => by rw [List.mem_singleton.1 ho]) (fun _ _ => by simp [Layout.fam]) fun _ => selfComms_size).2

/-- four ranks in two communicators: ranks 0 and 1, and ranks 3 and 2 (in this order) -/
def halves : Comms 4 where
  grp r := r / 2
  mem g := if g = 0 then [0, 1] else if g = 1 then [3, 2] else []
  nodup g := by split_ifs <;> simp
  lt g q h := by
    split_ifs at h
    · simp at h; omega
    · simp at h; omega
    · simp at h
  iff r hr g := by
    split_ifs with h h
    · simp; omega
    · simp; omega
    · simp; omega

theorem halves_size {r : Nat} (hr : r < 4) : halves.size (halves.grp r) = 2 := by
  match r, hr with
  | 0, _ => rfl
  | 1, _ => rfl
  | 2, _ => rfl
  | 3, _ => rfl

/-- Four ranks in two communicators: a derivative operator on 4 entries, with any body. -/
example (f : DArr ℚ → P ℚ (DArr ℚ)) : Always 4 (fun r => reshapedOn (halves.base (fun _ _ => 0) r) [4] none f
      ((Layout.mk [4] .scatter 0 (fun _ => 2) none).fam 2 .real (fun _ => [1, 2]) (halves.idx r))) (fun _ => .error .value) :=
  C63_reshaped (C := halves) (by decide) (by simp) (fun _ _ => rfl) (fun r hr => by rw [halves_size hr]; decide) fun _ _ => rfl

/-- Four ranks in two communicators with the arrays (1, 2, 3) and (10, 0, 0): `dot` of each with itself gives 14 on the ranks 0 and 1 and 100 on the ranks 3 and 2. -/
example : Always 4 (fun r => ((exLayout none).fam 2 .real (fun i => if halves.grp r = 0 then (if i = 0 then [1, 2] else [(3 : ℚ)]) else if i = 0 then [10, 0] else [0]) (halves.idx r)).dotOn
      (halves.base (fun _ _ => 0) r)
      ((exLayout none).fam 2 .real (fun i => if halves.grp r = 0 then (if i = 0 then [1, 2] else [(3 : ℚ)]) else if i = 0 then [10, 0] else [0]) (halves.idx r)))
    (fun r => .ok (if r < 2 then 14 else 100)) := by
  have hG : ∀ g : Nat, (exLayout none).Good 2 .real (fun i => if g = 0 then (if i = 0 then [1, 2] else [(3 : ℚ)]) else if i = 0 then [10, 0] else [0]) := fun g => by
    by_cases h : g = 0 <;> simp only [h, if_true, if_false] <;> exact exLayout_good none _ rfl rfl
  refine ((C63_dot_scatter (C := halves) (J := fun _ _ => (0 : ℚ)) (L := fun _ => exLayout none) (dt := fun _ => .real)
    (a := fun g i => if g = 0 then (if i = 0 then [1, 2] else [3]) else if i = 0 then [10, 0] else [0])
    (b := fun g i => if g = 0 then (if i = 0 then [1, 2] else [3]) else if i = 0 then [10, 0] else [0]) (fun _ => rfl) (fun r hr => ?_) (fun _ => rfl) (fun r hr => ?_) fun r hr => ?_).runs.congr
    (fun r hr => ?_) fun r hr => ?_).always
  · rw [halves_size hr]; exact exLayout_wf none (by simp)
  · rw [halves_size hr]; exact hG _
  · rw [halves_size hr]; exact hG _
  · rw [halves_size hr]
  · match r, hr with
    | 0, _ => exact congrArg Except.ok (by decide +kernel)
    | 1, _ => exact congrArg Except.ok (by decide +kernel)
    | 2, _ => exact congrArg Except.ok (by decide +kernel)
    | 3, _ => exact congrArg Except.ok (by decide +kernel)

end Verif

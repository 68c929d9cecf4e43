/- Lemmas about programs that use MPI.COMM_WORLD and another communicator. -/
import Verif.Model.SubComm
import Verif.Proofs.Norm
import Verif.Proofs.Operators
import Verif.Proofs.GroupDeadlock
import Verif.Proofs.Fredholm

namespace Verif
open NDArray

set_option linter.unusedSectionVars false

section
variable {K α β : Type} {n : Nat}

/-- what rank `r` of the world knows, when the ranks are divided among communicators -/
def Comms.base (C : Comms n) (J : Nat → Nat → K) (r : Nat) : BCtx K :=
  ⟨env n J r, env (C.size (C.grp r)) (fun i => J (C.glob (C.grp r) i)) (C.idx r), C.glob (C.grp r)⟩

/-- a computation on the communicators, followed by anything -/
theorem Runs.on (C : Comms n) {J : Nat → Nat → K} {ps : Nat → Nat → P K α} {ρ : Nat → Nat → Except Err α} {k : Nat → α → P K β} {σ}
    (h : ∀ r < n, Runs (C.size (C.grp r)) (ps (C.grp r)) (ρ (C.grp r)))
    (h2 : Runs n (fun r => (Prog.lift (ρ (C.grp r) (C.idx r))).bind (k r)) σ) :
    Runs n (fun r => ((C.base J r).on (ps (C.grp r) (C.idx r))).bind (k r)) σ := by
  refine Runs.bind (ps := fun r => (C.base J r).on (ps (C.grp r) (C.idx r))) (Runs.comms C h) h2

theorem Runs.on_ok (C : Comms n) {J : Nat → Nat → K} {ps : Nat → Nat → P K α} {a : Nat → Nat → α} {k : Nat → α → P K β} {σ}
    (h : ∀ r < n, Runs (C.size (C.grp r)) (ps (C.grp r)) (fun i => .ok (a (C.grp r) i)))
    (h2 : Runs n (fun r => k r (a (C.grp r) (C.idx r))) σ) :
    Runs n (fun r => ((C.base J r).on (ps (C.grp r) (C.idx r))).bind (k r)) σ :=
  Runs.on C (ρ := fun g i => .ok (a g i)) h h2

theorem Comms.map_glob {C : Comms n} {γ : Type} (v : Nat → γ) (g : Nat) : (List.range (C.size g)).map (fun i => v (C.glob g i)) = (C.mem g).map v := by
  refine List.ext_getElem (by simp [Comms.size]) fun i h1 h2 => ?_
  simp only [List.length_map, List.length_range] at h1
  simp only [List.getElem_map, List.getElem_range, Comms.glob_get h1]
  rfl

/-- `allgather` on the communicators -/
theorem runs_allgather_on [Enc K α] (C : Comms n) {J : Nat → Nat → K} {v : Nat → α} {k : Nat → List α → P K β} {σ}
    (h : Runs n (fun r => k r ((C.mem (C.grp r)).map v)) σ) :
    Runs n (fun r => ((C.base J r).on (allgather (C.base J r).b (v r))).bind (k r)) σ := by
  refine (Runs.on_ok C (J := J) (k := k) (ps := fun g i => allgather (env (C.size g) (fun i => J (C.glob g i)) i) (v (C.glob g i))) (a := fun g _ => (C.mem g).map v) (fun r _ => ?_) h).congr
    (fun r hr => ?_) fun _ _ => rfl
  · have := runs_allgather (K := K) (n := C.size (C.grp r)) (J := fun i => J (C.glob (C.grp r) i)) (v := fun i => v (C.glob (C.grp r) i)) (k := fun _ l => .ret l) (Runs.ret _)
    rw [Comms.map_glob v] at this
    simpa only [Prog.bind_ret] using this
  · show _ = ((C.base J r).on (allgather (C.base J r).b (v r))).bind (k r)
    simp only [Comms.base, Comms.glob_idx hr]

theorem runs_allreduce_nat_on (C : Comms n) {J : Nat → Nat → K} {v : Nat → Nat} {k : Nat → Nat → P K β} {σ}
    (h : Runs n (fun r => k r ((C.mem (C.grp r)).map v).sum) σ) :
    Runs n (fun r => ((C.base J r).on (allreduce (C.base J r).b.world (fun a b => .ok (a + b)) (v r))).bind (k r)) σ := by
  refine (Runs.on_ok C (J := J) (k := k) (ps := fun g i => allreduce (env (C.size g) (fun i => J (C.glob g i)) i).world (fun a b => .ok (a + b)) (v (C.glob g i)))
    (a := fun g _ => ((C.mem g).map v).sum) (fun r _ => ?_) h).congr (fun r hr => ?_) fun _ _ => rfl
  · have := runs_allreduce_nat (K := K) (n := C.size (C.grp r)) (J := fun i => J (C.glob (C.grp r) i)) (v := fun i => v (C.glob (C.grp r) i)) (k := fun _ l => .ret l) (Runs.ret _)
    rw [psum_eq_sum, Comms.map_glob v] at this
    simpa only [Prog.bind_ret] using this
  · show _ = ((C.base J r).on (allreduce (C.base J r).b.world (fun a b => .ok (a + b)) (v r))).bind (k r)
    simp only [Comms.base, Comms.glob_idx hr]

end

section
variable {K α β : Type} {n : Nat} [Field K] [StarRing K] [CharZero K]

/-- the sum over the members of the communicators -/
theorem runs_allreduce_sc_on (C : Comms n) {J : Nat → Nat → K} {v : Nat → K} {k : Nat → Sc K → P K β} {σ}
    (h : Runs n (fun r => k r ⟨((C.mem (C.grp r)).map v).sum⟩) σ) :
    Runs n (fun r => ((C.base J r).on (allreduce (List.range (C.size (C.grp r))) (fun (a b : Sc K) => .ok ⟨a.val + b.val⟩) (Sc.mk (v r)))).bind (k r)) σ := by
  refine (Runs.on_ok C (J := J) (k := k) (ps := fun g i => allreduce (List.range (C.size g)) (fun (a b : Sc K) => .ok ⟨a.val + b.val⟩) (Sc.mk (v (C.glob g i))))
    (a := fun g _ => ⟨((C.mem g).map v).sum⟩) (fun r hr => ?_) h).congr (fun r hr => ?_) fun _ _ => rfl
  · have h0 : 0 < C.size (C.grp r) := Nat.lt_of_le_of_lt (Nat.zero_le _) (Comms.idx_lt hr)
    have key : ∀ (l : List K) (x : K), (l.map Sc.mk).foldlM (fun (x y : Sc K) => (.ok ⟨x.val + y.val⟩ : Except Err (Sc K))) ⟨x⟩ = .ok ⟨x + l.sum⟩ := by
      intro l
      induction l with
      | nil => intro x; simp [pure, Except.pure]
      | cons q l ih =>
        intro x
        rw [List.map_cons, List.foldlM_cons]
        show (l.map Sc.mk).foldlM (fun (x y : Sc K) => (.ok ⟨x.val + y.val⟩ : Except Err (Sc K))) (Sc.mk (x + q)) = _
        rw [ih, List.sum_cons, add_assoc]
    have := runs_allreduce_members (K := K) (n := C.size (C.grp r)) (L := ⟨[], .scatter, 0, fun _ => 0, none⟩) (op := fun (a b : Sc K) => .ok ⟨a.val + b.val⟩)
      (v := fun i => Sc.mk (v (C.glob (C.grp r) i))) (w := fun _ => ⟨((C.mem (C.grp r)).map v).sum⟩) (k := fun _ l => .ret l) (fun i hi => ?_) (Runs.ret _)
    · simp only [Prog.bind_ret] at this
      exact this
    · refine ⟨0, (List.range (C.size (C.grp r) - 1)).map (· + 1), range_cons h0, ?_⟩
      rw [← Comms.map_glob v, range_cons h0, List.map_cons, List.sum_cons, ← key, List.map_map, List.map_map, List.map_map]
      rfl
  · show _ = ((C.base J r).on (allreduce (List.range (C.size (C.grp r))) (fun (a b : Sc K) => .ok ⟨a.val + b.val⟩) (Sc.mk (v r)))).bind (k r)
    simp only [Comms.glob_idx hr]

/-- `to_dist` with default arguments of arrays of the same shape, which may differ from rank to rank -/
theorem runs_toDist_any {J : Nat → Nat → K} {g : List Nat} {dt : DType} {a : Nat → List K} (hn : 0 < n) (hg : g ≠ [])
    (hl : ∀ r < n, (a r).length = g.prod) (hf : ∀ r < n, FitsL dt (a r)) :
    Runs n (fun r => toDist (env n J r) ⟨g, dt, a r⟩ .scatter 0 none none)
      (fun r => .ok ((Layout.mk g .scatter 0 (balanced (len g 0) n) none).fam n dt (fun r => (Layout.mk g .scatter 0 (balanced (len g 0) n) none).piece (a r) r) r)) := by
  have h0 : 0 < g.length := List.length_pos_iff.2 hg
  set L : Layout := ⟨g, .scatter, 0, balanced (len g 0) n, none⟩ with hLd
  have hL : L.WF n := ⟨h0, fun _ => psum_balanced_total _ hn, by simp [hLd]⟩
  have hp : L.part = .scatter := rfl
  unfold toDist
  simp only [Prog.bind_eq]
  refine Runs.bind_ok (runs_mkDArr_none (J := J) (L := L) (dt := dt) hL fun _ => rfl) ?_
  have hb : ¬ Partition.scatter.isBroadcast = true := by simp [Partition.isBroadcast]
  simp only [if_neg hb]
  have hls : ∀ r, len (L.fam n dt (junkData J L dt) r).lshape 0 = L.sizes r := by
    intro r
    show len (L.lshape r) L.axis = _
    rw [lshape_scatter hp, len_set hL.axis_lt]
  simp only [hls]
  refine runs_allgather (v := L.sizes) ?_
  have key : ∀ r < n, (⟨g, dt, a r⟩ : NDArray K).slice 0 (((List.range n).map L.sizes).take r).sum (((List.range n).map L.sizes).take (r + 1)).sum
      = ⟨L.lshape r, dt, L.piece (a r) r⟩ := by
    intro r hr
    have h2 : psum L.sizes (r + 1) ≤ len g 0 := hL.sum hp ▸ psum_mono _ hr
    have h1 : psum L.sizes r ≤ len g 0 := (psum_mono _ (Nat.le_succ r)).trans h2
    rw [take_map_range_sum _ (by omega), take_map_range_sum _ (by omega)]
    unfold NDArray.slice Layout.piece
    rw [if_neg hb, min_eq_left h2, min_eq_left h1, lshape_scatter hp]
    simp [psum, hLd]
  refine Runs.congr (runs_setAll_good (J := J) (L := L) (dt := dt) (a := junkData J L dt) (v := fun r => ⟨L.lshape r, dt, L.piece (a r) r⟩) (fun r _ => length_junk r)
    (fun r _ => rfl) ⟨fun r hr => (good_piece hL (hl r hr) (hf r hr)).length r hr, fun r hr => (good_piece hL (hl r hr) (hf r hr)).fits r hr, fun h => by simp [hLd] at h⟩)
    (fun r hr => ?_) (fun r _ => rfl)
  exact congrArg _ (key r hr).symm

/-- the value that MPIFredholm1 assigns to its result, on one communicator -/
theorem runs_fredValue {J : Nat → Nat → K} {sz : Nat → Nat} {nx ny nz : Nat} {sg um : Bool} {dG dt dx : DType} {g d : List K} (hn : 0 < n)
    (h1 : ∀ r < n, sz r ≠ 1) (hg : g.length = psum sz n * (nx * ny)) (fg : FitsL dt g) (b : Bool)
    (hn1 : (if b then nx else ny) ≠ 1) (hu : um = true ∨ (if b then ny else nx) ≠ 1 ∨ nz ≠ 1 ∨ ∀ r < n, sz r = sz 0)
    (hlen : d.length = psum sz n * ((if b then nx else ny) * nz)) (hfd : FitsL dt d) :
    ∃ t, Runs n (fun r => fredValue (fredObj n sz nx ny nz sg um dG dt g r) b (env n J r) ⟨[psum sz n * (if b then nx else ny) * nz], dx, d⟩)
        (fun _ => .ok ⟨[psum sz n * (if b then ny else nx) * nz], t, (if b then fredholmAdj (psum sz n) nx ny nz g else fredholm (psum sz n) nx ny nz g) d⟩) ∧
      ((if b then fredholmAdj (psum sz n) nx ny nz g else fredholm (psum sz n) nx ny nz g) d).length = psum sz n * (if b then ny else nx) * nz ∧
      FitsL dt ((if b then fredholmAdj (psum sz n) nx ny nz g else fredholm (psum sz n) nx ny nz g) d) := by
  obtain ⟨F, hF, hFl, hFf, hFr⟩ := fred_blocks (sg := sg) (um := um) (dG := dG) (dx := dx) h1 hg fg b hlen hfd
  rw [hF]
  haveI : Nonempty DType := ⟨.real⟩
  choose! t ht using hFr
  have hin : ∀ r < n, fredInput (env n J r) (fredObj n sz nx ny nz sg um dG dt g r) (if b then nx else ny) ⟨[psum sz n * (if b then nx else ny) * nz], dx, d⟩
      = .ok (inArr (sz r) (if b then nx else ny) nz dx (slab ((if b then nx else ny) * nz) (psum sz r) (sz r) d)) := fun r hr => fredInput_ok hr h1 hn1 hlen rfl rfl rfl
  obtain ⟨s, t', hv⟩ := vstack_out (n := n) hn (um := um) (m := if b then ny else nx) (p := nz) (sz := sz) hu (t := t) (a := fun r => (List.range (sz r)).flatMap fun k => F (psum sz r + k))
    (fun r _ => length_flatMap_range fun k _ => hFl _)
  rw [flatMap_psum] at hv
  have hL : ((List.range (psum sz n)).flatMap F).length = psum sz n * (if b then ny else nx) * nz := by
    rw [length_flatMap_range fun k _ => hFl k, Nat.mul_assoc]
  refine ⟨t', ?_, hL, fun hr x hx => ?_⟩
  · refine Runs.congr (ps := fun r => (allgather (env n J r) (⟨outShape um (sz r) (if b then ny else nx) nz, t r, (List.range (sz r)).flatMap fun k => F (psum sz r + k)⟩ : NDArray K)).bind
      fun l => (Prog.lift (vstack l)).bind fun v => .ret v.flatten) ?_ (fun r hr => ?_) fun _ _ => rfl
    · refine runs_allgather (v := fun r => (⟨outShape um (sz r) (if b then ny else nx) nz, t r, (List.range (sz r)).flatMap fun k => F (psum sz r + k)⟩ : NDArray K)) ?_
      rw [hv]
      refine (Runs.ret _).congr (fun r _ => rfl) fun r _ => ?_
      rw [← hL]
      rfl
    · have e1 : (fredObj n sz nx ny nz sg um dG dt g r).nx = nx := rfl
      have e2 : (fredObj n sz nx ny nz sg um dG dt g r).ny = ny := rfl
      unfold fredValue
      simp only [Prog.bind_eq]
      rw [e1, e2, hin r hr]
      dsimp only [Prog.lift, Prog.ret_bind]
      rw [ht r hr]
      rfl
  · obtain ⟨k, -, hk⟩ := List.mem_flatMap.1 hx
    exact hFf k hr x hk

end
end Verif

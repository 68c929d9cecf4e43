/- Execution lemmas (`Runs`) for the communicator operations and the basic methods of
   `DistributedArray`. -/
import Verif.MPI.Runs
import Verif.Spec.Layout

namespace Verif
open NDArray

set_option linter.unusedSectionVars false

variable {K : Type} {α β : Type}

@[simp] theorem env_size (n) (J : Nat → Nat → K) (r) : (env n J r).size = n := rfl
@[simp] theorem env_rank (n) (J : Nat → Nat → K) (r) : (env n J r).rank = r := rfl
@[simp] theorem env_world (n) (J : Nat → Nat → K) (r) : (env n J r).world = List.range n := rfl

theorem decAll_map [Enc K α] (l : List Nat) (v : Nat → α) :
    decAll (K := K) (l.map fun r => Enc.enc (v r)) = .ok (l.map v) := by
  unfold decAll
  have : (l.map fun r => Enc.enc (K := K) (v r)).mapM (Enc.dec (K := K) (α := α)) = some (l.map v) := by
    rw [List.mapM_map]
    exact mapM_some_map _ v l (fun a _ => Enc.dec_enc (v a))
  rw [this]

theorem runs_gather [Enc K α] {n kind} {v : Nat → α} {k : Nat → List α → P K β} {ρ}
    (h : Runs n (fun r => k r ((List.range n).map v)) ρ) :
    Runs n (fun r => (gather kind (List.range n) (v r)).bind (k r)) ρ := by
  refine Runs.coll_world (v := fun r => Enc.enc (v r)) ?_
  simp only [decAll_map, Prog.lift_ok, Prog.ret_bind]
  exact h

theorem runs_allgather [Enc K α] {n} {J : Nat → Nat → K} {v : Nat → α} {k : Nat → List α → P K β} {ρ}
    (h : Runs n (fun r => k r ((List.range n).map v)) ρ) :
    Runs n (fun r => (allgather (env n J r) (v r)).bind (k r)) ρ := runs_gather h

theorem runs_gather_sub [Enc K α] {n kind} {c : Nat → List Nat} {v : Nat → α} {k : Nat → List α → P K β}
    {ρ} (hself : ∀ r < n, r ∈ c r) (hlt : ∀ r < n, ∀ q ∈ c r, q < n)
    (hpart : ∀ r < n, ∀ q ∈ c r, c q = c r)
    (h : Runs n (fun r => k r ((c r).map v)) ρ) :
    Runs n (fun r => (gather kind (c r) (v r)).bind (k r)) ρ := by
  refine Runs.coll_sub (v := fun r => Enc.enc (v r)) hself hlt hpart ?_
  simp only [decAll_map, Prog.lift_ok, Prog.ret_bind]
  exact h

theorem Runs.of_zero {M : Type} {ps : Nat → Prog M α} {ρ} : Runs 0 ps ρ := ⟨_, .refl, by simp⟩

theorem range_cons {n : Nat} (h : 0 < n) : List.range n = 0 :: (List.range (n - 1)).map (· + 1) := by
  obtain ⟨m, rfl⟩ : ∃ m, n = m + 1 := ⟨n - 1, by omega⟩
  simp [List.range_succ_eq_map]

theorem sendEach_bind {M : Type} (t : Nat) (v : M) (l : List Nat) (p : Prog M α) (k : α → Prog M β) : (sendEach t v l p).bind k = sendEach t v l (p.bind k) := by
  induction l with
  | nil => rfl
  | cons q l ih => simp only [sendEach, Prog.bind, ih]

/-- rank 0 sends the same message to all others -/
theorem Runs.star {M : Type} {n t : Nat} {v : M} {p : Nat → Prog M α} {f : Nat → M → Prog M α} {ρ} (hf : ∀ r < n, r ≠ 0 → f r v = p r) (h : Runs n p ρ) :
    Runs n (fun r => if r = 0 then sendEach t v (List.range n).tail (p 0) else .recv 0 t (f r)) ρ := by
  rcases Nat.eq_zero_or_pos n with rfl | hn
  · exact Runs.of_zero
  have main : ∀ j i, 1 ≤ i → i + j = n → Runs n (fun r => if r = 0 then sendEach t v (List.range' i j) (p 0) else if r < i then p r else .recv 0 t (f r)) ρ := by
    intro j
    induction j with
    | zero =>
      intro i _ hi
      refine h.congr (fun r hr => ?_) fun _ _ => rfl
      by_cases h0 : r = 0
      · subst h0; rfl
      · rw [if_neg h0, if_pos (by omega)]
    | succ j ih =>
      intro i h1 hi
      refine Runs.of_steps (.single (SStep.rdv (i := 0) (j := i) (t := t) (v := v) (k := sendEach t v (List.range' (i + 1) j) (p 0)) (k' := f i) hn (by omega) rfl ?_))
        ((ih (i + 1) (by omega) (by omega)).congr (fun r hr => ?_) fun _ _ => rfl)
      · simp only [if_neg (show ¬ i = 0 by omega), if_neg (Nat.lt_irrefl i)]
      · simp only [Function.update_apply]
        by_cases h0 : r = 0
        · subst h0
          rw [if_pos rfl, if_neg (by omega), if_pos rfl]
        · by_cases h2 : r = i
          · subst h2
            rw [if_neg h0, if_pos (by omega), if_pos rfl, hf r hr h0]
          · rw [if_neg h0, if_neg h2, if_neg h0, if_neg h0]
            by_cases h3 : r < i
            · rw [if_pos (by omega), if_pos h3]
            · rw [if_neg (by omega), if_neg h3]
  refine (main (n - 1) 1 (by omega) (by omega)).congr (fun r hr => ?_) fun _ _ => rfl
  have e : (List.range n).tail = List.range' 1 (n - 1) := by rw [List.range_eq_range', List.tail_range']
  rw [e]
  by_cases h0 : r = 0
  · rw [if_pos h0, if_pos h0]
  · rw [if_neg h0, if_neg h0, if_neg (by omega)]

theorem runs_bcast [Enc K α] {n} {J : Nat → Nat → K} {v : Nat → α} {k : Nat → α → P K β} {ρ}
    (h : Runs n (fun r => k r (v 0)) ρ) :
    Runs n (fun r => (bcast (env n J r) (v r)).bind (k r)) ρ := by
  refine (Runs.star (t := bcastTag) (v := Enc.enc (v 0)) (f := fun r m => (match Enc.dec (K := K) m with
    | some y => (.ret y : P K α)
    | none => .throw .protocol).bind (k r)) (fun r _ _ => by rw [Enc.dec_enc]; rfl) h).congr (fun r hr => ?_) fun _ _ => rfl
  unfold bcast
  by_cases h0 : r = 0
  · subst h0
    rw [if_pos rfl, if_pos (show (env n J 0).rank = 0 from rfl), sendEach_bind]
    rfl
  · rw [if_neg h0, if_neg (show ¬ (env n J r).rank = 0 from h0)]
    rfl

/-- sum of the values contributed by a list of ranks -/
theorem foldlM_add {γ : Type} [Add γ] (v : Nat → γ) (l : List Nat) (x : γ) :
    (l.map v).foldlM (fun a b => (.ok (a + b) : Except Err γ)) x = .ok (l.foldl (fun a q => a + v q) x) := by
  induction l generalizing x with
  | nil => rfl
  | cons q l ih => simp only [List.map_cons, List.foldlM_cons, List.foldl_cons]; exact ih _

theorem foldl_add_eq {γ : Type} [AddMonoid γ] (v : Nat → γ) (l : List Nat) (x : γ) :
    l.foldl (fun a q => a + v q) x = x + (l.map v).sum := by
  induction l generalizing x with
  | nil => simp
  | cons q l ih => simp [ih, add_assoc]

theorem runs_allreduce_nat {n} {J : Nat → Nat → K} {v : Nat → Nat} {k : Nat → Nat → P K β} {ρ}
    (h : Runs n (fun r => k r (psum v n)) ρ) :
    Runs n (fun r => (allreduce (env n J r).world (fun a b => .ok (a + b)) (v r)).bind (k r)) ρ := by
  unfold allreduce
  simp only [Prog.bind_eq, Prog.bind_assoc, env_world]
  rcases Nat.eq_zero_or_pos n with rfl | hn
  · exact Runs.of_zero
  refine runs_gather ?_
  have e : psum v n = v 0 + (((List.range (n - 1)).map (· + 1)).map v).sum := by
    rw [psum_eq_sum, range_cons hn]; simp
  simp only [range_cons hn, List.map_cons]
  simp only [foldlM_add, foldl_add_eq, Prog.lift_ok, Prog.ret_bind, ← e]
  exact h

theorem filter_members (m : List Nat) (n r : Nat) :
    ((List.range n).filter fun q => decide (((List.range n).map fun r => m.getD r 0).getD q 0 = m.getD r 0))
      = (List.range n).filter fun q => m.getD q 0 = m.getD r 0 := by
  apply List.filter_congr
  intro q hq
  have hq : q < n := by simpa using hq
  simp [List.getD_eq_getElem?_getD, hq]

/-! ### constructor -/

section
variable [Field K] [StarRing K] {n : Nat} {J : Nat → Nat → K} {L : Layout} {dt : DType}

theorem runs_mkSub (hm : ∀ m, L.mask = some m → n ≤ m.length) :
    Runs n (fun r => mkSub (env n J r) L.mask) (fun r => .ok (L.members n r)) := by
  unfold mkSub Layout.members
  cases h : L.mask with
  | none => exact Runs.ret _
  | some m =>
    have hlen := hm m h
    dsimp only
    refine Runs.congr (ps := fun r => splitComm (env n J r) (m.getD r 0))
      (ρ := fun r => .ok ((List.range n).filter fun q => m.getD q 0 = m.getD r 0)) ?_ ?_ (fun _ _ => rfl)
    · unfold splitComm
      simp only [Prog.bind_eq]
      refine runs_gather (v := fun r => m.getD r 0) ?_
      refine Runs.congr (Runs.ret _) (fun r hr => ?_) (fun _ _ => rfl)
      rw [env_world, filter_members m n r]
    · intro r hr
      have : m[r]? = some (m.getD r 0) := by
        simp [List.getD_eq_getElem?_getD, List.getElem?_eq_getElem (show r < m.length by omega)]
      simp only [env_rank, this]

theorem lshape_scatter (h : L.part = .scatter) (r : Nat) :
    L.lshape r = L.gshape.set L.axis (L.sizes r) := by simp [Layout.lshape, h, Partition.isBroadcast]

theorem lshape_bcast (h : L.part.isBroadcast = true) (r : Nat) : L.lshape r = L.gshape := by
  simp [Layout.lshape, h]

theorem isBroadcast_false {p : Partition} (h : ¬ p.isBroadcast = true) : p = .scatter := by
  cases p <;> simp_all [Partition.isBroadcast]

theorem runs_checkLocalShapes (hL : L.WF n) :
    Runs n (fun r => checkLocalShapes (env n J r) L.gshape L.part L.axis ((List.range n).map L.lshape))
      (fun _ => .ok ()) := by
  rcases Nat.eq_zero_or_pos n with rfl | hn
  · exact Runs.of_zero
  unfold checkLocalShapes
  have e1 : (List.range n).map L.lshape ≠ [] := by simp; omega
  have e2 : ((List.range n).map L.lshape).length = n := by simp
  simp only [if_neg e1, env_size, e2, ne_eq, not_true_eq_false, if_false, env_rank]
  have e3 : ∀ r < n, ((List.range n).map L.lshape).getD r [] = L.lshape r := by
    intro r hr; simp [List.getD_eq_getElem?_getD, hr]
  by_cases hb : L.part.isBroadcast = true
  · simp only [if_pos hb]
    refine Runs.congr (Runs.ret _) (fun r hr => ?_) (fun _ _ => rfl)
    simp only [e3 r hr, lshape_bcast hb]; simp
  · have hp := isBroadcast_false hb
    simp only [if_neg hb]
    refine Runs.congr (ps := fun r => ((allreduce (env n J r).world (fun a b => .ok (a + b)) (L.sizes r)).bind
      fun tot => if tot ≠ len L.gshape L.axis ∨ (L.lshape r).eraseIdx L.axis ≠ L.gshape.eraseIdx L.axis
        then .throw .value else .ret ())) (ρ := fun _ => .ok ()) ?_ ?_ (fun _ _ => rfl)
    · refine runs_allreduce_nat ?_
      refine Runs.congr (Runs.ret (fun _ => ())) (fun r hr => ?_) (fun _ _ => rfl)
      simp [hL.sum hp, lshape_scatter hp, List.eraseIdx_set_eq]
    · intro r hr
      have : (L.lshape r)[L.axis]? = some (L.sizes r) := by
        rw [lshape_scatter hp]; simp [hL.axis_lt]
      simp only [e3 r hr, this]; rfl

/-- uninitialised local data -/
def junkData (J : Nat → Nat → K) (L : Layout) (dt : DType) (r : Nat) : List K :=
  (List.range (L.lshape r).prod).map fun i => castTo dt (J r i)

theorem runs_mkDArr (hL : L.WF n) :
    Runs n (fun r => mkDArr (env n J r) L.gshape L.part L.axis (some ((List.range n).map L.lshape)) L.mask dt)
      (fun r => .ok (L.fam n dt (junkData J L dt) r)) := by
  rcases Nat.eq_zero_or_pos n with rfl | hn
  · exact Runs.of_zero
  unfold mkDArr
  have e0 : ¬ L.gshape.length ≤ L.axis := by have := hL.axis_lt; omega
  simp only [if_neg e0, Prog.bind_eq, Option.getD_some]
  refine Runs.bind_ok (runs_mkSub hL.mask) ?_
  refine Runs.bind_ok (runs_checkLocalShapes hL) ?_
  refine Runs.congr (Runs.ret _) (fun r hr => ?_) (fun _ _ => rfl)
  have e3 : ((List.range n).map L.lshape).getD r [] = L.lshape r := by
    simp [List.getD_eq_getElem?_getD, hr]
  have e1 : (List.range n).map L.lshape ≠ [] := by simp; omega
  simp only [if_neg e1, env_rank, e3]
  rfl

/-! ### assignment -/

theorem runs_setAll {a : Nat → List K} {v : Nat → NDArray K} [CharZero K]
    (ha : ∀ r < n, (a r).length = (L.lshape r).prod)
    (hs : ∀ r < n, (v r).shape = L.lshape r) (hv : ∀ r < n, (v r).data.length = (L.lshape r).prod) :
    Runs n (fun r => (L.fam n dt a r).setAll (env n J r) (v r))
      (fun r => .ok (L.fam n dt (fun r => (L.sync (fun q => (v q).data) r).map (castTo dt)) r)) := by
  rcases Nat.eq_zero_or_pos n with rfl | hn
  · exact Runs.of_zero
  unfold DArr.setAll DArr.setItem
  simp only [Prog.bind_eq]
  have hpart : ∀ r, (L.fam n dt a r).part = L.part := fun _ => rfl
  simp only [hpart]
  by_cases hb : L.part = .broadcast
  · simp only [if_pos hb]
    refine runs_bcast (J := J) (v := v) ?_
    refine Runs.congr (Runs.ret _) (fun r hr => ?_) (fun _ _ => rfl)
    have hl : ∀ q, L.lshape q = L.gshape := lshape_bcast (by simp [hb, Partition.isBroadcast])
    rw [setIndex_all (by exact ha r hr)
      (by rw [hs 0 hn, hl]; exact (hl r).symm) (by unfold WF; rw [hv 0 hn, hs 0 hn])]
    simp [Layout.sync, hb, Layout.fam]
  · simp only [if_neg hb]
    refine Runs.congr (Runs.ret _) (fun r hr => ?_) (fun _ _ => rfl)
    rw [setIndex_all (by exact ha r hr) (hs r hr) (by unfold WF; rw [hv r hr, hs r hr])]
    simp [Layout.sync, hb, Layout.fam]

theorem runs_setAll_scalar {a : Nat → List K} {t : DType} {x : K}
    (ha : ∀ r < n, (a r).length = (L.lshape r).prod) :
    Runs n (fun r => (L.fam n dt a r).setAll (env n J r) (NDArray.scalar t x))
      (fun r => .ok (L.fam n dt (fun r => List.replicate (L.lshape r).prod (castTo dt x)) r)) := by
  unfold DArr.setAll DArr.setItem
  simp only [Prog.bind_eq]
  have hpart : ∀ r, (L.fam n dt a r).part = L.part := fun _ => rfl
  simp only [hpart]
  by_cases hb : L.part = .broadcast
  · simp only [if_pos hb]
    refine runs_bcast (J := J) (v := fun _ => NDArray.scalar t x) ?_
    refine Runs.congr (Runs.ret _) (fun r hr => ?_) (fun _ _ => rfl)
    rw [setIndex_all_scalar (by exact ha r hr)]
    simp [Layout.fam]
  · simp only [if_neg hb]
    refine Runs.congr (Runs.ret _) (fun r hr => ?_) (fun _ _ => rfl)
    rw [setIndex_all_scalar (by exact ha r hr)]
    simp [Layout.fam]

theorem length_junk (r : Nat) : (junkData J L dt r).length = (L.lshape r).prod := by simp [junkData]

theorem runs_localShapes {a : Nat → List K} {k : Nat → List (List Nat) → P K β} {ρ}
    (h : Runs n (fun r => k r ((List.range n).map L.lshape)) ρ) :
    Runs n (fun r => ((L.fam n dt a r).localShapes (env n J r)).bind (k r)) ρ :=
  runs_allgather (v := L.lshape) h

theorem runs_like {a : Nat → List K} (hL : L.WF n) :
    Runs n (fun r => (L.fam n dt a r).like (env n J r)) (fun r => .ok (L.fam n dt (junkData J L dt) r)) := by
  unfold DArr.like DArr.likeMask
  simp only [Prog.bind_eq]
  exact runs_localShapes (runs_mkDArr hL)

/-- Allocate a new array of the same layout and fill it. -/
theorem runs_like_set [CharZero K] {a : Nat → List K} {v : Nat → NDArray K} (hL : L.WF n)
    (hs : ∀ r < n, (v r).shape = L.lshape r) (hv : ∀ r < n, (v r).data.length = (L.lshape r).prod) :
    Runs n (fun r => ((L.fam n dt a r).like (env n J r)).bind fun d => d.setAll (env n J r) (v r))
      (fun r => .ok (L.fam n dt (fun r => (L.sync (fun q => (v q).data) r).map (castTo dt)) r)) :=
  Runs.bind_ok (runs_like hL) (runs_setAll (fun r _ => length_junk r) hs hv)

end
end Verif

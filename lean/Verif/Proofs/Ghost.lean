/- Execution lemmas for `add_ghost_cells`. -/
import Verif.Proofs.Array
import Verif.MPI.Safe

namespace Verif
open NDArray Relation

set_option linter.unusedSectionVars false

variable {K : Type} {n : Nat} {J : Nat → Nat → K} {L : Layout} {dt : DType}
  {a : Nat → List K}

/-- first and one-past-last index of rank `r` along the axis -/
abbrev Layout.off (L : Layout) (r : Nat) : Nat := psum L.sizes r

theorem off_le (hL : L.WF n) (hp : L.part = .scatter) {r : Nat} (hr : r ≤ n) : L.off r ≤ len L.gshape L.axis := by
  rw [← hL.sum hp]; exact psum_mono _ hr

theorem off_succ (r : Nat) : L.off (r + 1) = L.off r + L.sizes r := rfl

theorem global_wf (hL : L.WF n) (hp : L.part = .scatter) (ha : ∀ r < n, (a r).length = (L.lshape r).prod) :
    (L.global n dt a).WF := by
  have hb : ¬ L.part.isBroadcast = true := by rw [hp]; simp [Partition.isBroadcast]
  unfold NDArray.WF Layout.global Layout.globalData
  dsimp only
  rw [if_neg hb, length_concatData _ _ _ _ _ (fun r hr => by
    rw [ha r (by simpa using hr), length_lshape_prod hL hp]), ← psum_eq_sum, hL.sum hp, prod_split hL.axis_lt]

/-- the local array is a slice of the global one -/
theorem larr_eq_slice (hL : L.WF n) (hp : L.part = .scatter) (ha : ∀ r < n, (a r).length = (L.lshape r).prod)
    {r : Nat} (hr : r < n) :
    (L.fam n dt a r).larr = (L.global n dt a).slice L.axis (L.off r) (L.off (r + 1)) := by
  have hb : ¬ L.part.isBroadcast = true := by rw [hp]; simp [Partition.isBroadcast]
  have h1 := off_le hL hp (Nat.le_of_lt hr)
  have h2 := off_le (r := r + 1) hL hp hr
  have h3 := off_succ (L := L) r
  unfold Layout.fam NDArray.slice
  dsimp only [Layout.global]
  rw [Nat.min_eq_left h1, Nat.min_eq_left h2, h3, Nat.add_sub_cancel_left, lshape_scatter hp]
  congr 1
  unfold Layout.globalData
  rw [if_neg hb]
  exact (slice_concatData L.sizes n (hL.sum hp) a (fun r hr => by rw [ha r hr, length_lshape_prod hL hp]) hr).symm

theorem len_local (hL : L.WF n) (hp : L.part = .scatter) (r : Nat) :
    len (L.fam n dt a r).lshape (L.fam n dt a r).axis = L.sizes r := by
  show len (L.lshape r) L.axis = _
  rw [lshape_scatter hp, len_set hL.axis_lt]

/-- cells effectively added in front of rank `r` / after rank `r` -/
def frontCells (f : Nat → Nat) (r : Nat) : Nat := if r = 0 then 0 else f r
def backCells (n : Nat) (b : Nat → Nat) (r : Nat) : Nat := if r = n - 1 then 0 else b r

/-- the window of the global array for rank `r` -/
def Layout.window (L : Layout) (G : NDArray K) (r fr bk : Nat) : NDArray K :=
  G.slice L.axis (L.off r - fr) (L.off (r + 1) + bk)

/-- rank `r` has enough entries for what its successor requests in front -/
def FrontOk (L : Layout) (n : Nat) (f : Nat → Nat) (r : Nat) : Prop := r + 1 < n → f (r + 1) ≤ L.sizes r
/-- rank `r` has enough entries for what its predecessor requests at the back -/
def BackOk (L : Layout) (b : Nat → Nat) (r : Nat) : Prop := 0 < r → b (r - 1) ≤ L.sizes r

/-- message sent by rank `r` to its successor -/
def Layout.upMsg (L : Layout) (G : NDArray K) (f : Nat → Nat) (r : Nat) : NDArray K :=
  G.slice L.axis (L.off (r + 1) - f (r + 1)) (L.off (r + 1))
/-- message sent by rank `r` to its predecessor -/
def Layout.downMsg (L : Layout) (G : NDArray K) (b : Nat → Nat) (r : Nat) : NDArray K :=
  G.slice L.axis (L.off r) (L.off r + b (r - 1))

theorem getD_append_zero (f : Nat → Nat) (r : Nat) (hr : r ≤ n) :
    ((List.range n).map f ++ [0]).getD r 0 = if r < n then f r else 0 := by
  split_ifs with h
  · rw [List.getD_eq_getElem?_getD, List.getElem?_append_left (by simpa using h)]
    simp [h]
  · have : r = n := by omega
    subst this
    simp [List.getD_eq_getElem?_getD]

section
variable (hL : L.WF n) (hp : L.part = .scatter) (ha : ∀ r < n, (a r).length = (L.lshape r).prod)
include hL hp ha

theorem concat_front {r : Nat} (hr : r < n) (h0 : r ≠ 0) {f : Nat → Nat} (hf : FrontOk L n f (r - 1)) :
    concat L.axis [L.upMsg (L.global n dt a) f (r - 1), (L.fam n dt a r).larr]
      = .ok (L.window (L.global n dt a) r (f r) 0) := by
  have e : r - 1 + 1 = r := by omega
  have h1 : f r ≤ L.sizes (r - 1) := by have := hf (by omega); rwa [e] at this
  have h2 : L.off r = L.off (r - 1) + L.sizes (r - 1) := by rw [← off_succ, e]
  rw [larr_eq_slice hL hp ha hr, Layout.upMsg, e]
  exact concat_slices (global_wf hL hp ha) hL.axis_lt (by omega) (psum_mono _ (by omega)) (off_le hL hp hr)

theorem concat_back {r fr : Nat} (hr : r < n) (h0 : r ≠ n - 1) {b : Nat → Nat} (hb : BackOk L b (r + 1)) (hfr : fr ≤ L.off r) :
    concat L.axis [L.window (L.global n dt a) r fr 0, L.downMsg (L.global n dt a) b (r + 1)]
      = .ok (L.window (L.global n dt a) r fr (b r)) := by
  have h1 : b r ≤ L.sizes (r + 1) := by have := hb (by omega); simpa using this
  have h2 := off_succ (L := L) (r + 1)
  have h3 := off_le (r := r + 1 + 1) hL hp (by omega)
  have h4 : L.off r ≤ L.off (r + 1) := psum_mono _ (by omega)
  have h5 : len (L.global n dt a).shape L.axis = len L.gshape L.axis := rfl
  simp only [Layout.window, Layout.downMsg, Nat.add_sub_cancel, Nat.add_zero]
  exact concat_slices (global_wf hL hp ha) hL.axis_lt (by omega) (by omega) (by omega)

theorem slice_up {r : Nat} (hr : r + 1 < n) {f : Nat → Nat} (hf : FrontOk L n f r) :
    (L.fam n dt a r).larr.slice L.axis (L.sizes r - f (r + 1)) (L.sizes r) = L.upMsg (L.global n dt a) f r := by
  have h1 := hf hr
  have h2 := off_succ (L := L) r
  rw [larr_eq_slice hL hp ha (by omega), slice_slice (global_wf hL hp ha) hL.axis_lt (by omega) (by omega)
    (off_le hL hp (by omega)), Layout.upMsg]
  congr 1; omega

theorem slice_down {r : Nat} (hr : r < n) (h0 : r ≠ 0) {b : Nat → Nat} (hb : BackOk L b r) :
    (L.fam n dt a r).larr.slice L.axis 0 (b (r - 1)) = L.downMsg (L.global n dt a) b r := by
  have h1 := hb (by omega)
  have h2 := off_succ (L := L) r
  rw [larr_eq_slice hL hp ha hr, slice_slice (global_wf hL hp ha) hL.axis_lt (by omega) (by omega)
    (off_le (r := r + 1) hL hp hr), Layout.downMsg]
  rfl

/-- front phase, after the allgather: continuation of rank `r` with the message received -/
def frontCont (L : Layout) (n : Nat) (dt : DType) (a : Nat → List K) (f : Nat → Nat) (r : Nat) (m : Option (Msg K)) : P K (NDArray K) :=
  ((match m with
    | none => .ret (L.fam n dt a r).larr
    | some m => ((match Enc.dec (K := K) m with
        | some x => .ret x
        | none => .throw .protocol : P K (NDArray K))).bind fun x => Prog.lift (concat L.axis [x, (L.fam n dt a r).larr])) : P K (NDArray K)).bind
  fun g => if r ≠ n - 1 then
      if f (r + 1) > L.sizes r then .throw .value
      else .send (r + 1) 1 (Enc.enc ((L.fam n dt a r).larr.slice L.axis (L.sizes r - f (r + 1)) (L.sizes r))) (.ret g)
    else .ret g

omit ha in
theorem ghostFront_eq {f : Nat → Nat} {r : Nat} (hr : r < n) :
    (L.fam n dt a r).ghostFront (env n J r) (f r) (L.fam n dt a r).larr
      = (allgather (env n J r) (f r)).bind fun tot =>
        let cf := (tot ++ [0]).getD (r + 1) 0
        ((if r ≠ 0 then (recvFrom (α := NDArray K) (r - 1) 1).bind fun m => Prog.lift (concat L.axis [m, (L.fam n dt a r).larr])
          else .ret (L.fam n dt a r).larr : P K (NDArray K))).bind fun g =>
        if r ≠ n - 1 then
          if cf > L.sizes r then .throw .value
          else .send (r + 1) 1 (Enc.enc ((L.fam n dt a r).larr.slice L.axis (L.sizes r - cf) (L.sizes r))) (.ret g)
        else .ret g := by
  unfold DArr.ghostFront
  simp only [len_local hL hp, Prog.bind_eq]
  congr 1
  funext tot
  by_cases h0 : r = 0
  · simp only [env, h0, ne_eq, not_true_eq_false, if_false]
    rfl
  · simp only [env, h0, ne_eq, not_false_eq_true, if_true, Prog.bind_assoc]
    rfl

omit ha in
theorem frontCont_eq {f : Nat → Nat} {r : Nat} (hr : r < n) :
    ((let cf := ((List.range n).map f ++ [0]).getD (r + 1) 0;
        ((if r ≠ 0 then (recvFrom (α := NDArray K) (r - 1) 1).bind fun m => Prog.lift (concat L.axis [m, (L.fam n dt a r).larr])
          else .ret (L.fam n dt a r).larr : P K (NDArray K))).bind fun g =>
        if r ≠ n - 1 then
          if cf > L.sizes r then .throw .value
          else .send (r + 1) 1 (Enc.enc ((L.fam n dt a r).larr.slice L.axis (L.sizes r - cf) (L.sizes r))) (.ret g)
        else .ret g : P K (NDArray K)))
      = if r = 0 then frontCont L n dt a f r none else .recv (r - 1) 1 (fun m => frontCont L n dt a f r (some m)) := by
  have hcf : r ≠ n - 1 → ((List.range n).map f ++ [0]).getD (r + 1) 0 = f (r + 1) := fun h => by
    rw [getD_append_zero f (r + 1) (by omega), if_pos (by omega)]
  dsimp only
  have tail : (fun g => (if r ≠ n - 1 then
          if ((List.range n).map f ++ [0]).getD (r + 1) 0 > L.sizes r then .throw .value
          else .send (r + 1) 1 (Enc.enc ((L.fam n dt a r).larr.slice L.axis
            (L.sizes r - ((List.range n).map f ++ [0]).getD (r + 1) 0) (L.sizes r))) (.ret g)
        else .ret g : P K (NDArray K))) = (fun g => (if r ≠ n - 1 then
      if f (r + 1) > L.sizes r then .throw .value
      else .send (r + 1) 1 (Enc.enc ((L.fam n dt a r).larr.slice L.axis (L.sizes r - f (r + 1)) (L.sizes r))) (.ret g)
    else .ret g : P K (NDArray K))) := by
    funext g
    by_cases h : r ≠ n - 1
    · rw [if_pos h, if_pos h, hcf h]
    · rw [if_neg h, if_neg h]
  rw [tail]
  by_cases h0 : r = 0
  · rw [if_neg (by simpa using h0), if_pos h0]
    rfl
  · rw [if_pos h0, if_neg h0]
    unfold recvFrom
    simp only [Prog.bind]
    congr 1
    funext m
    unfold frontCont
    cases h : Enc.dec (K := K) (α := NDArray K) m <;> simp [h]

/-- the continuation with the right message -/
theorem frontCont_good {f : Nat → Nat} {r : Nat} (hr : r < n) (hf : r ≠ 0 → FrontOk L n f (r - 1)) :
    frontCont L n dt a f r (if r = 0 then none else some (Enc.enc (L.upMsg (L.global n dt a) f (r - 1))))
      = if r ≠ n - 1 then
          if f (r + 1) > L.sizes r then .throw .value
          else .send (r + 1) 1 (Enc.enc ((L.fam n dt a r).larr.slice L.axis (L.sizes r - f (r + 1)) (L.sizes r)))
            (.ret (L.window (L.global n dt a) r (frontCells f r) 0))
        else .ret (L.window (L.global n dt a) r (frontCells f r) 0) := by
  by_cases h0 : r = 0
  · subst h0
    rw [if_pos rfl]
    unfold frontCont
    dsimp only
    have e : (L.fam n dt a 0).larr = L.window (L.global n dt a) 0 (frontCells f 0) 0 := by
      rw [larr_eq_slice hL hp ha hr]; rfl
    rw [← e]
    rfl
  · rw [if_neg h0]
    unfold frontCont
    dsimp only
    simp only [Enc.dec_enc, Prog.ret_bind, concat_front hL hp ha hr h0 (hf h0), Prog.lift_ok]
    simp only [frontCells, if_neg h0]

theorem runs_ghostFront {f : Nat → Nat} (hf : ∀ r < n, FrontOk L n f r) :
    Runs n (fun r => (L.fam n dt a r).ghostFront (env n J r) (f r) (L.fam n dt a r).larr)
      (fun r => .ok (L.window (L.global n dt a) r (frontCells f r) 0)) := by
  refine Runs.congr (runs_allgather (J := J) (v := f) (Runs.congr (Runs.shift_up (t := 1) (c := frontCont L n dt a f)
    (v := fun r => Enc.enc (L.upMsg (L.global n dt a) f r)) (k := fun r => .ret (L.window (L.global n dt a) r (frontCells f r) 0))
    (fun r hr => ?_) (Runs.ret _)) (fun r hr => (frontCont_eq hL hp hr).symm) (fun _ _ => rfl)))
    (fun r hr => (ghostFront_eq hL hp hr).symm) (fun _ _ => rfl)
  rw [frontCont_good hL hp ha hr (fun h => hf _ (by omega))]
  by_cases h1 : r = n - 1
  · rw [if_neg (by simpa using h1), if_pos h1]
  · rw [if_pos h1, if_neg h1]
    have := hf r hr (by omega)
    rw [if_neg (by omega), slice_up hL hp ha (by omega) (hf r hr)]

/-- back phase, after the allgather -/
def backCont (L : Layout) (n : Nat) (dt : DType) (a : Nat → List K) (b : Nat → Nat) (g : NDArray K) (r : Nat) : P K (NDArray K) :=
  let recvPart : P K (NDArray K) :=
    if r ≠ n - 1 then (recvFrom (α := NDArray K) (r + 1) 0).bind fun m => Prog.lift (concat L.axis [g, m])
    else .ret g
  if r ≠ 0 then
    if b (r - 1) > L.sizes r then .throw .value
    else .send (r - 1) 0 (Enc.enc ((L.fam n dt a r).larr.slice L.axis 0 (b (r - 1)))) recvPart
  else recvPart

omit ha in
theorem ghostBack_eq {b : Nat → Nat} {r : Nat} {g : NDArray K} :
    (L.fam n dt a r).ghostBack (env n J r) (b r) g
      = (allgather (env n J r) (b r)).bind fun tot =>
        let cb := if r = 0 then 0 else (tot ++ [0]).getD (r - 1) 0
        let recvPart : P K (NDArray K) :=
          if r ≠ n - 1 then (recvFrom (α := NDArray K) (r + 1) 0).bind fun m => Prog.lift (concat L.axis [g, m])
          else .ret g
        if r ≠ 0 then
          if cb > L.sizes r then .throw .value
          else .send (r - 1) 0 (Enc.enc ((L.fam n dt a r).larr.slice L.axis 0 cb)) recvPart
        else recvPart := by
  unfold DArr.ghostBack
  simp only [len_local hL hp, Prog.bind_eq]
  rfl

omit ha hL hp in
theorem backCont_eq {b : Nat → Nat} {r : Nat} {g : NDArray K} (hr : r < n) :
    (let cb := if r = 0 then 0 else ((List.range n).map b ++ [0]).getD (r - 1) 0
        let recvPart : P K (NDArray K) :=
          if r ≠ n - 1 then (recvFrom (α := NDArray K) (r + 1) 0).bind fun m => Prog.lift (concat L.axis [g, m])
          else .ret g
        if r ≠ 0 then
          if cb > L.sizes r then .throw .value
          else .send (r - 1) 0 (Enc.enc ((L.fam n dt a r).larr.slice L.axis 0 cb)) recvPart
        else recvPart) = backCont L n dt a b g r := by
  by_cases h0 : r = 0
  · simp [h0, backCont]
  · have : ((List.range n).map b ++ [0]).getD (r - 1) 0 = b (r - 1) := by
      rw [getD_append_zero b (r - 1) (by omega), if_pos (by omega)]
    simp only [if_neg h0, this]
    rfl

theorem runs_ghostBack {b fr : Nat → Nat} (hb : ∀ r < n, BackOk L b r) (hfr : ∀ r < n, fr r ≤ L.off r) :
    Runs n (fun r => (L.fam n dt a r).ghostBack (env n J r) (b r) (L.window (L.global n dt a) r (fr r) 0))
      (fun r => .ok (L.window (L.global n dt a) r (fr r) (backCells n b r))) := by
  refine Runs.congr (runs_allgather (J := J) (v := b) (Runs.congr (Runs.shift_down (t := 0)
    (v := fun r => Enc.enc (L.downMsg (L.global n dt a) b r)) (k := fun r m => match m with
      | none => .ret (L.window (L.global n dt a) r (fr r) 0)
      | some m => (match Enc.dec (K := K) m with
        | some x => Prog.lift (concat L.axis [L.window (L.global n dt a) r (fr r) 0, x])
        | none => .throw .protocol : P K (NDArray K)))
    (Runs.congr (Runs.ret fun r => L.window (L.global n dt a) r (fr r) (backCells n b r)) (fun r hr => ?_) (fun _ _ => rfl))) (fun r hr => ?_) (fun _ _ => rfl)))
    (fun r hr => (ghostBack_eq hL hp).symm) (fun _ _ => rfl)
  · by_cases h : r = n - 1
    · simp [h, backCells]
    · simp only [if_neg h, Enc.dec_enc, backCells]
      rw [concat_back hL hp ha hr h (hb (r + 1) (by omega)) (hfr r hr), Prog.lift_ok]
  · rw [backCont_eq hr]
    unfold backCont
    have er : ((if r ≠ n - 1 then (recvFrom (α := NDArray K) (r + 1) 0).bind fun m => Prog.lift (concat L.axis [L.window (L.global n dt a) r (fr r) 0, m])
        else .ret (L.window (L.global n dt a) r (fr r) 0) : P K (NDArray K)))
        = if r = n - 1 then .ret (L.window (L.global n dt a) r (fr r) 0) else .recv (r + 1) 0 (fun m => match Enc.dec (K := K) m with
        | some x => Prog.lift (concat L.axis [L.window (L.global n dt a) r (fr r) 0, x])
        | none => .throw .protocol) := by
      by_cases h : r = n - 1
      · rw [if_neg (by simpa using h), if_pos h]
      · rw [if_pos h, if_neg h]
        unfold recvFrom
        simp only [Prog.bind]
        congr 1
        funext m
        cases h : Enc.dec (K := K) (α := NDArray K) m <;> rfl
    dsimp only
    rw [er]
    by_cases h0 : r = 0
    · simp only [h0, ne_eq, not_true_eq_false, if_true, if_false]
    · simp only [h0, ne_eq, not_false_eq_true, if_true, if_false]
      have := hb r hr (by omega)
      rw [if_neg (show ¬ (b (r - 1) > L.sizes r) by omega), slice_down hL hp ha hr h0 (hb r hr)]

/-- the whole exchange -/
theorem runs_addGhostCells {front back : Option (Nat → Nat)} (hf : ∀ f, front = some f → ∀ r < n, FrontOk L n f r)
    (hb : ∀ b, back = some b → ∀ r < n, BackOk L b r) :
    Runs n (fun r => (L.fam n dt a r).addGhostCells (env n J r) (front.map (· r)) (back.map (· r)))
      (fun r => .ok (L.window (L.global n dt a) r (frontCells (front.getD fun _ => 0) r) (backCells n (back.getD fun _ => 0) r))) := by
  unfold DArr.addGhostCells
  simp only [Prog.bind_eq]
  have h1 : Runs n (fun r => (match front.map (· r) with
      | some f => (L.fam n dt a r).ghostFront (env n J r) f (L.fam n dt a r).larr
      | none => .ret (L.fam n dt a r).larr : P K (NDArray K)))
      (fun r => .ok (L.window (L.global n dt a) r (frontCells (front.getD fun _ => 0) r) 0)) := by
    cases front with
    | none =>
      refine Runs.congr (Runs.ret _) (fun _ _ => rfl) (fun r hr => ?_)
      rw [larr_eq_slice hL hp ha hr]
      simp [Layout.window, frontCells]
    | some f => exact runs_ghostFront hL hp ha (hf f rfl)
  have hfr : ∀ r < n, frontCells (front.getD fun _ => 0) r ≤ L.off r := by
    intro r hr
    unfold frontCells
    split_ifs with h0
    · exact Nat.zero_le _
    · cases front with
      | none => exact Nat.zero_le _
      | some f =>
        have h2 := hf f rfl (r - 1) (by omega) (by omega)
        have e : r - 1 + 1 = r := by omega
        have h3 := off_succ (L := L) (r - 1)
        rw [e] at h2 h3
        show f r ≤ _
        omega
  have h2 : Runs n (fun r => (match back.map (· r) with
      | some b => (L.fam n dt a r).ghostBack (env n J r) b (L.window (L.global n dt a) r (frontCells (front.getD fun _ => 0) r) 0)
      | none => .ret (L.window (L.global n dt a) r (frontCells (front.getD fun _ => 0) r) 0) : P K (NDArray K)))
      (fun r => .ok (L.window (L.global n dt a) r (frontCells (front.getD fun _ => 0) r) (backCells n (back.getD fun _ => 0) r))) := by
    cases back with
    | none =>
      refine Runs.congr (Runs.ret _) (fun _ _ => rfl) (fun r hr => ?_)
      simp [backCells]
    | some b => exact runs_ghostBack hL hp ha (hb b rfl) hfr
  refine Runs.congr (Runs.bind_ok h1 (k := fun r g => (match back.map (· r) with
      | some b => (L.fam n dt a r).ghostBack (env n J r) b g
      | none => .ret g : P K (NDArray K))) h2) (fun r hr => ?_) (fun _ _ => rfl)
  cases front <;> rfl
end

/-! ### Executions in which some rank is too small -/

section
variable (hL : L.WF n) (hp : L.part = .scatter) (ha : ∀ r < n, (a r).length = (L.lshape r).prod)

/-- the messages of a correct exchange -/
def ghostMsg (L : Layout) (n : Nat) (G : NDArray K) (f b : Nat → Nat) (i j t : Nat) (v : Msg K) : Prop :=
  (t = 1 → j = i + 1 → v = Enc.enc (L.upMsg G f i) ∧ FrontOk L n f i) ∧
  (t = 0 → i = j + 1 → v = Enc.enc (L.downMsg G b i) ∧ BackOk L b i)

/-- contributions to the second `allgather` -/
def ghostColl (n : Nat) (b : Nat → Nat) (_ : CollKind) (_ : List Nat) (r : Nat) (v : Msg K) : Prop := v = Enc.enc (b r)

include hL hp ha

theorem frontCells_le {f : Nat → Nat} {r : Nat} (hr : r < n) (hf : r ≠ 0 → FrontOk L n f (r - 1)) : frontCells f r ≤ L.off r := by
  unfold frontCells
  split_ifs with h0
  · exact Nat.zero_le _
  · have h2 := hf h0 (by omega)
    have e : r - 1 + 1 = r := by omega
    have h3 := off_succ (L := L) (r - 1)
    rw [e] at h2 h3
    omega

theorem safe_front {f b : Nat → Nat} {r : Nat} (hr : r < n) :
    Safe (ghostMsg L n (L.global n dt a) f b) (ghostColl n b) (fun r o => match o with
        | .ok g => g = L.window (L.global n dt a) r (frontCells f r) 0 ∧ frontCells f r ≤ L.off r
        | .error e => e = .value ∧ ¬ FrontOk L n f r) r
      (if r = 0 then frontCont L n dt a f r none else .recv (r - 1) 1 (fun m => frontCont L n dt a f r (some m))) := by
  have main : (r ≠ 0 → FrontOk L n f (r - 1)) → Safe (ghostMsg L n (L.global n dt a) f b) (ghostColl n b) (fun r o => match o with
        | .ok g => g = L.window (L.global n dt a) r (frontCells f r) 0 ∧ frontCells f r ≤ L.off r
        | .error e => e = .value ∧ ¬ FrontOk L n f r) r
      (frontCont L n dt a f r (if r = 0 then none else some (Enc.enc (L.upMsg (L.global n dt a) f (r - 1))))) := by
    intro hf
    have hc := frontCells_le hL hp ha hr hf
    rw [frontCont_good hL hp ha hr hf]
    by_cases h1 : r = n - 1
    · rw [if_neg (by simpa using h1)]
      exact ⟨rfl, hc⟩
    · rw [if_pos h1]
      by_cases h2 : f (r + 1) > L.sizes r
      · rw [if_pos h2]
        exact ⟨rfl, fun h => absurd (h (by omega)) (by omega)⟩
      · rw [if_neg h2]
        have h3 : FrontOk L n f r := fun _ => by omega
        refine ⟨⟨fun _ _ => ⟨?_, h3⟩, fun h => by simp at h⟩, rfl, hc⟩
        rw [slice_up hL hp ha (by omega) h3]
  by_cases h0 : r = 0
  · rw [if_pos h0]
    have := main (fun h => absurd h0 h)
    rwa [if_pos h0] at this
  · rw [if_neg h0]
    intro v hv
    obtain ⟨rfl, h2⟩ := hv.1 rfl (by omega)
    have := main (fun _ => h2)
    rwa [if_neg h0] at this

theorem safe_back {f b : Nat → Nat} {r : Nat} (hr : r < n) {fr : Nat} (hfr : fr ≤ L.off r) :
    Safe (ghostMsg L n (L.global n dt a) f b) (ghostColl n b) (fun r o => match o with
        | .ok g => g = L.window (L.global n dt a) r fr (backCells n b r)
        | .error e => e = .value ∧ ¬ BackOk L b r) r
      ((L.fam n dt a r).ghostBack (env n J r) (b r) (L.window (L.global n dt a) r fr 0)) := by
  rw [ghostBack_eq hL hp]
  refine ⟨rfl, fun w hw => ?_⟩
  have e : (env n J r).world.map w = (List.range n).map fun q => Enc.enc (b q) := List.map_congr_left fun q hq => hw q hq
  rw [e]
  simp only [decAll_map, Prog.lift_ok, Prog.ret_bind]
  have hx := backCont_eq (L := L) (dt := dt) (a := a) (b := b) (g := L.window (L.global n dt a) r fr 0) hr
  simp only [Prog.bind] at hx ⊢
  rw [hx]
  have hrec : Safe (ghostMsg L n (L.global n dt a) f b) (ghostColl n b) (fun r o => match o with
        | .ok g => g = L.window (L.global n dt a) r fr (backCells n b r)
        | .error e => e = .value ∧ ¬ BackOk L b r) r
      (if r ≠ n - 1 then (recvFrom (α := NDArray K) (r + 1) 0).bind fun m => Prog.lift (concat L.axis [L.window (L.global n dt a) r fr 0, m])
        else .ret (L.window (L.global n dt a) r fr 0) : P K (NDArray K)) := by
    by_cases h1 : r = n - 1
    · rw [if_neg (by simpa using h1)]
      simp [Safe, backCells, h1]
    · rw [if_pos h1]
      intro v hv
      obtain ⟨rfl, h2⟩ := hv.2 rfl rfl
      simp only [Enc.dec_enc, Prog.ret_bind]
      rw [concat_back hL hp ha hr h1 h2 hfr]
      simp [Safe, backCells, h1]
  unfold backCont
  dsimp only
  by_cases h0 : r = 0
  · rw [if_neg (by simpa using h0)]; exact hrec
  · rw [if_pos h0]
    by_cases h2 : b (r - 1) > L.sizes r
    · rw [if_pos h2]
      exact ⟨rfl, fun h => absurd (h (by omega)) (by omega)⟩
    · rw [if_neg h2]
      have h3 : BackOk L b r := fun _ => by omega
      refine ⟨⟨fun h => by simp at h, fun _ _ => ⟨?_, h3⟩⟩, hrec⟩
      rw [slice_down hL hp ha hr h0 h3]

/-- the first `allgather` always completes; what follows -/
def ghostMid (L : Layout) (n : Nat) (J : Nat → Nat → K) (dt : DType) (a : Nat → List K) (front back : Option (Nat → Nat)) (r : Nat) : P K (NDArray K) :=
  ((match front with
    | none => .ret (L.fam n dt a r).larr
    | some f => if r = 0 then frontCont L n dt a f r none else .recv (r - 1) 1 (fun m => frontCont L n dt a f r (some m))) : P K (NDArray K)).bind
  fun g => match back with
    | none => .ret g
    | some b => (L.fam n dt a r).ghostBack (env n J r) (b r) g

omit ha in
theorem ghost_steps (front back : Option (Nat → Nat)) :
    ∃ qs, ReflTransGen (SStep n) (fun r => (L.fam n dt a r).addGhostCells (env n J r) (front.map (· r)) (back.map (· r))) qs ∧
      ∀ r < n, qs r = ghostMid L n J dt a front back r := by
  cases front with
  | none =>
    refine ⟨_, .refl, fun r hr => ?_⟩
    unfold DArr.addGhostCells ghostMid
    cases back <;> rfl
  | some f =>
    rcases Nat.eq_zero_or_pos n with rfl | hn
    · exact ⟨_, .refl, by simp⟩
    · have step := SStep.col (n := n) (c := List.range n) (kind := .allgather) (v := fun r => (Enc.enc (f r) : Msg K))
        (kk := fun r ms => ((Prog.lift (decAll ms) : P K (List Nat)).bind fun tot =>
          let cf := (tot ++ [0]).getD (r + 1) 0
        ((if r ≠ 0 then (recvFrom (α := NDArray K) (r - 1) 1).bind fun m => Prog.lift (concat L.axis [m, (L.fam n dt a r).larr])
          else .ret (L.fam n dt a r).larr : P K (NDArray K))).bind fun g =>
        if r ≠ n - 1 then
          if cf > L.sizes r then .throw .value
          else .send (r + 1) 1 (Enc.enc ((L.fam n dt a r).larr.slice L.axis (L.sizes r - cf) (L.sizes r))) (.ret g)
        else .ret g).bind fun g => match back with
          | none => .ret g
          | some b => (L.fam n dt a r).ghostBack (env n J r) (b r) g)
        (ps := fun r => (L.fam n dt a r).addGhostCells (env n J r) (some (f r)) (back.map (· r))) (by simp; omega) (by simp) (by
          intro r hr
          have hr' : r < n := by simpa using hr
          dsimp only
          unfold DArr.addGhostCells
          simp only [Prog.bind_eq]
          rw [ghostFront_eq hL hp hr']
          cases back <;> rfl)
      refine ⟨_, .single step, fun r hr => ?_⟩
      dsimp only
      rw [if_pos (by simpa using hr), decAll_map]
      simp only [Prog.lift_ok, Prog.ret_bind]
      rw [frontCont_eq hL hp hr]
      rfl

theorem safe_mid {front back : Option (Nat → Nat)} {r : Nat} (hr : r < n) :
    Safe (ghostMsg L n (L.global n dt a) (front.getD fun _ => 0) (back.getD fun _ => 0)) (ghostColl n (back.getD fun _ => 0)) (fun r o => match o with
        | .ok g => g = L.window (L.global n dt a) r (frontCells (front.getD fun _ => 0) r) (backCells n (back.getD fun _ => 0) r)
        | .error e => e = .value ∧ ((∃ f, front = some f ∧ ¬ FrontOk L n f r) ∨ ∃ b, back = some b ∧ ¬ BackOk L b r)) r
      (ghostMid L n J dt a front back r) := by
  unfold ghostMid
  refine Safe.bind ?_
  have key : ∀ fr, fr ≤ L.off r → Safe (ghostMsg L n (L.global n dt a) (front.getD fun _ => 0) (back.getD fun _ => 0)) (ghostColl n (back.getD fun _ => 0)) (fun r o => match o with
        | .ok g => g = L.window (L.global n dt a) r fr (backCells n (back.getD fun _ => 0) r)
        | .error e => e = .value ∧ ((∃ f, front = some f ∧ ¬ FrontOk L n f r) ∨ ∃ b, back = some b ∧ ¬ BackOk L b r)) r
      (match back with
        | none => .ret (L.window (L.global n dt a) r fr 0)
        | some b => (L.fam n dt a r).ghostBack (env n J r) (b r) (L.window (L.global n dt a) r fr 0) : P K (NDArray K)) := by
    intro fr hfr
    cases back with
    | none => simp [Safe, backCells]
    | some b =>
      refine (safe_back (J := J) (f := front.getD fun _ => 0) (b := b) hL hp ha hr hfr).mono fun o ho => ?_
      cases o with
      | ok g => exact ho
      | error e => exact ⟨ho.1, .inr ⟨b, rfl, ho.2⟩⟩
  cases front with
  | none =>
    have e : (L.fam n dt a r).larr = L.window (L.global n dt a) r 0 0 := by
      rw [larr_eq_slice hL hp ha hr]; rfl
    dsimp only [Safe]
    rw [e]
    have := key 0 (Nat.zero_le _)
    exact this.mono fun o ho => by cases o <;> simpa [frontCells] using ho
  | some f =>
    refine (safe_front (f := f) (b := back.getD fun _ => 0) hL hp ha hr).mono fun o ho => ?_
    cases o with
    | ok g =>
      obtain ⟨rfl, h2⟩ := ho
      exact (key _ h2).mono fun o ho => by cases o <;> exact ho
    | error e => exact ⟨ho.1, .inl ⟨f, rfl, ho.2⟩⟩

theorem ghost_raises_front {f : Nat → Nat} (back : Option (Nat → Nat)) {m : Nat} (hm : m < n) (hf : ∀ r < m, FrontOk L n f r)
    (hbad : ¬ FrontOk L n f m) :
    RankEnds n (fun r => (L.fam n dt a r).addGhostCells (env n J r) (some (f r)) (back.map (· r))) m (.error .value) := by
  obtain ⟨qs, h1, h2⟩ := ghost_steps (J := J) (dt := dt) (a := a) hL hp (some f) back
  obtain ⟨rs, h3, h4⟩ := shift_up_steps (n := n) (t := 1) (m := m) hm (v := fun r => Enc.enc (L.upMsg (L.global n dt a) f r))
    (c := frontCont L n dt a f) (k := fun r => .ret (L.window (L.global n dt a) r (frontCells f r) 0)) (fun r hr => by
      rw [frontCont_good hL hp ha (by omega) (fun h => hf _ (by omega)), if_pos (by omega)]
      have := hf r hr (by omega)
      rw [if_neg (by omega), slice_up hL hp ha (by omega) (hf r hr)])
  have h5 : ReflTransGen (SStep n) (fun r => ghostMid L n J dt a (some f) back r)
      (fun r => (rs r).bind fun g => match (generalizing := false) back with
        | none => .ret g
        | some b => (L.fam n dt a r).ghostBack (env n J r) (b r) g) := by
    clear h4 h1 h2
    show ReflTransGen (SStep n) (fun r => Prog.bind (if r = 0 then frontCont L n dt a f r none else .recv (r - 1) 1 (fun m => frontCont L n dt a f r (some m))) _) _
    induction h3 with
    | refl => exact .refl
    | tail _ h2 ih => exact ih.tail (h2.bind _)
  obtain ⟨ts, h6, h7⟩ := steps_congr h5 (fun r hr => (h2 r hr).symm)
  refine RankEnds.of_steps (h1.trans h6) ?_
  rw [← h7 m hm, h4 m hm, if_neg (by omega), if_pos rfl, frontCont_good hL hp ha hm (fun h => hf _ (by omega))]
  have hlt : m + 1 < n ∧ f (m + 1) > L.sizes m := by
    by_contra h
    exact hbad fun h' => by omega
  rw [if_pos (by omega), if_pos hlt.2]
  rfl

theorem ghost_raises_back {front : Option (Nat → Nat)} {b : Nat → Nat} {m : Nat} (hm : m < n)
    (hf : ∀ f, front = some f → ∀ r < n, FrontOk L n f r) (hbad : ¬ BackOk L b m) :
    RankEnds n (fun r => (L.fam n dt a r).addGhostCells (env n J r) (front.map (· r)) (some (b r))) m (.error .value) := by
  have h1 := runs_addGhostCells (J := J) (dt := dt) (back := none) hL hp ha hf (by simp)
  obtain ⟨qs, h2, h3⟩ := h1.bind_steps fun r g => (L.fam n dt a r).ghostBack (env n J r) (b r) g
  have hn : 0 < n := by omega
  obtain ⟨qs', h2', h3'⟩ := steps_congr (ps' := fun r => (L.fam n dt a r).addGhostCells (env n J r) (front.map (· r)) (some (b r))) h2 (fun r hr => by
    unfold DArr.addGhostCells
    cases front with
    | none => rfl
    | some f => simp only [Prog.bind_eq, Option.map_some, Option.map_none, Prog.bind_assoc]; rfl)
  have hb0 : m ≠ 0 ∧ b (m - 1) > L.sizes m := by
    by_contra h
    exact hbad fun h' => by omega
  have step := SStep.col (n := n) (c := List.range n) (kind := .allgather) (v := fun r => (Enc.enc (b r) : Msg K)) (ps := qs')
    (kk := fun r ms => ((Prog.lift (decAll ms) : P K (List Nat)).bind fun tot =>
        let g := L.window (L.global n dt a) r (frontCells (front.getD fun _ => 0) r) (backCells n (Option.getD none fun _ => 0) r)
        let cb := if r = 0 then 0 else (tot ++ [0]).getD (r - 1) 0
        let recvPart : P K (NDArray K) :=
          if r ≠ n - 1 then (recvFrom (α := NDArray K) (r + 1) 0).bind fun m => Prog.lift (concat L.axis [g, m])
          else .ret g
        if r ≠ 0 then
          if cb > L.sizes r then .throw .value
          else .send (r - 1) 0 (Enc.enc ((L.fam n dt a r).larr.slice L.axis 0 cb)) recvPart
        else recvPart)) (by simp; omega) (by simp) (by
      intro r hr
      have hr' : r < n := by simpa using hr
      rw [← h3' r hr', h3 r hr', ghostBack_eq hL hp]
      rfl)
  refine RankEnds.of_steps (h2'.tail step) ?_
  dsimp only
  rw [if_pos (by simpa using hm), decAll_map]
  simp only [Prog.lift_ok, Prog.ret_bind]
  rw [if_pos hb0.1, if_neg hb0.1, getD_append_zero b (m - 1) (by omega), if_pos (show m - 1 < n by omega), if_pos hb0.2]
  rfl

theorem ghost_waits {f : Nat → Nat} (back : Option (Nat → Nat)) {m : Nat} (hm : m < n) (hbad : ¬ FrontOk L n f m)
    {s} (hs : Run n (St.init fun r => (L.fam n dt a r).addGhostCells (env n J r) (some (f r)) (back.map (· r))) s)
    {r : Nat} (hmr : m < r) (hr : r < n) (o : Except Err (NDArray K)) : s.prog r ≠ Prog.lift o := by
  intro ho
  obtain ⟨qs, h1, h2⟩ := ghost_steps (J := J) (dt := dt) (a := a) hL hp (some f) back
  have hlt : m + 1 < n ∧ f (m + 1) > L.sizes m := by
    by_contra h
    exact hbad fun h' => by omega
  have key := Safe.sound_steps (G := fun i j t (_ : Msg K) => t = 1 → j = i + 1 → i < m) (H := fun _ _ _ _ => True)
    (R := fun r _ => r ≤ m) h1 (fun q hq => ?_) hs hr ho
  · omega
  rw [h2 q hq]
  rcases Nat.lt_trichotomy q m with h | h | h
  · exact Safe.trivial (fun _ _ _ _ _ => h) (fun _ _ _ => trivial) (fun _ => by omega)
  · subst h
    have hc : ∀ x, Safe (fun i j t (_ : Msg K) => t = 1 → j = i + 1 → i < q) (fun _ _ _ _ => True)
        (fun _ o => ∀ g, o ≠ .ok g) q (frontCont L n dt a f q x) := by
      intro x
      unfold frontCont
      simp only [ne_eq, show ¬ q = n - 1 by omega, not_false_eq_true, if_true, hlt.2]
      cases x with
      | none => simp [Safe]
      | some v =>
        cases h : Enc.dec (K := K) (α := NDArray K) v with
        | none => simp [Safe, h]
        | some y =>
          simp only [h, Prog.ret_bind]
          cases concat L.axis [y, (L.fam n dt a q).larr] <;> simp [Safe, Prog.lift]
    unfold ghostMid
    refine Safe.bind (Safe.mono (R := fun _ o => ∀ g, o ≠ .ok g) ?_ fun o ho => ?_)
    · dsimp only
      by_cases h0 : q = 0
      · rw [if_pos h0]; exact hc _
      · rw [if_neg h0]; exact fun v _ => hc _
    · cases o with
      | ok g => exact absurd rfl (ho g)
      | error e => exact Nat.le_refl _
  · unfold ghostMid
    dsimp only
    rw [if_neg (by omega)]
    intro v hv
    have := hv rfl (by omega)
    omega
end

end Verif

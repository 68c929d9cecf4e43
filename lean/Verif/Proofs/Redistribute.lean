/- Execution lemmas for the `reshaped` decorator. -/
import Verif.Proofs.Vec
import Verif.Model.Decorators
import Verif.Spec.Redistribute

namespace Verif
open NDArray Relation

set_option linter.unusedSectionVars false

theorem length_cumsum (l : List Int) : (cumsum l).length = l.length := by
  induction l with
  | nil => rfl
  | cons x xs ih => simp [cumsum, ih]

theorem cumsum_getD (l : List Int) (r : Nat) (hr : r < l.length) : (cumsum l).getD r 0 = (l.take (r + 1)).sum := by
  induction l generalizing r with
  | nil => simp at hr
  | cons x xs ih =>
    cases r with
    | zero => simp [cumsum]
    | succ r =>
      simp only [List.length_cons, Nat.add_lt_add_iff_right] at hr
      have := ih r hr
      rw [List.getD_eq_getElem _ _ (by rw [length_cumsum]; exact hr)] at this
      simp only [cumsum, List.getD_cons_succ, List.take_succ_cons, List.sum_cons]
      rw [List.getD_eq_getElem _ _ (by simp [length_cumsum, hr]), List.getElem_map, this]

theorem cumsum_last (l : List Int) (hl : l ≠ []) : (cumsum l).getLastD 0 = l.sum := by
  have hlen : 0 < l.length := List.length_pos_iff.2 hl
  have h1 := cumsum_getD l (l.length - 1) (by omega)
  rw [show l.length - 1 + 1 = l.length by omega, List.take_length] at h1
  rw [← h1, List.getLastD_eq_getLast?, List.getLast?_eq_getElem?, length_cumsum, List.getD_eq_getElem?_getD]

theorem sum_take_sub (w s : Nat → Nat) (n r : Nat) (hr : r ≤ n) :
    (((List.range n).map fun q => (w q : Int) - (s q : Int)).take r).sum = (psum w r : Int) - psum s r := by
  rw [← List.map_take, List.take_range, Nat.min_eq_left hr]
  clear hr
  induction r with
  | zero => simp [psum]
  | succ r ih =>
    rw [List.range_succ, List.map_append, List.sum_append, ih]
    simp [psum]; ring

section
variable {K : Type} [Field K] [StarRing K] [CharZero K] {n : Nat} {J : Nat → Nat → K} {X T : Layout} {dt : DType}

variable (hc : Conform n X T)

def rdFront (X T : Layout) (r : Nat) : Nat := psum X.cnt r - psum T.cnt r
def rdBack (X T : Layout) (r : Nat) : Nat := psum T.cnt (r + 1) - psum X.cnt (r + 1)

section
include hc

theorem cntX (r : Nat) : X.cnt r = X.sizes r := by
  unfold Layout.cnt
  rw [lshape_scatter hc.scX, hc.X1, hc.axX]
  simp

theorem cntT (r : Nat) : T.cnt r = T.sizes r * inner T.gshape 0 := by
  unfold Layout.cnt
  rw [length_lshape_prod hc.wfT hc.scT, hc.axT]
  simp [outer]

theorem psumX (r : Nat) : psum X.cnt r = X.off r := by
  have : X.cnt = X.sizes := funext (cntX hc)
  rw [this]

theorem psumT (r : Nat) : psum T.cnt r = psum T.sizes r * inner T.gshape 0 := by
  have : T.cnt = fun r => T.sizes r * inner T.gshape 0 := funext (cntT hc)
  rw [this, psum_mul]

theorem totalX : psum X.cnt n = T.gshape.prod := by
  rw [psumX hc, Layout.off, hc.wfX.sum hc.scX, hc.X1, hc.axX]
  simp [len]

theorem totalT : psum T.cnt n = T.gshape.prod := by
  have h := hc.wfT.axis_lt
  rw [psumT hc, hc.wfT.sum hc.scT, prod_split h, hc.axT]
  simp [outer]

/-- first part of `redistribute` -/
def redistPre (n : Nat) (J : Nat → Nat → K) (X T : Layout) (dt : DType) (lshapes : Option (List (List Nat))) (d : List K) (r : Nat) :
    P K (DArr K × List Nat × List Nat) :=
  (mkDArr (env n J r) T.gshape .scatter 0 lshapes none dt).bind fun arr =>
  (allgather (env n J r) arr.lshape.prod).bind fun al =>
  (allgather (env n J r) (X.cnt r)).bind fun xl => .ret (arr, al, xl)

/-- second part -/
def redistPost (n : Nat) (J : Nat → Nat → K) (X : Layout) (dt : DType) (d : List K) (r : Nat) (q : DArr K × List Nat × List Nat) : P K (DArr K) :=
  let dif := cumsum (List.zipWith (fun (a b : Nat) => (a : Int) - (b : Int)) q.2.1 q.2.2)
  ((VSpace.vec ⟨X, dt⟩ n d r).addGhostCells (env n J r) (some (min 0 (pyPrev dif r)).natAbs) (some (max 0 (dif.getD r 0)).toNat)).bind fun g =>
  (Prog.lift ((g.slice 0 (max 0 (pyPrev dif r)).toNat (q.2.1.getD r 0 + (max 0 (pyPrev dif r)).toNat)).reshape q.1.lshape)).bind fun v =>
  q.1.setAll (env n J r) v

theorem redistribute_eq (lshapes : Option (List (List Nat))) (d : List K) (r : Nat) :
    redistribute (env n J r) T.gshape lshapes (VSpace.vec ⟨X, dt⟩ n d r)
      = (redistPre n J X T dt lshapes d r).bind (redistPost n J X dt d r) := by
  unfold redistribute redistPre redistPost
  have h : ¬ ((VSpace.vec ⟨X, dt⟩ n d r : DArr K).part ≠ .scatter) := by
    rw [not_not]; exact hc.scX
  rw [if_neg h]
  simp only [Prog.bind_eq, Prog.bind_assoc, Prog.ret_bind]
  rfl

/-- the local shapes argument leads to the layout `T` -/
def Makes (n : Nat) (J : Nat → Nat → K) (T : Layout) (dt : DType) (lshapes : Option (List (List Nat))) : Prop :=
  Runs n (fun r => mkDArr (env n J r) T.gshape .scatter 0 lshapes none dt) (fun r => .ok (T.fam n dt (junkData J T dt) r))

omit hc in
theorem makes_some (hT : T.WF n) (hs : T.part = .scatter) (hax : T.axis = 0) (hm : T.mask = none) :
    Makes n J T dt (some ((List.range n).map T.lshape)) := by
  have := runs_mkDArr (J := J) (dt := dt) hT
  rwa [hs, hax, hm] at this

omit hc in
theorem makes_none (hT : T.WF n) (hs : T.part = .scatter) (hax : T.axis = 0) (hm : T.mask = none)
    (hb : T.sizes = balanced (len T.gshape 0) n) : Makes n J T dt none := by
  have := runs_mkDArr_none (J := J) (dt := dt) hT (fun _ => by rw [hax, hb])
  rwa [hs, hax, hm] at this

theorem runs_redistPre {lshapes : Option (List (List Nat))} (hmk : Makes n J T dt lshapes) (d : List K) :
    Runs n (redistPre n J X T dt lshapes d) (fun r => .ok (T.fam n dt (junkData J T dt) r, (List.range n).map T.cnt, (List.range n).map X.cnt)) := by
  unfold redistPre
  refine Runs.bind_ok hmk ?_
  refine runs_allgather (J := J) (v := T.cnt) ?_
  refine runs_allgather (J := J) (v := X.cnt) ?_
  exact Runs.ret _

/-- the arguments computed for the exchange -/
theorem redist_args {r : Nat} (hr : r < n) :
    let dif := cumsum (List.zipWith (fun (a b : Nat) => (a : Int) - (b : Int)) ((List.range n).map T.cnt) ((List.range n).map X.cnt))
    (min 0 (pyPrev dif r)).natAbs = rdFront X T r ∧ (max 0 (dif.getD r 0)).toNat = rdBack X T r
      ∧ (max 0 (pyPrev dif r)).toNat = psum T.cnt r - psum X.cnt r := by
  have e : List.zipWith (fun (a b : Nat) => (a : Int) - (b : Int)) ((List.range n).map T.cnt) ((List.range n).map X.cnt)
      = (List.range n).map fun q => (T.cnt q : Int) - (X.cnt q : Int) := by
    rw [List.zipWith_map, List.zipWith_self]
  have hlen : ((List.range n).map fun q => (T.cnt q : Int) - (X.cnt q : Int)).length = n := by simp
  have hd : ∀ r < n, (cumsum ((List.range n).map fun q => (T.cnt q : Int) - (X.cnt q : Int))).getD r 0 = (psum T.cnt (r + 1) : Int) - psum X.cnt (r + 1) := by
    intro r hr
    rw [cumsum_getD _ _ (by rw [hlen]; exact hr), sum_take_sub _ _ _ _ (by omega)]
  have hp : pyPrev (cumsum ((List.range n).map fun q => (T.cnt q : Int) - (X.cnt q : Int))) r = (psum T.cnt r : Int) - psum X.cnt r := by
    unfold pyPrev
    split_ifs with h0
    · subst h0
      have h1 := sum_take_sub T.cnt X.cnt n n (le_refl n)
      rw [List.take_of_length_le (by simp), totalX hc, totalT hc] at h1
      rw [cumsum_last _ (by simp; omega), h1]
      simp [psum]
    · rw [hd (r - 1) (by omega), show r - 1 + 1 = r by omega]
  dsimp only
  rw [e, hp, hd r hr]
  unfold rdFront rdBack
  omega

theorem psumT_le {r : Nat} (hr : r ≤ n) : psum T.cnt r ≤ T.gshape.prod := totalT hc ▸ psum_mono _ hr
theorem psumX_le {r : Nat} (hr : r ≤ n) : psum X.cnt r ≤ T.gshape.prod := totalX hc ▸ psum_mono _ hr

omit [Field K] [StarRing K] [CharZero K] in
/-- after the exchange: the rank selects its part and reshapes it -/
theorem redist_local {d : List K} (hd : d.length = X.gshape.prod) {r : Nat} (hr : r < n) :
    ((X.window (X.global n dt (X.piece d)) r (frontCells (rdFront X T) r) (backCells n (rdBack X T) r)).slice 0
        (psum T.cnt r - psum X.cnt r) (T.cnt r + (psum T.cnt r - psum X.cnt r))).reshape (T.lshape r) = .ok ⟨T.lshape r, dt, T.piece d r⟩ := by
  have hX1 := hc.X1
  have hX2 := hc.axX
  have hlen : d.length = T.gshape.prod := by rw [hd]; simp [hX1]
  have hf : frontCells (rdFront X T) r = rdFront X T r := by
    unfold frontCells rdFront
    split_ifs with h
    · subst h; simp [psum]
    · rfl
  have hb : backCells n (rdBack X T) r = rdBack X T r := by
    unfold backCells rdBack
    split_ifs with h
    · have : r + 1 = n := by omega
      rw [this, totalX hc, totalT hc]; simp
    · rfl
  have h1 := psumT_le (r := r + 1) hc hr
  have h2 := psumX_le (r := r + 1) hc hr
  have h3 : psum T.cnt (r + 1) = psum T.cnt r + T.cnt r := rfl
  have h4 : psum X.cnt (r + 1) = psum X.cnt r + X.cnt r := rfl
  have hwin : X.window (X.global n dt (X.piece d)) r (rdFront X T r) (rdBack X T r)
      = ⟨[max (psum T.cnt (r + 1)) (psum X.cnt (r + 1)) - min (psum T.cnt r) (psum X.cnt r)], dt,
        (d.drop (min (psum T.cnt r) (psum X.cnt r))).take (max (psum T.cnt (r + 1)) (psum X.cnt (r + 1)) - min (psum T.cnt r) (psum X.cnt r))⟩ := by
    have e1 : X.off r - rdFront X T r = min (psum T.cnt r) (psum X.cnt r) := by
      rw [← psumX hc]; unfold rdFront; omega
    have e2 : X.off (r + 1) + rdBack X T r = max (psum T.cnt (r + 1)) (psum X.cnt (r + 1)) := by
      rw [← psumX hc]; unfold rdBack; omega
    have e3 : X.globalData n (X.piece d) = d := global_piece hc.wfX hd
    unfold Layout.window
    rw [e1, e2]
    unfold slice
    simp only [Layout.global]
    rw [e3, hX1, hX2, sliceData_axis0 (by simp) (by simp [hlen])]
    have i1 : inner [T.gshape.prod] 0 = 1 := by simp [inner]
    have l1 : len [T.gshape.prod] 0 = T.gshape.prod := by simp [len]
    rw [i1, l1, Nat.mul_one, Nat.mul_one, Nat.min_eq_left (by omega), Nat.min_eq_left (by omega)]
    simp
  rw [hf, hb, hwin]
  have hsl : (NDArray.slice (K := K) ⟨[max (psum T.cnt (r + 1)) (psum X.cnt (r + 1)) - min (psum T.cnt r) (psum X.cnt r)], dt,
        (d.drop (min (psum T.cnt r) (psum X.cnt r))).take (max (psum T.cnt (r + 1)) (psum X.cnt (r + 1)) - min (psum T.cnt r) (psum X.cnt r))⟩ 0
        (psum T.cnt r - psum X.cnt r) (T.cnt r + (psum T.cnt r - psum X.cnt r))).data = T.piece d r := by
    unfold slice
    dsimp only
    rw [sliceData_axis0 (by simp) (by simp; omega), piece_axis0 hc.wfT hc.scT hc.axT hlen r]
    have i1 : ∀ m, inner [m] 0 = 1 := by simp [inner]
    rw [i1, Nat.mul_one, Nat.mul_one, ← psumT hc, ← cntT hc, List.drop_take, List.drop_drop, List.take_take]
    congr 1
    · omega
    · congr 1; omega
  have hpl := length_piece hc.wfT (d := d) hlen hr
  unfold NDArray.reshape
  rw [hsl, if_pos hpl]
  rfl

/-- after the exchange: what is left is a local computation with the right result -/
theorem redist_tail {d : List K} (hd : VSpace.Mem ⟨X, dt⟩ d) {r : Nat} (hr : r < n) :
    ((Prog.lift (((X.window (X.global n dt (X.piece d)) r (frontCells (rdFront X T) r) (backCells n (rdBack X T) r)).slice 0
        (psum T.cnt r - psum X.cnt r) (T.cnt r + (psum T.cnt r - psum X.cnt r))).reshape (T.lshape r)) : P K (NDArray K)).bind fun v =>
      (T.fam n dt (junkData J T dt) r).setAll (env n J r) v) = .ret (VSpace.vec ⟨T, dt⟩ n d r) := by
  have hlen : d.length = T.gshape.prod := by rw [hd.1]; simp [hc.X1]
  have hpl := length_piece hc.wfT (d := d) hlen hr
  rw [redist_local hc hd.1 hr]
  simp only [Prog.lift_ok, Prog.ret_bind]
  unfold DArr.setAll DArr.setItem
  have hp : ¬ (T.fam n dt (junkData J T dt) r).part = .broadcast := by
    have : (T.fam n dt (junkData J T dt) r).part = T.part := rfl
    rw [this, hc.scT]; simp
  rw [if_neg hp]
  simp only [Prog.bind_eq]
  rw [setIndex_all (a := (T.fam n dt (junkData J T dt) r).larr) (v := ⟨T.lshape r, dt, T.piece d r⟩) (by exact length_junk r) rfl hpl]
  simp only [Prog.lift_ok, Prog.ret_bind]
  have hfit : FitsL dt (T.piece d r) := (good_piece (dt := dt) hc.wfT hlen hd.2).fits r hr
  have hcast : (T.piece d r).map (castTo dt) = T.piece d r := castTo_of_fits hfit
  congr 1
  unfold VSpace.vec Layout.fam
  simp [hcast]

theorem near_front (h : Near n X T) : ∀ r < n, FrontOk X n (rdFront X T) r := by
  intro r hr h1
  have := (h r h1).1
  have h3 : psum X.cnt (r + 1) = psum X.cnt r + X.cnt r := rfl
  rw [← cntX hc r]
  unfold rdFront
  omega

theorem near_back (h : Near n X T) : ∀ r < n, BackOk X (rdBack X T) r := by
  intro r hr h0
  have := (h (r - 1) (by omega)).2
  rw [show r - 1 + 1 = r by omega, show r - 1 + 2 = r + 1 by omega] at this
  have h3 : psum X.cnt (r + 1) = psum X.cnt r + X.cnt r := rfl
  rw [← cntX hc r]
  unfold rdBack
  rw [show r - 1 + 1 = r by omega]
  omega

theorem post_eq {d : List K} {r : Nat} (hr : r < n) :
    redistPost n J X dt d r (T.fam n dt (junkData J T dt) r, (List.range n).map T.cnt, (List.range n).map X.cnt)
      = ((X.fam n dt (X.piece d) r).addGhostCells (env n J r) ((some (rdFront X T)).map (· r)) ((some (rdBack X T)).map (· r))).bind fun g =>
        (Prog.lift ((g.slice 0 (psum T.cnt r - psum X.cnt r) (T.cnt r + (psum T.cnt r - psum X.cnt r))).reshape (T.lshape r))).bind fun v =>
        (T.fam n dt (junkData J T dt) r).setAll (env n J r) v := by
  obtain ⟨h1, h2, h3⟩ := redist_args hc hr
  unfold redistPost
  dsimp only at h1 h2 h3 ⊢
  rw [h1, h2, h3]
  have e : ((List.range n).map T.cnt).getD r 0 = T.cnt r := by simp [List.getD_eq_getElem?_getD, hr]
  rw [e]
  rfl

theorem runs_redistribute {lshapes : Option (List (List Nat))} (hmk : Makes n J T dt lshapes) (hn : Near n X T)
    {d : List K} (hd : VSpace.Mem ⟨X, dt⟩ d) :
    Runs n (fun r => redistribute (env n J r) T.gshape lshapes (VSpace.vec ⟨X, dt⟩ n d r))
      (fun r => .ok (VSpace.vec ⟨T, dt⟩ n d r)) := by
  have hgood := good_vec (S := ⟨X, dt⟩) hc.wfX hd
  refine Runs.congr (ps := fun r => (redistPre n J X T dt lshapes d r).bind (redistPost n J X dt d r)) ?_
    (fun r _ => (redistribute_eq hc lshapes d r).symm) (fun _ _ => rfl)
  refine Runs.bind_ok (runs_redistPre hc hmk d) ?_
  refine Runs.congr (Runs.bind_ok (runs_addGhostCells (J := J) (front := some (rdFront X T)) (back := some (rdBack X T))
    hc.wfX hc.scX hgood.length (fun f hf => by injection hf with hf; subst hf; exact near_front hc hn)
    (fun b hb => by injection hb with hb; subst hb; exact near_back hc hn)) ?_)
    (fun r hr => (post_eq hc hr).symm) (fun _ _ => rfl)
  refine Runs.congr (Runs.ret _) (fun r hr => ?_) (fun _ _ => rfl)
  exact (redist_tail (J := J) hc hd hr).symm

/-- without any assumption on how close the two layouts are: ranks that return, return the right array -/
theorem redistribute_safe {lshapes : Option (List (List Nat))} (hmk : Makes n J T dt lshapes)
    {d : List K} (hd : VSpace.Mem ⟨X, dt⟩ d) {s}
    (hs : Run n (St.init fun r => redistribute (env n J r) T.gshape lshapes (VSpace.vec ⟨X, dt⟩ n d r)) s) {r : Nat} (hr : r < n)
    {o : Except Err (DArr K)} (ho : s.prog r = Prog.lift o) :
    match (generalizing := false) o with
    | .ok y => y = VSpace.vec ⟨T, dt⟩ n d r
    | .error e => e = .value ∧ (¬ FrontOk X n (rdFront X T) r ∨ ¬ BackOk X (rdBack X T) r) := by
  have hgood := good_vec (S := ⟨X, dt⟩) hc.wfX hd
  obtain ⟨qs, h1, h2⟩ := (runs_redistPre (J := J) hc hmk d).bind_steps (redistPost n J X dt d)
  obtain ⟨qs', h1', h2'⟩ := steps_congr h1 (fun r _ => (redistribute_eq (J := J) hc lshapes d r).symm)
  -- the first allgather of the exchange
  obtain ⟨gs, h3, h4⟩ := ghost_steps (J := J) (dt := dt) (a := X.piece d) hc.wfX hc.scX (some (rdFront X T)) (some (rdBack X T))
  let k : Nat → NDArray K → P K (DArr K) := fun r g =>
    (Prog.lift ((g.slice 0 (psum T.cnt r - psum X.cnt r) (T.cnt r + (psum T.cnt r - psum X.cnt r))).reshape (T.lshape r))).bind fun v =>
        (T.fam n dt (junkData J T dt) r).setAll (env n J r) v
  have h5 : ReflTransGen (SStep n) (fun r => ((X.fam n dt (X.piece d) r).addGhostCells (env n J r) ((some (rdFront X T)).map (· r)) ((some (rdBack X T)).map (· r))).bind (k r))
      (fun r => (gs r).bind (k r)) := by
    clear h4
    induction h3 with
    | refl => exact .refl
    | tail _ h2 ih => exact ih.tail (h2.bind k)
  obtain ⟨ts, h6, h7⟩ := steps_congr (ps' := qs') h5 (fun r hr => by
    rw [← h2' r hr, h2 r hr, post_eq hc hr])
  refine Safe.sound_steps (G := ghostMsg X n (X.global n dt (X.piece d)) (rdFront X T) (rdBack X T)) (H := ghostColl n (rdBack X T))
    (R := fun r o => match o with
    | .ok y => y = VSpace.vec ⟨T, dt⟩ n d r
    | .error e => e = .value ∧ (¬ FrontOk X n (rdFront X T) r ∨ ¬ BackOk X (rdBack X T) r)) (h1'.trans h6) (fun q hq => ?_) hs hr ho
  rw [← h7 q hq, h4 q hq]
  refine Safe.bind (Safe.mono (safe_mid (J := J) (dt := dt) (front := some (rdFront X T)) (back := some (rdBack X T)) hc.wfX hc.scX hgood.length hq) fun o ho => ?_)
  cases o with
  | ok g =>
    have ho : g = X.window (X.global n dt (X.piece d)) q (frontCells (rdFront X T) q) (backCells n (rdBack X T) q) := ho
    subst ho
    dsimp only [k]
    rw [redist_tail (J := J) hc hd hq]
    exact rfl
  | error e =>
    obtain ⟨h8, h9⟩ := ho
    refine ⟨h8, h9.imp ?_ ?_⟩
    · rintro ⟨f, hf, h⟩
      injection hf with hf; subst hf; exact h
    · rintro ⟨f, hf, h⟩
      injection hf with hf; subst hf; exact h
end
end
end Verif

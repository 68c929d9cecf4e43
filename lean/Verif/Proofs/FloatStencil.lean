/- Execution lemmas for the building blocks of the finite-difference operators with arbitrary arithmetic. -/
import Verif.Proofs.Stencil
import Verif.Proofs.FloatArray
import Verif.Spec.FloatDerivatives

namespace Verif
open NDArray

variable {K : Type} (A : Arith K)
variable {n N : Nat} {J : Nat → Nat → K} {rest : List Nat} {sizes : Nat → Nat} {dt dx dt' : DType} {m : Nat} {f g : Nat → Nat → K} {F G B : Nat → Nat → K}

/-! ### indexing -/

theorem aget_rows (lo : Int) (hi : Option Int) : A.get (Index.rows lo hi) (rowsArr m rest dt f)
    = .ok (rowsArr (pyUpper m hi - pyBound m lo) rest dt fun i => f (pyBound m lo + i)) := @get_rows K m rest dt f ⟨A.zero⟩ lo hi

theorem aget_row {i : Int} (h1 : -(m : Int) ≤ i) (h2 : i < m) : A.get (Index.row i) (rowsArr m rest dt f) = .ok (rowArr rest dt (f (pyBound m i))) :=
  @get_row K m rest dt f ⟨A.zero⟩ i h1 h2

theorem aget_all : A.get Index.all (rowsArr m rest dt f) = .ok (rowsArr m rest dt f) := @get_all K m rest dt f ⟨A.zero⟩

theorem aset_all : A.setIndex Index.all (rowsArr m rest dt f) (rowsArr m rest dt' g) = .ok (rowsArr m rest dt fun i j => A.cast dt (g i j)) := by
  rw [a_setIndex_all A (a := rowsArr m rest dt f) (v := rowsArr m rest dt' g) rowsArr_wf rfl rowsArr_wf]
  show Except.ok (NDArray.mk _ _ (List.map (A.cast dt) (tab m rest.prod g))) = _
  rw [tab_map]; rfl

theorem aset_rows {lo : Int} {hi : Option Int} {k b : Nat} (hb : pyBound m lo = b) (hk : pyUpper m hi - pyBound m lo = k) :
    A.setIndex (Index.rows lo hi) (rowsArr m rest dt f) (rowsArr k rest dt' g)
      = .ok (rowsArr m rest dt fun i j => if b ≤ i ∧ i < b + k then A.cast dt (g (i - b) j) else f i j) := by
  have hu := pyUpper_le m hi
  unfold Arith.setIndex Index.rows
  have hsh : (rowsArr m rest dt f).shape.set 0 (pyUpper (len (rowsArr m rest dt f).shape 0) hi - pyBound (len (rowsArr m rest dt f).shape 0) lo)
      = (rowsArr k rest dt g).shape := by
    show (pyUpper m hi - pyBound m lo) :: rest = k :: rest
    rw [hk]
  simp only [bind, Except.bind]
  rw [hsh, bcast_rows]
  show Except.ok _ = Except.ok _
  congr 1
  unfold rowsArr
  congr 1
  show writeAt (tab m rest.prod f) ((List.range ((pyUpper m hi - pyBound m lo) * rest.prod)).map (pyBound m lo * rest.prod + ·))
    ((tab k rest.prod g).map (A.cast dt)) = _
  rw [tab_map, hb, ← hb, hk, hb]
  exact write_rows (by omega)

theorem aset_row {i : Int} (h1 : -(m : Int) ≤ i) (h2 : i < m) {v : Nat → K} :
    A.setIndex (Index.row i) (rowsArr m rest dt f) (rowArr rest dt' v)
      = .ok (rowsArr m rest dt fun p j => if p = pyBound m i then A.cast dt (v j) else f p j) := by
  have hb : pyBound m i < m := by unfold pyBound; split_ifs <;> omega
  unfold Arith.setIndex Index.row
  have hc : -(len (rowsArr m rest dt f).shape 0 : Int) ≤ i ∧ i < len (rowsArr m rest dt f).shape 0 := ⟨h1, h2⟩
  simp only [bind, Except.bind, if_pos hc]
  have : bcastTo (rowsArr m rest dt f).shape.tail (rowArr rest dt' v) = .ok ((List.range rest.prod).map v) := bcast_row (dt := dt) (u := v)
  rw [this]
  show Except.ok _ = Except.ok _
  congr 1
  unfold rowsArr
  congr 1
  show writeAt (tab m rest.prod f) ((List.range rest.prod).map (pyBound m i * rest.prod + ·)) (((List.range rest.prod).map v).map (A.cast dt)) = _
  rw [List.map_map]
  exact write_row hb

/-! ### the distributed array -/

theorem a_newLike {f : Nat → Nat → Nat → K} (hs : psum sizes n = N) :
    Runs n (fun r => A.newLike (env n J r) dt (rfam n N rest sizes dx f r))
      (fun r => .ok ((Layout.rows N rest sizes).fam n dt (aJunk A J (Layout.rows N rest sizes) dt) r)) := by
  unfold Arith.newLike
  simp only [Prog.bind_eq]
  exact runs_allgather (v := (Layout.rows N rest sizes).lshape) (a_mkDArr A (L := Layout.rows N rest sizes) (rows_wf hs) rfl)

theorem aSetAll_eq {a : Nat → List K} {r : Nat} {v w : NDArray K}
    (h : A.setIndex Index.all ⟨sizes r :: rest, dt, a r⟩ v = .ok w) :
    A.setAll (env n J r) ((Layout.rows N rest sizes).fam n dt a r) v = .ret { (Layout.rows N rest sizes).fam n dt a r with larr := w } := by
  unfold Arith.setAll
  have : ¬ ((Layout.rows N rest sizes).fam n dt a r).part = .broadcast := show ¬ (Partition.scatter = .broadcast) by decide
  rw [if_neg this]
  have h' : A.setIndex Index.all ((Layout.rows N rest sizes).fam n dt a r).larr v = .ok w := h
  simp only [Prog.bind_eq]
  rw [h']
  rfl

/-- `y[:] = 0` -/
theorem a_zero {a : Nat → List K} (ha : ∀ r < n, (a r).length = ((Layout.rows N rest sizes).lshape r).prod) :
    Runs n (fun r => A.setAll (env n J r) ((Layout.rows N rest sizes).fam n dt a r) (scalar .real A.zero))
      (fun r => .ok (rfam n N rest sizes dt (glob sizes fun _ _ => A.cast dt A.zero) r)) := by
  refine runs_local fun r hr => ?_
  have hl := ha r hr
  rw [lshape_rows] at hl
  rw [aSetAll_eq A (w := rowsArr (sizes r) rest dt fun _ _ => A.cast dt A.zero)]
  · rfl
  · simp only [Arith.setIndex, Index.all, bind, Except.bind, pure, Except.pure, bcastTo_scalar]
    rw [writeAt_range (by exact hl) (by simp)]
    congr 1
    unfold rowsArr
    rw [tab_const]
    simp

/-- `y[:] = v` -/
theorem a_set_rows {a : Nat → List K} (ha : ∀ r < n, (a r).length = ((Layout.rows N rest sizes).lshape r).prod) :
    Runs n (fun r => A.setAll (env n J r) ((Layout.rows N rest sizes).fam n dt a r) (rowsArr (sizes r) rest dx (glob sizes G r)))
      (fun r => .ok (rfam n N rest sizes dt (glob sizes fun p j => A.cast dt (G p j)) r)) := by
  refine runs_local fun r hr => ?_
  have hl := ha r hr
  rw [lshape_rows] at hl
  rw [aSetAll_eq A (w := rowsArr (sizes r) rest dt (glob sizes (fun p j => A.cast dt (G p j)) r))]
  · rfl
  · rw [a_setIndex_all A (a := ⟨sizes r :: rest, dt, a r⟩) (v := rowsArr (sizes r) rest dx (glob sizes G r)) hl rfl rowsArr_wf]
    show Except.ok (NDArray.mk _ _ (List.map (A.cast dt) (tab (sizes r) rest.prod _))) = _
    rw [tab_map]; rfl

theorem aSetItem_rfam {f : Nat → Nat → Nat → K} {r : Nat} {ix : Index} {v : NDArray K} : A.setItem (env n J r) (rfam n N rest sizes dt f r) ix v
    = (Prog.lift (A.setIndex ix (rowsArr (sizes r) rest dt (f r)) v)).bind fun a => .ret { rfam n N rest sizes dt f r with larr := a } := by
  unfold Arith.setItem
  have : ¬ (rfam n N rest sizes dt f r).part = .broadcast := show ¬ (Partition.scatter = .broadcast) by decide
  rw [if_neg this]
  rfl

/-- `y[:] op= v` -/
theorem a_upd_all (hdt : dt = .real → dx = .real) {op : K → K → K} :
    Runs n (fun r => A.upd (env n J r) (rfam n N rest sizes dt (glob sizes G) r) Index.all op (rowsArr (sizes r) rest dx (glob sizes B r)))
      (fun r => .ok (rfam n N rest sizes dt (glob sizes fun p j => A.cast dt (op (G p j) (B p j))) r)) := by
  refine runs_local fun r hr => ?_
  unfold Arith.upd
  simp only [Prog.bind_eq, rfam_larr, aget_all, Prog.lift_ok, Prog.ret_bind]
  rw [inplace_ok (dt := dt) (dt' := dx) hdt rfl rfl bcast_rows, Prog.lift_ok, Prog.ret_bind, aSetItem_rfam]
  have e : ({ rowsArr (sizes r) rest dt (glob sizes G r) with data := List.zipWith op (rowsArr (sizes r) rest dt (glob sizes G r)).data (tab (sizes r) rest.prod (glob sizes B r)) } : NDArray K)
      = rowsArr (sizes r) rest dt fun i j => op (glob sizes G r i j) (glob sizes B r i j) := by
    simp only [rowsArr, tab_zip]
  rw [e, aset_all]
  rfl

/-- `y[:] op= s` for a number -/
theorem a_upd_scalar {s : K} {op : K → K → K} :
    Runs n (fun r => A.upd (env n J r) (rfam n N rest sizes dt (glob sizes G) r) Index.all op (scalar .real s))
      (fun r => .ok (rfam n N rest sizes dt (glob sizes fun p j => A.cast dt (op (G p j) s)) r)) := by
  refine runs_local fun r hr => ?_
  unfold Arith.upd
  simp only [Prog.bind_eq, rfam_larr, aget_all, Prog.lift_ok, Prog.ret_bind]
  rw [inplace_ok (dt := dt) (dt' := .real) (fun _ => rfl) rfl rfl (bcastTo_scalar _ _ _), Prog.lift_ok, Prog.ret_bind, aSetItem_rfam]
  have e : ({ rowsArr (sizes r) rest dt (glob sizes G r) with data := List.zipWith op (rowsArr (sizes r) rest dt (glob sizes G r)).data (List.replicate (rowsArr (sizes r) rest dt (glob sizes G r)).shape.prod s) } : NDArray K)
      = rowsArr (sizes r) rest dt fun i j => op (glob sizes G r i j) s := by
    simp only [rowsArr, List.prod_cons, ← tab_const, tab_zip]
  rw [e, aset_all]
  rfl

/-! ### blocks with ghost cells -/

/-- rows of the block -/
def ablk (n : Nat) (sizes : Nat → Nat) (front back : Option Nat) (k : Nat) (kf : Option Int) (ψ : (Nat → Nat → K) → Nat → Nat → K) (F : Nat → Nat → K) (r i j : Nat) : K :=
  if i < pf kf r then A.zero
  else if i < pf kf r + (sizes r + gf front r + gb n back r - k) then ψ (fun i => F (psum sizes r - gf front r + i)) (i - pf kf r) j
  else A.zero

theorem apadFront_rows {b : Bool} {k : Option Int} (hk : ∀ i, k = some i → 0 ≤ i) {m : Nat} {g : Nat → Nat → K} :
    A.padFront b k (N :: rest) (rowsArr m rest dt g)
      = .ok (rowsArr ((if b then (k.getD 0).toNat else 0) + m) rest dt fun i j =>
          if i < (if b then (k.getD 0).toNat else 0) then A.zero else g (i - (if b then (k.getD 0).toNat else 0)) j) := by
  cases b with
  | false => simp [Arith.padFront]
  | true =>
    cases k with
    | none => simp [Arith.padFront]
    | some k =>
      have h : A.zeroRows k rest = .ok (rowsArr k.toNat rest .real fun _ _ => A.zero) := @zeroRows_rows K rest ⟨A.zero⟩ k (hk k rfl)
      simp only [Arith.padFront, List.tail_cons, h, bind, Except.bind, concat_rows, real_promote]
      rfl

theorem apadBack_rows {b : Bool} {k : Option Int} (hk : ∀ i, k = some i → 0 ≤ i) {m : Nat} {g : Nat → Nat → K} :
    A.padBack b k (N :: rest) (rowsArr m rest dt g)
      = .ok (rowsArr (m + (if b then (k.getD 0).toNat else 0)) rest dt fun i j => if i < m then g i j else A.zero) := by
  have h : ∀ m', m' = m → rowsArr m rest dt g = rowsArr m' rest dt fun i j => if i < m then g i j else A.zero := by
    rintro _ rfl
    exact rowsArr_congr rfl fun i hi j _ => by rw [if_pos hi]
  cases b with
  | false => simp only [Arith.padBack]; rw [h (m + 0) rfl]; rfl
  | true =>
    cases k with
    | none => simp only [Arith.padBack]; rw [h (m + 0) rfl]; rfl
    | some k =>
      have h : A.zeroRows k rest = .ok (rowsArr k.toNat rest .real fun _ _ => A.zero) := @zeroRows_rows K rest ⟨A.zero⟩ k (hk k rfl)
      simp only [Arith.padBack, List.tail_cons, h, bind, Except.bind, concat_rows, promote_real]
      rfl

/-- The block on all ranks is made of the rows `B` of a global array. -/
theorem a_stencil (hs : psum sizes n = N) {front back : Option Nat} (hroom : Room n sizes front back) {φ : NDArray K → Except Err (NDArray K)}
    {k : Nat} {ψ : (Nat → Nat → K) → Nat → Nat → K} (hφ : Combines rest φ k ψ) {kf kb : Option Int} (hkf : ∀ i, kf = some i → 0 ≤ i)
    (hkb : ∀ i, kb = some i → 0 ≤ i) (hm : ∀ r < n, pf kf r + (sizes r + gf front r + gb n back r - k) + pb n kb r = sizes r)
    (hB : ∀ r < n, ∀ i < sizes r, ∀ j, ablk A n sizes front back k kf ψ F r i j = B (psum sizes r + i) j) :
    Runs n (fun r => A.stencil (env n J r) (N :: rest) (rfam n N rest sizes dx (glob sizes F) r) front back φ kf kb)
      (fun r => .ok (rowsArr (sizes r) rest dx (glob sizes B r))) := by
  unfold Arith.stencil
  simp only [Prog.bind_eq]
  refine Runs.bind_ok (runs_ghost_rows hs hroom) ?_
  refine Runs.congr (Runs.ret _) (fun r hr => ?_) fun _ _ => rfl
  rw [hφ, Prog.lift_ok, Prog.ret_bind, apadFront_rows A hkf, Prog.lift_ok, Prog.ret_bind, apadBack_rows A hkb, Prog.lift_ok]
  congr 1
  have e1 : (if decide ((env n J r).rank = 0) = true then (kf.getD 0).toNat else 0) = pf kf r := by
    unfold pf; rw [env_rank]; congr 1; simp
  have e2 : (if decide ((env n J r).rank = (env n J r).size - 1) = true then (kb.getD 0).toNat else 0) = pb n kb r := by
    unfold pb; rw [env_rank, env_size]; congr 1; simp
  rw [e1, e2]
  refine rowsArr_congr (hm r hr).symm fun i hi j hj => ?_
  have := hB r hr i hi j
  unfold ablk at this
  unfold glob
  rw [← this]
  split_ifs <;> first | rfl | omega

/-- the same followed by `y[:] op= block` -/
theorem a_accum (hs : psum sizes n = N) {front back : Option Nat} (hroom : Room n sizes front back) {φ : NDArray K → Except Err (NDArray K)}
    {k : Nat} {ψ : (Nat → Nat → K) → Nat → Nat → K} (hφ : Combines rest φ k ψ) {kf kb : Option Int} (hkf : ∀ i, kf = some i → 0 ≤ i)
    (hkb : ∀ i, kb = some i → 0 ≤ i) (hm : ∀ r < n, pf kf r + (sizes r + gf front r + gb n back r - k) + pb n kb r = sizes r)
    (hB : ∀ r < n, ∀ i < sizes r, ∀ j, ablk A n sizes front back k kf ψ F r i j = B (psum sizes r + i) j) (hdt : dt = .real → dx = .real) {op : K → K → K} :
    Runs n (fun r => A.accum (env n J r) (N :: rest) (rfam n N rest sizes dx (glob sizes F) r) front back φ kf kb op (rfam n N rest sizes dt (glob sizes G) r))
      (fun r => .ok (rfam n N rest sizes dt (glob sizes fun p j => A.cast dt (op (G p j) (B p j))) r)) := by
  unfold Arith.accum
  simp only [Prog.bind_eq]
  exact Runs.bind_ok (a_stencil A hs hroom hφ hkf hkb hm hB) (a_upd_all A hdt)

/-! ### some rows -/

/-- `y[lo:hi] op= x[lo:hi]` on the ranks with `b r`, `y[:] op= x[:]` on the others -/
theorem a_addPart (hdt : dt = .real → dx = .real) {op : K → K → K} (b : Nat → Bool) (lo : Int) (hi : Option Int) {c : Nat → Prop} [DecidablePred c]
    (hcond : ∀ r < n, ∀ i < sizes r, (b r = true → pyBound (sizes r) lo ≤ i ∧ i < pyUpper (sizes r) hi) ↔ c (psum sizes r + i)) :
    Runs n (fun r => A.addPart (env n J r) (rfam n N rest sizes dx (glob sizes F) r) (b r) lo hi op (rfam n N rest sizes dt (glob sizes G) r))
      (fun r => .ok (rfam n N rest sizes dt (glob sizes fun p j => if c p then A.cast dt (op (G p j) (F p j)) else G p j) r)) := by
  refine runs_local fun r hr => ?_
  unfold Arith.addPart Arith.upd
  simp only [Prog.bind_eq, rfam_larr]
  have main : ∀ lo hi, ((Prog.lift (A.get (Index.rows lo hi) (rowsArr (sizes r) rest dx (glob sizes F r))) : P K (NDArray K)).bind fun v =>
      (Prog.lift (A.get (Index.rows lo hi) (rowsArr (sizes r) rest dt (glob sizes G r)))).bind fun t =>
        (Prog.lift (t.inplace op v)).bind fun t => A.setItem (env n J r) (rfam n N rest sizes dt (glob sizes G) r) (Index.rows lo hi) t)
      = .ret (rfam n N rest sizes dt (fun r i j => if pyBound (sizes r) lo ≤ i ∧ i < pyUpper (sizes r) hi then A.cast dt (op (glob sizes G r i j) (glob sizes F r i j)) else glob sizes G r i j) r) := by
    intro lo hi
    rw [aget_rows, aget_rows, Prog.lift_ok, Prog.ret_bind, Prog.lift_ok, Prog.ret_bind,
      inplace_ok (dt := dt) (dt' := dx) hdt rfl rfl bcast_rows, Prog.lift_ok, Prog.ret_bind, aSetItem_rfam]
    have e : ({ rowsArr (pyUpper (sizes r) hi - pyBound (sizes r) lo) rest dt (fun i => glob sizes G r (pyBound (sizes r) lo + i)) with
        data := List.zipWith op (rowsArr (pyUpper (sizes r) hi - pyBound (sizes r) lo) rest dt (fun i => glob sizes G r (pyBound (sizes r) lo + i))).data
          (tab (pyUpper (sizes r) hi - pyBound (sizes r) lo) rest.prod (fun i => glob sizes F r (pyBound (sizes r) lo + i))) } : NDArray K)
        = rowsArr (pyUpper (sizes r) hi - pyBound (sizes r) lo) rest dt
          fun i j => op (glob sizes G r (pyBound (sizes r) lo + i) j) (glob sizes F r (pyBound (sizes r) lo + i) j) := by
      simp only [rowsArr, tab_zip]
    rw [e, aset_rows A rfl rfl, Prog.lift_ok, Prog.ret_bind]
    congr 1
    rw [rfam_with]
    refine rfam_congr fun i hi' j _ => ?_
    by_cases h : pyBound (sizes r) lo ≤ i ∧ i < pyUpper (sizes r) hi
    · rw [if_pos h, if_pos (by omega), show pyBound (sizes r) lo + (i - pyBound (sizes r) lo) = i by omega]
    · rw [if_neg h, if_neg (by omega)]
  cases hb : b r with
  | true =>
    rw [if_pos rfl, main]
    congr 1
    refine rfam_congr fun i hi' j _ => ?_
    have h := hcond r hr i hi'
    simp only [hb, true_imp_iff] at h
    simp only [glob, h]
  | false =>
    rw [if_neg (by simp), main]
    congr 1
    refine rfam_congr fun i hi' j _ => ?_
    have h := hcond r hr i hi'
    simp only [hb, Bool.false_eq_true, false_imp_iff, true_iff] at h
    simp only [glob]
    rw [if_pos ⟨by simp [pyBound], hi'⟩, if_pos h]

/-! ### single rows -/

theorem rowExpr_rows {i j k : Int} {h : K → K → K → K} (hi : -(m : Int) ≤ i ∧ i < m) (hj : -(m : Int) ≤ j ∧ j < m) (hk : -(m : Int) ≤ k ∧ k < m) :
    A.rowExpr (rowsArr m rest dx f) i j k h = .ok (rowArr rest dx fun l => h (f (pyBound m i) l) (f (pyBound m j) l) (f (pyBound m k) l)) := by
  unfold Arith.rowExpr
  rw [aget_row A hi.1 hi.2, aget_row A hj.1 hj.2, aget_row A hk.1 hk.2]
  simp only [bind, Except.bind, pure, Except.pure, rowArr]
  congr 2
  rw [List.zip_map', List.zipWith_map, List.zipWith_self]

/-- the row `i` of the rank is the row `p` of the global array -/
def AtRow (sizes : Nat → Nat) (r : Nat) (i : Int) (p : Nat) : Prop := (-(sizes r : Int) ≤ i ∧ i < sizes r) ∧ psum sizes r + pyBound (sizes r) i = p

/-- the row `i` of the rank is the row with `c` in the global array -/
def RowIs (sizes : Nat → Nat) (r : Nat) (i : Int) (c : Nat → Prop) : Prop :=
  (-(sizes r : Int) ≤ i ∧ i < sizes r) ∧ ∀ q < sizes r, q = pyBound (sizes r) i ↔ c (psum sizes r + q)

/-- `if b: y[p] = …` where only one rank has `b` -/
theorem a_setRow {b : Nat → Bool} {edge : Bool} {zp zi zj zk : Int} {i j k : Nat} {h : K → K → K → K} {c : Nat → Prop} [DecidablePred c] (hb : ∀ r < n, b r = true → edge = true)
    (hat : ∀ r < n, b r = true → RowIs sizes r zp c ∧ AtRow sizes r zi i ∧ AtRow sizes r zj j ∧ AtRow sizes r zk k)
    (hno : ∀ r < n, b r = false → edge = true → ∀ q < sizes r, ¬ c (psum sizes r + q)) :
    Runs n (fun r => doIf (b r) (A.setRow (env n J r) (rfam n N rest sizes dx (glob sizes F) r) zp zi zj zk h) (rfam n N rest sizes dt (glob sizes G) r))
      (fun r => .ok (rfam n N rest sizes dt (glob sizes fun q l => if edge = true ∧ c q then A.cast dt (h (F i l) (F j l) (F k l)) else G q l) r)) := by
  refine runs_local fun r hr => ?_
  unfold doIf Arith.setRow
  cases hbr : b r with
  | true =>
    obtain ⟨⟨h1, h2⟩, ⟨h3, h4⟩, ⟨h5, h6⟩, h7, h8⟩ := hat r hr hbr
    rw [if_pos rfl]
    simp only [Prog.bind_eq, rfam_larr]
    rw [rowExpr_rows A h3 h5 h7, Prog.lift_ok, Prog.ret_bind, aSetItem_rfam, aset_row A h1.1 h1.2, Prog.lift_ok, Prog.ret_bind, rfam_with]
    congr 1
    refine rfam_congr fun q hq l _ => ?_
    simp only [glob, h4, h6, h8, hb r hr hbr, true_and]
    by_cases hq' : q = pyBound (sizes r) zp
    · rw [if_pos hq', if_pos ((h2 q hq).1 hq')]
    · rw [if_neg hq', if_neg fun hc => hq' ((h2 q hq).2 hc)]
  | false =>
    rw [if_neg (by simp)]
    congr 1
    refine rfam_congr fun q hq l _ => ?_
    simp only [glob]
    rw [if_neg]
    rintro ⟨h1, h2⟩
    exact hno r hr hbr h1 q hq h2

/-- `if b: y[p] op= …` where only one rank has `b` -/
theorem a_updRow (hdt : dt = .real → dx = .real) {b : Nat → Bool} {edge : Bool} {zp zi zj zk : Int} {i j k : Nat} {op : K → K → K} {h : K → K → K → K} {c : Nat → Prop} [DecidablePred c]
    (hb : ∀ r < n, b r = true → edge = true)
    (hat : ∀ r < n, b r = true → RowIs sizes r zp c ∧ AtRow sizes r zi i ∧ AtRow sizes r zj j ∧ AtRow sizes r zk k)
    (hno : ∀ r < n, b r = false → edge = true → ∀ q < sizes r, ¬ c (psum sizes r + q)) :
    Runs n (fun r => doIf (b r) (A.updRow (env n J r) (rfam n N rest sizes dx (glob sizes F) r) zp zi zj zk op h) (rfam n N rest sizes dt (glob sizes G) r))
      (fun r => .ok (rfam n N rest sizes dt (glob sizes fun q l => if edge = true ∧ c q then A.cast dt (op (G q l) (h (F i l) (F j l) (F k l))) else G q l) r)) := by
  refine runs_local fun r hr => ?_
  unfold doIf Arith.updRow Arith.upd
  cases hbr : b r with
  | true =>
    obtain ⟨⟨h1, h2⟩, ⟨h3, h4⟩, ⟨h5, h6⟩, h7, h8⟩ := hat r hr hbr
    rw [if_pos rfl]
    simp only [Prog.bind_eq, rfam_larr]
    rw [rowExpr_rows A h3 h5 h7, Prog.lift_ok, Prog.ret_bind, aget_row A h1.1 h1.2, Prog.lift_ok, Prog.ret_bind,
      inplace_ok (dt := dt) (dt' := dx) hdt rfl rfl bcast_row, Prog.lift_ok, Prog.ret_bind, aSetItem_rfam]
    generalize hw : (fun l => h (glob sizes F r (pyBound (sizes r) zi) l) (glob sizes F r (pyBound (sizes r) zj) l) (glob sizes F r (pyBound (sizes r) zk) l)) = w
    have e : ({ rowArr rest dt (glob sizes G r (pyBound (sizes r) zp)) with
        data := List.zipWith op (rowArr rest dt (glob sizes G r (pyBound (sizes r) zp))).data ((List.range rest.prod).map w) } : NDArray K)
        = rowArr rest dt fun l => op (glob sizes G r (pyBound (sizes r) zp) l) (w l) := by
      simp only [rowArr, List.zipWith_map, List.zipWith_self]
    rw [e, aset_row A h1.1 h1.2, Prog.lift_ok, Prog.ret_bind, rfam_with]
    congr 1
    refine rfam_congr fun q hq l _ => ?_
    simp only [glob, ← hw, h4, h6, h8, hb r hr hbr, true_and]
    by_cases hq' : q = pyBound (sizes r) zp
    · rw [if_pos hq', if_pos ((h2 q hq).1 hq'), hq']
    · rw [if_neg hq', if_neg fun hc => hq' ((h2 q hq).2 hc)]
  | false =>
    rw [if_neg (by simp)]
    congr 1
    refine rfam_congr fun q hq l _ => ?_
    simp only [glob]
    rw [if_neg]
    rintro ⟨h1, h2⟩
    exact hno r hr hbr h1 q hq h2

/-! ### the combinations of ghosted rows -/

theorem aget_rows_nat {m lo : Nat} {g : Nat → Nat → K} {hi : Option Int} {u : Nat} (hu : pyUpper m hi = u) :
    A.get (Index.rows (lo : Int) hi) (rowsArr m rest dt g) = .ok (rowsArr (u - min lo m) rest dt fun i => g (lo + i)) := @get_rows_nat K rest dt ⟨A.zero⟩ m lo g hi u hu

theorem combines_rowsOf (lo : Nat) (hi : Option Int) (h : K → K) (k : Nat) (hk : ∀ m, pyUpper m hi - min lo m = m - k) :
    Combines rest (A.rowsOf (lo : Int) hi h) k (fun g i j => h (g (lo + i) j)) := by
  intro m dt g
  unfold Arith.rowsOf
  rw [aget_rows_nat A rfl]
  simp only [bind, Except.bind, map_rows]
  rw [hk]
  rfl

theorem acombines_diff1 (A : ArrArith K) : Combines rest A.diff1 1 (fun g i j => A.sub (g (1 + i) j) (g (0 + i) j)) := by
  intro m dt g
  have h0 := aget_rows_nat A.toArith (rest := rest) (dt := dt) (g := g) (m := m) (lo := 1) (hi := none) (u := m) rfl
  have h1 := aget_rows_nat A.toArith (rest := rest) (dt := dt) (g := g) (m := m) (lo := 0) (hi := some (-1)) (pyUpper_neg m 1 (by omega))
  simp only [Nat.cast_ofNat, Nat.cast_zero, Nat.cast_one] at h0 h1
  unfold ArrArith.diff1
  rw [h0, h1]
  simp only [bind, Except.bind, map_rows]
  rw [zip_rows _ (by omega), promote_self]
  congr 2
  omega

theorem acombines_cent3 (A : ArrArith K) : Combines rest A.cent3 2 (fun g i j => A.mul A.half (A.sub (g (2 + i) j) (g (0 + i) j))) := by
  intro m dt g
  have h0 := aget_rows_nat A.toArith (rest := rest) (dt := dt) (g := g) (m := m) (lo := 2) (hi := none) (u := m) rfl
  have h1 := aget_rows_nat A.toArith (rest := rest) (dt := dt) (g := g) (m := m) (lo := 0) (hi := some (-2)) (pyUpper_neg m 2 (by omega))
  simp only [Nat.cast_ofNat, Nat.cast_zero, Nat.cast_one] at h0 h1
  unfold ArrArith.cent3
  rw [h0, h1]
  simp only [bind, Except.bind, map_rows]
  rw [zip_rows _ (by omega), promote_self]
  simp only [map_rows]
  show Except.ok _ = _
  congr 2
  omega

theorem acombines_diff2 (A : ArrArith K) : Combines rest A.diff2 2 (fun g i j => A.add (A.sub (g (2 + i) j) (A.mul A.two (g (1 + i) j))) (g (0 + i) j)) := by
  intro m dt g
  have h0 := aget_rows_nat A.toArith (rest := rest) (dt := dt) (g := g) (m := m) (lo := 2) (hi := none) (u := m) rfl
  have h1 := aget_rows_nat A.toArith (rest := rest) (dt := dt) (g := g) (m := m) (lo := 1) (hi := some (-1)) (pyUpper_neg m 1 (by omega))
  have h2 := aget_rows_nat A.toArith (rest := rest) (dt := dt) (g := g) (m := m) (lo := 0) (hi := some (-2)) (pyUpper_neg m 2 (by omega))
  simp only [Nat.cast_ofNat, Nat.cast_zero, Nat.cast_one] at h0 h1 h2
  unfold ArrArith.diff2
  rw [h0, h1, h2]
  simp only [bind, Except.bind, map_rows]
  rw [zip_rows _ (by omega), promote_self]
  dsimp only
  rw [zip_rows _ (by omega), promote_self]
  congr 2
  omega

theorem acombines_cent5 (A : ArrArith K) : Combines rest A.cent5 4 (fun g i j => A.sub (A.add (A.sub (A.div (g (0 + i) j) A.twelve) (A.div (A.mul A.two (g (1 + i) j)) A.three)) (A.div (A.mul A.two (g (3 + i) j)) A.three)) (A.div (g (4 + i) j) A.twelve)) := by
  intro m dt g
  have h0 := aget_rows_nat A.toArith (rest := rest) (dt := dt) (g := g) (m := m) (lo := 0) (hi := some (-4)) (pyUpper_neg m 4 (by omega))
  have h1 := aget_rows_nat A.toArith (rest := rest) (dt := dt) (g := g) (m := m) (lo := 1) (hi := some (-3)) (pyUpper_neg m 3 (by omega))
  have h2 := aget_rows_nat A.toArith (rest := rest) (dt := dt) (g := g) (m := m) (lo := 3) (hi := some (-1)) (pyUpper_neg m 1 (by omega))
  have h3 := aget_rows_nat A.toArith (rest := rest) (dt := dt) (g := g) (m := m) (lo := 4) (hi := none) (u := m) rfl
  simp only [Nat.cast_ofNat, Nat.cast_zero, Nat.cast_one] at h0 h1 h2 h3
  unfold ArrArith.cent5
  rw [h0, h1, h2, h3]
  simp only [bind, Except.bind, map_rows]
  rw [zip_rows _ (by omega), promote_self]
  dsimp only
  rw [zip_rows _ (by omega), promote_self]
  dsimp only
  rw [zip_rows _ (by omega), promote_self]
  congr 2

end Verif

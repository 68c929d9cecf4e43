/- Execution lemmas for the building blocks of the finite-difference operators. -/
import Verif.Proofs.Rows

namespace Verif
open NDArray

set_option linter.unusedSectionVars false

variable {K : Type}

/-- scattered along the first axis, `sizes r` rows on rank `r` -/
def Layout.rows (N : Nat) (rest : List Nat) (sizes : Nat → Nat) : Layout := ⟨N :: rest, .scatter, 0, sizes, none⟩

/-- distributed array with local rows `f r` -/
def rfam (n N : Nat) (rest : List Nat) (sizes : Nat → Nat) (dt : DType) (f : Nat → Nat → Nat → K) (r : Nat) : DArr K :=
  (Layout.rows N rest sizes).fam n dt (fun r => tab (sizes r) rest.prod (f r)) r

variable {n N : Nat} {J : Nat → Nat → K} {rest : List Nat} {sizes : Nat → Nat} {dt dx : DType} {F : Nat → Nat → K} {f : Nat → Nat → Nat → K}

theorem rows_wf (hs : psum sizes n = N) : (Layout.rows N rest sizes).WF n := ⟨by simp [Layout.rows], fun _ => by simpa [Layout.rows, len] using hs, by simp [Layout.rows]⟩

theorem lshape_rows (r : Nat) : (Layout.rows N rest sizes).lshape r = sizes r :: rest := rfl

theorem rfam_larr (r : Nat) : (rfam n N rest sizes dt f r).larr = rowsArr (sizes r) rest dt (f r) := rfl

theorem rfam_congr {g : Nat → Nat → Nat → K} {r : Nat} (h : ∀ i < sizes r, ∀ j < rest.prod, f r i j = g r i j) :
    rfam n N rest sizes dt f r = rfam n N rest sizes dt g r := fam_congr (tab_congr h)

/-- the rows of rank `r` of a global array -/
def glob (sizes : Nat → Nat) (F : Nat → Nat → K) (r i : Nat) : Nat → K := F (psum sizes r + i)

theorem off_rows_le (hs : psum sizes n = N) {r : Nat} (hr : r < n) : psum sizes r + sizes r ≤ N := by
  rw [← hs]; exact psum_mono sizes (show r + 1 ≤ n from hr)

theorem vec_rows (hs : psum sizes n = N) {r : Nat} (hr : r < n) :
    VSpace.vec ⟨Layout.rows N rest sizes, dt⟩ n (tab N rest.prod F) r = rfam n N rest sizes dt (glob sizes F) r := by
  refine fam_congr ?_
  have h := off_rows_le hs hr
  have := slice_rows (rest := rest) (dt := dt) (f := F) (m := N) (lo := psum sizes r) (hi := psum sizes (r + 1)) (psum_mono sizes (by omega)) h
  have e := congrArg NDArray.data this
  have e2 : psum sizes (r + 1) - psum sizes r = sizes r := by
    have : psum sizes (r + 1) = psum sizes r + sizes r := rfl
    omega
  rw [e2] at e
  exact e

theorem vec_rows' [Zero K] (hs : psum sizes n = N) {r : Nat} (hr : r < n) {d : List K} (hd : d.length = N * rest.prod) :
    VSpace.vec ⟨Layout.rows N rest sizes, dt⟩ n d r = rfam n N rest sizes dt (glob sizes (entry rest.prod d)) r := by
  conv_lhs => rw [← tab_entry hd]
  exact vec_rows hs hr

/-! ### ghost cells -/

theorem length_rfam (f : Nat → Nat → Nat → K) (r : Nat) : (tab (sizes r) rest.prod (f r)).length = ((Layout.rows N rest sizes).lshape r).prod := by
  simp [lshape_rows]

theorem global_rfam (hs : psum sizes n = N) : (Layout.rows N rest sizes).global n dt (fun r => tab (sizes r) rest.prod (glob sizes F r))
    = rowsArr N rest dt F := by
  have h1 : (Layout.rows N rest sizes).globalData n ((Layout.rows N rest sizes).piece (tab N rest.prod F)) = tab N rest.prod F :=
    global_piece (rows_wf hs) (by simp [Layout.rows])
  have h2 : (Layout.rows N rest sizes).globalData n (fun r => tab (sizes r) rest.prod (glob sizes F r))
      = (Layout.rows N rest sizes).globalData n ((Layout.rows N rest sizes).piece (tab N rest.prod F)) := by
    have hb : ¬ (Layout.rows N rest sizes).part.isBroadcast = true := by simp [Layout.rows, Partition.isBroadcast]
    unfold Layout.globalData
    rw [if_neg hb, if_neg hb]
    congr 1
    apply List.map_congr_left
    intro r hr
    have := congrArg (fun d : DArr K => d.larr.data) (vec_rows (dt := dt) (rest := rest) (F := F) hs (show r < n by simpa using hr))
    exact congrArg _ this.symm
  unfold Layout.global rowsArr
  rw [h2, h1]; rfl

/-- number of ghost rows rank `r` receives -/
def gf (front : Option Nat) (r : Nat) : Nat := if r = 0 then 0 else front.getD 0
def gb (n : Nat) (back : Option Nat) (r : Nat) : Nat := if r = n - 1 then 0 else back.getD 0

/-- enough rows for the exchange -/
def Room (n : Nat) (sizes : Nat → Nat) (front back : Option Nat) : Prop :=
  ∀ r, r + 1 < n → front.getD 0 ≤ sizes r ∧ back.getD 0 ≤ sizes (r + 1)

theorem runs_ghost_rows (hs : psum sizes n = N) {front back : Option Nat} (hroom : Room n sizes front back) :
    Runs n (fun r => (rfam n N rest sizes dt (glob sizes F) r).addGhostCells (env n J r) front back)
      (fun r => .ok (rowsArr (sizes r + gf front r + gb n back r) rest dt fun i => F (psum sizes r - gf front r + i))) := by
  have h := runs_addGhostCells (J := J) (dt := dt) (front := front.map fun k _ => k) (back := back.map fun k _ => k) (rows_wf (rest := rest) hs)
    (by rfl) (a := fun r => tab (sizes r) rest.prod (glob sizes F r)) (fun r _ => length_rfam _ r)
    (fun f hf r hr h => by
      cases front with
      | none => simp at hf
      | some k => simp at hf; subst hf; exact (hroom r h).1)
    (fun b hb r hr h => by
      cases back with
      | none => simp at hb
      | some k =>
        simp at hb; subst hb
        have := (hroom (r - 1) (by omega)).2
        rw [show r - 1 + 1 = r by omega] at this
        exact this)
  refine h.congr (fun r _ => ?_) fun r hr => ?_
  · simp only [Option.map_map]
    congr 1
    · cases front <;> rfl
    · cases back <;> rfl
  · rw [global_rfam hs]
    congr 1
    have hle := off_rows_le hs hr
    have h1 : frontCells ((front.map fun (k _ : Nat) => k).getD fun _ => 0) r = gf front r := by
      unfold frontCells gf; cases front <;> rfl
    have h2 : backCells n ((back.map fun (k _ : Nat) => k).getD fun _ => 0) r = gb n back r := by
      unfold backCells gb; cases back <;> rfl
    rw [h1, h2]
    unfold Layout.window
    have hgf : gf front r ≤ psum sizes r := by
      unfold gf
      split_ifs with h0
      · omega
      · have := (hroom (r - 1) (by omega)).1
        have e : psum sizes (r - 1 + 1) = psum sizes (r - 1) + sizes (r - 1) := rfl
        rw [show r - 1 + 1 = r by omega] at e
        omega
    have hgb : psum sizes r + sizes r + gb n back r ≤ N := by
      unfold gb
      split_ifs with h0
      · omega
      · have := (hroom r (by omega)).2
        have := off_rows_le hs (show r + 1 < n by omega)
        have e : psum sizes (r + 1) = psum sizes r + sizes r := rfl
        omega
    have e : (Layout.rows N rest sizes).off (r + 1) = psum sizes r + sizes r := rfl
    have e0 : (Layout.rows N rest sizes).off r = psum sizes r := rfl
    rw [e, e0]
    show (rowsArr N rest dt F).slice 0 _ _ = _
    rw [slice_rows (by omega) hgb]
    congr 1
    omega

/-! ### the blocks -/

/-- `φ` shortens an array by `k` rows, row `i` of the result being `ψ f i` -/
def Combines (rest : List Nat) (φ : NDArray K → Except Err (NDArray K)) (k : Nat) (ψ : (Nat → Nat → K) → Nat → Nat → K) : Prop :=
  ∀ m dt f, φ (rowsArr m rest dt f) = .ok (rowsArr (m - k) rest dt (ψ f))

theorem promote_real (dt : DType) : dt.promote .real = dt := by cases dt <;> rfl
theorem real_promote (dt : DType) : DType.real.promote dt = dt := by cases dt <;> rfl

/-- local steps -/
theorem runs_local {α : Type} {ps : Nat → P K α} {v : Nat → α} (h : ∀ r < n, ps r = .ret (v r)) : Runs n ps (fun r => .ok (v r)) :=
  (Runs.ret v).congr (fun r hr => (h r hr).symm) fun _ _ => rfl

/-- rows of zeros in front on rank 0, at the end on the last rank -/
def pf (k : Option Int) (r : Nat) : Nat := if r = 0 then (k.getD 0).toNat else 0
def pb (n : Nat) (k : Option Int) (r : Nat) : Nat := if r = n - 1 then (k.getD 0).toNat else 0

section
variable [Field K] [StarRing K] [CharZero K]

/-- rows of the block -/
def blk (n : Nat) (sizes : Nat → Nat) (front back : Option Nat) (k : Nat) (kf : Option Int) (ψ : (Nat → Nat → K) → Nat → Nat → K)
    (F : Nat → Nat → K) (r i j : Nat) : K :=
  if i < pf kf r then 0
  else if i < pf kf r + (sizes r + gf front r + gb n back r - k) then ψ (fun i => F (psum sizes r - gf front r + i)) (i - pf kf r) j
  else 0

theorem padFront_rows {b : Bool} {k : Option Int} (hk : ∀ i, k = some i → 0 ≤ i) {m : Nat} {g : Nat → Nat → K} :
    padFront b k (N :: rest) (rowsArr m rest dt g)
      = .ok (rowsArr ((if b then (k.getD 0).toNat else 0) + m) rest dt fun i j =>
          if i < (if b then (k.getD 0).toNat else 0) then 0 else g (i - (if b then (k.getD 0).toNat else 0)) j) := by
  cases b with
  | false => simp [padFront]
  | true =>
    cases k with
    | none => simp [padFront]
    | some k =>
      simp only [padFront, List.tail_cons, zeroRows_rows (hk k rfl), bind, Except.bind, concat_rows, real_promote]
      rfl

theorem padBack_rows {b : Bool} {k : Option Int} (hk : ∀ i, k = some i → 0 ≤ i) {m : Nat} {g : Nat → Nat → K} :
    padBack b k (N :: rest) (rowsArr m rest dt g)
      = .ok (rowsArr (m + (if b then (k.getD 0).toNat else 0)) rest dt fun i j => if i < m then g i j else 0) := by
  have h : ∀ m', m' = m → rowsArr m rest dt g = rowsArr m' rest dt fun i j => if i < m then g i j else 0 := by
    rintro _ rfl
    exact rowsArr_congr rfl fun i hi j _ => by rw [if_pos hi]
  cases b with
  | false => simp only [padBack]; rw [h (m + 0) rfl]; rfl
  | true =>
    cases k with
    | none => simp only [padBack]; rw [h (m + 0) rfl]; rfl
    | some k =>
      simp only [padBack, List.tail_cons, zeroRows_rows (hk k rfl), bind, Except.bind, concat_rows, promote_real]
      rfl

theorem runs_stencil (hs : psum sizes n = N) {front back : Option Nat} (hroom : Room n sizes front back) {φ : NDArray K → Except Err (NDArray K)}
    {k : Nat} {ψ : (Nat → Nat → K) → Nat → Nat → K} (hφ : Combines rest φ k ψ) {kf kb : Option Int} (hkf : ∀ i, kf = some i → 0 ≤ i)
    (hkb : ∀ i, kb = some i → 0 ≤ i) :
    Runs n (fun r => stencil (env n J r) (N :: rest) (rfam n N rest sizes dt (glob sizes F) r) front back φ kf kb)
      (fun r => .ok (rowsArr (pf kf r + (sizes r + gf front r + gb n back r - k) + pb n kb r) rest dt (blk n sizes front back k kf ψ F r))) := by
  unfold stencil
  simp only [Prog.bind_eq]
  refine Runs.bind_ok (runs_ghost_rows hs hroom) ?_
  refine Runs.congr (Runs.ret _) (fun r hr => ?_) fun _ _ => rfl
  rw [hφ, Prog.lift_ok, Prog.ret_bind, padFront_rows hkf, Prog.lift_ok, Prog.ret_bind, padBack_rows hkb, Prog.lift_ok]
  congr 1
  have e1 : (if decide ((env n J r).rank = 0) = true then (kf.getD 0).toNat else 0) = pf kf r := by
    unfold pf; rw [env_rank]; congr 1; simp
  have e2 : (if decide ((env n J r).rank = (env n J r).size - 1) = true then (kb.getD 0).toNat else 0) = pb n kb r := by
    unfold pb; rw [env_rank, env_size]; congr 1; simp
  rw [e1, e2]
  refine rowsArr_congr rfl fun i hi j hj => ?_
  unfold blk
  split_ifs <;> first | rfl | omega

theorem fit_blk (hF : Fit dx F) {front back : Option Nat} {k : Nat} {kf : Option Int} {ψ : (Nat → Nat → K) → Nat → Nat → K}
    (hψ : ∀ g : Nat → Nat → K, (∀ i j, star (g i j) = g i j) → ∀ i j, star (ψ g i j) = ψ g i j) (r : Nat) :
    Fit dx (blk n sizes front back k kf ψ F r) := by
  intro h i j
  unfold blk
  split_ifs
  · simp
  · exact hψ _ (fun i j => hF h _ _) _ _
  · simp

/-- `y = DistributedArray(…)` -/
theorem runs_newLike (hs : psum sizes n = N) :
    Runs n (fun r => newLike (env n J r) dt (rfam n N rest sizes dx f r))
      (fun r => .ok ((Layout.rows N rest sizes).fam n dt (junkData J (Layout.rows N rest sizes) dt) r)) := by
  unfold newLike
  simp only [Prog.bind_eq]
  exact runs_localShapes (runs_mkDArr (L := Layout.rows N rest sizes) (rows_wf hs))

/-- `y[:] = 0` -/
theorem runs_zero (a : Nat → List K) (ha : ∀ r < n, (a r).length = ((Layout.rows N rest sizes).lshape r).prod) :
    Runs n (fun r => ((Layout.rows N rest sizes).fam n dt a r).setAll (env n J r) (scalar .real 0))
      (fun r => .ok (rfam n N rest sizes dt (fun _ _ _ => (0 : K)) r)) := by
  refine (runs_setAll_scalar ha).congr (fun _ _ => rfl) fun r _ => ?_
  congr 1
  refine fam_congr ?_
  show List.replicate _ (castTo dt 0) = _
  rw [castTo_zero, tab_const]
  simp [lshape_rows]

/-- `y[:] = v` -/
theorem runs_set_rows (a : Nat → List K) (ha : ∀ r < n, (a r).length = ((Layout.rows N rest sizes).lshape r).prod)
    {g : Nat → Nat → Nat → K} (hg : ∀ r, Fit dt (g r)) {m : Nat → Nat} (hm : ∀ r < n, m r = sizes r) :
    Runs n (fun r => ((Layout.rows N rest sizes).fam n dt a r).setAll (env n J r) (rowsArr (m r) rest dx (g r)))
      (fun r => .ok (rfam n N rest sizes dt g r)) := by
  refine (runs_setAll_good (L := Layout.rows N rest sizes) (dt := dt) ha (fun r hr => by rw [hm r hr]; rfl) ⟨fun r hr => ?_, fun r hr h x hx => ?_, fun h => by cases h⟩).congr
    (fun _ _ => rfl) fun r hr => ?_
  · rw [hm r hr]; exact length_rfam g r
  · obtain ⟨i, _, j, _, rfl⟩ := tab_mem hx
    exact hg r h i j
  · congr 1
    refine fam_congr ?_
    show (rowsArr (m r) rest dx (g r)).data = _
    rw [hm r hr]; rfl

theorem setItem_rfam {r : Nat} {ix : Index} {v : NDArray K} : (rfam n N rest sizes dt f r).setItem (env n J r) ix v
    = (Prog.lift (setIndex ix (rowsArr (sizes r) rest dt (f r)) v)).bind fun a =>
      .ret { rfam n N rest sizes dt f r with larr := a } := by
  unfold DArr.setItem
  have : ¬ (rfam n N rest sizes dt f r).part = .broadcast := show ¬ (Partition.scatter = .broadcast) by decide
  rw [if_neg this]
  rfl

omit [Field K] [StarRing K] [CharZero K] in
theorem rfam_with {r : Nat} {g : Nat → Nat → K} : ({ rfam n N rest sizes dt f r with larr := rowsArr (sizes r) rest dt g } : DArr K)
    = rfam n N rest sizes dt (fun _ => g) r := rfl

/-- `y[:] op= v` -/
theorem runs_upd_all (hdt : dt = .real → dx = .real) {g : Nat → Nat → Nat → K} {op : K → K → K}
    (hop : dt = .real → ∀ a b, star a = a → star b = b → star (op a b) = op a b) (hf : ∀ r, Fit dt (f r)) (hg : ∀ r, Fit dx (g r))
    {m : Nat → Nat} (hm : ∀ r < n, m r = sizes r) :
    Runs n (fun r => (rfam n N rest sizes dt f r).upd (env n J r) Index.all op (rowsArr (m r) rest dx (g r)))
      (fun r => .ok (rfam n N rest sizes dt (fun r i j => op (f r i j) (g r i j)) r)) ∧ ∀ r, Fit dt fun i j => op (f r i j) (g r i j) := by
  have hfit : ∀ r, Fit dt fun i j => op (f r i j) (g r i j) := fun r h i j => hop h _ _ (hf r h i j) (hg r (hdt h) i j)
  refine ⟨?_, hfit⟩
  unfold DArr.upd
  simp only [Prog.bind_eq, rfam_larr, get_all, Prog.lift_ok, Prog.ret_bind]
  refine Runs.congr (Runs.ret _) (fun r hr => ?_) fun _ _ => rfl
  rw [hm r hr, inplace_ok (dt := dt) (dt' := dx) hdt rfl rfl bcast_rows, Prog.lift_ok, Prog.ret_bind, setItem_rfam]
  have e : ({ rowsArr (sizes r) rest dt (f r) with data := List.zipWith op (rowsArr (sizes r) rest dt (f r)).data (tab (sizes r) rest.prod (g r)) } : NDArray K)
      = rowsArr (sizes r) rest dt fun i j => op (f r i j) (g r i j) := by
    simp only [rowsArr, tab_zip]
  rw [e, set_all (hfit r)]
  rfl

/-- `y[:] /= s` -/
theorem runs_divide {s : K} (hsr : dt = .real → star s = s) (hf : ∀ r, Fit dt (f r)) :
    Runs n (fun r => divide (env n J r) s (rfam n N rest sizes dt f r))
      (fun r => .ok (rfam n N rest sizes dt (fun r i j => f r i j / s) r)) := by
  unfold divide DArr.upd
  simp only [Prog.bind_eq, rfam_larr, get_all, Prog.lift_ok, Prog.ret_bind]
  refine Runs.congr (Runs.ret _) (fun r hr => ?_) fun _ _ => rfl
  rw [inplace_ok (dt := dt) (dt' := .real) (fun _ => rfl) rfl rfl (bcastTo_scalar _ _ _), Prog.lift_ok, Prog.ret_bind, setItem_rfam]
  have e : ({ rowsArr (sizes r) rest dt (f r) with data := List.zipWith (· / ·) (rowsArr (sizes r) rest dt (f r)).data (List.replicate (rowsArr (sizes r) rest dt (f r)).shape.prod s) } : NDArray K)
      = rowsArr (sizes r) rest dt fun i j => f r i j / s := by
    simp only [rowsArr, List.prod_cons, ← tab_const, tab_zip]
  rw [e, set_all (fun h i j => by rw [star_div₀, hf r h, hsr h])]
  rfl

/-- one accumulation step -/
theorem runs_accum (hs : psum sizes n = N) {front back : Option Nat} (hroom : Room n sizes front back) {φ : NDArray K → Except Err (NDArray K)}
    {k : Nat} {ψ : (Nat → Nat → K) → Nat → Nat → K} (hφ : Combines rest φ k ψ) {kf kb : Option Int} (hkf : ∀ i, kf = some i → 0 ≤ i)
    (hkb : ∀ i, kb = some i → 0 ≤ i) (hdt : dt = .real → dx = .real) {op : K → K → K}
    (hop : dt = .real → ∀ a b, star a = a → star b = b → star (op a b) = op a b) (hf : ∀ r, Fit dt (f r)) (hF : Fit dx F)
    (hψ : ∀ g : Nat → Nat → K, (∀ i j, star (g i j) = g i j) → ∀ i j, star (ψ g i j) = ψ g i j)
    (hm : ∀ r < n, pf kf r + (sizes r + gf front r + gb n back r - k) + pb n kb r = sizes r) :
    Runs n (fun r => accum (env n J r) (N :: rest) (rfam n N rest sizes dx (glob sizes F) r) front back φ kf kb op (rfam n N rest sizes dt f r))
      (fun r => .ok (rfam n N rest sizes dt (fun r i j => op (f r i j) (blk n sizes front back k kf ψ F r i j)) r)) ∧
      ∀ r, Fit dt fun i j => op (f r i j) (blk n sizes front back k kf ψ F r i j) := by
  obtain ⟨h1, h2⟩ := runs_upd_all (n := n) (N := N) (J := J) (rest := rest) (sizes := sizes) hdt hop hf (fun r => fit_blk (n := n) (sizes := sizes) (front := front) (back := back) (k := k) (kf := kf) hF hψ r) hm
  refine ⟨?_, h2⟩
  unfold accum
  simp only [Prog.bind_eq]
  exact Runs.bind_ok (runs_stencil hs hroom hφ hkf hkb) h1

/-- `y[lo:hi] op= x[lo:hi]` on the ranks with `b r`, `y[:] op= x[:]` on the others -/
theorem runs_addPart (hdt : dt = .real → dx = .real) {op : K → K → K}
    (hop : dt = .real → ∀ a b, star a = a → star b = b → star (op a b) = op a b) (hf : ∀ r, Fit dt (f r)) {g : Nat → Nat → Nat → K} (hg : ∀ r, Fit dx (g r))
    (b : Nat → Bool) (lo : Int) (hi : Option Int) :
    Runs n (fun r => addPart (env n J r) (rfam n N rest sizes dx g r) (b r) lo hi op (rfam n N rest sizes dt f r))
      (fun r => .ok (rfam n N rest sizes dt (fun r i j => if b r = true → pyBound (sizes r) lo ≤ i ∧ i < pyUpper (sizes r) hi then
        op (f r i j) (g r i j) else f r i j) r)) ∧
      ∀ r, Fit dt fun i j => if b r = true → pyBound (sizes r) lo ≤ i ∧ i < pyUpper (sizes r) hi then op (f r i j) (g r i j) else f r i j := by
  have hfit : ∀ r, Fit dt fun i j => op (f r i j) (g r i j) := fun r h i j => hop h _ _ (hf r h i j) (hg r (hdt h) i j)
  refine ⟨runs_local fun r hr => ?_, fun r h i j => ?_⟩
  · unfold addPart DArr.upd
    simp only [Prog.bind_eq, rfam_larr]
    have main : ∀ lo hi, ((Prog.lift ((rowsArr (sizes r) rest dx (g r)).get (Index.rows lo hi)) : P K (NDArray K)).bind fun v =>
        (Prog.lift ((rowsArr (sizes r) rest dt (f r)).get (Index.rows lo hi))).bind fun t =>
          (Prog.lift (t.inplace op v)).bind fun t => (rfam n N rest sizes dt f r).setItem (env n J r) (Index.rows lo hi) t)
        = .ret (rfam n N rest sizes dt (fun r i j => if pyBound (sizes r) lo ≤ i ∧ i < pyUpper (sizes r) hi then op (f r i j) (g r i j) else f r i j) r) := by
      intro lo hi
      rw [get_rows, get_rows, Prog.lift_ok, Prog.ret_bind, Prog.lift_ok, Prog.ret_bind,
        inplace_ok (dt := dt) (dt' := dx) hdt rfl rfl bcast_rows, Prog.lift_ok, Prog.ret_bind, setItem_rfam]
      have e : ({ rowsArr (pyUpper (sizes r) hi - pyBound (sizes r) lo) rest dt (fun i => f r (pyBound (sizes r) lo + i)) with
          data := List.zipWith op (rowsArr (pyUpper (sizes r) hi - pyBound (sizes r) lo) rest dt (fun i => f r (pyBound (sizes r) lo + i))).data
            (tab (pyUpper (sizes r) hi - pyBound (sizes r) lo) rest.prod (fun i => g r (pyBound (sizes r) lo + i))) } : NDArray K)
          = rowsArr (pyUpper (sizes r) hi - pyBound (sizes r) lo) rest dt
            fun i j => op (f r (pyBound (sizes r) lo + i) j) (g r (pyBound (sizes r) lo + i) j) := by
        simp only [rowsArr, tab_zip]
      rw [e, set_rows rfl rfl (fun h i j => hfit r h _ _), Prog.lift_ok, Prog.ret_bind]
      congr 1
      rw [rfam_with]
      refine rfam_congr fun i hi' j _ => ?_
      dsimp only
      by_cases h : pyBound (sizes r) lo ≤ i ∧ i < pyUpper (sizes r) hi
      · rw [if_pos h, if_pos (by omega), show pyBound (sizes r) lo + (i - pyBound (sizes r) lo) = i by omega]
      · rw [if_neg h, if_neg (by omega)]
    cases hb : b r with
    | true =>
      rw [if_pos rfl, main]
      congr 1
      exact rfam_congr fun i _ j _ => by simp [hb]
    | false =>
      rw [if_neg (by simp), main]
      congr 1
      refine rfam_congr fun i hi' j _ => ?_
      simp only [hb, Bool.false_eq_true, false_imp_iff, if_true]
      rw [if_pos ⟨by simp [pyBound], hi'⟩]
  · dsimp only
    split_ifs
    · exact hfit r h i j
    · exact hf r h i j

/-! ### single rows -/

/-- combination of rows -/
def comb (m : Nat) (g : Nat → Nat → K) (l : List (K × Int)) (j : Nat) : K := (l.map fun p => p.1 * g (pyBound m p.2) j).sum

theorem rowComb_rows {m : Nat} {g : Nat → Nat → K} {l : List (K × Int)} (hl : l ≠ []) (hi : ∀ p ∈ l, -(m : Int) ≤ p.2 ∧ p.2 < m) :
    rowComb (rowsArr m rest dx g) l = .ok (rowArr rest dx (comb m g l)) := by
  induction l with
  | nil => exact absurd rfl hl
  | cons p l ih =>
    have h := hi p (by simp)
    cases l with
    | nil =>
      simp only [rowComb, get_row h.1 h.2, bind, Except.bind]
      show Except.ok ((rowArr rest dx (g (pyBound m p.2))).map (p.1 * ·)) = _
      rw [map_row]
      congr 2
      funext j
      simp [comb]
    | cons q l =>
      rw [rowComb, ih (by simp) (fun x hx => hi x (by simp [hx])), get_row h.1 h.2]
      · simp only [bind, Except.bind, map_row, zip_row, promote_self]
        congr 2
      · intro h
        cases h

theorem fit_comb {m : Nat} {g : Nat → Nat → K} {l : List (K × Int)} (hdt : dt = .real → dx = .real) (hg : Fit dx g) (hl : ∀ p ∈ l, star p.1 = p.1)
    (h : dt = .real) (j : Nat) : star (comb m g l j) = comb m g l j := by
  unfold comb
  rw [← starAddEquiv_apply, map_list_sum, List.map_map]
  congr 1
  apply List.map_congr_left
  intro p hp
  simp [hl p hp, hg (hdt h)]

/-- `if b: y[i] = Σ …` -/
theorem runs_setRow (hdt : dt = .real → dx = .real) (hf : ∀ r, Fit dt (f r)) {g : Nat → Nat → Nat → K} (hg : ∀ r, Fit dx (g r)) (b : Nat → Bool)
    (i : Int) (l : List (K × Int)) (hl : l ≠ []) (hstar : ∀ p ∈ l, star p.1 = p.1)
    (hi : ∀ r < n, b r = true → (-(sizes r : Int) ≤ i ∧ i < sizes r) ∧ ∀ p ∈ l, -(sizes r : Int) ≤ p.2 ∧ p.2 < sizes r) :
    Runs n (fun r => doIf (b r) (setRow (env n J r) (rfam n N rest sizes dx g r) i l) (rfam n N rest sizes dt f r))
      (fun r => .ok (rfam n N rest sizes dt (fun r p j => if b r = true ∧ p = pyBound (sizes r) i then comb (sizes r) (g r) l j else f r p j) r)) ∧
      ∀ r, Fit dt fun p j => if b r = true ∧ p = pyBound (sizes r) i then comb (sizes r) (g r) l j else f r p j := by
  refine ⟨runs_local fun r hr => ?_, fun r h p j => ?_⟩
  · unfold doIf setRow
    by_cases hb : b r = true
    · obtain ⟨h1, h2⟩ := hi r hr hb
      rw [if_pos hb]
      simp only [Prog.bind_eq, rfam_larr]
      rw [rowComb_rows hl h2, Prog.lift_ok, Prog.ret_bind, setItem_rfam, set_row h1.1 h1.2 (fit_comb hdt (hg r) hstar), Prog.lift_ok, Prog.ret_bind,
        rfam_with]
      congr 1
      exact rfam_congr fun p _ j _ => by simp [hb]
    · rw [if_neg hb]
      congr 1
      exact rfam_congr fun p _ j _ => by simp [hb]
  · dsimp only
    split_ifs
    · exact fit_comb hdt (hg r) hstar h j
    · exact hf r h p j

/-- `if b: y[i] += Σ …` -/
theorem runs_addRow (hdt : dt = .real → dx = .real) (hf : ∀ r, Fit dt (f r)) {g : Nat → Nat → Nat → K} (hg : ∀ r, Fit dx (g r)) (b : Nat → Bool)
    (i : Int) (l : List (K × Int)) (hl : l ≠ []) (hstar : ∀ p ∈ l, star p.1 = p.1)
    (hi : ∀ r < n, b r = true → (-(sizes r : Int) ≤ i ∧ i < sizes r) ∧ ∀ p ∈ l, -(sizes r : Int) ≤ p.2 ∧ p.2 < sizes r) :
    Runs n (fun r => doIf (b r) (addRow (env n J r) (rfam n N rest sizes dx g r) i l) (rfam n N rest sizes dt f r))
      (fun r => .ok (rfam n N rest sizes dt (fun r p j => if b r = true ∧ p = pyBound (sizes r) i then f r p j + comb (sizes r) (g r) l j else f r p j) r)) ∧
      ∀ r, Fit dt fun p j => if b r = true ∧ p = pyBound (sizes r) i then f r p j + comb (sizes r) (g r) l j else f r p j := by
  refine ⟨runs_local fun r hr => ?_, fun r h p j => ?_⟩
  · unfold doIf addRow DArr.upd
    by_cases hb : b r = true
    · obtain ⟨h1, h2⟩ := hi r hr hb
      rw [if_pos hb]
      simp only [Prog.bind_eq, rfam_larr]
      rw [rowComb_rows hl h2, Prog.lift_ok, Prog.ret_bind, get_row h1.1 h1.2, Prog.lift_ok, Prog.ret_bind,
        inplace_ok (dt := dt) (dt' := dx) hdt rfl rfl bcast_row, Prog.lift_ok, Prog.ret_bind, setItem_rfam]
      have e : ({ rowArr rest dt (f r (pyBound (sizes r) i)) with
          data := List.zipWith (· + ·) (rowArr rest dt (f r (pyBound (sizes r) i))).data ((List.range rest.prod).map (comb (sizes r) (g r) l)) } : NDArray K)
          = rowArr rest dt fun j => f r (pyBound (sizes r) i) j + comb (sizes r) (g r) l j := by
        simp only [rowArr, List.zipWith_map, List.zipWith_self]
      rw [e, set_row h1.1 h1.2 (fun h j => by rw [star_add, hf r h, fit_comb hdt (hg r) hstar h]), Prog.lift_ok, Prog.ret_bind, rfam_with]
      congr 1
      refine rfam_congr fun p _ j _ => ?_
      simp only [hb, true_and]
      by_cases hp : p = pyBound (sizes r) i
      · rw [if_pos hp, if_pos hp, hp]
      · rw [if_neg hp, if_neg hp]
    · rw [if_neg hb]
      congr 1
      exact rfam_congr fun p _ j _ => by simp [hb]
  · dsimp only
    split_ifs
    · rw [star_add, hf r h, fit_comb hdt (hg r) hstar h]
    · exact hf r h p j

/-! ### the combinations of ghosted rows -/

theorem pyUpper_neg (m k : Nat) (hk : 0 < k) : pyUpper m (some (-(k : Int))) = m - k := by
  show pyBound _ _ = _
  unfold pyBound
  rw [if_pos (by omega)]
  omega

theorem pyBound_nat (m k : Nat) : pyBound m (k : Int) = min k m := by
  unfold pyBound
  rw [if_neg (by omega)]
  simp

theorem pyBound_neg (m k : Nat) (hk : 0 < k) : pyBound m (-(k : Int)) = m - k := by
  unfold pyBound
  rw [if_pos (by omega)]
  omega

end

theorem get_rows_nat [Zero K] {m lo : Nat} {g : Nat → Nat → K} {hi : Option Int} {u : Nat} (hu : pyUpper m hi = u) :
    (rowsArr m rest dt g).get (Index.rows (lo : Int) hi) = .ok (rowsArr (u - min lo m) rest dt fun i => g (lo + i)) := by
  rw [get_rows, pyBound_nat, hu]
  congr 1
  have := pyUpper_le m hi
  refine rowsArr_congr rfl fun i hi' j _ => ?_
  congr 1
  congr 1
  omega

section
variable [Field K] [StarRing K] [CharZero K]

theorem combines_part (lo : Nat) (hi : Option Int) (h : K → K) (k : Nat) (hk : ∀ m, pyUpper m hi - min lo m = m - k) :
    Combines rest (part (lo : Int) hi h) k (fun g i j => h (g (lo + i) j)) := by
  intro m dt g
  unfold part
  rw [get_rows_nat rfl]
  simp only [bind, Except.bind, map_rows]
  rw [hk]
  rfl

theorem combines_diff1 : Combines rest (diff1 (K := K)) 1 (fun g i j => g (1 + i) j - g (0 + i) j) := by
  intro m dt g
  have h1 := get_rows_nat (rest := rest) (dt := dt) (g := g) (m := m) (lo := 1) (hi := none) (u := m) rfl
  have h2 := get_rows_nat (rest := rest) (dt := dt) (g := g) (m := m) (lo := 0) (hi := some (-1)) (pyUpper_neg m 1 (by omega))
  simp only [Nat.cast_one, Nat.cast_zero] at h1 h2
  unfold diff1
  rw [h1, h2]
  simp only [bind, Except.bind]
  rw [zip_rows _ (by omega), promote_self]
  congr 2
  omega

theorem combines_cent3 : Combines rest (cent3 (K := K)) 2 (fun g i j => 1 / 2 * (g (2 + i) j - g (0 + i) j)) := by
  intro m dt g
  have h1 := get_rows_nat (rest := rest) (dt := dt) (g := g) (m := m) (lo := 2) (hi := none) (u := m) rfl
  have h2 := get_rows_nat (rest := rest) (dt := dt) (g := g) (m := m) (lo := 0) (hi := some (-2)) (pyUpper_neg m 2 (by omega))
  simp only [Nat.cast_ofNat, Nat.cast_zero] at h1 h2
  unfold cent3
  rw [h1, h2]
  simp only [bind, Except.bind]
  rw [zip_rows _ (by omega), promote_self]
  simp only [map_rows]
  show Except.ok _ = _
  congr 2
  omega

theorem combines_diff2 : Combines rest (diff2 (K := K)) 2 (fun g i j => g (2 + i) j - 2 * g (1 + i) j + g (0 + i) j) := by
  intro m dt g
  have h1 := get_rows_nat (rest := rest) (dt := dt) (g := g) (m := m) (lo := 2) (hi := none) (u := m) rfl
  have h2 := get_rows_nat (rest := rest) (dt := dt) (g := g) (m := m) (lo := 1) (hi := some (-1)) (pyUpper_neg m 1 (by omega))
  have h3 := get_rows_nat (rest := rest) (dt := dt) (g := g) (m := m) (lo := 0) (hi := some (-2)) (pyUpper_neg m 2 (by omega))
  simp only [Nat.cast_ofNat, Nat.cast_zero, Nat.cast_one] at h1 h2 h3
  unfold diff2
  rw [h1, h2, h3]
  simp only [bind, Except.bind, map_rows]
  rw [zip_rows _ (by omega), promote_self]
  dsimp only
  rw [zip_rows _ (by omega), promote_self]
  congr 2
  omega

theorem combines_cent5 : Combines rest (cent5 (K := K)) 4
    (fun g i j => g (0 + i) j / 12 - 2 * g (1 + i) j / 3 + 2 * g (3 + i) j / 3 - g (4 + i) j / 12) := by
  intro m dt g
  have h1 := get_rows_nat (rest := rest) (dt := dt) (g := g) (m := m) (lo := 0) (hi := some (-4)) (pyUpper_neg m 4 (by omega))
  have h2 := get_rows_nat (rest := rest) (dt := dt) (g := g) (m := m) (lo := 1) (hi := some (-3)) (pyUpper_neg m 3 (by omega))
  have h3 := get_rows_nat (rest := rest) (dt := dt) (g := g) (m := m) (lo := 3) (hi := some (-1)) (pyUpper_neg m 1 (by omega))
  have h4 := get_rows_nat (rest := rest) (dt := dt) (g := g) (m := m) (lo := 4) (hi := none) (u := m) rfl
  simp only [Nat.cast_ofNat, Nat.cast_zero, Nat.cast_one] at h1 h2 h3 h4
  unfold cent5
  rw [h1, h2, h3, h4]
  simp only [bind, Except.bind, map_rows]
  rw [zip_rows _ (by omega), promote_self]
  dsimp only
  rw [zip_rows _ (by omega), promote_self]
  dsimp only
  rw [zip_rows _ (by omega), promote_self]
  congr 2

end

/-! ### position of a rank -/

/-- `o` and `m`: first row and number of rows of rank `r` -/
structure Pos (n r o m N c : Nat) : Prop where
  lt : r < n
  le : o + m ≤ N
  first : r = 0 → o = 0
  last : r = n - 1 → o + m = N
  before : r ≠ 0 → c ≤ o
  after : r ≠ n - 1 → o + m + c ≤ N
  many : n ≠ 1 → c ≤ m

theorem pos_rows (hs : psum sizes n = N) {c : Nat} (hc : n = 1 ∨ ∀ r < n, c ≤ sizes r) {r : Nat} (hr : r < n) : Pos n r (psum sizes r) (sizes r) N c where
  lt := hr
  le := off_rows_le hs hr
  first := by rintro rfl; rfl
  last := by
    rintro h
    have : psum sizes (r + 1) = psum sizes r + sizes r := rfl
    rw [← this, show r + 1 = n by omega, hs]
  before := by
    intro h0
    have h1 := hc.resolve_left (by omega) (r - 1) (by omega)
    have : psum sizes (r - 1 + 1) = psum sizes (r - 1) + sizes (r - 1) := rfl
    rw [show r - 1 + 1 = r by omega] at this
    omega
  after := by
    intro h0
    have h1 := hc.resolve_left (by omega) (r + 1) (by omega)
    have h2 := off_rows_le hs (show r + 1 < n by omega)
    have : psum sizes (r + 1) = psum sizes r + sizes r := rfl
    omega
  many := fun h => hc.resolve_left h r hr

theorem room_rows {c : Nat} (hc : n = 1 ∨ ∀ r < n, c ≤ sizes r) {front back : Option Nat} (hf : front.getD 0 ≤ c) (hb : back.getD 0 ≤ c) :
    Room n sizes front back := by
  intro r hr
  have := hc.resolve_left (by omega)
  exact ⟨hf.trans (this r (by omega)), hb.trans (this (r + 1) hr)⟩

end Verif

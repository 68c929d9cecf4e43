/-
  The calls made by the decorator `reshaped`, the operators, operator expressions and the solvers.
-/
import Verif.Proofs.TrafficArr
import Verif.Model.Stacking
import Verif.Model.Derivatives
import Verif.Model.Solvers

namespace Verif
open NDArray

variable {K α β : Type} {rep : CollKind → List Nat → Msg K → Prop} {ok : CommCall (Msg K) → Prop}

theorem CallsW.step {w : Msg K → Nat} {k v k1 v1 : Nat} {p : P K α} {f : α → P K β} {Q : α → Prop} {R : β → Prop} (h : CallsW w rep ok k1 v1 p Q)
    (hk : k1 ≤ k) (hv : v1 ≤ v) (hf : ∀ a, Q a → CallsW w rep ok (k - k1) (v - v1) (f a) R) : CallsW w rep ok k v (p.bind f) R :=
  (h.bind hf).mono (by omega) (by omega) fun _ => id

/-- the calls of rank `r` with its neighbours are allowed, and so are collective calls with sizes -/
structure NearOK (r : Nat) (ok : CommCall (Msg K) → Prop) : Prop where
  sizes : AllSizesOK ok
  recv : ∀ q t, (q = r + 1 ∨ q + 1 = r) → ok (.recv q t)
  send : ∀ q t m, (q = r + 1 ∨ q + 1 = r) → ok (.send q t m)

section
variable [Field K] [StarRing K]

/-- the size of the local array -/
def localSize (d : DArr K) : Nat := len d.lshape d.axis * rowSize d.larr.shape d.axis

theorem calls_ghost_near {c : Ctx K} (hok : NearOK c.rank ok) (d : DArr K) (front back : Option Nat) :
    Calls rep ok 6 (2 * localSize d) (d.addGhostCells c front back) fun _ => True :=
  calls_ghost c d front back (len d.lshape d.axis) (fun _ _ => hok.sizes _ _ _ rfl) (fun _ _ => min_le_right _ _) hok.recv
    fun q t a hq _ => hok.send q t _ hq

theorem calls_redistribute {c : Ctx K} (hok : NearOK c.rank ok) (gshape : List Nat) (lshapes : Option (List (List Nat))) (x : DArr K) :
    Calls rep ok 10 (2 * localSize x) (redistribute c gshape lshapes x) (Made .scatter 0 gshape (madeShape c gshape .scatter 0 lshapes)) := by
  unfold redistribute allgather
  split
  · exact .throw
  · simp only [Prog.bind_eq]
    refine CallsW.step (calls_mkDArr hok.sizes.sizes ..) (by omega) (by omega) fun arr ha => ?_
    refine CallsW.step (calls_gather _ _ _ (hok.sizes _ _ _ rfl)) (by omega) (Nat.zero_le _) fun al _ => ?_
    refine CallsW.step (calls_gather _ _ _ (hok.sizes _ _ _ rfl)) (by omega) (Nat.zero_le _) fun xl _ => ?_
    refine CallsW.step (calls_ghost_near hok x _ _) (by omega) (by simp [Enc.enc, Msg.entries]) fun g _ => ?_
    refine CallsW.liftBind fun v _ => ?_
    exact (calls_setAll (by rw [ha.part]; simp) v).mono (by omega) (by omega) fun e he => ha.like he

theorem calls_reshaped {c : Ctx K} (hok : NearOK c.rank ok) (gshape : List Nat) (lshapes : Option (List (List Nat))) (x : DArr K)
    {f : DArr K → P K (DArr K)} {k v : Nat} {Q : DArr K → Prop}
    (hf : ∀ arr, Made .scatter 0 gshape (madeShape c gshape .scatter 0 lshapes) arr → Calls rep ok k v (f arr) Q)
    (hQ : ∀ y, Q y → y.part ≠ .broadcast ∨ y.gshape.length ≤ 1) :
    Calls rep ok (13 + k) (2 * localSize x + v) (reshaped c gshape lshapes f x) fun y => ∃ z, Q z ∧ y.part = z.part := by
  unfold reshaped
  simp only [Prog.bind_eq]
  refine CallsW.step (calls_redistribute hok gshape lshapes x) (by omega) (by omega) fun arr ha => ?_
  refine CallsW.step (hf arr ha) (by omega) (by omega) fun y hy => ?_
  split
  · rename_i hl
    have hp : y.part ≠ .broadcast := (hQ y hy).resolve_right (by omega)
    exact (calls_ravel hok.sizes.sizes hp).mono (by omega) (by omega) fun e he => ⟨y, hy, he⟩
  · exact .ret ⟨y, hy, rfl⟩

theorem calls_blockDiag {c : Ctx K} (hok : NearOK c.rank ok) (ops : List (LOp K)) (mask : Option (List Nat)) (dt : DType) (b : Bool)
    (lin lout : List (List Nat)) (M : Nat) (x : DArr K) :
    Calls rep ok 15 (2 * localSize x) (blockDiagMv ops mask dt b lin lout M c x) fun y => y.part = .scatter := by
  unfold blockDiagMv
  simp only [Prog.bind_eq]
  refine (calls_reshaped hok x.gshape (some lin) x (k := 2) (v := 0) (Q := fun y => y.part = .scatter) (fun arr _ => ?_)
    fun y hy => .inl (by rw [hy]; simp)).mono (by omega) (by omega) fun y hy => by obtain ⟨z, h1, h2⟩ := hy; rw [h2, h1]
  refine CallsW.step (calls_mkDArr hok.sizes.sizes ..) le_rfl le_rfl fun y hy => ?_
  refine CallsW.liftBind fun y1 _ => CallsW.liftBind fun w _ => ?_
  exact (calls_setAll (by rw [hy.part]; simp) w).mono (by omega) (by omega) fun e he => he.part.trans hy.part

theorem calls_vstackMv {c : Ctx K} (hok : SizesOK ok) (ops : List (LOp K)) (dt : DType) (ln : List (List Nat)) (M : Nat) (x : DArr K) :
    Calls rep ok 2 0 (vstackMv ops dt ln M c x) fun y => y.part = .scatter := by
  unfold vstackMv
  split
  · exact .throw
  · simp only [Prog.bind_eq]
    refine CallsW.step (calls_mkDArr hok ..) le_rfl le_rfl fun y hy => ?_
    refine CallsW.liftBind fun y1 _ => CallsW.liftBind fun w _ => ?_
    exact (calls_setAll (by rw [hy.part]; simp) w).mono (by omega) (by omega) fun e he => he.part.trans hy.part

theorem calls_allreduceArr {N : Nat} (cm : List Nat) (x : NDArray K) (h : ok (.coll .allreduce cm (.arr x)))
    (hrep : ∀ a, rep .allreduce cm (.arr a) → a.data.length ≤ N) :
    Calls rep ok 1 x.data.length (allreduce cm (NDArray.zip (· + ·)) x) fun t => t.data.length ≤ N := by
  unfold allreduce
  simp only [Prog.bind_eq]
  refine CallsW.step (calls_gatherArr _ _ _ h) le_rfl le_rfl fun l hl => ?_
  cases l with
  | nil => exact .throw
  | cons y ys =>
    refine (CallsW.lift fun t ht => ?_).mono (Nat.zero_le _) (Nat.zero_le _) fun _ => id
    have hy := hrep y (hl y (by simp))
    clear hl
    induction ys generalizing y with
    | nil => obtain rfl := Except.ok.inj ht; exact hy
    | cons z zs ih =>
      rw [List.foldlM_cons] at ht
      cases hz : NDArray.zip (· + ·) y z with
      | error e => rw [hz] at ht; cases ht
      | ok w =>
        rw [hz] at ht
        refine ih w ht ?_
        unfold NDArray.zip at hz
        split at hz
        · obtain rfl := Except.ok.inj hz
          simp only [List.length_zipWith]
          omega
        · cases hz

/-- the operators return vectors of length `N` -/
theorem length_sumRows {ops : List (LOp K)} {N : Nat} (hN : ∀ o ∈ ops, ∀ v, (o.adj v).length ≤ N) {x : NDArray K} {off : Nat}
    {y1 : List (NDArray K)} (h1 : applyAt true x off ops = .ok y1) {t : NDArray K} (h2 : sumRows y1 = .ok t) : t.data.length ≤ N := by
  have hall : ∀ (ops : List (LOp K)) (off : Nat) (y1 : List (NDArray K)), (∀ o ∈ ops, ∀ v, (o.adj v).length ≤ N) →
      applyAt true x off ops = .ok y1 → ∀ a ∈ y1, a.data.length ≤ N := by
    intro ops
    induction ops with
    | nil => intro off y1 _ h a ha; obtain rfl := Except.ok.inj h; simp at ha
    | cons o os ih =>
      intro off y1 hN h a ha
      unfold applyAt at h
      cases hy : o.apply true (x.slice 0 off (off + o.inDim true)) with
      | error e => rw [hy] at h; cases h
      | ok y =>
        cases hs : applyAt true x (off + o.inDim true) os with
        | error e => rw [hy, hs] at h; cases h
        | ok ys =>
          rw [hy, hs] at h
          obtain rfl := Except.ok.inj h
          rcases List.mem_cons.mp ha with rfl | ha
          · unfold LOp.apply at hy
            split at hy
            · cases hy
            · obtain rfl := Except.ok.inj hy
              exact hN o (by simp) _
          · exact ih _ _ (fun o ho => hN o (by simp [ho])) hs a ha
  have h3 := hall ops off y1 hN h1
  cases y1 with
  | nil => cases h2
  | cons y ys =>
    have hy := h3 y (by simp)
    clear h1 h3 hall
    replace h2 : ys.foldlM (NDArray.zip (· + ·)) y = .ok t := h2
    induction ys generalizing y with
    | nil => obtain rfl := Except.ok.inj h2; exact hy
    | cons z zs ih =>
      rw [List.foldlM_cons] at h2
      cases hz : NDArray.zip (· + ·) y z with
      | error e => rw [hz] at h2; cases h2
      | ok w =>
        rw [hz] at h2
        refine ih w ?_ h2
        unfold NDArray.zip at hz
        split at hz
        · obtain rfl := Except.ok.inj hz
          simp only [List.length_zipWith]
          omega
        · cases hz

theorem calls_vstackRmv {c : Ctx K} (hok : NearOK c.rank ok) (ops : List (LOp K)) (dt : DType) (ln : List (List Nat)) {N : Nat} (x : DArr K)
    (hN : ∀ o ∈ ops, ∀ v, (o.adj v).length ≤ N) (hc : ∀ a : NDArray K, a.data.length ≤ N → ok (.coll .allreduce c.world (.arr a)))
    (hrep : ∀ a, rep .allreduce c.world (.arr a) → a.data.length ≤ N)
    (hs : c.rank = 0 → ∀ q < c.size, ∀ v : NDArray K, v.data.length ≤ N → ok (.send q bcastTag (.arr v))) (hr : c.rank ≠ 0 → ok (.recv 0 bcastTag)) :
    Calls rep ok (14 + max 1 (if c.rank = 0 then c.size - 1 else 1)) (2 * localSize x + N + (if c.rank = 0 then (c.size - 1) * N else 0))
      (vstackRmv ops dt ln N c x) fun _ => True := by
  unfold vstackRmv
  simp only [Prog.bind_eq]
  refine (calls_reshaped hok x.gshape (some ln) x (k := 1 + max 1 (if c.rank = 0 then c.size - 1 else 1))
    (v := N + (if c.rank = 0 then (c.size - 1) * N else 0)) (Q := fun y => y.gshape.length ≤ 1) (fun arr _ => ?_)
    fun y hy => .inr hy).mono (by omega) (by omega) fun y hy => trivial
  refine CallsW.step (calls_mkDArr_none ..) (by omega) (by omega) fun y hy => ?_
  refine CallsW.liftBind fun y1 h1 => CallsW.liftBind fun s h2 => ?_
  have hsN := length_sumRows hN h1 h2
  refine CallsW.step (calls_allreduceArr _ s (hc s hsN) hrep) (by omega) (by omega) fun t ht => ?_
  refine (calls_setItem_bcast Index.all t (fun h0 q hq => hs h0 q hq t ht) hr).mono (by omega) ?_ fun e he => ?_
  · have : (c.size - 1) * t.data.length ≤ (c.size - 1) * N := Nat.mul_le_mul_left _ ht
    split <;> omega
  · rw [he.2, hy.gshape]; simp

/-! ### derivatives -/

/-- what the derivatives need: ghost cells of `g` slices -/
structure GhostOK (c : Ctx K) (x : DArr K) (g : Nat) (rep : CollKind → List Nat → Msg K → Prop) (ok : CommCall (Msg K) → Prop) : Prop where
  sizes : SizesOK ok
  cells : ∀ y, y ≤ 4 → ok (.coll .allgather c.world (.nat y))
  rep : ∀ y, rep .allgather c.world (.nat y) → min y (len x.lshape x.axis) ≤ g
  recv : ∀ q t, (q = c.rank + 1 ∨ q + 1 = c.rank) → ok (.recv q t)
  send : ∀ q t a, (q = c.rank + 1 ∨ q + 1 = c.rank) → a.data.length ≤ g * rowSize x.larr.shape x.axis → ok (.send q t (.arr a))

theorem calls_newLike (hok : SizesOK ok) (c : Ctx K) (t : DType) (x : DArr K) :
    Calls rep ok 3 0 (newLike c t x) fun y => y.part = .scatter := by
  unfold newLike DArr.localShapes allgather
  simp only [Prog.bind_eq]
  refine CallsW.step (calls_gather _ _ _ (hok _ _ _ rfl (by simp [Enc.enc]))) (by omega) (Nat.zero_le _) fun ls _ => ?_
  exact (calls_mkDArr hok ..).mono (by omega) (by omega) fun _ h => h.part

theorem calls_upd {c : Ctx K} {y : DArr K} (hy : y.part = .scatter) (ix : Index) (f : K → K → K) (v : NDArray K) :
    Calls rep ok 0 0 (y.upd c ix f v) fun z => z.part = .scatter := by
  unfold DArr.upd
  simp only [Prog.bind_eq]
  refine CallsW.liftBind fun t _ => CallsW.liftBind fun t _ => ?_
  exact (calls_setItem (by rw [hy]; simp) ix t).imp fun _ h => h.part.trans hy

theorem calls_setAllS {c : Ctx K} {y : DArr K} (hy : y.part = .scatter) (v : NDArray K) :
    Calls rep ok 0 0 (y.setAll c v) fun z => z.part = .scatter :=
  (calls_setAll (by rw [hy]; simp) v).imp fun _ h => h.part.trans hy

theorem calls_doIf {y : DArr K} (hy : y.part = .scatter) (b : Bool) {f : DArr K → P K (DArr K)}
    (hf : Calls rep ok 0 0 (f y) fun z => z.part = .scatter) : Calls rep ok 0 0 (doIf b f y) fun z => z.part = .scatter := by
  unfold doIf
  split
  · exact hf
  · exact .ret hy

theorem calls_setRow {c : Ctx K} {y : DArr K} (hy : y.part = .scatter) (x : DArr K) (i : Int) (l : List (K × Int)) :
    Calls rep ok 0 0 (setRow c x i l y) fun z => z.part = .scatter := by
  unfold setRow
  simp only [Prog.bind_eq]
  exact CallsW.liftBind fun v _ => (calls_setItem (by rw [hy]; simp) _ v).imp fun _ h => h.part.trans hy

theorem calls_addRow {c : Ctx K} {y : DArr K} (hy : y.part = .scatter) (x : DArr K) (i : Int) (l : List (K × Int)) :
    Calls rep ok 0 0 (addRow c x i l y) fun z => z.part = .scatter := by
  unfold addRow
  simp only [Prog.bind_eq]
  exact CallsW.liftBind fun v _ => calls_upd hy _ _ _

theorem calls_addPart {c : Ctx K} {y : DArr K} (hy : y.part = .scatter) (x : DArr K) (b : Bool) (lo : Int) (hi : Option Int) (f : K → K → K) :
    Calls rep ok 0 0 (addPart c x b lo hi f y) fun z => z.part = .scatter := by
  unfold addPart
  simp only [Prog.bind_eq]
  exact CallsW.liftBind fun v _ => calls_upd hy _ _ _

theorem calls_divide {c : Ctx K} {y : DArr K} (hy : y.part = .scatter) (s : K) :
    Calls rep ok 0 0 (divide c s y) fun z => z.part = .scatter := calls_upd hy _ _ _

/-- the number of ghost cells is at most 4 -/
def few (o : Option Nat) : Prop := ∀ x, o = some x → x ≤ 4

theorem calls_stencil {c : Ctx K} {x : DArr K} {g : Nat} (h : GhostOK c x g rep ok) (dims : List Nat) {front back : Option Nat}
    (hf : few front) (hb : few back) (φ : NDArray K → Except Err (NDArray K)) (kf kb : Option Int) :
    Calls rep ok 6 (2 * (g * rowSize x.larr.shape x.axis)) (stencil c dims x front back φ kf kb) fun _ => True := by
  unfold stencil
  simp only [Prog.bind_eq]
  refine CallsW.step (calls_ghost c x front back g (fun y hy => h.cells y (hy.elim (hf y) (hb y))) h.rep h.recv h.send) le_rfl le_rfl fun a _ => ?_
  refine CallsW.liftBind fun v _ => CallsW.liftBind fun v _ => ?_
  exact (CallsW.lift fun _ _ => trivial).mono (by omega) (by omega) fun _ => id

theorem calls_accum {c : Ctx K} {x y : DArr K} {g : Nat} (h : GhostOK c x g rep ok) (hy : y.part = .scatter) (dims : List Nat)
    {front back : Option Nat} (hf : few front) (hb : few back) (φ : NDArray K → Except Err (NDArray K)) (kf kb : Option Int) (f : K → K → K) :
    Calls rep ok 6 (2 * (g * rowSize x.larr.shape x.axis)) (accum c dims x front back φ kf kb f y) fun z => z.part = .scatter := by
  unfold accum
  simp only [Prog.bind_eq]
  refine CallsW.step (calls_stencil h dims hf hb φ kf kb) le_rfl le_rfl fun v _ => ?_
  exact (calls_upd hy _ _ _).mono (by omega) (by omega) fun _ => id

local macro "few!" : tactic => `(tactic| (intro x hx; cases hx <;> decide))

/-- a method with at most four stencils -/
abbrev Cheap (rep : CollKind → List Nat → Msg K → Prop) (ok : CommCall (Msg K) → Prop) (w : Nat) (p : P K (DArr K)) : Prop :=
  Calls rep ok 27 (8 * w) p fun z => z.part = .scatter

local macro "loc" : tactic => `(tactic| first
  | exact calls_setAllS ‹_› _
  | exact calls_addPart ‹_› ..
  | exact calls_divide ‹_› _
  | exact calls_doIf ‹_› _ (calls_setRow ‹_› ..)
  | exact calls_doIf ‹_› _ (calls_addRow ‹_› ..))

theorem calls_fdMv {c : Ctx K} {x : DArr K} {g : Nat} (h : GhostOK c x g rep ok) (o : Deriv K) (k : FDKind) :
    Cheap rep ok (g * rowSize x.larr.shape x.axis) (fdMv k c o x) := by
  generalize hw : g * rowSize x.larr.shape x.axis = w
  cases k <;> simp only [fdMv, fdMvForward, fdMvBackward, fdMvCentered3, fdMvCentered5, Prog.bind_eq, Cheap]
  all_goals
    refine CallsW.step (calls_newLike h.sizes c _ x) (by omega) (by omega) fun y hy => ?_
    refine CallsW.step (hw ▸ calls_stencil h _ (by few!) (by few!) _ _ _) (by omega) (by omega) fun v _ => ?_
  · exact (calls_setAllS hy _).mono (by omega) (by omega) fun _ => id
  · exact (calls_setAllS hy _).mono (by omega) (by omega) fun _ => id
  all_goals
    repeat refine CallsW.step (k1 := 0) (v1 := 0) (Q := fun z => z.part = .scatter) (by loc) (by omega) (by omega) fun _ _ => ?_
    exact (calls_divide ‹_› _).mono (by omega) (by omega) fun _ => id

local macro "chain" : tactic => `(tactic| (repeat (refine CallsW.step (k1 := 0) (v1 := 0) (Q := fun z => z.part = .scatter) (by loc) (by omega) (by omega) (fun _ _ => ?_))))

theorem calls_fdRmv {c : Ctx K} {x : DArr K} {g : Nat} (h : GhostOK c x g rep ok) (o : Deriv K) (k : FDKind) :
    Cheap rep ok (g * rowSize x.larr.shape x.axis) (fdRmv k c o x) := by
  generalize hw : g * rowSize x.larr.shape x.axis = w
  cases k <;> simp only [fdRmv, fdRmvForward, fdRmvBackward, fdRmvCentered3, fdRmvCentered5, Prog.bind_eq, Cheap]
  all_goals
    refine CallsW.step (calls_newLike h.sizes c _ x) (by omega) (by omega) fun y hy => ?_
    chain
    repeat (refine CallsW.step (hw ▸ calls_accum h ‹_› _ (by few!) (by few!) _ _ _ _) (by omega) (by omega) fun _ _ => ?_)
    chain
    exact (calls_divide ‹_› _).mono (by omega) (by omega) fun _ => id

theorem calls_sdMv {c : Ctx K} {x : DArr K} {g : Nat} (h : GhostOK c x g rep ok) (o : Deriv K) (k : SDKind) :
    Cheap rep ok (g * rowSize x.larr.shape x.axis) (sdMv k c o x) := by
  generalize hw : g * rowSize x.larr.shape x.axis = w
  cases k <;> simp only [sdMv, sdMvForward, sdMvBackward, sdMvCentered, Prog.bind_eq, Cheap]
  all_goals
    refine CallsW.step (calls_newLike h.sizes c _ x) (by omega) (by omega) fun y hy => ?_
    refine CallsW.step (hw ▸ calls_stencil h _ (by few!) (by few!) _ _ _) (by omega) (by omega) fun v _ => ?_
  · exact (calls_setAllS hy _).mono (by omega) (by omega) fun _ => id
  · exact (calls_setAllS hy _).mono (by omega) (by omega) fun _ => id
  · chain
    exact (calls_divide ‹_› _).mono (by omega) (by omega) fun _ => id

theorem calls_sdRmv {c : Ctx K} {x : DArr K} {g : Nat} (h : GhostOK c x g rep ok) (o : Deriv K) (k : SDKind) :
    Cheap rep ok (g * rowSize x.larr.shape x.axis) (sdRmv k c o x) := by
  generalize hw : g * rowSize x.larr.shape x.axis = w
  cases k <;> simp only [sdRmv, sdRmvForward, sdRmvBackward, sdRmvCentered, Prog.bind_eq, Cheap]
  all_goals
    refine CallsW.step (calls_newLike h.sizes c _ x) (by omega) (by omega) fun y hy => ?_
    chain
    repeat (refine CallsW.step (hw ▸ calls_accum h ‹_› _ (by few!) (by few!) _ _ _ _) (by omega) (by omega) fun _ _ => ?_)
    chain
    exact (calls_divide ‹_› _).mono (by omega) (by omega) fun _ => id

/-- a derivative with the redistribution of its input -/
theorem calls_derivApply {c : Ctx K} (hok : NearOK c.rank ok) (o : Deriv K) {f : Ctx K → Deriv K → DArr K → P K (DArr K)} (x : DArr K)
    (hx : x.part ≠ .broadcast)
    (hf : ∀ arr g, GhostOK c arr g rep ok → Cheap rep ok (g * rowSize arr.larr.shape arr.axis) (f c o arr)) :
    Calls rep ok 40 (2 * localSize x + 8 * (localSplit c o.dims .scatter 0).prod) (derivApply c o f x) fun y => y.part = .scatter := by
  unfold derivApply
  rw [if_neg hx]
  simp only [Prog.bind_eq, Prog.ret_bind]
  refine (calls_reshaped hok o.dims none x (k := 27) (v := 8 * (localSplit c o.dims .scatter 0).prod) (Q := fun y => y.part = .scatter)
    (fun arr ha => ?_) fun y hy => .inl (by rw [hy]; simp)).mono (by omega) (by omega) fun y hy => by obtain ⟨z, h1, h2⟩ := hy; rw [h2, h1]
  have hg : GhostOK c arr (len arr.lshape arr.axis) rep ok :=
    ⟨hok.sizes.sizes, fun _ _ => hok.sizes _ _ _ rfl, fun _ _ => min_le_right _ _, hok.recv, fun q t a hq _ => hok.send q t _ hq⟩
  have hm : madeShape c o.dims .scatter 0 none = localSplit c o.dims .scatter 0 := by simp [madeShape]
  refine (hf arr _ hg).mono le_rfl ?_ fun _ => id
  rw [ha.lshape, ha.shape, ha.axis, hm]
  refine Nat.mul_le_mul_left _ ?_
  cases hl : localSplit c o.dims .scatter 0 with
  | nil => simp [len, rowSize]
  | cons a l => simp [len, rowSize, outer, inner]

end
end Verif

/- The operator classes on the memory implement the operator classes on values. -/
import Verif.Model.HeapLeaves
import Verif.Proofs.HeapOperators
import Verif.Spec.Layout

set_option linter.unusedSectionVars false

namespace Verif
open NDArray

variable {K : Type} [Field K] [StarRing K] {h h₀ : Heap K} {c : Ctx K} {x y : Nat} {d e : DArr K}

/-! ### Assignments to a new array -/

theorem HArr.upd_impl (hw : h.WF) (hx : h.get? x = some d) (ix : Index) (f : K → K → K) (v : NDArray K) :
    Impl h (HArr.upd c x ix f v) (d.upd c ix f v) [x] (fun _ h' d' => h'.get? x = some d') := by
  unfold HArr.upd DArr.upd
  refine Impl.read_bind hx ?_
  simp only [Prog.bind_eq]
  exact Impl.lift_bind hw fun _ => Impl.lift_bind hw fun _ => HArr.setItem_impl hw hx _ _

/-- in the middle of a method that computes `y` from `x`: `y` was created since the memory was `h₀` -/
structure Work (h₀ h : Heap K) (x : Nat) (d : DArr K) (y : Nat) (e : DArr K) : Prop where
  wf : h.WF
  lt : x < h₀.objs.length
  hx : h.get? x = some d
  hy : Gives h₀ y h e

theorem Work.ne (w : Work h₀ h x d y e) : x ≠ y := by
  have := w.lt
  have := w.hy.1
  unfold New at this
  omega

/-- an assignment to (a part of) `y` that uses `x` -/
def Assigns (x : Nat) (d : DArr K) (F : Nat → HP K Unit) (f : DArr K → P K (DArr K)) : Prop :=
  ∀ (h : Heap K) (y : Nat) (e : DArr K), h.WF → h.get? x = some d → h.get? y = some e → Impl h (F y) (f e) [y] (fun _ h' e' => h'.get? y = some e')

theorem Work.step (w : Work h₀ h x d y e) {F : Nat → HP K Unit} {f : DArr K → P K (DArr K)} (hs : Assigns x d F f) {k : Unit → HP K Nat} {k' : DArr K → P K (DArr K)}
    (hk : ∀ h' e', Work h₀ h' x d y e' → Impl h' (k ()) (k' e') [y] (Gives h₀)) : Impl h (F y >>= k) ((f e).bind k') [y] (Gives h₀) :=
  Impl.bind (fun _ => [y]) (hs h y e w.wf w.hx w.hy.2) (fun _ h => h) fun _ h' e' hw' hf' he' =>
    ⟨fun _ h => .inl h, hk h' e' ⟨hw', w.lt, hf'.get w.wf (by simpa using w.ne) w.hx, w.hy.1, he'⟩⟩

theorem Work.last (w : Work h₀ h x d y e) {F : Nat → HP K Unit} {f : DArr K → P K (DArr K)} (hs : Assigns x d F f) :
    Impl h (do F y; HP.ret y) (f e) [y] (Gives h₀) := Impl.of_bind_ret (w.step hs fun _ _ w' => Impl.ret w'.wf w'.hy)

theorem Work.stencil (w : Work h₀ h x d y e) {dims : List Nat} {front back : Option Nat} {φ : NDArray K → Except Err (NDArray K)} {kf kb : Option Int} {k : NDArray K → HP K Nat}
    {k' : NDArray K → P K (DArr K)} (hk : ∀ v, Impl h (k v) (k' v) [y] (Gives h₀)) :
    Impl h (hstencil c dims x front back φ kf kb >>= k) ((Verif.stencil c dims d front back φ kf kb).bind k') [y] (Gives h₀) := by
  refine Impl.bind_nil (V := fun a h' b => a = b ∧ h' = h) ?_ fun v h' v' _ _ hv => ?_
  · unfold hstencil
    exact Impl.read_bind w.hx (Impl.lift w.wf _)
  · obtain ⟨rfl, rfl⟩ := hv
    exact hk v

theorem assigns_all (v : NDArray K) : Assigns x d (fun y => HArr.setAll c y v) (fun e => e.setAll c v) := fun _ _ _ hw _ hy => HArr.setAll_impl hw hy v

theorem assigns_upd (ix : Index) (f : K → K → K) (v : NDArray K) : Assigns x d (fun y => HArr.upd c y ix f v) (fun e => e.upd c ix f v) := fun _ _ _ hw _ hy => HArr.upd_impl hw hy ix f v

theorem assigns_divide (s : K) : Assigns x d (hdivide c s) (divide c s) := assigns_upd _ _ _

theorem assigns_accum {dims : List Nat} {front back : Option Nat} {φ : NDArray K → Except Err (NDArray K)} {kf kb : Option Int} {f : K → K → K} :
    Assigns x d (haccum c dims x front back φ kf kb f) (accum c dims d front back φ kf kb f) := fun h y e hw hx hy => by
  unfold haccum accum
  simp only [Prog.bind_eq]
  refine Impl.bind_nil (V := fun a h' b => a = b ∧ h' = h) ?_ fun v h' v' _ _ hv => ?_
  · unfold hstencil
    exact Impl.read_bind hx (Impl.lift hw _)
  · obtain ⟨rfl, rfl⟩ := hv
    exact HArr.upd_impl hw hy _ _ _

theorem assigns_setRow (i : Int) (l : List (K × Int)) : Assigns x d (hsetRow c x i l) (setRow c d i l) := fun h y e hw hx hy => by
  unfold hsetRow setRow
  simp only [Prog.bind_eq]
  exact Impl.read_bind hx (Impl.lift_bind hw fun _ => HArr.setItem_impl hw hy _ _)

theorem assigns_addRow (i : Int) (l : List (K × Int)) : Assigns x d (haddRow c x i l) (addRow c d i l) := fun h y e hw hx hy => by
  unfold haddRow addRow
  simp only [Prog.bind_eq]
  exact Impl.read_bind hx (Impl.lift_bind hw fun _ => HArr.upd_impl hw hy _ _ _)

theorem assigns_addPart (b : Bool) (lo : Int) (hi : Option Int) (f : K → K → K) : Assigns x d (haddPart c x b lo hi f) (addPart c d b lo hi f) := fun h y e hw hx hy => by
  unfold haddPart addPart
  simp only [Prog.bind_eq]
  exact Impl.read_bind hx (Impl.lift_bind hw fun _ => HArr.upd_impl hw hy _ _ _)

theorem assigns_doIf (b : Bool) {F : Nat → HP K Unit} {f : DArr K → P K (DArr K)} (hs : Assigns x d F f) : Assigns x d (hdoIf b F) (doIf b f) := fun h y e hw hx hy => by
  unfold hdoIf doIf
  cases b
  · exact Impl.ret hw hy
  · exact hs h y e hw hx hy

/-- creating `y` -/
theorem new_work {m : HP K Nat} {p : P K (DArr K)} (hw : h.WF) (hx : h.get? x = some d) (hm : Impl h m p [] (Gives h)) {k : Nat → HP K Nat} {k' : DArr K → P K (DArr K)}
    (hk : ∀ h' y e, Work h h' x d y e → Impl h' (k y) (k' e) [y] (Gives h)) : Impl h (m >>= k) (p.bind k') [] (Gives h) :=
  Impl.bind (fun y => [y]) hm (fun _ h => h) fun y h' e hw' hf' hv' =>
    ⟨fun _ hz => .inr (List.mem_singleton.1 hz ▸ hv'.1), hk h' y e ⟨hw', Heap.lt_of_get? hx, hf'.get hw (by simp) hx, hv'⟩⟩

theorem hnewLike_impl (hw : h.WF) (hx : h.get? x = some d) (t : DType) : Impl h (hnewLike c t x) (newLike c t d) [] (Gives h) := by
  unfold hnewLike newLike
  refine Impl.read_bind hx ?_
  simp only [Prog.bind_eq]
  exact Impl.lift_bind hw fun ls => HArr.new_impl hw

/-! ### decorators.py -/

theorem hredistribute_impl (hw : h.WF) (hx : h.get? x = some d) (gs : List Nat) (ls : Option (List (List Nat))) :
    Impl h (hredistribute c gs ls x) (redistribute c gs ls d) [] (Gives h) := by
  unfold hredistribute redistribute
  refine Impl.read_bind hx ?_
  by_cases hp : d.part ≠ .scatter
  · rw [if_pos hp, if_pos hp]; exact Impl.throw hw
  · rw [if_neg hp, if_neg hp]
    simp only [Prog.bind_eq]
    refine new_work hw hx (HArr.new_impl hw) fun h' y e w => ?_
    refine Impl.read_bind w.hy.2 ?_
    refine Impl.lift_bind w.wf fun al => ?_
    refine Impl.read_bind w.hx ?_
    refine Impl.lift_bind w.wf fun xl => ?_
    refine Impl.lift_bind w.wf fun g => ?_
    refine Impl.lift_bind w.wf fun v => ?_
    exact w.last (assigns_all v)

theorem hreshaped_impl (hw : h.WF) (hx : h.get? x = some d) (gs : List Nat) (ls : Option (List (List Nat))) {F : Nat → HP K Nat} {f : DArr K → P K (DArr K)}
    (hf : ∀ (h : Heap K) (x : Nat) (d : DArr K), h.WF → h.get? x = some d → Impl h (F x) (f d) [] (Gives h)) :
    Impl h (hreshaped c gs ls F x) (reshaped c gs ls f d) [] (Gives h) := by
  unfold hreshaped reshaped
  simp only [Prog.bind_eq]
  refine Impl.bind_nil (hredistribute_impl hw hx gs ls) fun a h1 e1 hw1 hf1 hv1 => ?_
  refine Impl.bind_nil (hf h1 a e1 hw1 hv1.2) fun y h2 e2 hw2 hf2 hv2 => ?_
  refine Impl.read_bind hv2.2 ?_
  split
  · exact ((HArr.ravel_impl hw2 hv2.2).trans_gives hf2).trans_gives hf1
  · exact Impl.ret hw2 ((hv2.trans hf1))

/-! ### BlockDiag.py, VStack.py, HStack.py -/

theorem hblockDiagMv_impl (hw : h.WF) (hx : h.get? x = some d) (ops : List (LOp K)) (mask : Option (List Nat)) (dt : DType) (b : Bool) (lin lout : List (List Nat)) (M : Nat) :
    Impl h (hblockDiagMv ops mask dt b lin lout M c x) (blockDiagMv ops mask dt b lin lout M c d) [] (Gives h) := by
  unfold hblockDiagMv blockDiagMv
  refine Impl.read_bind hx (hreshaped_impl hw hx _ _ fun h x d hw hx => ?_)
  simp only [Prog.bind_eq]
  refine new_work hw hx (HArr.new_impl hw) fun h' y e w => ?_
  refine Impl.read_bind w.hx ?_
  exact Impl.lift_bind w.wf fun _ => Impl.lift_bind w.wf fun v => w.last (assigns_all v)

theorem hvstackMv_impl (hw : h.WF) (hx : h.get? x = some d) (ops : List (LOp K)) (dt : DType) (ln : List (List Nat)) (M : Nat) :
    Impl h (hvstackMv ops dt ln M c x) (vstackMv ops dt ln M c d) [] (Gives h) := by
  unfold hvstackMv vstackMv
  refine Impl.read_bind hx ?_
  by_cases hp : ¬ d.part.isBroadcast
  · rw [if_pos hp, if_pos hp]; exact Impl.throw hw
  · rw [if_neg hp, if_neg hp]
    simp only [Prog.bind_eq]
    refine new_work hw hx (HArr.new_impl hw) fun h' y e w => ?_
    refine Impl.read_bind w.hx ?_
    exact Impl.lift_bind w.wf fun _ => Impl.lift_bind w.wf fun v => w.last (assigns_all v)

theorem hvstackRmv_impl (hw : h.WF) (hx : h.get? x = some d) (ops : List (LOp K)) (dt : DType) (ln : List (List Nat)) (N : Nat) :
    Impl h (hvstackRmv ops dt ln N c x) (vstackRmv ops dt ln N c d) [] (Gives h) := by
  unfold hvstackRmv vstackRmv
  refine Impl.read_bind hx (hreshaped_impl hw hx _ _ fun h x d hw hx => ?_)
  simp only [Prog.bind_eq]
  refine new_work hw hx (HArr.new_impl hw) fun h' y e w => ?_
  refine Impl.read_bind w.hx ?_
  exact Impl.lift_bind w.wf fun _ => Impl.lift_bind w.wf fun _ => Impl.lift_bind w.wf fun v => w.last (assigns_all v)

/-! ### FirstDerivative.py and SecondDerivative.py -/

variable {o : Deriv K}

theorem hfdMvForward_impl (hw : h.WF) (hx : h.get? x = some d) : Impl h (hfdMvForward c o x) (fdMvForward c o d) [] (Gives h) := by
  unfold hfdMvForward fdMvForward
  simp only [Prog.bind_eq]
  refine new_work hw hx (hnewLike_impl hw hx _) fun _ y e w => ?_
  refine w.stencil fun v => ?_
  exact w.last (assigns_all _)

theorem hfdRmvForward_impl (hw : h.WF) (hx : h.get? x = some d) : Impl h (hfdRmvForward c o x) (fdRmvForward c o d) [] (Gives h) := by
  unfold hfdRmvForward fdRmvForward
  simp only [Prog.bind_eq]
  refine new_work hw hx (hnewLike_impl hw hx _) fun _ y e w => ?_
  refine w.step (assigns_all _) fun _ _ w => ?_
  refine w.step (assigns_addPart _ _ _ _) fun _ _ w => ?_
  refine w.step assigns_accum fun _ _ w => ?_
  exact w.last (assigns_divide _)

theorem hfdMvBackward_impl (hw : h.WF) (hx : h.get? x = some d) : Impl h (hfdMvBackward c o x) (fdMvBackward c o d) [] (Gives h) := by
  unfold hfdMvBackward fdMvBackward
  simp only [Prog.bind_eq]
  refine new_work hw hx (hnewLike_impl hw hx _) fun _ y e w => ?_
  refine w.stencil fun v => ?_
  exact w.last (assigns_all _)

theorem hfdRmvBackward_impl (hw : h.WF) (hx : h.get? x = some d) : Impl h (hfdRmvBackward c o x) (fdRmvBackward c o d) [] (Gives h) := by
  unfold hfdRmvBackward fdRmvBackward
  simp only [Prog.bind_eq]
  refine new_work hw hx (hnewLike_impl hw hx _) fun _ y e w => ?_
  refine w.step (assigns_all _) fun _ _ w => ?_
  refine w.step assigns_accum fun _ _ w => ?_
  refine w.step (assigns_addPart _ _ _ _) fun _ _ w => ?_
  exact w.last (assigns_divide _)

theorem hfdMvCentered3_impl (hw : h.WF) (hx : h.get? x = some d) : Impl h (hfdMvCentered3 c o x) (fdMvCentered3 c o d) [] (Gives h) := by
  unfold hfdMvCentered3 fdMvCentered3
  simp only [Prog.bind_eq]
  refine new_work hw hx (hnewLike_impl hw hx _) fun _ y e w => ?_
  refine Impl.read_bind w.hy.2 ?_
  refine w.stencil fun v => ?_
  refine w.step (assigns_all _) fun _ _ w => ?_
  refine w.step (assigns_doIf _ (assigns_setRow _ _)) fun _ _ w => ?_
  refine w.step (assigns_doIf _ (assigns_setRow _ _)) fun _ _ w => ?_
  exact w.last (assigns_divide _)

theorem hfdRmvCentered3_impl (hw : h.WF) (hx : h.get? x = some d) : Impl h (hfdRmvCentered3 c o x) (fdRmvCentered3 c o d) [] (Gives h) := by
  unfold hfdRmvCentered3 fdRmvCentered3
  simp only [Prog.bind_eq]
  refine new_work hw hx (hnewLike_impl hw hx _) fun _ y e w => ?_
  refine w.step (assigns_all _) fun _ _ w => ?_
  refine Impl.read_bind w.hy.2 ?_
  refine w.step assigns_accum fun _ _ w => ?_
  refine w.step assigns_accum fun _ _ w => ?_
  refine w.step (assigns_doIf _ (assigns_addRow _ _)) fun _ _ w => ?_
  refine w.step (assigns_doIf _ (assigns_addRow _ _)) fun _ _ w => ?_
  refine w.step (assigns_doIf _ (assigns_addRow _ _)) fun _ _ w => ?_
  refine w.step (assigns_doIf _ (assigns_addRow _ _)) fun _ _ w => ?_
  exact w.last (assigns_divide _)

theorem hfdMvCentered5_impl (hw : h.WF) (hx : h.get? x = some d) : Impl h (hfdMvCentered5 c o x) (fdMvCentered5 c o d) [] (Gives h) := by
  unfold hfdMvCentered5 fdMvCentered5
  simp only [Prog.bind_eq]
  refine new_work hw hx (hnewLike_impl hw hx _) fun _ y e w => ?_
  refine Impl.read_bind w.hy.2 ?_
  refine w.stencil fun v => ?_
  refine w.step (assigns_all _) fun _ _ w => ?_
  refine w.step (assigns_doIf _ (assigns_setRow _ _)) fun _ _ w => ?_
  refine w.step (assigns_doIf _ (assigns_setRow _ _)) fun _ _ w => ?_
  refine w.step (assigns_doIf _ (assigns_setRow _ _)) fun _ _ w => ?_
  refine w.step (assigns_doIf _ (assigns_setRow _ _)) fun _ _ w => ?_
  exact w.last (assigns_divide _)

theorem hfdRmvCentered5_impl (hw : h.WF) (hx : h.get? x = some d) : Impl h (hfdRmvCentered5 c o x) (fdRmvCentered5 c o d) [] (Gives h) := by
  unfold hfdRmvCentered5 fdRmvCentered5
  simp only [Prog.bind_eq]
  refine new_work hw hx (hnewLike_impl hw hx _) fun _ y e w => ?_
  refine w.step (assigns_all _) fun _ _ w => ?_
  refine Impl.read_bind w.hy.2 ?_
  refine w.step assigns_accum fun _ _ w => ?_
  refine w.step assigns_accum fun _ _ w => ?_
  refine w.step assigns_accum fun _ _ w => ?_
  refine w.step assigns_accum fun _ _ w => ?_
  refine w.step (assigns_doIf _ (assigns_addRow _ _)) fun _ _ w => ?_
  refine w.step (assigns_doIf _ (assigns_addRow _ _)) fun _ _ w => ?_
  refine w.step (assigns_doIf _ (assigns_addRow _ _)) fun _ _ w => ?_
  refine w.step (assigns_doIf _ (assigns_addRow _ _)) fun _ _ w => ?_
  refine w.step (assigns_doIf _ (assigns_addRow _ _)) fun _ _ w => ?_
  refine w.step (assigns_doIf _ (assigns_addRow _ _)) fun _ _ w => ?_
  exact w.last (assigns_divide _)

theorem hsdMvForward_impl (hw : h.WF) (hx : h.get? x = some d) : Impl h (hsdMvForward c o x) (sdMvForward c o d) [] (Gives h) := by
  unfold hsdMvForward sdMvForward
  simp only [Prog.bind_eq]
  refine new_work hw hx (hnewLike_impl hw hx _) fun _ y e w => ?_
  refine Impl.read_bind w.hy.2 ?_
  refine w.stencil fun v => ?_
  exact w.last (assigns_all _)

theorem hsdRmvForward_impl (hw : h.WF) (hx : h.get? x = some d) : Impl h (hsdRmvForward c o x) (sdRmvForward c o d) [] (Gives h) := by
  unfold hsdRmvForward sdRmvForward
  simp only [Prog.bind_eq]
  refine new_work hw hx (hnewLike_impl hw hx _) fun _ y e w => ?_
  refine w.step (assigns_all _) fun _ _ w => ?_
  refine Impl.read_bind w.hy.2 ?_
  refine w.step (assigns_addPart _ _ _ _) fun _ _ w => ?_
  refine w.step assigns_accum fun _ _ w => ?_
  refine w.step assigns_accum fun _ _ w => ?_
  exact w.last (assigns_divide _)

theorem hsdMvBackward_impl (hw : h.WF) (hx : h.get? x = some d) : Impl h (hsdMvBackward c o x) (sdMvBackward c o d) [] (Gives h) := by
  unfold hsdMvBackward sdMvBackward
  simp only [Prog.bind_eq]
  refine new_work hw hx (hnewLike_impl hw hx _) fun _ y e w => ?_
  refine Impl.read_bind w.hy.2 ?_
  refine w.stencil fun v => ?_
  exact w.last (assigns_all _)

theorem hsdRmvBackward_impl (hw : h.WF) (hx : h.get? x = some d) : Impl h (hsdRmvBackward c o x) (sdRmvBackward c o d) [] (Gives h) := by
  unfold hsdRmvBackward sdRmvBackward
  simp only [Prog.bind_eq]
  refine new_work hw hx (hnewLike_impl hw hx _) fun _ y e w => ?_
  refine w.step (assigns_all _) fun _ _ w => ?_
  refine Impl.read_bind w.hy.2 ?_
  refine w.step assigns_accum fun _ _ w => ?_
  refine w.step assigns_accum fun _ _ w => ?_
  refine w.step (assigns_addPart _ _ _ _) fun _ _ w => ?_
  exact w.last (assigns_divide _)

theorem hsdMvCentered_impl (hw : h.WF) (hx : h.get? x = some d) : Impl h (hsdMvCentered c o x) (sdMvCentered c o d) [] (Gives h) := by
  unfold hsdMvCentered sdMvCentered
  simp only [Prog.bind_eq]
  refine new_work hw hx (hnewLike_impl hw hx _) fun _ y e w => ?_
  refine Impl.read_bind w.hy.2 ?_
  refine w.stencil fun v => ?_
  refine w.step (assigns_all _) fun _ _ w => ?_
  refine w.step (assigns_doIf _ (assigns_setRow _ _)) fun _ _ w => ?_
  refine w.step (assigns_doIf _ (assigns_setRow _ _)) fun _ _ w => ?_
  exact w.last (assigns_divide _)

theorem hsdRmvCentered_impl (hw : h.WF) (hx : h.get? x = some d) : Impl h (hsdRmvCentered c o x) (sdRmvCentered c o d) [] (Gives h) := by
  unfold hsdRmvCentered sdRmvCentered
  simp only [Prog.bind_eq]
  refine new_work hw hx (hnewLike_impl hw hx _) fun _ y e w => ?_
  refine w.step (assigns_all _) fun _ _ w => ?_
  refine Impl.read_bind w.hy.2 ?_
  refine w.step assigns_accum fun _ _ w => ?_
  refine w.step assigns_accum fun _ _ w => ?_
  refine w.step assigns_accum fun _ _ w => ?_
  refine w.step (assigns_doIf _ (assigns_addRow _ _)) fun _ _ w => ?_
  refine w.step (assigns_doIf _ (assigns_addRow _ _)) fun _ _ w => ?_
  refine w.step (assigns_doIf _ (assigns_addRow _ _)) fun _ _ w => ?_
  refine w.step (assigns_doIf _ (assigns_addRow _ _)) fun _ _ w => ?_
  refine w.step (assigns_doIf _ (assigns_addRow _ _)) fun _ _ w => ?_
  refine w.step (assigns_doIf _ (assigns_addRow _ _)) fun _ _ w => ?_
  exact w.last (assigns_divide _)

theorem hfdMv_impl (k : FDKind) (hw : h.WF) (hx : h.get? x = some d) : Impl h (hfdMv k c o x) (fdMv k c o d) [] (Gives h) := by
  cases k
  exacts [hfdMvForward_impl hw hx, hfdMvBackward_impl hw hx, hfdMvCentered3_impl hw hx, hfdMvCentered5_impl hw hx]

theorem hfdRmv_impl (k : FDKind) (hw : h.WF) (hx : h.get? x = some d) : Impl h (hfdRmv k c o x) (fdRmv k c o d) [] (Gives h) := by
  cases k
  exacts [hfdRmvForward_impl hw hx, hfdRmvBackward_impl hw hx, hfdRmvCentered3_impl hw hx, hfdRmvCentered5_impl hw hx]

theorem hsdMv_impl (k : SDKind) (hw : h.WF) (hx : h.get? x = some d) : Impl h (hsdMv k c o x) (sdMv k c o d) [] (Gives h) := by
  cases k
  exacts [hsdMvForward_impl hw hx, hsdMvBackward_impl hw hx, hsdMvCentered_impl hw hx]

theorem hsdRmv_impl (k : SDKind) (hw : h.WF) (hx : h.get? x = some d) : Impl h (hsdRmv k c o x) (sdRmv k c o d) [] (Gives h) := by
  cases k
  exacts [hsdRmvForward_impl hw hx, hsdRmvBackward_impl hw hx, hsdRmvCentered_impl hw hx]

theorem HArr.toDist_impl (hw : h.WF) (v : NDArray K) (p : Partition) (ax : Nat) (ls : Option (List (List Nat))) (mk : Option (List Nat)) :
    Impl h (HArr.toDist c v p ax ls mk) (Verif.toDist c v p ax ls mk) [] (Gives h) := by
  unfold HArr.toDist Verif.toDist
  simp only [Prog.bind_eq]
  refine Impl.bind (fun y => [y]) (HArr.new_impl hw) (fun _ h => h) fun y h' e hw' hf' hv' => ⟨fun _ hz => .inr (List.mem_singleton.1 hz ▸ hv'.1), ?_⟩
  by_cases hb : p.isBroadcast
  · rw [if_pos hb, if_pos hb]
    exact HArr.fill_impl hw' hv' _
  · rw [if_neg hb, if_neg hb]
    refine Impl.read_bind hv'.2 ?_
    exact Impl.lift_bind hw' fun _ => HArr.fill_impl hw' hv' _

theorem hderivApply_impl (hw : h.WF) (hx : h.get? x = some d) {F : Ctx K → Deriv K → Nat → HP K Nat} {f : Ctx K → Deriv K → DArr K → P K (DArr K)}
    (hf : ∀ (h : Heap K) (x : Nat) (d : DArr K), h.WF → h.get? x = some d → Impl h (F c o x) (f c o d) [] (Gives h)) :
    Impl h (hderivApply c o F x) (derivApply c o f d) [] (Gives h) := by
  unfold hderivApply derivApply
  refine Impl.read_bind hx ?_
  simp only [Prog.bind_eq]
  by_cases hb : d.part = .broadcast
  · rw [if_pos hb, if_pos hb]
    refine Impl.bind_nil (HArr.toDist_impl hw _ _ _ _ _) fun z h1 e1 hw1 hf1 hv1 => ?_
    exact (hreshaped_impl hw1 hv1.2 _ _ hf).trans_gives hf1
  · rw [if_neg hb, if_neg hb]
    exact hreshaped_impl hw hx _ _ hf

theorem hfirstDerivative_is (k : FDKind) (o : Deriv K) (c : Ctx K) : HPrim.Is c (hfirstDerivative k o) (firstDerivative k o) where
  shape := rfl
  mv _ _ _ hw hx := hderivApply_impl hw hx fun _ _ _ hw hx => hfdMv_impl k hw hx
  rmv _ _ _ hw hx := hderivApply_impl hw hx fun _ _ _ hw hx => hfdRmv_impl k hw hx

theorem hsecondDerivative_is (k : SDKind) (o : Deriv K) (c : Ctx K) : HPrim.Is c (hsecondDerivative k o) (secondDerivative k o) where
  shape := rfl
  mv _ _ _ hw hx := hderivApply_impl hw hx fun _ _ _ hw hx => hsdMv_impl k hw hx
  rmv _ _ _ hw hx := hderivApply_impl hw hx fun _ _ _ hw hx => hsdRmv_impl k hw hx

/-! ### Fredholm1.py and LinearOperator.py -/

theorem hfredMv_impl (o : Fred K) (b : Bool) (hw : h.WF) (hx : h.get? x = some d) : Impl h (hfredMv o b c x) (fredMv o b c d) [] (Gives h) := by
  unfold hfredMv fredMv
  refine Impl.read_bind hx ?_
  by_cases hp : ¬ d.part.isBroadcast
  · rw [if_pos hp, if_pos hp]; exact Impl.throw hw
  · rw [if_neg hp, if_neg hp]
    simp only [Prog.bind_eq]
    refine new_work hw hx (HArr.new_impl hw) fun h' y e w => ?_
    refine Impl.read_bind w.hx ?_
    exact Impl.lift_bind w.wf fun _ => Impl.lift_bind w.wf fun _ => Impl.lift_bind w.wf fun _ => Impl.lift_bind w.wf fun v => w.last (assigns_all _)

theorem hwrapMv_impl (o : LOp K) (b : Bool) (hw : h.WF) (hx : h.get? x = some d) : Impl h (hwrapMv o b c x) (wrapMv o b c d) [] (Gives h) := by
  unfold hwrapMv wrapMv
  refine Impl.read_bind hx ?_
  simp only [Prog.bind_eq]
  refine new_work hw hx (HArr.new_impl hw) fun h' y e w => ?_
  refine Impl.read_bind w.hx ?_
  exact Impl.lift_bind w.wf fun v => w.last (assigns_all _)

theorem hwrap_is (o : LOp K) (c : Ctx K) : HPrim.Is c (hwrap o) (wrap o) where
  shape := rfl
  mv _ _ _ hw hx := hwrapMv_impl o false hw hx
  rmv _ _ _ hw hx := hwrapMv_impl o true hw hx

/-! ### Constructors -/

/-- an operator class on the memory, with the same class on values -/
abbrev HLeaf (K : Type) [Field K] [StarRing K] : Type := { q : HPrim K × Prim K // ∀ c, HPrim.Is c q.1 q.2 }

/-- two expressions of the same form, whose leaves on the memory implement the leaves on values -/
def MOp.Same (a : MOp K (HPrim K)) (b : MOp K (Prim K)) : Prop := ∃ e : MOp K (HLeaf K), a = e.map (·.1.1) ∧ b = e.map (·.1.2)

def SOp.Same (a : SOp K (HPrim K)) (b : SOp K (Prim K)) : Prop := ∃ e : SOp K (HLeaf K), a = e.map (·.1.1) ∧ b = e.map (·.1.2)

variable {a a' : MOp K (HPrim K)} {b b' : MOp K (Prim K)}

theorem MOp.Same.leaf {q : HPrim K} {p : Prim K} (hq : ∀ c, HPrim.Is c q p) : MOp.Same (.leaf q) (.leaf p) := ⟨.leaf ⟨(q, p), hq⟩, rfl, rfl⟩

theorem MOp.Same.shape (hs : MOp.Same a b) : a.shape HPrim.shape = b.shape Prim.shape := by
  obtain ⟨e, rfl, rfl⟩ := hs
  exact MOp.hshape (fun i => (i.2 (env 0 (fun _ _ => 0) 0)).shape) e

theorem MOp.Same.scaled (hs : MOp.Same a b) (s : Scal K) : MOp.Same (.scaled a s) (.scaled b s) := by
  obtain ⟨e, rfl, rfl⟩ := hs
  exact ⟨.scaled e s, rfl, rfl⟩

theorem MOp.Same.conj (hs : MOp.Same a b) : MOp.Same (.conj a) (.conj b) := by
  obtain ⟨e, rfl, rfl⟩ := hs
  exact ⟨.conj e, rfl, rfl⟩

theorem MOp.Same.run (hs : MOp.Same a b) (t : Bool) (hw : h.WF) (hx : h.get? x = some d) : Impl h (MOp.hrun c t a x) (MOp.run c t b d) [] (Gives h) := by
  obtain ⟨e, rfl, rfl⟩ := hs
  exact MOp.hrun_impl (hp := fun i : HLeaf K => i.1.1) (pr := fun i : HLeaf K => i.1.2) (fun i => i.2 c) e t hw hx

/-- results of operations that build expressions -/
def SameRes : Except Err (MOp K (HPrim K)) → Except Err (MOp K (Prim K)) → Prop
  | .ok a, .ok b => MOp.Same a b
  | .error e, .error e' => e = e'
  | _, _ => False

theorem MOp.Same.mul (hs : MOp.Same a b) (hs' : MOp.Same a' b') : SameRes (a.mul HPrim.shape a') (b.mul Prim.shape b') := by
  unfold MOp.mul
  rw [hs.shape, hs'.shape]
  split
  · rfl
  · obtain ⟨e, rfl, rfl⟩ := hs
    obtain ⟨e', rfl, rfl⟩ := hs'
    exact ⟨.prod e e', rfl, rfl⟩

theorem MOp.Same.add (hs : MOp.Same a b) (hs' : MOp.Same a' b') : SameRes (a.add HPrim.shape a') (b.add Prim.shape b') := by
  unfold MOp.add
  rw [hs.shape, hs'.shape]
  split
  · rfl
  · obtain ⟨e, rfl, rfl⟩ := hs
    obtain ⟨e', rfl, rfl⟩ := hs'
    exact ⟨.sum e e', rfl, rfl⟩

theorem SameRes.bind {u : Except Err (MOp K (HPrim K))} {v : Except Err (MOp K (Prim K))} {f : MOp K (HPrim K) → Except Err (MOp K (HPrim K))} {g : MOp K (Prim K) → Except Err (MOp K (Prim K))}
    (hs : SameRes u v) (hf : ∀ a b, MOp.Same a b → SameRes (f a) (g b)) : SameRes (u >>= f) (v >>= g) := by
  cases u <;> cases v <;> first | exact hs.elim | skip
  · exact hs
  · exact hf _ _ hs

theorem MOp.Same.H (hs : MOp.Same a b) : SameRes (a.H HPrim.shape) (b.H Prim.shape) := by
  obtain ⟨e, rfl, rfl⟩ := hs
  induction e with
  | prod A B ih ih' =>
    refine SameRes.bind ih' fun a b h1 => SameRes.bind ih fun a' b' h2 => h1.mul h2
  | scaled A s ih => exact SameRes.bind ih fun a b h1 => h1.scaled _
  | sum A B ih ih' => exact SameRes.bind ih fun a b h1 => SameRes.bind ih' fun a' b' h2 => h1.add h2
  | conj A ih => exact SameRes.bind ih fun a b h1 => h1.conj
  | leaf i => exact ⟨.adj (.leaf i), rfl, rfl⟩
  | adj A => exact ⟨.adj (.adj A), rfl, rfl⟩
  | trans A => exact ⟨.adj (.trans A), rfl, rfl⟩
  | pow A p => exact ⟨.adj (.pow A p), rfl, rfl⟩

theorem lift_same {u : Except Err (MOp K (HPrim K))} {v : Except Err (MOp K (Prim K))} (hs : SameRes u v) (hw : h.WF) {α β : Type} {V : α → Heap K → β → Prop} {W : List Nat}
    {k : MOp K (HPrim K) → HP K α} {k' : MOp K (Prim K) → P K β} (hk : ∀ a b, MOp.Same a b → Impl h (k a) (k' b) W V) :
    Impl h (HP.lift (Prog.lift u) >>= k) ((Prog.lift v).bind k') W V := by
  cases u <;> cases v <;> first | exact hs.elim | skip
  · cases hs
    exact Impl.throw hw
  · exact hk _ _ hs

/-- the constructor changes nothing in the memory and yields an operator that implements the operator on values -/
def Builds (h : Heap K) (q : HPrim K) (h' : Heap K) (p : Prim K) : Prop := h' = h ∧ ∀ c, HPrim.Is c q p
def BuildsM (h : Heap K) (a : MOp K (HPrim K)) (h' : Heap K) (b : MOp K (Prim K)) : Prop := h' = h ∧ MOp.Same a b

theorem hmkBlockDiag_impl (hw : h.WF) (ops : List (LOp K)) (mask : Option (List Nat)) (dt : Option DType) : Impl h (hmkBlockDiag c ops mask dt) (mkBlockDiag c ops mask dt) [] (Builds h) := by
  unfold hmkBlockDiag mkBlockDiag
  simp only [Prog.bind_eq]
  refine Impl.lift_bind hw fun lm => Impl.lift_bind hw fun ln => Impl.lift_bind hw fun M => Impl.lift_bind hw fun N => Impl.lift_bind hw fun dt => Impl.ret hw ⟨rfl, fun c => ?_⟩
  exact ⟨rfl, fun _ _ _ hw hx => hblockDiagMv_impl hw hx _ _ _ _ _ _ _, fun _ _ _ hw hx => hblockDiagMv_impl hw hx _ _ _ _ _ _ _⟩

theorem hmkVStack_impl (hw : h.WF) (ops : List (LOp K)) (dt : Option DType) : Impl h (hmkVStack c ops dt) (mkVStack c ops dt) [] (Builds h) := by
  unfold hmkVStack mkVStack
  simp only [Prog.bind_eq]
  refine Impl.lift_bind hw fun ln => Impl.lift_bind hw fun ms => ?_
  cases ms.flatten with
  | nil => exact Impl.throw hw
  | cons N rest =>
    dsimp only
    by_cases hr : (rest.any (· ≠ N)) = true
    · rw [if_pos hr, if_pos hr]; exact Impl.throw hw
    · rw [if_neg hr, if_neg hr]
      refine Impl.lift_bind hw fun M => Impl.lift_bind hw fun dt => Impl.ret hw ⟨rfl, fun c => ?_⟩
      exact ⟨rfl, fun _ _ _ hw hx => hvstackMv_impl hw hx _ _ _ _, fun _ _ _ hw hx => hvstackRmv_impl hw hx _ _ _ _⟩

theorem hmkHStack_impl (hw : h.WF) (ops : List (LOp K)) (dt : Option DType) : Impl h (hmkHStack c ops dt) (mkHStack c ops dt) [] (Builds h) := by
  unfold hmkHStack mkHStack
  simp only [Prog.bind_eq]
  refine Impl.lift_bind hw fun ns => ?_
  have key : Impl h (hmkVStack c (ops.map (·.H)) dt >>= fun v => HP.ret (⟨v.cols, v.rows, fun c x => MOp.hrun c false (.adj (.leaf v)) x, fun c x => MOp.hrun c true (.adj (.leaf v)) x⟩ : HPrim K))
      ((mkVStack c (ops.map (·.H)) dt).bind fun v =>
        .ret (⟨v.cols, v.rows, v.dtype, fun c x => MOp.run c false (.adj (.leaf v)) x, fun c x => MOp.run c true (.adj (.leaf v)) x⟩ : Prim K)) [] (Builds h) := by
    refine Impl.bind_nil (hmkVStack_impl hw _ _) fun q h' p hw' _ hv => ?_
    obtain ⟨rfl, hq⟩ := hv
    have hs : MOp.Same (.adj (.leaf q)) (.adj (.leaf p)) := ⟨.adj (.leaf ⟨(q, p), hq⟩), rfl, rfl⟩
    refine Impl.ret hw' ⟨rfl, fun c => ⟨?_, fun _ _ _ hw hx => hs.run _ hw hx, fun _ _ _ hw hx => hs.run _ hw hx⟩⟩
    have := (hq c).shape
    simp only [HPrim.shape, Prim.shape, Prod.mk.injEq] at this ⊢
    exact ⟨this.2, this.1⟩
  cases ns.flatten with
  | nil => exact key
  | cons N rest =>
    dsimp only
    by_cases hr : (rest.any (· ≠ N)) = true
    · rw [if_pos hr, if_pos hr]; exact Impl.throw hw
    · rw [if_neg hr, if_neg hr]; exact key

theorem hlapTerm_impl (hw : h.WF) (sd : Serial K SDKind) (dims : List Nat) (edge : Bool) (dt : DType) (ax : Nat) (s : K) (kind : SDKind) :
    Impl h (hlapTerm c sd dims edge dt ax s kind) (lapTerm c sd dims edge dt ax s kind) [] (Builds h) := by
  unfold hlapTerm lapTerm
  split
  · exact Impl.ret hw ⟨rfl, fun c => hsecondDerivative_is _ _ c⟩
  · exact hmkBlockDiag_impl hw _ _ _

theorem hlapLoop_impl (hw : h.WF) (sd : Serial K SDKind) (dims : List Nat) (edge : Bool) (dt : DType) (l : List (Nat × K × Scal K)) (hs : MOp.Same a b) :
    Impl h (hlapLoop c sd dims edge dt l a) (lapLoop c sd dims edge dt l b) [] (BuildsM h) := by
  induction l generalizing a b with
  | nil => exact Impl.ret hw ⟨rfl, hs⟩
  | cons t l ih =>
    obtain ⟨ax, s, w⟩ := t
    unfold hlapLoop lapLoop
    simp only [Prog.bind_eq]
    refine Impl.bind_nil (hlapTerm_impl hw _ _ _ _ _ _ _) fun q h' p hw' _ hv => ?_
    obtain ⟨rfl, hq⟩ := hv
    exact lift_same (hs.add ((MOp.Same.leaf hq).scaled w)) hw fun a b hab => ih hab

theorem hmkLaplacian_impl (hw : h.WF) (sd : Serial K SDKind) (dims axes : List Nat) (weights : List (Scal K)) (sampling : List K) (edge : Bool) (kind : SDKind) (dt : DType) :
    Impl h (hmkLaplacian c sd dims axes weights sampling edge kind dt) (mkLaplacian c sd dims axes weights sampling edge kind dt) [] (Builds h) := by
  unfold hmkLaplacian mkLaplacian
  split
  · exact Impl.throw hw
  split
  · exact Impl.throw hw
  cases axes.zip (sampling.zip weights) with
  | nil => exact Impl.throw hw
  | cons t l =>
    obtain ⟨ax, s, w⟩ := t
    dsimp only
    simp only [Prog.bind_eq]
    refine Impl.bind_nil (hlapTerm_impl hw _ _ _ _ _ _ _) fun q h' p hw' _ hv => ?_
    obtain ⟨rfl, hq⟩ := hv
    refine Impl.bind_nil (hlapLoop_impl hw _ _ _ _ _ ((MOp.Same.leaf hq).scaled w)) fun a h' b hw' _ hv => ?_
    obtain ⟨rfl, hs⟩ := hv
    refine Impl.ret hw ⟨rfl, fun c => ⟨?_, fun _ _ _ hw hx => hs.run _ hw hx, fun _ _ _ hw hx => lift_same hs.H hw fun a b hab => hab.run _ hw hx⟩⟩
    show ((a.shape HPrim.shape).1, (a.shape HPrim.shape).2) = ((b.shape Prim.shape).1, (b.shape Prim.shape).2)
    rw [hs.shape]

theorem hgradLoop_impl (hw : h.WF) (fd : Serial K FDKind) (dims : List Nat) (edge : Bool) (kind : FDKind) (dt : DType) (iax : Nat) (l : List K) :
    Impl h (hgradLoop c fd dims edge kind dt iax l) (gradLoop c fd dims edge kind dt iax l) [] (fun a h' b => h' = h ∧ ∃ e : List (MOp K (HLeaf K)), a = e.map (MOp.map (·.1.1)) ∧ b = e.map (MOp.map (·.1.2))) := by
  induction l generalizing iax with
  | nil => exact Impl.ret hw ⟨rfl, [], rfl, rfl⟩
  | cons s l ih =>
    unfold hgradLoop gradLoop
    simp only [Prog.bind_eq]
    refine Impl.bind_nil (hmkBlockDiag_impl hw _ _ _) fun q h' p hw' _ hv => ?_
    obtain ⟨rfl, hq⟩ := hv
    refine Impl.bind_nil (ih _) fun a h' b hw' _ hv => ?_
    obtain ⟨rfl, e, rfl, rfl⟩ := hv
    exact Impl.ret hw ⟨rfl, .leaf ⟨(q, p), hq⟩ :: e, rfl, rfl⟩

theorem hmkGradient_impl (hw : h.WF) (fd : Serial K FDKind) (dims : List Nat) (sampling : List K) (edge : Bool) (kind : FDKind) (dt : DType) :
    Impl h (hmkGradient c fd dims sampling edge kind dt) (mkGradient c fd dims sampling edge kind dt) [] (fun a h' b => h' = h ∧ SOp.Same a b) := by
  unfold hmkGradient mkGradient
  cases sampling.take dims.length with
  | nil => exact Impl.throw hw
  | cons s l =>
    dsimp only
    simp only [Prog.bind_eq]
    refine Impl.bind_nil (hgradLoop_impl hw _ _ _ _ _ _ _) fun a h' b hw' _ hv => ?_
    obtain ⟨rfl, e, rfl, rfl⟩ := hv
    split
    · exact Impl.throw hw
    · have hl : ∀ c, HPrim.Is c (hfirstDerivative kind ⟨dims, s, edge, dt⟩) (firstDerivative kind ⟨dims, s, edge, dt⟩) := fun c => hfirstDerivative_is _ _ c
      have hsh : ∀ o : MOp K (HLeaf K), (o.map (·.1.1)).shape HPrim.shape = (o.map (·.1.2)).shape Prim.shape := fun o => MOp.Same.shape ⟨o, rfl, rfl⟩
      unfold SOp.mkVStack
      dsimp only
      have hc : (((e.map (MOp.map (·.1.1))).any fun q => decide ((q.shape HPrim.shape).2 ≠ ((MOp.leaf (hfirstDerivative kind ⟨dims, s, edge, dt⟩) : MOp K (HPrim K)).shape HPrim.shape).2)) : Bool) =
          (e.map (MOp.map (·.1.2))).any fun q => decide ((q.shape Prim.shape).2 ≠ ((MOp.leaf (firstDerivative kind ⟨dims, s, edge, dt⟩) : MOp K (Prim K)).shape Prim.shape).2) := by
        rw [List.any_map, List.any_map]
        congr 1
        funext o
        simp only [Function.comp, hsh]
        rfl
      rw [hc]
      split
      · exact Impl.throw hw
      · exact Impl.ret hw ⟨rfl, .grad (.leaf ⟨(hfirstDerivative kind ⟨dims, s, edge, dt⟩, firstDerivative kind ⟨dims, s, edge, dt⟩), hl⟩ :: e), rfl, rfl⟩

theorem hmkFredholm_impl (hw : h.WF) (G : NDArray K) (nz : Nat) (saveGt usematmul : Bool) (dt : DType) :
    Impl h (hmkFredholm c G nz saveGt usematmul dt) (mkFredholm c G nz saveGt usematmul dt) [] (Builds h) := by
  unfold hmkFredholm mkFredholm
  generalize G.shape = sh
  rcases sh with _ | ⟨nsl, _ | ⟨nx, _ | ⟨ny, _ | ⟨t, l⟩⟩⟩⟩
  · exact Impl.throw hw
  · exact Impl.throw hw
  · exact Impl.throw hw
  · dsimp only
    simp only [Prog.bind_eq]
    refine Impl.lift_bind hw fun nsls => ?_
    split
    · exact Impl.throw hw
    · refine Impl.lift_bind hw fun tot => Impl.lift_bind hw fun gt => Impl.ret hw ⟨rfl, fun c => ?_⟩
      exact ⟨rfl, fun _ _ _ hw hx => hfredMv_impl _ _ hw hx, fun _ _ _ hw hx => hfredMv_impl _ _ hw hx⟩
  · exact Impl.throw hw

theorem hmdcChain_same (fft : Nat → Nat → Nat → Bool → LOp K) (nt ns nr nv nfreq : Nat) (twosided conj : Bool) (dtype : DType) {q : HPrim K} {p : Prim K} (hq : ∀ c, HPrim.Is c q p) :
    SameRes (hmdcChain fft nt ns nr nv nfreq twosided conj dtype q) (mdcChain fft nt ns nr nv nfreq twosided conj dtype p) := by
  unfold hmdcChain mdcChain
  dsimp only
  have hl : ∀ o : LOp K, MOp.Same (.leaf (hwrap o)) (.leaf (wrap o)) := fun o => .leaf (hwrap_is o)
  refine SameRes.bind (hl _).H fun _ _ h1 => SameRes.bind (hl _).H fun _ _ h2 => SameRes.bind (h1.mul h2) fun _ _ h3 => SameRes.bind (h3.mul ?_) fun _ _ h4 =>
    SameRes.bind (h4.mul (hl _)) fun _ _ h5 => h5.mul (hl _)
  cases conj
  · exact .leaf hq
  · exact (MOp.Same.leaf hq).conj

theorem hmkMDC_impl (hw : h.WF) (fft : Nat → Nat → Nat → Bool → LOp K) (sqrt : Nat → K) (G : NDArray K) (nt nv nfreq : Nat) (dt dr : K) (twosided saveGt conj usematmul prescaled : Bool) :
    Impl h (hmkMDC c fft sqrt G nt nv nfreq dt dr twosided saveGt conj usematmul prescaled) (mkMDC c fft sqrt G nt nv nfreq dt dr twosided saveGt conj usematmul prescaled) []
      (fun a h' b => h' = h ∧ MOp.Same a.1 b.1 ∧ a.2 = b.2) := by
  unfold hmkMDC mkMDC
  split
  · exact Impl.throw hw
  split
  · exact Impl.throw hw
  simp only [Prog.bind_eq]
  refine Impl.bind_nil (hmkFredholm_impl hw _ _ _ _ _) fun q h' p hw' _ hv => ?_
  obtain ⟨rfl, hq⟩ := hv
  exact lift_same (hmdcChain_same _ _ _ _ _ _ _ _ _ hq) hw fun a b hab => Impl.ret hw ⟨rfl, hab, rfl⟩

end Verif

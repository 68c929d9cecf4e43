/- The operators that can be built with the library change nothing in the memory and return new arrays. -/
import Verif.Spec.Library
import Verif.Proofs.HeapLeaves

set_option linter.unusedSectionVars false

namespace Verif
open NDArray

variable {K : Type} [Field K] [StarRing K]

theorem ResultOf.post {α : Type} {m : HP K α} {a : α} (ha : ResultOf m a) {Q : α → Prop} (hm : ∀ h : Heap K, h.WF → HPost h m [] fun a _ => Q a) : Q a := by
  obtain ⟨n, r, h, h', ps, s, hr, hw, hp, hs, ho⟩ := ha
  obtain ⟨x, hx, -, -, hq⟩ := (hm h hw).sound hr hp hs (o := .ok (.ok a, h')) ho
  cases hx
  exact hq a rfl

theorem ResultOf.builds {m : HP K (HPrim K)} {q : HPrim K} (hq : ResultOf m q) {p : P K (Prim K)} (hm : ∀ h : Heap K, h.WF → Impl h m p [] (Builds h)) : ∃ p : Prim K, ∀ c, HPrim.Is c q p :=
  hq.post (Q := fun q => ∃ p : Prim K, ∀ c, HPrim.Is c q p) fun h hw => (hm h hw).hpost fun _ _ p hv => ⟨p, hv.2⟩

/-- every operator class of the library implements some operator on values -/
theorem Library.is {q : HPrim K} (hq : Library q) : ∃ p : Prim K, ∀ c, HPrim.Is c q p := by
  cases hq with
  | user p => exact ⟨p, fun _ => p.heap_is⟩
  | wrap o => exact ⟨_, hwrap_is o⟩
  | firstDerivative k o => exact ⟨_, hfirstDerivative_is k o⟩
  | secondDerivative k o => exact ⟨_, hsecondDerivative_is k o⟩
  | blockDiag hq => exact hq.builds fun h hw => hmkBlockDiag_impl hw _ _ _
  | vstack hq => exact hq.builds fun h hw => hmkVStack_impl hw _ _
  | hstack hq => exact hq.builds fun h hw => hmkHStack_impl hw _ _
  | laplacian hq => exact hq.builds fun h hw => hmkLaplacian_impl hw _ _ _ _ _ _ _ _
  | fredholm hq => exact hq.builds fun h hw => hmkFredholm_impl hw _ _ _ _ _

theorem LibM.same {a : MOp K (HPrim K)} (ha : LibM a) : ∃ b : MOp K (Prim K), MOp.Same a b := by
  induction ha with
  | leaf hq => obtain ⟨p, hp⟩ := hq.is; exact ⟨_, .leaf hp⟩
  | mdc hq => exact hq.post (Q := fun q => ∃ b : MOp K (Prim K), MOp.Same q.1 b) fun h hw => (hmkMDC_impl hw _ _ _ _ _ _ _ _ _ _ _ _ _).hpost fun _ _ p hv => ⟨p.1, hv.2.1⟩
  | adj _ ih => obtain ⟨b, e, rfl, rfl⟩ := ih; exact ⟨_, .adj e, rfl, rfl⟩
  | trans _ ih => obtain ⟨b, e, rfl, rfl⟩ := ih; exact ⟨_, .trans e, rfl, rfl⟩
  | prod _ _ ih ih' => obtain ⟨b, e, rfl, rfl⟩ := ih; obtain ⟨b, e', rfl, rfl⟩ := ih'; exact ⟨_, .prod e e', rfl, rfl⟩
  | scaled _ s ih => obtain ⟨b, e, rfl, rfl⟩ := ih; exact ⟨_, .scaled e s, rfl, rfl⟩
  | sum _ _ ih ih' => obtain ⟨b, e, rfl, rfl⟩ := ih; obtain ⟨b, e', rfl, rfl⟩ := ih'; exact ⟨_, .sum e e', rfl, rfl⟩
  | pow _ p ih => obtain ⟨b, e, rfl, rfl⟩ := ih; exact ⟨_, .pow e p, rfl, rfl⟩
  | conj _ ih => obtain ⟨b, e, rfl, rfl⟩ := ih; exact ⟨_, .conj e, rfl, rfl⟩

theorem LibM.same_list {ops : List (MOp K (HPrim K))} (ha : ∀ o ∈ ops, LibM o) : ∃ es : List (MOp K (HLeaf K)), ops = es.map (MOp.map (·.1.1)) := by
  induction ops with
  | nil => exact ⟨[], rfl⟩
  | cons o ops ih =>
    obtain ⟨b, e, rfl, -⟩ := (ha o (by simp)).same
    obtain ⟨es, rfl⟩ := ih fun o ho => ha o (by simp [ho])
    exact ⟨e :: es, rfl⟩

theorem LibS.same {a : SOp K (HPrim K)} (ha : LibS a) : ∃ b : SOp K (Prim K), SOp.Same a b := by
  induction ha with
  | vstack hA => obtain ⟨es, rfl⟩ := LibM.same_list hA; exact ⟨_, .vstack es, rfl, rfl⟩
  | bdiag hA => obtain ⟨es, rfl⟩ := LibM.same_list hA; exact ⟨_, .bdiag es, rfl, rfl⟩
  | gradient hq => exact hq.post (Q := fun q => ∃ b : SOp K (Prim K), SOp.Same q b) fun h hw => (hmkGradient_impl hw _ _ _ _ _ _).hpost fun _ _ p hv => ⟨p, hv.2⟩
  | adj _ ih => obtain ⟨b, e, rfl, rfl⟩ := ih; exact ⟨_, .adj e, rfl, rfl⟩
  | trans _ ih => obtain ⟨b, e, rfl, rfl⟩ := ih; exact ⟨_, .trans e, rfl, rfl⟩
  | prod _ _ ih ih' => obtain ⟨b, e, rfl, rfl⟩ := ih; obtain ⟨b, e', rfl, rfl⟩ := ih'; exact ⟨_, .prod e e', rfl, rfl⟩
  | scaled _ s ih => obtain ⟨b, e, rfl, rfl⟩ := ih; exact ⟨_, .scaled e s, rfl, rfl⟩
  | sum _ _ ih ih' => obtain ⟨b, e, rfl, rfl⟩ := ih; obtain ⟨b, e', rfl, rfl⟩ := ih'; exact ⟨_, .sum e e', rfl, rfl⟩
  | pow _ p ih => obtain ⟨b, e, rfl, rfl⟩ := ih; exact ⟨_, .pow e p, rfl, rfl⟩
  | conj _ ih => obtain ⟨b, e, rfl, rfl⟩ := ih; exact ⟨_, .conj e, rfl, rfl⟩

theorem SOp.Same.run {h : Heap K} {c : Ctx K} {a : SOp K (HPrim K)} {b : SOp K (Prim K)} (hs : SOp.Same a b) (t : Bool) {x : XRef} {u : XArr K} (hw : h.WF) (hx : HasX h x u) :
    Impl h (SOp.hrun c t a x) (SOp.run c t b u) [] (GivesX h) := by
  obtain ⟨e, rfl, rfl⟩ := hs
  exact SOp.hrun_impl (hp := fun i : HLeaf K => i.1.1) (pr := fun i : HLeaf K => i.1.2) (fun i => i.2 c) e t hw hx

end Verif

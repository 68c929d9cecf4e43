/- Every history of API calls keeps the store well laid out. -/
import Verif.MPI.Partial
import Verif.Proofs.Array
import Verif.Spec.History
import Verif.Spec.Shapes

namespace Verif
open NDArray Relation

variable {K : Type} {n : Nat} {α β : Type}

/-- For all memory contents in `S`: either the program succeeds on all ranks, with results that do
    not depend on the memory contents and satisfy `Q`, or some rank raises. -/
def Outcome (S : Set (Nat → Nat → K)) (n : Nat) (ps : (Nat → Nat → K) → Nat → P K α)
    (Q : (Nat → α) → Prop) : Prop :=
  (∃ a, Q a ∧ ∀ J ∈ S, Runs n (ps J) fun r => .ok (a r)) ∨ ∀ J ∈ S, Fails n (ps J)

variable {S : Set (Nat → Nat → K)}

theorem Outcome.bind {ps : (Nat → Nat → K) → Nat → P K α} {Q : (Nat → α) → Prop}
    {k : (Nat → Nat → K) → Nat → α → P K β} {R : (Nat → β) → Prop}
    (h : Outcome S n ps Q) (h2 : ∀ a, Q a → Outcome S n (fun J r => k J r (a r)) R) :
    Outcome S n (fun J r => (ps J r).bind (k J r)) R := by
  rcases h with ⟨a, hq, h⟩ | h
  · rcases h2 a hq with ⟨b, hr, h2⟩ | h2
    · exact .inl ⟨b, hr, fun J hJ => Runs.bind_ok (h J hJ) (h2 J hJ)⟩
    · exact .inr fun J hJ => Fails.bind_ok (h J hJ) (h2 J hJ)
  · exact .inr fun J hJ => (h J hJ).bind _

theorem Outcome.of_runs {ps : (Nat → Nat → K) → Nat → P K α} {Q : (Nat → α) → Prop} {a : Nat → α}
    (h : ∀ J ∈ S, Runs n (ps J) fun r => .ok (a r)) (hq : Q a) : Outcome S n ps Q :=
  .inl ⟨a, hq, h⟩

theorem Outcome.congr {ps ps' : (Nat → Nat → K) → Nat → P K α} {Q : (Nat → α) → Prop}
    (h : Outcome S n ps Q) (he : ∀ J, ∀ r < n, ps J r = ps' J r) : Outcome S n ps' Q := by
  rcases h with ⟨a, hq, h⟩ | h
  · exact .inl ⟨a, hq, fun J hJ => (h J hJ).congr (he J) (fun _ _ => rfl)⟩
  · exact .inr fun J hJ => (h J hJ).congr (he J)

theorem Outcome.mono {ps : (Nat → Nat → K) → Nat → P K α} {Q R : (Nat → α) → Prop}
    (h : Outcome S n ps Q) (hqr : ∀ a, Q a → R a) : Outcome S n ps R := by
  rcases h with ⟨a, hq, h⟩ | h
  · exact .inl ⟨a, hqr a hq, h⟩
  · exact .inr h

theorem Outcome.lift_fails {ps : (Nat → Nat → K) → Nat → P K α} {Q : (Nat → α) → Prop}
    (h : ∀ J ∈ S, Fails n (ps J)) : Outcome S n ps Q := .inr h

variable [Field K] [StarRing K] [CharZero K]

/-! ### Constructor with arbitrary arguments -/

/-- the size along the axis assigned to each rank by a `local_shapes` argument -/
def sizesOf (n : Nat) (gshape : List Nat) (axis : Nat) (ls : List (List Nat)) : Nat → Nat :=
  if ls = [] then balanced (len gshape axis) n else fun r => (ls.getD r []).getD axis 0

/-- Conditions under which the constructor succeeds. -/
structure ArgsOk (n : Nat) (gshape : List Nat) (part : Partition) (axis : Nat)
    (ls : List (List Nat)) (mask : Option (List Nat)) : Prop where
  axis_lt : axis < gshape.length
  mask : ∀ m, mask = some m → n ≤ m.length
  shapes : ls ≠ [] → ValidShapes n gshape part axis ls

theorem ArgsOk.wf {gshape part axis ls mask} (hn : 0 < n) (h : ArgsOk n gshape part axis ls mask) :
    (Layout.mk gshape part axis (sizesOf n gshape axis ls) mask).WF n := by
  by_cases hl : ls = []
  · refine ⟨h.axis_lt, fun _ => ?_, h.mask⟩
    simp only [sizesOf, if_pos hl]
    exact psum_balanced_total _ hn
  · have := (h.shapes hl).wf (mask := mask) h.axis_lt h.mask
    simpa [sizesOf, hl, Layout.ofShapes] using this

theorem runs_mkDArr_ok {gshape part axis mask} {dt : DType} {J : Nat → Nat → K} {lso : Option (List (List Nat))}
    (hn : 0 < n) (h : ArgsOk n gshape part axis (lso.getD []) mask) :
    Runs n (fun r => mkDArr (env n J r) gshape part axis lso mask dt)
      (fun r => .ok ((Layout.mk gshape part axis (sizesOf n gshape axis (lso.getD [])) mask).fam n dt
        (junkData J (Layout.mk gshape part axis (sizesOf n gshape axis (lso.getD [])) mask) dt) r)) := by
  have hL := h.wf hn
  by_cases hl : lso.getD [] = []
  · have := runs_mkDArr_none (dt := dt) (J := J) hL (fun _ => by simp [sizesOf, hl])
    refine this.congr (fun r _ => ?_) (fun _ _ => rfl)
    simp only [mkDArr, hl, Option.getD_none]
  · have h1 := runs_mkDArr (dt := dt) (J := J) hL
    have e : (Layout.mk gshape part axis (sizesOf n gshape axis (lso.getD [])) mask)
        = Layout.ofShapes gshape part axis (lso.getD []) mask := by simp [sizesOf, hl, Layout.ofShapes]
    refine h1.congr (fun r _ => ?_) (fun _ _ => rfl)
    rw [e, (h.shapes hl).lshape]
    simp only [mkDArr, Option.getD_some, Layout.ofShapes]
    rfl

theorem fails_mkDArr {gshape part axis mask} {dt : DType} {J : Nat → Nat → K} {lso : Option (List (List Nat))}
    (hn : 0 < n) (h : ¬ ArgsOk n gshape part axis (lso.getD []) mask) :
    Fails n (fun r => mkDArr (env n J r) gshape part axis lso mask dt) := by
  unfold mkDArr
  by_cases hax : gshape.length ≤ axis
  · simp only [if_pos hax]; exact Fails.of_throw hn rfl
  simp only [if_neg hax, Prog.bind_eq]
  by_cases hm : ∀ m, mask = some m → n ≤ m.length
  swap
  · push Not at hm
    obtain ⟨m, rfl, hm⟩ := hm
    refine Fails.bind _ (Fails.of_throw hm (e := .index) ?_)
    simp [mkSub, env]
  have hsub := runs_mkSub (L := Layout.mk gshape part axis (fun _ => 0) mask) (J := J) (n := n) hm
  refine Fails.bind_ok hsub (Fails.bind _ ?_)
  generalize lso.getD [] = ls at h
  have hls : ls ≠ [] ∧ ¬ ValidShapes n gshape part axis ls := by
    by_contra hc
    exact h ⟨by omega, hm, fun hl => by by_contra hv; exact hc ⟨hl, hv⟩⟩
  obtain ⟨hls, hv⟩ := hls
  unfold checkLocalShapes
  simp only [if_neg hls, env_size, env_rank]
  by_cases hlen : ls.length = n
  swap
  · simp only [ne_eq, hlen, not_false_eq_true, if_true]; exact Fails.of_throw hn rfl
  simp only [ne_eq, hlen, not_true_eq_false, if_false]
  have hget : ∀ r (hr : r < n), ls.getD r [] = ls[r]'(by omega) := by
    intro r hr; simp [List.getD_eq_getElem?_getD, hlen, hr]
  by_cases hb : part.isBroadcast = true
  · simp only [if_pos hb]
    by_contra hcon
    apply hv
    have hall : ∀ r < n, ls.getD r [] = gshape := by
      intro r hr
      by_contra hne
      exact hcon (Fails.of_throw hr (e := .value) (if_pos hne))
    have hns : part ≠ .scatter := by rintro rfl; simp [Partition.isBroadcast] at hb
    refine ⟨hlen, fun _ s hs => ?_, fun hp => absurd hp hns, fun hp => absurd hp hns⟩
    obtain ⟨r, hr, rfl⟩ := List.mem_iff_getElem.1 hs
    rw [← hget r (by omega)]; exact hall r (by omega)
  · have hp := isBroadcast_false hb
    simp only [if_neg hb]
    by_cases hidx : ∀ r < n, (ls.getD r [])[axis]?.isSome
    swap
    · push Not at hidx
      obtain ⟨r, hr, h⟩ := hidx
      refine Fails.of_throw hr (e := .index) ?_
      have h0 : (ls.getD r [])[axis]? = none := by
        cases hh : (ls.getD r [])[axis]? with
        | none => rfl
        | some x => rw [hh] at h; simp at h
      simp only [h0]
    have hidx' : ∀ r < n, (ls.getD r [])[axis]? = some ((ls.getD r []).getD axis 0) := by
      intro r hr
      have h3 := hidx r hr
      cases hh : (ls.getD r [])[axis]? with
      | none => rw [hh] at h3; simp at h3
      | some x => rw [List.getD_eq_getElem?_getD (l := ls.getD r []), hh]; rfl
    have hred : ∃ qs, ReflTransGen (SStep n) (fun r => ((allreduce (env n J r).world (fun a b => .ok (a + b))
          ((ls.getD r []).getD axis 0)).bind
        fun tot => (if tot ≠ len gshape axis ∨ (ls.getD r []).eraseIdx axis ≠ gshape.eraseIdx axis
          then .throw .value else .ret () : P K Unit))) qs ∧
        ∀ r < n, qs r = if psum (fun r => (ls.getD r []).getD axis 0) n ≠ len gshape axis ∨
          (ls.getD r []).eraseIdx axis ≠ gshape.eraseIdx axis
          then .throw .value else .ret () := by
      have := runs_allreduce_nat (J := J) (v := fun r => (ls.getD r []).getD axis 0) (k := fun _ t => .ret t)
        (Runs.ret (n := n) fun _ => psum (fun r => (ls.getD r []).getD axis 0) n)
      simp only [Prog.bind_ret] at this
      exact this.bind_steps (fun r tot => (if tot ≠ len gshape axis ∨ (ls.getD r []).eraseIdx axis ≠ gshape.eraseIdx axis
          then .throw .value else .ret () : P K Unit))
    obtain ⟨qs, h1, h2⟩ := hred
    refine Fails.congr (Fails.of_steps h1 ?_) (fun r hr => ?_)
    swap
    · simp only [hidx' r hr]; rfl
    by_contra hcon
    apply hv
    have hall : ∀ r < n, psum (fun r => (ls.getD r []).getD axis 0) n = len gshape axis ∧
        (ls.getD r []).eraseIdx axis = gshape.eraseIdx axis := by
      intro r hr
      by_contra hne
      refine hcon (Fails.of_throw hr (e := .value) ?_)
      rw [h2 r hr, if_pos]
      rcases not_and_or.1 hne with h | h
      · exact .inl h
      · exact .inr h
    refine ⟨hlen, fun hs => absurd hp hs, fun _ s hs => ?_, fun _ => ?_⟩
    · obtain ⟨r, hr, rfl⟩ := List.mem_iff_getElem.1 hs
      have hrn : r < n := by omega
      rw [← hget r hrn]
      have e1 := (hall r hrn).2
      have hi := hidx' r hrn
      have hlt : axis < (ls.getD r []).length := by
        by_contra hc
        rw [List.getElem?_eq_none (by omega)] at hi; simp at hi
      have e2 : (ls.getD r []).length = gshape.length := by
        have := congrArg List.length e1
        rw [List.length_eraseIdx, List.length_eraseIdx, if_pos hlt, if_pos (by omega)] at this
        omega
      refine ⟨e2, fun i hi => ?_⟩
      rcases Nat.lt_or_gt_of_ne hi with hlt' | hgt
      · have := congrArg (·[i]?) e1
        simpa [List.getElem?_eraseIdx, hlt'] using this
      · have := congrArg (·[i - 1]?) e1
        have h5 : ¬ i - 1 < axis := by omega
        have h6 : i - 1 + 1 = i := by omega
        simpa [List.getElem?_eraseIdx, h5, h6] using this
    · have := (hall 0 hn).1
      unfold len at this
      rw [← this, psum_eq_sum]
      congr 1
      apply List.ext_getElem (by simp [hlen])
      intro r h1 h2
      have h3 : r < n := by simpa using h2
      simp only [List.getElem_map, List.getElem_range, hget r h3]

end Verif

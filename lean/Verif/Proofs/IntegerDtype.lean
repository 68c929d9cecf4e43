/- Lemmas on arrays of integer dtype. -/
import Verif.Model.IntegerDtype
import Verif.Proofs.BlockSolvers
import Verif.Proofs.StackedNorm

namespace Verif
open NDArray

theorem intPart_int (z : ℤ) : intPart z = z := by
  unfold intPart
  split_ifs <;> simp

theorem intPart_isInt (x : ℝ) : ∃ z : ℤ, intPart x = z := by
  unfold intPart
  split_ifs
  · exact ⟨_, rfl⟩
  · exact ⟨_, rfl⟩

section
variable {K : Type} (A : Arith K) {F F' : SVec K → SVec K} {y x0 : SVec K} {dot dot' : SVec K → SVec K → K} {nrm : SVec K → K} {damp : K}

/-- all entries have been stored in an array of the dtype -/
def StoredIn (dt : DType) (x : SVec K) : Prop := x.dt = dt ∧ ∀ a ∈ x.v, ∃ b, a = A.cast dt b

theorem StoredIn.map (x : SVec K) (f : K → K) : StoredIn A x.dt (x.map A f) := by
  refine ⟨rfl, fun a ha => ?_⟩
  obtain ⟨b, -, rfl⟩ := List.mem_map.1 ha
  exact ⟨_, rfl⟩

theorem mem_zipWith {α β γ : Type} {f : α → β → γ} {l : List α} {m : List β} {c : γ} (h : c ∈ List.zipWith f l m) : ∃ a b, a ∈ l ∧ b ∈ m ∧ c = f a b := by
  induction l generalizing m with
  | nil => simp at h
  | cons a l ih =>
    cases m with
    | nil => simp at h
    | cons b m =>
      rw [List.zipWith_cons_cons, List.mem_cons] at h
      rcases h with rfl | h
      · exact ⟨a, b, by simp, by simp, rfl⟩
      · obtain ⟨a', b', h1, h2, h3⟩ := ih h
        exact ⟨a', b', by simp [h1], by simp [h2], h3⟩

theorem StoredIn.add (x y : SVec K) : StoredIn A x.dt (x.add A y) := by
  refine ⟨rfl, fun a ha => ?_⟩
  obtain ⟨b, c, -, -, rfl⟩ := mem_zipWith ha
  exact ⟨_, rfl⟩

theorem scg_stored (j : Nat) (s : SCG K) (h : SCG.seq A dot F y x0 j = .ok s) : StoredIn A x0.dt s.x ∧ StoredIn A y.dt s.r := by
  induction j generalizing s with
  | zero =>
    injection h with h
    subst h
    exact ⟨StoredIn.map A x0 id, StoredIn.add A y _⟩
  | succ j ih =>
    rw [SCG.seq] at h
    cases hs : SCG.seq A dot F y x0 j with
    | error e => rw [hs] at h; cases h
    | ok t =>
      rw [hs] at h
      have ih := ih t hs
      simp only [Except.bind, SCG.next, bind] at h
      split at h
      · cases h
      · split at h
        · cases h
        · injection h with h
          subst h
          exact ⟨ih.1.1 ▸ StoredIn.add A t.x _, ih.2.1 ▸ StoredIn.add A t.r _⟩

theorem sls_stored (j : Nat) (s : SLS K) (h : SLS.seq A dot dot' nrm F F' damp y x0 j = .ok s) : StoredIn A x0.dt s.x ∧ StoredIn A y.dt s.s := by
  induction j generalizing s with
  | zero =>
    simp only [SLS.seq, SLS.start, bind, Except.bind] at h
    split at h
    · cases h
    · split at h
      · cases h
      · injection h with h
        subst h
        exact ⟨StoredIn.map A x0 id, StoredIn.add A y _⟩
  | succ j ih =>
    simp only [SLS.seq, bind, Except.bind] at h
    split at h
    · cases h
    · cases hs : SLS.seq A dot dot' nrm F F' damp y x0 j with
      | error e => rw [hs] at h; cases h
      | ok t =>
        rw [hs] at h
        have ih := ih t hs
        simp only [SLS.next, bind, Except.bind] at h
        split at h
        · cases h
        · split at h
          · cases h
          · split at h
            · cases h
            · injection h with h
              subst h
              exact ⟨ih.1.1 ▸ StoredIn.add A t.x _, ih.2.1 ▸ StoredIn.add A t.s _⟩

end

theorem StoredIn.int {x : SVec ℝ} (h : StoredIn Arith.ints int64 x) : ∀ a ∈ x.v, ∃ z : ℤ, a = z := by
  intro a ha
  obtain ⟨b, rfl⟩ := h.2 a ha
  exact intPart_isInt b

/-! ### dot products of integers -/

def IsInt (x : ℝ) : Prop := ∃ z : ℤ, x = z

theorem IsInt.sum {l : List ℝ} (h : ∀ a ∈ l, IsInt a) : IsInt l.sum := by
  induction l with
  | nil => exact ⟨0, by simp⟩
  | cons a l ih =>
    obtain ⟨p, hp⟩ := h a (by simp)
    obtain ⟨q, hq⟩ := ih fun a h' => h a (by simp [h'])
    exact ⟨p + q, by rw [List.sum_cons, hp, hq]; push_cast; rfl⟩

theorem isInt_block {L : Layout} {n : Nat} {x : SVec ℝ} (hi : x.dt = int64) (h : ∀ a ∈ x.v, IsInt a) (q : Nat) : ∀ a ∈ x.block Arith.ints L n q, IsInt a := by
  intro a ha
  unfold SVec.block at ha
  split_ifs at ha
  · obtain ⟨b, -, rfl⟩ := List.mem_map.1 ha
    simp only [Arith.ints, hi, if_true]
    exact intPart_isInt b
  · exact h a (mem_piece ha)

theorem isInt_blockDot {L : Layout} {n : Nat} {x y : SVec ℝ} (hx : x.dt = int64) (hxi : ∀ a ∈ x.v, IsInt a) (hy : y.dt = int64) (hyi : ∀ a ∈ y.v, IsInt a) : IsInt (x.blockDot Arith.ints L n y) := by
  refine IsInt.sum fun a ha => ?_
  obtain ⟨q, -, rfl⟩ := List.mem_map.1 ha
  refine IsInt.sum fun a ha => ?_
  obtain ⟨b, c, hb, hc, rfl⟩ := mem_zipWith ha
  obtain ⟨p, rfl⟩ := isInt_block hx hxi q b hb
  obtain ⟨q, rfl⟩ := isInt_block hy hyi q c hc
  exact ⟨p * q, by push_cast; rfl⟩

theorem nat_absDot {L : Layout} {n : Nat} {x : SVec ℝ} (h : StoredIn Arith.ints int64 x) : ∃ k : ℕ, Arith.ints.abs (x.blockDot Arith.ints L n (x.conj Arith.ints)) = k := by
  have hc := StoredIn.map Arith.ints x Arith.ints.conj
  rw [h.1] at hc
  obtain ⟨z, hz⟩ := isInt_blockDot (L := L) (n := n) h.1 h.int hc.1 hc.int
  refine ⟨z.natAbs, ?_⟩
  rw [SVec.conj, hz]
  simp [Arith.ints, Arith.exact, Nat.cast_natAbs]

theorem nat_blockNorm {L : Layout} {n : Nat} {x : SVec ℝ} (h : StoredIn Arith.ints int64 x) : ∃ k : ℕ, x.blockNorm Arith.ints L n = Real.sqrt k := by
  have key : ∀ l : List ℝ, (∀ a ∈ l, ∃ k : ℕ, a = k) → ∃ k : ℕ, l.sum = k := by
    intro l
    induction l with
    | nil => exact fun _ => ⟨0, by simp⟩
    | cons a l ih =>
      intro h
      obtain ⟨p, hp⟩ := h a (by simp)
      obtain ⟨q, hq⟩ := ih fun a h' => h a (by simp [h'])
      exact ⟨p + q, by rw [List.sum_cons, hp, hq]; push_cast; rfl⟩
  obtain ⟨k, hk⟩ := key ((List.range n).map fun q => Arith.ints.sumSq (x.block Arith.ints L n q)) (fun a ha => by
    obtain ⟨q, -, rfl⟩ := List.mem_map.1 ha
    obtain ⟨k, hk⟩ := key ((x.block Arith.ints L n q).map fun a => ‖a‖ ^ 2) (fun a ha => by
      obtain ⟨b, hb, rfl⟩ := List.mem_map.1 ha
      obtain ⟨z, rfl⟩ := isInt_block h.1 h.int q b hb
      exact ⟨z.natAbs ^ 2, by rw [Real.norm_eq_abs]; push_cast [Nat.cast_natAbs]; rfl⟩)
    exact ⟨k, hk⟩)
  exact ⟨k, congrArg Real.sqrt hk⟩

theorem scg_nat {L : Layout} {n : Nat} {F : SVec ℝ → SVec ℝ} {y x0 : SVec ℝ} (hi : y.dt = int64) (j : Nat) (s : SCG ℝ) (h : SCG.seq Arith.ints (SVec.blockDot Arith.ints L n) F y x0 j = .ok s) : ∃ k : ℕ, s.k = k := by
  have hst := (scg_stored Arith.ints j s h).2
  rw [hi] at hst
  have : s.k = Arith.ints.abs (s.r.blockDot Arith.ints L n (s.r.conj Arith.ints)) := by
    cases j with
    | zero =>
      injection h with h
      subst h
      rfl
    | succ j =>
      rw [SCG.seq] at h
      cases hs : SCG.seq Arith.ints (SVec.blockDot Arith.ints L n) F y x0 j with
      | error e => rw [hs] at h; cases h
      | ok t =>
        rw [hs] at h
        simp only [Except.bind, SCG.next, bind] at h
        split at h
        · cases h
        · split at h
          · cases h
          · injection h with h
            subst h
            rfl
  rw [this]
  exact nat_absDot hst

theorem sls_nat {L L' : Layout} {n : Nat} {F F' : SVec ℝ → SVec ℝ} {y x0 : SVec ℝ} {damp : ℝ} (hi : y.dt = int64) (j : Nat) (s : SLS ℝ)
    (h : SLS.seq Arith.ints (SVec.blockDot Arith.ints L n) (SVec.blockDot Arith.ints L' n) (SVec.blockNorm Arith.ints L' n) F F' damp y x0 j = .ok s) : ∃ k : ℕ, s.r1 = Real.sqrt k := by
  have hst := (sls_stored Arith.ints j s h).2
  rw [hi] at hst
  have : s.r1 = s.s.blockNorm Arith.ints L' n := by
    cases j with
    | zero =>
      simp only [SLS.seq, SLS.start, bind, Except.bind] at h
      split at h
      · cases h
      · split at h
        · cases h
        · injection h with h
          subst h
          rfl
    | succ j =>
      simp only [SLS.seq, bind, Except.bind] at h
      split at h
      · cases h
      · split at h
        · cases h
        · simp only [SLS.next, bind, Except.bind] at h
          split at h
          · cases h
          · split at h
            · cases h
            · split at h
              · cases h
              · injection h with h
                subst h
                rfl
  rw [this]
  exact nat_blockNorm hst

end Verif

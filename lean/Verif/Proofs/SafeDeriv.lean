/- MPILaplacian and MPIGradient give the right result or raise: the parts, without conditions on the number of rows or the layout. -/
import Verif.Proofs.SafeOps
import Mathlib.Tactic.SplitIfs

set_option linter.unusedSectionVars false

namespace Verif
open NDArray Finset

section
variable {K : Type} [Field K]

/-- the transpose of a stencil on `N` rows -/
def flipped (D : (Nat → K) → Nat → K) (N : Nat) (v : Nat → K) (p : Nat) : K := ∑ i ∈ range N, D (fun q => if q = p then 1 else 0) i * v i

/-- a linear stencil -/
def Lin (D : (Nat → K) → Nat → K) : Prop := (∀ u v i, D (fun p => u p + v p) i = D u i + D v i) ∧ ∀ (c : K) u i, D (fun p => c * u p) i = c * D u i

theorem Lin.sum {D : (Nat → K) → Nat → K} (h : Lin D) (u : Nat → Nat → K) (i N : Nat) : D (fun q => ∑ p ∈ range N, u p q) i = ∑ p ∈ range N, D (u p) i := by
  induction N with
  | zero =>
    have := h.2 0 (fun _ => 0) i
    simpa using this
  | succ N ih =>
    simp only [sum_range_succ]
    rw [h.1, ih]

theorem transpose_flipped {D : (Nat → K) → Nat → K} (h : Lin D) (N : Nat) : Transpose N (fun u => D fun p => if p < N then u p else 0) (flipped D N) := by
  intro u v
  have e : (fun p => if p < N then u p else 0) = fun q => ∑ p ∈ range N, u p * (if q = p then 1 else 0) := by
    funext q
    simp [Finset.sum_ite_eq]
  simp only [e, h.sum (fun p q => u p * (if q = p then 1 else 0)), h.2, flipped, sum_mul, mul_sum]
  rw [sum_comm]
  refine sum_congr rfl fun p _ => sum_congr rfl fun i _ => by ring

theorem lin_fdAt (k : FDKind) (edge : Bool) (N : Nat) : Lin (fdAt (K := K) k edge N) := by
  constructor <;> intros <;> cases k <;> simp only [fdAt] <;> split_ifs <;> ring

theorem lin_sdAt (k : SDKind) (edge : Bool) (N : Nat) : Lin (sdAt (K := K) k edge N) := by
  constructor <;> intros <;> cases k <;> simp only [sdAt] <;> split_ifs <;> ring

variable [StarRing K]

theorem conj_flipped {D : (Nat → K) → Nat → K} (h : Conj D) (N : Nat) : Conj (flipped D N) := by
  intro u p
  simp only [flipped, star_sum, star_mul', h _ _]
  refine sum_congr rfl fun i _ => ?_
  congr 2
  funext q
  split_ifs <;> simp

theorem Conj.cut {D : (Nat → K) → Nat → K} (h : Conj D) (N : Nat) : Conj (fun u => D fun p => if p < N then u p else 0) := by
  intro u i
  rw [h]
  congr 1
  funext q
  split_ifs <;> simp

theorem adjoint_flipped [CharZero K] {D : (Nat → K) → Nat → K} (h : Lin D) (hc : Conj D) {s : K} (hs : star s = s) {N w : Nat} {u v : List K} (hu : u.length = N * w)
    (hv : v.length = N * w) : ip (alongRows D s N w u) v = ip u (alongRows (flipped D N) s N w v) := by
  rw [← adjoint_alongRows (transpose_flipped h N) (hc.cut N) hs hu hv]
  congr 1
  unfold alongRows
  refine tab_congr fun i _ j _ => ?_
  congr 2
  funext p
  split_ifs with h
  · rfl
  · have : N * w ≤ p * w := Nat.mul_le_mul_right w (by omega)
    simp only [entry]
    exact List.getD_eq_default _ _ (by omega)

end

variable {K : Type} [Field K] [StarRing K] [CharZero K] {n N : Nat} {J : Nat → Nat → K} {rest : List Nat} {dt dx : DType} {X : Layout} {edge : Bool}

/-! ### The Laplacian -/

/-- what is needed of a summand: a real sampling step, correct serial operators for the axes other than the first -/
structure LTerm.Fits (sd : Serial K SDKind) (n N : Nat) (rest : List Nat) (edge : Bool) (dt : DType) (t : LTerm K) : Prop where
  s0 : t.s ≠ 0
  sr : star t.s = t.s
  serial : ∀ a, t.ax = a + 1 → a < rest.length ∧ ∀ r, IsDeriv (t.ops sd n N rest edge dt r) (sdAt t.k edge) (t.s ^ 2) (a + 1) (balanced N n r :: rest) dt

open Classical in
/-- the stencil of the adjoint along the rows -/
noncomputable def sdBack (k : SDKind) (edge : Bool) (n N : Nat) : (Nat → K) → Nat → K := if sdRoomAdj k edge n N then sdAdj k edge N else flipped (sdAt k edge N) N

theorem conj_sdBack (k : SDKind) : Conj (sdBack (K := K) k edge n N) := by
  unfold sdBack
  split_ifs
  · exact conj_sdAdj k
  · exact conj_flipped (conj_sdAt k) N

theorem adjoint_sdBack (k : SDKind) (hn : 0 < n) {s : K} (hs : star s = s) {w : Nat} {u v : List K} (hu : u.length = N * w) (hv : v.length = N * w) :
    ip (alongRows (sdAt k edge N) (s ^ 2) N w u) v = ip u (alongRows (sdBack k edge n N) (s ^ 2) N w v) := by
  unfold sdBack
  split_ifs with h
  · exact C32_transpose k hn h hs hu hv
  · exact adjoint_flipped (lin_sdAt k edge N) (conj_sdAt k) (star_sq hs) hu hv

section
variable (sd : Serial K SDKind) (n N : Nat) (rest : List Nat) (edge : Bool) (dt : DType)

open Classical in
noncomputable def lapFns : Leaves K (LTerm K) where
  sh _ := (N * rest.prod, N * rest.prod)
  fn t b d :=
    if t.Fits sd n N rest edge dt then
      if b then if t.ax = 0 then alongRows (sdBack t.k edge n N) (t.s ^ 2) N rest.prod d else blockDiag true (allOps n fun r => [t.ops sd n N rest edge dt r]) d
      else t.fwd N rest edge d
    else d

open Classical in
noncomputable def lapPart (t : LTerm K) (r : Nat) : Prim K :=
  if t.Fits sd n N rest edge dt then
    if t.ax = 0 then secondDerivative t.k ⟨N :: rest, t.s, edge, dt⟩ else bdPrim n (fun r => [t.ops sd n N rest edge dt r]) none dt r
  else ⟨N * rest.prod, N * rest.prod, dt, fun _ x => .ret x, fun _ x => .ret x⟩

end

variable {sd : Serial K SDKind} {t : LTerm K}

theorem lapPart_shape (hn : 0 < n) (t : LTerm K) (r : Nat) : (lapPart sd n N rest edge dt t r).shape = (lapFns sd n N rest edge dt).sh t := by
  unfold lapPart lapFns
  split_ifs with h h0
  · simp [Prim.shape, secondDerivative]
  · obtain ⟨a, ha⟩ : ∃ a, t.ax = a + 1 := ⟨t.ax - 1, by omega⟩
    have ho : SerialOk (t.ops sd n N rest edge dt) (sdAt t.k edge) (t.s ^ 2) a n N rest dt := (h.serial a ha).2
    have h1 := congrArg Layout.gshape (ho.inL hn true)
    have h2 := congrArg Layout.gshape (ho.inL hn false)
    simp only [Layout.lin, List.cons.injEq, and_true] at h1 h2
    simp [Prim.shape, bdPrim, outSum, h1, h2]
  · rfl

theorem lapFns_sized (hn : 0 < n) : (lapFns sd n N rest edge dt).Sized := by
  intro t b d hd
  have hd : d.length = N * rest.prod := by cases b <;> simpa [dimOf, lapFns] using hd
  have e : dimOf ((lapFns sd n N rest edge dt).sh t) (!b) = N * rest.prod := by cases b <;> rfl
  rw [e]
  unfold lapFns
  dsimp only
  split_ifs with h hb h0
  · simp [alongRows]
  · obtain ⟨a, ha⟩ : ∃ a, t.ax = a + 1 := ⟨t.ax - 1, by omega⟩
    exact SerialOk.adj_length (ax := a) (D := sdAt t.k edge) (s := t.s ^ 2) (dt := dt) (h.serial a ha).2 hn (h.serial a ha).1 (sd_conj _) (star_sq h.sr) hd
  · have hax : t.ax < (N :: rest).length := by
      cases e : t.ax with
      | zero => simp
      | succ a => simpa using (h.serial a e).1
    exact (length_alongAxis hax (by simpa using hd)).trans (by simp)
  · exact hd

theorem lapFns_adjoint (hn : 0 < n) : (lapFns sd n N rest edge dt).Adjoint := by
  intro t u v hu hv
  change u.length = N * rest.prod at hu
  change v.length = N * rest.prod at hv
  unfold lapFns
  dsimp only
  by_cases h : t.Fits sd n N rest edge dt
  · simp only [if_pos h, if_true, Bool.false_eq_true, if_false]
    by_cases h0 : t.ax = 0
    · rw [if_pos h0, LTerm.fwd_zero h0]
      exact adjoint_sdBack t.k hn h.sr hu hv
    · rw [if_neg h0]
      obtain ⟨a, ha⟩ : ∃ a, t.ax = a + 1 := ⟨t.ax - 1, by omega⟩
      have := SerialOk.adjoint (ax := a) (D := sdAt t.k edge) (s := t.s ^ 2) (dt := dt) (h.serial a ha).2 hn (h.serial a ha).1 (sd_conj _) (star_sq h.sr) hu hv
      rw [← ha] at this
      exact this
  · simp only [if_neg h]

theorem lap_safe (hn : 0 < n) (hN : 1 ≤ N) (hdt : dt = .real → dx = .real) (hX : VecIn n (N * rest.prod) X) (ht : t.Fits sd n N rest edge dt) {b : Bool}
    (hb : b = true → t.ax = 0 → ¬ sdSilent t.k n N) :
    TypedOr (lapFns sd n N rest edge dt) n J (lapPart sd n N rest edge dt) b (.leaf t) ⟨X, dx⟩ ⟨.flat n N rest, dt⟩ := by
  refine ⟨fun r _ => lapPart_shape hn t r, hX.wf hn, flat_wf hn, ?_, ?_, ?_⟩
  · cases b <;> exact hX.shape
  · cases b <;> rfl
  · by_cases h0 : t.ax = 0
    · have e : (lapFns sd n N rest edge dt).fn t b = alongRows ((if b then sdBack t.k edge n N else sdAt t.k edge N)) (t.s ^ 2) N rest.prod := by
        funext d
        unfold lapFns
        cases b
        · simp [if_pos ht, LTerm.fwd_zero h0]
        · simp [if_pos ht, h0]
      rw [e]
      have hm : Method n N rest J ⟨N :: rest, t.s, edge, dt⟩ (if b then sdRmv t.k else sdMv t.k) (if b then sdBack t.k edge n N else sdAt t.k edge N) (t.s ^ 2) dx ∨
          MethodRaises n N rest J ⟨N :: rest, t.s, edge, dt⟩ (if b then sdRmv t.k else sdMv t.k) dx := by
        cases b
        · exact total_sd t.k hn hN hdt ht.sr
        · rcases total_sdAdj (s := t.s) (edge := edge) (rest := rest) (J := J) t.k hn hN (hb rfl h0) hdt with h | h
          · left
            simp only [if_true, sdBack, if_pos h]
            exact method_sdAdj t.k hn h hdt ht.sr
          · exact .inr h
      have h := deriv_safe (J := J) hn (o := ⟨N :: rest, t.s, edge, dt⟩) rfl hm (by cases b; exacts [conj_sdAt t.k, conj_sdBack t.k]) (star_sq ht.sr) hdt hX
      intro d hd
      obtain ⟨h1, h2⟩ := h d hd
      refine ⟨h1, ?_⟩
      have ep : ∀ r, derivApply (env n J r) ⟨N :: rest, t.s, edge, dt⟩ (if b then sdRmv t.k else sdMv t.k) (VSpace.vec ⟨X, dx⟩ n d r)
          = if b then (lapPart sd n N rest edge dt t r).rmv (env n J r) (VSpace.vec ⟨X, dx⟩ n d r) else (lapPart sd n N rest edge dt t r).mv (env n J r) (VSpace.vec ⟨X, dx⟩ n d r) := by
        intro r
        simp only [lapPart, if_pos ht, if_pos h0, secondDerivative]
        cases b <;> rfl
      exact h2.imp (fun h => h.congr_prog fun r _ => ep r) (fun h => h.congr fun r _ => ep r)
    · obtain ⟨a, ha⟩ : ∃ a, t.ax = a + 1 := ⟨t.ax - 1, by omega⟩
      have ho : SerialOk (t.ops sd n N rest edge dt) (sdAt t.k edge) (t.s ^ 2) a n N rest dt := (ht.serial a ha).2
      have h := ho.safe (J := J) (dx := dx) (X := X) hn (ht.serial a ha).1 (sd_conj _) (star_sq ht.sr) hdt hX b
      intro d hd
      have e : (lapFns sd n N rest edge dt).fn t b d =
          (if b then blockDiag true (allOps n fun r => [t.ops sd n N rest edge dt r]) else alongAxis (sdAt t.k edge) (t.s ^ 2) (a + 1) (N :: rest)) d := by
        unfold lapFns
        cases b
        · simp [if_pos ht, LTerm.fwd, ha]
        · simp [if_pos ht, h0]
      rw [e]
      obtain ⟨h1, h2⟩ := h d hd
      refine ⟨h1, ?_⟩
      simp only [lapPart, if_pos ht, if_neg h0]
      exact h2

/-! ### The gradient -/

/-- what is needed of a row: a real sampling step, correct serial operators for the axes other than the first -/
structure GTerm.Fits (fd : Serial K FDKind) (n N : Nat) (rest : List Nat) (k : FDKind) (edge : Bool) (dt : DType) (t : GTerm K) : Prop where
  s0 : t.s ≠ 0
  sr : star t.s = t.s
  serial : ∀ a, t.ax = a + 1 → a < rest.length ∧ ∀ r, IsDeriv (t.ops fd n N rest k edge dt r) (fdAt k edge) t.s (a + 1) (balanced N n r :: rest) dt

open Classical in
/-- the stencil of the adjoint along the rows -/
noncomputable def fdBack (k : FDKind) (edge : Bool) (n N : Nat) : (Nat → K) → Nat → K := if fdRoomAdj k edge n N then fdAdj k edge N else flipped (fdAt k edge N) N

theorem conj_fdBack (k : FDKind) : Conj (fdBack (K := K) k edge n N) := by
  unfold fdBack
  split_ifs
  · exact conj_fdAdj k
  · exact conj_flipped (conj_fdAt k) N

theorem adjoint_fdBack (k : FDKind) (hn : 0 < n) {s : K} (hs : star s = s) {w : Nat} {u v : List K} (hu : u.length = N * w) (hv : v.length = N * w) :
    ip (alongRows (fdAt k edge N) s N w u) v = ip u (alongRows (fdBack k edge n N) s N w v) := by
  unfold fdBack
  split_ifs with h
  · exact C30_transpose k hn h hs hu hv
  · exact adjoint_flipped (lin_fdAt k edge N) (conj_fdAt k) hs hu hv

section
variable (fd : Serial K FDKind) (n N : Nat) (rest : List Nat) (k : FDKind) (edge : Bool) (dt : DType)

open Classical in
noncomputable def gradFns : Leaves K (GTerm K) where
  sh _ := (N * rest.prod, N * rest.prod)
  fn t b d :=
    if t.Fits fd n N rest k edge dt then
      if b then if t.ax = 0 then alongRows (fdBack k edge n N) t.s N rest.prod d else blockDiag true (allOps n fun r => [t.ops fd n N rest k edge dt r]) d
      else t.fwd N rest k edge d
    else d

open Classical in
noncomputable def gradPart (t : GTerm K) (r : Nat) : Prim K :=
  if t.Fits fd n N rest k edge dt then
    if t.ax = 0 then firstDerivative k ⟨N :: rest, t.s, edge, dt⟩ else bdPrim n (fun r => [t.ops fd n N rest k edge dt r]) none dt r
  else ⟨N * rest.prod, N * rest.prod, dt, fun _ x => .ret x, fun _ x => .ret x⟩

end

variable {fd : Serial K FDKind} {k : FDKind} {t : GTerm K}

theorem gradPart_shape (hn : 0 < n) (t : GTerm K) (r : Nat) : (gradPart fd n N rest k edge dt t r).shape = (gradFns fd n N rest k edge dt).sh t := by
  unfold gradPart gradFns
  split_ifs with h h0
  · simp [Prim.shape, firstDerivative]
  · obtain ⟨a, ha⟩ : ∃ a, t.ax = a + 1 := ⟨t.ax - 1, by omega⟩
    have ho : SerialOk (t.ops fd n N rest k edge dt) (fdAt k edge) t.s a n N rest dt := (h.serial a ha).2
    have h1 := congrArg Layout.gshape (ho.inL hn true)
    have h2 := congrArg Layout.gshape (ho.inL hn false)
    simp only [Layout.lin, List.cons.injEq, and_true] at h1 h2
    simp [Prim.shape, bdPrim, outSum, h1, h2]
  · rfl

theorem gradFns_sized (hn : 0 < n) : (gradFns fd n N rest k edge dt).Sized := by
  intro t b d hd
  have hd : d.length = N * rest.prod := by cases b <;> simpa [dimOf, gradFns] using hd
  have e : dimOf ((gradFns fd n N rest k edge dt).sh t) (!b) = N * rest.prod := by cases b <;> rfl
  rw [e]
  unfold gradFns
  dsimp only
  split_ifs with h hb h0
  · simp [alongRows]
  · obtain ⟨a, ha⟩ : ∃ a, t.ax = a + 1 := ⟨t.ax - 1, by omega⟩
    exact SerialOk.adj_length (ax := a) (D := fdAt k edge) (s := t.s) (dt := dt) (h.serial a ha).2 hn (h.serial a ha).1 fd_conj h.sr hd
  · have hax : t.ax < (N :: rest).length := by
      cases e : t.ax with
      | zero => simp
      | succ a => simpa using (h.serial a e).1
    exact (length_alongAxis hax (by simpa using hd)).trans (by simp)
  · exact hd

theorem gradFns_adjoint (hn : 0 < n) : (gradFns fd n N rest k edge dt).Adjoint := by
  intro t u v hu hv
  change u.length = N * rest.prod at hu
  change v.length = N * rest.prod at hv
  unfold gradFns
  dsimp only
  by_cases h : t.Fits fd n N rest k edge dt
  · simp only [if_pos h, if_true, Bool.false_eq_true, if_false]
    by_cases h0 : t.ax = 0
    · rw [if_pos h0, GTerm.fwd_zero h0]
      exact adjoint_fdBack k hn h.sr hu hv
    · rw [if_neg h0]
      obtain ⟨a, ha⟩ : ∃ a, t.ax = a + 1 := ⟨t.ax - 1, by omega⟩
      have := SerialOk.adjoint (ax := a) (D := fdAt k edge) (s := t.s) (dt := dt) (h.serial a ha).2 hn (h.serial a ha).1 fd_conj h.sr hu hv
      rw [← ha] at this
      exact this
  · simp only [if_neg h]

theorem grad_safe (hn : 0 < n) (hN : 1 ≤ N) (hdt : dt = .real → dx = .real) (hX : VecIn n (N * rest.prod) X) (ht : t.Fits fd n N rest k edge dt) {b : Bool}
    (hb : b = true → t.ax = 0 → ¬ fdSilent k edge n N) :
    TypedOr (gradFns fd n N rest k edge dt) n J (gradPart fd n N rest k edge dt) b (.leaf t) ⟨X, dx⟩ ⟨.flat n N rest, dt⟩ := by
  refine ⟨fun r _ => gradPart_shape hn t r, hX.wf hn, flat_wf hn, ?_, ?_, ?_⟩
  · cases b <;> exact hX.shape
  · cases b <;> rfl
  · by_cases h0 : t.ax = 0
    · have e : (gradFns fd n N rest k edge dt).fn t b = alongRows ((if b then fdBack k edge n N else fdAt k edge N)) t.s N rest.prod := by
        funext d
        unfold gradFns
        cases b
        · simp [if_pos ht, GTerm.fwd_zero h0]
        · simp [if_pos ht, h0]
      rw [e]
      have hm : Method n N rest J ⟨N :: rest, t.s, edge, dt⟩ (if b then fdRmv k else fdMv k) (if b then fdBack k edge n N else fdAt k edge N) t.s dx ∨
          MethodRaises n N rest J ⟨N :: rest, t.s, edge, dt⟩ (if b then fdRmv k else fdMv k) dx := by
        cases b
        · exact total_fd k hn hN hdt ht.sr
        · rcases total_fdAdj (s := t.s) (edge := edge) (rest := rest) (J := J) k hn hN (hb rfl h0) hdt with h | h
          · left
            simp only [if_true, fdBack, if_pos h]
            exact method_fdAdj k hn h hdt ht.sr
          · exact .inr h
      have h := deriv_safe (J := J) hn (o := ⟨N :: rest, t.s, edge, dt⟩) rfl hm (by cases b; exacts [conj_fdAt k, conj_fdBack k]) ht.sr hdt hX
      intro d hd
      obtain ⟨h1, h2⟩ := h d hd
      refine ⟨h1, ?_⟩
      have ep : ∀ r, derivApply (env n J r) ⟨N :: rest, t.s, edge, dt⟩ (if b then fdRmv k else fdMv k) (VSpace.vec ⟨X, dx⟩ n d r)
          = if b then (gradPart fd n N rest k edge dt t r).rmv (env n J r) (VSpace.vec ⟨X, dx⟩ n d r) else (gradPart fd n N rest k edge dt t r).mv (env n J r) (VSpace.vec ⟨X, dx⟩ n d r) := by
        intro r
        simp only [gradPart, if_pos ht, if_pos h0, firstDerivative]
        cases b <;> rfl
      exact h2.imp (fun h => h.congr_prog fun r _ => ep r) (fun h => h.congr fun r _ => ep r)
    · obtain ⟨a, ha⟩ : ∃ a, t.ax = a + 1 := ⟨t.ax - 1, by omega⟩
      have ho : SerialOk (t.ops fd n N rest k edge dt) (fdAt k edge) t.s a n N rest dt := (ht.serial a ha).2
      have h := ho.safe (J := J) (dx := dx) (X := X) hn (ht.serial a ha).1 fd_conj ht.sr hdt hX b
      intro d hd
      have e : (gradFns fd n N rest k edge dt).fn t b d =
          (if b then blockDiag true (allOps n fun r => [t.ops fd n N rest k edge dt r]) else alongAxis (fdAt k edge) t.s (a + 1) (N :: rest)) d := by
        unfold gradFns
        cases b
        · simp [if_pos ht, GTerm.fwd, ha]
        · simp [if_pos ht, h0]
      rw [e]
      obtain ⟨h1, h2⟩ := h d hd
      refine ⟨h1, ?_⟩
      simp only [gradPart, if_pos ht, if_neg h0]
      exact h2


end Verif

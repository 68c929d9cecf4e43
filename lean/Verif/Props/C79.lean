/-
  C79: the dot test with arithmetic that rounds: same verdict on all ranks and for all numbers of ranks; it passes for adjoint pairs and fails for other pairs as long as the tolerances and the
  differences exceed bounds for the rounding errors.
-/
import Verif.Proofs.FloatDottest
import Verif.Props.C30
import Verif.Props.C78

namespace Verif
open NDArray

section
variable {K ι : Type} (A : DotArith K) {n : Nat} {J : Nat → Nat → K} {prim : ι → Nat → Prim K} {sh : ι → Nat × Nat} {lf : ι → Bool → SVec K → SVec K} {e : MOp K ι} {S T S' T' : VSpace} {u v : SVec K}
  {nr nc : Option Nat}

/-- Whatever the arithmetic does, all ranks compare the same two numbers. -/
theorem C79_verdict (h : Accepts n J prim sh lf false e S T') (h' : Accepts n J prim sh lf true e T S') (hu : u.v.length = S.L.gshape.prod) (du : u.dt = S.dt)
    (hv : v.v.length = T.L.gshape.prod) (dv : v.dt = T.dt) (hnr : nr = none ∨ nr = some (e.shape sh).1) (hnc : nc = none ∨ nc = some (e.shape sh).2) (raiseerror : Bool) :
    Always n (fun r => A.dottest (env n J r) (e.map (prim · r)) (u.dpart S.L n r) (v.dpart T.L n r) nr nc raiseerror)
      (fun _ => verdict (A.isclose (A.vdot u.v (A.eval lf true e v).v) (A.vdot (A.eval lf false e u).v v.v)) raiseerror) :=
  (a_dottest A h h' hu du hv dv (by rcases hnr with rfl | rfl <;> rfl) (by rcases hnc with rfl | rfl <;> rfl) raiseerror).always

/-- So the verdict is the same for all numbers of ranks and layouts, as long as the leaves of the expression compute the same functions. -/
theorem C79_ranks {n₂ : Nat} {J₂ : Nat → Nat → K} {prim₂ : ι → Nat → Prim K} {S₂ T₂ S₂' T₂' : VSpace}
    (h : Accepts n J prim sh lf false e S T') (h' : Accepts n J prim sh lf true e T S') (h₂ : Accepts n₂ J₂ prim₂ sh lf false e S₂ T₂') (h₂' : Accepts n₂ J₂ prim₂ sh lf true e T₂ S₂')
    (hu : u.v.length = (e.shape sh).2) (hv : v.v.length = (e.shape sh).1) (du : u.dt = S.dt) (dv : v.dt = T.dt) (du₂ : u.dt = S₂.dt) (dv₂ : v.dt = T₂.dt)
    (hnr : nr = none ∨ nr = some (e.shape sh).1) (hnc : nc = none ∨ nc = some (e.shape sh).2) (raiseerror : Bool) :
    ∃ ok, Always n (fun r => A.dottest (env n J r) (e.map (prim · r)) (u.dpart S.L n r) (v.dpart T.L n r) nr nc raiseerror) (fun _ => verdict ok raiseerror) ∧
      Always n₂ (fun r => A.dottest (env n₂ J₂ r) (e.map (prim₂ · r)) (u.dpart S₂.L n₂ r) (v.dpart T₂.L n₂ r) nr nc raiseerror) (fun _ => verdict ok raiseerror) := by
  refine ⟨_, C79_verdict A h h' ?_ du ?_ dv hnr hnc raiseerror, C79_verdict A h₂ h₂' ?_ du₂ ?_ dv₂ hnr hnc raiseerror⟩
  · rw [(Accepts.facts h).gS, hu]; simp [inOf]
  · rw [(Accepts.facts h').gS, hv]; simp [inOf]
  · rw [(Accepts.facts h₂).gS, hu]; simp [inOf]
  · rw [(Accepts.facts h₂').gS, hv]; simp [inOf]

/-- wrong `nr` or `nc`: AssertionError on all ranks, without communication -/
theorem C79_reject (op : Nat → MOp K (Prim K)) (s : Nat × Nat) (hsh : ∀ r < n, (op r).shape Prim.shape = s) (x y : Nat → DArr K)
    (hn : (∃ k, nr = some k ∧ k ≠ s.1) ∨ (∃ k, nc = some k ∧ k ≠ s.2)) (raiseerror : Bool) :
    Always n (fun r => A.dottest (env n J r) (op r) (x r) (y r) nr nc raiseerror) (fun _ => .error .assertion) := by
  refine ((Runs.throw fun _ => Err.assertion).congr (fun r hr => ?_) fun _ _ => rfl).always
  unfold DotArith.dottest
  dsimp only
  rw [hsh r hr, if_pos]
  intro heq
  have h1 := congrArg Prod.fst heq
  have h2 := congrArg Prod.snd heq
  rcases hn with ⟨k, rfl, hk⟩ | ⟨k, rfl, hk⟩
  · exact hk h1
  · exact hk h2

end

/-! ### rounding -/

section
variable {K ι : Type} [RCLike K] {A : DotArith K} {υ : ℝ} {n : Nat} {J : Nat → Nat → K} {prim : ι → Nat → Prim K} {sh : ι → Nat × Nat} {lf : ι → Bool → SVec K → SVec K} {e : MOp K ι}
  {S T S' T' : VSpace} {u v : SVec K} {nr nc : Option Nat} {k k' : Nat} {w w' : List K} {m m' : Nat → ℝ}

theorem upTo_self (υ : ℝ) (x : List K) : UpTo υ 0 x (x.getD · 0) (fun j => ‖x.getD j 0‖) := fun j _ => by simp [errBound]

theorem ip_range {a b : List K} (h : a.length = b.length) : ip a b = ∑ j ∈ Finset.range a.length, star (a.getD j 0) * b.getD j 0 := by
  rw [← map_zip_range (fun x y => star x * y) h]
  unfold ip
  rw [List.zip, List.map_zipWith]

/-- If the products with the operator and its adjoint are `w` and `w'` up to errors of `k` and `k'` operations, the numbers compared are the exact inner products `⟨w, v⟩` and `⟨u, w'⟩`, up to
    errors of `k + M` and `k' + N` operations, where the operator has `M` rows and `N` columns. -/
theorem C79_products (hυ : 0 ≤ υ) (hA : VdotRounding A υ) (h : Accepts n J prim sh lf false e S T') (h' : Accepts n J prim sh lf true e T S')
    (hu : u.v.length = S.L.gshape.prod) (du : u.dt = S.dt) (hv : v.v.length = T.L.gshape.prod) (dv : v.dt = T.dt)
    (hnr : nr = none ∨ nr = some (e.shape sh).1) (hnc : nc = none ∨ nc = some (e.shape sh).2) (raiseerror : Bool)
    (hw : w.length = v.v.length) (hw' : w'.length = u.v.length)
    (hF : UpTo υ k (A.eval lf false e u).v (w.getD · 0) m) (hF' : UpTo υ k' (A.eval lf true e v).v (w'.getD · 0) m') :
    ∃ xx yy : K, Always n (fun r => A.dottest (env n J r) (e.map (prim · r)) (u.dpart S.L n r) (v.dpart T.L n r) nr nc raiseerror) (fun _ => verdict (A.isclose xx yy) raiseerror) ∧
      ‖yy - ip w v.v‖ ≤ errBound υ (k + v.v.length) * ∑ j ∈ Finset.range v.v.length, m j * ‖v.v.getD j 0‖ ∧
      ‖xx - ip u.v w'‖ ≤ errBound υ (k' + u.v.length) * ∑ i ∈ Finset.range u.v.length, ‖u.v.getD i 0‖ * m' i := by
  have f := Accepts.facts h
  have f' := Accepts.facts h'
  have ly : (A.eval lf false e u).v.length = v.v.length := by rw [(accepts_takes A.toOpArith h).length u hu du, hv, f.gT, f'.gS]; rfl
  have lx : (A.eval lf true e v).v.length = u.v.length := by rw [(accepts_takes A.toOpArith h').length v hv dv, hu, f.gS, f'.gT]; rfl
  refine ⟨_, _, C79_verdict A h h' hu du hv dv hnr hnc raiseerror, ?_, ?_⟩
  · have := (vdot_approx hυ hA (N := v.v.length) ly ly.le hF (upTo_self υ v.v)).err
    rw [ly] at this
    rw [ip_range hw, hw]
    exact this
  · have := (vdot_approx hυ hA (N := u.v.length) lx.symm le_rfl (upTo_self υ u.v) hF').err
    rw [ip_range hw'.symm]
    rwa [Nat.zero_add] at this

variable {rtol atol : ℝ}

/-- Adjoint pairs pass, if the tolerances exceed the rounding errors. -/
theorem C79_passes (hυ : 0 ≤ υ) (hA : VdotRounding A υ) (h : Accepts n J prim sh lf false e S T') (h' : Accepts n J prim sh lf true e T S')
    (hu : u.v.length = S.L.gshape.prod) (du : u.dt = S.dt) (hv : v.v.length = T.L.gshape.prod) (dv : v.dt = T.dt)
    (hnr : nr = none ∨ nr = some (e.shape sh).1) (hnc : nc = none ∨ nc = some (e.shape sh).2) (raiseerror : Bool)
    (hw : w.length = v.v.length) (hw' : w'.length = u.v.length)
    (hF : UpTo υ k (A.eval lf false e u).v (w.getD · 0) m) (hF' : UpTo υ k' (A.eval lf true e v).v (w'.getD · 0) m')
    (hadj : ip w v.v = ip u.v w') (hr : 0 ≤ rtol) (hc : ∀ a b : K, ‖a - b‖ ≤ atol + rtol * ‖b‖ → A.isclose a b = true) {E E' : ℝ}
    (hE : errBound υ (k + v.v.length) * ∑ j ∈ Finset.range v.v.length, m j * ‖v.v.getD j 0‖ ≤ E)
    (hE' : errBound υ (k' + u.v.length) * ∑ i ∈ Finset.range u.v.length, ‖u.v.getD i 0‖ * m' i ≤ E')
    (hsmall : (1 + rtol) * E + E' ≤ atol + rtol * ‖ip w v.v‖) :
    Always n (fun r => A.dottest (env n J r) (e.map (prim · r)) (u.dpart S.L n r) (v.dpart T.L n r) nr nc raiseerror) (fun _ => .ok true) := by
  obtain ⟨xx, yy, h1, h2, h3⟩ := C79_products hυ hA h h' hu du hv dv hnr hnc raiseerror hw hw' hF hF'
  have k1 : ‖xx - yy‖ ≤ E' + E := by
    have := norm_sub_le_norm_sub_add_norm_sub xx (ip w v.v) yy
    rw [norm_sub_rev (ip w v.v) yy] at this
    rw [← hadj] at h3
    linarith
  have k2 : ‖ip w v.v‖ - E ≤ ‖yy‖ := by
    have := norm_sub_norm_le (ip w v.v) yy
    rw [norm_sub_rev] at this
    linarith
  have := mul_le_mul_of_nonneg_left k2 hr
  rw [hc xx yy (by nlinarith)] at h1
  exact h1

/-- Other pairs fail, if the two inner products differ by more than the tolerances and the rounding errors. -/
theorem C79_detects (hυ : 0 ≤ υ) (hA : VdotRounding A υ) (h : Accepts n J prim sh lf false e S T') (h' : Accepts n J prim sh lf true e T S')
    (hu : u.v.length = S.L.gshape.prod) (du : u.dt = S.dt) (hv : v.v.length = T.L.gshape.prod) (dv : v.dt = T.dt)
    (hnr : nr = none ∨ nr = some (e.shape sh).1) (hnc : nc = none ∨ nc = some (e.shape sh).2) (raiseerror : Bool)
    (hw : w.length = v.v.length) (hw' : w'.length = u.v.length)
    (hF : UpTo υ k (A.eval lf false e u).v (w.getD · 0) m) (hF' : UpTo υ k' (A.eval lf true e v).v (w'.getD · 0) m')
    (hr : 0 ≤ rtol) (hc : ∀ a b : K, A.isclose a b = true → ‖a - b‖ ≤ atol + rtol * ‖b‖) {E E' : ℝ}
    (hE : errBound υ (k + v.v.length) * ∑ j ∈ Finset.range v.v.length, m j * ‖v.v.getD j 0‖ ≤ E)
    (hE' : errBound υ (k' + u.v.length) * ∑ i ∈ Finset.range u.v.length, ‖u.v.getD i 0‖ * m' i ≤ E')
    (hbig : atol + rtol * ‖ip w v.v‖ + (1 + rtol) * E + E' < ‖ip u.v w' - ip w v.v‖) :
    Always n (fun r => A.dottest (env n J r) (e.map (prim · r)) (u.dpart S.L n r) (v.dpart T.L n r) nr nc raiseerror) (fun _ => if raiseerror then .error .assertion else .ok false) := by
  obtain ⟨xx, yy, h1, h2, h3⟩ := C79_products hυ hA h h' hu du hv dv hnr hnc raiseerror hw hw' hF hF'
  have k1 : ‖ip u.v w' - ip w v.v‖ ≤ E' + ‖xx - yy‖ + E := by
    have e : ip u.v w' - ip w v.v = -(xx - ip u.v w') + (xx - yy) + (yy - ip w v.v) := by ring
    rw [e]
    refine (norm_add₃_le).trans ?_
    rw [norm_neg]
    linarith
  have k2 : ‖yy‖ ≤ ‖ip w v.v‖ + E := by
    have := norm_le_norm_add_norm_sub' yy (ip w v.v)
    linarith
  have hf : A.isclose xx yy = false := by
    by_contra hne
    have := hc xx yy (by simpa using hne)
    have := mul_le_mul_of_nonneg_left k2 hr
    nlinarith
  rw [hf] at h1
  exact h1

end

/-! ### the first derivative -/

section
variable {K : Type} [RCLike K] {A : DotArith K} {υ : ℝ} {n N : Nat} {J : Nat → Nat → K} {rest : List Nat} {s : K} {edge : Bool} {dt : DType} {u v : SVec K} {M rtol atol : ℝ}

/-- what the first derivative and its adjoint compute -/
def fdLeaf (A : OpArith K) (kd : FDKind) (N : Nat) (rest : List Nat) (s : K) (edge : Bool) (dt : DType) (_ : Unit) (b : Bool) (x : SVec K) : SVec K :=
  A.along dt N rest (fun v p => if b then A.fdEntryAdj dt edge N s v p kd else A.fdEntry dt edge N s v p kd) (A.received (.flat 1 N rest) x)

theorem fdLeaf_accepts (A : OpArith K) (kd : FDKind) (b : Bool) {dx : DType} (hn : 0 < n) (hroom : if b then fdRoomAdj kd edge n N else fdRoom kd edge n N) (hdt : b = true → dt = .real → dx = .real) :
    Accepts n J (fun _ _ => A.fdPrim kd ⟨N :: rest, s, edge, dt⟩) (fun _ => (N * rest.prod, N * rest.prod)) (fdLeaf A kd N rest s edge dt) b (.leaf ()) ⟨.flat n N rest, dx⟩ ⟨.flat n N rest, dt⟩ := by
  refine ⟨fun _ _ => by simp [OpArith.fdPrim, Prim.shape], ⟨flat_wf hn, rfl⟩, ⟨flat_wf hn, rfl⟩, by cases b <;> rfl, by cases b <;> rfl, ?_⟩
  have h := C73_leaf_first A (J := J) (b := b) (s := s) (dt := dt) (dx := dx) kd hn hroom hdt (rowable_flat (rest := rest) hn)
  exact h

theorem size_along {D : (Nat → K) → Nat → K} {x : List K} {B : ℝ} (hD : ∀ v : Nat → K, (∀ i, ‖v i‖ ≤ M) → ∀ p < N, ‖D v p / s‖ ≤ B) (hM : ∀ a ∈ x, ‖a‖ ≤ M) (hM0 : 0 ≤ M) {w i : Nat} (hi : i < N * w) :
    ‖(alongRows D s N w x).getD i 0‖ ≤ B := by
  have hw : 0 < w := Nat.pos_of_ne_zero fun h => by rw [h] at hi; simp at hi
  have hp : i / w < N := Nat.div_lt_of_lt_mul (by rwa [Nat.mul_comm] at hi)
  have e1 : (alongRows D s N w x).getD i 0 = D (fun q => x.getD (q * w + i % w) 0) (i / w) / s := by
    simp [alongRows, tab, entry, List.getD_eq_getElem?_getD, hi]
  rw [e1]
  refine hD _ (fun q => ?_) _ hp
  by_cases hq : q * w + i % w < x.length
  · rw [List.getD_eq_getElem?_getD, List.getElem?_eq_getElem hq]
    exact hM _ (List.getElem_mem hq)
  · rw [List.getD_eq_getElem?_getD, List.getElem?_eq_none (by omega)]
    simpa using hM0

theorem norm_getD_le {x : List K} (hM : ∀ a ∈ x, ‖a‖ ≤ M) (hM0 : 0 ≤ M) (i : Nat) : ‖x.getD i 0‖ ≤ M := by
  by_cases hq : i < x.length
  · rw [List.getD_eq_getElem?_getD, List.getElem?_eq_getElem hq]
    exact hM _ (List.getElem_mem hq)
  · rw [List.getD_eq_getElem?_getD, List.getElem?_eq_none (by omega)]
    simpa using hM0

theorem fdLeaf_upTo {A : OpArith K} (hA : ArrRounding A.toArrArith υ) (hd : Stores A.toArith υ dt) (kd : FDKind) (hs0 : s ≠ 0) (hN : edge = true → 2 ≤ N) (su : u.Stored A.toArith)
    (hM : ∀ a ∈ u.v, ‖a‖ ≤ M) (hM0 : 0 ≤ M) :
    UpTo υ 10 (fdLeaf A kd N rest s edge dt () false u).v (fun j => (alongRows (fdAt kd edge N) s N rest.prod u.v).getD j 0) (fun _ => 2 * M / ‖s‖) := by
  intro j hj
  have hj : j < N * rest.prod := by simpa [fdLeaf, ArrArith.along, tab] using hj
  have e : fdLeaf A kd N rest s edge dt () false u = A.along dt N rest (fun v p => A.fdEntry dt edge N s v p kd) (A.received (.flat 1 N rest) u) := by simp [fdLeaf]
  rw [e]
  exact ⟨along_approx hA hd (fun _ hv _ hp => fdEntry_approx hA hd kd hs0 hv hp hN) su hM hM0 hj, size_along (fun v hv p hp => (fdEntry_approx hA hd kd hs0 hv hp hN).mag) hM hM0 hj⟩

theorem fdLeaf_upTo_adj {A : OpArith K} (hA : ArrRounding A.toArrArith υ) (hd : Stores A.toArith υ dt) (kd : FDKind) (hs0 : s ≠ 0) (su : u.Stored A.toArith)
    (hM : ∀ a ∈ u.v, ‖a‖ ≤ M) (hM0 : 0 ≤ M) :
    UpTo υ 25 (fdLeaf A kd N rest s edge dt () true u).v (fun j => (alongRows (fdAdj kd edge N) s N rest.prod u.v).getD j 0) (fun _ => 8 * M / ‖s‖) := by
  intro j hj
  have hj : j < N * rest.prod := by simpa [fdLeaf, ArrArith.along, tab] using hj
  have e : fdLeaf A kd N rest s edge dt () true u = A.along dt N rest (fun v p => A.fdEntryAdj dt edge N s v p kd) (A.received (.flat 1 N rest) u) := by simp [fdLeaf]
  rw [e]
  exact ⟨along_approx hA hd (fun _ hv _ _ => fdEntryAdj_approx hA hd kd hs0 hv) su hM hM0 hj, size_along (fun v hv p _ => (fdEntryAdj_approx hA hd kd hs0 hv).mag) hM hM0 hj⟩

/-- **The dot test of `MPIFirstDerivative` passes** on every number of ranks, if the tolerances exceed this bound for the rounding errors; `M` bounds the entries of the `m` numbers in each vector. -/
theorem C79_first (hA : OpRounding A.toOpArith υ) (hV : VdotRounding A υ) (hd : Stores A.toArith υ dt) (kd : FDKind) (hn : 0 < n) (hroom : fdRoom kd edge n N) (hroom' : fdRoomAdj kd edge n N)
    (hN : edge = true → 2 ≤ N) (hs0 : s ≠ 0) (hs : star s = s) {m : Nat} (hm : N * rest.prod = m) (hu : u.v.length = m) (hv : v.v.length = m) (dv : dt = .real → v.dt = .real)
    (su : u.Stored A.toArith) (sv : v.Stored A.toArith) (hM0 : 0 ≤ M) (hMu : ∀ a ∈ u.v, ‖a‖ ≤ M) (hMv : ∀ a ∈ v.v, ‖a‖ ≤ M)
    (hr : 0 ≤ rtol) (hc : ∀ a b : K, ‖a - b‖ ≤ atol + rtol * ‖b‖ → A.isclose a b = true)
    (hsmall : (1 + rtol) * (((1 + υ) ^ (10 + m) - 1) * (m * (2 * M / ‖s‖ * M))) + ((1 + υ) ^ (25 + m) - 1) * (m * (M * (8 * M / ‖s‖))) ≤
      atol + rtol * ‖ip (alongRows (fdAt kd edge N) s N rest.prod u.v) v.v‖) (raiseerror : Bool) :
    Always n (fun r => A.dottest (env n J r) (.leaf (A.fdPrim kd ⟨N :: rest, s, edge, dt⟩)) (u.dpart (.flat n N rest) n r) (v.dpart (.flat n N rest) n r) none none raiseerror) (fun _ => .ok true) := by
  subst hm
  have g : (Layout.flat n N rest).gshape.prod = N * rest.prod := by simp [Layout.lin]
  have sums : ∀ {B : ℝ} (f : Nat → ℝ), (∀ j, f j ≤ B) → ∑ j ∈ Finset.range (N * rest.prod), f j ≤ (N * rest.prod : Nat) * B := fun {B} f hf => by
    have := Finset.sum_le_card_nsmul (Finset.range (N * rest.prod)) f B fun j _ => hf j
    simpa using this
  have hMs : 0 ≤ 2 * M / ‖s‖ := by positivity
  have hMs8 : 0 ≤ 8 * M / ‖s‖ := by positivity
  refine C79_passes (u := u) (v := v) (w := alongRows (fdAt kd edge N) s N rest.prod u.v) (w' := alongRows (fdAdj kd edge N) s N rest.prod v.v) (m := fun _ => 2 * M / ‖s‖) (m' := fun _ => 8 * M / ‖s‖)
    (k := 10) (k' := 25) (e := .leaf ()) (prim := fun _ _ => A.fdPrim kd ⟨N :: rest, s, edge, dt⟩) (S := ⟨.flat n N rest, u.dt⟩) (T := ⟨.flat n N rest, v.dt⟩) (nr := none) (nc := none)
    hA.nonneg hV (fdLeaf_accepts A.toOpArith kd false hn hroom (by simp)) (fdLeaf_accepts A.toOpArith kd true hn hroom' (fun _ => dv)) (by rw [g, hu]) rfl (by rw [g, hv]) rfl
    (.inl rfl) (.inl rfl) raiseerror (by simp [alongRows, tab, hv]) (by simp [alongRows, tab, hu]) (fun j hj => ?_) (fun j hj => ?_) (C30_transpose kd hn hroom' hs hu hv) hr hc ?_ ?_ hsmall
  · exact fdLeaf_upTo hA.toArrRounding hd kd hs0 hN su hMu hM0 j hj
  · exact fdLeaf_upTo_adj hA.toArrRounding hd kd hs0 sv hMv hM0 j hj
  · rw [hv]
    exact mul_le_mul_of_nonneg_left (sums _ fun j => mul_le_mul_of_nonneg_left (norm_getD_le hMv hM0 j) hMs) (errBound_nonneg hA.nonneg _)
  · rw [hu]
    exact mul_le_mul_of_nonneg_left (sums _ fun j => mul_le_mul_of_nonneg_right (norm_getD_le hMu hM0 j) hMs8) (errBound_nonneg hA.nonneg _)

end

/-! ### exact arithmetic -/

section
variable {K : Type} [RCLike K]

/-- exact arithmetic -/
noncomputable def DotArith.exact (close : K → K → Bool) : DotArith K where
  toOpArith := OpArith.exact
  vdot a b := (List.zipWith (fun x y => star x * y) a b).sum
  isclose := close

/-- with exact arithmetic this is the dot test of C48 -/
theorem C79_exact (close : K → K → Bool) (c : Ctx K) (op : MOp K (Prim K)) (u v : DArr K) (nr nc : Option Nat) (raiseerror : Bool) :
    (DotArith.exact close).dottest c op u v nr nc raiseerror = dottest c op u v nr nc close raiseerror := by
  have e : (DotArith.exact close).run c = MOp.run c := by
    funext b op x
    exact C73_exact_run c op b x
  unfold DotArith.dottest dottest DotArith.dotPair dotPair
  rw [e]
  rfl

end

/-! ### binary floating-point numbers -/

/-- `numpy.isclose` computes `|a - b| <= atol + rtol * |b|` -/
noncomputable def binaryDot (p : Nat) (rtol atol : ℝ) : DotArith ℝ where
  toOpArith := (binary p).toOpArith
  vdot a b := rdSum p ((a.zip b).map fun x => rd p (x.1 * x.2))
  isclose a b := decide (|rd p (a - b)| ≤ rd p (atol + rd p (rtol * |b|)))

theorem binaryDot_vdot (p : Nat) (rtol atol : ℝ) : VdotRounding (binaryDot p rtol atol) ((1 / 2) ^ (p + 1)) :=
  fun a b _ => ⟨_, by rw [List.forall₂_map_left_iff]; exact List.forall₂_same.2 fun x _ => rd_rounded p _, rdSum_rounded p _⟩

theorem rd_between {p : Nat} (hp : 3 ≤ p) (x : ℝ) : |rd p x - x| ≤ 1 / 16 * |x| := by
  have h := rd_rounded p x
  have h2 : ((1 : ℝ) / 2) ^ (p + 1) ≤ 1 / 16 := by
    have := pow_le_pow_of_le_one (a := (1 : ℝ) / 2) (by norm_num) (by norm_num) (show 4 ≤ p + 1 by omega)
    norm_num at this ⊢
    exact this
  exact le_trans h (mul_le_mul_of_nonneg_right h2 (abs_nonneg x))

/-- it accepts numbers that are within half the tolerances, and nothing outside of twice the tolerances -/
theorem binaryDot_close {p : Nat} (hp : 3 ≤ p) {rtol atol : ℝ} (hr : 0 ≤ rtol) (ha : 0 ≤ atol) (a b : ℝ) :
    (‖a - b‖ ≤ atol / 2 + rtol / 2 * ‖b‖ → (binaryDot p rtol atol).isclose a b = true) ∧ ((binaryDot p rtol atol).isclose a b = true → ‖a - b‖ ≤ 2 * atol + 2 * rtol * ‖b‖) := by
  have hb : 0 ≤ rtol * |b| := by positivity
  have h1 := rd_between hp (a - b)
  have h2 := rd_between hp (rtol * |b|)
  have h3 := rd_between hp (atol + rd p (rtol * |b|))
  have h4 := abs_sub_abs_le_abs_sub (rd p (a - b)) (a - b)
  have h5 := abs_sub_abs_le_abs_sub (a - b) (rd p (a - b))
  rw [abs_sub_comm (a - b) (rd p (a - b))] at h5
  rw [abs_of_nonneg hb] at h2
  rw [abs_le] at h2 h3
  have h6 : 0 ≤ rd p (rtol * |b|) := by linarith [h2.1]
  rw [abs_of_nonneg (by linarith : 0 ≤ atol + rd p (rtol * |b|))] at h3
  simp only [binaryDot, decide_eq_true_eq, Real.norm_eq_abs]
  constructor
  · intro h
    nlinarith [abs_nonneg (a - b), h2.1, h3.1]
  · intro h
    nlinarith [abs_nonneg (a - b), h2.2, h3.2]

theorem rd_nat {p : Nat} (hp : 6 ≤ p) {k : Nat} (hk : k < 64) : rd p (k : ℝ) = k := by
  refine rd_of_int (k := k) (m := 0) (by simp) ?_
  rw [Nat.abs_cast, Int.log_natCast]
  have : Nat.log 2 k < 6 := by
    rcases Nat.eq_zero_or_pos k with rfl | h
    · simp
    · exact Nat.log_lt_of_lt_pow (by omega) hk
  omega

/-- Differences of 5 numbers on two ranks and on one rank, with `float64` and the default tolerance `rtol=1e-6`: the dot test passes. -/
example (n : Nat) (hn : n = 1 ∨ n = 2) (J : Nat → Nat → ℝ) :
    Always n (fun r => (binaryDot 52 (1 / 10 ^ 6) 0).dottest (env n J r) (.leaf ((binary 52).fdPrim .forward ⟨[5], 1, false, .real⟩)) ((⟨.real, [0, 1, 10, 31, 36]⟩ : SVec ℝ).dpart (.flat n 5 []) n r)
      ((⟨.real, [1, 1, 1, 1, 1]⟩ : SVec ℝ).dpart (.flat n 5 []) n r) none none true) (fun _ => .ok true) := by
  have stored : ∀ {l : List Nat}, (∀ k ∈ l, k < 64) → (⟨.real, l.map fun k : Nat => (k : ℝ)⟩ : SVec ℝ).Stored (binary 52).toArith := by
    intro l hl a ha
    obtain ⟨k, hk, rfl⟩ := List.mem_map.1 ha
    show rd 52 (k : ℝ) = k
    exact rd_nat (by norm_num) (hl k hk)
  have e1 : ([0, 1, 10, 31, 36] : List ℝ) = [0, 1, 10, 31, 36].map fun k : Nat => (k : ℝ) := by norm_num
  have e2 : ([1, 1, 1, 1, 1] : List ℝ) = [1, 1, 1, 1, 1].map fun k : Nat => (k : ℝ) := by norm_num
  refine C79_first (A := binaryDot 52 (1 / 10 ^ 6) 0) (n := n) (M := 36) (rtol := 1 / 10 ^ 6 / 2) (atol := 0 / 2) (m := 5) (υ := (1 / 2) ^ 53) (J := J) (rest := []) (binary_rounding 52).toOpRounding
    (binaryDot_vdot 52 _ _) (binary_stores 52 .real) .forward (by omega) ?_ ?_ (by simp) one_ne_zero (by simp) rfl rfl rfl (fun _ => rfl) ?_ ?_ (by norm_num) ?_ ?_ (by norm_num)
    (fun a b => (binaryDot_close (by norm_num) (by norm_num) le_rfl a b).1) ?_ true
  · rcases hn with rfl | rfl <;> (show _ ≤ 5; decide)
  · rcases hn with rfl | rfl <;> (show _ ≤ 5; decide)
  · rw [e1]; exact stored (by decide)
  · rw [e2]; exact stored (by decide)
  · intro a ha
    simp only [List.mem_cons, List.not_mem_nil, or_false] at ha
    rcases ha with rfl | rfl | rfl | rfl | rfl <;> norm_num
  · intro a ha
    simp only [List.mem_cons, List.not_mem_nil, or_false, or_self] at ha
    subst ha
    norm_num
  · have e : ip (alongRows (fdAt .forward false 5) (1 : ℝ) 5 ([] : List Nat).prod [0, 1, 10, 31, 36]) [1, 1, 1, 1, 1] = 36 := by
      simp [ip, alongRows, tab, List.range_succ, entry, fdAt]
    rw [e]
    norm_num

/-- an operator whose `rmatvec` is not the adjoint of its `matvec` -/
noncomputable def badOp : FOp ℝ := ⟨1, 1, .real, fun _ v => v.map fun a => rd 52 (3 * a), fun _ v => v.map fun a => rd 52 (2 * a)⟩

/-- two of them on two ranks: AssertionError on both -/
example (J : Nat → Nat → ℝ) :
    Always 2 (fun r => do
      let op ← (binary 52).mkBlockDiag (env 2 J r) [badOp] none none
      (binaryDot 52 (1 / 10 ^ 6) 0).dottest (env 2 J r) (.leaf op) ((⟨.real, [1, 1]⟩ : SVec ℝ).dpart (opIn false 2 fun _ => [badOp]) 2 r) ((⟨.real, [1, 1]⟩ : SVec ℝ).dpart (opIn true 2 fun _ => [badOp]) 2 r)
        none none true) (fun _ => .error .assertion) := by
  obtain ⟨op, e1, e2, e3⟩ := C73_blockDiag (binary 52).toOpArith (J := J) (n := 2) (ops := fun _ => [badOp]) (dtype := none) (dt := .real) (fun _ _ => by simp) (fun _ _ => rfl)
  refine (Runs.bind_ok e1.runs ?_).always
  have sized : ∀ b, ∀ o ∈ allFOps 2 (fun _ => [badOp]), o.Sized b := by
    intro b o ho
    obtain rfl : o = badOp := by simp [allFOps] at ho; exact ho.2
    intro t v hv
    cases b <;> simpa [badOp, FOp.on, LOp.fn, FOp.inDim] using hv
  have acc : ∀ b, Accepts 2 J (fun (_ : Unit) r => op r) (fun _ => (2, 2)) (fun _ b => (binary 52).bdiag .real b (allFOps 2 fun _ => [badOp])) b (.leaf ())
      ⟨opIn b 2 fun _ => [badOp], .real⟩ ⟨opIn (!b) 2 fun _ => [badOp], .real⟩ := by
    intro b
    have hf := fun b => opIn_feeds (ops := fun _ : Nat => [badOp]) (n := 2) (b := b)
    refine ⟨fun r _ => (e2 r).1, ⟨(hf b).wf, rfl⟩, ⟨(hf (!b)).wf, rfl⟩, by cases b <;> rfl, by cases b <;> rfl, e3 b _ _ (sized b) (hf b)⟩
  have r1 : rd 52 (1 : ℝ) = 1 := by simpa using rd_nat (p := 52) (by norm_num) (k := 1) (by norm_num)
  have r2 : rd 52 (2 : ℝ) = 2 := by simpa using rd_nat (p := 52) (by norm_num) (k := 2) (by norm_num)
  have r3 : rd 52 (3 : ℝ) = 3 := by simpa using rd_nat (p := 52) (by norm_num) (k := 3) (by norm_num)
  have f1 : ((binary 52).bdiag .real false (allFOps 2 fun _ => [badOp]) ⟨.real, [1, 1]⟩).v = [3, 3] := by
    simp [OpArith.bdiag, allFOps, List.range_succ, blockDiag, slices, badOp, FOp.on, LOp.fn, LOp.inDim, SVec.copy, SVec.map, binary, r1, r3]
  have f2 : ((binary 52).bdiag .real true (allFOps 2 fun _ => [badOp]) ⟨.real, [1, 1]⟩).v = [2, 2] := by
    simp [OpArith.bdiag, allFOps, List.range_succ, blockDiag, slices, badOp, FOp.on, LOp.fn, LOp.inDim, SVec.copy, SVec.map, binary, r1, r2]
  have h := C79_detects (A := binaryDot 52 (1 / 10 ^ 6) 0) (υ := (1 / 2) ^ 53) (u := ⟨.real, [1, 1]⟩) (v := ⟨.real, [1, 1]⟩) (w := [3, 3]) (w' := [2, 2]) (k := 0) (k' := 0) (nr := none) (nc := none)
    (m := fun j => ‖([3, 3] : List ℝ).getD j 0‖) (m' := fun j => ‖([2, 2] : List ℝ).getD j 0‖) (rtol := 2 * (1 / 10 ^ 6)) (atol := 2 * 0) (E := 1 / 10) (E' := 1 / 10)
    (by positivity) (binaryDot_vdot 52 _ _) (acc false) (acc true) rfl rfl rfl rfl (.inl rfl) (.inl rfl) true rfl rfl
    (by show UpTo _ _ ((binary 52).bdiag .real false _ _).v _ _; rw [f1]; exact upTo_self _ _) (by show UpTo _ _ ((binary 52).bdiag .real true _ _).v _ _; rw [f2]; exact upTo_self _ _)
    (by norm_num) (fun a b => (binaryDot_close (by norm_num) (by norm_num) le_rfl a b).2)
    (by simp [errBound, Finset.sum_range_succ]; norm_num) (by simp [errBound, Finset.sum_range_succ]; norm_num) (by simp [ip]; norm_num)
  exact h.runs

end Verif

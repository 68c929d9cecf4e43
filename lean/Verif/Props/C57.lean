/- C57: expressions of linear operators are linear. -/
import Verif.Props.C28
import Verif.Proofs.MDC

set_option linter.unusedSectionVars false

namespace Verif
open NDArray

variable {K ι : Type} [Field K] [StarRing K] [CharZero K] {lv : Leaves K ι} {n : Nat} {J : Nat → Nat → K} {prim : ι → Nat → Prim K}

/-- `f` is linear on vectors with `N` entries -/
def LinearOn (N : Nat) (f : List K → List K) : Prop :=
  ∀ (s t : K) (x y : List K), x.length = N → y.length = N → f (vadd (vscale s x) (vscale t y)) = vadd (vscale s (f x)) (vscale t (f y))

/-- the leaves are linear in both directions -/
def Leaves.Linear (lv : Leaves K ι) : Prop := ∀ i b, LinearOn (dimOf (lv.sh i) b) (lv.fn i b)

theorem length_vscale (s : K) (x : List K) : (vscale s x).length = x.length := by simp [vscale]
theorem vconj_comb (s t : K) (x y : List K) : vconj (vadd (vscale s x) (vscale t y)) = vadd (vscale (star s) (vconj x)) (vscale (star t) (vconj y)) := by
  simp only [vconj, vadd, vscale, List.zipWith_map, List.map_zipWith, star_add, star_mul']

theorem LinearOn.conj {N : Nat} {f : List K → List K} (hf : LinearOn N f) : LinearOn N fun x => vconj (f (vconj x)) := by
  intro s t x y hx hy
  dsimp only
  rw [vconj_comb, hf _ _ _ _ (by simpa [vconj] using hx) (by simpa [vconj] using hy), vconj_comb, star_star, star_star]

theorem LinearOn.comp {N M : Nat} {f g : List K → List K} (hf : LinearOn M f) (hg : LinearOn N g) (hl : ∀ x, x.length = N → (g x).length = M) :
    LinearOn N fun x => f (g x) := by
  intro s t x y hx hy
  dsimp only
  rw [hg s t x y hx hy, hf s t _ _ (hl x hx) (hl y hy)]

theorem LinearOn.scale {N : Nat} {f : List K → List K} (hf : LinearOn N f) (a : K) : LinearOn N fun x => vscale a (f x) := by
  intro s t x y hx hy
  dsimp only
  rw [hf s t x y hx hy]
  simp only [vadd, vscale, List.zipWith_map, List.map_zipWith]
  congr 1
  funext u v
  ring

theorem LinearOn.add {N M : Nat} {f g : List K → List K} (hf : LinearOn N f) (hg : LinearOn N g) (lf : ∀ x, x.length = N → (f x).length = M)
    (lg : ∀ x, x.length = N → (g x).length = M) : LinearOn N fun x => vadd (f x) (g x) := by
  intro s t x y hx hy
  dsimp only
  rw [hf s t x y hx hy, hg s t x y hx hy]
  simp only [vadd, vscale]
  refine List.ext_getElem (by simp [lf x hx, lf y hy, lg x hx, lg y hy]) fun i h1 h2 => ?_
  simp only [List.getElem_zipWith, List.getElem_map]
  ring

theorem LinearOn.iterate {N : Nat} {f : List K → List K} (hf : LinearOn N f) (hl : ∀ x, x.length = N → (f x).length = N) (p : Nat) : LinearOn N f^[p] := by
  induction p with
  | zero => intro s t x y _ _; rfl
  | succ p ih =>
    have : f^[p + 1] = fun x => f^[p] (f x) := by funext x; exact Function.iterate_succ_apply f p x
    rw [this]
    exact ih.comp hf hl

/-- **C57** (on vectors).  If the leaves are linear (in both directions) and respect the sizes, so is every expression accepted by the shape checks, of any depth. -/
theorem C57_den (hs : lv.Sized) (hl : lv.Linear) {e : MOp K ι} (he : Shaped lv.sh e) (b : Bool) : LinearOn (dimOf (e.shape lv.sh) b) (den lv b e) := by
  induction e generalizing b with
  | leaf i => exact hl i b
  | adj A ih =>
    have := ih he (!b)
    have e1 : dimOf ((MOp.adj A).shape lv.sh) b = dimOf (A.shape lv.sh) (!b) := by cases b <;> rfl
    rw [e1]
    exact this
  | trans A ih =>
    have := ih he (!b)
    have e1 : dimOf ((MOp.trans A).shape lv.sh) b = dimOf (A.shape lv.sh) (!b) := by cases b <;> rfl
    rw [e1]
    exact this.conj
  | prod A B ihA ihB =>
    obtain ⟨hA, hB, hAB⟩ := he
    cases b with
    | false => exact (ihA hA false).comp (ihB hB false) fun x hx => by rw [length_den hs hB (b := false) hx]; exact hAB.symm
    | true => exact (ihB hB true).comp (ihA hA true) fun x hx => by rw [length_den hs hA (b := true) hx]; exact hAB
  | scaled A s ih => exact (ih he b).scale _
  | sum A B ihA ihB =>
    obtain ⟨hA, hB, hAB⟩ := he
    have hb := ihB hB b
    rw [← hAB] at hb
    exact (ihA hA b).add hb (fun x hx => length_den hs hA hx) fun x hx => by rw [length_den hs hB (b := b) (by rw [← hAB]; exact hx), hAB]
  | pow A p ih =>
    obtain ⟨hA, hAA⟩ := he
    have e1 : ∀ b, dimOf (A.shape lv.sh) b = (A.shape lv.sh).1 := by intro b; cases b <;> simp [dimOf, hAA]
    refine (ih hA b).iterate (fun x hx => ?_) p
    rw [length_den hs hA hx, e1, e1]
  | conj A ih => exact (ih he b).conj

/-- **C57**.  If the leaves are linear, then for every accepted expression that maps vectors of the space `S` to vectors of the space `T`, matvec and rmatvec of
    s·x + t·y leave on all ranks, in all executions, their parts of s·(A x) + t·(A y), where A x and A y are what they leave for x and y. -/
theorem C57 (hs : lv.Sized) (hl : lv.Linear) {e : MOp K ι} (he : Shaped lv.sh e) {b : Bool} {S T : VSpace} (h : Typed lv n J prim b e S T)
    {x y : List K} (hx : S.Mem x) (hy : S.Mem y) {s t : K} (hxy : S.Mem (vadd (vscale s x) (vscale t y))) :
    ∃ u v, Always n (fun r => MOp.run (env n J r) b (e.map (prim · r)) (S.vec n x r)) (fun r => .ok (T.vec n u r)) ∧
      Always n (fun r => MOp.run (env n J r) b (e.map (prim · r)) (S.vec n y r)) (fun r => .ok (T.vec n v r)) ∧
      Always n (fun r => MOp.run (env n J r) b (e.map (prim · r)) (S.vec n (vadd (vscale s x) (vscale t y)) r)) (fun r => .ok (T.vec n (vadd (vscale s u) (vscale t v)) r)) := by
  have hg : S.L.gshape = [dimOf (e.shape lv.sh) b] := (Typed.facts h).2.2.1
  have hd : ∀ {d : List K}, S.Mem d → d.length = dimOf (e.shape lv.sh) b := fun hd => by rw [hd.1, hg]; simp
  refine ⟨den lv b e x, den lv b e y, (typed_computes h x hx).2, (typed_computes h y hy).2, ?_⟩
  rw [← C57_den hs hl he b s t x y (hd hx) (hd hy)]
  exact (typed_computes h _ hxy).2

/-! ### operators with an adjoint are linear -/

/-- the `i`-th unit vector -/
def unitVec (N i : Nat) : List K := (List.range N).map fun j => if j = i then 1 else 0

theorem ip_unit {u : List K} {i : Nat} (hi : i < u.length) : ip u (unitVec u.length i) = star u[i] := by
  rw [ip_eq_sum rfl (by simp [unitVec])]
  rw [Finset.sum_eq_single i]
  · simp [unitVec, hi]
  · intro j hj hji
    simp [unitVec, Finset.mem_range.1 hj, hji]
  · intro h; exact absurd (Finset.mem_range.2 hi) h

theorem ip_comb {N : Nat} {x y z : List K} (s t : K) (hx : x.length = N) (hy : y.length = N) (hz : z.length = N) :
    ip (vadd (vscale s x) (vscale t y)) z = star s * ip x z + star t * ip y z := by
  have hw : (vadd (vscale s x) (vscale t y)).length = N := by simp [vadd, vscale, hx, hy]
  rw [ip_eq_sum hw hz, ip_eq_sum hx hz, ip_eq_sum hy hz, Finset.mul_sum, Finset.mul_sum, ← Finset.sum_add_distrib]
  refine Finset.sum_congr rfl fun i hi => ?_
  have hi := Finset.mem_range.1 hi
  simp [vadd, vscale, List.getD_eq_getElem?_getD, hx, hy, hi]
  ring

/-- a function with an adjoint is linear -/
theorem linear_of_adjoint {N M : Nat} {f g : List K → List K} (hf : ∀ x, x.length = N → (f x).length = M) (hg : ∀ x, x.length = M → (g x).length = N)
    (h : ∀ u v, u.length = N → v.length = M → ip (f u) v = ip u (g v)) : LinearOn N f := by
  intro s t x y hx hy
  have hw : (vadd (vscale s x) (vscale t y)).length = N := by simp [vadd, vscale, hx, hy]
  refine List.ext_getElem (by rw [hf _ hw]; simp [vadd, vscale, hf x hx, hf y hy]) fun i h1 h2 => ?_
  have hi : i < M := by rw [hf _ hw] at h1; exact h1
  have hu : (unitVec M i : List K).length = M := by simp [unitVec]
  have key : ∀ {z : List K} (hz : z.length = N) (h' : i < (f z).length), star (f z)[i] = ip z (g (unitVec M i)) := by
    intro z hz h'
    rw [← h z _ hz hu, ← ip_unit h', hf z hz]
  have e1 := key hw h1
  rw [ip_comb s t hx hy (hg _ hu), ← key hx (by rw [hf x hx]; exact hi), ← key hy (by rw [hf y hy]; exact hi)] at e1
  have e2 := congrArg star e1
  simp only [star_star, star_add, star_mul'] at e2
  rw [e2]
  simp only [vadd, vscale, List.getElem_zipWith, List.getElem_map]
  ring

/-- leaves whose two directions are adjoint to each other are linear in both directions; so C57 applies to all expressions of C28 -/
theorem C57_adjoint (hs : lv.Sized) (ha : lv.Adjoint) : lv.Linear := by
  intro i b
  cases b with
  | false => exact linear_of_adjoint (hs i false) (hs i true) (ha i)
  | true => exact linear_of_adjoint (hs i true) (hs i false) fun u v hu hv => ip_swap (ha i v u hv hu)

/-- Non-vacuity: `3 * (A + A.H) * A ** 2` with A = diag(2, 5) on two ranks; 2 (1, 1) + 3 (1, 0). -/
example (J : Nat → Nat → ℚ) : ∃ u v : List ℚ,
    Always 2 (fun r => MOp.run (env 2 J r) false (dgExpr.map fun _ => bdPrim 2 dgOps none .real r) (VSpace.vec ⟨inL false 2 dgOps, .real⟩ 2 [1, 1] r))
      (fun r => .ok (VSpace.vec ⟨inL false 2 dgOps, .real⟩ 2 u r)) ∧
    Always 2 (fun r => MOp.run (env 2 J r) false (dgExpr.map fun _ => bdPrim 2 dgOps none .real r) (VSpace.vec ⟨inL false 2 dgOps, .real⟩ 2 [1, 0] r))
      (fun r => .ok (VSpace.vec ⟨inL false 2 dgOps, .real⟩ 2 v r)) ∧
    Always 2 (fun r => MOp.run (env 2 J r) false (dgExpr.map fun _ => bdPrim 2 dgOps none .real r) (VSpace.vec ⟨inL false 2 dgOps, .real⟩ 2 [5, 2] r))
      (fun r => .ok (VSpace.vec ⟨inL false 2 dgOps, .real⟩ 2 (vadd (vscale 2 u) (vscale 3 v)) r)) := by
  have hok : ∀ o ∈ allOps 2 dgOps, ∃ c, o = LOp.row c := fun o ho => dgOps_row ho
  have e : vadd (vscale 2 [1, 1]) (vscale 3 [1, 0]) = ([5, 2] : List ℚ) := by decide +kernel
  have h := C57 (dg_sized) (C57_adjoint dg_sized dg_adjoint) (e := dgExpr) dg_shaped (dg_typed J) (x := [1, 1]) (y := [1, 0]) (s := 2) (t := 3)
    ⟨rfl, fits_rat _ _⟩ ⟨rfl, fits_rat _ _⟩ (by rw [e]; exact ⟨rfl, fits_rat _ _⟩)
  rw [e] at h
  exact h

end Verif

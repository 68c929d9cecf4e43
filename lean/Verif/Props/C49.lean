/- C49: mixed-dtype arithmetic. -/
import Verif.Props.C20
import Mathlib.Data.Complex.Basic
import Mathlib.Analysis.Complex.Basic

namespace Verif
open NDArray

set_option linter.unusedSectionVars false

variable {K : Type} [Field K] [StarRing K] [CharZero K] {n : Nat} {J : Nat → Nat → K}

/-- `x` has dtype `dt`, `y` has dtype `dt'`; the operation is computed in the promoted dtype but stored with
    the dtype of `x` (for BROADCAST arrays: rank 0's values). -/
theorem mixed_add (L : Layout) (dt dt' : DType) (a b : Nat → List K) (hL : L.WF n) (ha : L.Good n dt a)
    (hb : L.Good n dt' b) :
    Always n (fun r => (L.fam n dt a r).add (env n J r) (L.fam n dt' b r))
      (fun r => .ok (L.fam n dt (fun r => (List.zipWith (· + ·) (a r) (b r)).map (castTo dt)) r)) := by
  have hz : ∀ r, NDArray.zip (· + ·) (L.fam n dt a r).larr (L.fam n dt' b r).larr
      = .ok ⟨L.lshape r, dt.promote dt', List.zipWith (· + ·) (a r) (b r)⟩ := by
    intro r; simp [NDArray.zip, Layout.fam]
  unfold DArr.add
  simp only [Prog.bind_eq, hz, Prog.lift_ok, Prog.ret_bind]
  refine (Runs.bind_ok runs_checkCompat ((runs_like_set (J := J)
    (v := fun r => ⟨L.lshape r, dt.promote dt', List.zipWith (· + ·) (a r) (b r)⟩) hL (fun _ _ => rfl)
    (fun r hr => by simp [ha.length r hr, hb.length r hr])).congr (fun _ _ => rfl) fun r hr => ?_)).always
  congr 1
  apply fam_congr
  rw [sync_eq (n := n) (fun h r hr => by simp only [ha.consistent h r hr, hb.consistent h r hr]) hr]

theorem mixed_mul (L : Layout) (dt dt' : DType) (a b : Nat → List K) (hL : L.WF n) (ha : L.Good n dt a)
    (hb : L.Good n dt' b) :
    Always n (fun r => (L.fam n dt a r).mul (env n J r) (L.fam n dt' b r))
      (fun r => .ok (L.fam n dt (fun r => (List.zipWith (· * ·) (a r) (b r)).map (castTo dt)) r)) := by
  have hz : ∀ r, NDArray.zip (· * ·) (L.fam n dt a r).larr (L.fam n dt' b r).larr
      = .ok ⟨L.lshape r, dt.promote dt', List.zipWith (· * ·) (a r) (b r)⟩ := by
    intro r; simp [NDArray.zip, Layout.fam]
  unfold DArr.mul
  simp only [Prog.bind_eq, hz, Prog.lift_ok, Prog.ret_bind]
  refine (Runs.bind_ok runs_checkCompat ((runs_like_set (J := J)
    (v := fun r => ⟨L.lshape r, dt.promote dt', List.zipWith (· * ·) (a r) (b r)⟩) hL (fun _ _ => rfl)
    (fun r hr => by simp [ha.length r hr, hb.length r hr])).congr (fun _ _ => rfl) fun r hr => ?_)).always
  congr 1
  apply fam_congr
  rw [sync_eq (n := n) (fun h r hr => by simp only [ha.consistent h r hr, hb.consistent h r hr]) hr]

theorem mixed_smul (L : Layout) (dt t : DType) (s : K) (a : Nat → List K) (hL : L.WF n) (ha : L.Good n dt a) :
    Always n (fun r => (L.fam n dt a r).smul (env n J r) t s)
      (fun r => .ok (L.fam n dt (fun r => ((a r).map (· * s)).map (castTo dt)) r)) := by
  unfold DArr.smul
  simp only [Prog.bind_eq]
  refine ((runs_like_set (J := J) (a := a) (v := fun r => ⟨L.lshape r, dt.promote t, (a r).map (· * s)⟩) hL (fun _ _ => rfl)
    (fun r hr => by simp [ha.length r hr])).congr (fun _ _ => rfl) fun r hr => ?_).always
  congr 1
  apply fam_congr
  rw [sync_eq (n := n) (fun h r hr => by simp only [ha.consistent h r hr]) hr]

/-- **C49**, partial: the sum, product and scalar product have the mathematically correct local data
    on every rank whenever the *left* operand is complex (whatever the dtype of the right operand).
    With a real left operand and a complex right operand or scalar the claim is false:
    `C49_violated`, and `C49_real_left` says exactly what is computed. -/
theorem C49_complex_left_partial (L : Layout) (dt' : DType) (a b : Nat → List K) (hL : L.WF n)
    (ha : L.Good n .cplx a) (hb : L.Good n dt' b) (t : DType) (s : K) :
    Always n (fun r => (L.fam n .cplx a r).add (env n J r) (L.fam n dt' b r))
      (fun r => .ok (L.fam n .cplx (fun r => List.zipWith (· + ·) (a r) (b r)) r)) ∧
    Always n (fun r => (L.fam n .cplx a r).mul (env n J r) (L.fam n dt' b r))
      (fun r => .ok (L.fam n .cplx (fun r => List.zipWith (· * ·) (a r) (b r)) r)) ∧
    Always n (fun r => (L.fam n .cplx a r).smul (env n J r) t s)
      (fun r => .ok (L.fam n .cplx (fun r => (a r).map (· * s)) r)) := by
  have e : ∀ l : List K, l.map (castTo .cplx) = l := fun l =>
    castTo_of_fits (t := .cplx) (fun h => by cases h)
  have h1 := mixed_add (J := J) L .cplx dt' a b hL ha hb
  have h2 := mixed_mul (J := J) L .cplx dt' a b hL ha hb
  have h3 := mixed_smul (J := J) L .cplx t s a hL ha
  simp only [e] at h1 h2 h3
  exact ⟨h1, h2, h3⟩

/-- What is computed when the left operand is real: the imaginary part of the result is dropped. -/
theorem C49_real_left (L : Layout) (a b : Nat → List ℂ) (J : Nat → Nat → ℂ) (hL : L.WF n)
    (ha : L.Good n .real a) (hb : L.Good n .cplx b) :
    Always n (fun r => (L.fam n .real a r).add (env n J r) (L.fam n .cplx b r))
      (fun r => .ok (L.fam n .real (fun r => (List.zipWith (· + ·) (a r) (b r)).map fun z => ((z.re : ℝ) : ℂ)) r)) := by
  have h1 := mixed_add (J := J) L .real .cplx a b hL ha hb
  have e : (castTo .real : ℂ → ℂ) = fun z => ((z.re : ℝ) : ℂ) := by
    funext z
    apply Complex.ext <;> simp [castTo]
  simp only [e] at h1
  exact h1

/-- **C49 is false**: on one rank, x = [1] (real) and y = [i] (complex): `x + y` holds [1] whereas
    `y + x` holds [1 + i]; and `x * i` holds [0]. -/
theorem C49_violated :
    let L : Layout := ⟨[1], .scatter, 0, fun _ => 1, none⟩
    let J : Nat → Nat → ℂ := fun _ _ => 0
    Always 1 (fun r => (L.fam 1 .real (fun _ => [1]) r).add (env 1 J r) (L.fam 1 .cplx (fun _ => [Complex.I]) r))
      (fun r => .ok (L.fam 1 .real (fun _ => [1]) r)) ∧
    Always 1 (fun r => (L.fam 1 .cplx (fun _ => [Complex.I]) r).add (env 1 J r) (L.fam 1 .real (fun _ => [1]) r))
      (fun r => .ok (L.fam 1 .cplx (fun _ => [1 + Complex.I]) r)) ∧
    Always 1 (fun r => (L.fam 1 .real (fun _ => [1]) r).smul (env 1 J r) .cplx Complex.I)
      (fun r => .ok (L.fam 1 .real (fun _ => [0]) r)) := by
  intro L J
  have hL : L.WF 1 := ⟨by decide, fun _ => rfl, by simp [L]⟩
  have ha : L.Good 1 .real fun _ => [(1 : ℂ)] := ⟨fun _ _ => rfl, fun _ _ _ x hx => by simp at hx; simp [hx], by simp [L]⟩
  have hb : L.Good 1 .cplx fun _ => [Complex.I] := ⟨fun _ _ => rfl, fun _ _ h => by simp at h, by simp [L]⟩
  refine ⟨?_, ?_, ?_⟩
  · have := C49_real_left (J := J) L _ _ hL ha hb
    simpa using this
  · have := mixed_add (J := J) L .cplx .real _ _ hL hb ha
    simpa [castTo, add_comm] using this
  · have := mixed_smul (J := J) L .real .cplx Complex.I _ hL ha
    simpa [castTo] using this

/-- Non-vacuity of `C49_complex_left_partial`. -/
example : (Layout.mk [1] .scatter 0 (fun _ => 1) none).WF 1 ∧
    (Layout.mk [1] .scatter 0 (fun _ => 1) none).Good 1 .cplx (fun _ => [Complex.I]) ∧
    (Layout.mk [1] .scatter 0 (fun _ => 1) none).Good 1 .real (fun _ => [(2 : ℂ)]) :=
  ⟨⟨by decide, fun _ => rfl, by simp⟩, ⟨fun _ _ => rfl, fun _ _ h => by simp at h, by simp⟩,
    ⟨fun _ _ => rfl, fun _ _ _ x hx => by simp at hx; simp [hx], by simp⟩⟩

end Verif

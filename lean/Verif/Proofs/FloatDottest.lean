import Verif.Spec.FloatDottest
import Verif.Proofs.Rounding
import Verif.Proofs.FloatExpr

namespace Verif
open NDArray

section
variable {K ι : Type} {n : Nat} {J : Nat → Nat → K} {L : Layout} {x : SVec K}

/-- `asarray` gives the global vector to all ranks -/
theorem a_asarray (hL : L.WF n) (hx : x.v.length = L.gshape.prod) : Runs n (fun r => (x.dpart L n r).asarray (env n J r)) (fun _ => .ok ⟨L.gshape, x.dt, x.v⟩) := by
  have hp : L.globalData n (L.piece x.v) = x.v := global_piece hL hx
  by_cases hb : L.part.isBroadcast = true
  · refine (runs_asarray_bcast (J := J) hb).congr (fun _ _ => rfl) fun r _ => ?_
    simp [Layout.piece, hb]
  · refine (runs_asarray (J := J) hL (isBroadcast_false hb)).congr (fun _ _ => rfl) fun r _ => ?_
    unfold Layout.global
    rw [hp]

variable (A : DotArith K) {prim : ι → Nat → Prim K} {sh : ι → Nat × Nat} {lf : ι → Bool → SVec K → SVec K} {e : MOp K ι} {S T S' T' : VSpace} {u v : SVec K}

theorem a_dotPair (h : Accepts n J prim sh lf false e S T') (h' : Accepts n J prim sh lf true e T S') (hu : u.v.length = S.L.gshape.prod) (du : u.dt = S.dt)
    (hv : v.v.length = T.L.gshape.prod) (dv : v.dt = T.dt) :
    Runs n (fun r => A.dotPair (env n J r) (e.map (prim · r)) (u.dpart S.L n r) (v.dpart T.L n r))
      (fun _ => .ok (A.vdot (A.eval lf false e u).v v.v, A.vdot u.v (A.eval lf true e v).v)) := by
  have f := Accepts.facts h
  have f' := Accepts.facts h'
  have t := accepts_takes A.toOpArith h
  have t' := accepts_takes A.toOpArith h'
  have ly : (A.eval lf false e u).v.length = v.v.length := by rw [t.length u hu du, hv, f.gT, f'.gS]; rfl
  have lx : u.v.length = (A.eval lf true e v).v.length := by rw [t'.length v hv dv, hu, f.gS, f'.gT]; rfl
  unfold DotArith.dotPair
  simp only [Prog.bind_eq]
  refine Runs.bind_ok (t.run hu du) (Runs.bind_ok (t'.run hv dv) (Runs.bind_ok (a_asarray f.hT.1 (t.length u hu du)) (Runs.bind_ok (a_asarray f'.hS.1 hv) ?_)))
  have e1 : A.vdotArr ⟨T'.L.gshape, (A.eval lf false e u).dt, (A.eval lf false e u).v⟩ ⟨T.L.gshape, v.dt, v.v⟩ = .ok (A.vdot (A.eval lf false e u).v v.v) := if_neg (by simpa using ly)
  have e2 : A.vdotArr ⟨S.L.gshape, u.dt, u.v⟩ ⟨S'.L.gshape, (A.eval lf true e v).dt, (A.eval lf true e v).v⟩ = .ok (A.vdot u.v (A.eval lf true e v).v) := if_neg (by simpa using lx)
  rw [e1]
  simp only [Prog.lift_ok, Prog.ret_bind]
  refine Runs.bind_ok (a_asarray f.hS.1 hu) (Runs.bind_ok (a_asarray f'.hT.1 (t'.length v hv dv)) ?_)
  rw [e2]
  simp only [Prog.lift_ok, Prog.ret_bind]
  exact Runs.ret _

theorem a_dottest (h : Accepts n J prim sh lf false e S T') (h' : Accepts n J prim sh lf true e T S') (hu : u.v.length = S.L.gshape.prod) (du : u.dt = S.dt)
    (hv : v.v.length = T.L.gshape.prod) (dv : v.dt = T.dt) {nr nc : Option Nat} (hnr : nr.getD (e.shape sh).1 = (e.shape sh).1) (hnc : nc.getD (e.shape sh).2 = (e.shape sh).2)
    (raiseerror : Bool) :
    Runs n (fun r => A.dottest (env n J r) (e.map (prim · r)) (u.dpart S.L n r) (v.dpart T.L n r) nr nc raiseerror)
      (fun _ => verdict (A.isclose (A.vdot u.v (A.eval lf true e v).v) (A.vdot (A.eval lf false e u).v v.v)) raiseerror) := by
  have h2 : Runs n (fun r => (A.dotPair (env n J r) (e.map (prim · r)) (u.dpart S.L n r) (v.dpart T.L n r)).bind fun p =>
        if !A.isclose p.2 p.1 && raiseerror then .throw .assertion else .ret (A.isclose p.2 p.1))
      (fun _ => verdict (A.isclose (A.vdot u.v (A.eval lf true e v).v) (A.vdot (A.eval lf false e u).v v.v)) raiseerror) := by
    refine Runs.bind_ok (k := fun _ p => if !A.isclose p.2 p.1 && raiseerror then .throw .assertion else .ret (A.isclose p.2 p.1)) (a_dotPair A h h' hu du hv dv) ?_
    dsimp only
    cases A.isclose (A.vdot u.v (A.eval lf true e v).v) (A.vdot (A.eval lf false e u).v v.v)
    · cases raiseerror
      · exact Runs.ret fun _ => false
      · exact Runs.throw fun _ => Err.assertion
    · exact Runs.ret fun _ => true
  refine h2.congr (fun r hr => ?_) fun _ _ => rfl
  unfold DotArith.dottest
  dsimp only
  rw [(Accepts.facts h).shape r hr, hnr, hnc, if_neg (by simp)]
  rfl

end

/-! ### rounding -/

section
variable {K : Type} [RCLike K] {u : ℝ} {k : Nat} {a b e f : K} {m p : ℝ}

theorem Approx.star (h : Approx u k a e m) : Approx u k (star a) (star e) m := by
  constructor
  · rw [← star_sub, norm_star]; exact h.err
  · rw [norm_star]; exact h.mag

theorem map_zip_range {β : Type} [AddCommMonoid β] (g : K → K → β) : ∀ {a b : List K}, a.length = b.length →
    ((a.zip b).map fun t => g t.1 t.2).sum = ∑ j ∈ Finset.range a.length, g (a.getD j 0) (b.getD j 0) := by
  intro a b h
  rw [Finset.sum_range, ← List.sum_ofFn]
  congr 1
  apply List.ext_getElem
  · simp [h]
  · intro i h1 h2
    have ha : i < a.length := by simpa using h2
    simp [List.getD_eq_getElem?_getD, ha, h ▸ ha]

variable {A : DotArith K}

/-- `numpy.vdot` of vectors that are known up to rounding errors -/
theorem vdot_approx (hu : 0 ≤ u) (hA : VdotRounding A u) {x y : List K} {w z : Nat → K} {m p : Nat → ℝ} {l N : Nat} (h : x.length = y.length) (hN : x.length ≤ N)
    (hx : UpTo u k x w m) (hy : UpTo u l y z p) :
    Approx u (k + l + N) (A.vdot x y) (∑ j ∈ Finset.range x.length, Star.star (w j) * z j) (∑ j ∈ Finset.range x.length, m j * p j) := by
  obtain ⟨q, h1, h2⟩ := hA x y h
  obtain ⟨hl, hz⟩ := List.forall₂_iff_zip.1 h1
  have hlq : q.length = x.length := by rw [hl, List.length_zip, ← h, min_self]
  have key : ∀ j ∈ List.range x.length, Approx u (k + l + 1) (q.getD j 0) (Star.star (w j) * z j) (m j * p j) := by
    intro j hj
    have hj : j < x.length := List.mem_range.1 hj
    have hx' : Approx u k (x.getD j 0) (w j) (m j) := ⟨(hx j hj).1, (hx j hj).2⟩
    have hy' : Approx u l (y.getD j 0) (z j) (p j) := ⟨(hy j (h ▸ hj)).1, (hy j (h ▸ hj)).2⟩
    refine (hx'.star.times hu hy').round hu ?_
    have hjq : j < q.length := hlq ▸ hj
    have := hz (a := q[j]) (b := (x[j], y[j]'(h ▸ hj))) (by
      rw [List.mem_iff_getElem]
      exact ⟨j, by simp [hjq, hj, h ▸ hj], by simp⟩)
    simpa [List.getD_eq_getElem?_getD, hjq, hj, h ▸ hj] using this
  have e1 : (List.range x.length).map (fun j => q.getD j 0) = q := by
    apply List.ext_getElem
    · simp [hlq]
    · intro i h1 h2
      simp [List.getD_eq_getElem?_getD, h2]
  have hs := h2.near hu (k := k + l + 1) (T := List.range x.length) (a := fun j => q.getD j 0) (e := fun j => Star.star (w j) * z j) (m := fun j => m j * p j) e1 key
  have r1 : ((List.range x.length).map fun j => Star.star (w j) * z j).sum = ∑ j ∈ Finset.range x.length, Star.star (w j) * z j := rfl
  have r2 : ((List.range x.length).map fun j => m j * p j).sum = ∑ j ∈ Finset.range x.length, m j * p j := rfl
  rw [r1, r2] at hs
  rcases Nat.eq_zero_or_pos x.length with h0 | h0
  · have hq0 : q = [] := List.length_eq_zero_iff.1 (hlq.trans h0)
    rw [h0] at hs ⊢
    simp only [Finset.range_zero, Finset.sum_empty] at hs ⊢
    refine ⟨?_, by simp⟩
    have := hs.err
    simpa using this
  · exact hs.weaken hu (by omega)

end

end Verif

/- C26: the stacking operators pass the dot test exactly. -/
import Verif.Proofs.Dottest
import Verif.Props.C23
import Verif.Props.C24

namespace Verif
open NDArray

variable {K : Type} [Field K] [StarRing K] [CharZero K] {n : Nat} {J : Nat → Nat → K} {ops : Nat → List (LOp K)} {mask : Option (List Nat)}
  {dtype : Option DType} {dt : DType} {X Y : Layout} {N M : Nat} {u v : List K}

/-- **C26**, MPIBlockDiag.  Constructing the operator and computing `(Op u)^H v` and `u^H (Op^H v)`, as `dottest` does, gives the same number on all ranks,
    for any splits `X`, `Y` of `u` and `v` near those of the operator, if every local operator is an adjoint pair. -/
theorem C26_blockdiag_partial (hX : X.WF n) (hgX : X.gshape = [inSum false (allOps n ops)]) (hpX : X.part = .scatter) (haX : X.axis = 0)
    (hNX : Near n X (.lin (inSum false (allOps n ops)) fun r => inSum false (ops r)))
    (hY : Y.WF n) (hgY : Y.gshape = [inSum true (allOps n ops)]) (hpY : Y.part = .scatter) (haY : Y.axis = 0)
    (hNY : Near n Y (.lin (inSum true (allOps n ops)) fun r => inSum true (ops r)))
    (hdt : ∀ r < n, opsDType (ops r) dtype = .ok dt) (hok : ∀ o ∈ allOps n ops, ∀ b, o.Ok b dt dt) (hadj : ∀ o ∈ allOps n ops, o.Adjoint)
    (hne : ∀ r < n, ops r ≠ []) (hm : ∀ m, mask = some m → n ≤ m.length) (hu : VSpace.Mem ⟨X, dt⟩ u) (hv : VSpace.Mem ⟨Y, dt⟩ v) :
    ∃ c, Always n (fun r => do
        let p ← mkBlockDiag (env n J r) (ops r) mask dtype
        dotPair (env n J r) (.leaf p) (VSpace.vec ⟨X, dt⟩ n u r) (VSpace.vec ⟨Y, dt⟩ n v r))
      (fun _ => .ok (c, c)) ∧ c = ip (blockDiag false (allOps n ops) u) v := by
  refine ⟨_, ?_, rfl⟩
  have hlu : u.length = inSum false (allOps n ops) := by rw [hu.1]; simp [hgX]
  have hlv : v.length = inSum true (allOps n ops) := by rw [hv.1]; simp [hgY]
  have hc := runs_mkBlockDiag (J := J) (mask := mask) hdt
  have e : ip (blockDiag false (allOps n ops) u) v = ip u (blockDiag true (allOps n ops) v) :=
    ip_blockDiag hadj (fun o ho => (hok o ho false).length) (fun o ho => (hok o ho true).length) hlu hlv
  refine (Runs.bind_ok hc ?_).always
  have := runs_dotPair (J := J) (op := fun r => .leaf (bdPrim n ops mask dt r)) (S := ⟨X, dt⟩) (T := ⟨Y, dt⟩) (S' := ⟨inL false n ops mask, dt⟩)
    (T' := ⟨inL true n ops mask, dt⟩) hX hY (inL_wf hm) (inL_wf hm) hu hv
    (mem_blockDiag (b := true) (fun o ho => hok o ho true) hlv hv.2) (mem_blockDiag (b := false) (fun o ho => hok o ho false) hlu hu.2)
    (by simp [Layout.lin, hgX]) (by simp [Layout.lin, hgY])
    (runs_bdRun hX hgX hpX haX hNX (fun o ho => hok o ho false) hne hm hu) (runs_bdRun hY hgY hpY haY hNY (fun o ho => hok o ho true) hne hm hv)
  rw [← e] at this
  exact this

/-- **C26**, MPIVStack. -/
theorem C26_vstack_partial (hX : X.WF n) (hgX : X.gshape = [N]) (hpX : X.part.isBroadcast = true)
    (hY : Y.WF n) (hgY : Y.gshape = [inSum true (allOps n ops)]) (hpY : Y.part = .scatter) (haY : Y.axis = 0)
    (hNY : Near n Y (.lin (inSum true (allOps n ops)) fun r => inSum true (ops r)))
    (hdt : ∀ r < n, opsDType (ops r) dtype = .ok dt) (hok : ∀ o ∈ allOps n ops, (∀ b, o.Ok b dt dt) ∧ o.cols = N) (hadj : ∀ o ∈ allOps n ops, o.Adjoint)
    (hne : ∀ r < n, ops r ≠ []) (hu : VSpace.Mem ⟨X, dt⟩ u) (hv : VSpace.Mem ⟨Y, dt⟩ v) :
    ∃ c, Always n (fun r => do
        let p ← mkVStack (env n J r) (ops r) dtype
        dotPair (env n J r) (.leaf p) (VSpace.vec ⟨X, dt⟩ n u r) (VSpace.vec ⟨Y, dt⟩ n v r))
      (fun _ => .ok (c, c)) ∧ c = ip (vcat false (allOps n ops) u) v := by
  rcases Nat.eq_zero_or_pos n with rfl | hn
  · exact ⟨_, Runs.of_zero.always, rfl⟩
  refine ⟨_, ?_, rfl⟩
  have hlu : u.length = N := by rw [hu.1]; simp [hgX]
  have hlv : v.length = inSum true (allOps n ops) := by rw [hv.1]; simp [hgY]
  have hc := runs_mkVStack (J := J) (N := N) hdt (fun o ho => (hok o ho).2) (allOps_ne hn hne)
  have e : ip (vcat false (allOps n ops) u) v = ip u (hsum true N (allOps n ops) v) :=
    ip_vcat hadj (fun o ho => (hok o ho).2) (fun o ho => ((hok o ho).1 false).length) (fun o ho => ((hok o ho).1 true).length) hlu hlv
  refine (Runs.bind_ok hc ?_).always
  have := runs_dotPair (J := J) (op := fun r => .leaf (vsPrim n ops N dt r)) (S := ⟨X, dt⟩) (T := ⟨Y, dt⟩) (S' := ⟨.all N, dt⟩)
    (T' := ⟨inL true n ops, dt⟩) hX hY (all_wf rfl) (inL_wf (by simp)) hu hv
    (mem_hsum (b := true) (fun o ho => ⟨(hok o ho).1 true, (hok o ho).2⟩) hlv hv.2)
    (mem_vcat (b := false) (fun o ho => ⟨(hok o ho).1 false, (hok o ho).2⟩) hlu hu.2)
    (by simp [Layout.all, hgX]) (by simp [Layout.lin, hgY])
    (runs_vsRun_fwd hX hgX hpX (fun o ho => ⟨(hok o ho).1 false, (hok o ho).2⟩) hne hu)
    (runs_vsRun_adj hY hgY hpY haY hNY (fun o ho => ⟨(hok o ho).1 true, (hok o ho).2⟩) hne hv)
  rw [← e] at this
  exact this

theorem ip_hsum {l : List (LOp K)} (ha : ∀ o ∈ l, o.Adjoint) (hM : ∀ o ∈ l, o.rows = M)
    (h0 : ∀ o ∈ l, ∀ d, d.length = o.cols → (o.fwd d).length = o.rows) (h1 : ∀ o ∈ l, ∀ d, d.length = o.rows → (o.adj d).length = o.cols)
    (hu : u.length = inSum false l) (hv : v.length = M) : ip (hsum false M l u) v = ip u (vcat true l v) := by
  have key := ip_vcat (l := l.map (·.H)) (N := M) (u := v) (v := u)
    (fun o ho => by obtain ⟨q, hq, rfl⟩ := List.mem_map.1 ho; exact (ha q hq).swap)
    (fun o ho => by obtain ⟨q, hq, rfl⟩ := List.mem_map.1 ho; exact hM q hq)
    (fun o ho => by obtain ⟨q, hq, rfl⟩ := List.mem_map.1 ho; exact h1 q hq)
    (fun o ho => by obtain ⟨q, hq, rfl⟩ := List.mem_map.1 ho; exact h0 q hq) hv (by rw [inSum_H]; exact hu)
  rw [vcat_H, hsum, slices_H] at key
  rw [← ip_comm v, ← ip_comm (vcat true l v)]
  exact congrArg star key.symm

/-- **C26**, MPIHStack. -/
theorem C26_hstack_partial (hX : X.WF n) (hgX : X.gshape = [inSum false (allOps n ops)]) (hpX : X.part = .scatter) (haX : X.axis = 0)
    (hNX : Near n X (.lin (inSum false (allOps n ops)) fun r => inSum false (ops r)))
    (hY : Y.WF n) (hgY : Y.gshape = [M]) (hpY : Y.part.isBroadcast = true)
    (hdt : ∀ r < n, opsDType (ops r) dtype = .ok dt) (hok : ∀ o ∈ allOps n ops, (∀ b, o.Ok b dt dt) ∧ o.rows = M) (hadj : ∀ o ∈ allOps n ops, o.Adjoint)
    (hne : ∀ r < n, ops r ≠ []) (hu : VSpace.Mem ⟨X, dt⟩ u) (hv : VSpace.Mem ⟨Y, dt⟩ v) :
    ∃ c, Always n (fun r => do
        let p ← mkHStack (env n J r) (ops r) dtype
        dotPair (env n J r) (.leaf p) (VSpace.vec ⟨X, dt⟩ n u r) (VSpace.vec ⟨Y, dt⟩ n v r))
      (fun _ => .ok (c, c)) ∧ c = ip (hsum false M (allOps n ops) u) v := by
  rcases Nat.eq_zero_or_pos n with rfl | hn
  · exact ⟨_, Runs.of_zero.always, rfl⟩
  refine ⟨_, ?_, rfl⟩
  have hlu : u.length = inSum false (allOps n ops) := by rw [hu.1]; simp [hgX]
  have hlv : v.length = M := by rw [hv.1]; simp [hgY]
  have hc := runs_mkHStack (J := J) (M := M) hdt (fun o ho => (hok o ho).2) (allOps_ne hn hne)
  have e : ip (hsum false M (allOps n ops) u) v = ip u (vcat true (allOps n ops) v) :=
    ip_hsum hadj (fun o ho => (hok o ho).2) (fun o ho => ((hok o ho).1 false).length) (fun o ho => ((hok o ho).1 true).length) hlu hlv
  refine (Runs.bind_ok hc ?_).always
  have := runs_dotPair (J := J) (op := fun r => .leaf (hsPrim n ops M dt r)) (S := ⟨X, dt⟩) (T := ⟨Y, dt⟩) (S' := ⟨inL false n ops, dt⟩)
    (T' := ⟨.all M, dt⟩) hX hY (inL_wf (by simp)) (all_wf rfl) hu hv
    (mem_vcat (b := true) (fun o ho => ⟨(hok o ho).1 true, (hok o ho).2⟩) hlv hv.2)
    (mem_hsum (b := false) (fun o ho => ⟨(hok o ho).1 false, (hok o ho).2⟩) hlu hu.2)
    (by simp [Layout.lin, hgX]) (by simp [Layout.all, hgY])
    (runs_hsRun_fwd hX hgX hpX haX hNX (fun o ho => ⟨(hok o ho).1 false, (hok o ho).2⟩) hne hu)
    (runs_hsRun_adj hY hgY hpY (fun o ho => ⟨(hok o ho).1 true, (hok o ho).2⟩) hne hv)
  rw [← e] at this
  exact this

/-- Non-vacuity: [1 2] and [5] on rank 0, [1 0 -1] on rank 1; ⟨Op u, v⟩ = ⟨u, Op^H v⟩ = 58. -/
example : Always 2 (fun r => do
      let p ← mkBlockDiag (env 2 (fun _ _ => 0) r) (bdOps r) none none
      dotPair (env 2 (fun _ _ => 0) r) (.leaf p) (VSpace.vec ⟨.lin 6 (fun _ => 3), .real⟩ 2 [1, 2, 3, 4, 5, 6] r)
        (VSpace.vec ⟨.lin 3 (fun r => if r = 0 then 2 else 1), .real⟩ 2 [7, 1, -4] r))
    (fun _ => .ok (58, 58)) := by
  obtain ⟨c, h, hc⟩ := C26_blockdiag_partial (n := 2) (J := fun _ _ => 0) (ops := bdOps) (dtype := none) (dt := .real) (mask := none)
    (X := .lin 6 (fun _ => 3)) (Y := .lin 3 (fun r => if r = 0 then 2 else 1)) (u := [1, 2, 3, 4, 5, 6]) (v := [7, 1, -4])
    (lin_wf (by decide) (by simp)) (by decide) rfl rfl (by intro r hr; match r, hr with | 0, _ => decide)
    (lin_wf (by decide) (by simp)) (by decide) rfl rfl (by intro r hr; match r, hr with | 0, _ => decide)
    (fun r hr => by
      match r, hr with
      | 0, _ => rfl
      | 1, _ => rfl) (fun o ho b => by obtain ⟨c, rfl⟩ := bdOps_row ho; exact LOp.row_ok _ _ _ _)
      (fun o ho => by obtain ⟨c, rfl⟩ := bdOps_row ho; exact LOp.row_adjoint _)
      (fun r _ => by unfold bdOps; split_ifs <;> simp) (by simp) ⟨rfl, fits_rat _ _⟩ ⟨rfl, fits_rat _ _⟩
  have : c = 58 := by rw [hc]; decide +kernel
  rw [this] at h
  exact h

end Verif

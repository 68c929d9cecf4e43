/- C24: MPIVStack is the global vertical stack.  C25: MPIHStack is the global horizontal stack. -/
import Verif.Proofs.Stacking
import Verif.Spec.Examples
import Verif.Spec.Gauss
import Verif.MPI.Sim

namespace Verif
open NDArray

variable {K : Type} [Field K] [StarRing K] [CharZero K] {n : Nat} {J : Nat → Nat → K} {ops : Nat → List (LOp K)}
  {dtype : Option DType} {dx dt : DType} {X : Layout} {N M : Nat} {b : Bool}

/-- construct `MPIVStack(ops)` and apply `matvec` (`b = false`) or `rmatvec` (`b = true`) -/
def vsProg (n : Nat) (J : Nat → Nat → K) (ops : Nat → List (LOp K)) (dtype : Option DType) (b : Bool) (x : Nat → DArr K) (r : Nat) : P K (DArr K) := do
  let p ← mkVStack (env n J r) (ops r) dtype
  MOp.run (env n J r) b (.leaf p) (x r)

/-- construct `MPIHStack(ops)` and apply `matvec` (`b = false`) or `rmatvec` (`b = true`) -/
def hsProg (n : Nat) (J : Nat → Nat → K) (ops : Nat → List (LOp K)) (dtype : Option DType) (b : Bool) (x : Nat → DArr K) (r : Nat) : P K (DArr K) := do
  let p ← mkHStack (env n J r) (ops r) dtype
  MOp.run (env n J r) b (.leaf p) (x r)

theorem allOps_ne (hn : 0 < n) (hne : ∀ r < n, ops r ≠ []) : allOps n ops ≠ [] := by
  intro h
  have := allOps_split n ops hn
  obtain ⟨rest, h1, _⟩ := this
  rw [h] at h1
  have := congrArg List.length h1
  simp only [List.length_nil, List.length_append] at this
  exact hne 0 hn (List.length_eq_zero_iff.1 (by omega))

theorem runs_vsRun_fwd (hX : X.WF n) (hg : X.gshape = [N]) (hp : X.part.isBroadcast = true)
    (hok : ∀ o ∈ allOps n ops, o.Ok false dx dt ∧ o.cols = N) (hne : ∀ r < n, ops r ≠ []) {d : List K} (hd : VSpace.Mem ⟨X, dx⟩ d) :
    Runs n (fun r => MOp.run (env n J r) false (.leaf (vsPrim n ops N dt r)) (VSpace.vec ⟨X, dx⟩ n d r))
      (fun r => .ok (VSpace.vec ⟨.lin (outSum false (allOps n ops)) (fun r => outSum false (ops r)), dt⟩ n (vcat false (allOps n ops) d) r)) := by
  refine (runs_vstackMv (J := J) hX hg hp hok hne hd).congr (fun r hr => ?_) fun _ _ => rfl
  have hgs : (VSpace.vec ⟨X, dx⟩ n d r : DArr K).gshape = [N] := hg
  unfold MOp.run checkDim
  rw [if_neg (by rw [hgs]; simp [vsPrim])]
  rfl

theorem runs_vsProg_fwd (hX : X.WF n) (hg : X.gshape = [N]) (hp : X.part.isBroadcast = true) (hdt : ∀ r < n, opsDType (ops r) dtype = .ok dt)
    (hok : ∀ o ∈ allOps n ops, o.Ok false dx dt ∧ o.cols = N) (hne : ∀ r < n, ops r ≠ []) {d : List K} (hd : VSpace.Mem ⟨X, dx⟩ d) :
    Runs n (vsProg n J ops dtype false (VSpace.vec ⟨X, dx⟩ n d))
      (fun r => .ok (VSpace.vec ⟨.lin (outSum false (allOps n ops)) (fun r => outSum false (ops r)), dt⟩ n (vcat false (allOps n ops) d) r)) := by
  rcases Nat.eq_zero_or_pos n with rfl | hn
  · exact Runs.of_zero
  unfold vsProg
  simp only [Prog.bind_eq]
  exact Runs.bind_ok (runs_mkVStack (J := J) (N := N) hdt (fun o ho => (hok o ho).2) (allOps_ne hn hne)) (runs_vsRun_fwd hX hg hp hok hne hd)

theorem runs_vsRun_adj (hX : X.WF n) (hg : X.gshape = [inSum true (allOps n ops)]) (hp : X.part = .scatter) (hax : X.axis = 0)
    (hN : Near n X (.lin (inSum true (allOps n ops)) fun r => inSum true (ops r)))
    (hok : ∀ o ∈ allOps n ops, o.Ok true dx dt ∧ o.cols = N) (hne : ∀ r < n, ops r ≠ []) {d : List K} (hd : VSpace.Mem ⟨X, dx⟩ d) :
    Runs n (fun r => MOp.run (env n J r) true (.leaf (vsPrim n ops N dt r)) (VSpace.vec ⟨X, dx⟩ n d r))
      (fun r => .ok (VSpace.vec ⟨.all N, dt⟩ n (hsum true N (allOps n ops) d) r)) := by
  refine (runs_vstackRmv (J := J) (conform_in hX hg hp hax) hN hok hne hd).congr (fun r hr => ?_) fun _ _ => rfl
  have hgs : (VSpace.vec ⟨X, dx⟩ n d r : DArr K).gshape = [inSum true (allOps n ops)] := hg
  unfold MOp.run checkDim
  rw [if_neg (by rw [hgs]; simp [vsPrim, outSum])]
  rfl

theorem runs_vsProg_adj (hX : X.WF n) (hg : X.gshape = [inSum true (allOps n ops)]) (hp : X.part = .scatter) (hax : X.axis = 0)
    (hN : Near n X (.lin (inSum true (allOps n ops)) fun r => inSum true (ops r)))
    (hdt : ∀ r < n, opsDType (ops r) dtype = .ok dt)
    (hok : ∀ o ∈ allOps n ops, o.Ok true dx dt ∧ o.cols = N) (hne : ∀ r < n, ops r ≠ []) {d : List K} (hd : VSpace.Mem ⟨X, dx⟩ d) :
    Runs n (vsProg n J ops dtype true (VSpace.vec ⟨X, dx⟩ n d))
      (fun r => .ok (VSpace.vec ⟨.all N, dt⟩ n (hsum true N (allOps n ops) d) r)) := by
  rcases Nat.eq_zero_or_pos n with rfl | hn
  · exact Runs.of_zero
  unfold vsProg
  simp only [Prog.bind_eq]
  exact Runs.bind_ok (runs_mkVStack (J := J) (N := N) hdt (fun o ho => (hok o ho).2) (allOps_ne hn hne)) (runs_vsRun_adj hX hg hp hax hN hok hne hd)

/-- **C24** (matvec).  For a vector `d` held by all ranks (BROADCAST or UNSAFE_BROADCAST), every execution leaves on all ranks their
    parts of the concatenation of all operators' outputs.
    Missing for the full statement: ranks with an empty list of operators (`C24_matvec_empty`) and operator dtypes that differ between ranks
    (`C24_violated_dtype`). -/
theorem C24_matvec_partial (hX : X.WF n) (hg : X.gshape = [N]) (hp : X.part.isBroadcast = true) (hdt : ∀ r < n, opsDType (ops r) dtype = .ok dt)
    (hok : ∀ o ∈ allOps n ops, o.Ok false dx dt ∧ o.cols = N) (hne : ∀ r < n, ops r ≠ []) {d : List K} (hd : VSpace.Mem ⟨X, dx⟩ d) :
    Always n (vsProg n J ops dtype false (VSpace.vec ⟨X, dx⟩ n d))
      (fun r => .ok (VSpace.vec ⟨.lin (outSum false (allOps n ops)) (fun r => outSum false (ops r)), dt⟩ n (vcat false (allOps n ops) d) r)) :=
  (runs_vsProg_fwd hX hg hp hdt hok hne hd).always

/-- **C24** (rmatvec).  All ranks obtain the sum of all operators' adjoints applied to their slices, for inputs whose layout is near the one of the operator
    (others: `C21_raises`) and operators with a common dtype. -/
theorem C24_rmatvec_partial (hX : X.WF n) (hg : X.gshape = [inSum true (allOps n ops)]) (hp : X.part = .scatter) (hax : X.axis = 0)
    (hN : Near n X (.lin (inSum true (allOps n ops)) fun r => inSum true (ops r)))
    (hdt : ∀ r < n, opsDType (ops r) dtype = .ok dt)
    (hok : ∀ o ∈ allOps n ops, o.Ok true dx dt ∧ o.cols = N) (hne : ∀ r < n, ops r ≠ []) {d : List K} (hd : VSpace.Mem ⟨X, dx⟩ d) :
    Always n (vsProg n J ops dtype true (VSpace.vec ⟨X, dx⟩ n d))
      (fun r => .ok (VSpace.vec ⟨.all N, dt⟩ n (hsum true N (allOps n ops) d) r)) :=
  (runs_vsProg_adj hX hg hp hax hN hdt hok hne hd).always

/-- **C24** (rejection). -/
theorem C24_reject {o o' : LOp K} (ho : o ∈ allOps n ops) (ho' : o' ∈ allOps n ops) (h : o.cols ≠ o'.cols) :
    Always n (fun r => mkVStack (env n J r) (ops r) dtype) (fun _ => .error .value) :=
  (runs_mkVStack_reject ho ho' h).always

/-- **C24** (shape). -/
theorem C24_shape (hdt : ∀ r < n, opsDType (ops r) dtype = .ok dt) (hN : ∀ o ∈ allOps n ops, o.cols = N) (hne : allOps n ops ≠ []) :
    Always n (fun r => do
        let p ← mkVStack (env n J r) (ops r) dtype
        .ret (p.rows, p.cols, p.dtype))
      (fun _ => .ok (((allOps n ops).map (·.rows)).sum, N, dt)) :=
  (Runs.bind_ok (k := fun _ p => .ret (p.rows, p.cols, p.dtype)) (runs_mkVStack (J := J) hdt hN hne) (Runs.ret fun _ => _)).always

/-! ### horizontal stack -/

theorem slices_H (b : Bool) (l : List (LOp K)) (x : List K) : slices b (l.map (·.H)) x = slices (!b) l x := by
  induction l generalizing x with
  | nil => rfl
  | cons o os ih =>
    rw [List.map_cons, slices, slices, ih]
    cases b <;> rfl

theorem vcat_H (b : Bool) (l : List (LOp K)) (x : List K) : vcat b (l.map (·.H)) x = vcat (!b) l x := by
  unfold vcat
  rw [List.flatMap_map]
  congr 1
  funext o
  cases b <;> rfl

theorem inSum_H (b : Bool) (l : List (LOp K)) : inSum b (l.map (·.H)) = inSum (!b) l := by
  unfold inSum
  rw [List.map_map]
  congr 1
  exact List.map_congr_left fun o _ => by cases b <;> rfl

theorem hok_H (hok : ∀ o ∈ allOps n ops, o.Ok b dx dt ∧ o.rows = M) : ∀ o ∈ allOps n (hOps ops), o.Ok (!b) dx dt ∧ o.cols = M := by
  intro o ho
  rw [allOps_H] at ho
  obtain ⟨q, hq, rfl⟩ := List.mem_map.1 ho
  exact ⟨LOp.H_ok (by rw [Bool.not_not]; exact (hok q hq).1), (hok q hq).2⟩

theorem runs_hsRun_fwd (hX : X.WF n) (hg : X.gshape = [inSum false (allOps n ops)]) (hp : X.part = .scatter) (hax : X.axis = 0)
    (hN : Near n X (.lin (inSum false (allOps n ops)) fun r => inSum false (ops r)))
    (hok : ∀ o ∈ allOps n ops, o.Ok false dx dt ∧ o.rows = M) (hne : ∀ r < n, ops r ≠ []) {d : List K} (hd : VSpace.Mem ⟨X, dx⟩ d) :
    Runs n (fun r => MOp.run (env n J r) false (.leaf (hsPrim n ops M dt r)) (VSpace.vec ⟨X, dx⟩ n d r))
      (fun r => .ok (VSpace.vec ⟨.all M, dt⟩ n (hsum false M (allOps n ops) d) r)) := by
  have e1 : inSum true (allOps n (hOps ops)) = inSum false (allOps n ops) := by rw [allOps_H, inSum_H]; rfl
  have e2 : (fun r => inSum true (hOps ops r)) = fun r => inSum false (ops r) := by
    funext r; rw [hOps, inSum_H]; rfl
  have hg' : X.gshape = [inSum true (allOps n (hOps ops))] := by rw [e1, hg]
  have h := runs_vstackRmv (J := J) (ops := hOps ops) (N := M) (conform_in hX hg' hp hax) (by unfold inL; rw [e1, e2]; exact hN) (hok_H hok)
    (fun r hr => by simpa [hOps] using hne r hr) hd
  refine h.congr (fun r hr => ?_) fun r _ => ?_
  · have hgs : (VSpace.vec ⟨X, dx⟩ n d r : DArr K).gshape = [outSum false (allOps n (hOps ops))] := hg'
    simp only [MOp.run, checkDim, MOp.shape, Prim.shape, hsPrim, vsPrim, hgs]
    simp
  · rw [allOps_H]; unfold hsum; rw [slices_H]; rfl

theorem runs_hsProg_fwd (hX : X.WF n) (hg : X.gshape = [inSum false (allOps n ops)]) (hp : X.part = .scatter) (hax : X.axis = 0)
    (hN : Near n X (.lin (inSum false (allOps n ops)) fun r => inSum false (ops r)))
    (hdt : ∀ r < n, opsDType (ops r) dtype = .ok dt)
    (hok : ∀ o ∈ allOps n ops, o.Ok false dx dt ∧ o.rows = M) (hne : ∀ r < n, ops r ≠ []) {d : List K} (hd : VSpace.Mem ⟨X, dx⟩ d) :
    Runs n (hsProg n J ops dtype false (VSpace.vec ⟨X, dx⟩ n d))
      (fun r => .ok (VSpace.vec ⟨.all M, dt⟩ n (hsum false M (allOps n ops) d) r)) := by
  rcases Nat.eq_zero_or_pos n with rfl | hn
  · exact Runs.of_zero
  unfold hsProg
  simp only [Prog.bind_eq]
  exact Runs.bind_ok (runs_mkHStack (J := J) (M := M) hdt (fun o ho => (hok o ho).2) (allOps_ne hn hne)) (runs_hsRun_fwd hX hg hp hax hN hok hne hd)

theorem runs_hsRun_adj (hX : X.WF n) (hg : X.gshape = [M]) (hp : X.part.isBroadcast = true)
    (hok : ∀ o ∈ allOps n ops, o.Ok true dx dt ∧ o.rows = M) (hne : ∀ r < n, ops r ≠ []) {d : List K} (hd : VSpace.Mem ⟨X, dx⟩ d) :
    Runs n (fun r => MOp.run (env n J r) true (.leaf (hsPrim n ops M dt r)) (VSpace.vec ⟨X, dx⟩ n d r))
      (fun r => .ok (VSpace.vec ⟨.lin (inSum false (allOps n ops)) (fun r => inSum false (ops r)), dt⟩ n (vcat true (allOps n ops) d) r)) := by
  have h := runs_vstackMv (J := J) (ops := hOps ops) (N := M) hX hg hp (hok_H hok) (fun r hr => by simpa [hOps] using hne r hr) hd
  refine h.congr (fun r hr => ?_) fun r _ => ?_
  · have hgs : (VSpace.vec ⟨X, dx⟩ n d r : DArr K).gshape = [M] := hg
    simp only [MOp.run, checkDim, MOp.shape, Prim.shape, hsPrim, vsPrim, hgs]
    simp
  · rw [allOps_H, vcat_H]
    have e1 : inSum true ((allOps n ops).map (·.H)) = inSum false (allOps n ops) := inSum_H _ _
    have e2 : (fun r => inSum true (hOps ops r)) = fun r => inSum false (ops r) := by funext r; exact inSum_H _ _
    unfold inL
    rw [allOps_H, e1, e2]
    rfl

theorem runs_hsProg_adj (hX : X.WF n) (hg : X.gshape = [M]) (hp : X.part.isBroadcast = true) (hdt : ∀ r < n, opsDType (ops r) dtype = .ok dt)
    (hok : ∀ o ∈ allOps n ops, o.Ok true dx dt ∧ o.rows = M) (hne : ∀ r < n, ops r ≠ []) {d : List K} (hd : VSpace.Mem ⟨X, dx⟩ d) :
    Runs n (hsProg n J ops dtype true (VSpace.vec ⟨X, dx⟩ n d))
      (fun r => .ok (VSpace.vec ⟨.lin (inSum false (allOps n ops)) (fun r => inSum false (ops r)), dt⟩ n (vcat true (allOps n ops) d) r)) := by
  rcases Nat.eq_zero_or_pos n with rfl | hn
  · exact Runs.of_zero
  unfold hsProg
  simp only [Prog.bind_eq]
  exact Runs.bind_ok (runs_mkHStack (J := J) (M := M) hdt (fun o ho => (hok o ho).2) (allOps_ne hn hne)) (runs_hsRun_adj hX hg hp hok hne hd)

/-- **C25** (matvec).  All ranks obtain the sum of all operators applied to their slices of the input. -/
theorem C25_matvec_partial (hX : X.WF n) (hg : X.gshape = [inSum false (allOps n ops)]) (hp : X.part = .scatter) (hax : X.axis = 0)
    (hN : Near n X (.lin (inSum false (allOps n ops)) fun r => inSum false (ops r)))
    (hdt : ∀ r < n, opsDType (ops r) dtype = .ok dt)
    (hok : ∀ o ∈ allOps n ops, o.Ok false dx dt ∧ o.rows = M) (hne : ∀ r < n, ops r ≠ []) {d : List K} (hd : VSpace.Mem ⟨X, dx⟩ d) :
    Always n (hsProg n J ops dtype false (VSpace.vec ⟨X, dx⟩ n d))
      (fun r => .ok (VSpace.vec ⟨.all M, dt⟩ n (hsum false M (allOps n ops) d) r)) :=
  (runs_hsProg_fwd hX hg hp hax hN hdt hok hne hd).always

/-- **C25** (rmatvec).  All ranks obtain their parts of the concatenation of the adjoints. -/
theorem C25_rmatvec_partial (hX : X.WF n) (hg : X.gshape = [M]) (hp : X.part.isBroadcast = true) (hdt : ∀ r < n, opsDType (ops r) dtype = .ok dt)
    (hok : ∀ o ∈ allOps n ops, o.Ok true dx dt ∧ o.rows = M) (hne : ∀ r < n, ops r ≠ []) {d : List K} (hd : VSpace.Mem ⟨X, dx⟩ d) :
    Always n (hsProg n J ops dtype true (VSpace.vec ⟨X, dx⟩ n d))
      (fun r => .ok (VSpace.vec ⟨.lin (inSum false (allOps n ops)) (fun r => inSum false (ops r)), dt⟩ n (vcat true (allOps n ops) d) r)) :=
  (runs_hsProg_adj hX hg hp hdt hok hne hd).always

/-- **C25** (rejection). -/
theorem C25_reject {o o' : LOp K} (ho : o ∈ allOps n ops) (ho' : o' ∈ allOps n ops) (h : o.rows ≠ o'.rows) :
    Always n (fun r => mkHStack (env n J r) (ops r) dtype) (fun _ => .error .value) :=
  (runs_mkHStack_reject ho ho' h).always

/-- **C25** (shape). -/
theorem C25_shape (hdt : ∀ r < n, opsDType (ops r) dtype = .ok dt) (hM : ∀ o ∈ allOps n ops, o.rows = M) (hne : allOps n ops ≠ []) :
    Always n (fun r => do
        let p ← mkHStack (env n J r) (ops r) dtype
        .ret (p.rows, p.cols, p.dtype))
      (fun _ => .ok (M, ((allOps n ops).map (·.cols)).sum, dt)) := by
  simp only [Prog.bind_eq]
  refine (Runs.bind_ok (k := fun _ p => .ret (p.rows, p.cols, p.dtype)) (runs_mkHStack (J := J) hdt hM hne) ((Runs.ret fun r => _).congr (fun r _ => rfl) fun r _ => ?_)).always
  have : outSum false (allOps n (hOps ops)) = ((allOps n ops).map (·.cols)).sum := by
    rw [allOps_H]; exact inSum_H _ _
  simp only [hsPrim, this]

/-- Non-vacuity: [1 2] on rank 0, [3 4] and [5 6] on rank 1. -/
def vsOps : Nat → List (LOp ℚ) := fun r => if r = 0 then [.row [1, 2]] else [.row [3, 4], .row [5, 6]]

theorem vsOps_row {n : Nat} {o : LOp ℚ} (h : o ∈ allOps n vsOps) : ∃ x y, o = .row [x, y] := by
  simp only [allOps, List.mem_flatMap, List.mem_range, vsOps] at h
  obtain ⟨q, _, h⟩ := h
  split_ifs at h
  · simp only [List.mem_cons, List.not_mem_nil, or_false] at h
    exact ⟨_, _, h⟩
  · simp only [List.mem_cons, List.not_mem_nil, or_false] at h
    rcases h with rfl | rfl <;> exact ⟨_, _, rfl⟩

example : Always 2 (vsProg 2 (fun _ _ => 0) vsOps none false (VSpace.vec ⟨.all 2, .real⟩ 2 [1, 10]))
    (fun r => .ok (VSpace.vec ⟨.lin 3 (fun r => outSum false (vsOps r)), .real⟩ 2 [21, 43, 65] r)) := by
  have h := C24_matvec_partial (n := 2) (J := fun _ _ => 0) (ops := vsOps) (dtype := none) (dx := .real) (dt := .real) (N := 2) (X := .all 2) (d := [1, 10])
    (all_wf rfl) rfl rfl (fun r hr => by
      match r, hr with
      | 0, _ => rfl
      | 1, _ => rfl) (fun o ho => by obtain ⟨x, y, rfl⟩ := vsOps_row ho; exact ⟨LOp.row_ok _ _ _ _, rfl⟩)
      (fun r _ => by unfold vsOps; split_ifs <;> simp) ⟨rfl, fits_rat _ _⟩
  have e : vcat false (allOps 2 vsOps) [1, 10] = [21, 43, 65] := by decide +kernel
  rwa [e] at h

example : Always 2 (vsProg 2 (fun _ _ => 0) vsOps none true (VSpace.vec ⟨.lin 3 (fun r => if r = 0 then 2 else 1), .real⟩ 2 [1, 1, -1]))
    (fun r => .ok (VSpace.vec ⟨.all 2, .real⟩ 2 [-1, 0] r)) := by
  have h := C24_rmatvec_partial (n := 2) (J := fun _ _ => 0) (ops := vsOps) (dtype := none) (dx := .real) (dt := .real) (N := 2)
    (X := .lin 3 (fun r => if r = 0 then 2 else 1)) (d := [1, 1, -1])
    (lin_wf (by decide) (by simp)) (by decide) rfl rfl (by
      intro r hr
      match r, hr with
      | 0, _ => decide) (fun r hr => by
      match r, hr with
      | 0, _ => rfl
      | 1, _ => rfl) (fun o ho => by obtain ⟨x, y, rfl⟩ := vsOps_row ho; exact ⟨LOp.row_ok _ _ _ _, rfl⟩)
      (fun r _ => by unfold vsOps; split_ifs <;> simp) ⟨rfl, fits_rat _ _⟩
  have e : hsum true 2 (allOps 2 vsOps) [1, 1, -1] = [-1, 0] := by decide +kernel
  rwa [e] at h

example : Always 2 (hsProg 2 (fun _ _ => 0) vsOps none false (VSpace.vec ⟨.lin 6 (fun _ => 3), .real⟩ 2 [1, 1, 1, 1, 1, 2]))
    (fun r => .ok (VSpace.vec ⟨.all 1, .real⟩ 2 [27] r)) := by
  have h := C25_matvec_partial (n := 2) (J := fun _ _ => 0) (ops := vsOps) (dtype := none) (dx := .real) (dt := .real) (M := 1)
    (X := .lin 6 (fun _ => 3)) (d := [1, 1, 1, 1, 1, 2])
    (lin_wf (by decide) (by simp)) (by decide) rfl rfl (by
      intro r hr
      match r, hr with
      | 0, _ => decide) (fun r hr => by
      match r, hr with
      | 0, _ => rfl
      | 1, _ => rfl) (fun o ho => by obtain ⟨x, y, rfl⟩ := vsOps_row ho; exact ⟨LOp.row_ok _ _ _ _, rfl⟩)
      (fun r _ => by unfold vsOps; split_ifs <;> simp) ⟨rfl, fits_rat _ _⟩
  have e : hsum false 1 (allOps 2 vsOps) [1, 1, 1, 1, 1, 2] = [27] := by decide +kernel
  rwa [e] at h

/-- multiplication by a rational complex number, as an operator of size 1 and the given dtype -/
def LOp.times (t : DType) (z : QI) : LOp QI := ⟨1, 1, t, fun x => x.map (z * ·), fun x => x.map (star z * ·)⟩

/-- **C24 fails for operators of different dtypes**: MPIVStack of x ↦ x (float) on rank 0 and x ↦ i x (complex) on rank 1.  `dtype` is computed from the local operators only, so
    that it is float on rank 0 and complex on rank 1.  `rmatvec` of (1, 1) should be 1 - i on all ranks; rank 0 holds 1 and rank 1 holds 1 - i. -/
theorem C24_violated_dtype :
    Ends 2 (fun r => do
        let y ← vsProg 2 (fun _ _ => 0) (fun r => if r = 0 then [.times .real 1] else [.times .cplx QI.I]) none true (VSpace.vec ⟨.lin 2 (fun _ => 1), .real⟩ 2 [1, 1]) r
        .ret (y.dtype, y.larr.data))
      (fun r => [some (.ok (.real, [⟨1, 0⟩])), some (.ok (.cplx, [⟨1, -1⟩]))].getD r none) :=
  ends_of_sim 50 (by decide +kernel)

end Verif

/-
  C72: with any arithmetic, the derivative operators compute each entry by the same operations on the same numbers, whatever the number of ranks and the layout of the input.
-/
import Verif.Proofs.FloatDerivApply
import Verif.Proofs.FloatDerivExact
import Verif.Proofs.Methods
import Verif.Props.C70

namespace Verif
open NDArray

variable {K : Type}

/-- flat vectors in this layout can be brought to rows of an array of shape `N :: rest` by exchanging entries between neighbours: scattered vectors whose boundaries are near
    those of the rows, or vectors that all ranks hold -/
structure Rowable (n N : Nat) (rest : List Nat) (X : Layout) : Prop where
  wf : X.WF n
  shape : X.gshape = [N * rest.prod]
  near : X.part = .scatter ∧ Near n X (.slab n N rest) ∨
    X = .all (N * rest.prod) ∧ Near n (.lin (N * rest.prod) (balanced (N * rest.prod) n)) (.slab n N rest)

section
variable (A : ArrArith K) {n N : Nat} {J : Nat → Nat → K} {rest : List Nat} {dt : DType} {s s2 : K} {edge : Bool} {X : Layout} {x : SVec K}

theorem derivOp_mv {o : Deriv K} (ho : o.dims = N :: rest) {mv rmv : Ctx K → Deriv K → DArr K → P K (DArr K)} (hg : X.gshape = [N * rest.prod])
    {ρ : Except Err (Nat → DArr K)} (h : Runs n (fun r => A.derivApply (env n J r) o mv (X.fam n x.dt (X.piece x.v) r)) (fun r => ρ.map fun y => y r)) :
    Always n (fun r => (A.derivOp o mv rmv).mv (env n J r) (x.part X n r)) (fun r => ρ.map fun y => .one (y r)) := by
  refine Runs.always ?_
  have hs : ∀ r, ¬ (X.fam n x.dt (X.piece x.v) r).gshape ≠ [o.dims.prod] := fun r => by rw [not_not, ho]; exact hg.trans (by simp)
  simp only [ArrArith.derivOp, SVec.part, if_neg (hs _), Prog.bind_eq]
  cases ρ with
  | error e => exact Runs.bind h (Runs.throw fun _ => e)
  | ok y => exact Runs.bind_ok h (Runs.ret _)

theorem derivOp_rmv {o : Deriv K} (ho : o.dims = N :: rest) {mv rmv : Ctx K → Deriv K → DArr K → P K (DArr K)} (hg : X.gshape = [N * rest.prod])
    {ρ : Except Err (Nat → DArr K)} (h : Runs n (fun r => A.derivApply (env n J r) o rmv (X.fam n x.dt (X.piece x.v) r)) (fun r => ρ.map fun y => y r)) :
    Always n (fun r => (A.derivOp o mv rmv).rmv (env n J r) (x.part X n r)) (fun r => ρ.map fun y => .one (y r)) :=
  derivOp_mv A (mv := rmv) (rmv := mv) ho hg h

theorem a_deriv (hn : 0 < n) {o : Deriv K} (ho : o.dims = N :: rest) {f : Ctx K → Deriv K → DArr K → P K (DArr K)} {E : Except Err ((Nat → K) → Nat → K)}
    (hm : AMethod n N rest J o f E x.dt) (hX : Rowable n N rest X) (hx : x.v.length = X.gshape.prod) :
    Runs n (fun r => A.derivApply (env n J r) o f (X.fam n x.dt (X.piece x.v) r))
      (fun r => (E.map fun E r => (Layout.flat n N rest).fam n o.dtype ((Layout.flat n N rest).piece (A.along o.dtype N rest E (A.received X x)).v) r).map fun y => y r) := by
  obtain ⟨hw, hg, ⟨hp, hN⟩ | ⟨rfl, hN⟩⟩ := hX
  · have hb : ¬ X.part.isBroadcast = true := by rw [hp]; decide
    simp only [map_map_except, ArrArith.received, if_neg hb]
    exact a_deriv_scatter A hn ho hm (conform_slab hn hw hg hp) hN hx
  · simp only [map_map_except, ArrArith.received, show (Layout.all (N * rest.prod)).part.isBroadcast = true from rfl, if_true]
    exact a_deriv_bcast A hn ho hm hN (by simpa [Layout.all] using hx)

/-! ### the operators -/

/-- the first derivative -/
theorem C72_first (k : FDKind) (hn : 0 < n) (hroom : fdRoom k edge n N) (hX : Rowable n N rest X) (hx : x.v.length = X.gshape.prod) :
    Always n (fun r => (A.firstDerivative k ⟨N :: rest, s, edge, dt⟩).mv (env n J r) (x.part X n r))
      (fun r => .ok ((A.along dt N rest (fun v p => A.fdEntry dt edge N s v p k) (A.received X x)).part (.flat n N rest) n r)) :=
  derivOp_mv A rfl hX.shape (a_deriv A hn rfl (amethod_fd A k hn hroom) hX hx)

/-- and its adjoint; an operator of real dtype needs a real argument -/
theorem C72_first_adj (k : FDKind) (hn : 0 < n) (hroom : fdRoomAdj k edge n N) (hdt : dt = .real → x.dt = .real) (hX : Rowable n N rest X) (hx : x.v.length = X.gshape.prod) :
    Always n (fun r => (A.firstDerivative k ⟨N :: rest, s, edge, dt⟩).rmv (env n J r) (x.part X n r))
      (fun r => .ok ((A.along dt N rest (fun v p => A.fdEntryAdj dt edge N s v p k) (A.received X x)).part (.flat n N rest) n r)) :=
  derivOp_rmv A rfl hX.shape (a_deriv A hn rfl (amethod_fdAdj A k hn hroom hdt) hX hx)

/-- the second derivative -/
theorem C72_second (k : SDKind) (hn : 0 < n) (hroom : sdRoom k edge n N) (hs : A.pySq s = .ok s2) (hX : Rowable n N rest X) (hx : x.v.length = X.gshape.prod) :
    Always n (fun r => (A.secondDerivative k ⟨N :: rest, s, edge, dt⟩).mv (env n J r) (x.part X n r))
      (fun r => .ok ((A.along dt N rest (fun v p => A.sdEntry dt edge N s2 v p k) (A.received X x)).part (.flat n N rest) n r)) := by
  have h := derivOp_mv A (rmv := A.sdRmv k) rfl hX.shape (a_deriv A hn rfl (amethod_sd A (J := J) (s := s) (dt := dt) k hn hroom) hX hx)
  rw [hs] at h
  exact h

/-- and its adjoint -/
theorem C72_second_adj (k : SDKind) (hn : 0 < n) (hroom : sdRoomAdj k edge n N) (hdt : dt = .real → x.dt = .real) (hs : A.pySq s = .ok s2) (hX : Rowable n N rest X)
    (hx : x.v.length = X.gshape.prod) :
    Always n (fun r => (A.secondDerivative k ⟨N :: rest, s, edge, dt⟩).rmv (env n J r) (x.part X n r))
      (fun r => .ok ((A.along dt N rest (fun v p => A.sdEntryAdj dt edge N s2 v p k) (A.received X x)).part (.flat n N rest) n r)) := by
  have h := derivOp_rmv A (mv := A.sdMv k) rfl hX.shape (a_deriv A hn rfl (amethod_sdAdj A (J := J) (s := s) (dt := dt) k hn hroom hdt) hX hx)
  rw [hs] at h
  exact h

/-- if the square of the sampling step overflows, all ranks raise OverflowError -/
theorem C72_second_overflow (k : SDKind) (hn : 0 < n) (hroom : sdRoom k edge n N) {e : Err} (hs : A.pySq s = .error e) (hX : Rowable n N rest X) (hx : x.v.length = X.gshape.prod) :
    Always n (fun r => (A.secondDerivative k ⟨N :: rest, s, edge, dt⟩).mv (env n J r) (x.part X n r)) (fun _ => .error e) := by
  have h := derivOp_mv A (rmv := A.sdRmv k) rfl hX.shape (a_deriv A hn rfl (amethod_sd A (J := J) (s := s) (dt := dt) k hn hroom) hX hx)
  rw [hs] at h
  exact h

/-- the adjoint -/
theorem C72_second_adj_overflow (k : SDKind) (hn : 0 < n) (hroom : sdRoomAdj k edge n N) (hdt : dt = .real → x.dt = .real) {e : Err} (hs : A.pySq s = .error e) (hX : Rowable n N rest X)
    (hx : x.v.length = X.gshape.prod) :
    Always n (fun r => (A.secondDerivative k ⟨N :: rest, s, edge, dt⟩).rmv (env n J r) (x.part X n r)) (fun _ => .error e) := by
  have h := derivOp_rmv A (mv := A.sdMv k) rfl hX.shape (a_deriv A hn rfl (amethod_sdAdj A (J := J) (s := s) (dt := dt) k hn hroom hdt) hX hx)
  rw [hs] at h
  exact h

/-! ### numbers of ranks and layouts -/

/-- the global result does not depend on the number of ranks, on the layout of the scattered argument nor on what is in unwritten memory -/
theorem C72_ranks (k : FDKind) {n₁ n₂ : Nat} {J₁ J₂ : Nat → Nat → K} {X₁ X₂ : Layout} (hn₁ : 0 < n₁) (hn₂ : 0 < n₂) (hr₁ : fdRoom k edge n₁ N) (hr₂ : fdRoom k edge n₂ N)
    (hX₁ : Rowable n₁ N rest X₁) (hX₂ : Rowable n₂ N rest X₂) (hp₁ : X₁.part = .scatter) (hp₂ : X₂.part = .scatter) (hx : x.v.length = N * rest.prod) :
    ∃ y : SVec K, y.v.length = N * rest.prod ∧
      Always n₁ (fun r => (A.firstDerivative k ⟨N :: rest, s, edge, dt⟩).mv (env n₁ J₁ r) (x.part X₁ n₁ r)) (fun r => .ok (y.part (.flat n₁ N rest) n₁ r)) ∧
      Always n₂ (fun r => (A.firstDerivative k ⟨N :: rest, s, edge, dt⟩).mv (env n₂ J₂ r) (x.part X₂ n₂ r)) (fun r => .ok (y.part (.flat n₂ N rest) n₂ r)) := by
  refine ⟨_, ?_, C72_first A k hn₁ hr₁ hX₁ (by rw [hx, hX₁.shape]; simp), ?_⟩
  · simp [ArrArith.along]
  · refine (C72_first A k hn₂ hr₂ hX₂ (by rw [hx, hX₂.shape]; simp)).congr fun r _ => ?_
    simp only [ArrArith.received, hp₁, hp₂]

/-- the adjoint -/
theorem C72_ranks_adj (k : FDKind) {n₁ n₂ : Nat} {J₁ J₂ : Nat → Nat → K} {X₁ X₂ : Layout} (hn₁ : 0 < n₁) (hn₂ : 0 < n₂) (hr₁ : fdRoomAdj k edge n₁ N) (hr₂ : fdRoomAdj k edge n₂ N)
    (hdt : dt = .real → x.dt = .real) (hX₁ : Rowable n₁ N rest X₁) (hX₂ : Rowable n₂ N rest X₂) (hp₁ : X₁.part = .scatter) (hp₂ : X₂.part = .scatter) (hx : x.v.length = N * rest.prod) :
    ∃ y : SVec K, y.v.length = N * rest.prod ∧
      Always n₁ (fun r => (A.firstDerivative k ⟨N :: rest, s, edge, dt⟩).rmv (env n₁ J₁ r) (x.part X₁ n₁ r)) (fun r => .ok (y.part (.flat n₁ N rest) n₁ r)) ∧
      Always n₂ (fun r => (A.firstDerivative k ⟨N :: rest, s, edge, dt⟩).rmv (env n₂ J₂ r) (x.part X₂ n₂ r)) (fun r => .ok (y.part (.flat n₂ N rest) n₂ r)) := by
  refine ⟨_, ?_, C72_first_adj A k hn₁ hr₁ hdt hX₁ (by rw [hx, hX₁.shape]; simp), ?_⟩
  · simp [ArrArith.along]
  · refine (C72_first_adj A k hn₂ hr₂ hdt hX₂ (by rw [hx, hX₂.shape]; simp)).congr fun r _ => ?_
    simp only [ArrArith.received, hp₁, hp₂]

/-- the second derivative and its adjoint -/
theorem C72_ranks_second (k : SDKind) {n₁ n₂ : Nat} {J₁ J₂ : Nat → Nat → K} {X₁ X₂ : Layout} (hn₁ : 0 < n₁) (hn₂ : 0 < n₂) (hr₁ : sdRoom k edge n₁ N) (hr₂ : sdRoom k edge n₂ N)
    (hs : A.pySq s = .ok s2) (hX₁ : Rowable n₁ N rest X₁) (hX₂ : Rowable n₂ N rest X₂) (hp₁ : X₁.part = .scatter) (hp₂ : X₂.part = .scatter) (hx : x.v.length = N * rest.prod) :
    ∃ y : SVec K, y.v.length = N * rest.prod ∧
      Always n₁ (fun r => (A.secondDerivative k ⟨N :: rest, s, edge, dt⟩).mv (env n₁ J₁ r) (x.part X₁ n₁ r)) (fun r => .ok (y.part (.flat n₁ N rest) n₁ r)) ∧
      Always n₂ (fun r => (A.secondDerivative k ⟨N :: rest, s, edge, dt⟩).mv (env n₂ J₂ r) (x.part X₂ n₂ r)) (fun r => .ok (y.part (.flat n₂ N rest) n₂ r)) := by
  refine ⟨_, ?_, C72_second A k hn₁ hr₁ hs hX₁ (by rw [hx, hX₁.shape]; simp), ?_⟩
  · simp [ArrArith.along]
  · refine (C72_second A k hn₂ hr₂ hs hX₂ (by rw [hx, hX₂.shape]; simp)).congr fun r _ => ?_
    simp only [ArrArith.received, hp₁, hp₂]

theorem C72_ranks_second_adj (k : SDKind) {n₁ n₂ : Nat} {J₁ J₂ : Nat → Nat → K} {X₁ X₂ : Layout} (hn₁ : 0 < n₁) (hn₂ : 0 < n₂) (hr₁ : sdRoomAdj k edge n₁ N) (hr₂ : sdRoomAdj k edge n₂ N)
    (hdt : dt = .real → x.dt = .real) (hs : A.pySq s = .ok s2) (hX₁ : Rowable n₁ N rest X₁) (hX₂ : Rowable n₂ N rest X₂) (hp₁ : X₁.part = .scatter) (hp₂ : X₂.part = .scatter)
    (hx : x.v.length = N * rest.prod) :
    ∃ y : SVec K, y.v.length = N * rest.prod ∧
      Always n₁ (fun r => (A.secondDerivative k ⟨N :: rest, s, edge, dt⟩).rmv (env n₁ J₁ r) (x.part X₁ n₁ r)) (fun r => .ok (y.part (.flat n₁ N rest) n₁ r)) ∧
      Always n₂ (fun r => (A.secondDerivative k ⟨N :: rest, s, edge, dt⟩).rmv (env n₂ J₂ r) (x.part X₂ n₂ r)) (fun r => .ok (y.part (.flat n₂ N rest) n₂ r)) := by
  refine ⟨_, ?_, C72_second_adj A k hn₁ hr₁ hdt hs hX₁ (by rw [hx, hX₁.shape]; simp), ?_⟩
  · simp [ArrArith.along]
  · refine (C72_second_adj A k hn₂ hr₂ hdt hs hX₂ (by rw [hx, hX₂.shape]; simp)).congr fun r _ => ?_
    simp only [ArrArith.received, hp₁, hp₂]

/-! ### solvers -/

theorem rowable_flat (hn : 0 < n) : Rowable n N rest (.flat n N rest) := ⟨flat_wf hn, rfl, .inl ⟨rfl, near_flat⟩⟩

/-- the first derivative and its adjoint act as functions of the global vectors, so C70 applies to solvers with these operators; if the operator is real, the data must be real -/
theorem C72_actsAs (k : FDKind) (hn : 0 < n) (hroom : fdRoom k edge n N) (hadj : fdRoomAdj k edge n N) :
    ActsAs n J (fun _ => (A.firstDerivative k ⟨N :: rest, s, edge, dt⟩).mv) (.flat n N rest) (.flat n N rest)
      (fun x => A.along dt N rest (fun v p => A.fdEntry dt edge N s v p k) (x.copy A.toArith)) ∧
    ActsAs n J (fun _ => (A.firstDerivative k ⟨N :: rest, s, edge, dt⟩).rmv) (.flat n N rest) (.flat n N rest)
      (fun x => A.along dt N rest (fun v p => A.fdEntryAdj dt edge N s v p k) (x.copy A.toArith)) (fun dx => dt = .real → dx = .real) :=
  ⟨⟨fun x _ _ => by simp [ArrArith.along, Layout.lin], fun x hx _ => C72_first A k hn hroom (rowable_flat hn) hx⟩,
   ⟨fun x _ _ => by simp [ArrArith.along, Layout.lin], fun x hx hd => C72_first_adj A k hn hadj hd (rowable_flat hn) hx⟩⟩

/-- the second derivative likewise -/
theorem C72_actsAs_second (k : SDKind) (hn : 0 < n) (hroom : sdRoom k edge n N) (hadj : sdRoomAdj k edge n N) (hs : A.pySq s = .ok s2) :
    ActsAs n J (fun _ => (A.secondDerivative k ⟨N :: rest, s, edge, dt⟩).mv) (.flat n N rest) (.flat n N rest)
      (fun x => A.along dt N rest (fun v p => A.sdEntry dt edge N s2 v p k) (x.copy A.toArith)) ∧
    ActsAs n J (fun _ => (A.secondDerivative k ⟨N :: rest, s, edge, dt⟩).rmv) (.flat n N rest) (.flat n N rest)
      (fun x => A.along dt N rest (fun v p => A.sdEntryAdj dt edge N s2 v p k) (x.copy A.toArith)) (fun dx => dt = .real → dx = .real) :=
  ⟨⟨fun x _ _ => by simp [ArrArith.along, Layout.lin], fun x hx _ => C72_second A k hn hroom hs (rowable_flat hn) hx⟩,
   ⟨fun x _ _ => by simp [ArrArith.along, Layout.lin], fun x hx hd => C72_second_adj A k hn hadj hd hs (rowable_flat hn) hx⟩⟩

/-- CGLS with the first derivative: if dot products and norms do not depend on the order of summation, then all results are the same on any two numbers of ranks -/
theorem C72_cgls (k : FDKind) (hA : OrderFree A.toArith) {n₁ n₂ : Nat} {J₁ J₂ : Nat → Nat → K} (hn₁ : 0 < n₁) (hn₂ : 0 < n₂) (hr₁ : fdRoom k edge n₁ N) (hr₂ : fdRoom k edge n₂ N)
    (ha₁ : fdRoomAdj k edge n₁ N) (ha₂ : fdRoomAdj k edge n₂ N) {y x0 : SVec K} {damp tol : K} {niter : Int}
    (hy : y.v.length = N * rest.prod) (hx : x0.v.length = N * rest.prod) (hdt : dt = .real → y.dt = .real) :
    let op : XOp K := A.firstDerivative k ⟨N :: rest, s, edge, dt⟩
    let L (n : Nat) : Layout := .flat n N rest
    (∃ (x : SVec K) (istop it : Nat) (r1 r2 : K) (cost : List K) (xs : List (SVec K)),
      Always n₁ (fun r => FCGLS.solve A.toArith A.normX (env n₁ J₁ r) op (y.part (L n₁) n₁ r) (x0.part (L n₁) n₁ r) (some niter) damp tol)
        (fun r => .ok ⟨x.part (L n₁) n₁ r, istop, it, r1, r2, cost, xs.map fun z => z.part (L n₁) n₁ r⟩) ∧
      Always n₂ (fun r => FCGLS.solve A.toArith A.normX (env n₂ J₂ r) op (y.part (L n₂) n₂ r) (x0.part (L n₂) n₂ r) (some niter) damp tol)
        (fun r => .ok ⟨x.part (L n₂) n₂ r, istop, it, r1, r2, cost, xs.map fun z => z.part (L n₂) n₂ r⟩)) ∨
    ∃ e, Always n₁ (fun r => FCGLS.solve A.toArith A.normX (env n₁ J₁ r) op (y.part (L n₁) n₁ r) (x0.part (L n₁) n₁ r) (some niter) damp tol) (fun _ => .error e) ∧
      Always n₂ (fun r => FCGLS.solve A.toArith A.normX (env n₂ J₂ r) op (y.part (L n₂) n₂ r) (x0.part (L n₂) n₂ r) (some niter) damp tol) (fun _ => .error e) := by
  intro op L
  obtain ⟨a1, a2⟩ := C72_actsAs A (J := J₁) (s := s) (dt := dt) (rest := rest) k hn₁ hr₁ ha₁
  obtain ⟨b1, b2⟩ := C72_actsAs A (J := J₂) (s := s) (dt := dt) (rest := rest) k hn₂ hr₂ ha₂
  exact C70_cgls_layouts A.toArith hA (op₁ := fun _ => op) (op₂ := fun _ => op) hn₁ hn₂ (flat_wf hn₁) (flat_wf hn₂) rfl rfl (flat_wf hn₁) (flat_wf hn₂) rfl rfl rfl rfl
    (fun h => by rcases h with h | h <;> exact absurd h Bool.false_ne_true) (fun h => by rcases h with h | h <;> exact absurd h Bool.false_ne_true)
    (fun h => by rcases h with h | h <;> exact absurd h Bool.false_ne_true) a1 b1 a2 b2 (fun _ _ _ => trivial)
    (by simpa [L, Layout.lin] using hy) (by simpa [L, Layout.lin] using hx) hdt trivial

end

/-! ### exact arithmetic -/

section
variable [RCLike K] {N : Nat} {rest : List Nat} {dt : DType} {s : K} {edge : Bool} {X : Layout} {x : SVec K}

theorem star_of_conj {D : (Nat → K) → Nat → K} (hD : Conj D) (v : Nat → K) (hv : ∀ q, star (v q) = v q) (p : Nat) : star (D v p) = D v p := by rw [hD v p, funext hv]

/-- the operations of the entries are those of the differences in C29 and C31 and of their adjoints in C30 and C32: with exact arithmetic they give the same numbers -/
theorem C72_exact (k : FDKind) (hN : edge = true → 2 ≤ N) (hs : star s = s) (hx : x.Fits) (hd : dt = .real → x.dt = .real) :
    (ArrArith.exact.along dt N rest (fun v p => ArrArith.exact.fdEntry dt edge N s v p k) (ArrArith.exact.received X x)) = ⟨dt, alongRows (fdAt k edge N) s N rest.prod x.v⟩ ∧
    (ArrArith.exact.along dt N rest (fun v p => ArrArith.exact.fdEntryAdj dt edge N s v p k) (ArrArith.exact.received X x)) = ⟨dt, alongRows (fdAdj k edge N) s N rest.prod x.v⟩ := by
  refine ⟨along_exact hx hd (fun v p hp hv => ?_) (fun _ => hs) (star_of_conj (conj_fdAt k)), along_exact hx hd (fun v p hp hv => ?_) (fun _ => hs) (star_of_conj (conj_fdAdj k))⟩
  · cases dt with
    | real => rw [fdEntry_real hs (hv rfl), fdEntry_cplx k hp hN]
    | cplx => exact fdEntry_cplx k hp hN
  · cases dt with
    | real => rw [fdEntryAdj_real hs (hv rfl), fdEntryAdj_cplx]
    | cplx => exact fdEntryAdj_cplx k

/-- the second derivative -/
theorem C72_exact_second (k : SDKind) (hN : edge = true → 2 ≤ N) (hs : star s = s) (hx : x.Fits) (hd : dt = .real → x.dt = .real) :
    (ArrArith.exact.along dt N rest (fun v p => ArrArith.exact.sdEntry dt edge N s v p k) (ArrArith.exact.received X x)) = ⟨dt, alongRows (sdAt k edge N) s N rest.prod x.v⟩ ∧
    (ArrArith.exact.along dt N rest (fun v p => ArrArith.exact.sdEntryAdj dt edge N s v p k) (ArrArith.exact.received X x)) = ⟨dt, alongRows (sdAdj k edge N) s N rest.prod x.v⟩ := by
  refine ⟨along_exact hx hd (fun v p hp hv => ?_) (fun _ => hs) (star_of_conj (conj_sdAt k)), along_exact hx hd (fun v p hp hv => ?_) (fun _ => hs) (star_of_conj (conj_sdAdj k))⟩
  · cases dt with
    | real => rw [sdEntry_real hs (hv rfl), sdEntry_cplx k hp hN]
    | cplx => exact sdEntry_cplx k hp hN
  · cases dt with
    | real => rw [sdEntryAdj_real hs (hv rfl), sdEntryAdj_cplx]
    | cplx => exact sdEntryAdj_cplx k

end

/-! ### cases -/

/-- rounded integers; the square of a step above 100 overflows -/
def roughArr : ArrArith Int where
  toArith := { roughArith with pySq := fun x => if 100 < x then .error .overflow else .ok (rough (x * x)) }
  sub x y := rough (x - y)
  div x y := rough (x / y)
  half := 0
  two := 2
  three := 3
  twelve := 12

/-- ten entries, five on each of two ranks -/
def fiveFive : Layout := .lin 10 fun _ => 5

theorem fiveFive_rowable : Rowable 2 5 [2] fiveFive :=
  ⟨⟨by simp [fiveFive, Layout.lin], fun _ => by decide, by simp [fiveFive, Layout.lin]⟩, rfl, .inl ⟨rfl, fun r hr => by
    rw [show r = 0 by omega]
    decide⟩⟩

/-- forward differences of a 5 × 2 array of rounded integers, given as a vector with five entries on each of two ranks: the differences 1, 9, 21, 5 of the first column become 1, 8, 20, 5 -/
example (J : Nat → Nat → Int) : Always 2 (fun r => (roughArr.firstDerivative .forward ⟨[5, 2], 1, false, .real⟩).mv (env 2 J r) ((⟨.real, [0, 0, 1, 1, 10, 2, 31, 3, 36, 4]⟩ : SVec Int).part fiveFive 2 r))
    (fun r => .ok ((⟨.real, [1, 1, 8, 1, 20, 1, 5, 1, 0, 0]⟩ : SVec Int).part (.flat 2 5 [2]) 2 r)) := by
  have h := C72_first roughArr (n := 2) (N := 5) (rest := [2]) (J := J) (s := 1) (dt := .real) (edge := false) (X := fiveFive) (x := ⟨.real, [0, 0, 1, 1, 10, 2, 31, 3, 36, 4]⟩)
    .forward (by decide) (by show 2 ≤ 5; decide) fiveFive_rowable rfl
  refine h.congr fun r _ => ?_
  congr 2

/-- the second derivative with step 1000: all ranks raise OverflowError -/
example (J : Nat → Nat → Int) : Always 2 (fun r => (roughArr.secondDerivative .forward ⟨[5, 2], 1000, false, .real⟩).mv (env 2 J r) ((⟨.real, [0, 0, 1, 1, 10, 2, 31, 3, 36, 4]⟩ : SVec Int).part fiveFive 2 r))
    (fun _ => .error .overflow) :=
  C72_second_overflow roughArr .forward (by decide) (.inl (by decide)) rfl fiveFive_rowable rfl

end Verif

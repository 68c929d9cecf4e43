/- The operators of the post-stack inversion: MPIBlockDiag and MPILaplacian as leaves. -/
import Verif.Proofs.Regularised
import Verif.Props.C33

set_option linter.unusedSectionVars false

namespace Verif
open NDArray

section
variable {K : Type} [Field K] [StarRing K] [CharZero K] {sd : Serial K SDKind} {n N : Nat} {rest : List Nat} {edge : Bool} {dt dx : DType} {X : Layout} {J : Nat → Nat → K} {kind : SDKind}

/-- the expression of the Laplacian -/
def lapE (kind : SDKind) (p0 : Nat × K × Scal K) (l : List (Nat × K × Scal K)) : MOp K (LTerm K) :=
  lapExpr (.scaled (.leaf ⟨p0.1, p0.2.1, kind⟩) p0.2.2) (l.map fun p => (⟨p.1, p.2.1, .centered⟩, p.2.2))

/-- the object built by `MPILaplacian` -/
theorem runs_mkLaplacian (hn : 0 < n) {p0 : Nat × K × Scal K} {l : List (Nat × K × Scal K)} (h0 : LapOk sd n N rest edge dt kind p0)
    (hl : ∀ p ∈ l, LapOk sd n N rest edge dt .centered p) (hdt : dt = .real → dx = .real)
    (hX : X.WF n) (hg : X.gshape = [N * rest.prod]) (hp : X.part = .scatter) (hN : Near n X (.slab n N rest)) :
    ∃ P : Nat → Prim K, (∀ r, (P r).shape = (N * rest.prod, N * rest.prod)) ∧
      Runs n (fun r => mkLaplacian (env n J r) sd (N :: rest) ((p0 :: l).map (·.1)) ((p0 :: l).map (·.2.2)) ((p0 :: l).map (·.2.1)) edge kind dt) (fun r => .ok (P r)) ∧
      ∀ b, Computes n J (fun r c x => if b then (P r).rmv c x else (P r).mv c x) ⟨X, dx⟩ ⟨.flat n N rest, dt⟩ (den (lapLeaves sd n N rest edge dt) b (lapE kind p0 l)) := by
  set e : MOp K (LTerm K) := lapE kind p0 l with he
  have hax : ∀ {k p}, LapOk sd n N rest edge dt k p → p.1 < rest.length + 1 := by
    intro k p h
    cases e : p.1 with
    | zero => omega
    | succ a => have := (h.1.serial a e).1; omega
  have hsh : e.shape (lapLeaves sd n N rest edge dt).sh = (N * rest.prod, N * rest.prod) := lapExpr_shape rfl _
  have hshd : Shaped (lapLeaves sd n N rest edge dt).sh e :=
    lapExpr_shaped (e := .scaled (.leaf ⟨p0.1, p0.2.1, kind⟩) p0.2.2) trivial rfl _
  have ht : ∀ b, Typed (lapLeaves sd n N rest edge dt) n J (lapPrim sd n N rest edge dt) b e ⟨X, dx⟩ ⟨.flat n N rest, dt⟩ := fun b => by
    refine lapExpr_typed hn hdt hX hg hp hN (fun q hq => ?_) ⟨lap_typed hn hdt hX hg hp hN h0.1 b, h0.2⟩
    obtain ⟨p, hp, rfl⟩ := List.mem_map.1 hq
    exact hl p hp
  obtain ⟨e', hH, -, hH3⟩ := H_shaped _ hshd
  have hs : ∀ r, (e.map (lapPrim sd n N rest edge dt · r)).shape Prim.shape = (N * rest.prod, N * rest.prod) := fun r => by
    rw [shape_map (lv := lapLeaves sd n N rest edge dt) (prim := lapPrim sd n N rest edge dt) e fun t => lapPrim_shape hn t r, hsh]
  refine ⟨fun r => ⟨N * rest.prod, N * rest.prod, dt, fun c x => MOp.run c false (e.map (lapPrim sd n N rest edge dt · r)) x,
      fun c x => MOp.run c false (e'.map (lapPrim sd n N rest edge dt · r)) x⟩, fun _ => rfl, ?_, fun b => ?_⟩
  · unfold mkLaplacian
    have c1 : ((p0 :: l).map (·.1)).any ((N :: rest).length ≤ ·) = false := by
      rw [List.any_eq_false]
      intro a ha
      obtain ⟨p, hp, rfl⟩ := List.mem_map.1 ha
      have : p.1 < rest.length + 1 := by
        rcases List.mem_cons.1 hp with rfl | hp
        · exact hax h0
        · exact hax (hl p hp)
      simpa using by omega
    have c2 : ((p0 :: l).map (·.1)).zip (((p0 :: l).map (·.2.1)).zip ((p0 :: l).map (·.2.2))) = p0 :: l := by
      generalize p0 :: l = q
      induction q with
      | nil => rfl
      | cons a q ih => simp [ih]
    simp only [c1, c2, Bool.false_eq_true, if_false, List.length_map, and_self, not_true_eq_false, Prog.bind_eq]
    refine Runs.bind_ok (runs_lapTerm h0.1) ?_
    refine Runs.bind_ok (a := fun r => e.map (lapPrim sd n N rest edge dt · r))
      (runs_lapLoop hn (fun p hp => (hl p hp).1) (e := .scaled (.leaf ⟨p0.1, p0.2.1, kind⟩) p0.2.2) rfl) ?_
    refine (Runs.ret _).congr (fun r _ => ?_) fun _ _ => rfl
    rw [hs r, H_map (sh := (lapLeaves sd n N rest edge dt).sh) (fun t => lapPrim_shape hn t r) hH]
    rfl
  · cases b with
    | false => exact typed_computes (ht false)
    | true =>
      have := typed_computes (typed_H hH (b := false) (ht true))
      have ed : den (lapLeaves sd n N rest edge dt) false e' = den (lapLeaves sd n N rest edge dt) true e := funext fun x => den_H hH false x
      rw [ed] at this
      exact this

end

variable {K : Type} [RCLike K] {sd : Serial K SDKind} {n N : Nat} {rest : List Nat} {edge : Bool} {dt : DType} {J : Nat → Nat → K} {kind : SDKind}

/-- hypotheses: every rank has operators for its rows, from blocks of the model to blocks of the data of the same size, with correct adjoints; the entries of the Laplacian are as in C33 -/
structure PostHyp (sd : Serial K SDKind) (n N : Nat) (rest : List Nat) (edge : Bool) (kind : SDKind) (dt : DType) (ops : Nat → List (LOp K)) (p0 : Nat × K × Scal K)
    (l : List (Nat × K × Scal K)) : Prop where
  pos : 0 < n
  size : ∀ b r, inSum b (ops r) = balanced N n r * rest.prod
  some : ∀ r < n, ops r ≠ []
  dtype : ∀ r < n, opsDType (ops r) none = .ok dt
  ok : ∀ b, ∀ o ∈ allOps n ops, o.Ok b dt dt
  adj : ∀ o ∈ allOps n ops, o.Adjoint
  first : LapOk sd n N rest edge dt kind p0
  others : ∀ p ∈ l, LapOk sd n N rest edge dt .centered p

namespace PostHyp
variable {ops : Nat → List (LOp K)} {p0 : Nat × K × Scal K} {l : List (Nat × K × Scal K)}

/-- `false`: MPIBlockDiag, `true`: MPILaplacian -/
noncomputable def lv (sd : Serial K SDKind) (n N : Nat) (rest : List Nat) (edge : Bool) (kind : SDKind) (dt : DType) (ops : Nat → List (LOp K)) (p0 : Nat × K × Scal K)
    (l : List (Nat × K × Scal K)) : Leaves K Bool where
  sh _ := (N * rest.prod, N * rest.prod)
  fn i b := if i then den (lapLeaves sd n N rest edge dt) b (lapE kind p0 l) else blockDiag b (allOps n ops)

theorem total (h : PostHyp sd n N rest edge kind dt ops p0 l) (b : Bool) : inSum b (allOps n ops) = N * rest.prod := by
  have e : (fun r => inSum b (ops r)) = fun r => balanced N n r * rest.prod := funext fun r => h.size b r
  rw [inSum_allOps, e, psum_mul, psum_balanced_total N h.pos]

theorem layout (h : PostHyp sd n N rest edge kind dt ops p0 l) (b : Bool) : inL b n ops = Layout.flat n N rest := by
  unfold inL Layout.flat
  rw [h.total b, show (fun r => inSum b (ops r)) = fun r => balanced N n r * rest.prod from funext fun r => h.size b r]

theorem reg (h : PostHyp sd n N rest edge kind dt ops p0 l) {eps : ℝ} (h0 : 0 ≤ eps) {d x0 : List K} (hd : VSpace.Mem ⟨.flat n N rest, dt⟩ d) (hx : VSpace.Mem ⟨.flat n N rest, dt⟩ x0) :
    ∃ P : Nat → Prim K, Runs n (fun r => mkLaplacian (env n J r) sd (N :: rest) ((p0 :: l).map (·.1)) ((p0 :: l).map (·.2.2)) ((p0 :: l).map (·.2.1)) edge kind dt) (fun r => .ok (P r)) ∧
      RegHyp (lv sd n N rest edge kind dt ops p0 l) n J (fun i r => if i then P r else bdPrim n ops none dt r) (.leaf false) (.leaf true) ⟨.flat n N rest, dt⟩ ⟨.flat n N rest, dt⟩ ⟨.flat n N rest, dt⟩ eps d x0 := by
  obtain ⟨P, P1, P2, P3⟩ := runs_mkLaplacian (J := J) (dx := dt) (X := .flat n N rest) h.pos h.first h.others id (flat_wf h.pos) rfl rfl near_flat
  have hsh : (lapE kind p0 l).shape (lapLeaves sd n N rest edge dt).sh = (N * rest.prod, N * rest.prod) := lapExpr_shape rfl _
  have hshd : Shaped (lapLeaves sd n N rest edge dt).sh (lapE kind p0 l) := lapExpr_shaped (e := .scaled (.leaf ⟨p0.1, p0.2.1, kind⟩) p0.2.2) trivial rfl _
  have tG : ∀ b, Typed (lv sd n N rest edge kind dt ops p0 l) n J (fun i r => if i then P r else bdPrim n ops none dt r) b (.leaf false) ⟨.flat n N rest, dt⟩ ⟨.flat n N rest, dt⟩ := fun b => by
    have := typed_blockDiag (lv := lv sd n N rest edge kind dt ops p0 l) (J := J) (n := n) (prim := fun i r => if i then P r else bdPrim n ops none dt r) (i := false) (b := b) (mask := none)
      (dx := dt) (dt := dt) (ops := ops) (fun _ => rfl) (by rw [h.total, h.total]; rfl) rfl (h.ok b) h.some
    rw [h.layout, h.layout] at this
    exact this
  have tR : ∀ b, Typed (lv sd n N rest edge kind dt ops p0 l) n J (fun i r => if i then P r else bdPrim n ops none dt r) b (.leaf true) ⟨.flat n N rest, dt⟩ ⟨.flat n N rest, dt⟩ := fun b =>
    ⟨fun r _ => P1 r, flat_wf h.pos, flat_wf h.pos, by cases b <;> rfl, by cases b <;> rfl, P3 b⟩
  refine ⟨P, P2, ?_, ?_, trivial, trivial, fun i r _ => ?_, tG false, tG true, tR false, tR true, rfl, rfl, rfl, h0, hd, hx⟩
  · intro i b x hx
    cases i with
    | true => 
      have := length_den (lap_sized h.pos) hshd (b := b) (x := x) (by rw [hsh]; exact hx)
      rw [hsh] at this
      exact this
    | false =>
      have := length_blockDiag (h.ok b) (x := x) (by rw [h.total]; rw [hx]; cases b <;> exact le_rfl)
      rw [outSum, h.total] at this
      show (blockDiag b (allOps n ops) x).length = _
      rw [this]
      cases b <;> rfl
  · intro i u v hu hv
    cases i with
    | true => exact C28_adjoint (lap_sized h.pos) (lap_adjoint h.pos) hshd (by rw [hsh]; exact hu) (by rw [hsh]; exact hv)
    | false =>
      exact ip_blockDiag h.adj (fun o ho => (h.ok false o ho).length) (fun o ho => (h.ok true o ho).length) (by rw [h.total]; exact hu) (by rw [h.total]; exact hv)
  · cases i
    · show (bdPrim n ops none dt r).shape = _
      simp only [Prim.shape, bdPrim, outSum, h.total]
      rfl
    · exact P1 r

end PostHyp
end Verif

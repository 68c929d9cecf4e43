/-
  C73: with any arithmetic and any serial operators, MPIBlockDiag, MPIVStack, MPIHStack and operator expressions compute functions of the global vectors; only the sums of
  MPIVStack's adjoint and MPIHStack depend on how the operators are distributed.
-/
import Verif.Proofs.FloatStacking
import Verif.Proofs.FloatDerivExact
import Verif.Props.C72

namespace Verif
open NDArray

variable {K : Type}

/-- vectors in this layout can be brought to `sizes r` entries on rank `r` by exchanging entries between neighbours -/
structure Feeds (n N : Nat) (sizes : Nat → Nat) (X : Layout) : Prop where
  wf : X.WF n
  shape : X.gshape = [N]
  scatter : X.part = .scatter
  near : Near n X (.lin N sizes)

/-- layout with the inputs of the operators of rank `r` on rank `r` (`true`: of the adjoints) -/
abbrev opIn (b : Bool) (n : Nat) (ops : Nat → List (FOp K)) : Layout := .lin (fopIn b (allFOps n ops)) fun r => fopIn b (ops r)

/-- the two products of an operator -/
abbrev Prim.prod (p : Prim K) (b : Bool) (c : Ctx K) (x : DArr K) : P K (DArr K) := if b then p.rmv c x else p.mv c x

section
variable (A : OpArith K) {n N : Nat} {J : Nat → Nat → K} {b : Bool} {dt dx : DType} {ops : Nat → List (FOp K)} {X : Layout} {x : SVec K} {dtype : Option DType}

theorem feeds_conform (hX : Feeds n (fopIn b (allFOps n ops)) (fun r => fopIn b (ops r)) X) (t : DType) :
    Conform n X (inL b n (onAll ops t)) ∧ Near n X (inL b n (onAll ops t)) := by
  have eL : inL b n (onAll ops t) = opIn b n ops := by simp only [inL, allOps_onAll, inSum_on]
  rw [eL]
  refine ⟨⟨hX.wf, lin_wf (fopIn_all ops).symm (by simp), by simp [Layout.lin, hX.shape], hX.scatter, ?_, rfl, rfl, rfl⟩, hX.near⟩
  have := hX.wf.axis_lt
  rw [hX.shape] at this
  simpa using this

theorem opIn_wf : (opIn b n ops).WF n := lin_wf (fopIn_all ops).symm (by simp)

theorem opIn_feeds : Feeds n (fopIn b (allFOps n ops)) (fun r => fopIn b (ops r)) (opIn b n ops) := by
  refine ⟨opIn_wf, rfl, rfl, fun r hr => ?_⟩
  simp [psum]

/-! ### the stacking operators -/

/-- `MPIBlockDiag(ops)`: construction succeeds on all ranks, and the products apply each serial operator to its slice of the global vector.  The result is determined by the
    sequence of all operators: it does not depend on which rank has which of them. -/
theorem C73_blockDiag (hne : ∀ r < n, ops r ≠ []) (hdt : ∀ r < n, fopsDType (ops r) dtype = .ok dt) :
    ∃ op : Nat → Prim K, Always n (fun r => A.mkBlockDiag (env n J r) (ops r) none dtype) (fun r => .ok (op r)) ∧
      (∀ r, (op r).shape = (fopIn true (allFOps n ops), fopIn false (allFOps n ops)) ∧ (op r).dtype = dt) ∧
      ∀ b X dx, (∀ o ∈ allFOps n ops, o.Sized b) → Feeds n (fopIn b (allFOps n ops)) (fun r => fopIn b (ops r)) X →
        TakesTo n J (fun r => (op r).prod b) ⟨X, dx⟩ ⟨opIn (!b) n ops, dt⟩ (A.bdiag dt b (allFOps n ops)) := by
  refine ⟨fbdPrim A n ops dt, (a_mkBlockDiag A hdt).always, fun r => ⟨rfl, rfl⟩, fun b X dx hs hX => TakesTo.intro fun x hx hd => ⟨rfl, ?_, ?_⟩⟩
  · have h := length_blockDiag_sized (sized_onAll (t := x.dt) hs) (x := (x.copy A.toArith).v) (by
      rw [SVec.length_copy A.toArith hx, hX.shape, allOps_onAll, inSum_on]; simp)
    rw [allOps_onAll, outSum, inSum_on] at h
    simp only [OpArith.bdiag, List.length_map]
    rw [h]
    simp [Layout.lin]
  · obtain ⟨h1, h2⟩ := feeds_conform hX x.dt
    cases b
    · exact a_blockDiagMv A h1 h2 hs hne hx
    · exact a_blockDiagMv A h1 h2 hs hne hx

/-- `MPIVStack(ops)`: the forward product applies each operator to the whole vector; the adjoint applies the adjoints to slices and adds the results, first on each rank and then
    over the ranks -/
theorem C73_vstack (hn : 0 < n) (hne : ∀ r < n, ops r ≠ []) (hdt : ∀ r < n, fopsDType (ops r) dtype = .ok dt) (hN : ∀ o ∈ allFOps n ops, o.cols = N) :
    ∃ op : Nat → Prim K, Always n (fun r => A.mkVStack (env n J r) (ops r) dtype) (fun r => .ok (op r)) ∧
      (∀ r, (op r).shape = (fopIn true (allFOps n ops), N) ∧ (op r).dtype = dt) ∧
      (∀ dx p, p.isBroadcast = true → (∀ o ∈ allFOps n ops, o.Sized false) → TakesTo n J (fun r => (op r).prod false) ⟨.all N p, dx⟩ ⟨opIn true n ops, dt⟩ (A.onWhole dt false (allFOps n ops))) ∧
      ∀ dx X, (∀ o ∈ allFOps n ops, o.Sized true) → Feeds n (fopIn true (allFOps n ops)) (fun r => fopIn true (ops r)) X →
        TakesTo n J (fun r => (op r).prod true) ⟨X, dx⟩ ⟨.all N, dt⟩ (A.sumSlices dt true N ((List.range n).map ops)) := by
  have h0 : allFOps n ops ≠ [] := by
    intro h
    cases h' : ops 0 with
    | nil => exact hne 0 hn h'
    | cons o os =>
      have : o ∈ allFOps n ops := by
        simp only [allFOps, List.mem_flatMap, List.mem_range]
        exact ⟨0, hn, by simp [h']⟩
      rw [h] at this
      cases this
  refine ⟨fvsPrim A n ops N dt, (a_mkVStack A hdt hN h0).always, fun r => ⟨rfl, rfl⟩, fun dx p hp hs => TakesTo.intro fun x hx hd => ⟨rfl, ?_, ?_⟩,
    fun dx X hs hX => TakesTo.intro fun x hx hd => ⟨rfl, ?_, ?_⟩⟩
  · have h := length_vcat_sized (dims_onAll (t := x.dt) fun o ho => ⟨hs o ho, hN o ho⟩) (d := x.v) (by simpa [Layout.all] using hx)
    rw [allOps_onAll, outSum, inSum_on] at h
    simp only [OpArith.onWhole, List.length_map]
    rw [h]
    simp [Layout.lin]
  · exact a_vstackMv A (X := .all N p) rfl hp (fun o ho => ⟨hs o ho, hN o ho⟩) hne (by simpa [Layout.all] using hx)
  · simp [OpArith.sumSlices, Layout.all]
  · obtain ⟨h1, h2⟩ := feeds_conform hX x.dt
    exact a_vstackRmv A h1 h2 (fun o ho => ⟨hs o ho, hN o ho⟩) hne hx

/-- `MPIHStack(ops)` -/
theorem C73_hstack (hn : 0 < n) (hne : ∀ r < n, ops r ≠ []) (hdt : ∀ r < n, fopsDType (ops r) dtype = .ok dt) (hN : ∀ o ∈ allFOps n ops, o.rows = N) :
    ∃ op : Nat → Prim K, Always n (fun r => A.mkHStack (env n J r) (ops r) dtype) (fun r => .ok (op r)) ∧
      (∀ r, (op r).shape = (N, fopIn false (allFOps n ops)) ∧ (op r).dtype = dt) ∧
      (∀ dx X, X.mask = none → (∀ o ∈ allFOps n ops, o.Sized false) → Feeds n (fopIn false (allFOps n ops)) (fun r => fopIn false (ops r)) X →
        TakesTo n J (fun r => (op r).prod false) ⟨X, dx⟩ ⟨.all N, dt⟩ (A.sumSlices dt false N ((List.range n).map ops))) ∧
      ∀ dx p, p.isBroadcast = true → (∀ o ∈ allFOps n ops, o.Sized true) → TakesTo n J (fun r => (op r).prod true) ⟨.all N p, dx⟩ ⟨opIn false n ops, dt⟩ (A.onWhole dt true (allFOps n ops)) := by
  have h0 : allFOps n ops ≠ [] := by
    intro h
    cases h' : ops 0 with
    | nil => exact hne 0 hn h'
    | cons o os =>
      have : o ∈ allFOps n ops := by
        simp only [allFOps, List.mem_flatMap, List.mem_range]
        exact ⟨0, hn, by simp [h']⟩
      rw [h] at this
      cases this
  have hH : ∀ (b : Bool), (∀ o ∈ allFOps n ops, o.Sized (!b)) → ∀ o ∈ allFOps n (fhOps ops), o.Sized b := by
    intro b hs o ho
    rw [allFOps_H] at ho
    obtain ⟨p, hp, rfl⟩ := List.mem_map.1 ho
    exact sized_H (hs p hp)
  have hHN : ∀ o ∈ allFOps n (fhOps ops), o.cols = N := by
    intro o ho
    rw [allFOps_H] at ho
    obtain ⟨p, hp, rfl⟩ := List.mem_map.1 ho
    exact hN p hp
  have eI : ∀ c : Bool, opIn c n (fhOps ops) = opIn (!c) n ops := by
    intro c
    simp only [opIn, allFOps_H, fopIn_H, fhOps]
  have hne' : ∀ r < n, fhOps ops r ≠ [] := fun r hr h => hne r hr (List.map_eq_nil_iff.1 h)
  refine ⟨fhsPrim A n ops N dt, (a_mkHStack A hdt hN h0).always, fun r => ⟨?_, rfl⟩, fun dx X hm hs hX => ?_, fun dx p hp hs => ?_⟩
  · show (N, fopIn true (allFOps n (fhOps ops))) = _
    rw [allFOps_H, fopIn_H]
    rfl
  · have hX' : Feeds n (fopIn true (allFOps n (fhOps ops))) (fun r => fopIn true (fhOps ops r)) X := by
      simp only [allFOps_H, fopIn_H, fhOps]
      exact hX
    have key : Accepts (ι := Unit) n J (fun _ => fvsPrim A n (fhOps ops) N dt) (fun _ => (fopIn true (allFOps n (fhOps ops)), N)) (fun _ _ => A.sumSlices dt false N ((List.range n).map ops))
        false (.adj (.leaf ())) ⟨X, dx⟩ ⟨.all N, dt⟩ := by
      refine ⟨fun _ _ => rfl, ⟨hX.wf, hm⟩, ⟨all_wf rfl, rfl⟩, hX'.shape, rfl, TakesTo.intro fun x hx hd => ⟨rfl, by simp [OpArith.sumSlices, Layout.all], ?_⟩⟩
      obtain ⟨h1, h2⟩ := feeds_conform hX' x.dt
      have h := a_vstackRmv A (J := J) (dt := dt) h1 h2 (fun o ho => ⟨hH true hs o ho, hHN o ho⟩) hne' hx
      have e : (List.range n).map (fhOps ops) = ((List.range n).map ops).map fun g => g.map FOp.H := by rw [List.map_map]; rfl
      rw [e, sumSlices_H] at h
      exact h
    exact accepts_takes A key
  · have key : Accepts (ι := Unit) n J (fun _ => fvsPrim A n (fhOps ops) N dt) (fun _ => (fopIn true (allFOps n (fhOps ops)), N)) (fun _ _ => A.onWhole dt true (allFOps n ops))
        true (.adj (.leaf ())) ⟨.all N p, dx⟩ ⟨opIn true n (fhOps ops), dt⟩ := by
      refine ⟨fun _ _ => rfl, ⟨all_wf hp, rfl⟩, ⟨opIn_wf, rfl⟩, rfl, rfl, TakesTo.intro fun x hx hd => ⟨rfl, ?_, ?_⟩⟩
      · have h := length_vcat_sized (dims_onAll (t := x.dt) (ops := fhOps ops) (b := false) fun o ho => ⟨hH false hs o ho, hHN o ho⟩) (d := x.v) (by simpa [Layout.all] using hx)
        rw [allOps_onAll, outSum, inSum_on] at h
        have e := congrFun (onWhole_H A (dt := dt) (b := false) (allFOps n ops)) x
        rw [← allFOps_H] at e
        show (A.onWhole dt (!false) (allFOps n ops) x).v.length = _
        rw [← e]
        simp only [OpArith.onWhole, List.length_map]
        rw [h]
        simp [Layout.lin]
      · have h := a_vstackMv A (J := J) (dt := dt) (X := .all N p) (x := x) rfl hp (fun o ho => ⟨hH false hs o ho, hHN o ho⟩) hne' (by simpa [Layout.all] using hx)
        rw [allFOps_H, onWhole_H, ← allFOps_H] at h
        exact h
    have h := accepts_takes A key
    rw [eI] at h
    exact h

/-! ### expressions -/

/-- `matvec` and `rmatvec` of an expression of operators that compute `lf` compute the serial expression -/
theorem C73_expr {ι : Type} {prim : ι → Nat → Prim K} {sh : ι → Nat × Nat} {lf : ι → Bool → SVec K → SVec K} {e : MOp K ι} {S T : VSpace} (h : Accepts n J prim sh lf b e S T) :
    TakesTo n J (fun r c x => A.run c b (e.map (prim · r)) x) S T (A.eval lf b e) := accepts_takes A h

/-- an expression as operator of the solvers -/
theorem C73_actsAs {ι : Type} {prim : ι → Nat → Prim K} {sh : ι → Nat × Nat} {lf : ι → Bool → SVec K → SVec K} {e : MOp K ι} {L L' : Layout} {D : DType → Prop}
    (h : ∀ d, D d → ∃ t, Accepts n J prim sh lf b e ⟨L, d⟩ ⟨L', t⟩) :
    ActsAs n J (fun r => if b then (A.asOp (e.map (prim · r))).rmv else (A.asOp (e.map (prim · r))).mv) L L' (A.eval lf b e) D := by
  refine ⟨fun x hx hD => ?_, fun x hx hD => ?_⟩
  · obtain ⟨t, ht⟩ := h x.dt hD
    exact (accepts_takes A ht).length x hx rfl
  · obtain ⟨t, ht⟩ := h x.dt hD
    refine Runs.always ?_
    have k := (accepts_takes A ht).run hx rfl
    cases b
    · exact (Runs.bind_ok k (Runs.ret fun r => XArr.one ((A.eval lf false e x).dpart L' n r))).congr (fun r _ => rfl) fun _ _ => rfl
    · exact (Runs.bind_ok k (Runs.ret fun r => XArr.one ((A.eval lf true e x).dpart L' n r))).congr (fun r _ => rfl) fun _ _ => rfl

/-- the first derivative as leaf of an expression -/
theorem C73_leaf_first (k : FDKind) {rest : List Nat} {s : K} {edge : Bool} (hn : 0 < n) (hroom : if b then fdRoomAdj k edge n N else fdRoom k edge n N) (hdt : b = true → dt = .real → dx = .real)
    (hX : Rowable n N rest X) :
    TakesTo n J (fun _ => (A.fdPrim k ⟨N :: rest, s, edge, dt⟩).prod b) ⟨X, dx⟩ ⟨.flat n N rest, dt⟩
      (fun x => A.along dt N rest (fun v p => if b then A.fdEntryAdj dt edge N s v p k else A.fdEntry dt edge N s v p k) (A.received X x)) := by
  refine TakesTo.intro fun x hx hd => ⟨rfl, by simp [ArrArith.along, Layout.lin], ?_⟩
  cases b
  · exact a_deriv A.toArrArith (J := J) (o := ⟨N :: rest, s, edge, dt⟩) hn rfl (amethod_fd A.toArrArith k hn hroom) hX hx
  · exact a_deriv A.toArrArith (J := J) (o := ⟨N :: rest, s, edge, dt⟩) hn rfl (amethod_fdAdj A.toArrArith k hn hroom (fun h => hd.trans (hdt rfl h))) hX hx

/-- the second derivative as leaf of an expression -/
theorem C73_leaf_second (k : SDKind) {rest : List Nat} {s s2 : K} {edge : Bool} (hn : 0 < n) (hroom : if b then sdRoomAdj k edge n N else sdRoom k edge n N) (hdt : b = true → dt = .real → dx = .real)
    (hs : A.pySq s = .ok s2) (hX : Rowable n N rest X) :
    TakesTo n J (fun _ => (A.sdPrim k ⟨N :: rest, s, edge, dt⟩).prod b) ⟨X, dx⟩ ⟨.flat n N rest, dt⟩
      (fun x => A.along dt N rest (fun v p => if b then A.sdEntryAdj dt edge N s2 v p k else A.sdEntry dt edge N s2 v p k) (A.received X x)) := by
  refine TakesTo.intro fun x hx hd => ⟨rfl, by simp [ArrArith.along, Layout.lin], ?_⟩
  cases b
  · have h := a_deriv A.toArrArith (J := J) (o := ⟨N :: rest, s, edge, dt⟩) hn rfl (amethod_sd A.toArrArith k hn hroom) hX hx
    rw [hs] at h
    exact h
  · have h := a_deriv A.toArrArith (J := J) (o := ⟨N :: rest, s, edge, dt⟩) hn rfl (amethod_sdAdj A.toArrArith k hn hroom (fun h => hd.trans (hdt rfl h))) hX hx
    rw [hs] at h
    exact h

/-! ### numbers of ranks -/

/-- sums of vectors do not depend on the groups in which they are added (for instance, if they are computed exactly and rounded once) -/
def GroupFree (A : OpArith K) : Prop :=
  ∃ S : List (List K) → Nat → K, ∀ (N : Nat) (groups : List (List (List K))), groups ≠ [] → (∀ g ∈ groups, g ≠ []) → ∀ j < N,
    A.sumArr (groups.map fun rows => (List.range N).map (A.sumRows rows)) j = S groups.flatten j

theorem flatten_groupSlices (t : DType) (gs : List (List (FOp K))) (v : List K) : (OpArith.groupSlices b t gs v).flatten = slices b (gs.flatten.map (·.on t)) v := by
  induction gs generalizing v with
  | nil => rfl
  | cons g gs ih => simp only [OpArith.groupSlices, List.flatten_cons, List.map_append]; rw [ih, slices_append, inSum_on]

theorem groupSlices_ne (t : DType) {gs : List (List (FOp K))} (h : ∀ g ∈ gs, g ≠ []) (v : List K) : ∀ g ∈ OpArith.groupSlices b t gs v, g ≠ [] := by
  induction gs generalizing v with
  | nil => intro g hg; cases hg
  | cons g gs ih =>
    intro g' hg'
    rcases List.mem_cons.1 hg' with rfl | hg'
    · cases g with
      | nil => exact absurd rfl (h [] (by simp))
      | cons o os => simp [slices]
    · exact ih (fun g hg => h g (by simp [hg])) _ g' hg'

/-- then the adjoint of MPIVStack and the product with MPIHStack are determined by the sequence of all operators -/
theorem C73_sum_ranks (hA : GroupFree A) {gs gs' : List (List (FOp K))} (h : gs.flatten = gs'.flatten) (h1 : gs ≠ []) (h1' : gs' ≠ []) (h2 : ∀ g ∈ gs, g ≠ []) (h2' : ∀ g ∈ gs', g ≠ []) :
    A.sumSlices dt b N gs = A.sumSlices dt b N gs' := by
  obtain ⟨S, hS⟩ := hA
  have key : ∀ {gs : List (List (FOp K))}, gs ≠ [] → (∀ g ∈ gs, g ≠ []) → ∀ (x : SVec K), A.sumSlices dt b N gs x =
      ⟨dt, (List.range N).map fun j => A.cast dt (S (slices b (gs.flatten.map (·.on x.dt)) (x.copy A.toArith).v) j)⟩ := by
    intro gs h1 h2 x
    unfold OpArith.sumSlices
    congr 1
    refine List.map_congr_left fun j hj => ?_
    rw [hS N _ ?_ (groupSlices_ne x.dt h2 _) j (List.mem_range.1 hj), flatten_groupSlices]
    cases gs with
    | nil => exact absurd rfl h1
    | cons g gs => simp [OpArith.groupSlices]
  funext x
  rw [key h1 h2, key h1' h2', h]

/-- `CGLS` with expressions: if dot products and norms do not depend on the order of summation, and the leaves compute the same functions on both numbers of ranks, then all results are the same -/
theorem C73_cgls (hA : OrderFree A.toArith) {ι : Type} {lf : ι → Bool → SVec K → SVec K} {e : MOp K ι} {D D' : DType → Prop} {n₁ n₂ : Nat} {J₁ J₂ : Nat → Nat → K}
    {prim₁ prim₂ : ι → Nat → Prim K} {sh₁ sh₂ : ι → Nat × Nat} {L₁ L₂ L₁' L₂' : Layout} (hn₁ : 0 < n₁) (hn₂ : 0 < n₂)
    (hi : L₁.part.isBroadcast = true ∨ L₁'.part.isBroadcast = true ∨ L₂.part.isBroadcast = true ∨ L₂'.part.isBroadcast = true → ∀ dt a, A.cast dt (A.cast dt a) = A.cast dt a)
    (hq : L₁'.part.isBroadcast = true ∨ L₂'.part.isBroadcast = true → ∀ x : SVec K, x.v.length = L₁.gshape.prod → D x.dt → (A.eval lf false e x).Stored A.toArith)
    (hN : L₁.gshape = L₂.gshape) (hN' : L₁'.gshape = L₂'.gshape)
    (h₁ : ∀ d, D d → ∃ t, Accepts n₁ J₁ prim₁ sh₁ lf false e ⟨L₁, d⟩ ⟨L₁', t⟩) (h₂ : ∀ d, D d → ∃ t, Accepts n₂ J₂ prim₂ sh₂ lf false e ⟨L₂, d⟩ ⟨L₂', t⟩)
    (h₁' : ∀ d, D' d → ∃ t, D t ∧ Accepts n₁ J₁ prim₁ sh₁ lf true e ⟨L₁', d⟩ ⟨L₁, t⟩) (h₂' : ∀ d, D' d → ∃ t, Accepts n₂ J₂ prim₂ sh₂ lf true e ⟨L₂', d⟩ ⟨L₂, t⟩)
    {y x0 : SVec K} {damp tol : K} {niter : Int} (hy : y.v.length = L₁'.gshape.prod) (hx : x0.v.length = L₁.gshape.prod) (dy : D' y.dt) (dx : D x0.dt) :
    let op₁ (r : Nat) : XOp K := A.asOp (e.map (prim₁ · r))
    let op₂ (r : Nat) : XOp K := A.asOp (e.map (prim₂ · r))
    (∃ (x : SVec K) (istop it : Nat) (r1 r2 : K) (cost : List K) (xs : List (SVec K)),
      Always n₁ (fun r => FCGLS.solve A.toArith A.normX (env n₁ J₁ r) (op₁ r) (y.part L₁' n₁ r) (x0.part L₁ n₁ r) (some niter) damp tol)
        (fun r => .ok ⟨x.part L₁ n₁ r, istop, it, r1, r2, cost, xs.map fun z => z.part L₁ n₁ r⟩) ∧
      Always n₂ (fun r => FCGLS.solve A.toArith A.normX (env n₂ J₂ r) (op₂ r) (y.part L₂' n₂ r) (x0.part L₂ n₂ r) (some niter) damp tol)
        (fun r => .ok ⟨x.part L₂ n₂ r, istop, it, r1, r2, cost, xs.map fun z => z.part L₂ n₂ r⟩)) ∨
    ∃ er, Always n₁ (fun r => FCGLS.solve A.toArith A.normX (env n₁ J₁ r) (op₁ r) (y.part L₁' n₁ r) (x0.part L₁ n₁ r) (some niter) damp tol) (fun _ => .error er) ∧
      Always n₂ (fun r => FCGLS.solve A.toArith A.normX (env n₂ J₂ r) (op₂ r) (y.part L₂' n₂ r) (x0.part L₂ n₂ r) (some niter) damp tol) (fun _ => .error er) := by
  intro op₁ op₂
  obtain ⟨t₁, f₁⟩ := h₁ _ dx
  obtain ⟨t₂, f₂⟩ := h₂ _ dx
  have g₁ := f₁.facts
  have g₂ := f₂.facts
  refine C70_cgls_layouts A.toArith hA (op₁ := op₁) (op₂ := op₂) hn₁ hn₂ g₁.hS.1 g₂.hS.1 g₁.hS.2 g₂.hS.2 g₁.hT.1 g₂.hT.1 g₁.hT.2 g₂.hT.2 (by rw [hN]) (by rw [hN'])
    (fun h => hi (h.elim .inl fun h => .inr (.inl h))) (fun h => hi (.inr (.inr h))) hq (C73_actsAs A (b := false) h₁) (C73_actsAs A (b := false) h₂)
    (C73_actsAs A (b := true) fun d hd => (h₁' d hd).imp fun _ h => h.2) (C73_actsAs A (b := true) h₂') (fun s hs hD => ?_) hy hx dy dx
  · obtain ⟨t, ht, h⟩ := h₁' _ hD
    rw [(accepts_takes A h).dtype s hs rfl]
    exact ht

end

/-! ### adjoint and difference of expressions -/

section
variable (A : OpArith K) {c : Ctx K}

theorem OpArith.run_mismatch (e : MOp K (Prim K)) (b : Bool) {x : DArr K} (h : x.gshape ≠ [if b then (e.shape Prim.shape).1 else (e.shape Prim.shape).2]) : A.run c b e x = .throw .value := by
  cases e <;> cases b <;> simp only [OpArith.run, OpArith.check] <;> exact if_pos h

/-- If `e.H` is accepted, it has the transposed shape, and its `matvec` performs the computation and communication of `rmatvec` of `e`.  Its `rmatvec` performs those of `matvec`
    of `e`, if conjugating twice gives the same number (which holds for floating-point numbers). -/
theorem C73_H {e e' : MOp K (Prim K)} (h : A.opH Prim.shape e = .ok e') :
    e'.shape Prim.shape = ((e.shape Prim.shape).2, (e.shape Prim.shape).1) ∧
      ∀ (b : Bool) (x : DArr K), (b = true → ∀ z, A.conj (A.conj z) = z) → A.run c b e' x = A.run c (!b) e x := by
  have hadj : ∀ {e : MOp K (Prim K)}, ((MOp.adj e).shape Prim.shape = ((e.shape Prim.shape).2, (e.shape Prim.shape).1) ∧
      ∀ (b : Bool) (x : DArr K), (b = true → ∀ z, A.conj (A.conj z) = z) → A.run c b (.adj e) x = A.run c (!b) e x) := by
    intro e
    refine ⟨rfl, fun b x _ => ?_⟩
    simp only [OpArith.run]
    unfold OpArith.check
    by_cases h1 : x.gshape ≠ [if b then ((MOp.adj e).shape Prim.shape).1 else ((MOp.adj e).shape Prim.shape).2]
    · rw [if_pos h1]
      refine (A.run_mismatch e _ ?_).symm
      cases b <;> simpa [MOp.shape] using h1
    · rw [if_neg h1]
  induction e generalizing e' with
  | leaf p => obtain rfl := (Except.ok.inj h).symm; exact hadj
  | adj e ih => obtain rfl := (Except.ok.inj h).symm; exact hadj
  | trans e ih => obtain rfl := (Except.ok.inj h).symm; exact hadj
  | pow e p ih => obtain rfl := (Except.ok.inj h).symm; exact hadj
  | prod e f ihe ihf =>
    simp only [OpArith.opH] at h
    cases hf : A.opH Prim.shape f with
    | error er => rw [hf] at h; cases h
    | ok f' =>
      cases he : A.opH Prim.shape e with
      | error er => rw [hf, he] at h; cases h
      | ok e1 =>
        rw [hf, he] at h
        change OpArith.opMul Prim.shape f' e1 = .ok e' at h
        unfold OpArith.opMul at h
        split_ifs at h
        obtain rfl := (Except.ok.inj h).symm
        obtain ⟨se, re⟩ := ihe he
        obtain ⟨sf, rf⟩ := ihf hf
        refine ⟨by simp only [MOp.shape, se, sf], fun b x hb => ?_⟩
        cases b <;> simp only [OpArith.run, MOp.shape, se, sf, fun x => re _ x hb, fun x => rf _ x hb, OpArith.check] <;> rfl
  | scaled e s ih =>
    simp only [OpArith.opH] at h
    cases he : A.opH Prim.shape e with
    | error er => rw [he] at h; cases h
    | ok e1 =>
      rw [he] at h
      obtain rfl := (Except.ok.inj h).symm
      obtain ⟨se, re⟩ := ih he
      refine ⟨se, fun b x hb => ?_⟩
      cases b
      · simp only [OpArith.run, MOp.shape, se, fun x => re _ x hb, OpArith.check]
        rfl
      · have hc : A.conjScal (A.conjScal s) = s := by
          simp only [OpArith.conjScal, hb rfl]
        simp only [OpArith.run, MOp.shape, se, fun x => re _ x hb, OpArith.check, hc, if_true]
        rfl
  | sum e f ihe ihf =>
    simp only [OpArith.opH] at h
    cases he : A.opH Prim.shape e with
    | error er => rw [he] at h; cases h
    | ok e1 =>
      cases hf : A.opH Prim.shape f with
      | error er => rw [he, hf] at h; cases h
      | ok f' =>
        rw [he, hf] at h
        change OpArith.opAdd Prim.shape e1 f' = .ok e' at h
        unfold OpArith.opAdd at h
        split_ifs at h
        obtain rfl := (Except.ok.inj h).symm
        obtain ⟨se, re⟩ := ihe he
        obtain ⟨sf, rf⟩ := ihf hf
        refine ⟨se, fun b x hb => ?_⟩
        cases b <;> simp only [OpArith.run, MOp.shape, se, fun x => re _ x hb, fun x => rf _ x hb, OpArith.check] <;> rfl
  | conj e ih =>
    simp only [OpArith.opH] at h
    cases he : A.opH Prim.shape e with
    | error er => rw [he] at h; cases h
    | ok e1 =>
      rw [he] at h
      obtain rfl := (Except.ok.inj h).symm
      obtain ⟨se, re⟩ := ih he
      refine ⟨se, fun b x hb => ?_⟩
      cases b <;> simp only [OpArith.run, MOp.shape, se, fun x => re _ x hb, OpArith.check] <;> rfl

/-- `.H` exists for operators whose construction was accepted -/
theorem C73_H_ok {ι : Type} (sh : ι → Nat × Nat) {e : MOp K ι} (he : Shaped sh e) :
    ∃ e', A.opH sh e = .ok e' ∧ Shaped sh e' ∧ e'.shape sh = ((e.shape sh).2, (e.shape sh).1) := by
  induction e with
  | leaf i => exact ⟨_, rfl, he, rfl⟩
  | adj e ih => exact ⟨_, rfl, he, rfl⟩
  | trans e ih => exact ⟨_, rfl, he, rfl⟩
  | pow e p ih => exact ⟨_, rfl, he, rfl⟩
  | prod e f ihe ihf =>
    obtain ⟨he, hf, hef⟩ := he
    obtain ⟨a, a1, a2, a3⟩ := ihe he
    obtain ⟨b, b1, b2, b3⟩ := ihf hf
    have hm : (b.shape sh).2 = (a.shape sh).1 := by rw [a3, b3]; exact hef.symm
    refine ⟨.prod b a, ?_, ⟨b2, a2, hm⟩, ?_⟩
    · simp only [OpArith.opH, a1, b1]
      show (if (b.shape sh).2 ≠ (a.shape sh).1 then _ else _) = _
      rw [if_neg (by simpa using hm)]
    · simp [MOp.shape, a3, b3]
  | scaled e s ih =>
    obtain ⟨a, a1, a2, a3⟩ := ih he
    refine ⟨.scaled a (A.conjScal s), ?_, a2, a3⟩
    simp only [OpArith.opH, a1]
    rfl
  | sum e f ihe ihf =>
    obtain ⟨he, hf, hef⟩ := he
    obtain ⟨a, a1, a2, a3⟩ := ihe he
    obtain ⟨b, b1, b2, b3⟩ := ihf hf
    have hm : a.shape sh = b.shape sh := by rw [a3, b3, hef]
    refine ⟨.sum a b, ?_, ⟨a2, b2, hm⟩, a3⟩
    simp only [OpArith.opH, a1, b1]
    show (if a.shape sh ≠ b.shape sh then _ else _) = _
    rw [if_neg (by simpa using hm)]
  | conj e ih =>
    obtain ⟨a, a1, a2, a3⟩ := ih he
    refine ⟨.conj a, ?_, a2, a3⟩
    simp only [OpArith.opH, a1]
    rfl

/-- `e - f` adds `e` and `-1` times `f`; it is rejected if the shapes differ -/
theorem C73_sub {ι : Type} {n : Nat} {J : Nat → Nat → K} {prim : ι → Nat → Prim K} {sh : ι → Nat × Nat} {lf : ι → Bool → SVec K → SVec K} {b : Bool} {e f : MOp K ι} {S : VSpace} {L : Layout} {t t' : DType} :
    (e.shape sh ≠ f.shape sh → A.opSub sh e f = .error .value) ∧
    (e.shape sh = f.shape sh → Accepts n J prim sh lf b e S ⟨L, t⟩ → Accepts n J prim sh lf b f S ⟨L, t'⟩ → ∃ d, A.opSub sh e f = .ok d ∧
      TakesTo n J (fun r c x => A.run c b (d.map (prim · r)) x) S ⟨L, t⟩ fun x =>
        (A.eval lf b e x).add A.toArith ((A.eval lf b f x).scale A.toArith (if b then A.conj A.negOne else A.negOne))) := by
  refine ⟨fun h => if_pos h, fun h h1 h2 => ⟨.sum e (.scaled f ⟨.real, A.negOne⟩), if_neg (not_not.2 h), ?_⟩⟩
  have k : Accepts n J prim sh lf b (.sum e (.scaled f ⟨.real, A.negOne⟩)) S ⟨L, t⟩ := ⟨h1, t', h2, fun _ => rfl⟩
  have h' := C73_expr A k
  refine ⟨fun x hx hd => ?_, fun x hx hd => ?_, fun x hx hd => ?_⟩
  · have := h'.dtype x hx hd
    simpa only [OpArith.eval] using this
  · have := h'.length x hx hd
    simpa only [OpArith.eval] using this
  · have := h'.runs x hx hd
    simpa only [OpArith.eval] using this

end

/-! ### exact arithmetic -/

section
variable [RCLike K] {n N : Nat} {b : Bool} {dt : DType} {x : SVec K}

/-- exact arithmetic -/
noncomputable def OpArith.exact : OpArith K where
  toArrArith := ArrArith.exact
  sumRows rows j := (rows.map (·.getD j 0)).sum
  sumArr arrs j := (arrs.map (·.getD j 0)).sum
  negOne := -1

theorem exact_powLoop (c : Ctx K) (f : DArr K → P K (DArr K)) (p : Nat) : ∀ y, OpArith.exact.powLoop c f p y = powLoop c f p y := by
  induction p with
  | zero => intro y; rfl
  | succ p ih =>
    intro y
    simp only [OpArith.powLoop, powLoop, ih]
    rfl

/-- with exact arithmetic, expressions run as in Model/LinearOperator.lean -/
theorem C73_exact_run (c : Ctx K) (e : MOp K (Prim K)) : ∀ (b : Bool) (x : DArr K), OpArith.exact.run c b e x = e.run c b x := by
  induction e with
  | leaf p => intro b x; simp only [OpArith.run, MOp.run]; rfl
  | adj e ih => intro b x; simp only [OpArith.run, MOp.run, ih]; rfl
  | trans e ih => intro b x; simp only [OpArith.run, MOp.run, ih]; rfl
  | prod e f ihe ihf => intro b x; cases b <;> (simp only [OpArith.run, MOp.run, ihe, ihf]; rfl)
  | scaled e s ih => intro b x; cases b <;> (simp only [OpArith.run, MOp.run, ih]; rfl)
  | sum e f ihe ihf => intro b x; simp only [OpArith.run, MOp.run, ihe, ihf]; rfl
  | pow e p ih =>
    intro b x
    simp only [OpArith.run, MOp.run, exact_powLoop]
    rw [show OpArith.exact.run c b e = e.run c b from funext (ih b)]
    rfl
  | conj e ih => intro b x; simp only [OpArith.run, MOp.run, ih]; rfl

/-- the functions of the global vectors are those of C24-C28 -/
theorem C73_exact_bdiag {ops : List (FOp K)} (hok : ∀ o ∈ ops, (o.on x.dt).Ok b x.dt dt) (hx : x.Fits) (hl : x.v.length = fopIn b ops) :
    OpArith.exact.bdiag dt b ops x = ⟨dt, blockDiag b (ops.map (·.on x.dt)) x.v⟩ := by
  unfold OpArith.bdiag
  have e : x.copy (OpArith.exact (K := K)).toArith = x := copy_exact hx
  rw [e]
  congr 1
  exact castTo_of_fits (fits_blockDiag (din := x.dt) (fun o ho => by obtain ⟨p, hp, rfl⟩ := List.mem_map.1 ho; exact hok p hp) (by rw [inSum_on, hl]) hx)

theorem C73_exact_onWhole {ops : List (FOp K)} (hok : ∀ o ∈ ops, (o.on x.dt).Ok b x.dt dt ∧ o.inDim b = N) (hx : x.Fits) (hl : x.v.length = N) :
    OpArith.exact.onWhole dt b ops x = ⟨dt, vcat b (ops.map (·.on x.dt)) x.v⟩ := by
  unfold OpArith.onWhole
  congr 1
  refine castTo_of_fits fun ht y hy => ?_
  obtain ⟨o, ho, hy⟩ := List.mem_flatMap.1 hy
  obtain ⟨p, hp, rfl⟩ := List.mem_map.1 ho
  exact (hok p hp).1.fits x.v (by rw [inDim_on, hl, (hok p hp).2]) hx ht y hy

theorem getD_vsum {l : List (List K)} (hl : ∀ y ∈ l, y.length = N) {j : Nat} (hj : j < N) : (vsum N l).getD j 0 = (l.map (·.getD j 0)).sum := by
  induction l with
  | nil => simp [vsum]
  | cons a l ih =>
    have h1 := ih fun y hy => hl y (by simp [hy])
    rw [vsum_cons, List.map_cons, List.sum_cons, ← h1]
    have hv := length_vsum (N := N) (l := l) fun y hy => hl y (by simp [hy])
    have ha := hl a (by simp)
    unfold vadd
    simp [List.getD_eq_getElem?_getD, List.getElem?_zipWith, ha, hv, hj]

theorem exact_groupFree : GroupFree (OpArith.exact (K := K)) := by
  refine ⟨fun rows j => (rows.map (·.getD j 0)).sum, fun N groups _ _ j hj => ?_⟩
  show ((groups.map fun rows => (List.range N).map fun j => (rows.map (·.getD j 0)).sum).map (·.getD j 0)).sum = (groups.flatten.map (·.getD j 0)).sum
  rw [List.map_map, List.map_flatten, List.sum_flatten, List.map_map]
  congr 1
  refine List.map_congr_left fun g _ => ?_
  simp [List.getD_eq_getElem?_getD, hj]

theorem C73_exact_sumSlices {gs : List (List (FOp K))} (hok : ∀ o ∈ gs.flatten, (o.on x.dt).Ok b x.dt dt ∧ o.inDim (!b) = N) (hx : x.Fits) (hl : x.v.length = fopIn b gs.flatten) :
    OpArith.exact.sumSlices dt b N gs x = ⟨dt, hsum b N (gs.flatten.map (·.on x.dt)) x.v⟩ := by
  have e : x.copy (OpArith.exact (K := K)).toArith = x := copy_exact hx
  have hok' : ∀ o ∈ gs.flatten.map (·.on x.dt), o.Ok b x.dt dt ∧ o.outDim b = N := by
    intro o ho
    obtain ⟨p, hp, rfl⟩ := List.mem_map.1 ho
    exact ⟨(hok p hp).1, by rw [outDim_on]; exact (hok p hp).2⟩
  have hlen : inSum b (gs.flatten.map (·.on x.dt)) ≤ x.v.length := by rw [inSum_on, hl]
  have hs := slices_len_N hok' hlen
  have hf : FitsL dt (hsum b N (gs.flatten.map (·.on x.dt)) x.v) := fits_vsum (slices_fits (fun o ho => (hok' o ho).1) hlen hx)
  unfold OpArith.sumSlices
  rw [e, ← castTo_of_fits hf]
  congr 1
  apply List.ext_getElem
  · have := length_vsum hs
    rw [List.length_map, List.length_range, List.length_map, hsum, this]
  · intro j h1 h2
    have hj : j < N := by simpa using h1
    simp only [List.getElem_map, List.getElem_range]
    show castTo dt _ = castTo dt _
    congr 1
    have h3 : (hsum b N (gs.flatten.map (·.on x.dt)) x.v)[j]'(by simpa using h2) = (hsum b N (gs.flatten.map (·.on x.dt)) x.v).getD j 0 := by
      rw [List.getD_eq_getElem?_getD, List.getElem?_eq_getElem]
      rfl
    rw [h3, hsum, getD_vsum hs hj, ← flatten_groupSlices]
    show (((OpArith.groupSlices b x.dt gs x.v).map fun rows => (List.range N).map fun j => (rows.map (·.getD j 0)).sum).map (·.getD j 0)).sum = _
    rw [List.map_map, List.map_flatten, List.sum_flatten, List.map_map]
    congr 1
    refine List.map_congr_left fun g _ => ?_
    simp [List.getD_eq_getElem?_getD, hj]

end

/-! ### cases -/

/-- rounded integers; arrays are added one after the other -/
def roughOps : OpArith Int where
  toArrArith := roughArr
  sumRows rows j := (rows.map (·.getD j 0)).foldl (fun x y => rough (x + y)) 0
  sumArr arrs j := (arrs.map (·.getD j 0)).foldl (fun x y => rough (x + y)) 0
  negOne := -1

/-- multiplication by 1 and a number -/
def timesOp (a : Int) : FOp Int := ⟨1, 1, .real, fun _ v => v.map fun x => rough (a * x), fun _ v => v.map fun x => rough (a * x)⟩

theorem timesOp_sized (a : Int) (b : Bool) : (timesOp a).Sized b := by
  intro t v hv
  cases b <;> simpa [timesOp, FOp.on, LOp.fn, FOp.inDim] using hv

/-- three operators on one rank, and one and two of them on two ranks -/
def threeOps1 (_ : Nat) : List (FOp Int) := [timesOp 9, timesOp 1, timesOp 1]
def threeOps2 (r : Nat) : List (FOp Int) := if r = 0 then [timesOp 9] else [timesOp 1, timesOp 1]

/-- the adjoint of MPIVStack depends on the number of ranks: the operators are the same in the same order, and so is the argument; one rank computes (8 + 1) + 1 = 8, where 9 is rounded
    to 8 twice, and two ranks compute 8 + (1 + 1) = 10 -/
theorem C73_vstack_adj_depends (J₁ J₂ : Nat → Nat → Int) : allFOps 1 threeOps1 = allFOps 2 threeOps2 ∧
    Always 1 (fun r => do let op ← roughOps.mkVStack (env 1 J₁ r) (threeOps1 r) none; op.rmv (env 1 J₁ r) ((⟨.real, [1, 1, 1]⟩ : SVec Int).dpart (opIn true 1 threeOps1) 1 r))
      (fun r => .ok ((⟨.real, [8]⟩ : SVec Int).dpart (.all 1) 1 r)) ∧
    Always 2 (fun r => do let op ← roughOps.mkVStack (env 2 J₂ r) (threeOps2 r) none; op.rmv (env 2 J₂ r) ((⟨.real, [1, 1, 1]⟩ : SVec Int).dpart (opIn true 2 threeOps2) 2 r))
      (fun r => .ok ((⟨.real, [10]⟩ : SVec Int).dpart (.all 1) 2 r)) := by
  refine ⟨rfl, ?_, ?_⟩
  · obtain ⟨op, h1, -, -, h2⟩ := C73_vstack roughOps (J := J₁) (n := 1) (N := 1) (ops := threeOps1) (dtype := none) (dt := .real) (by decide) (by decide) (fun _ _ => rfl)
      (fun o ho => by simp [allFOps, threeOps1] at ho; rcases ho with rfl | rfl <;> rfl)
    have h := (h2 .real _ (fun o ho => by simp [allFOps, threeOps1] at ho; rcases ho with rfl | rfl <;> exact timesOp_sized _ _) opIn_feeds).run
      (x := ⟨.real, [1, 1, 1]⟩) (by decide) rfl
    exact (Runs.bind_ok h1.runs h).always
  · obtain ⟨op, h1, -, -, h2⟩ := C73_vstack roughOps (J := J₂) (n := 2) (N := 1) (ops := threeOps2) (dtype := none) (dt := .real) (by decide)
      (fun r _ => by unfold threeOps2; split_ifs <;> simp) (fun r _ => by unfold threeOps2; split_ifs <;> rfl)
      (fun o ho => by simp [allFOps, threeOps2, List.range_succ] at ho; rcases ho with rfl | rfl <;> rfl)
    have h := (h2 .real _ (fun o ho => by simp [allFOps, threeOps2, List.range_succ] at ho; rcases ho with rfl | rfl <;> exact timesOp_sized _ _) opIn_feeds).run
      (x := ⟨.real, [1, 1, 1]⟩) (by decide) rfl
    exact (Runs.bind_ok h1.runs h).always

/-- `D.H @ D + 3 * D`, for the forward difference `D` on five numbers -/
def diffExpr : MOp Int Unit := .sum (.prod (.adj (.leaf ())) (.leaf ())) (.scaled (.leaf ()) ⟨.real, 3⟩)

/-- what the leaf computes -/
def diffLeaf (_ : Unit) (b : Bool) (x : SVec Int) : SVec Int :=
  roughArr.along .real 5 [] (fun v p => if b then roughArr.fdEntryAdj .real false 5 1 v p .forward else roughArr.fdEntry .real false 5 1 v p .forward) (roughArr.received (.flat 2 5 []) x)

theorem diffExpr_accepts (J : Nat → Nat → Int) : Accepts 2 J (fun _ _ => roughOps.fdPrim .forward ⟨[5], 1, false, .real⟩) (fun _ => (5, 5)) diffLeaf false diffExpr
    ⟨.flat 2 5 [], .real⟩ ⟨.flat 2 5 [], .real⟩ := by
  have hl : ∀ b, Accepts 2 J (fun _ _ => roughOps.fdPrim .forward ⟨[5], 1, false, .real⟩) (fun _ => (5, 5)) diffLeaf b (.leaf ()) ⟨.flat 2 5 [], .real⟩ ⟨.flat 2 5 [], .real⟩ := by
    intro b
    refine ⟨fun _ _ => rfl, ⟨flat_wf (by decide), rfl⟩, ⟨flat_wf (by decide), rfl⟩, by cases b <;> rfl, by cases b <;> rfl, ?_⟩
    exact C73_leaf_first roughOps .forward (by decide) (by cases b <;> (show 2 ≤ 5; decide)) (fun _ _ => rfl) (rowable_flat (by decide))
  exact ⟨⟨_, hl false, hl true⟩, .real, hl false, fun _ => rfl⟩

/-- the differences 1, 9, 21, 5 are rounded to 1, 8, 20, 5 -/
example (J : Nat → Nat → Int) : Always 2 (fun r => roughOps.run (env 2 J r) false (diffExpr.map fun _ => roughOps.fdPrim .forward ⟨[5], 1, false, .real⟩) ((⟨.real, [0, 1, 10, 31, 36]⟩ : SVec Int).dpart (.flat 2 5 []) 2 r))
    (fun r => .ok ((⟨.real, [2, 16, 48, 28, 5]⟩ : SVec Int).dpart (.flat 2 5 []) 2 r)) := by
  have h := (C73_expr roughOps (diffExpr_accepts J)).runs ⟨.real, [0, 1, 10, 31, 36]⟩ rfl rfl
  refine h.congr fun r _ => ?_
  rw [show roughOps.eval diffLeaf false diffExpr ⟨.real, [0, 1, 10, 31, 36]⟩ = ⟨.real, [2, 16, 48, 28, 5]⟩ by rfl]
  rfl

end Verif

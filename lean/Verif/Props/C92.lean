/- C92: Programs may use every operator of the library that maps vectors to vectors. -/
import Verif.Props.C91
import Verif.Props.C86
import Verif.Props.C57

namespace Verif
open NDArray
set_option linter.unusedSectionVars false

namespace Script
variable {K σ ι : Type} [RCLike K] {n : Nat} {J : Nat → Nat → K} {dt : DType}

/-- the adjoint of an operator with `N` columns, written down entry by entry: entry `j` is the inner product with column `j` -/
def adjointOf (N : Nat) (f : List K → List K) (v : List K) : List K := (List.range N).map fun j => ip (f (unitVec N j)) v

theorem unit_ip {u : List K} {i : Nat} (hi : i < u.length) : ip (unitVec u.length i) u = u[i] := by
  rw [ip_eq_sum (by simp [unitVec]) rfl]
  rw [Finset.sum_eq_single i]
  · simp [unitVec, hi]
  · intro j hj hji
    simp [unitVec, Finset.mem_range.1 hj, hji]
  · intro h; exact absurd (Finset.mem_range.2 hi) h

theorem eq_adjointOf {N M : Nat} {f g : List K → List K} (h : ∀ u v : List K, u.length = N → v.length = M → ip (f u) v = ip u (g v)) {v : List K} (hv : v.length = M)
    (hg : (g v).length = N) : g v = adjointOf N f v := by
  refine List.ext_getElem (by simp [adjointOf, hg]) fun i h1 h2 => ?_
  simp only [adjointOf, List.getElem_map, List.getElem_range]
  rw [h _ v (by simp [unitVec]) hv]
  have := unit_ip (u := g v) h1
  rw [hg] at this
  exact this.symm

/-- The adjoint may be replaced by any function that is adjoint to the operator. -/
theorem OpOr.adjointOf {p : Nat → Prim K} {sh : Nat × Nat} {f g : List K → List K} (h : OpOr n J dt p sh fun b => if b then g else f)
    (hadj : ∀ u v : List K, u.length = sh.2 → v.length = sh.1 → ip (f u) v = ip u (g v)) : OpOr n J dt p sh fun b => if b then Script.adjointOf sh.2 f else f := by
  refine ⟨h.1, fun b X hX => ?_⟩
  obtain ⟨Y, hY, hc⟩ := h.2 b X hX
  refine ⟨Y, hY, ?_⟩
  cases b with
  | false => exact hc
  | true =>
    intro d hd
    have hl : d.length = sh.1 := by rw [hd.1]; simp [hX.shape, dimOf]
    have hm := (hc d hd).1.1
    have he : g d = Script.adjointOf sh.2 f d := eq_adjointOf hadj hl (by simpa [hY.shape, dimOf] using hm)
    have := hc d hd
    simp only [if_true] at this ⊢
    rw [← he]
    exact this

/-! ### stacks -/

/-- **C92** (MPIVStack).  The operator is constructed and applied; the operators have `N` columns. -/
theorem C92_vstack (hn : 0 < n) {ops : Nat → List (LOp K)} {dtype : Option DType} {N : Nat} (hok : ∀ b, ∀ o ∈ allOps n ops, o.Ok b dt dt) (hN : ∀ o ∈ allOps n ops, o.cols = N)
    (hdt : ∀ r < n, ∀ t, opsDType (ops r) dtype = .ok t → t = dt) :
    OpOr n J dt (fun r => wrap (inSum true (allOps n ops), N) dt fun b c x => do let p ← mkVStack c (ops r) dtype; MOp.run c b (.leaf p) x)
      (inSum true (allOps n ops), N) fun b => if b then hsum true N (allOps n ops) else vcat false (allOps n ops) := by
  refine ⟨fun r _ => rfl, fun b X hX => ?_⟩
  cases b with
  | false =>
    have hX' : Held n [N] X := hX
    refine ⟨.lin (inSum true (allOps n ops)) fun r => inSum true (ops r), .inl ⟨inL_wf (fun _ h => by cases h), rfl, rfl, rfl, rfl⟩, fun d hd => ?_⟩
    have hl : d.length = N := by rw [hd.1]; simp [hX'.shape]
    refine ⟨mem_vcat (mask := none) (b := false) (fun o ho => ⟨hok false o ho, hN o ho⟩) hl hd.2, ?_⟩
    have h := vs_fwd_cases (J := J) hn (hok false) hdt (hX'.wf hn) hX'.shape hd
    by_cases hg : VSGood n ops X
    · exact .inl (h.1 hg).always
    · exact .inr (h.2 hg)
  | true =>
    have hX' : Held n [inSum true (allOps n ops)] X := hX
    refine ⟨.all N, .inr ⟨by simp, rfl⟩, fun d hd => ?_⟩
    have hl : d.length = inSum true (allOps n ops) := by rw [hd.1]; simp [hX'.shape]
    refine ⟨mem_hsum (b := true) (fun o ho => ⟨hok true o ho, hN o ho⟩) hl hd.2, ?_⟩
    have h := vs_adj_cases (J := J) hn (hok true) hdt (hX'.wf hn) hX'.shape hd
    by_cases hg : VSGoodAdj n ops N X
    · exact .inl (h.1 N hg).always
    · refine .inr (h.2 ?_)
      rintro ⟨N', h1, h2, h3⟩
      exact hg ⟨h1, hN, h3⟩

/-- **C92** (MPIHStack).  The operator is constructed and applied; the operators have `M` rows. -/
theorem C92_hstack (hn : 0 < n) {ops : Nat → List (LOp K)} {dtype : Option DType} {M : Nat} (hok : ∀ b, ∀ o ∈ allOps n ops, o.Ok b dt dt) (hM : ∀ o ∈ allOps n ops, o.rows = M)
    (hdt : ∀ r < n, ∀ t, opsDType (ops r) dtype = .ok t → t = dt) :
    OpOr n J dt (fun r => wrap (M, inSum false (allOps n ops)) dt fun b c x => do let p ← mkHStack c (ops r) dtype; MOp.run c b (.leaf p) x)
      (M, inSum false (allOps n ops)) fun b => if b then vcat true (allOps n ops) else hsum false M (allOps n ops) := by
  refine ⟨fun r _ => rfl, fun b X hX => ?_⟩
  cases b with
  | true =>
    have hX' : Held n [M] X := hX
    refine ⟨.lin (inSum false (allOps n ops)) fun r => inSum false (ops r), .inl ⟨inL_wf (fun _ h => by cases h), rfl, rfl, rfl, rfl⟩, fun d hd => ?_⟩
    have hl : d.length = M := by rw [hd.1]; simp [hX'.shape]
    refine ⟨mem_vcat (mask := none) (b := true) (fun o ho => ⟨hok true o ho, hM o ho⟩) hl hd.2, ?_⟩
    have h := hs_adj_cases (J := J) hn (hok true) hdt (hX'.wf hn) hX'.shape hd
    by_cases hg : HSGoodAdj n ops X
    · exact .inl (h.1 hg).always
    · exact .inr (h.2 hg)
  | false =>
    have hX' : Held n [inSum false (allOps n ops)] X := hX
    refine ⟨.all M, .inr ⟨by simp, rfl⟩, fun d hd => ?_⟩
    have hl : d.length = inSum false (allOps n ops) := by rw [hd.1]; simp [hX'.shape]
    refine ⟨mem_hsum (b := false) (fun o ho => ⟨hok false o ho, hM o ho⟩) hl hd.2, ?_⟩
    have h := hs_fwd_cases (J := J) hn (hok false) hdt (hX'.wf hn) hX'.shape hd
    by_cases hg : HSGood n ops M X
    · exact .inl (h.1 M hg).always
    · refine .inr (h.2 ?_)
      rintro ⟨M', h1, h2, h3⟩
      exact hg ⟨h1, hM, h3⟩

/-! ### derivatives -/

section
variable {N : Nat} {rest : List Nat} {s : K} {edge : Bool}

theorem deriv_or (hn : 0 < n) {o : Deriv K} (ho : o = ⟨N :: rest, s, edge, dt⟩) {mv rmv : Ctx K → Deriv K → DArr K → P K (DArr K)} {D D' : (Nat → K) → Nat → K} {t : K}
    (hf : Method n N rest J o mv D t dt ∨ MethodRaises n N rest J o mv dt) (hf' : Method n N rest J o rmv D' t dt ∨ MethodRaises n N rest J o rmv dt)
    (hD : Conj D) (hD' : Conj D') (ht : star t = t)
    (hadj : ∀ u v : List K, u.length = N * rest.prod → v.length = N * rest.prod → ip (alongRows D t N rest.prod u) v = ip u (alongRows D' t N rest.prod v)) :
    OpOr n J dt (fun _ => ⟨o.dims.prod, o.dims.prod, o.dtype, fun c x => derivApply c o mv x, fun c x => derivApply c o rmv x⟩) (N * rest.prod, N * rest.prod)
      fun b => if b then adjointOf (N * rest.prod) (alongRows D t N rest.prod) else alongRows D t N rest.prod := by
  subst ho
  have h : OpOr n J dt (fun _ => ⟨(N :: rest).prod, (N :: rest).prod, dt, fun c x => derivApply c ⟨N :: rest, s, edge, dt⟩ mv x, fun c x => derivApply c ⟨N :: rest, s, edge, dt⟩ rmv x⟩)
      (N * rest.prod, N * rest.prod) (fun b => if b then alongRows D' t N rest.prod else alongRows D t N rest.prod) := by
    refine ⟨fun _ _ => by simp [Prim.shape], fun b X hX => ⟨.flat n N rest, .inl ⟨flat_wf hn, ?_, rfl, rfl, rfl⟩, ?_⟩⟩
    · cases b <;> rfl
    · cases b with
      | false => exact deriv_safe (J := J) hn (o := ⟨N :: rest, s, edge, dt⟩) rfl hf hD ht (fun h => h) hX.vecIn
      | true => exact deriv_safe (J := J) hn (o := ⟨N :: rest, s, edge, dt⟩) rfl hf' hD' ht (fun h => h) hX.vecIn
  exact h.adjointOf hadj

/-- **C92** (MPIFirstDerivative).  The stencil of the forward, backward or centered difference along the first axis and its adjoint. -/
theorem C92_firstDerivative (hn : 0 < n) (k : FDKind) (hN : 1 ≤ N) (hs : star s = s) (hsil : ¬ fdSilent k edge n N) :
    OpOr n J dt (fun _ => firstDerivative k ⟨N :: rest, s, edge, dt⟩) (N * rest.prod, N * rest.prod)
      fun b => if b then adjointOf (N * rest.prod) (alongRows (fdAt k edge N) s N rest.prod) else alongRows (fdAt k edge N) s N rest.prod := by
  have h1 := total_fd (n := n) (J := J) (rest := rest) (s := s) (edge := edge) (dt := dt) (dx := dt) k hn hN (fun h => h) hs
  refine deriv_or (s := s) (edge := edge) hn rfl h1 (D' := fdBack k edge n N) ?_ (conj_fdAt k) (conj_fdBack k) hs fun u v hu hv => adjoint_fdBack k hn hs hu hv
  rcases total_fdAdj (s := s) (edge := edge) (rest := rest) (J := J) (dt := dt) (dx := dt) k hn hN hsil (fun h => h) with h | h
  · left
    simp only [fdBack, if_pos h]
    exact method_fdAdj k hn h (fun h => h) hs
  · exact .inr h

/-- **C92** (MPISecondDerivative). -/
theorem C92_secondDerivative (hn : 0 < n) (k : SDKind) (hN : 1 ≤ N) (hs : star s = s) (hsil : ¬ sdSilent k n N) :
    OpOr n J dt (fun _ => secondDerivative k ⟨N :: rest, s, edge, dt⟩) (N * rest.prod, N * rest.prod)
      fun b => if b then adjointOf (N * rest.prod) (alongRows (sdAt k edge N) (s ^ 2) N rest.prod) else alongRows (sdAt k edge N) (s ^ 2) N rest.prod := by
  have h1 := total_sd (n := n) (J := J) (rest := rest) (s := s) (edge := edge) (dt := dt) (dx := dt) k hn hN (fun h => h) hs
  refine deriv_or (s := s) (edge := edge) hn rfl h1 (D' := sdBack k edge n N) ?_ (conj_sdAt k) (conj_sdBack k) (star_sq hs) fun u v hu hv => adjoint_sdBack k hn hs hu hv
  rcases total_sdAdj (s := s) (edge := edge) (rest := rest) (J := J) (dt := dt) (dx := dt) k hn hN hsil (fun h => h) with h | h
  · left
    simp only [sdBack, if_pos h]
    exact method_sdAdj k hn h (fun h => h) hs
  · exact .inr h

/-- **C92** (MPILaplacian).  As C90, with the adjoint written down, so that it is the same on any number of ranks. -/
theorem C92_laplacian (hn : 0 < n) {sd : Serial K SDKind} {kind : SDKind} (hN : 1 ≤ N) {p0 : Nat × K × Scal K}
    {l : List (Nat × K × Scal K)} (h0 : LapFits sd n N rest edge dt kind p0) (hl : ∀ p ∈ l, LapFits sd n N rest edge dt .centered p) (hs : p0.1 = 0 → ¬ sdSilent kind n N) :
    let f := laplacian edge (N :: rest) ((p0.1, p0.2.1, kind, p0.2.2.val) :: l.map fun p => (p.1, p.2.1, .centered, p.2.2.val))
    OpOr n J dt (fun _ => wrap (N * rest.prod, N * rest.prod) dt (lapRun sd (N :: rest) ((p0 :: l).map (·.1)) ((p0 :: l).map (·.2.2)) ((p0 :: l).map (·.2.1)) edge kind dt))
        (N * rest.prod, N * rest.prod) (fun b => if b then adjointOf (N * rest.prod) f else f) := by
  intro f
  obtain ⟨g, h, hadj⟩ := C90_laplacian (J := J) hn hN h0 hl hs
  exact h.adjointOf hadj

/-! ### derivatives of one-dimensional arrays in the default layout -/

theorem deriv_standard (hn : 0 < n) {o : Deriv K} (ho : o = ⟨[N], s, edge, dt⟩) {mv rmv : Ctx K → Deriv K → DArr K → P K (DArr K)} {D D' : (Nat → K) → Nat → K} {t : K}
    (hf : Method n N [] J o mv D t dt) (hf' : Method n N [] J o rmv D' t dt)
    (hadj : ∀ u v : List K, u.length = N * 1 → v.length = N * 1 → ip (alongRows D t N 1 u) v = ip u (alongRows D' t N 1 v)) (b : Bool) :
    Computes n J (fun _ c x => if b then derivApply c o rmv x else derivApply c o mv x) ⟨standard n [N], dt⟩ ⟨standard n [N], dt⟩
      (if b then adjointOf N (alongRows D t N 1) else alongRows D t N 1) := by
  subst ho
  have e : Layout.flat n N [] = standard n [N] := by simp [Layout.lin, standard, balanced, len]
  have hw : (Layout.flat n N []).WF n := flat_wf hn
  have hc := conform_slab hn hw rfl rfl
  rw [← e]
  cases b with
  | false =>
    intro d hd
    exact deriv_scatter (J := J) hn (o := ⟨[N], s, edge, dt⟩) rfl hf hc near_flat d hd
  | true =>
    intro d hd
    have h := deriv_scatter (J := J) hn (o := ⟨[N], s, edge, dt⟩) rfl hf' hc near_flat d hd
    have he : alongRows D' t N 1 d = adjointOf N (alongRows D t N 1) d := by
      have := eq_adjointOf hadj (v := d) (by simpa [Layout.lin] using hd.1) (by simp [alongRows])
      simpa using this
    simp only [if_true]
    rw [← he]
    exact h

/-- **C92** (MPIFirstDerivative in the default layout).  With enough rows on every rank no rank raises. -/
theorem C92_firstDerivative_standard (hn : 0 < n) {k : ι → FDKind} {N : ι → Nat} {s : ι → K} {edge : ι → Bool} (hs : ∀ i, star (s i) = s i)
    (hroom : ∀ i, fdRoom (k i) (edge i) n (N i) ∧ fdRoomAdj (k i) (edge i) n (N i)) :
    OpsStandard n J dt (fun i _ => firstDerivative (k i) ⟨[N i], s i, edge i, dt⟩)
      ⟨fun i => (N i, N i), fun i b => if b then adjointOf (N i) (alongRows (fdAt (k i) (edge i) (N i)) (s i) (N i) 1) else alongRows (fdAt (k i) (edge i) (N i)) (s i) (N i) 1⟩ := by
  refine fun i => ⟨fun _ _ => by simp [Prim.shape, firstDerivative], fun b => ?_⟩
  have h := deriv_standard (J := J) (dt := dt) (s := s i) (edge := edge i) hn rfl (method_fd (k i) hn (hroom i).1 (fun h => h) (hs i)) (method_fdAdj (k i) hn (hroom i).2 (fun h => h) (hs i))
    (fun u v hu hv => C30_transpose (k i) hn (hroom i).2 (hs i) hu hv) b
  cases b <;> exact h

/-- **C92** (MPISecondDerivative in the default layout). -/
theorem C92_secondDerivative_standard (hn : 0 < n) {k : ι → SDKind} {N : ι → Nat} {s : ι → K} {edge : ι → Bool} (hs : ∀ i, star (s i) = s i)
    (hroom : ∀ i, sdRoom (k i) (edge i) n (N i) ∧ sdRoomAdj (k i) (edge i) n (N i)) :
    OpsStandard n J dt (fun i _ => secondDerivative (k i) ⟨[N i], s i, edge i, dt⟩)
      ⟨fun i => (N i, N i), fun i b => if b then adjointOf (N i) (alongRows (sdAt (k i) (edge i) (N i)) (s i ^ 2) (N i) 1) else alongRows (sdAt (k i) (edge i) (N i)) (s i ^ 2) (N i) 1⟩ := by
  refine fun i => ⟨fun _ _ => by simp [Prim.shape, secondDerivative], fun b => ?_⟩
  have h := deriv_standard (J := J) (dt := dt) (s := s i) (edge := edge i) hn rfl (method_sd (k i) hn (hroom i).1 (fun h => h) (hs i)) (method_sdAdj (k i) hn (hroom i).2 (fun h => h) (hs i))
    (fun u v hu hv => C32_transpose (k i) hn (hroom i).2 (hs i) hu hv) b
  cases b <;> exact h

end

/-! ### multi-dimensional convolution -/

/-- **C92** (MPIMDC, complex kernels and arrays). -/
theorem C92_mdc (hn : 0 < n) {sz : Nat → Nat} {dG : DType} {g : List K} {nt ns nr nv nfreq : Nat} {tw sg cj um ps : Bool} {fft : Nat → Nat → Nat → Bool → LOp K} {sqrt : Nat → K} {δt δr : K}
    (hF : FFTOk (fft nt nr nv tw) nt (nt / 2 + 1) (nr * nv)) (hF1 : FFTOk (fft nt ns nv false) nt (nt / 2 + 1) (ns * nv)) (hd : dG = .cplx) (hg : g.length = psum sz n * (ns * nr)) (hnv : nv ≠ 0) :
    OpOr n J .cplx (fun r => wrap (nt * ns * nv, nt * nr * nv) .cplx (mdcRun fft sqrt (kern sz ns nr dG g r) nt nv nfreq δt δr tw sg cj um ps)) (nt * ns * nv, nt * nr * nv)
      fun b => if b then mdcAdj (fft nt nr nv tw).adj (fft nt ns nv false).fwd (min nfreq (nt / 2 + 1)) (nt / 2 + 1) ns nr nv (mdcKernel ps cj (δr * δt * sqrt nt) g)
        else mdc (fft nt nr nv tw).fwd (fft nt ns nv false).adj (min nfreq (nt / 2 + 1)) (nt / 2 + 1) ns nr nv (mdcKernel ps cj (δr * δt * sqrt nt) g) := by
  refine ⟨fun _ _ => rfl, fun b X hX => ?_⟩
  cases b with
  | false => exact ⟨.all (nt * ns * nv), .inr ⟨by simp, rfl⟩, C84_mdc_matvec hF hF1 hd hg hnv (hX.wf hn) hX.shape⟩
  | true => exact ⟨.all (nt * nr * nv), .inr ⟨by simp, rfl⟩, C84_mdc_rmatvec hF hF1 hd hg hnv (hX.wf hn) hX.shape⟩

/-! ### programs with derivatives, on any number of ranks -/

/-- the constructor arguments of a derivative of a one-dimensional array: `kind` and `order` in one, number of rows, sampling step, `edge` -/
structure Der (K : Type) where
  kind : FDKind ⊕ SDKind
  N : Nat
  s : K
  edge : Bool

/-- the operator of the library -/
def Der.prim (dt : DType) (D : Der K) : Prim K :=
  match D.kind with
  | .inl k => firstDerivative k ⟨[D.N], D.s, D.edge, dt⟩
  | .inr k => secondDerivative k ⟨[D.N], D.s, D.edge, dt⟩

/-- the difference quotients -/
def Der.fwd (D : Der K) : List K → List K :=
  match D.kind with
  | .inl k => alongRows (fdAt k D.edge D.N) D.s D.N 1
  | .inr k => alongRows (sdAt k D.edge D.N) (D.s ^ 2) D.N 1

/-- every rank has enough rows -/
def Der.Room (n : Nat) (D : Der K) : Prop :=
  match D.kind with
  | .inl k => fdRoom k D.edge n D.N ∧ fdRoomAdj k D.edge n D.N
  | .inr k => sdRoom k D.edge n D.N ∧ sdRoomAdj k D.edge n D.N

/-- the serial operators -/
def derLeaves (D : ι → Der K) : Leaves K ι := ⟨fun i => ((D i).N, (D i).N), fun i b => if b then adjointOf (D i).N (D i).fwd else (D i).fwd⟩

theorem derivatives_standard (hn : 0 < n) {D : ι → Der K} (hs : ∀ i, star (D i).s = (D i).s) (hroom : ∀ i, (D i).Room n) : OpsStandard n J dt (fun i _ => (D i).prim dt) (derLeaves D) := by
  intro i
  have hi := hroom i
  unfold Der.Room at hi
  unfold Der.prim derLeaves Der.fwd
  cases hk : (D i).kind with
  | inl k =>
    rw [hk] at hi
    have := C92_firstDerivative_standard (J := J) (dt := dt) (ι := Unit) hn (k := fun _ => k) (N := fun _ => (D i).N) (s := fun _ => (D i).s) (edge := fun _ => (D i).edge) (fun _ => hs i) (fun _ => hi) ()
    simpa only [hk] using this
  | inr k =>
    rw [hk] at hi
    have := C92_secondDerivative_standard (J := J) (dt := dt) (ι := Unit) hn (k := fun _ => k) (N := fun _ => (D i).N) (s := fun _ => (D i).s) (edge := fun _ => (D i).edge) (fun _ => hs i) (fun _ => hi) ()
    simpa only [hk] using this

theorem derivatives_or (hn : 0 < n) {D : ι → Der K} (hs : ∀ i, star (D i).s = (D i).s) (hroom : ∀ i, (D i).Room n) : OpsOr n J dt (fun i _ => (D i).prim dt) (derLeaves D) := by
  intro i
  have hi := hroom i
  unfold Der.Room at hi
  unfold Der.prim derLeaves Der.fwd
  cases hk : (D i).kind with
  | inl k =>
    rw [hk] at hi
    have hN : 1 ≤ (D i).N ∧ ¬ fdSilent k (D i).edge n (D i).N := by
      unfold fdSilent
      rcases hi with ⟨h1, h2⟩
      cases k <;> simp only [fdRoom, fdRoomAdj] at h1 h2 ⊢ <;> (try split_ifs at h1) <;> (try simp_all) <;> omega
    have := C92_firstDerivative (J := J) (dt := dt) (rest := []) (edge := (D i).edge) (s := (D i).s) hn k hN.1 (hs i) hN.2
    simpa only [hk, List.prod_nil, Nat.mul_one] using this
  | inr k =>
    rw [hk] at hi
    have hN : 1 ≤ (D i).N ∧ ¬ sdSilent k n (D i).N := by
      unfold sdSilent
      rcases hi with ⟨h1, h2⟩
      cases k <;> simp only [sdRoom, sdRoomAdj] at h1 h2 ⊢ <;> (try split_ifs at h1) <;> (try simp_all) <;> omega
    have := C92_secondDerivative (J := J) (dt := dt) (rest := []) (edge := (D i).edge) (s := (D i).s) hn k hN.1 (hs i) hN.2
    simpa only [hk, List.prod_nil, Nat.mul_one] using this

theorem Expression.power {e : MOp K ι} (h : Expression dt e) : PowerExpression dt e := by
  induction e with
  | leaf i => trivial
  | adj A ih => exact ih h
  | trans A ih => exact ih h
  | conj A ih => exact ih h
  | pow A k ih => exact h.elim
  | prod A B iA iB => exact ⟨iA h.1, iB h.2⟩
  | sum A B iA iB => exact ⟨iA h.1, iB h.2⟩
  | scaled A s ih => exact ⟨ih h.1, h.2⟩

/-- **C92** (derivatives, number of ranks).  A script whose operators are expressions of first and second derivatives of one-dimensional arrays — of all kinds, with adjoints, products, sums and scalar
    multiples, so also the normal operators of regularised least squares — and which may call the solvers: if it is run on `n` ranks and on `m` ranks and all ranks have enough rows, then either some rank
    raises in both jobs, in all executions, or all ranks of both jobs return in all executions, with parts of the same arrays and with the same numbers. -/
theorem C92_ranks (hdt : dt = .real → ∀ k : K, star k = k) {n m : Nat} (hn : 0 < n) (hm : 0 < m) {J J' : Nat → Nat → K} {D : ι → Der K} (hs : ∀ i, star (D i).s = (D i).s)
    (hroom : ∀ i, (D i).Room n ∧ (D i).Room m) {κ : Type} (e : κ → MOp K ι) (he : ∀ k, Expression dt (e k)) (hsh : ∀ k, Shaped (fun i => ((D i).N, (D i).N)) (e k)) (p : Script K σ κ) (hp : p.Plain)
    (s : σ) :
    let job n J r := p.run dt (fun k => exprPrim (fun i _ => (D i).prim dt) (fun i => ((D i).N, (D i).N)) dt (e k) r) (env n J r) ⟨fun _ => none, s⟩
    (Raises n (job n J) ∧ Raises m (job m J')) ∨
      ∃ G V V', Holds n dt V G ∧ Holds m dt V' G ∧ Always n (job n J) (fun r => .ok (V r)) ∧ Always m (job m J') (fun r => .ok (V' r)) := by
  intro job
  have o1 := C91_expr_standard (J := J) hn hdt (derivatives_standard hn hs fun i => (hroom i).1) e (fun k => (he k).power) hsh
  have o2 := C91_expr_standard (J := J') hm hdt (derivatives_standard hm hs fun i => (hroom i).2) e (fun k => (he k).power) hsh
  have h1 : HoldsStandard n dt (fun _ => ⟨fun _ => none, s⟩) (⟨fun _ => none, s⟩ : Vars (NDArray K) σ) := ⟨fun _ _ => rfl, fun _ _ _ => rfl⟩
  have h2 : HoldsStandard m dt (fun _ => ⟨fun _ => none, s⟩) (⟨fun _ => none, s⟩ : Vars (NDArray K) σ) := ⟨fun _ _ => rfl, fun _ _ _ => rfl⟩
  cases hser : p.serial dt ⟨fun k => (e k).shape (derLeaves D).sh, fun k b => den (derLeaves D) b (e k)⟩ ⟨fun _ => none, s⟩ with
  | error er =>
    left
    exact ⟨(C91_script hn hdt (derivatives_or (J := J) hn hs fun i => (hroom i).1) e he hsh p (holds_start s)).1 er hser,
      (C91_script hm hdt (derivatives_or (J := J') hm hs fun i => (hroom i).2) e he hsh p (holds_start s)).1 er hser⟩
  | ok G =>
    right
    obtain ⟨V, hV, a1⟩ := C90_plain hn hdt o1 p hp h1 hser
    obtain ⟨V', hV', a2⟩ := C90_plain hm hdt o2 p hp h2 hser
    exact ⟨G, V, V', hV.holds hn, hV'.holds hm, a1, a2⟩

/-! ### examples -/

/-- a forward difference of 12 entries with step 2 has enough rows on 1 to 12 ranks, a second difference with `edge` on 1 to 4 ranks -/
example : (∀ n ≤ 12, (⟨.inl .forward, 12, 2, false⟩ : Der ℝ).Room n) ∧ ∀ n ≤ 4, (⟨.inr .centered, 12, 2, true⟩ : Der ℝ).Room n := by
  refine ⟨fun n hn => ⟨hn, hn⟩, fun n hn => ?_⟩
  simp only [Der.Room, sdRoom, sdRoomAdj, if_true]
  omega

/-- `cg(D2.H * D2 + 3 * D1.H * D1, y, x0, 50, 0)` with a second derivative `D2` and a first derivative `D1`: the hypotheses of `C92_ranks` hold on 2 and on 3 ranks. -/
example (y : Nat → ℝ) (J J' : Nat → Nat → ℝ) :
    let D : Bool → Der ℝ := fun b => if b then ⟨.inr .centered, 12, 2, true⟩ else ⟨.inl .forward, 12, 2, false⟩
    let e : Unit → MOp ℝ Bool := fun _ => .sum (.prod (.adj (.leaf true)) (.leaf true)) (.scaled (.prod (.adj (.leaf false)) (.leaf false)) ⟨.real, 3⟩)
    let job n J r := (callScript 12 y 50 0).run .real (fun k => exprPrim (fun i _ => (D i).prim .real) (fun i => ((D i).N, (D i).N)) .real (e k) r) (env n J r) ⟨fun _ => none, (0, [], [])⟩
    (Raises 2 (job 2 J) ∧ Raises 3 (job 3 J')) ∨
      ∃ G V V', Holds 2 .real V G ∧ Holds 3 .real V' G ∧ Always 2 (job 2 J) (fun r => .ok (V r)) ∧ Always 3 (job 3 J') (fun r => .ok (V' r)) := by
  intro D e job
  refine C92_ranks (fun _ _ => rfl) (by decide) (by decide) (fun _ => rfl) (fun i => ?_) e (fun _ => ⟨⟨trivial, trivial⟩, ⟨trivial, trivial⟩, fun _ => rfl⟩)
    (fun _ => ⟨⟨trivial, trivial, rfl⟩, ⟨trivial, trivial, rfl⟩, rfl⟩) _ (by simp [callScript, Plain]) _
  cases i <;> simp [D, Der.Room, fdRoom, fdRoomAdj, sdRoom, sdRoomAdj]

/-- Stacks of the operators 2 I, on any number of ranks: N = M = 1. -/
example (hn : 0 < n) (J : Nat → Nat → ℝ) :
    OpOr n J .real (fun r => wrap (inSum true (allOps n doubles), 1) .real fun b c x => do let p ← mkVStack c (doubles r) none; MOp.run c b (.leaf p) x)
        (inSum true (allOps n doubles), 1) (fun b => if b then hsum true 1 (allOps n doubles) else vcat false (allOps n doubles)) ∧
      OpOr n J .real (fun r => wrap (1, inSum false (allOps n doubles)) .real fun b c x => do let p ← mkHStack c (doubles r) none; MOp.run c b (.leaf p) x)
        (1, inSum false (allOps n doubles)) (fun b => if b then vcat true (allOps n doubles) else hsum false 1 (allOps n doubles)) ∧
      vcat false (allOps 2 doubles) [3] = [6, 6] ∧ hsum true 1 (allOps 2 doubles) [3, 4] = [14] := by
  have h : ∀ o ∈ allOps n doubles, o.rows = 1 ∧ o.cols = 1 := by
    intro o ho
    obtain ⟨r, -, ho⟩ := List.mem_flatMap.1 ho
    obtain rfl := List.mem_singleton.1 ho
    exact ⟨rfl, rfl⟩
  refine ⟨C92_vstack hn (fun _ _ h => doubles_ok h) (fun o ho => (h o ho).2) ?_, C92_hstack hn (fun _ _ h => doubles_ok h) (fun o ho => (h o ho).1) ?_, ?_, ?_⟩
  · rintro r - t ht
    exact (Except.ok.inj ht).symm
  · rintro r - t ht
    exact (Except.ok.inj ht).symm
  · norm_num [vcat, allOps, doubles, List.range_succ, LOp.fn]
  · norm_num [hsum, vsum, vadd, slices, allOps, doubles, List.range_succ, LOp.fn, LOp.inDim]

/-- A multi-dimensional convolution: two frequencies on rank 0, one on rank 1; the arrays have 4 time samples. -/
example (J : Nat → Nat → ℂ) (tw sg cj um ps : Bool) : OpOr 2 J .cplx
    (fun r => wrap (4, 8) .cplx (mdcRun (rfft Complex.I) (fun _ => 2) (kern (fun r => 2 - r) 1 2 .cplx ((List.range 6).map fun i => (⟨i, 1⟩ : ℂ)) r) 4 1 3 1 1 tw sg cj um ps)) (4, 8)
    fun b => if b then mdcAdj (rfft Complex.I 4 2 1 tw).adj (rfft Complex.I 4 1 1 false).fwd 3 3 1 2 1 (mdcKernel ps cj (1 * 1 * 2) ((List.range 6).map fun i => (⟨i, 1⟩ : ℂ)))
      else mdc (rfft Complex.I 4 2 1 tw).fwd (rfft Complex.I 4 1 1 false).adj 3 3 1 2 1 (mdcKernel ps cj (1 * 1 * 2) ((List.range 6).map fun i => (⟨i, 1⟩ : ℂ))) :=
  C92_mdc (n := 2) (nt := 4) (ns := 1) (nr := 2) (nv := 1) (nfreq := 3) (sz := fun r => 2 - r) (fft := rfft Complex.I) (sqrt := fun _ => 2) (δt := 1) (δr := 1) (by decide) (rfft_ok ..) (rfft_ok ..) rfl
    rfl (by decide)

/-- the adjoint of the forward difference of 3 entries with step 1 -/
example : adjointOf 3 (alongRows (fdAt .forward false 3) (1 : ℝ) 3 1) [1, 2, 5] = [-1, -1, 2] := by
  norm_num [adjointOf, ip, unitVec, alongRows, tab, fdAt, entry, List.range_succ]

end Script
end Verif

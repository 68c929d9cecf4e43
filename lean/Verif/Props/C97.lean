/- C97: the script of the gallery on derivatives. -/
import Verif.Model.GalleryDerivative
import Verif.Props.C29
import Verif.Props.C31
import Verif.Props.C33
import Verif.Props.C34
import Verif.Props.C65
import Verif.Props.C83
import Verif.Proofs.StackedNorm

set_option linter.unusedSectionVars false

namespace Verif
open NDArray

variable {K : Type} [Field K] [StarRing K] [CharZero K]
variable {n N w : Nat} {J : Nat → Nat → K} {sd : Serial K SDKind} {fd : Serial K FDKind} {rest : List Nat} {edge : Bool} {dt dx : DType} {kind : SDKind} {k : FDKind} {X : Layout}

/-- how `to_dist` lays out a flat array with `N * w` entries -/
def evenly (n N w : Nat) : VSpace := ⟨.lin (N * w) (balanced (N * w) n), .real⟩

theorem evenly_wf (hn : 0 < n) : (evenly n N w).L.WF n := lin_wf (psum_balanced_total _ hn) (by simp)

theorem evenly_mem {d : List K} (h : d.length = N * w) (hf : FitsL .real d) : (evenly n N w).Mem d := ⟨by simp [evenly, Layout.lin, h], hf⟩

theorem runs_evenly (hn : 0 < n) {d : List K} (h : d.length = N * w) (hf : FitsL .real d) :
    Runs n (fun r => toDist (env n J r) ⟨[N * w], .real, d⟩ .scatter 0 none none) (fun r => .ok ((evenly n N w).vec n d r)) :=
  runs_toDist_none (J := J) (L := (evenly n N w).L) (x := ⟨[N * w], .real, d⟩) (evenly_wf hn) (fun _ => by simp [evenly, Layout.lin, len]) rfl (by simpa [NDArray.WF] using h) hf

theorem runs_flat_asarray (hn : 0 < n) {d : List K} (hd : VSpace.Mem ⟨.flat n N [w], .real⟩ d) :
    Runs n (fun r => (VSpace.vec ⟨.flat n N [w], .real⟩ n d r).asarray (env n J r)) (fun _ => .ok ⟨[N * w], .real, d⟩) := by
  refine (runs_asarray_vec (S := ⟨.flat n N [w], .real⟩) (flat_wf hn) hd).congr (fun _ _ => rfl) fun _ _ => ?_
  have : (Layout.flat n N [w]).gshape = [N * w] := by simp [Layout.lin]
  simp only [this]

theorem runs_exDerivOne (hn : 0 < n) {op : Nat → MOp K (Prim K)} {f : List K → List K}
    (h : Computes n J (fun r c x => MOp.run c false (op r) x) (evenly n N w) ⟨.flat n N [w], .real⟩ f) {d : List K} (hd : d.length = N * w) (hf : FitsL .real d) :
    Runs n (fun r => exDerivOne (env n J r) (op r) ⟨[N * w], .real, d⟩) (fun _ => .ok ⟨[N * w], .real, f d⟩) := by
  unfold exDerivOne
  simp only [Prog.bind_eq]
  refine Runs.bind_ok (runs_evenly hn hd hf) ?_
  obtain ⟨h1, h2⟩ := h d (evenly_mem hd hf)
  exact Runs.bind_ok h2.runs (runs_flat_asarray hn h1)

/-- the constructor of MPILaplacian, and the operator that it makes -/
theorem runs_lapPair (hn : 0 < n) {p0 : Nat × K × Scal K} {l : List (Nat × K × Scal K)} (h0 : LapOk sd n N rest edge dt kind p0)
    (hl : ∀ p ∈ l, LapOk sd n N rest edge dt .centered p) (hdt : dt = .real → dx = .real)
    (hX : X.WF n) (hg : X.gshape = [N * rest.prod]) (hp : X.part = .scatter) (hN : Near n X (.slab n N rest)) :
    ∃ op : Nat → Prim K,
      Runs n (fun r => mkLaplacian (env n J r) sd (N :: rest) ((p0 :: l).map (·.1)) ((p0 :: l).map (·.2.2)) ((p0 :: l).map (·.2.1)) edge kind dt) (fun r => .ok (op r)) ∧
      Computes n J (fun r c x => MOp.run c false (.leaf (op r)) x) ⟨X, dx⟩ ⟨.flat n N rest, dt⟩
        (laplacian edge (N :: rest) ((p0.1, p0.2.1, kind, p0.2.2.val) :: l.map fun p => (p.1, p.2.1, .centered, p.2.2.val))) := by
  set e : MOp K (LTerm K) := lapExpr (.scaled (.leaf ⟨p0.1, p0.2.1, kind⟩) p0.2.2) (l.map fun p => (⟨p.1, p.2.1, .centered⟩, p.2.2)) with he
  have hax : ∀ {k p}, LapOk sd n N rest edge dt k p → p.1 < rest.length + 1 := by
    intro k p h
    cases e : p.1 with
    | zero => omega
    | succ a => have := (h.1.serial a e).1; omega
  have hsh : e.shape (lapLeaves sd n N rest edge dt).sh = (N * rest.prod, N * rest.prod) := lapExpr_shape rfl _
  have hshd : Shaped (lapLeaves sd n N rest edge dt).sh e :=
    lapExpr_shaped (e := .scaled (.leaf ⟨p0.1, p0.2.1, kind⟩) p0.2.2) trivial rfl _
  have ht : Typed (lapLeaves sd n N rest edge dt) n J (lapPrim sd n N rest edge dt) false e ⟨X, dx⟩ ⟨.flat n N rest, dt⟩ := by
    refine lapExpr_typed hn hdt hX hg hp hN (fun q hq => ?_) ⟨lap_typed hn hdt hX hg hp hN h0.1 false, h0.2⟩
    obtain ⟨p, hp, rfl⟩ := List.mem_map.1 hq
    exact hl p hp
  obtain ⟨e', hH, -, -⟩ := H_shaped _ hshd
  have hc := typed_computes ht
  have hs : ∀ r, (e.map (lapPrim sd n N rest edge dt · r)).shape Prim.shape = (N * rest.prod, N * rest.prod) := fun r => by
    rw [shape_map (lv := lapLeaves sd n N rest edge dt) (prim := lapPrim sd n N rest edge dt) e fun t => lapPrim_shape hn t r, hsh]
  refine ⟨fun r => ⟨N * rest.prod, N * rest.prod, dt, fun c x => MOp.run c false (e.map (lapPrim sd n N rest edge dt · r)) x,
      fun c x => MOp.run c false (e'.map (lapPrim sd n N rest edge dt · r)) x⟩, ?_, ?_⟩
  · unfold mkLaplacian
    have c1 : ((p0 :: l).map (·.1)).any ((N :: rest).length ≤ ·) = false := by
      rw [List.any_eq_false]
      intro a ha
      obtain ⟨p, hp, rfl⟩ := List.mem_map.1 ha
      have : p.1 < rest.length + 1 := by
        rcases List.mem_cons.1 hp with rfl | hp
        · exact hax h0
        · exact hax (hl p hp)
      simpa using by omega
    have c2 : ((p0 :: l).map (·.1)).zip (((p0 :: l).map (·.2.1)).zip ((p0 :: l).map (·.2.2))) = p0 :: l := by
      generalize p0 :: l = q
      induction q with
      | nil => rfl
      | cons a q ih => simp [ih]
    simp only [c1, c2, Bool.false_eq_true, if_false, List.length_map, and_self, not_true_eq_false, Prog.bind_eq]
    refine Runs.bind_ok (runs_lapTerm h0.1) ?_
    refine Runs.bind_ok (a := fun r => e.map (lapPrim sd n N rest edge dt · r))
      (runs_lapLoop hn (fun p hp => (hl p hp).1) (e := .scaled (.leaf ⟨p0.1, p0.2.1, kind⟩) p0.2.2) rfl) ?_
    refine (Runs.ret _).congr (fun r _ => ?_) fun _ _ => rfl
    rw [hs r, H_map (sh := (lapLeaves sd n N rest edge dt).sh) (fun t => lapPrim_shape hn t r) hH]
    rfl
  · intro d hd
    have hd' : d.length = N * rest.prod := by rw [hd.1]; simp [hg]
    have e1 : den (lapLeaves sd n N rest edge dt) false (.scaled (.leaf ⟨p0.1, p0.2.1, kind⟩) p0.2.2) d
        = vscale p0.2.2.val (alongAxis (sdAt kind edge) (p0.2.1 ^ 2) p0.1 (N :: rest) d) := by
      simp only [den]
      congr 1
      simp [lapLeaves, if_pos h0.1, LTerm.fwd]
    have e2 := length_den (lv := lapLeaves sd n N rest edge dt) (lap_sized hn) (e := .scaled (.leaf ⟨p0.1, p0.2.1, kind⟩) p0.2.2) trivial (b := false) (x := d) hd'
    have e3 : den (lapLeaves sd n N rest edge dt) false e d
        = laplacian edge (N :: rest) ((p0.1, p0.2.1, kind, p0.2.2.val) :: l.map fun p => (p.1, p.2.1, .centered, p.2.2.val)) d := by
      rw [he, lapExpr_den hn hd' e2 (fun q hq => by obtain ⟨p, hp, rfl⟩ := List.mem_map.1 hq; exact (hl p hp).1), e1]
      unfold laplacian
      rw [List.map_cons, vsum_cons, List.map_map, List.map_map, show N * rest.prod = (N :: rest).prod from (List.prod_cons).symm]
      rfl
    rw [← e3]
    refine ⟨(hc d hd).1, Runs.always ?_⟩
    have := runs_checkDim (n := n) (b := false) (S := ⟨X, dx⟩) (d := d) (sh := (N * rest.prod, N * rest.prod)) (fun _ _ => rfl) hg (hc.runs hd)
    exact this.congr (fun r _ => by simp only [MOp.run, Prim.shape]; rfl) fun _ _ => rfl

/-- MPIGradient: the operator made by the constructor, `Gop @ x` and `Gop.H @ y` -/
theorem runs_gradPair (hn : 0 < n) {sampling : List K} (h : GradOk fd n N rest k edge dt sampling) (hdt : dt = .real → dx = .real)
    (hX : X.WF n) (hg : X.gshape = [N * rest.prod]) (hp : X.part = .scatter) (hN : Near n X (.slab n N rest)) :
    ∃ (op opH : Nat → SOp K (Prim K)) (g : List K → List K),
      Runs n (fun r => mkGradient (env n J r) fd (N :: rest) sampling edge k dt) (fun r => .ok (op r)) ∧ (∀ r, (op r).H Prim.shape = .ok (opH r)) ∧
      XComputes n J (fun r c x => SOp.run c false (op r) x) (.one ⟨X, dx⟩) (.stack (List.replicate (rest.length + 1) ⟨.flat n N rest, dt⟩)) (gradient k edge (N :: rest) 0 sampling) ∧
      XComputes n J (fun r c x => SOp.run c false (opH r) x) (.stack (List.replicate (rest.length + 1) ⟨.flat n N rest, dt⟩)) (.one ⟨.flat n N rest, dt⟩) g ∧
      ∀ u v : List K, u.length = N * rest.prod → v.length = (rest.length + 1) * (N * rest.prod) → ip (gradient k edge (N :: rest) 0 sampling u) v = ip u (g v) := by
  have hl : (gterms 0 sampling).length = rest.length + 1 := (length_gterms _ _).trans h.1
  have h0 : ((gterms 0 sampling).map .leaf : List (MOp K (GTerm K))) ≠ [] := by intro e; simp at e; simp [e] at hl
  have ht : STyped (gradLeaves fd n N rest k edge dt) n J (gradPrim fd n N rest k edge dt) false (.grad ((gterms 0 sampling).map .leaf)) (.one ⟨X, dx⟩)
      (.stack (List.replicate (rest.length + 1) ⟨.flat n N rest, dt⟩)) := by
    refine ⟨h0, ?_⟩
    rw [← hl, ← List.map_const', List.forall₂_map_left_iff, List.forall₂_map_right_iff, List.forall₂_same]
    exact fun t ht => grad_typed hn hdt hX hg hp hN (h.2 t ht) false
  have htH : STyped (gradLeaves fd n N rest k edge dt) n J (gradPrim fd n N rest k edge dt) false (.adj (.grad ((gterms 0 sampling).map .leaf)))
      (.stack (List.replicate (rest.length + 1) ⟨.flat n N rest, dt⟩)) (.one ⟨.flat n N rest, dt⟩) := by
    refine ⟨h0, ?_⟩
    rw [← hl, ← List.map_const', List.forall₂_map_left_iff, List.forall₂_map_right_iff, List.forall₂_same]
    exact fun t ht => grad_typed hn (fun h => h) (flat_wf hn) rfl rfl near_flat (h.2 t ht) true
  refine ⟨fun r => (SOp.grad ((gterms 0 sampling).map .leaf)).map (gradPrim fd n N rest k edge dt · r),
    fun r => (SOp.adj (.grad ((gterms 0 sampling).map .leaf))).map (gradPrim fd n N rest k edge dt · r), _,
    runs_mkGradient hn h, fun r => rfl, ?_, styped_computes htH, fun u v hu hv => ?_⟩
  · have e : sden (gradLeaves fd n N rest k edge dt) false (.grad ((gterms 0 sampling).map .leaf)) = gradient k edge (N :: rest) 0 sampling := funext fun d => gradient_eq h.2 d
    have := styped_computes ht
    rw [e] at this
    exact this
  · have hcol : (SOp.vshape (gradLeaves fd n N rest k edge dt).sh ((gterms 0 sampling).map .leaf : List (MOp K (GTerm K)))).2 = N * rest.prod := by
      cases e : gterms 0 sampling with
      | nil => simp [e] at hl
      | cons t l => rfl
    have hrow : (SOp.vshape (gradLeaves fd n N rest k edge dt).sh ((gterms 0 sampling).map .leaf : List (MOp K (GTerm K)))).1 = (rest.length + 1) * (N * rest.prod) := by
      rw [← hl]
      simp only [SOp.vshape, List.map_map]
      rw [show ((fun o : MOp K (GTerm K) => (o.shape (gradLeaves fd n N rest k edge dt).sh).1) ∘ MOp.leaf) = fun _ => N * rest.prod from rfl]
      simp
    have := C36_vstack_adjoint (lv := gradLeaves fd n N rest k edge dt) (grad_sized hn) (grad_adjoint hn) (ops := (gterms 0 sampling).map .leaf)
      ⟨h0, fun o ho => by obtain ⟨t, -, rfl⟩ := List.mem_map.1 ho; trivial, fun o ho => by obtain ⟨t, -, rfl⟩ := List.mem_map.1 ho; exact hcol.symm⟩
      (u := u) (v := v) (hu.trans hcol.symm) (hv.trans hrow.symm)
    rw [← gradient_eq h.2]
    exact this

/-! ### The script -/

/-- What the script needs on `n` ranks for an array with `N` rows of `w` entries: each rank gets a row, and the even distribution of the `N * w` entries by `to_dist` is near
    the distribution by rows: the boundary of the rows of rank `r` lies in the entries of the ranks `r` and `r + 1`. -/
def Suits (n N w : Nat) : Prop := n ≤ N ∧ Near n (.lin (N * w) (balanced (N * w) n)) (.slab n N [w])

/-- **C97** (plot_derivative.py).  Let the three arrays have `Nᵢ` rows of `wᵢ` entries, suiting the `n > 0` ranks; let there be two rows per rank in the last one, or one rank; let the serial
    operators compute the differences along the rows.  In every execution all ranks finish with the same six arrays: the centered first and second differences of the first
    and of the second array along the first axis; the sum of the second differences of the third array along the two axes, with weights 1 and 1, and with weights 3 and 1;
    the first differences of the third array along the two axes one after the other; and the adjoint of that map applied to it, that is the array `z` with
    `⟨u, z⟩ = ⟨G u, G x⟩` for all `u`. -/
theorem C97_derivative (hn : 0 < n) {N₁ w₁ N₂ w₂ N₃ w₃ : Nat} (h1 : Suits n N₁ w₁) (h2 : Suits n N₂ w₂) (h3 : Suits n N₃ w₃) (hr : 2 * n ≤ N₃ ∨ n = 1)
    (hsd : ∀ r, IsDeriv (sd [balanced N₃ n r, w₃] 1 1 .centered false .real) (sdAt .centered false) 1 1 [balanced N₃ n r, w₃] .real)
    (hfd : ∀ r, IsDeriv (fd [balanced N₃ n r, w₃] 1 1 .centered3 false .real) (fdAt .centered3 false) 1 1 [balanced N₃ n r, w₃] .real)
    {d₁ d₂ d₃ : List K} (l1 : d₁.length = N₁ * w₁) (l2 : d₂.length = N₂ * w₂) (l3 : d₃.length = N₃ * w₃) (f1 : FitsL .real d₁) (f2 : FitsL .real d₂) (f3 : FitsL .real d₃) :
    ∃ z : List K, z.length = N₃ * w₃ ∧
      (∀ u : List K, u.length = N₃ * w₃ → ip u z = ip (gradient .centered3 false [N₃, w₃] 0 [1, 1] u) (gradient .centered3 false [N₃, w₃] 0 [1, 1] d₃)) ∧
      Always n (fun r => exDerivative (env n J r) sd fd [N₁, w₁] [N₂, w₂] [N₃, w₃] ⟨[N₁ * w₁], .real, d₁⟩ ⟨[N₂ * w₂], .real, d₂⟩ ⟨[N₃ * w₃], .real, d₃⟩) (fun _ => .ok
        (⟨[N₁ * w₁], .real, alongRows (fdAt .centered3 false N₁) 1 N₁ w₁ d₁⟩,
         ⟨[N₂ * w₂], .real, alongRows (sdAt .centered false N₂) 1 N₂ w₂ d₂⟩,
         ⟨[N₃ * w₃], .real, laplacian false [N₃, w₃] [(0, 1, .centered, 1), (1, 1, .centered, 1)] d₃⟩,
         ⟨[N₃ * w₃], .real, laplacian false [N₃, w₃] [(0, 1, .centered, 3), (1, 1, .centered, 1)] d₃⟩,
         ⟨[2 * (N₃ * w₃)], .real, gradient .centered3 false [N₃, w₃] 0 [1, 1] d₃⟩,
         ⟨[N₃ * w₃], .real, z⟩)) := by
  have r1 := C29_scatter_partial (J := J) (X := (evenly n N₁ w₁).L) (rest := [w₁]) (edge := false) (dt := .real) (dx := .real) (s := 1) .centered3 hn
    (show (if false = true then _ else _) ≤ N₁ by simpa using h1.1) (fun h => h) one_ne_zero (star_one K) (evenly_wf hn) (by simp [evenly, Layout.lin]) rfl h1.2
  have r2 := C31_scatter_partial (J := J) (X := (evenly n N₂ w₂).L) (rest := [w₂]) (edge := false) (dt := .real) (dx := .real) (s := 1) .centered hn
    (show (if false = true then _ else _) ≤ N₂ by simpa using h2.1) (fun h => h) one_ne_zero (star_one K) (evenly_wf hn) (by simp [evenly, Layout.lin]) rfl h2.2
  have hlap : ∀ a : K, star a = a → ∀ ax, ax = 0 ∨ ax = 1 → LapOk sd n N₃ [w₃] false .real .centered (ax, 1, ⟨.real, a⟩) := by
    intro a ha ax hax
    refine ⟨⟨one_ne_zero, (star_one K), fun _ => ⟨?_, ?_⟩, fun b hb => ?_⟩, fun _ => ⟨rfl, ha⟩⟩
    · show (if false = true then _ else _) ≤ N₃; simpa using h3.1
    · show if false = true then 3 * n ≤ N₃ else 2 * n ≤ N₃ ∨ n = 1 ∧ 1 ≤ N₃
      have := h3.1
      rw [if_neg (by decide)]
      omega
    · obtain rfl : b = 0 := by change ax = b + 1 at hb; omega
      obtain rfl : ax = 1 := hb
      refine ⟨by simp, fun r => ?_⟩
      have := hsd r
      simpa [LTerm.ops] using this
  have hone : star (1 : K) = 1 := (star_one K)
  have hthree : star (3 : K) = 3 := star_ofNat 3
  have hX : (evenly n N₃ w₃).L.gshape = [N₃ * [w₃].prod] := by simp [evenly, Layout.lin]
  obtain ⟨op1, o1, c1⟩ := runs_lapPair (J := J) (X := (evenly n N₃ w₃).L) (dx := .real) hn (l := [(1, 1, ⟨.real, 1⟩)]) (hlap 1 hone 0 (.inl rfl))
    (by simpa using hlap 1 hone 1 (.inr rfl)) (fun h => h) (evenly_wf hn) hX rfl h3.2
  obtain ⟨op2, o2, c2⟩ := runs_lapPair (J := J) (X := (evenly n N₃ w₃).L) (dx := .real) hn (l := [(1, 1, ⟨.real, 1⟩)]) (hlap 3 hthree 0 (.inl rfl))
    (by simpa using hlap 1 hone 1 (.inr rfl)) (fun h => h) (evenly_wf hn) hX rfl h3.2
  have hgr : GradOk fd n N₃ [w₃] .centered3 false .real [1, 1] := by
    refine ⟨rfl, fun t ht => ?_⟩
    simp only [gterms, List.mem_cons, List.not_mem_nil, or_false] at ht
    rcases ht with rfl | rfl
    · refine ⟨one_ne_zero, (star_one K), fun _ => ⟨?_, ?_⟩, fun a ha => by cases ha⟩
      · show (if false = true then _ else _) ≤ N₃; simpa using h3.1
      · show 2 * n ≤ N₃ ∨ n = 1 ∧ false = false ∧ 1 ≤ N₃
        have := h3.1
        simp only [true_and]
        omega
    · refine ⟨one_ne_zero, (star_one K), fun h => (by cases h), fun a ha => ?_⟩
      obtain rfl : a = 0 := by change 1 = a + 1 at ha; omega
      refine ⟨by simp, fun r => ?_⟩
      have := hfd r
      simpa [GTerm.ops] using this
  obtain ⟨gop, goH, g, o3, e3, c3, c4, hadj⟩ := runs_gradPair (J := J) (X := (evenly n N₃ w₃).L) (dx := .real) hn hgr (fun h => h) (evenly_wf hn) hX rfl h3.2
  have m3 := evenly_mem (n := n) l3 f3
  obtain ⟨t1, q1⟩ := c1 d₃ m3
  obtain ⟨t2, q2⟩ := c2 d₃ m3
  obtain ⟨t3, q3⟩ := c3 d₃ m3
  obtain ⟨t4, q4⟩ := c4 _ t3
  have lg : (gradient .centered3 false [N₃, w₃] 0 [1, 1] d₃).length = ([w₃].length + 1) * (N₃ * [w₃].prod) := by
    rw [SSpace.Mem.length t3]
    simp [SSpace.dim, Layout.lin]
    omega
  refine ⟨g (gradient .centered3 false [N₃, w₃] 0 [1, 1] d₃), ?_, fun u hu => ?_, Runs.always ?_⟩
  · rw [t4.1]; simp [Layout.lin]
  · exact (hadj u _ (by simpa using hu) lg).symm
  · unfold exDerivative
    simp only [Prog.bind_eq]
    refine Runs.bind_ok (runs_exDerivOne hn r1 l1 f1) ?_
    refine Runs.bind_ok (runs_exDerivOne hn r2 l2 f2) ?_
    refine Runs.bind_ok o1 (Runs.bind_ok o2 (Runs.bind_ok (runs_evenly hn l3 f3) ?_))
    refine Runs.bind_ok q1.runs (Runs.bind_ok (runs_flat_asarray hn t1) ?_)
    refine Runs.bind_ok q2.runs (Runs.bind_ok (runs_flat_asarray hn t2) ?_)
    refine Runs.bind_ok o3 (Runs.bind_ok q3.runs ?_)
    have wS : SSpace.WF (List.replicate ([w₃].length + 1) ⟨.flat n N₃ [w₃], .real⟩) n := fun V hV => by
      rw [List.eq_of_mem_replicate hV]; exact flat_wf hn
    refine Runs.bind_ok (runs_asarray_svec wS (by simp) t3) ?_
    simp only [e3, Prog.lift, Prog.ret_bind]
    refine Runs.bind_ok q4.runs (Runs.bind_ok (runs_flat_asarray hn t4) ?_)
    refine (Runs.ret _).congr (fun _ _ => rfl) fun r _ => ?_
    have hg : (Layout.flat n N₃ [w₃]).gshape.prod = N₃ * w₃ := by simp [Layout.lin]
    simp [laplacian, SSpace.dim, SSpace.dtype, hg, two_mul, DType.promote]

/-- **C97** (what happens otherwise).  If the first array does not suit the number of ranks, some rank raises ValueError, in every execution, whatever the rest. -/
theorem C97_raises (hn : 0 < n) {N₁ w₁ : Nat} (hN : 0 < N₁) (h : ¬ Suits n N₁ w₁) {d₁ : List K} (l1 : d₁.length = N₁ * w₁) (f1 : FitsL .real d₁) (dims₂ dims₃ : List Nat) (x₂ x₃ : NDArray K) :
    ∃ m < n, RankEnds n (fun r => exDerivative (env n J r) sd fd [N₁, w₁] dims₂ dims₃ ⟨[N₁ * w₁], .real, d₁⟩ x₂ x₃) m (.error .value) := by
  have key : ∃ m < n, RankEnds n (fun r => fdRun .centered3 [N₁, w₁] (1 : K) false .real false (env n J r) ((evenly n N₁ w₁).vec n d₁ r)) m (.error .value) := by
    have hX : (evenly n N₁ w₁).L.gshape = [N₁ * [w₁].prod] := by simp [evenly, Layout.lin]
    by_cases hnear : Near n (evenly n N₁ w₁).L (.slab n N₁ [w₁])
    · have hlt : N₁ < n := by
        by_contra hle
        exact h ⟨by omega, hnear⟩
      exact C29_raises_rows .centered3 (by omega) (show N₁ < n from hlt) (evenly_wf hn) hX rfl hnear (evenly_mem l1 f1)
    · exact C29_raises_layout .centered3 false hn (evenly_wf hn) hX rfl hnear (evenly_mem l1 f1)
  obtain ⟨m, hm, hr⟩ := key
  refine ⟨m, hm, ?_⟩
  unfold exDerivative exDerivOne
  simp only [Prog.bind_eq]
  exact (rankEnds_bind_ok hm (runs_evenly hn l1 f1) (hr.bind_error _)).bind_error _

/-! ### The sizes of the script -/

instance (n N w : Nat) : Decidable (Suits n N w) :=
  decidable_of_iff (n ≤ N ∧ ∀ r < n - 1, psum (Layout.lin (N * w) (balanced (N * w) n)).cnt r ≤ psum (Layout.slab n N [w]).cnt (r + 1) ∧
      psum (Layout.slab n N [w]).cnt (r + 1) ≤ psum (Layout.lin (N * w) (balanced (N * w) n)).cnt (r + 2))
    (and_congr_right fun _ => forall_congr' fun r => by rw [Nat.lt_sub_iff_add_lt])

/-- the number of ranks for which the arrays of the first two sections (11 rows of 21 entries) and of the other two (12 rows of 21 entries) suit -/
theorem C97_sizes (hn : 0 < n) : (Suits n 11 21 ↔ n ≤ 6 ∨ n = 10 ∨ n = 11) ∧ (Suits n 12 21 ↔ n ≤ 7 ∨ n = 11 ∨ n = 12) := by
  have key : ∀ m < 13, 0 < m → (Suits m 11 21 ↔ m ≤ 6 ∨ m = 10 ∨ m = 11) ∧ (Suits m 12 21 ↔ m ≤ 7 ∨ m = 11 ∨ m = 12) := by decide +kernel
  by_cases h : n < 13
  · exact key n h hn
  · exact ⟨⟨fun h' => by have := h'.1; omega, fun h' => by omega⟩, ⟨fun h' => by have := h'.1; omega, fun h' => by omega⟩⟩

/-! ### Any number of ranks -/

theorem runsOr_exDerivOne (hn : 0 < n) {op : Nat → MOp K (Prim K)} {f : List K → List K}
    (h : ComputesOr n J (fun r c x => MOp.run c false (op r) x) (evenly n N w) ⟨.flat n N [w], .real⟩ f) {d : List K} (hd : d.length = N * w) (hf : FitsL .real d) :
    RunsOr n (fun r => exDerivOne (env n J r) (op r) ⟨[N * w], .real, d⟩) (fun _ => .ok ⟨[N * w], .real, f d⟩) := by
  unfold exDerivOne
  simp only [Prog.bind_eq]
  refine RunsOr.bind_ok (runs_evenly hn hd hf).or ?_
  obtain ⟨h1, h2⟩ := h d (evenly_mem hd hf)
  exact RunsOr.bind_ok (h2.imp Always.runs id) (runs_flat_asarray hn h1).or

theorem rankEnds_checkDim {sh : Nat × Nat} {b : Bool} {S : VSpace} {d : List K} {k : Nat → P K (DArr K)} {m : Nat} {o : Except Err (DArr K)} {shs : Nat → Nat × Nat} (hs : ∀ r < n, shs r = sh)
    (hg : S.L.gshape = [dimOf sh b]) (hm : m < n) (h : RankEnds n k m o) : RankEnds n (fun r => checkDim (shs r) b (S.vec n d r) (k r)) m o := by
  refine h.congr_prog (fun r hr => ?_) hm
  unfold checkDim
  rw [hs r hr, if_neg]
  have : (S.vec n d r : DArr K).gshape = S.L.gshape := rfl
  rw [this, hg]
  simp [dimOf]

/-- if the first summand of a Laplacian raises, so does the sum -/
theorem lapExpr_raises {prim : LTerm K → Nat → Prim K} {M m : Nat} {S : VSpace} {d : List K} {x : Err} (hg : S.L.gshape = [M]) (hm : m < n) :
    ∀ (l : List (LTerm K × Scal K)) {e : MOp K (LTerm K)}, (∀ r < n, (e.map (prim · r)).shape Prim.shape = (M, M)) →
      RankEnds n (fun r => MOp.run (env n J r) false (e.map (prim · r)) (S.vec n d r)) m (.error x) →
      RankEnds n (fun r => MOp.run (env n J r) false ((lapExpr e l).map (prim · r)) (S.vec n d r)) m (.error x)
  | [], _, _, h => h
  | (t, w) :: l, e, hs, h => by
    refine lapExpr_raises hg hm l (e := .sum e (.scaled (.leaf t) w)) (fun r hr => hs r hr) ?_
    simp only [MOp.map, MOp.run, Prog.bind_eq]
    exact rankEnds_checkDim (sh := (M, M)) (fun r hr => hs r hr) hg hm (h.bind_error _)

theorem runs_lapPairOr (hn : 0 < n) (hN : 1 ≤ N) {p0 : Nat × K × Scal K} {l : List (Nat × K × Scal K)} (h0 : LapFits sd n N rest edge dt kind p0)
    (hl : ∀ p ∈ l, LapFits sd n N rest edge dt .centered p) (hdt : dt = .real → dx = .real) (hX : VecIn n (N * rest.prod) X) :
    ∃ op : Nat → Prim K,
      Runs n (fun r => mkLaplacian (env n J r) sd (N :: rest) ((p0 :: l).map (·.1)) ((p0 :: l).map (·.2.2)) ((p0 :: l).map (·.2.1)) edge kind dt) (fun r => .ok (op r)) ∧
      ComputesOr n J (fun r c x => MOp.run c false (.leaf (op r)) x) ⟨X, dx⟩ ⟨.flat n N rest, dt⟩
        (laplacian edge (N :: rest) ((p0.1, p0.2.1, kind, p0.2.2.val) :: l.map fun p => (p.1, p.2.1, .centered, p.2.2.val))) ∧
      ∀ {d : List K} {m : Nat}, p0.1 = 0 → m < n → RankEnds n (fun r => sdRun kind (N :: rest) p0.2.1 edge dt false (env n J r) (VSpace.vec ⟨X, dx⟩ n d r)) m (.error .value) →
        RankEnds n (fun r => MOp.run (env n J r) false (.leaf (op r)) (VSpace.vec ⟨X, dx⟩ n d r)) m (.error .value) := by
  set e : MOp K (LTerm K) := lapExpr (.scaled (.leaf ⟨p0.1, p0.2.1, kind⟩) p0.2.2) (l.map fun p => (⟨p.1, p.2.1, .centered⟩, p.2.2)) with he
  have hax : ∀ {k p}, LapFits sd n N rest edge dt k p → p.1 < rest.length + 1 := by
    intro k p h
    cases e : p.1 with
    | zero => omega
    | succ a => have := (h.1.serial a e).1; omega
  have hsh : e.shape (lapFns sd n N rest edge dt).sh = (N * rest.prod, N * rest.prod) := lapFns_shape rfl _
  have hshd : Shaped (lapFns sd n N rest edge dt).sh e :=
    lapPart_shaped (e := .scaled (.leaf ⟨p0.1, p0.2.1, kind⟩) p0.2.2) trivial rfl _
  have ht : TypedOr (lapFns sd n N rest edge dt) n J (lapPart sd n N rest edge dt) false e ⟨X, dx⟩ ⟨.flat n N rest, dt⟩ := by
    refine lapFns_typed hn hN hdt hX (fun q hq => ?_) ⟨lap_safe hn hN hdt hX h0.1 (by simp), h0.2⟩
    obtain ⟨p, hp, rfl⟩ := List.mem_map.1 hq
    exact ⟨⟨(hl p hp).1, fun _ _ h => h⟩, (hl p hp).2⟩
  obtain ⟨e', hH, -, -⟩ := H_shaped _ hshd
  have hc := typedOr_safe ht
  have hs : ∀ r, (e.map (lapPart sd n N rest edge dt · r)).shape Prim.shape = (N * rest.prod, N * rest.prod) := fun r => by
    rw [shape_map (lv := lapFns sd n N rest edge dt) (prim := lapPart sd n N rest edge dt) e fun t => lapPart_shape hn t r, hsh]
  refine ⟨fun r => ⟨N * rest.prod, N * rest.prod, dt, fun c x => MOp.run c false (e.map (lapPart sd n N rest edge dt · r)) x,
      fun c x => MOp.run c false (e'.map (lapPart sd n N rest edge dt · r)) x⟩, ?_, ?_, ?_⟩
  · unfold mkLaplacian
    have c1 : ((p0 :: l).map (·.1)).any ((N :: rest).length ≤ ·) = false := by
      rw [List.any_eq_false]
      intro a ha
      obtain ⟨p, hp, rfl⟩ := List.mem_map.1 ha
      have : p.1 < rest.length + 1 := by
        rcases List.mem_cons.1 hp with rfl | hp
        · exact hax h0
        · exact hax (hl p hp)
      simpa using by omega
    have c2 : ((p0 :: l).map (·.1)).zip (((p0 :: l).map (·.2.1)).zip ((p0 :: l).map (·.2.2))) = p0 :: l := by
      generalize p0 :: l = q
      induction q with
      | nil => rfl
      | cons a q ih => simp [ih]
    simp only [c1, c2, Bool.false_eq_true, if_false, List.length_map, and_self, not_true_eq_false, Prog.bind_eq]
    refine Runs.bind_ok (runs_lapFits h0.1) ?_
    refine Runs.bind_ok (a := fun r => e.map (lapPart sd n N rest edge dt · r))
      (runs_lapFitsLoop hn (fun p hp => (hl p hp).1) (e := .scaled (.leaf ⟨p0.1, p0.2.1, kind⟩) p0.2.2) rfl) ?_
    refine (Runs.ret _).congr (fun r _ => ?_) fun _ _ => rfl
    rw [hs r, H_map (sh := (lapFns sd n N rest edge dt).sh) (fun t => lapPart_shape hn t r) hH]
    rfl
  · intro d hd
    have hd' : d.length = N * rest.prod := by rw [hd.1]; simp [hX.shape]
    have e1 : den (lapFns sd n N rest edge dt) false (.scaled (.leaf ⟨p0.1, p0.2.1, kind⟩) p0.2.2) d
        = vscale p0.2.2.val (alongAxis (sdAt kind edge) (p0.2.1 ^ 2) p0.1 (N :: rest) d) := by
      simp only [den]
      congr 1
      simp [lapFns, if_pos h0.1, LTerm.fwd]
    have e2 := length_den (lv := lapFns sd n N rest edge dt) (lapFns_sized hn) (e := .scaled (.leaf ⟨p0.1, p0.2.1, kind⟩) p0.2.2) trivial (b := false) (x := d) hd'
    have e3 : den (lapFns sd n N rest edge dt) false e d
        = laplacian edge (N :: rest) ((p0.1, p0.2.1, kind, p0.2.2.val) :: l.map fun p => (p.1, p.2.1, .centered, p.2.2.val)) d := by
      rw [he, lapFns_den hn hd' e2 (fun q hq => by obtain ⟨p, hp, rfl⟩ := List.mem_map.1 hq; exact (hl p hp).1), e1]
      unfold laplacian
      rw [List.map_cons, vsum_cons, List.map_map, List.map_map, show N * rest.prod = (N :: rest).prod from (List.prod_cons).symm]
      rfl
    rw [← e3]
    refine ⟨(hc d hd).1, ?_⟩
    have := runsOr_checkDim (n := n) (b := false) (S := ⟨X, dx⟩) (d := d) (sh := (N * rest.prod, N * rest.prod)) (fun _ _ => rfl) hX.shape (hc.runs hd)
    exact (this.congr (fun r _ => by simp only [MOp.run, Prim.shape]; rfl) fun _ _ => rfl).imp Runs.always id
  · intro d m h00 hm hr
    have hfit := h0.1
    have hprim : ∀ r, lapPart sd n N rest edge dt ⟨p0.1, p0.2.1, kind⟩ r = secondDerivative kind ⟨N :: rest, p0.2.1, edge, dt⟩ := fun r => by
      rw [lapPart, if_pos hfit, if_pos h00]
    have hs0 : ∀ r : Nat, (secondDerivative kind (⟨N :: rest, p0.2.1, edge, dt⟩ : Deriv K)).shape = (N * rest.prod, N * rest.prod) := fun r => by
      simp [secondDerivative, Prim.shape]
    have h1 : RankEnds n (fun r => MOp.run (env n J r) false ((MOp.scaled (.leaf ⟨p0.1, p0.2.1, kind⟩) p0.2.2).map (lapPart sd n N rest edge dt · r)) (VSpace.vec ⟨X, dx⟩ n d r)) m (.error .value) := by
      simp only [MOp.map, hprim]
      have := rankEnds_checkDim (S := ⟨X, dx⟩) (d := d) (b := false) (shs := fun _ => (secondDerivative kind (⟨N :: rest, p0.2.1, edge, dt⟩ : Deriv K)).shape) (fun r _ => hs0 r) hX.shape hm
        (hr.bind_error fun r y => y.scaleInPlace (env n J r) p0.2.2)
      refine this.congr_prog (fun r _ => ?_) hm
      simp only [sdRun, MOp.run, MOp.shape, Prog.bind_eq]
      rfl
    have h2 := lapExpr_raises (S := ⟨X, dx⟩) (prim := lapPart sd n N rest edge dt) hX.shape hm (l.map fun p => (⟨p.1, p.2.1, .centered⟩, p.2.2)) (fun r _ => by
      simp only [MOp.map, MOp.shape, hprim]; exact hs0 r) h1
    have h3 := rankEnds_checkDim (S := ⟨X, dx⟩) (d := d) (b := false) (sh := (N * rest.prod, N * rest.prod)) (shs := fun _ => (N * rest.prod, N * rest.prod)) (fun _ _ => rfl) hX.shape hm h2
    refine h3.congr_prog (fun r _ => ?_) hm
    simp only [MOp.run, Prim.shape]
    rfl

theorem scheckDim_cases (sh : Nat × Nat) (b : Bool) (x : XArr K) : (∀ k, SOp.checkDim sh b x k = k) ∨ ∀ k, SOp.checkDim sh b x k = .throw .value := by
  cases x with
  | one d =>
    by_cases h : d.gshape ≠ [if b then sh.1 else sh.2]
    · exact .inr fun k => by simp only [SOp.checkDim, if_pos h]
    · exact .inl fun k => by simp only [SOp.checkDim, if_neg h]
  | stack l =>
    unfold SOp.checkDim
    dsimp only
    by_cases h : (l.any fun d => d.gshape.length ≠ ((l.map fun e => e.gshape.length).headD 0)) = true
    · exact .inr fun k => if_pos h
    · by_cases h' : (l.map fun d => d.gshape.sum).sum ≠ (if b then sh.1 else sh.2)
      · exact .inr fun k => by rw [if_neg h, if_pos h']
      · exact .inl fun k => by rw [if_neg h, if_neg h']

theorem Raises.scheckDim {sh : Nat → Nat × Nat} {b : Bool} {x : Nat → XArr K} {k : Nat → P K (XArr K)} (h : Raises n k) : Raises n (fun r => SOp.checkDim (sh r) b (x r) (k r)) := by
  by_cases hc : ∃ r < n, ∀ k, SOp.checkDim (sh r) b (x r) k = .throw .value
  · obtain ⟨r, hr, hne⟩ := hc
    refine ⟨r, hr, .value, RankEnds.of_steps .refl ?_⟩
    rw [hne]
    rfl
  · refine h.congr fun r hr => ?_
    rcases scheckDim_cases (sh r) b (x r) with h | h
    · exact (h _).symm
    · exact absurd ⟨r, hr, h⟩ hc

/-- an exception after a stage that may itself raise -/
theorem Raises.afterOr {α β : Type} {ps : Nat → P K α} {a : Nat → α} {k : Nat → α → P K β} (h : RunsOr n ps (fun r => .ok (a r))) (h2 : Raises n (fun r => k r (a r))) :
    Raises n (fun r => (ps r).bind (k r)) := by
  rcases h with h | h
  · obtain ⟨m, hm, e, h2⟩ := h2
    exact ⟨m, hm, e, rankEnds_bind_ok hm h h2⟩
  · exact h.bind k

theorem runs_gradPairOr (hn : 0 < n) (hN : 1 ≤ N) (hs : ¬ fdSilent k edge n N) {sampling : List K} (h : GradFits fd n N rest k edge dt sampling) (hdt : dt = .real → dx = .real)
    (hX : VecIn n (N * rest.prod) X) :
    ∃ (op opH : Nat → SOp K (Prim K)) (g : List K → List K),
      Runs n (fun r => mkGradient (env n J r) fd (N :: rest) sampling edge k dt) (fun r => .ok (op r)) ∧ (∀ r, (op r).H Prim.shape = .ok (opH r)) ∧
      XComputesOr n J (fun r c x => SOp.run c false (op r) x) (.one ⟨X, dx⟩) (.stack (List.replicate (rest.length + 1) ⟨.flat n N rest, dt⟩)) (gradient k edge (N :: rest) 0 sampling) ∧
      XComputesOr n J (fun r c x => SOp.run c false (opH r) x) (.stack (List.replicate (rest.length + 1) ⟨.flat n N rest, dt⟩)) (.one ⟨.flat n N rest, dt⟩) g ∧
      (∀ u v : List K, u.length = N * rest.prod → v.length = (rest.length + 1) * (N * rest.prod) → ip (gradient k edge (N :: rest) 0 sampling u) v = ip u (g v)) ∧
      (¬ fdRoomAdj k edge n N → ∀ d, (XSpace.stack (List.replicate (rest.length + 1) ⟨.flat n N rest, dt⟩)).Mem d →
        Raises n (fun r => SOp.run (env n J r) false (opH r) ((XSpace.stack (List.replicate (rest.length + 1) ⟨.flat n N rest, dt⟩)).vec n d r))) := by
  have hl : (gterms 0 sampling).length = rest.length + 1 := (length_gterms _ _).trans h.1
  have h0 : ((gterms 0 sampling).map .leaf : List (MOp K (GTerm K))) ≠ [] := by intro e; simp at e; simp [e] at hl
  have ht : STypedOr (gradFns fd n N rest k edge dt) n J (gradPart fd n N rest k edge dt) false (.grad ((gterms 0 sampling).map .leaf)) (.one ⟨X, dx⟩)
      (.stack (List.replicate (rest.length + 1) ⟨.flat n N rest, dt⟩)) := by
    refine ⟨h0, ?_⟩
    rw [← hl, ← List.map_const', List.forall₂_map_left_iff, List.forall₂_map_right_iff, List.forall₂_same]
    exact fun t ht => grad_safe hn hN hdt hX (h.2 t ht) (by simp)
  have htH : STypedOr (gradFns fd n N rest k edge dt) n J (gradPart fd n N rest k edge dt) false (.adj (.grad ((gterms 0 sampling).map .leaf)))
      (.stack (List.replicate (rest.length + 1) ⟨.flat n N rest, dt⟩)) (.one ⟨.flat n N rest, dt⟩) := by
    refine ⟨h0, ?_⟩
    rw [← hl, ← List.map_const', List.forall₂_map_left_iff, List.forall₂_map_right_iff, List.forall₂_same]
    exact fun t ht => grad_safe hn hN (fun h => h) (.inl ⟨flat_wf hn, rfl, rfl⟩) (h.2 t ht) fun _ _ => hs
  refine ⟨fun r => (SOp.grad ((gterms 0 sampling).map .leaf)).map (gradPart fd n N rest k edge dt · r),
    fun r => (SOp.adj (.grad ((gterms 0 sampling).map .leaf))).map (gradPart fd n N rest k edge dt · r), _,
    runs_mkGradFits hn h, fun r => rfl, ?_, stypedOr_safe htH, fun u v hu hv => ?_, fun hroom d hd => ?_⟩
  · have e : sden (gradFns fd n N rest k edge dt) false (.grad ((gterms 0 sampling).map .leaf)) = gradient k edge (N :: rest) 0 sampling := funext fun d => gradFns_eq h.2 d
    have := stypedOr_safe ht
    rw [e] at this
    exact this
  · have hcol : (SOp.vshape (gradFns fd n N rest k edge dt).sh ((gterms 0 sampling).map .leaf : List (MOp K (GTerm K)))).2 = N * rest.prod := by
      cases e : gterms 0 sampling with
      | nil => simp [e] at hl
      | cons t l => rfl
    have hrow : (SOp.vshape (gradFns fd n N rest k edge dt).sh ((gterms 0 sampling).map .leaf : List (MOp K (GTerm K)))).1 = (rest.length + 1) * (N * rest.prod) := by
      rw [← hl]
      simp only [SOp.vshape, List.map_map]
      rw [show ((fun o : MOp K (GTerm K) => (o.shape (gradFns fd n N rest k edge dt).sh).1) ∘ MOp.leaf) = fun _ => N * rest.prod from rfl]
      simp
    have := C36_vstack_adjoint (lv := gradFns fd n N rest k edge dt) (gradFns_sized hn) (gradFns_adjoint hn) (ops := (gterms 0 sampling).map .leaf)
      ⟨h0, fun o ho => by obtain ⟨t, -, rfl⟩ := List.mem_map.1 ho; trivial, fun o ho => by obtain ⟨t, -, rfl⟩ := List.mem_map.1 ho; exact hcol.symm⟩
      (u := u) (v := v) (hu.trans hcol.symm) (hv.trans hrow.symm)
    rw [← gradFns_eq h.2]
    exact this
  · cases sampling with
    | nil => simp [gterms] at h0
    | cons s0 l =>
      have hfit := h.2 ⟨0, s0⟩ (by simp [gterms])
      have hprim : ∀ r, gradPart fd n N rest k edge dt ⟨0, s0⟩ r = firstDerivative k ⟨N :: rest, s0, edge, dt⟩ := fun r => by
        rw [gradPart, if_pos hfit, if_pos rfl]
      have hin : VecIn n (N * rest.prod) (.flat n N rest) := .inl ⟨flat_wf hn, rfl, rfl⟩
      have key : Raises n (fun r => fdRun k (N :: rest) s0 edge dt true (env n J r) (VSpace.vec ⟨.flat n N rest, dt⟩ n (d.take (Layout.flat n N rest).gshape.prod) r)) := by
        have hr := (total_fdAdj (J := J) (rest := rest) (s := s0) (dt := dt) (dx := dt) k hn hN hs (fun h => h)).resolve_left hroom
        obtain ⟨m, hm, er, h⟩ := deriv_raises_in (J := J) hn (o := ⟨N :: rest, s0, edge, dt⟩) rfl hr hin hd.1
        exact ⟨m, hm, er, h.congr_prog (fun r _ => (fdRun_eq (b := true) (k := k) hin.gshape).symm) hm⟩
      simp only [SOp.map, SOp.run, List.map_map, gterms, List.map_cons, Bool.not_false, if_true]
      refine Raises.scheckDim (Raises.scheckDim ?_)
      simp only [List.replicate_succ, XSpace.vec, SSpace.vec, SOp.vsRmv, Prog.bind_eq, MOp.map, Function.comp, hprim]
      exact key.bind _

/-- the serial operators compute the centered differences along the rows of the local arrays -/
def SerialRows (sd : Serial K SDKind) (fd : Serial K FDKind) (n N w : Nat) : Prop := ∀ r,
  IsDeriv (sd [balanced N n r, w] 1 1 .centered false .real) (sdAt .centered false) 1 1 [balanced N n r, w] .real ∧
  IsDeriv (fd [balanced N n r, w] 1 1 .centered3 false .real) (fdAt .centered3 false) 1 1 [balanced N n r, w] .real

/-- **C97** (any number of ranks and any sizes).  In every execution all ranks finish with the six arrays of `C97_derivative`, or some rank raises: the script never shows anything else. -/
theorem C97_safe (hn : 0 < n) {N₁ w₁ N₂ w₂ N₃ w₃ : Nat} (h1 : 1 ≤ N₁) (h2 : 1 ≤ N₂) (h3 : 1 ≤ N₃) (hser : SerialRows sd fd n N₃ w₃)
    {d₁ d₂ d₃ : List K} (l1 : d₁.length = N₁ * w₁) (l2 : d₂.length = N₂ * w₂) (l3 : d₃.length = N₃ * w₃) (f1 : FitsL .real d₁) (f2 : FitsL .real d₂) (f3 : FitsL .real d₃) :
    ∃ z : List K, z.length = N₃ * w₃ ∧
      (∀ u : List K, u.length = N₃ * w₃ → ip u z = ip (gradient .centered3 false [N₃, w₃] 0 [1, 1] u) (gradient .centered3 false [N₃, w₃] 0 [1, 1] d₃)) ∧
      (Always n (fun r => exDerivative (env n J r) sd fd [N₁, w₁] [N₂, w₂] [N₃, w₃] ⟨[N₁ * w₁], .real, d₁⟩ ⟨[N₂ * w₂], .real, d₂⟩ ⟨[N₃ * w₃], .real, d₃⟩) (fun _ => .ok
        (⟨[N₁ * w₁], .real, alongRows (fdAt .centered3 false N₁) 1 N₁ w₁ d₁⟩,
         ⟨[N₂ * w₂], .real, alongRows (sdAt .centered false N₂) 1 N₂ w₂ d₂⟩,
         ⟨[N₃ * w₃], .real, laplacian false [N₃, w₃] [(0, 1, .centered, 1), (1, 1, .centered, 1)] d₃⟩,
         ⟨[N₃ * w₃], .real, laplacian false [N₃, w₃] [(0, 1, .centered, 3), (1, 1, .centered, 1)] d₃⟩,
         ⟨[2 * (N₃ * w₃)], .real, gradient .centered3 false [N₃, w₃] 0 [1, 1] d₃⟩,
         ⟨[N₃ * w₃], .real, z⟩)) ∨
       Raises n (fun r => exDerivative (env n J r) sd fd [N₁, w₁] [N₂, w₂] [N₃, w₃] ⟨[N₁ * w₁], .real, d₁⟩ ⟨[N₂ * w₂], .real, d₂⟩ ⟨[N₃ * w₃], .real, d₃⟩)) := by
  have hin : ∀ {N w : Nat}, VecIn n (N * [w].prod) (evenly n N w).L := fun {N w} => .inl ⟨evenly_wf hn, by simp [evenly, Layout.lin], rfl⟩
  have r1 : ComputesOr n J (fun _ => fdRun .centered3 [N₁, w₁] 1 false .real false) (evenly n N₁ w₁) ⟨.flat n N₁ [w₁], .real⟩ (alongRows (fdAt .centered3 false N₁) 1 N₁ [w₁].prod) :=
    fun d hd => ⟨⟨by simp [alongRows, Layout.lin], fits_alongAxis (D := fun N => fdAt .centered3 false N) (ax := 0) (dims := [N₁, w₁]) fd_conj (star_one K) (by simp) hd.2⟩,
      C65_fd (J := J) (rest := [w₁]) (edge := false) (dt := .real) (dx := .real) (s := 1) .centered3 hn h1 (fun h => h) one_ne_zero (star_one K) hin hd⟩
  have r2 : ComputesOr n J (fun _ => sdRun .centered [N₂, w₂] 1 false .real false) (evenly n N₂ w₂) ⟨.flat n N₂ [w₂], .real⟩ (alongRows (sdAt .centered false N₂) (1 ^ 2) N₂ [w₂].prod) :=
    fun d hd => ⟨⟨by simp [alongRows, Layout.lin], fits_alongAxis (D := fun N => sdAt .centered false N) (ax := 0) (dims := [N₂, w₂]) (sd_conj _) (by simp) (by simp) hd.2⟩,
      C65_sd (J := J) (rest := [w₂]) (edge := false) (dt := .real) (dx := .real) (s := 1) .centered hn h2 (fun h => h) one_ne_zero (star_one K) hin hd⟩
  have hlap : ∀ a : K, star a = a → ∀ ax, ax = 0 ∨ ax = 1 → LapFits sd n N₃ [w₃] false .real .centered (ax, 1, ⟨.real, a⟩) := by
    intro a ha ax hax
    refine ⟨⟨one_ne_zero, (star_one K), fun b hb => ?_⟩, fun _ => ⟨rfl, ha⟩⟩
    obtain rfl : b = 0 := by change ax = b + 1 at hb; omega
    obtain rfl : ax = 1 := hb
    refine ⟨by simp, fun r => ?_⟩
    have := (hser r).1
    simpa [LTerm.ops] using this
  have hone : star (1 : K) = 1 := (star_one K)
  have hthree : star (3 : K) = 3 := star_ofNat 3
  obtain ⟨op1, o1, c1, -⟩ := runs_lapPairOr (J := J) (X := (evenly n N₃ w₃).L) (dx := .real) hn h3 (l := [(1, 1, ⟨.real, 1⟩)]) (hlap 1 hone 0 (.inl rfl))
    (by simpa using hlap 1 hone 1 (.inr rfl)) (fun h => h) hin
  obtain ⟨op2, o2, c2, -⟩ := runs_lapPairOr (J := J) (X := (evenly n N₃ w₃).L) (dx := .real) hn h3 (l := [(1, 1, ⟨.real, 1⟩)]) (hlap 3 hthree 0 (.inl rfl))
    (by simpa using hlap 1 hone 1 (.inr rfl)) (fun h => h) hin
  have hgr : GradFits fd n N₃ [w₃] .centered3 false .real [1, 1] := by
    refine ⟨rfl, fun t ht => ?_⟩
    simp only [gterms, List.mem_cons, List.not_mem_nil, or_false] at ht
    rcases ht with rfl | rfl
    · exact ⟨one_ne_zero, (star_one K), fun a ha => by cases ha⟩
    · refine ⟨one_ne_zero, (star_one K), fun a ha => ?_⟩
      obtain rfl : a = 0 := by change 1 = a + 1 at ha; omega
      refine ⟨by simp, fun r => ?_⟩
      have := (hser r).2
      simpa [GTerm.ops] using this
  obtain ⟨gop, goH, g, o3, e3, c3, c4, hadj, -⟩ := runs_gradPairOr (J := J) (X := (evenly n N₃ w₃).L) (dx := .real) (k := .centered3) (edge := false) hn h3 (fun h => h) hgr (fun h => h) hin
  have m3 := evenly_mem (n := n) l3 f3
  obtain ⟨t1, q1⟩ := c1 d₃ m3
  obtain ⟨t2, q2⟩ := c2 d₃ m3
  obtain ⟨t3, q3⟩ := c3 d₃ m3
  obtain ⟨t4, q4⟩ := c4 _ t3
  have lg : (gradient .centered3 false [N₃, w₃] 0 [1, 1] d₃).length = ([w₃].length + 1) * (N₃ * [w₃].prod) := by
    rw [SSpace.Mem.length t3]
    simp [SSpace.dim, Layout.lin]
    omega
  refine ⟨g (gradient .centered3 false [N₃, w₃] 0 [1, 1] d₃), ?_, fun u hu => ?_, ?_⟩
  · rw [t4.1]; simp [Layout.lin]
  · exact (hadj u _ (by simpa using hu) lg).symm
  · refine Or.imp Runs.always id (?_ : RunsOr n _ _)
    unfold exDerivative
    simp only [Prog.bind_eq]
    refine RunsOr.bind_ok (runsOr_exDerivOne hn r1 l1 f1) ?_
    refine RunsOr.bind_ok (runsOr_exDerivOne hn r2 l2 f2) ?_
    refine RunsOr.bind_ok o1.or (RunsOr.bind_ok o2.or (RunsOr.bind_ok (runs_evenly hn l3 f3).or ?_))
    refine RunsOr.bind_ok (q1.imp Always.runs id) (RunsOr.bind_ok (runs_flat_asarray hn t1).or ?_)
    refine RunsOr.bind_ok (q2.imp Always.runs id) (RunsOr.bind_ok (runs_flat_asarray hn t2).or ?_)
    refine RunsOr.bind_ok o3.or (RunsOr.bind_ok (q3.imp Always.runs id) ?_)
    have wS : SSpace.WF (List.replicate ([w₃].length + 1) ⟨.flat n N₃ [w₃], .real⟩) n := fun V hV => by
      rw [List.eq_of_mem_replicate hV]; exact flat_wf hn
    refine RunsOr.bind_ok (runs_asarray_svec wS (by simp) t3).or ?_
    simp only [e3, Prog.lift, Prog.ret_bind]
    refine RunsOr.bind_ok (q4.imp Always.runs id) (RunsOr.bind_ok (runs_flat_asarray hn t4).or ?_)
    refine Runs.or ((Runs.ret _).congr (fun _ _ => rfl) fun r _ => ?_)
    have hg : (Layout.flat n N₃ [w₃]).gshape.prod = N₃ * w₃ := by simp [Layout.lin]
    simp [laplacian, SSpace.dim, SSpace.dtype, hg, two_mul, DType.promote]

/-- **C97** (the adjoint of the gradient).  If the third array has fewer than two rows for each of two or more ranks, the script does not finish: some rank raises, in every execution, in the last section if
    not before. -/
theorem C97_raises_adjoint (hn2 : 2 ≤ n) {N₁ w₁ N₂ w₂ N₃ w₃ : Nat} (h1 : 1 ≤ N₁) (h2 : 1 ≤ N₂) (h3 : 1 ≤ N₃) (hN : N₃ < 2 * n) (hser : SerialRows sd fd n N₃ w₃)
    {d₁ d₂ d₃ : List K} (l1 : d₁.length = N₁ * w₁) (l2 : d₂.length = N₂ * w₂) (l3 : d₃.length = N₃ * w₃) (f1 : FitsL .real d₁) (f2 : FitsL .real d₂) (f3 : FitsL .real d₃) :
    Raises n (fun r => exDerivative (env n J r) sd fd [N₁, w₁] [N₂, w₂] [N₃, w₃] ⟨[N₁ * w₁], .real, d₁⟩ ⟨[N₂ * w₂], .real, d₂⟩ ⟨[N₃ * w₃], .real, d₃⟩) := by
  have hn : 0 < n := by omega
  have hin : ∀ {N w : Nat}, VecIn n (N * [w].prod) (evenly n N w).L := fun {N w} => .inl ⟨evenly_wf hn, by simp [evenly, Layout.lin], rfl⟩
  have r1 : ComputesOr n J (fun _ => fdRun .centered3 [N₁, w₁] 1 false .real false) (evenly n N₁ w₁) ⟨.flat n N₁ [w₁], .real⟩ (alongRows (fdAt .centered3 false N₁) 1 N₁ [w₁].prod) :=
    fun d hd => ⟨⟨by simp [alongRows, Layout.lin], fits_alongAxis (D := fun N => fdAt .centered3 false N) (ax := 0) (dims := [N₁, w₁]) fd_conj (star_one K) (by simp) hd.2⟩,
      C65_fd (J := J) (rest := [w₁]) (edge := false) (dt := .real) (dx := .real) (s := 1) .centered3 hn h1 (fun h => h) one_ne_zero (star_one K) hin hd⟩
  have r2 : ComputesOr n J (fun _ => sdRun .centered [N₂, w₂] 1 false .real false) (evenly n N₂ w₂) ⟨.flat n N₂ [w₂], .real⟩ (alongRows (sdAt .centered false N₂) (1 ^ 2) N₂ [w₂].prod) :=
    fun d hd => ⟨⟨by simp [alongRows, Layout.lin], fits_alongAxis (D := fun N => sdAt .centered false N) (ax := 0) (dims := [N₂, w₂]) (sd_conj _) (by simp) (by simp) hd.2⟩,
      C65_sd (J := J) (rest := [w₂]) (edge := false) (dt := .real) (dx := .real) (s := 1) .centered hn h2 (fun h => h) one_ne_zero (star_one K) hin hd⟩
  have hlap : ∀ a : K, star a = a → ∀ ax, ax = 0 ∨ ax = 1 → LapFits sd n N₃ [w₃] false .real .centered (ax, 1, ⟨.real, a⟩) := by
    intro a ha ax hax
    refine ⟨⟨one_ne_zero, (star_one K), fun b hb => ?_⟩, fun _ => ⟨rfl, ha⟩⟩
    obtain rfl : b = 0 := by change ax = b + 1 at hb; omega
    obtain rfl : ax = 1 := hb
    refine ⟨by simp, fun r => ?_⟩
    have := (hser r).1
    simpa [LTerm.ops] using this
  have hone : star (1 : K) = 1 := (star_one K)
  have hthree : star (3 : K) = 3 := star_ofNat 3
  obtain ⟨op1, o1, c1, -⟩ := runs_lapPairOr (J := J) (X := (evenly n N₃ w₃).L) (dx := .real) hn h3 (l := [(1, 1, ⟨.real, 1⟩)]) (hlap 1 hone 0 (.inl rfl))
    (by simpa using hlap 1 hone 1 (.inr rfl)) (fun h => h) hin
  obtain ⟨op2, o2, c2, -⟩ := runs_lapPairOr (J := J) (X := (evenly n N₃ w₃).L) (dx := .real) hn h3 (l := [(1, 1, ⟨.real, 1⟩)]) (hlap 3 hthree 0 (.inl rfl))
    (by simpa using hlap 1 hone 1 (.inr rfl)) (fun h => h) hin
  have hgr : GradFits fd n N₃ [w₃] .centered3 false .real [1, 1] := by
    refine ⟨rfl, fun t ht => ?_⟩
    simp only [gterms, List.mem_cons, List.not_mem_nil, or_false] at ht
    rcases ht with rfl | rfl
    · exact ⟨one_ne_zero, (star_one K), fun a ha => by cases ha⟩
    · refine ⟨one_ne_zero, (star_one K), fun a ha => ?_⟩
      obtain rfl : a = 0 := by change 1 = a + 1 at ha; omega
      refine ⟨by simp, fun r => ?_⟩
      have := (hser r).2
      simpa [GTerm.ops] using this
  obtain ⟨gop, goH, g, o3, e3, c3, c4, -, cr⟩ := runs_gradPairOr (J := J) (X := (evenly n N₃ w₃).L) (dx := .real) (k := .centered3) (edge := false) hn h3 (fun h => h) hgr (fun h => h) hin
  have m3 := evenly_mem (n := n) l3 f3
  obtain ⟨t1, q1⟩ := c1 d₃ m3
  obtain ⟨t2, q2⟩ := c2 d₃ m3
  obtain ⟨t3, q3⟩ := c3 d₃ m3
  have hr := cr (show ¬ (2 * n ≤ N₃ ∨ n = 1 ∧ false = false ∧ 1 ≤ N₃) by omega) _ t3
  unfold exDerivative
  simp only [Prog.bind_eq]
  refine Raises.afterOr (runsOr_exDerivOne hn r1 l1 f1) ?_
  refine Raises.afterOr (runsOr_exDerivOne hn r2 l2 f2) ?_
  refine Raises.afterOr o1.or (Raises.afterOr o2.or (Raises.afterOr (runs_evenly hn l3 f3).or ?_))
  refine Raises.afterOr (q1.imp Always.runs id) (Raises.afterOr (runs_flat_asarray hn t1).or ?_)
  refine Raises.afterOr (q2.imp Always.runs id) (Raises.afterOr (runs_flat_asarray hn t2).or ?_)
  refine Raises.afterOr o3.or (Raises.afterOr (q3.imp Always.runs id) ?_)
  have wS : SSpace.WF (List.replicate ([w₃].length + 1) ⟨.flat n N₃ [w₃], .real⟩) n := fun V hV => by
    rw [List.eq_of_mem_replicate hV]; exact flat_wf hn
  refine Raises.afterOr (runs_asarray_svec wS (by simp) t3).or ?_
  simp only [e3, Prog.lift, Prog.ret_bind]
  exact hr.bind _

/-- **C97** (the third array).  If the first two arrays suit the number of ranks and the boundaries of the third one are too far apart, some rank raises ValueError in the first Laplacian, in every
    execution. -/
theorem C97_raises_laplacian (hn : 0 < n) {N₁ w₁ N₂ w₂ N₃ w₃ : Nat} (h1 : Suits n N₁ w₁) (h2 : Suits n N₂ w₂) (h3 : 1 ≤ N₃) (hN : ¬ Near n (evenly n N₃ w₃).L (.slab n N₃ [w₃]))
    (hser : SerialRows sd fd n N₃ w₃) {d₁ d₂ d₃ : List K} (l1 : d₁.length = N₁ * w₁) (l2 : d₂.length = N₂ * w₂) (l3 : d₃.length = N₃ * w₃)
    (f1 : FitsL .real d₁) (f2 : FitsL .real d₂) (f3 : FitsL .real d₃) :
    ∃ m < n, RankEnds n (fun r => exDerivative (env n J r) sd fd [N₁, w₁] [N₂, w₂] [N₃, w₃] ⟨[N₁ * w₁], .real, d₁⟩ ⟨[N₂ * w₂], .real, d₂⟩ ⟨[N₃ * w₃], .real, d₃⟩) m (.error .value) := by
  have r1 := C29_scatter_partial (J := J) (X := (evenly n N₁ w₁).L) (rest := [w₁]) (edge := false) (dt := .real) (dx := .real) (s := 1) .centered3 hn
    (show (if false = true then _ else _) ≤ N₁ by simpa using h1.1) (fun h => h) one_ne_zero (star_one K) (evenly_wf hn) (by simp [evenly, Layout.lin]) rfl h1.2
  have r2 := C31_scatter_partial (J := J) (X := (evenly n N₂ w₂).L) (rest := [w₂]) (edge := false) (dt := .real) (dx := .real) (s := 1) .centered hn
    (show (if false = true then _ else _) ≤ N₂ by simpa using h2.1) (fun h => h) one_ne_zero (star_one K) (evenly_wf hn) (by simp [evenly, Layout.lin]) rfl h2.2
  have hX : (evenly n N₃ w₃).L.gshape = [N₃ * [w₃].prod] := by simp [evenly, Layout.lin]
  have hin : VecIn n (N₃ * [w₃].prod) (evenly n N₃ w₃).L := .inl ⟨evenly_wf hn, hX, rfl⟩
  have hlap : ∀ a : K, star a = a → ∀ ax, ax = 0 ∨ ax = 1 → LapFits sd n N₃ [w₃] false .real .centered (ax, 1, ⟨.real, a⟩) := by
    intro a ha ax hax
    refine ⟨⟨one_ne_zero, (star_one K), fun b hb => ?_⟩, fun _ => ⟨rfl, ha⟩⟩
    obtain rfl : b = 0 := by change ax = b + 1 at hb; omega
    obtain rfl : ax = 1 := hb
    refine ⟨by simp, fun r => ?_⟩
    have := (hser r).1
    simpa [LTerm.ops] using this
  have hone : star (1 : K) = 1 := star_one K
  have hthree : star (3 : K) = 3 := star_ofNat 3
  obtain ⟨op1, o1, -, c1⟩ := runs_lapPairOr (J := J) (X := (evenly n N₃ w₃).L) (dx := .real) hn h3 (l := [(1, 1, ⟨.real, 1⟩)]) (hlap 1 hone 0 (.inl rfl))
    (by simpa using hlap 1 hone 1 (.inr rfl)) (fun h => h) hin
  obtain ⟨op2, o2, -⟩ := runs_lapPairOr (J := J) (X := (evenly n N₃ w₃).L) (dx := .real) hn h3 (l := [(1, 1, ⟨.real, 1⟩)]) (hlap 3 hthree 0 (.inl rfl))
    (by simpa using hlap 1 hone 1 (.inr rfl)) (fun h => h) hin
  obtain ⟨m, hm, hr⟩ := C31_raises_layout (J := J) (X := (evenly n N₃ w₃).L) (dx := .real) (edge := false) (dt := .real) (s := 1) .centered false hn (evenly_wf hn) hX rfl hN (evenly_mem l3 f3)
  refine ⟨m, hm, ?_⟩
  unfold exDerivative
  simp only [Prog.bind_eq]
  refine rankEnds_bind_ok hm (runs_exDerivOne hn r1 l1 f1) ?_
  refine rankEnds_bind_ok hm (runs_exDerivOne hn r2 l2 f2) ?_
  refine rankEnds_bind_ok hm o1 (rankEnds_bind_ok hm o2 (rankEnds_bind_ok hm (runs_evenly hn l3 f3) ?_))
  exact (c1 rfl hm hr).bind_error _

/-! ### The script itself -/

/-- **C97** (the script as it is, on at most six ranks).  Eleven rows of 21 entries for the two derivatives, twelve rows of 21 entries for the Laplacians and the gradient, any values. -/
theorem C97_script (hn : 0 < n) (h6 : n ≤ 6) (hser : SerialRows sd fd n 12 21) {d₁ d₂ d₃ : List K} (l1 : d₁.length = 11 * 21) (l2 : d₂.length = 11 * 21) (l3 : d₃.length = 12 * 21)
    (f1 : FitsL .real d₁) (f2 : FitsL .real d₂) (f3 : FitsL .real d₃) :
    ∃ z : List K, z.length = 12 * 21 ∧
      (∀ u : List K, u.length = 12 * 21 → ip u z = ip (gradient .centered3 false [12, 21] 0 [1, 1] u) (gradient .centered3 false [12, 21] 0 [1, 1] d₃)) ∧
      Always n (fun r => exDerivative (env n J r) sd fd [11, 21] [11, 21] [12, 21] ⟨[11 * 21], .real, d₁⟩ ⟨[11 * 21], .real, d₂⟩ ⟨[12 * 21], .real, d₃⟩) (fun _ => .ok
        (⟨[11 * 21], .real, alongRows (fdAt .centered3 false 11) 1 11 21 d₁⟩,
         ⟨[11 * 21], .real, alongRows (sdAt .centered false 11) 1 11 21 d₂⟩,
         ⟨[12 * 21], .real, laplacian false [12, 21] [(0, 1, .centered, 1), (1, 1, .centered, 1)] d₃⟩,
         ⟨[12 * 21], .real, laplacian false [12, 21] [(0, 1, .centered, 3), (1, 1, .centered, 1)] d₃⟩,
         ⟨[2 * (12 * 21)], .real, gradient .centered3 false [12, 21] 0 [1, 1] d₃⟩,
         ⟨[12 * 21], .real, z⟩)) :=
  C97_derivative hn ((C97_sizes hn).1.2 (.inl h6)) ((C97_sizes hn).1.2 (.inl h6)) ((C97_sizes hn).2.2 (.inl (by omega))) (.inl (by omega))
    (fun r => (hser r).1) (fun r => (hser r).2) l1 l2 l3 f1 f2 f3

/-- **C97** (the script as it is, on seven, eight, nine, or more than eleven ranks).  In every execution some rank ends with a ValueError. -/
theorem C97_script_raises (hn : 6 < n) (h10 : n ≠ 10) (h11 : n ≠ 11) {d₁ : List K} (l1 : d₁.length = 11 * 21) (f1 : FitsL .real d₁) (x₂ x₃ : NDArray K) :
    ∃ m < n, RankEnds n (fun r => exDerivative (env n J r) sd fd [11, 21] [11, 21] [12, 21] ⟨[11 * 21], .real, d₁⟩ x₂ x₃) m (.error .value) :=
  C97_raises (by omega) (by omega) (fun h => by have := (C97_sizes (by omega : 0 < n)).1.1 h; omega) l1 f1 _ _ x₂ x₃

/-- **C97** (the script as it is, on ten ranks).  The two derivatives of eleven rows are computed, and the first Laplacian of twelve rows ends with a ValueError on some rank, in every execution. -/
theorem C97_script_ten (hser : SerialRows sd fd 10 12 21) {d₁ d₂ d₃ : List K} (l1 : d₁.length = 11 * 21) (l2 : d₂.length = 11 * 21) (l3 : d₃.length = 12 * 21)
    (f1 : FitsL .real d₁) (f2 : FitsL .real d₂) (f3 : FitsL .real d₃) :
    ∃ m < 10, RankEnds 10 (fun r => exDerivative (env 10 J r) sd fd [11, 21] [11, 21] [12, 21] ⟨[11 * 21], .real, d₁⟩ ⟨[11 * 21], .real, d₂⟩ ⟨[12 * 21], .real, d₃⟩) m (.error .value) :=
  C97_raises_laplacian (by decide) ((C97_sizes (by decide)).1.2 (by decide)) ((C97_sizes (by decide)).1.2 (by decide)) (by decide)
    (fun h => absurd ((C97_sizes (n := 10) (by decide)).2.1 ⟨by decide, h⟩) (by decide)) hser l1 l2 l3 f1 f2 f3

/-- **C97** (the script as it is, on more than six ranks).  It never finishes: in every execution some rank raises, and if it gets that far, in the adjoint of the gradient, which needs two rows on each rank. -/
theorem C97_script_never (hn : 6 < n) (hser : SerialRows sd fd n 12 21) {d₁ d₂ d₃ : List K} (l1 : d₁.length = 11 * 21) (l2 : d₂.length = 11 * 21) (l3 : d₃.length = 12 * 21)
    (f1 : FitsL .real d₁) (f2 : FitsL .real d₂) (f3 : FitsL .real d₃) :
    Raises n (fun r => exDerivative (env n J r) sd fd [11, 21] [11, 21] [12, 21] ⟨[11 * 21], .real, d₁⟩ ⟨[11 * 21], .real, d₂⟩ ⟨[12 * 21], .real, d₃⟩) :=
  C97_raises_adjoint (by omega) (by decide) (by decide) (by decide) (by omega) hser l1 l2 l3 f1 f2 f3

/-- Non-vacuity: serial operators as the script needs them exist, for any number of rows. -/
theorem serialRows_ref {w : Nat} (hw : 3 ≤ w) : SerialRows refSD refFD n N w := fun r => by
  have hs : LTerm.Good refSD n N [w] false .real ⟨1, 1, .centered⟩ :=
    refSD_good one_ne_zero (fun h => by cases h) (by simp) fun M hM => (show M = w by simpa using hM) ▸ (by simp [sdRoomAdj] <;> omega)
  have hf : GTerm.Good refFD n N [w] .centered3 false .real ⟨1, 1⟩ :=
    refFD_good one_ne_zero (fun h => by cases h) (by simp) fun M hM => (show M = w by simpa using hM) ▸ (.inl (by omega) : 2 * 1 ≤ w ∨ _)
  have h1 := (hs.fits.serial 0 rfl).2 r
  have h2 := (hf.fits.serial 0 rfl).2 r
  exact ⟨by simpa [LTerm.ops] using h1, by simpa [GTerm.ops] using h2⟩

/-- Non-vacuity: the script with arrays of ones on four ranks. -/
example : ∃ z : List ℚ, z.length = 12 * 21 ∧
    Always 4 (fun r => exDerivative (env 4 (fun _ _ => (0 : ℚ)) r) refSD refFD [11, 21] [11, 21] [12, 21] ⟨[11 * 21], .real, List.replicate (11 * 21) 1⟩ ⟨[11 * 21], .real, List.replicate (11 * 21) 1⟩
      ⟨[12 * 21], .real, List.replicate (12 * 21) 1⟩) (fun _ => .ok
        (⟨[11 * 21], .real, alongRows (fdAt .centered3 false 11) 1 11 21 (List.replicate (11 * 21) 1)⟩,
         ⟨[11 * 21], .real, alongRows (sdAt .centered false 11) 1 11 21 (List.replicate (11 * 21) 1)⟩,
         ⟨[12 * 21], .real, laplacian false [12, 21] [(0, 1, .centered, 1), (1, 1, .centered, 1)] (List.replicate (12 * 21) 1)⟩,
         ⟨[12 * 21], .real, laplacian false [12, 21] [(0, 1, .centered, 3), (1, 1, .centered, 1)] (List.replicate (12 * 21) 1)⟩,
         ⟨[2 * (12 * 21)], .real, gradient .centered3 false [12, 21] 0 [1, 1] (List.replicate (12 * 21) 1)⟩,
         ⟨[12 * 21], .real, z⟩)) := by
  obtain ⟨z, h1, -, h2⟩ := C97_script (n := 4) (J := fun _ _ => (0 : ℚ)) (d₁ := List.replicate (11 * 21) 1) (d₂ := List.replicate (11 * 21) 1) (d₃ := List.replicate (12 * 21) 1) (by decide) (by decide)
    (serialRows_ref (by decide)) List.length_replicate List.length_replicate List.length_replicate (fun _ _ _ => rfl) (fun _ _ _ => rfl) (fun _ _ _ => rfl)
  exact ⟨z, h1, h2⟩

/-- Non-vacuity: on seven ranks. -/
example (x₂ x₃ : NDArray ℚ) : ∃ m < 7, RankEnds 7 (fun r => exDerivative (env 7 (fun _ _ => (0 : ℚ)) r) refSD refFD [11, 21] [11, 21] [12, 21] ⟨[11 * 21], .real, List.replicate (11 * 21) 1⟩ x₂ x₃) m (.error .value) :=
  C97_script_raises (by decide) (by decide) (by decide) List.length_replicate (fun _ _ _ => rfl) _ _

/-- Non-vacuity: on ten ranks. -/
example : ∃ m < 10, RankEnds 10 (fun r => exDerivative (env 10 (fun _ _ => (0 : ℚ)) r) refSD refFD [11, 21] [11, 21] [12, 21] ⟨[11 * 21], .real, List.replicate (11 * 21) 1⟩
    ⟨[11 * 21], .real, List.replicate (11 * 21) 1⟩ ⟨[12 * 21], .real, List.replicate (12 * 21) 1⟩) m (.error .value) :=
  C97_script_ten (serialRows_ref (by decide)) List.length_replicate List.length_replicate List.length_replicate (fun _ _ _ => rfl) (fun _ _ _ => rfl) (fun _ _ _ => rfl)

/-- Non-vacuity: on eleven ranks. -/
example : Raises 11 (fun r => exDerivative (env 11 (fun _ _ => (0 : ℚ)) r) refSD refFD [11, 21] [11, 21] [12, 21] ⟨[11 * 21], .real, List.replicate (11 * 21) 1⟩
    ⟨[11 * 21], .real, List.replicate (11 * 21) 1⟩ ⟨[12 * 21], .real, List.replicate (12 * 21) 1⟩) :=
  C97_script_never (by decide) (serialRows_ref (by decide)) List.length_replicate List.length_replicate List.length_replicate (fun _ _ _ => rfl) (fun _ _ _ => rfl) (fun _ _ _ => rfl)

/-- the values of the first and the last array on a small case -/
example : alongRows (fdAt .centered3 false 4) (1 : ℚ) 4 2 [1, 5, 2, 7, 4, 1, 9, 3] = [0, 0, 3 / 2, -2, 7 / 2, -2, 0, 0] := by decide +kernel

end Verif

/-
  From the methods on row blocks to the operators on flat vectors: redistribution before, flattening after.
-/
import Verif.Proofs.SecondDerivative
import Verif.Props.C21

namespace Verif
open NDArray
set_option linter.unusedSectionVars false

variable {K : Type} [Field K] [StarRing K] [CharZero K]
variable {n N : Nat} {J : Nat → Nat → K} {rest : List Nat} {dt dx : DType} {X : Layout}

/-- rows of the target layout: `local_split` of the first axis -/
abbrev Layout.slab (n N : Nat) (rest : List Nat) : Layout := .rows N rest (balanced N n)
/-- flat version -/
abbrev Layout.flat (n N : Nat) (rest : List Nat) : Layout := .lin (N * rest.prod) fun r => balanced N n r * rest.prod

theorem fit_entry {w : Nat} {d : List K} (h : FitsL dt d) : Fit dt (entry w d) := by
  intro hd i j
  unfold entry
  rw [List.getD_eq_getElem?_getD]
  cases e : d[i * w + j]? with
  | none => simp
  | some x => exact h hd x (List.mem_of_getElem? e)

theorem fitsL_tab {m w : Nat} {f : Nat → Nat → K} (h : Fit dt f) : FitsL dt (tab m w f) := by
  intro hd x hx
  obtain ⟨i, _, j, _, rfl⟩ := tab_mem hx
  exact h hd i j

theorem flat_eq : (Layout.slab n N rest).ravel = Layout.flat n N rest := by
  simp only [Layout.ravel, Layout.rows, Layout.lin, List.prod_cons]
  rfl

theorem flat_wf (hn : 0 < n) : (Layout.flat n N rest).WF n := flat_eq (n := n) ▸ ravel_wf (rows_wf (psum_balanced_total N hn))

omit [Field K] [StarRing K] [CharZero K] in
theorem vec_flat (hn : 0 < n) {d : List K} (hd : d.length = N * rest.prod) {r : Nat} :
    (VSpace.vec ⟨(Layout.flat n N rest), dt⟩ n d r).larr.data = (VSpace.vec ⟨(Layout.slab n N rest), dt⟩ n d r).larr.data := by
  have hs := psum_balanced_total N hn
  show (Layout.flat n N rest).piece d r = (Layout.slab n N rest).piece d r
  rw [piece_axis0 (flat_wf hn) rfl rfl (by simpa [Layout.lin] using hd), piece_axis0 (rows_wf hs) rfl rfl (by simpa [Layout.rows] using hd)]
  have h2 : psum (fun r => balanced N n r * rest.prod) r = psum (balanced N n) r * rest.prod := by
    induction r with
    | zero => simp [psum]
    | succ r ih => rw [psum, psum, ih]; ring
  simp [Layout.lin, Layout.rows, h2, inner]

/-- the method followed by the flattening -/
theorem runs_flat (hn : 0 < n) {ps : Nat → P K (DArr K)} {G : Nat → Nat → K} (hG : Fit dt G)
    (h : Runs n ps (fun r => .ok (rfam n N rest (balanced N n) dt (glob (balanced N n) G) r))) :
    Runs n (fun r => (ps r).bind fun y => if y.gshape.length > 1 then y.ravel (env n J r) else .ret y)
      (fun r => .ok (VSpace.vec ⟨(Layout.flat n N rest), dt⟩ n (tab N rest.prod G) r)) := by
  have hs := psum_balanced_total N hn
  refine Runs.bind_ok h ?_
  have hg : ∀ r, (rfam n N rest (balanced N n) dt (glob (balanced N n) G) r).gshape = N :: rest := fun _ => rfl
  simp only [hg, List.length_cons]
  have hv : ∀ r < n, tab (balanced N n r) rest.prod (glob (balanced N n) G r) = (Layout.flat n N rest).piece (tab N rest.prod G) r := by
    intro r hr
    have := vec_flat (dt := dt) (N := N) (rest := rest) hn (d := tab N rest.prod G) (by simp) (r := r)
    rw [vec_rows hs hr] at this
    exact this.symm
  by_cases hr : rest = []
  · subst hr
    simp only [List.length_nil, Nat.zero_add, gt_iff_lt, Nat.lt_irrefl, if_false]
    refine (Runs.ret _).congr (fun _ _ => rfl) fun r hr => ?_
    congr 1
    have hl : (Layout.flat n N []) = Layout.slab n N [] := by simp [Layout.lin, Layout.rows]
    have := hv r hr
    rw [hl] at this ⊢
    exact (fam_congr this.symm).symm
  · have : rest.length + 1 > 1 := by
      have := List.length_pos_iff.2 hr
      omega
    simp only [if_pos this]
    refine (runs_ravel (L := Layout.slab n N rest) (dt := dt) (J := J) (a := fun r => tab (balanced N n r) rest.prod (glob (balanced N n) G r)) (rows_wf hs)
      (fun r _ => length_rfam _ r)).congr (fun _ _ => rfl) fun r hr => ?_
    rw [flat_eq]
    congr 1
    refine fam_congr ?_
    dsimp only
    rw [sync_eq (fun h => by cases h) hr, ← hv r hr]
    exact castTo_of_fits (fitsL_tab (fit_glob hG r))

/-- what is needed of the method -/
def Method (n N : Nat) (rest : List Nat) (J : Nat → Nat → K) (o : Deriv K) (f : Ctx K → Deriv K → DArr K → P K (DArr K)) (D : (Nat → K) → Nat → K) (s : K) (dx : DType) : Prop :=
  ∀ F, Fit dx F → Fit o.dtype (fun p j => D (fun q => F q j) p / s) ∧
    Runs n (fun r => f (env n J r) o (rfam n N rest (balanced N n) dx (glob (balanced N n) F) r))
      (fun r => .ok (rfam n N rest (balanced N n) o.dtype (glob (balanced N n) fun p j => D (fun q => F q j) p / s) r))

/-- scattered input -/
theorem deriv_scatter (hn : 0 < n) {o : Deriv K} (ho : o.dims = N :: rest) {f : Ctx K → Deriv K → DArr K → P K (DArr K)} {D : (Nat → K) → Nat → K} {s : K}
    (hm : Method n N rest J o f D s dx) (hc : Conform n X (.slab n N rest)) (hX : Near n X (.slab n N rest)) :
    Computes n J (fun _ c x => derivApply c o f x) ⟨X, dx⟩ ⟨(Layout.flat n N rest), o.dtype⟩ (alongRows D s N rest.prod) := by
  intro d hd
  have hs := psum_balanced_total N hn
  have hlen : d.length = N * rest.prod := by rw [hd.1]; show X.gshape.prod = _; rw [hc.X1]; simp [Layout.rows]
  obtain ⟨hfit, hrun⟩ := hm (entry rest.prod d) (fit_entry hd.2)
  refine ⟨⟨by simp [alongRows, Layout.lin], fitsL_tab hfit⟩, ?_⟩
  refine Runs.always ?_
  have hp : ∀ r, ¬ (VSpace.vec ⟨X, dx⟩ n d r : DArr K).part = .broadcast := fun r => by
    show ¬ X.part = .broadcast
    rw [hc.scX]; decide
  unfold derivApply reshaped
  simp only [Prog.bind_eq, if_neg (hp _), Prog.ret_bind, ho]
  refine Runs.bind_ok (runs_redistribute hc (LShapesOf.makes (.inr ⟨rfl, rfl⟩) hc) hX hd) ?_
  refine (runs_flat (J := J) hn hfit hrun).congr (fun r hr => ?_) fun _ _ => rfl
  rw [vec_rows' hs hr hlen]

/-- input held by all ranks -/
theorem deriv_bcast (hn : 0 < n) {o : Deriv K} (ho : o.dims = N :: rest) {f : Ctx K → Deriv K → DArr K → P K (DArr K)} {D : (Nat → K) → Nat → K} {s : K}
    (hm : Method n N rest J o f D s dx) (hX : Near n (.lin (N * rest.prod) (balanced (N * rest.prod) n)) (.slab n N rest)) :
    Computes n J (fun _ c x => derivApply c o f x) ⟨.all (N * rest.prod), dx⟩ ⟨(Layout.flat n N rest), o.dtype⟩ (alongRows D s N rest.prod) := by
  intro d hd
  have hs := psum_balanced_total N hn
  have hlen : d.length = N * rest.prod := by rw [hd.1]; simp [Layout.all]
  have hw : (Layout.lin (N * rest.prod) (balanced (N * rest.prod) n)).WF n :=
    ⟨by simp [Layout.lin], fun _ => by simpa [Layout.lin, len] using psum_balanced_total _ hn, by simp [Layout.lin]⟩
  have hc : Conform n (.lin (N * rest.prod) (balanced (N * rest.prod) n)) (.slab n N rest) :=
    ⟨hw, rows_wf hs, by simp [Layout.lin, Layout.rows], rfl, rfl, rfl, rfl, rfl⟩
  obtain ⟨hfit, hrun⟩ := hm (entry rest.prod d) (fit_entry hd.2)
  refine ⟨⟨by simp [alongRows, Layout.lin], fitsL_tab hfit⟩, ?_⟩
  refine Runs.always ?_
  have hp : ∀ r, (VSpace.vec ⟨.all (N * rest.prod), dx⟩ n d r : DArr K).part = .broadcast := fun r => rfl
  unfold derivApply reshaped
  simp only [Prog.bind_eq, if_pos (hp _), ho]
  have h1 := runs_toDist_none (J := J) (L := .lin (N * rest.prod) (balanced (N * rest.prod) n)) (x := ⟨[N * rest.prod], dx, d⟩) hw
    (fun _ => by simp [Layout.lin, len]) rfl (by simpa [NDArray.WF] using hlen) hd.2
  refine Runs.bind_ok h1 ?_
  refine Runs.bind_ok (runs_redistribute hc (LShapesOf.makes (.inr ⟨rfl, rfl⟩) hc) hX ⟨by simpa [Layout.lin] using hlen, hd.2⟩) ?_
  refine (runs_flat (J := J) hn hfit hrun).congr (fun r hr => ?_) fun _ _ => rfl
  rw [vec_rows' hs hr hlen]

end Verif

/- MPIBlockDiag, MPIFirstDerivative and MPISecondDerivative give the right result or raise, for all layouts of the input (`VecIn`) and all numbers of rows. -/
import Verif.Proofs.Safe
import Verif.Proofs.FewRows
import Verif.Props.C33
import Verif.Props.C34

set_option linter.unusedSectionVars false

namespace Verif
open NDArray

variable {K : Type} [Field K] [StarRing K] [CharZero K] {n N : Nat} {J : Nat → Nat → K} {rest : List Nat} {dt dx : DType} {X : Layout} {edge : Bool}

theorem VecIn.wf (hn : 0 < n) {M : Nat} (h : VecIn n M X) : X.WF n := by
  rcases h with ⟨h, -⟩ | rfl
  · exact h
  · exact all_wf rfl

theorem VecIn.shape {M : Nat} (h : VecIn n M X) : X.gshape = [M] := by
  rcases h with ⟨-, h, -⟩ | rfl
  · exact h
  · rfl

theorem Raises.of_runs {α : Type} {ps : Nat → P K α} {e : Err} (hn : 0 < n) (h : Runs n ps fun _ => .error e) : Raises n ps := by
  obtain ⟨qs, h1, h2⟩ := h
  exact ⟨0, hn, e, RankEnds.of_steps h1 (h2 0 hn)⟩

/-- an input that does not fit the blocks is refused -/
theorem blockDiag_raises (hn : 0 < n) {ops : Nat → List (LOp K)} {mask : Option (List Nat)} {b : Bool} {lout : Nat → List (List Nat)} {M : Nat → Nat} (hX : VecIn n (inSum b (allOps n ops)) X)
    (hN : X.part = .scatter → ¬ Near n X (inL b n ops)) {d : List K} (hd : VSpace.Mem ⟨X, dx⟩ d) :
    Raises n (fun r => blockDiagMv (ops r) mask dt b ((List.range n).map fun q => [inSum b (ops q)]) (lout r) (M r) (env n J r) (VSpace.vec ⟨X, dx⟩ n d r)) := by
  rcases hX with ⟨hw, hg, hp⟩ | rfl
  · have hcx : X.axis = 0 := by have := hw.axis_lt; rw [hg] at this; simpa using this
    have hc := conform_in (ops := ops) (b := b) hw hg hp hcx
    obtain ⟨m, hm, h⟩ := C21_raises (J := J) hc (hN hp) (.inl rfl) hd
    have h' : RankEnds n (fun r => redistribute (env n J r) (VSpace.vec ⟨X, dx⟩ n d r).gshape (some ((List.range n).map fun q => [inSum b (ops q)])) (VSpace.vec ⟨X, dx⟩ n d r)) m (.error .value) := by
      refine RankEnds.congr_prog h (fun r hr => ?_) hm
      show _ = redistribute _ X.gshape _ _
      rw [hg]
      rfl
    refine ⟨m, hm, .value, ?_⟩
    unfold blockDiagMv reshaped
    simp only [Prog.bind_eq]
    exact h'.bind_error _
  · refine Raises.of_runs hn (e := .value) ((Runs.throw fun _ => Err.value).congr (fun r _ => ?_) fun _ _ => rfl)
    unfold blockDiagMv reshaped redistribute
    simp only [Prog.bind_eq]
    rw [if_pos (by simp [VSpace.vec, Layout.fam, Layout.all])]
    rfl

theorem SerialOk.safe {o : Nat → LOp K} {D : Nat → (Nat → K) → Nat → K} {s : K} {ax : Nat} (ho : SerialOk o D s ax n N rest dt) (hn : 0 < n) (hax : ax < rest.length) (hD : ∀ N, Conj (D N))
    (hs : star s = s) (hdt : dt = .real → dx = .real) (hX : VecIn n (N * rest.prod) X) (b : Bool) :
    ComputesOr n J (fun r c x => if b then (bdPrim n (fun r => [o r]) none dt r).rmv c x else (bdPrim n (fun r => [o r]) none dt r).mv c x) ⟨X, dx⟩ ⟨.flat n N rest, dt⟩
      (if b then blockDiag true (allOps n fun r => [o r]) else alongAxis D s (ax + 1) (N :: rest)) := by
  intro d hd
  have hax' : ∀ r, ax + 1 < (balanced N n r :: rest).length := fun r => by simpa using hax
  have hok : ∀ b, ∀ q ∈ allOps n (fun r => [o r]), q.Ok b dx dt := fun b q hq => by
    obtain ⟨r, _, rfl⟩ := allOps_mem hq
    exact (ho r).ok (hax' r) hD hs hdt b
  have hlen : d.length = N * rest.prod := by rw [hd.1]; simp [hX.shape]
  have hsz : ∀ b, inSum b (allOps n fun r => [o r]) = N * rest.prod := fun b => by
    have := congrArg Layout.gshape (ho.inL hn b)
    simpa [Layout.lin] using this
  have hm := mem_blockDiag (mask := none) (hok b) (by rw [hlen, hsz]) hd.2
  rw [ho.inL hn (!b)] at hm
  have e : (if b then blockDiag true (allOps n fun r => [o r]) else alongAxis D s (ax + 1) (N :: rest)) d = blockDiag b (allOps n fun r => [o r]) d := by
    cases b with
    | false => exact (ho.fwd hn hlen).symm
    | true => rfl
  rw [e]
  refine ⟨hm, ?_⟩
  have ep : ∀ r, (if b then (bdPrim n (fun r => [o r]) none dt r).rmv (env n J r) (VSpace.vec ⟨X, dx⟩ n d r) else (bdPrim n (fun r => [o r]) none dt r).mv (env n J r) (VSpace.vec ⟨X, dx⟩ n d r))
      = blockDiagMv [o r] none dt b ((List.range n).map fun q => [inSum b [o q]]) ((List.range n).map fun q => [outSum b [o q]]) (outSum b (allOps n fun r => [o r])) (env n J r) (VSpace.vec ⟨X, dx⟩ n d r) := by
    intro r; cases b <;> rfl
  by_cases h : X.part = .scatter ∧ Near n X (Verif.inL b n fun r => [o r])
  · left
    have hw := hX.wf hn
    have hcx : X.axis = 0 := by have := hw.axis_lt; rw [hX.shape] at this; simpa using this
    have h := runs_blockDiagMv (J := J) (mask := none) (conform_in hw (by rw [hX.shape, hsz]) h.1 hcx) h.2 (hok b) (fun r _ => by simp) (by simp) hd
    refine (h.congr (fun r _ => (ep r).symm) fun r _ => ?_).always
    congr 2
    exact congrArg (fun L => (⟨L, dt⟩ : VSpace)) (ho.inL hn (!b))
  · right
    have h := blockDiag_raises (J := J) (dt := dt) (mask := none) (ops := fun r => [o r]) (b := b) (lout := fun _ => (List.range n).map fun q => [outSum b [o q]])
      (M := fun _ => outSum b (allOps n fun r => [o r])) hn (by rw [hsz]; exact hX) (fun hp hN => h ⟨hp, hN⟩) hd
    exact h.congr fun r _ => (ep r).symm

/-- a derivative along the rows that computes or raises -/
theorem deriv_safe (hn : 0 < n) {o : Deriv K} (ho : o.dims = N :: rest) {f : Ctx K → Deriv K → DArr K → P K (DArr K)} {D : (Nat → K) → Nat → K} {t : K}
    (hf : Method n N rest J o f D t dx ∨ MethodRaises n N rest J o f dx) (hD : Conj D) (ht : star t = t) (hdt : o.dtype = .real → dx = .real) (hX : VecIn n (N * rest.prod) X) :
    ComputesOr n J (fun _ c x => derivApply c o f x) ⟨X, dx⟩ ⟨.flat n N rest, o.dtype⟩ (alongRows D t N rest.prod) := by
  intro d hd
  refine ⟨⟨by simp [alongRows, Layout.lin], fitsL_tab (hD.fit hdt (fit_entry hd.2) ht)⟩, ?_⟩
  exact deriv_total hn ho hf hX hd

end Verif

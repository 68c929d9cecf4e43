/- MPIGradient: the stack that is built, and what it computes. -/
import Verif.Proofs.AxisOps
import Verif.Model.Laplacian
import Verif.Props.C30
import Verif.Props.C37

namespace Verif
open NDArray
set_option linter.unusedSectionVars false

variable {K : Type} [Field K] [StarRing K] [CharZero K]

/-- a row of the gradient: axis and sampling step -/
structure GTerm (K : Type) where
  ax : Nat
  s : K

variable (fd : Serial K FDKind) (n N : Nat) (rest : List Nat) (k : FDKind) (edge : Bool) (dt : DType)

/-- the serial operators of a row -/
def GTerm.ops (t : GTerm K) (r : Nat) : LOp K := fd (balanced N n r :: rest) t.ax t.s k edge dt

/-- what is needed of a row: enough rows for axis 0, correct serial operators for the other axes -/
structure GTerm.Good (t : GTerm K) : Prop where
  s0 : t.s ≠ 0
  sr : star t.s = t.s
  room : t.ax = 0 → fdRoom k edge n N ∧ fdRoomAdj k edge n N
  serial : ∀ a, t.ax = a + 1 → a < rest.length ∧ ∀ r, IsDeriv (t.ops fd n N rest k edge dt r) (fdAt k edge) t.s (a + 1) (balanced N n r :: rest) dt

/-- first difference along its axis -/
def GTerm.fwd (t : GTerm K) : List K → List K := alongAxis (fdAt k edge) t.s t.ax (N :: rest)

open Classical in
noncomputable def gradLeaves : Leaves K (GTerm K) where
  sh _ := (N * rest.prod, N * rest.prod)
  fn t b d :=
    if t.Good fd n N rest k edge dt then
      if b then if t.ax = 0 then alongRows (fdAdj k edge N) t.s N rest.prod d else blockDiag true (allOps n fun r => [t.ops fd n N rest k edge dt r]) d
      else t.fwd N rest k edge d
    else d

open Classical in
noncomputable def gradPrim (t : GTerm K) (r : Nat) : Prim K :=
  if t.Good fd n N rest k edge dt then
    if t.ax = 0 then firstDerivative k ⟨N :: rest, t.s, edge, dt⟩ else bdPrim n (fun r => [t.ops fd n N rest k edge dt r]) none dt r
  else ⟨N * rest.prod, N * rest.prod, dt, fun _ x => .ret x, fun _ x => .ret x⟩

variable {fd n N rest k edge dt} {J : Nat → Nat → K} {dx : DType} {X : Layout} {t : GTerm K}

theorem fd_conj : ∀ N, Conj (fdAt (K := K) k edge N) := fun _ => conj_fdAt k

theorem GTerm.fwd_zero (h : t.ax = 0) : t.fwd N rest k edge = alongRows (fdAt k edge N) t.s N rest.prod := by
  funext d
  unfold GTerm.fwd
  rw [h, alongAxis]

theorem gradPrim_shape (hn : 0 < n) (t : GTerm K) (r : Nat) : (gradPrim fd n N rest k edge dt t r).shape = (gradLeaves fd n N rest k edge dt).sh t := by
  unfold gradPrim gradLeaves
  split_ifs with h h0
  · simp [Prim.shape, firstDerivative]
  · obtain ⟨a, ha⟩ : ∃ a, t.ax = a + 1 := ⟨t.ax - 1, by omega⟩
    have ho : SerialOk (t.ops fd n N rest k edge dt) (fdAt k edge) t.s a n N rest dt := (h.serial a ha).2
    have h1 := congrArg Layout.gshape (ho.inL hn true)
    have h2 := congrArg Layout.gshape (ho.inL hn false)
    simp only [Layout.lin, List.cons.injEq, and_true] at h1 h2
    simp [Prim.shape, bdPrim, outSum, h1, h2]
  · rfl

theorem grad_sized (hn : 0 < n) : (gradLeaves fd n N rest k edge dt).Sized := by
  intro t b d hd
  have hd : d.length = N * rest.prod := by cases b <;> simpa [dimOf, gradLeaves] using hd
  have e : dimOf ((gradLeaves fd n N rest k edge dt).sh t) (!b) = N * rest.prod := by cases b <;> rfl
  rw [e]
  unfold gradLeaves
  dsimp only
  split_ifs with h hb h0
  · simp [alongRows]
  · obtain ⟨a, ha⟩ : ∃ a, t.ax = a + 1 := ⟨t.ax - 1, by omega⟩
    exact SerialOk.adj_length (ax := a) (D := fdAt k edge) (s := t.s) (dt := dt) (h.serial a ha).2 hn (h.serial a ha).1 fd_conj h.sr hd
  · have hax : t.ax < (N :: rest).length := by
      cases e : t.ax with
      | zero => simp
      | succ a => simpa using (h.serial a e).1
    exact (length_alongAxis hax (by simpa using hd)).trans (by simp)
  · exact hd

theorem grad_adjoint (hn : 0 < n) : (gradLeaves fd n N rest k edge dt).Adjoint := by
  intro t u v hu hv
  change u.length = N * rest.prod at hu
  change v.length = N * rest.prod at hv
  unfold gradLeaves
  dsimp only
  by_cases h : t.Good fd n N rest k edge dt
  · simp only [if_pos h, if_true, Bool.false_eq_true, if_false]
    by_cases h0 : t.ax = 0
    · rw [if_pos h0, GTerm.fwd_zero h0]
      exact C30_transpose k hn (h.room h0).2 h.sr hu hv
    · rw [if_neg h0]
      obtain ⟨a, ha⟩ : ∃ a, t.ax = a + 1 := ⟨t.ax - 1, by omega⟩
      have := SerialOk.adjoint (ax := a) (D := fdAt k edge) (s := t.s) (dt := dt) (h.serial a ha).2 hn (h.serial a ha).1 fd_conj h.sr hu hv
      rw [← ha] at this
      exact this
  · simp only [if_neg h]

theorem grad_typed (hn : 0 < n) (hdt : dt = .real → dx = .real) (hX : X.WF n) (hg : X.gshape = [N * rest.prod]) (hp : X.part = .scatter)
    (hN : Near n X (.slab n N rest)) (ht : t.Good fd n N rest k edge dt) (b : Bool) :
    Typed (gradLeaves fd n N rest k edge dt) n J (gradPrim fd n N rest k edge dt) b (.leaf t) ⟨X, dx⟩ ⟨.flat n N rest, dt⟩ := by
  refine ⟨fun r _ => gradPrim_shape hn t r, hX, flat_wf hn, ?_, ?_, ?_⟩
  · cases b <;> exact hg
  · cases b <;> rfl
  · by_cases h0 : t.ax = 0
    · have e : (gradLeaves fd n N rest k edge dt).fn t b = alongRows ((if b then fdAdj k edge N else fdAt k edge N)) t.s N rest.prod := by
        funext d
        unfold gradLeaves
        cases b
        · simp [if_pos ht, GTerm.fwd_zero h0]
        · simp [if_pos ht, h0]
      rw [e]
      have hm : Method n N rest J ⟨N :: rest, t.s, edge, dt⟩ (if b then fdRmv k else fdMv k) (if b then fdAdj k edge N else fdAt k edge N) t.s dx := by
        cases b
        · exact method_fd k hn (ht.room h0).1 hdt ht.sr
        · exact method_fdAdj k hn (ht.room h0).2 hdt ht.sr
      have h := deriv_scatter (J := J) hn (o := ⟨N :: rest, t.s, edge, dt⟩) rfl hm (conform_slab hn hX hg hp) hN
      intro d hd
      refine ⟨(h d hd).1, (h d hd).2.congr_prog fun r _ => ?_⟩
      simp only [gradPrim, if_pos ht, if_pos h0, firstDerivative]
      cases b <;> rfl
    · obtain ⟨a, ha⟩ : ∃ a, t.ax = a + 1 := ⟨t.ax - 1, by omega⟩
      have ho : SerialOk (t.ops fd n N rest k edge dt) (fdAt k edge) t.s a n N rest dt := (ht.serial a ha).2
      have h := ho.computes (J := J) (dx := dx) (X := X) hn (ht.serial a ha).1 fd_conj ht.sr hdt hX hg hp hN b
      intro d hd
      have e : (gradLeaves fd n N rest k edge dt).fn t b d =
          (if b then blockDiag true (allOps n fun r => [t.ops fd n N rest k edge dt r]) else alongAxis (fdAt k edge) t.s (a + 1) (N :: rest)) d := by
        unfold gradLeaves
        cases b
        · simp [if_pos ht, GTerm.fwd, ha]
        · simp [if_pos ht, h0]
      rw [e]
      refine ⟨(h d hd).1, (h d hd).2.congr_prog fun r _ => ?_⟩
      simp only [gradPrim, if_pos ht, if_neg h0]

/-- the rows for the axes `ax`, `ax + 1`, … -/
def gterms : Nat → List K → List (GTerm K)
  | _, [] => []
  | ax, s :: l => ⟨ax, s⟩ :: gterms (ax + 1) l

theorem length_gterms (l : List K) : ∀ ax, (gterms ax l).length = l.length := by
  induction l with
  | nil => intro; rfl
  | cons s l ih => intro ax; simp [gterms, ih]

theorem runs_gradLoop {l : List K} : ∀ {ax : Nat}, (∀ t ∈ gterms (ax + 1) l, t.Good fd n N rest k edge dt) →
    Runs n (fun r => gradLoop (env n J r) fd (N :: rest) edge k dt (ax + 1) l)
      (fun r => .ok ((gterms (ax + 1) l).map fun t => (.leaf (gradPrim fd n N rest k edge dt t r) : MOp K (Prim K)))) := by
  induction l with
  | nil => intro ax _; exact Runs.ret _
  | cons s l ih =>
    intro ax h
    have ht : GTerm.Good fd n N rest k edge dt ⟨ax + 1, s⟩ := h _ (by simp [gterms])
    simp only [gradLoop, localSplit_env, Prog.bind_eq]
    have h1 := runs_mkBlockDiag (J := J) (mask := none) (n := n) (dtype := none) (dt := dt) (ops := fun r => [GTerm.ops fd n N rest k edge dt ⟨ax + 1, s⟩ r]) (fun r _ => by
      simp [opsDType, ((ht.serial ax rfl).2 r).dtype])
    refine Runs.bind_ok (a := fun r => gradPrim fd n N rest k edge dt ⟨ax + 1, s⟩ r) (h1.congr (fun _ _ => rfl) fun r _ => by
      simp [gradPrim, if_pos ht]) ?_
    exact Runs.bind_ok (ih fun t ht => h t (by simp [gterms, ht])) (Runs.ret _)

end Verif

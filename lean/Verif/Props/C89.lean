/-
  C89: how much is communicated.  In every execution, whether it ends or not and whether some rank raises or not, the number of MPI calls
  of a rank, the ranks it talks to and the amount of data it hands over are bounded as stated.  The numbers of calls depend neither on the
  sizes of the arrays nor on the number of ranks.
-/
import Verif.Proofs.TrafficStacked
import Verif.Spec.Layout

namespace Verif
open NDArray

variable {K : Type} {n : Nat} {J : Nat → Nat → K}

theorem allSizes_collective (v : Nat) : AllSizesOK (K := K) (CommCall.collective v) := fun _ _ m hm => by
  show m.entries ≤ v
  omega

theorem allSizes_near (v r : Nat) : AllSizesOK (K := K) (CommCall.near v r) := fun _ _ m hm => by
  show m.entries ≤ v
  omega

theorem nearOK (v r : Nat) : NearOK (K := K) r (CommCall.near v r) := ⟨allSizes_near v r, fun _ _ h => h, fun _ _ _ h => h⟩

theorem numbers_near (r : Nat) : NumbersOK (K := K) (CommCall.near 1 r) := fun _ _ _ h => h

theorem numbers_collective : NumbersOK (K := K) (CommCall.collective 1) := fun _ _ _ h => h

/-- a local array of the shape that the object says -/
structure Proper (d : DArr K) : Prop where
  shape : d.larr.shape = d.lshape
  axis : d.axis < d.lshape.length

section
variable [Field K] [StarRing K]

/-- Arithmetic with arrays that are not BROADCAST makes collective calls only, to which no rank hands an array: sizes and shapes are
    exchanged.  In-place addition does not communicate at all. -/
theorem C89_elementwise {d e : Nat → DArr K} (hd : ∀ r < n, (d r).part ≠ .broadcast) (he : ∀ r < n, (e r).part ≠ .broadcast) :
    Talks n (fun r => (d r).neg (env n J r)) (fun _ => CommCall.collective 0) (fun _ => 3) (fun _ => 0) ∧
    Talks n (fun r => (d r).copy (env n J r)) (fun _ => CommCall.collective 0) (fun _ => 3) (fun _ => 0) ∧
    Talks n (fun r => (d r).conj (env n J r)) (fun _ => CommCall.collective 0) (fun _ => 3) (fun _ => 0) ∧
    Talks n (fun r => (d r).zerosLike (env n J r)) (fun _ => CommCall.collective 0) (fun _ => 3) (fun _ => 0) ∧
    Talks n (fun r => (d r).ravel (env n J r)) (fun _ => CommCall.collective 0) (fun _ => 3) (fun _ => 0) ∧
    (∀ t s, Talks n (fun r => (d r).smul (env n J r) t s) (fun _ => CommCall.collective 0) (fun _ => 3) (fun _ => 0)) ∧
    Talks n (fun r => (d r).add (env n J r) (e r)) (fun _ => CommCall.collective 0) (fun _ => 3) (fun _ => 0) ∧
    Talks n (fun r => (d r).mul (env n J r) (e r)) (fun _ => CommCall.collective 0) (fun _ => 3) (fun _ => 0) ∧
    Talks n (fun r => (d r).sub' (env n J r) (e r)) (fun _ => CommCall.collective 0) (fun _ => 6) (fun _ => 0) ∧
    Talks n (fun r => (d r).iadd (env n J r) (e r)) (fun _ => CommCall.collective 0) (fun _ => 0) (fun _ => 0) ∧
    Talks n (fun r => (d r).isub (env n J r) (e r)) (fun _ => CommCall.collective 0) (fun _ => 3) (fun _ => 0) := by
  have hok := (allSizes_collective (K := K) 0).sizes
  exact ⟨Calls.talks fun r hr => calls_neg hok (hd r hr), Calls.talks fun r hr => calls_copy hok (hd r hr),
    Calls.talks fun r hr => calls_conj hok (hd r hr), Calls.talks fun r hr => calls_zerosLike hok (hd r hr),
    Calls.talks fun r hr => calls_ravel hok (hd r hr), fun t s => Calls.talks fun r hr => calls_smul hok (hd r hr) t s,
    Calls.talks fun r hr => calls_add hok (hd r hr), Calls.talks fun r hr => calls_mul hok (hd r hr),
    Calls.talks fun r hr => calls_sub hok (hd r hr) (he r hr), Calls.talks fun r hr => calls_iadd (hd r hr),
    Calls.talks fun r hr => calls_isub hok (hd r hr) (he r hr)⟩

/-- assigning to the entries of an array that is not BROADCAST does not communicate -/
theorem C89_setItem {d : Nat → DArr K} (hd : ∀ r < n, (d r).part ≠ .broadcast) (ix : Nat → Index) (v : Nat → NDArray K) :
    Talks n (fun r => (d r).setItem (env n J r) (ix r) (v r)) (fun _ _ => False) (fun _ => 0) (fun _ => 0) :=
  Calls.talks fun r hr => calls_setItem (hd r hr) (ix r) (v r)

/-- assigning to the entries of any array: rank 0 sends the value to each other rank -/
theorem C89_setItem_broadcast {d : Nat → DArr K} (ix : Nat → Index) (v : Nat → NDArray K) :
    Talks n (fun r => (d r).setItem (env n J r) (ix r) (v r))
      (fun r c => (r = 0 ∧ ∃ q < n, c = .send q bcastTag (.arr (v 0))) ∨ (r ≠ 0 ∧ c = .recv 0 bcastTag))
      (fun r => if r = 0 then n - 1 else 1) (fun r => if r = 0 then (n - 1) * (v r).data.length else 0) :=
  Calls.talks fun r _ => calls_setItem_bcast (c := env n J r) (ix r) (v r) (fun h q hq => .inl ⟨h, q, hq, by rw [show r = 0 from h]⟩)
    fun h => .inr ⟨h, rfl⟩

/-- distributing a local array: sizes only -/
theorem C89_toDist (x : Nat → NDArray K) {part : Partition} (hp : part ≠ .broadcast) (axis : Nat) (lshapes : Nat → Option (List (List Nat)))
    (mask : Nat → Option (List Nat)) :
    Talks n (fun r => toDist (env n J r) (x r) part axis (lshapes r) (mask r)) (fun _ => CommCall.collective 0) (fun _ => 3) (fun _ => 0) :=
  Calls.talks fun r _ => calls_toDist (allSizes_collective 0) (env n J r) (x r) part hp axis (lshapes r) (mask r)

/-- gathering an array: every rank hands over its part, once -/
theorem C89_asarray (d : Nat → DArr K) :
    Talks n (fun r => (d r).asarray (env n J r)) (fun r c => c = .coll .allgather (List.range n) (.arr (d r).larr)) (fun _ => 1)
      (fun r => (d r).larr.data.length) :=
  Calls.talks fun r _ => calls_asarray (env n J r) (d r) rfl

/-- an inner product: every rank hands over one number, whatever the sizes and the distribution -/
theorem C89_dot (d e : Nat → DArr K) :
    Talks n (fun r => (d r).dot (env n J r) (e r)) (fun _ => CommCall.collective 1) (fun _ => 3) (fun _ => 1) :=
  Calls.talks fun r _ => calls_dot numbers_collective (env n J r) (d r) (e r)

/-- ghost cells: at most six calls; every rank sends at most two messages, to its neighbours, with at most `g` slices each, if every rank
    asks for at most `g` cells in front and at the back -/
theorem C89_ghost (d : Nat → DArr K) (front back : Nat → Option Nat) {g : Nat} (hf : ∀ r < n, ∀ x, front r = some x → x ≤ g)
    (hb : ∀ r < n, ∀ x, back r = some x → x ≤ g) :
    Talks n (fun r => (d r).addGhostCells (env n J r) (front r) (back r))
      (fun r c => c.near 0 r ∧ ∀ q t m, c = .send q t m → m.entries ≤ g * rowSize (d r).larr.shape (d r).axis)
      (fun _ => 6) (fun r => 2 * (g * rowSize (d r).larr.shape (d r).axis)) := by
  have : Talks n (fun r => (d r).addGhostCells (env n J r) (front r) (back r))
      (fun r c => (c.near 0 r ∧ ∀ q t m, c = .send q t m → m.entries ≤ g * rowSize (d r).larr.shape (d r).axis) ∧
        ∀ kd cm y, c = .coll kd cm (.nat y) → y ≤ g)
      (fun _ => 6) (fun r => 2 * (g * rowSize (d r).larr.shape (d r).axis)) := by
    refine Calls.talks fun r hr => calls_ghost (env n J r) (d r) (front r) (back r) g (fun x hx => ⟨⟨le_rfl, by simp⟩, ?_⟩) (fun x hx => ?_)
      (fun q t h => ⟨⟨h, by simp⟩, by simp⟩) fun q t a h ha => ⟨⟨h, ?_⟩, by simp⟩
    · intro kd cm y e
      injection e with _ _ e
      injection e with e
      subst e
      exact hx.elim (hf r hr x) (hb r hr x)
    · obtain ⟨q, hq⟩ := hx
      exact (min_le_left _ _).trans (hq.2 _ _ x rfl)
    · intro q' t' m e
      injection e with _ _ e
      subst e
      exact ha
  intro s L hL r hr
  have h := this s L hL r hr
  exact ⟨h.1, h.2.1, fun c hc => (h.2.2 c hc).1⟩

/-- the data sent by the decorator `reshaped`: to the neighbours, at most twice the local array -/
theorem C89_redistribute (gshape : List Nat) (lshapes : Nat → Option (List (List Nat))) {x : Nat → DArr K} (hx : ∀ r < n, Proper (x r)) :
    Talks n (fun r => redistribute (env n J r) gshape (lshapes r) (x r)) (CommCall.near 0) (fun _ => 10) (fun r => 2 * (x r).lshape.prod) := by
  refine Calls.talks (Q := fun _ _ => True) fun r hr => (calls_redistribute (nearOK 0 r) gshape (lshapes r) (x r)).mono le_rfl ?_ fun _ _ => trivial
  rw [localSize, (hx r hr).shape, prod_split (hx r hr).axis, rowSize]
  exact (Nat.mul_le_mul_left 2 (by rw [Nat.mul_left_comm])).trans_eq rfl

theorem localSize_eq {d : DArr K} (h : Proper d) : localSize d = d.lshape.prod := by
  rw [localSize, h.shape, prod_split h.axis, rowSize, Nat.mul_left_comm]

/-- a block-diagonal operator, in both directions -/
theorem C89_blockDiag (ops : Nat → List (LOp K)) (mask : Nat → Option (List Nat)) (dt : Nat → DType) (b : Bool) (lin lout : Nat → List (List Nat))
    (M : Nat) {x : Nat → DArr K} (hx : ∀ r < n, Proper (x r)) :
    Talks n (fun r => blockDiagMv (ops r) (mask r) (dt r) b (lin r) (lout r) M (env n J r) (x r)) (CommCall.near 0) (fun _ => 15)
      (fun r => 2 * (x r).lshape.prod) :=
  Calls.talks fun r hr => (calls_blockDiag (nearOK 0 r) (ops r) (mask r) (dt r) b (lin r) (lout r) M (x r)).mono le_rfl
    (by rw [localSize_eq (hx r hr)]) fun _ => id

/-- a vertical stack: the forward product exchanges sizes only; the adjoint sums one vector of length `N` over the ranks, after which
    rank 0 sends the sum to every rank (assignment to a BROADCAST array) -/
theorem C89_vstack (ops : Nat → List (LOp K)) (dt : Nat → DType) (ln : Nat → List (List Nat)) (M N : Nat) {x : Nat → DArr K}
    (hN : ∀ r < n, ∀ o ∈ ops r, ∀ v, (o.adj v).length ≤ N) (hx : ∀ r < n, Proper (x r)) :
    Talks n (fun r => vstackMv (ops r) (dt r) (ln r) M (env n J r) (x r)) (fun _ => CommCall.collective 0) (fun _ => 2) (fun _ => 0) ∧
    Talks n (fun r => vstackRmv (ops r) (dt r) (ln r) N (env n J r) (x r)) (CommCall.nearOrRoot N)
      (fun r => 14 + max 1 (if r = 0 then n - 1 else 1)) (fun r => 2 * (x r).lshape.prod + N + (if r = 0 then (n - 1) * N else 0)) := by
  refine ⟨Calls.talks fun r _ => calls_vstackMv (allSizes_collective 0).sizes (ops r) (dt r) (ln r) M (x r), Calls.talks (Q := fun _ _ => True) fun r hr => ?_⟩
  rw [← localSize_eq (hx r hr)]
  refine calls_vstackRmv (c := env n J r) ⟨fun _ _ m hm => ?_, fun _ _ h => .inl h, fun _ _ _ h => .inl h⟩ (ops r) (dt r) (ln r) (x r) (hN r hr)
    (fun a ha => ha) (fun a ha => ?_) (fun h q _ v hv => .inr ⟨h, hv⟩) fun _ => .inr rfl
  · show m.entries ≤ N
    omega
  · obtain ⟨q, hq⟩ := ha
    exact hq

/-- the stencils of the derivatives: messages to the neighbours only, in all at most 32 slices, however many the rank has -/
theorem C89_stencils (o : Deriv K) (x : Nat → DArr K) (k : FDKind) (k' : SDKind) :
    ∀ f ∈ [fdMv k, fdRmv k, sdMv k', sdRmv k'], Talks n (fun r => f (env n J r) o (x r)) (CommCall.near 0) (fun _ => 27)
      (fun r => 32 * rowSize (x r).larr.shape (x r).axis) := by
  have hg : ∀ r, GhostOK (env n J r) (x r) 4
      (fun kd cm m => ∃ q, (CommCall.coll kd cm m).near 0 q ∧ ∀ y, (CommCall.coll kd cm m : CommCall (Msg K)) = .coll .allgather cm (.nat y) → y ≤ 4)
      (fun c => c.near 0 r ∧ ∀ cm y, c = .coll .allgather cm (.nat y) → y ≤ 4) := by
    intro r
    refine ⟨fun kd cm v hv h => ⟨hv.le, fun cm' y e => ?_⟩, fun y hy => ⟨le_rfl, fun cm' z e => ?_⟩, fun y hy => ?_,
      fun q t h => ⟨h, by simp⟩, fun q t a h _ => ⟨h, by simp⟩⟩
    · injection e with e1 _ e3
      exact absurd e3 (h e1 y)
    · injection e with _ _ e
      injection e with e
      omega
    · obtain ⟨q, hq⟩ := hy
      exact (min_le_left _ _).trans (hq.2 y rfl)
  have key : ∀ f : Ctx K → Deriv K → DArr K → P K (DArr K),
      (∀ r, Cheap (fun kd cm m => ∃ q, (CommCall.coll kd cm m).near 0 q ∧ ∀ y, (CommCall.coll kd cm m : CommCall (Msg K)) = .coll .allgather cm (.nat y) → y ≤ 4)
        (fun c => c.near 0 r ∧ ∀ cm y, c = .coll .allgather cm (.nat y) → y ≤ 4) (4 * rowSize (x r).larr.shape (x r).axis) (f (env n J r) o (x r))) →
      Talks n (fun r => f (env n J r) o (x r)) (CommCall.near 0) (fun _ => 27) (fun r => 32 * rowSize (x r).larr.shape (x r).axis) := by
    intro f hf
    have : Talks n (fun r => f (env n J r) o (x r)) (fun r c => c.near 0 r ∧ ∀ cm y, c = .coll .allgather cm (.nat y) → y ≤ 4) (fun _ => 27)
        (fun r => 32 * rowSize (x r).larr.shape (x r).axis) := by
      refine Calls.talks (Q := fun _ _ => True) fun r _ => ?_
      refine ((hf r).weaken (fun kd cm m h => ?_) fun _ => id).mono le_rfl (by omega) fun _ _ => trivial
      obtain ⟨q, h1, h2⟩ := h
      exact ⟨q, h1, fun y e => h2 cm y e⟩
    intro s L hL r hr
    have h := this s L hL r hr
    exact ⟨h.1, h.2.1, fun c hc => (h.2.2 c hc).1⟩
  intro f hf
  fin_cases hf
  · exact key _ fun r => calls_fdMv (hg r) o k
  · exact key _ fun r => calls_fdRmv (hg r) o k
  · exact key _ fun r => calls_sdMv (hg r) o k'
  · exact key _ fun r => calls_sdRmv (hg r) o k'

/-- a derivative with the redistribution of its input -/
theorem C89_derivative (o : Deriv K) {x : Nat → DArr K} (hx : ∀ r < n, Proper (x r)) (hp : ∀ r < n, (x r).part ≠ .broadcast) (k : FDKind)
    (k' : SDKind) : ∀ f ∈ [fdMv k, fdRmv k, sdMv k', sdRmv k'],
      Talks n (fun r => derivApply (env n J r) o f (x r)) (CommCall.near 0) (fun _ => 40)
        (fun r => 2 * (x r).lshape.prod + 8 * (localSplit (env n J r) o.dims .scatter 0).prod) := by
  intro f hf
  refine Calls.talks (Q := fun _ _ => True) fun r hr => ?_
  rw [← localSize_eq (hx r hr)]
  refine (calls_derivApply (c := env n J r) (nearOK 0 r) o (x r) (hp r hr) fun arr g hg => ?_).imp fun _ _ => trivial
  fin_cases hf
  · exact calls_fdMv hg o k
  · exact calls_fdRmv hg o k
  · exact calls_sdMv hg o k'
  · exact calls_sdRmv hg o k'

/-- block-diagonal operators and derivatives talk to their neighbours only -/
theorem C89_quiet_blockDiag (c : Ctx K) (ops : List (LOp K)) (mask : Option (List Nat)) (dt : DType) (lin lout : List (List Nat)) (M N : Nat) :
    Prim.Quiet c (CommCall.near 1 c.rank) 15 ⟨M, N, dt, blockDiagMv ops mask dt false lin lout M, blockDiagMv ops mask dt true lout lin N⟩ :=
  quiet_blockDiag (nearOK 1 c.rank) ops mask dt lin lout M N

theorem C89_quiet_derivative (c : Ctx K) (o : Deriv K) (k : FDKind) (k' : SDKind) :
    Prim.Quiet c (CommCall.near 1 c.rank) 40 (firstDerivative k o) ∧ Prim.Quiet c (CommCall.near 1 c.rank) 40 (secondDerivative k' o) :=
  quiet_derivative (nearOK 1 c.rank) o k k'

/-- building a Laplacian takes at most four calls for each axis, and a product with it at most 43 -/
theorem C89_laplacian (sd : Serial K SDKind) (dims axes : List Nat) (weights : List (Scal K)) (sampling : List K) (edge : Bool) (kind : SDKind)
    (dt : DType) {x : Nat → DArr K} (hx : ∀ r < n, (x r).part ≠ .broadcast) :
    TalksTo n (fun r => mkLaplacian (env n J r) sd dims axes weights sampling edge kind dt) (CommCall.near 1) (4 * axes.length) ∧
    TalksTo n (fun r => (mkLaplacian (env n J r) sd dims axes weights sampling edge kind dt).bind fun p => p.mv (env n J r) (x r)) (CommCall.near 1)
      (4 * axes.length + 43 * axes.length) ∧
    TalksTo n (fun r => (mkLaplacian (env n J r) sd dims axes weights sampling edge kind dt).bind fun p => p.rmv (env n J r) (x r)) (CommCall.near 1)
      (4 * axes.length + 43 * axes.length) := by
  have h := fun r => counts_mkLaplacian (c := env n J r) (nearOK 1 r) sd dims axes weights sampling edge kind dt
  exact ⟨Counts.talksTo fun r _ => h r,
    Counts.talksTo fun r hr => Counts.step (h r) (by omega) fun p hp => (hp (x r) (hx r hr)).1.more (by omega) fun _ => id,
    Counts.talksTo fun r hr => Counts.step (h r) (by omega) fun p hp => (hp (x r) (hx r hr)).2.more (by omega) fun _ => id⟩

/-- operator expressions: the calls of the operators that occur in it and at most six for each other node -/
theorem C89_expression {e : Nat → MOp K (Prim K)} {kl k : Nat} (he : ∀ r < n, (e r).leavesAre (Prim.Quiet (env n J r) (CommCall.near 1 r) kl))
    (hk : ∀ r < n, (e r).calls kl ≤ k) (b : Bool) {x : Nat → DArr K} (hx : ∀ r < n, (x r).part ≠ .broadcast) :
    TalksTo n (fun r => MOp.run (env n J r) b (e r) (x r)) (CommCall.near 1) k :=
  Counts.talksTo fun r hr => (counts_expr (allSizes_near 1 r).sizes (e r) (he r hr) b (x r) (hx r hr)).more (hk r hr) fun _ => id

end

section
variable [RCLike K]

/-- a norm of the whole array: every rank hands over one number -/
theorem C89_norm (d : Nat → DArr K) (o : NormOrd) :
    Talks n (fun r => (d r).norm (env n J r) o none) (fun _ => CommCall.collective 1) (fun _ => 2) (fun _ => 1) :=
  Calls.talks fun r _ => calls_norm numbers_collective (env n J r) (d r) o

/-- conjugate gradients: in each iteration a rank makes the calls of one product and at most 27 more (45 for each array of a stack); every
    other call is collective with at most one number per rank -/
theorem C89_cg {op : Nat → XOp K} {y x0 : Nat → XArr K} {m s kf ka : Nat} (hop : ∀ r < n, (op r).Quiet (env n J r) (CommCall.near 1 r) m s kf ka)
    (hy : ∀ r < n, (y r).Quiet m s) (hx : ∀ r < n, (x0 r).Quiet m s) (niter : Nat) (tol : ℝ) :
    TalksTo n (fun r => CGS.solve (env n J r) (op r) (y r) (x0 r) (some niter) tol) (CommCall.near 1)
      (18 * m + 3 * s + kf + niter * (27 * m + 18 * s + kf)) :=
  Counts.talksTo fun r hr => counts_cg (numbers_near r) (hop r hr) (hy r hr) (hx r hr) niter tol

/-- the same for least squares -/
theorem C89_cgls {op : Nat → XOp K} {y x0 : Nat → XArr K} {m s kf ka : Nat} (hop : ∀ r < n, (op r).Quiet (env n J r) (CommCall.near 1 r) m s kf ka)
    (hy : ∀ r < n, (y r).Quiet m s) (hx : ∀ r < n, (x0 r).Quiet m s) (niter : Nat) (damp tol : ℝ) :
    TalksTo n (fun r => CGLSS.solve (env n J r) (op r) (y r) (x0 r) (some niter) damp tol) (CommCall.near 1)
      (35 * m + 9 * s + 2 * kf + ka + niter * (50 * m + 24 * s + kf + ka)) :=
  Counts.talksTo fun r hr => counts_cgls (numbers_near r) (hop r hr) (hy r hr) (hx r hr) niter damp tol

/-- least squares with an expression of block-diagonal operators and derivatives: the number of calls of an iteration does not depend on
    the sizes nor on the number of ranks, and array data only goes to neighbours -/
theorem C89_cgls_expression {e : Nat → MOp K (Prim K)} {kl k : Nat} (he : ∀ r < n, (e r).leavesAre (Prim.Quiet (env n J r) (CommCall.near 1 r) kl))
    (hk : ∀ r < n, (e r).calls kl = k) {y x0 : Nat → DArr K} (hy : ∀ r < n, (y r).part ≠ .broadcast) (hx : ∀ r < n, (x0 r).part ≠ .broadcast)
    (niter : Nat) (damp tol : ℝ) :
    TalksTo n (fun r => CGLSS.solve (env n J r) (MOp.toX (e r)) (.one (y r)) (.one (x0 r)) (some niter) damp tol) (CommCall.near 1)
      (35 + 3 * k + niter * (50 + 2 * k)) := by
  have := C89_cgls (m := 1) (s := 0) (kf := k) (ka := k) (J := J) (op := fun r => MOp.toX (e r))
    (fun r hr => hk r hr ▸ MOp.quiet_toX (allSizes_near 1 r).sizes le_rfl (he r hr) 0)
    (y := fun r => .one (y r)) (x0 := fun r => .one (x0 r)) (fun r hr => ⟨hy r hr, le_rfl⟩) (fun r hr => ⟨hx r hr, le_rfl⟩) niter damp tol
  rw [show 35 + 3 * k + niter * (50 + 2 * k) = 35 * 1 + 9 * 0 + 2 * k + k + niter * (50 * 1 + 24 * 0 + k + k) by ring]
  exact this

/-- the same for an expression of stacked operators -/
theorem C89_cgls_stacked {e : Nat → SOp K (Prim K)} {kl k m s : Nat} (hm : 1 ≤ m) (hs : s ≤ m)
    (he : ∀ r < n, (e r).leavesAre (Prim.Quiet (env n J r) (CommCall.near 1 r) kl) s) (hk : ∀ r < n, (e r).calls kl m s = k) {y x0 : Nat → XArr K}
    (hy : ∀ r < n, (y r).Quiet m s) (hx : ∀ r < n, (x0 r).Quiet m s) (niter : Nat) (damp tol : ℝ) :
    TalksTo n (fun r => CGLSS.solve (env n J r) (SOp.toX (e r)) (y r) (x0 r) (some niter) damp tol) (CommCall.near 1)
      (35 * m + 9 * s + 2 * k + k + niter * (50 * m + 24 * s + k + k)) :=
  C89_cgls (J := J) (op := fun r => SOp.toX (e r)) (fun r hr => hk r hr ▸ SOp.quiet_toX (allSizes_near 1 r).sizes hm hs (he r hr)) hy hx niter damp tol

/-- least squares with the Laplacian, building it included -/
theorem C89_cgls_laplacian (sd : Serial K SDKind) (dims axes : List Nat) (weights : List (Scal K)) (sampling : List K) (edge : Bool)
    (kind : SDKind) (dt : DType) {y x0 : Nat → DArr K} (hy : ∀ r < n, (y r).part ≠ .broadcast) (hx : ∀ r < n, (x0 r).part ≠ .broadcast)
    (niter : Nat) (damp tol : ℝ) :
    TalksTo n (fun r => (mkLaplacian (env n J r) sd dims axes weights sampling edge kind dt).bind fun p =>
        CGLSS.solve (env n J r) (MOp.toX (.leaf p)) (.one (y r)) (.one (x0 r)) (some niter) damp tol) (CommCall.near 1)
      (35 + 133 * axes.length + niter * (50 + 86 * axes.length)) := by
  refine Counts.talksTo (Q := fun _ _ => True) fun r hr => ?_
  refine Counts.step (counts_mkLaplacian (c := env n J r) (nearOK 1 r) sd dims axes weights sampling edge kind dt) (by omega) fun p hp => ?_
  refine (counts_cgls (m := 1) (s := 0) (numbers_near r) (MOp.quiet_toX (e := .leaf p) (allSizes_near 1 r).sizes le_rfl hp 0)
    (y := .one (y r)) ⟨hy r hr, le_rfl⟩ (x0 := .one (x0 r)) ⟨hx r hr, le_rfl⟩ niter damp tol).more ?_ fun _ _ => trivial
  simp only [MOp.calls]
  have e : niter * (50 * 1 + 24 * 0 + 43 * axes.length + 43 * axes.length) = niter * (50 + 86 * axes.length) := by ring
  omega

/-- least squares with the gradient, building it included -/
theorem C89_cgls_gradient (fd : Serial K FDKind) (dims : List Nat) (hd : dims ≠ []) (sampling : List K) (edge : Bool) (kind : FDKind) (dt : DType)
    {y : Nat → List (DArr K)} (hy : ∀ r < n, (∀ d ∈ y r, d.part ≠ .broadcast) ∧ (y r).length ≤ dims.length) {x0 : Nat → DArr K}
    (hx : ∀ r < n, (x0 r).part ≠ .broadcast) (niter : Nat) (damp tol : ℝ) :
    TalksTo n (fun r => (mkGradient (env n J r) fd dims sampling edge kind dt).bind fun e =>
        CGLSS.solve (env n J r) (SOp.toX e) (.stack (y r)) (.one (x0 r)) (some niter) damp tol) (CommCall.near 1)
      (177 * dims.length + niter * (160 * dims.length)) := by
  have hl : 1 ≤ dims.length := List.length_pos_iff.mpr hd
  refine Counts.talksTo (Q := fun _ _ => True) fun r hr => ?_
  refine Counts.step (counts_mkGradient (c := env n J r) (nearOK 1 r) fd dims sampling edge kind dt) (by omega) fun e he => ?_
  refine (counts_cgls (m := dims.length) (s := dims.length) (numbers_near r) (SOp.quiet_toX (allSizes_near 1 r).sizes hl le_rfl he.1)
    (y := .stack (y r)) ⟨(hy r hr).1, (hy r hr).2, le_rfl⟩ (x0 := .one (x0 r)) ⟨hx r hr, hl⟩ niter damp tol).more ?_ fun _ _ => trivial
  have h1 := he.2 dims.length dims.length
  have h2 : niter * (50 * dims.length + 24 * dims.length + e.calls 40 dims.length dims.length + e.calls 40 dims.length dims.length) ≤
      niter * (160 * dims.length) := Nat.mul_le_mul_left _ (by omega)
  omega

end

/-! ### examples -/

/-- two ranks with two entries each -/
def half (r : Nat) : DArr ℚ := ⟨[4], .scatter, 0, none, [0, 1], [2], .real, ⟨[2], .real, [1, r]⟩⟩

theorem half_proper (r : Nat) : Proper (half r) := ⟨rfl, by simp [half]⟩

example := C89_elementwise (n := 2) (J := fun _ _ => 0) (d := half) (e := half) (fun _ _ => by simp [half]) fun _ _ => by simp [half]
example := C89_ghost (n := 2) (J := fun _ _ => 0) half (fun _ => some 1) (fun _ => none) (g := 1) (by simp) (by simp)
example := C89_blockDiag (n := 2) (J := fun _ _ => (0 : ℚ)) (fun _ => [⟨2, 2, .real, id, id⟩]) (fun _ => none) (fun _ => .real) false
  (fun _ => [[2], [2]]) (fun _ => [[2], [2]]) 4 fun r _ => half_proper r
example := C89_derivative (n := 2) (J := fun _ _ => (0 : ℚ)) ⟨[4], 1, false, .real⟩ (fun r _ => half_proper r) (fun _ _ => by simp [half])
  .forward .centered

example := C89_vstack (n := 2) (J := fun _ _ => (0 : ℚ)) (fun _ => [⟨2, 4, .real, fun v => v.take 2, fun v => v.take 4⟩]) (fun _ => .real)
  (fun _ => [[2], [2]]) 4 4 (by simp) fun r _ => half_proper r

/-- two ranks with two entries each, over the reals -/
noncomputable def halfR (r : Nat) : DArr ℝ := ⟨[4], .scatter, 0, none, [0, 1], [2], .real, ⟨[2], .real, [1, r]⟩⟩

/-- ten iterations of least squares with a derivative: at most 1455 calls, whatever the sizes -/
example := C89_cgls_expression (n := 2) (J := fun _ _ => (0 : ℝ)) (e := fun _ => .leaf (firstDerivative .forward ⟨[4], 1, false, .real⟩))
  (kl := 40) (k := 40) (fun r _ => (C89_quiet_derivative (env 2 _ r) _ _ .forward).1) (fun _ _ => rfl) (y := halfR) (x0 := halfR)
  (fun _ _ => by simp [halfR]) (fun _ _ => by simp [halfR]) 10 0 0
example (fd : Serial ℝ FDKind) := C89_cgls_gradient (n := 2) (J := fun _ _ => 0) fd [4] (by simp) [1] false .forward .real (y := fun r => [halfR r])
  (fun _ _ => by simp [halfR]) (x0 := halfR) (fun _ _ => by simp [halfR]) 10 0 0

/-- a rank does get to the limit: rank 1 of two ranks that ask for one ghost cell at the back sends one message, of one entry, after it has
    exchanged sizes; and the bounds are not zero -/
example : ∃ s L, Logged 2 (St.init fun r => (half r).addGhostCells (env 2 (fun _ _ => 0) r) none (some 1)) s L ∧
    callsOf L s 1 = [.coll .allgather [0, 1] (.nat 1), .send 0 0 (.arr ⟨[1], .real, [1]⟩)] := by
  refine ⟨_, _, .step .nil (LStep.col (c := [0, 1]) (kind := .allgather) (v := fun _ => .nat 1)
    (kk := fun r ms => ((Prog.lift (decAll ms) : P ℚ (List Nat)).bind fun tot =>
      let cb := if r = 0 then 0 else (tot ++ [0]).getD (r - 1) 0
      let recvPart : P ℚ (NDArray ℚ) :=
        if r ≠ 2 - 1 then (recvFrom (α := NDArray ℚ) (r + 1) 0).bind fun m => Prog.lift (concat (half r).axis [(half r).larr, m])
        else .ret (half r).larr
      if r ≠ 0 then
        if cb > len (half r).lshape (half r).axis then .throw .value
        else (sendTo (r - 1) 0 ((half r).larr.slice (half r).axis 0 cb)).bind fun _ => recvPart
      else recvPart)) (by simp) (by simp) ?_), ?_⟩
  · intro r hr
    rfl
  · have h1 : (1 : Nat) ∈ [0, 1] := by simp
    unfold callsOf
    beta_reduce
    rw [if_pos (show (Lab.col [0, 1]).touches 1 from h1)]
    rfl

/-- assigning to a BROADCAST array does send the data -/
example : ¬ Talks 2 (fun r => ({ half r with part := .broadcast } : DArr ℚ).setAll (env 2 (fun _ _ => 0) r) (half r).larr)
    (fun _ _ => True) (fun _ => 5) (fun _ => 1) := by
  intro h
  have := (h _ _ .nil 0 (by omega)).2.1
  revert this
  decide

end Verif

/- Block-diagonal operators with one serial operator per rank that acts on rows, with arbitrary arithmetic. -/
import Verif.Spec.FloatLaplacian
import Verif.Proofs.AxisOps
import Verif.Props.C73

namespace Verif
open NDArray

variable {K : Type} (A : OpArith K) {n N w : Nat} {J : Nat → Nat → K} {rest : List Nat} {edge b : Bool} {dt dx : DType} {X : Layout}

/-- layouts of flat vectors that can be brought to rows of an array of shape `N :: rest` by exchanging entries between neighbours -/
structure Rows (n N : Nat) (rest : List Nat) (X : Layout) : Prop where
  wf : X.WF n
  mask : X.mask = none
  shape : X.gshape = [N * rest.prod]
  scatter : X.part = .scatter
  near : Near n X (.slab n N rest)

theorem length_perRow {f : List K → List K} (hf : ∀ d, d.length = w → (f d).length = w) {m : Nat} {d : List K} (hd : d.length = m * w) :
    (perRow w f m d).length = m * w := by
  induction m generalizing d with
  | zero => simp [perRow]
  | succ m ih =>
    rw [Nat.succ_mul] at hd
    rw [perRow, List.length_append, hf _ (by simp; omega), ih (by simp; omega)]
    ring

theorem perRow_add {f : List K → List K} {a b : Nat} {d : List K} : perRow w f (a + b) d = perRow w f a (d.take (a * w)) ++ perRow w f b (d.drop (a * w)) := by
  induction a generalizing d with
  | zero => simp [perRow]
  | succ a ih =>
    rw [show a + 1 + b = a + b + 1 by omega, perRow, ih, perRow, List.append_assoc, List.take_take, List.drop_take, List.drop_drop]
    rw [show min w ((a + 1) * w) = w by rw [Nat.add_mul]; omega, show (a + 1) * w - w = a * w by rw [Nat.add_mul]; omega,
      show w + a * w = (a + 1) * w by ring]

theorem localSplit_first (r : Nat) : localSplit (env n J r : Ctx K) (N :: rest) .scatter 0 = balanced N n r :: rest := by
  simp only [localSplit, Partition.isBroadcast, Bool.false_eq_true, if_false, len, balanced, env, List.getD_cons_zero, List.set_cons_zero]
  split_ifs <;> rfl

theorem TakesTo.congr_fn {mv : Nat → Ctx K → DArr K → P K (DArr K)} {S T : VSpace} {F G : SVec K → SVec K} (h : TakesTo n J mv S T F)
    (hG : ∀ x : SVec K, x.v.length = S.L.gshape.prod → x.dt = S.dt → F x = G x) : TakesTo n J mv S T G :=
  ⟨fun x h1 h2 => hG x h1 h2 ▸ h.dtype x h1 h2, fun x h1 h2 => hG x h1 h2 ▸ h.length x h1 h2, fun x h1 h2 => hG x h1 h2 ▸ h.runs x h1 h2⟩

section
variable {κ : Type} {sd : FSerial K κ} {g : Bool → DType → List K → List K} {ax : Nat} {s : K} {k : κ}

/-- the serial operators of the ranks -/
abbrev rowOps (sd : FSerial K κ) (n N : Nat) (rest : List Nat) (edge : Bool) (dt : DType) (ax : Nat) (s : K) (k : κ) (r : Nat) : List (FOp K) :=
  [sd (balanced N n r :: rest) ax s k edge dt]

theorem ByRows.inDim (h : ByRows sd rest edge dt g ax s k) (m : Nat) : (sd (m :: rest) ax s k edge dt).inDim b = m * rest.prod := by
  cases b
  · exact h.cols m
  · exact h.rows m

theorem ByRows.sized (h : ByRows sd rest edge dt g ax s k) (m : Nat) : (sd (m :: rest) ax s k edge dt).Sized b := by
  intro t v hv
  rw [h.inDim] at hv ⊢
  rw [h.fn m b t v hv]
  exact length_perRow (fun d hd => h.row b t d hd) hv

theorem ByRows.mem {o : FOp K} (ho : o ∈ allFOps n (rowOps sd n N rest edge dt ax s k)) : ∃ m, o = sd (m :: rest) ax s k edge dt := by
  simp only [allFOps, List.mem_flatMap, List.mem_range, List.mem_singleton] at ho
  obtain ⟨r, -, rfl⟩ := ho
  exact ⟨_, rfl⟩

theorem ByRows.fopIn_one (h : ByRows sd rest edge dt g ax s k) (r : Nat) : fopIn b (rowOps sd n N rest edge dt ax s k r) = balanced N n r * rest.prod := by
  simp [fopIn, h.inDim]

theorem ByRows.fopIn_all (h : ByRows sd rest edge dt g ax s k) (m : Nat) : fopIn b (allFOps m (rowOps sd n N rest edge dt ax s k)) = psum (balanced N n) m * rest.prod := by
  rw [Verif.fopIn_all, ← psum_mul]
  congr 1
  funext r
  exact h.fopIn_one r

theorem ByRows.opIn (h : ByRows sd rest edge dt g ax s k) (hn : 0 < n) : opIn b n (rowOps sd n N rest edge dt ax s k) = .flat n N rest := by
  have e : (fun r => fopIn b (rowOps sd n N rest edge dt ax s k r)) = fun r => balanced N n r * rest.prod := funext fun r => h.fopIn_one r
  unfold Verif.opIn
  rw [e, h.fopIn_all, psum_balanced_total N hn]

theorem ByRows.bdiag (h : ByRows sd rest edge dt g ax s k) (hn : 0 < n) {x : SVec K} (hx : x.v.length = N * rest.prod) :
    A.bdiag dt b (allFOps n (rowOps sd n N rest edge dt ax s k)) x = A.rowsFn dt N rest.prod (g b) x := by
  have key : ∀ m (d : List K), d.length = psum (balanced N n) m * rest.prod →
      blockDiag b ((allFOps m (rowOps sd n N rest edge dt ax s k)).map (·.on x.dt)) d = perRow rest.prod (g b x.dt) (psum (balanced N n) m) d := by
    intro m
    induction m with
    | zero => intro d _; simp [allFOps, blockDiag, slices, psum, perRow]
    | succ m ih =>
      intro d hd
      have e : allFOps (m + 1) (rowOps sd n N rest edge dt ax s k) = allFOps m (rowOps sd n N rest edge dt ax s k) ++ rowOps sd n N rest edge dt ax s k m := by
        simp [allFOps, List.range_succ]
      have hin : inSum b ((allFOps m (rowOps sd n N rest edge dt ax s k)).map (·.on x.dt)) = psum (balanced N n) m * rest.prod := by
        rw [inSum_on, h.fopIn_all]
      rw [psum, Nat.add_mul] at hd
      have h1 : blockDiag b ((allFOps m (rowOps sd n N rest edge dt ax s k)).map (·.on x.dt)) d =
          blockDiag b ((allFOps m (rowOps sd n N rest edge dt ax s k)).map (·.on x.dt)) (d.take (psum (balanced N n) m * rest.prod)) := by
        unfold blockDiag
        rw [← hin, slices_take _ _ _ (le_refl _)]
      rw [e, psum, perRow_add, ← ih _ (by simp; omega), ← h1, List.map_append]
      unfold blockDiag
      rw [slices_append, List.flatten_append, hin]
      congr 1
      have hl : (d.drop (psum (balanced N n) m * rest.prod)).length = balanced N n m * rest.prod := by simp; omega
      simp only [slices, List.map_cons, List.map_nil, List.flatten_cons, List.flatten_nil, List.append_nil]
      rw [List.take_of_length_le (by rw [inDim_on, h.inDim, hl]), h.fn _ _ _ _ hl]
  unfold OpArith.bdiag OpArith.rowsFn
  have := key n (x.copy A.toArith).v (by rw [psum_balanced_total N hn, SVec.length_copy A.toArith hx])
  rw [psum_balanced_total N hn] at this
  rw [this]

/-- the block-diagonal operator with these serial operators -/
theorem rows_takes (h : ByRows sd rest edge dt g ax s k) (hn : 0 < n) (hX : X.WF n) (hg : X.gshape = [N * rest.prod]) (hp : X.part = .scatter) (hN : Near n X (.slab n N rest)) :
    TakesTo n J (fun r => (fbdPrim A n (rowOps sd n N rest edge dt ax s k) dt r).prod b) ⟨X, dx⟩ ⟨.flat n N rest, dt⟩ (A.rowsFn dt N rest.prod (g b)) := by
  have hs : ∀ o ∈ allFOps n (rowOps sd n N rest edge dt ax s k), o.Sized b := by
    intro o ho
    obtain ⟨m, rfl⟩ := ByRows.mem ho
    exact h.sized m
  have hF : Feeds n (fopIn b (allFOps n (rowOps sd n N rest edge dt ax s k))) (fun r => fopIn b (rowOps sd n N rest edge dt ax s k r)) X := by
    refine ⟨hX, ?_, hp, ?_⟩
    · rw [hg, h.fopIn_all, psum_balanced_total N hn]
    · have := h.opIn (n := n) (N := N) (b := b) hn
      unfold Verif.opIn at this
      rw [this]
      exact near_slab_flat hN
  have hx1 : ∀ x : SVec K, x.v.length = X.gshape.prod → x.v.length = N * rest.prod := fun x hx => by rw [hx, hg]; simp
  refine TakesTo.intro fun x hx hd => ⟨rfl, ?_, ?_⟩
  · simp only [OpArith.rowsFn, List.length_map]
    rw [length_perRow (fun d hd => h.row b x.dt d hd) (SVec.length_copy A.toArith (hx1 x hx))]
    simp [Layout.lin]
  · obtain ⟨h1, h2⟩ := feeds_conform hF x.dt
    have k := a_blockDiagMv A (J := J) (dt := dt) h1 h2 hs (fun r _ => by simp) hx
    rw [h.bdiag A hn (hx1 x hx)] at k
    have e := h.opIn (n := n) (N := N) (b := !b) hn
    unfold Verif.opIn at e
    refine k.congr (fun r _ => ?_) fun r _ => ?_
    · cases b <;> rfl
    · rw [← e]

end

/-! ### expressions with weights -/

theorem TakesTo.congr_prog {mv mv' : Nat → Ctx K → DArr K → P K (DArr K)} {S T : VSpace} {F : SVec K → SVec K} (h : TakesTo n J mv S T F)
    (hp : ∀ r < n, ∀ x, mv' r (env n J r) x = mv r (env n J r) x) : TakesTo n J mv' S T F :=
  ⟨h.dtype, h.length, fun x h1 h2 => (h.runs x h1 h2).runs.congr (fun r hr => (hp r hr _).symm) (fun _ _ => rfl) |>.always⟩

/-- the expression that is built by adding weighted leaves -/
def wsum {ι : Type} : MOp K ι → List (ι × Scal K) → MOp K ι
  | e, [] => e
  | e, (t, w) :: l => wsum (.sum e (.scaled (.leaf t) w)) l

section
variable {ι : Type} {prim : ι → Nat → Prim K} {sh : Nat × Nat} {lf : ι → Bool → SVec K → SVec K}

theorem wsum_map (f : ι → Prim K) (e : MOp K ι) (l : List (ι × Scal K)) : (wsum e l).map f = wsum (e.map f) (l.map fun p => (f p.1, p.2)) := by
  induction l generalizing e with
  | nil => rfl
  | cons p l ih => exact ih _

theorem wsum_shape {e : MOp K (Prim K)} {l : List (Prim K × Scal K)} : (wsum e l).shape Prim.shape = e.shape Prim.shape := by
  induction l generalizing e with
  | nil => rfl
  | cons p l ih => rw [wsum, ih]; rfl

theorem wsum_shaped {e : MOp K (Prim K)} {l : List (Prim K × Scal K)} (he : Shaped Prim.shape e) (hl : ∀ p ∈ l, p.1.shape = e.shape Prim.shape) : Shaped Prim.shape (wsum e l) := by
  induction l generalizing e with
  | nil => exact he
  | cons p l ih => exact ih ⟨he, trivial, (hl p (by simp)).symm⟩ fun q hq => hl q (by simp [hq])

theorem wsum_accepts {shs : ι → Nat × Nat} {S T : VSpace} {e : MOp K ι} {l : List (ι × Scal K)} (he : Accepts n J prim shs lf b e S T)
    (hl : ∀ p ∈ l, Accepts n J prim shs lf b (.leaf p.1) S T ∧ (T.dt = .real → p.2.dtype = .real)) : Accepts n J prim shs lf b (wsum e l) S T := by
  induction l generalizing e with
  | nil => exact he
  | cons p l ih => exact ih ⟨he, T.dt, hl p (by simp)⟩ fun q hq => hl q (by simp [hq])

theorem wsum_eval (e : MOp K ι) (l : List (ι × Scal K)) (x : SVec K) :
    A.eval lf b (wsum e l) x = (l.map fun p => (lf p.1 b x).scale A.toArith (if b then A.conj p.2.val else p.2.val)).foldl (SVec.add A.toArith) (A.eval lf b e x) := by
  induction l generalizing e with
  | nil => rfl
  | cons p l ih =>
    rw [wsum, ih, List.map_cons, List.foldl_cons]
    simp only [OpArith.eval]

end

/-! ### derivatives along the axes -/

section
variable {sd : FSerial K SDKind} {g : Nat → K → SDKind → Bool → DType → List K → List K} {ax : Nat} {s : K} {k : SDKind}

/-- the operator that is made for a term of the Laplacian -/
def lapOp (sd : FSerial K SDKind) (n N : Nat) (rest : List Nat) (edge : Bool) (dt : DType) (t : Nat × K × SDKind) (r : Nat) : Prim K :=
  if t.1 = 0 then A.sdPrim t.2.2 ⟨N :: rest, t.2.1, edge, dt⟩ else fbdPrim A n (rowOps sd n N rest edge dt t.1 t.2.1 t.2.2) dt r

theorem lapOp_shape (hn : 0 < n) (h : AxisOk sd rest edge dt g ax s k) (r : Nat) : (lapOp A sd n N rest edge dt (ax, s, k) r).shape = (N * rest.prod, N * rest.prod) := by
  unfold lapOp
  split_ifs with h0
  · simp [Prim.shape, OpArith.sdPrim]
  · have hr := h.2 h0
    simp only [Prim.shape, fbdPrim, hr.fopIn_all, psum_balanced_total N hn]

theorem lapOp_takes (hn : 0 < n) (h : AxisOk sd rest edge dt g ax s k) (h2 : SecondOk A n N edge b ax s k) (hdt : b = true → dt = .real → dx = .real) (hX : Rows n N rest X) :
    TakesTo n J (fun r => (lapOp A sd n N rest edge dt (ax, s, k) r).prod b) ⟨X, dx⟩ ⟨.flat n N rest, dt⟩ (A.second edge dt N rest g b ax s k) := by
  by_cases h0 : ax = 0
  · obtain ⟨hr, s2, hs⟩ := h2 h0
    have t := C73_leaf_second A (J := J) (dt := dt) (dx := dx) k hn hr hdt hs ⟨hX.wf, hX.shape, .inl ⟨hX.scatter, hX.near⟩⟩
    refine (t.congr_fn fun x _ _ => ?_).congr_prog fun r _ x => ?_
    · unfold OpArith.second OpArith.axisFn
      have hq : A.sqOf s = s2 := by unfold OpArith.sqOf; rw [hs]
      rw [if_pos h0, hq]
      unfold ArrArith.received
      rw [hX.scatter]
      rfl
    · unfold lapOp
      rw [if_pos h0]
  · have t := rows_takes A (J := J) (b := b) (dx := dx) (h.2 h0) hn hX.wf hX.shape hX.scatter hX.near
    refine (t.congr_fn fun x _ _ => ?_).congr_prog fun r _ x => ?_
    · unfold OpArith.second OpArith.axisFn
      rw [if_neg h0]
    · unfold lapOp
      rw [if_neg h0]

theorem runs_flapTerm (h : AxisOk sd rest edge dt g ax s k) :
    Runs n (fun r => A.lapTerm (env n J r) sd (N :: rest) edge dt ax s k) (fun r => .ok (lapOp A sd n N rest edge dt (ax, s, k) r)) := by
  unfold OpArith.lapTerm lapOp
  by_cases h0 : ax = 0
  · simp only [if_pos h0]
    exact Runs.ret _
  · simp only [if_neg h0, localSplit_first]
    refine a_mkBlockDiag A (ops := rowOps sd n N rest edge dt ax s k) fun r _ => ?_
    simp [fopsDType, opsDType, FOp.on, (h.2 h0).dtype]

theorem runs_flapLoop (hn : 0 < n) {l : List (Nat × K × Scal K)} (hl : ∀ p ∈ l, AxisOk sd rest edge dt g p.1 p.2.1 .centered) {e : Nat → MOp K (Prim K)}
    (he : ∀ r, (e r).shape Prim.shape = (N * rest.prod, N * rest.prod)) :
    Runs n (fun r => A.lapLoop (env n J r) sd (N :: rest) edge dt l (e r))
      (fun r => .ok (wsum (e r) (l.map fun p => (lapOp A sd n N rest edge dt (p.1, p.2.1, .centered) r, p.2.2)))) := by
  induction l generalizing e with
  | nil => exact Runs.ret _
  | cons p l ih =>
    obtain ⟨ax, s, w⟩ := p
    simp only [OpArith.lapLoop, Prog.bind_eq]
    have ht := hl (ax, s, w) (by simp)
    refine Runs.bind_ok (runs_flapTerm A ht) ?_
    refine (ih (fun p hp => hl p (by simp [hp])) (e := fun r => .sum (e r) (.scaled (.leaf (lapOp A sd n N rest edge dt (ax, s, .centered) r)) w)) he).congr (fun r _ => ?_) fun _ _ => rfl
    have h2 : (MOp.scaled (.leaf (lapOp A sd n N rest edge dt (ax, s, .centered) r)) w : MOp K (Prim K)).shape Prim.shape = (N * rest.prod, N * rest.prod) := lapOp_shape A hn ht r
    unfold OpArith.opAdd
    rw [if_neg (by rw [he, h2]; simp)]
    rfl

end

section
variable {fd : FSerial K FDKind} {g : Nat → K → FDKind → Bool → DType → List K → List K} {ax : Nat} {s : K} {k : FDKind}

/-- the operator that is made for an axis of the gradient -/
def gradOp (fd : FSerial K FDKind) (n N : Nat) (rest : List Nat) (edge : Bool) (k : FDKind) (dt : DType) (t : K × Nat) (r : Nat) : Prim K :=
  if t.2 = 0 then A.fdPrim k ⟨N :: rest, t.1, edge, dt⟩ else fbdPrim A n (rowOps fd n N rest edge dt t.2 t.1 k) dt r

theorem gradOp_shape (hn : 0 < n) (h : AxisOk fd rest edge dt g ax s k) (r : Nat) : (gradOp A fd n N rest edge k dt (s, ax) r).shape = (N * rest.prod, N * rest.prod) := by
  unfold gradOp
  split_ifs with h0
  · simp [Prim.shape, OpArith.fdPrim]
  · have hr := h.2 h0
    simp only [Prim.shape, fbdPrim, hr.fopIn_all, psum_balanced_total N hn]

theorem gradOp_takes (hn : 0 < n) (h : AxisOk fd rest edge dt g ax s k) (h2 : FirstOk n N edge b k) (hdt : b = true → dt = .real → dx = .real) (hX : Rows n N rest X) :
    TakesTo n J (fun r => (gradOp A fd n N rest edge k dt (s, ax) r).prod b) ⟨X, dx⟩ ⟨.flat n N rest, dt⟩ (A.first edge dt N rest g b ax s k) := by
  by_cases h0 : ax = 0
  · have t := C73_leaf_first A (J := J) (dt := dt) (dx := dx) (s := s) k hn h2 hdt ⟨hX.wf, hX.shape, .inl ⟨hX.scatter, hX.near⟩⟩
    refine (t.congr_fn fun x _ _ => ?_).congr_prog fun r _ x => ?_
    · unfold OpArith.first OpArith.axisFn
      rw [if_pos h0]
      unfold ArrArith.received
      rw [hX.scatter]
      rfl
    · unfold gradOp
      rw [if_pos h0]
  · have t := rows_takes A (J := J) (b := b) (dx := dx) (h.2 h0) hn hX.wf hX.shape hX.scatter hX.near
    refine (t.congr_fn fun x _ _ => ?_).congr_prog fun r _ x => ?_
    · unfold OpArith.first OpArith.axisFn
      rw [if_neg h0]
    · unfold gradOp
      rw [if_neg h0]

theorem runs_fgradLoop {l : List K} : ∀ {ax : Nat}, (∀ p ∈ l.zipIdx (ax + 1), AxisOk fd rest edge dt g p.2 p.1 k) →
    Runs n (fun r => A.gradLoop (env n J r) fd (N :: rest) edge k dt (ax + 1) l) (fun r => .ok ((l.zipIdx (ax + 1)).map fun p => .leaf (gradOp A fd n N rest edge k dt p r))) := by
  induction l with
  | nil => intro ax _; exact Runs.ret _
  | cons s l ih =>
    intro ax h
    have ht := h (s, ax + 1) (by simp)
    simp only [OpArith.gradLoop, localSplit_first, Prog.bind_eq, List.zipIdx_cons, List.map_cons]
    refine Runs.bind_ok (a := fun r => gradOp A fd n N rest edge k dt (s, ax + 1) r) ?_ ?_
    · refine (a_mkBlockDiag A (J := J) (dt := dt) (ops := rowOps fd n N rest edge dt (ax + 1) s k) fun r _ => ?_).congr (fun _ _ => rfl) fun r _ => ?_
      · simp [fopsDType, opsDType, FOp.on, (ht.2 (by simp)).dtype]
      · simp [gradOp]
    · exact Runs.bind_ok (ih fun p hp => h p (by simp only [List.zipIdx_cons, List.mem_cons]; exact .inr hp)) (Runs.ret _)

end

end Verif

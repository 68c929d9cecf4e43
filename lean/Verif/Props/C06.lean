/- C06: in-place updates equal out-of-place updates and touch only the receiver. -/
import Verif.Proofs.Library
import Verif.Proofs.XVec
import Verif.MPI.Sim
import Verif.Spec.Gauss

set_option linter.unusedSectionVars false

namespace Verif
open NDArray

section
variable {K : Type} [Field K] [StarRing K] {h : Heap K} {c : Ctx K} {a b : XRef}

/-! ### Histories -/

/-- calls that a user can make on a rank: the methods of the arrays, and `matvec` (`b = false`) and `rmatvec` of the operators that can be built with the library; `poke`: any statement that changes the contents of a NumPy array held by the user, for example one returned by `asarray` -/
inductive Call (K : Type) [Field K] [StarRing K]
  | new (gshape : List Nat) (part : Partition) (axis : Nat) (lshapes : Option (List (List Nat))) (mask : Option (List Nat)) (dt : DType)
  | setItem (x : Nat) (ix : Index) (v : NDArray K)
  | op (o : NewOp K) (a b : XRef)
  | iadd (a b : XRef)
  | isub (a b : XRef)
  | asarray (x : Nat)
  | apply (e : MOp K (HPrim K)) (he : LibM e) (b : Bool) (x : Nat)
  | applyStacked (e : SOp K (HPrim K)) (he : LibS e) (b : Bool) (a : XRef)
  | poke (m : Nat) (v : NDArray K)

/-- the objects used in a call -/
def Call.refs : Call K → List Nat
  | .setItem x _ _ | .asarray x | .apply _ _ _ x => [x]
  | .op _ a b | .iadd a b | .isub a b => a.refs ++ b.refs
  | .applyStacked _ _ _ a => a.refs
  | _ => []

def Call.run (c : Ctx K) : Call K → HP K Unit
  | .new gs p ax ls msk dt => do let _ ← HArr.new c gs p ax ls msk dt; HP.ret ()
  | .setItem x ix v => HArr.setItem c x ix v
  | .op o a b => do let _ ← o.run c a b; HP.ret ()
  | .iadd a b => do let _ ← HX.iadd c a b; HP.ret ()
  | .isub a b => do let _ ← HX.isub c a b; HP.ret ()
  | .asarray x => do let _ ← HArr.asarray c x; HP.ret ()
  | .apply e _ b x => do let _ ← MOp.hrun c b e x; HP.ret ()
  | .applyStacked e _ b a => do let _ ← SOp.hrun c b e a; HP.ret ()
  | .poke m v => fun h => .ret (.ok (), h.poke m v)

/-- The memories that can occur on a rank: calls are made one after the other (also after an exception was caught), on existing objects, in arbitrary environments. -/
inductive Reachable : Heap K → Prop
  | start (l : List (NDArray K)) : Reachable ⟨[], l⟩
  | call {h h' : Heap K} {c : Ctx K} {o : Except Err Unit} (k : Call K) {n r : Nat} {ps : Nat → P K (Except Err Unit × Heap K)} {s : St (Msg K) (Except Err Unit × Heap K)}
      (hh : Reachable h) (hk : Live h k.refs) (hr : r < n) (hp : ps r = k.run c h) (hs : Run n (St.init ps) s) (ho : s.prog r = .ret (o, h')) : Reachable h'

theorem asarray_post (hw : h.WF) {x : Nat} (hx : x < h.objs.length) : HPost h (HArr.asarray c x) [] fun m h' => ∀ d, h.get? x = some d →
    (d.part.isBroadcast = true → h.buf? x = some m ∧ h' = h) ∧ (d.part.isBroadcast = false → m = h.bufs.length) := by
  obtain ⟨d, hd⟩ := hw.get hx
  unfold HArr.asarray
  refine HPost.read_bind hd ?_
  by_cases hb : d.part.isBroadcast = true
  · rw [if_pos hb]
    refine ⟨_, rfl, hw, .refl, fun m hm d' hd' => ⟨fun _ => ⟨?_, rfl⟩, fun hc => ?_⟩⟩
    · rw [← Except.ok.inj hm, Heap.buf?, List.getElem?_eq_getElem hx]; rfl
    · rw [hd] at hd'; rw [Option.some.inj hd'] at hb; rw [hb] at hc; cases hc
  · rw [if_neg hb]
    refine HPost.bind (fun _ => []) ((Impl.lift (W := []) hw (d.asarray c)).hpost (Q := fun _ h' => h' = h) fun _ _ _ hv => hv.2) (by simp) fun v h' hw' hf' he => ⟨by simp, ?_⟩
    subst he
    refine ⟨_, rfl, ⟨fun o ho => ?_, hw'.nodup⟩, ⟨fun _ _ e => e, by simp, fun m v' e _ => ?_, fun i o hi e => ?_⟩, fun m hm d' hd' => ⟨fun hc => ?_, fun _ => (Except.ok.inj hm).symm⟩⟩
    · have := hw'.lt o ho
      simp; omega
    · have := (List.getElem?_eq_some_iff.1 e).1
      dsimp only
      rw [List.getElem?_append_left this, e]
    · exact absurd (List.getElem?_eq_some_iff.1 e).1 (by dsimp only; omega)
    · rw [hd] at hd'; rw [Option.some.inj hd'] at hb; exact absurd hc hb

theorem done_post {α : Type} {m : HP K α} {W : List Nat} {Q : α → Heap K → Prop} (hm : HPost h m W Q) : HPost h (do let _ ← m; HP.ret ()) W fun _ _ => True :=
  HPost.bind (fun _ => []) hm (fun _ h => h) fun _ _ hw _ _ => ⟨by simp, .ret hw trivial⟩

/-- In every reachable memory the objects own different buffers: no library method makes two arrays share memory. -/
theorem C06_no_sharing (hh : Reachable h) : h.WF := by
  induction hh with
  | start l => exact ⟨by simp, by simp⟩
  | @call h h' c o k n r ps s hh hk hr hp hs ho ih =>
    by_cases hpoke : ∃ m v, k = .poke m v
    · obtain ⟨m, v, rfl⟩ := hpoke
      have h1 : (ps r).Post fun o => ∃ x, o = .ok x ∧ x.2.WF := by
        rw [hp]
        show ∃ x, Except.ok (_, _) = Except.ok x ∧ Heap.WF x.2
        exact ⟨_, rfl, by simpa [Heap.poke] using ih.lt, by simpa [Heap.poke] using ih.nodup⟩
      obtain ⟨x, hx, hw⟩ := h1.sound hr hs (o := .ok (o, h')) ho
      cases hx
      exact hw
    · have h1 : ∃ W, HPost h (k.run c) W fun _ _ => True := by
        cases k with
        | new gs p ax ls msk dt => exact ⟨_, done_post ((HArr.new_impl ih).hpost (Q := fun _ _ => True) fun _ _ _ _ => trivial)⟩
        | setItem x ix v =>
          obtain ⟨d, hd⟩ := ih.get (hk x (by simp [Call.refs]))
          exact ⟨_, (HArr.setItem_impl ih hd ix v).hpost fun _ _ _ _ => trivial⟩
        | op op a b => exact ⟨_, done_post (newOp_post op ih (fun i hi => hk i (by simp [Call.refs, hi])) fun i hi => hk i (by simp [Call.refs, hi]))⟩
        | iadd a b => exact ⟨_, done_post (HX.iadd_post ih (fun i hi => hk i (by simp [Call.refs, hi])) fun i hi => hk i (by simp [Call.refs, hi]))⟩
        | isub a b => exact ⟨_, done_post (HX.isub_post ih (fun i hi => hk i (by simp [Call.refs, hi])) fun i hi => hk i (by simp [Call.refs, hi]))⟩
        | asarray x => exact ⟨_, done_post (asarray_post ih (hk x (by simp [Call.refs])))⟩
        | apply e he b x =>
          obtain ⟨d, hd⟩ := ih.get (hk x (by simp [Call.refs]))
          obtain ⟨e', he'⟩ := he.same
          exact ⟨_, done_post ((he'.run (c := c) b ih hd).hpost (Q := fun _ _ => True) fun _ _ _ _ => trivial)⟩
        | applyStacked e he b a =>
          obtain ⟨u, hu⟩ := ih.hasX (a := a) hk
          obtain ⟨e', he'⟩ := he.same
          exact ⟨_, done_post ((he'.run (c := c) b ih hu).hpost (Q := fun _ _ => True) fun _ _ _ _ => trivial)⟩
        | poke m v => exact absurd ⟨m, v, rfl⟩ hpoke
      obtain ⟨W, h1⟩ := h1
      obtain ⟨x, hx, hw, -⟩ := h1.sound hr hp hs (o := .ok (o, h')) ho
      cases hx
      exact hw

/-! ### The theorems -/

variable {n r : Nat}

/-- **C06** (receiver).  `a += b` and `a -= b` for any existing arrays `a` and `b` (DistributedArrays or StackedDistributedArrays, aliased in any way) in any reachable
    memory, in any execution, whatever the other ranks do: the result is the object `a`, and every other array object keeps its attributes and the contents of its
    local array; so does every NumPy array that is not the local array of (a component of) `a`. -/
theorem C06_inplace (hh : Reachable h) (ha : Live h a.refs) (hb : Live h b.refs) (hr : r < n) {ps : Nat → P K (Except Err XRef × Heap K)}
    (hp : ps r = HX.iadd c a b h ∨ ps r = HX.isub c a b h) {s : St (Msg K) (Except Err XRef × Heap K)} (hs : Run n (St.init ps) s) {o : Except Err XRef} {h' : Heap K}
    (ho : s.prog r = .ret (o, h')) :
    (∀ z, o = .ok z → z = a) ∧ (∀ x ∉ a.refs, ∀ d, h.get? x = some d → h'.get? x = some d) ∧
    ∀ (m : Nat) (v : NDArray K), h.bufs[m]? = some v → (∀ x ∈ a.refs, h.buf? x ≠ some m) → h'.bufs[m]? = some v := by
  have hw := C06_no_sharing hh
  have key : ∀ {m : HP K XRef}, HPost h m a.refs (fun z _ => z = a) → ps r = m h → (∀ z, o = .ok z → z = a) ∧ Frame a.refs h h' := fun hm hp => by
    obtain ⟨x, hx, -, hf, hq⟩ := hm.sound hr hp hs (o := .ok (o, h')) ho
    cases hx
    exact ⟨fun z hz => hq z hz, hf⟩
  have : (∀ z, o = .ok z → z = a) ∧ Frame a.refs h h' := hp.elim (key (HX.iadd_post hw ha hb)) (key (HX.isub_post hw ha hb))
  exact ⟨this.1, fun x hx d hd => this.2.get hw hx hd, fun m v hm hv => this.2.same m v hm hv⟩

/-- **C06** (new arrays).  `-a`, `a + b`, `a - b`, `a * b`, `a * s`, `a.conj()`, `a.copy()`, `a.zeros_like()` and `a.ravel()` return new objects that share no memory with
    any array or NumPy buffer that existed before, and change none of them; again for any existing arrays, aliased in any way, in any reachable memory and any execution. -/
theorem C06_new (op : NewOp K) (hh : Reachable h) (ha : Live h a.refs) (hb : Live h b.refs) (hr : r < n) {ps : Nat → P K (Except Err XRef × Heap K)}
    (hp : ps r = op.run c a b h) {s : St (Msg K) (Except Err XRef × Heap K)} (hs : Run n (St.init ps) s) {o : Except Err XRef} {h' : Heap K} (ho : s.prog r = .ret (o, h')) :
    (∀ z, o = .ok z → Fresh h h' z) ∧ (∀ x d, h.get? x = some d → h'.get? x = some d) ∧ ∀ (m : Nat) (v : NDArray K), h.bufs[m]? = some v → h'.bufs[m]? = some v := by
  have hw := C06_no_sharing hh
  obtain ⟨x, hx, -, hf, hq⟩ := (newOp_post (c := c) op hw ha hb).sound hr hp hs (o := .ok (o, h')) ho
  cases hx
  exact ⟨hq, fun x d hd => hf.get hw (by simp) hd, fun m v hm => hf.same m v hm (by simp)⟩

/-- Reading `asarray` as an operation on the memory: for scattered arrays the result is a new buffer, for broadcast arrays it is the local array itself. -/
theorem C06_asarray (hh : Reachable h) {x : Nat} {d : DArr K} (hx : h.get? x = some d) (hr : r < n) {ps : Nat → P K (Except Err Nat × Heap K)}
    (hp : ps r = HArr.asarray c x h) {s : St (Msg K) (Except Err Nat × Heap K)} (hs : Run n (St.init ps) s) {m : Nat} {h' : Heap K} (ho : s.prog r = .ret (.ok m, h')) :
    (d.part.isBroadcast = true → h.buf? x = some m ∧ h' = h) ∧ (d.part.isBroadcast = false → m = h.bufs.length) := by
  obtain ⟨y, hy, -, -, hq⟩ := (asarray_post (c := c) (C06_no_sharing hh) (Heap.lt_of_get? hx)).sound hr hp hs (o := .ok (.ok m, h')) ho
  cases hy
  exact hq m rfl d hx

end

section
variable {K : Type} [Field K] [StarRing K] [CharZero K] {n : Nat} {J : Nat → Nat → K} {h : Nat → Heap K}

/-- **C06** (value).  Distributed arrays of any layout, with local data `a` and `b`, in reachable memories of `n` ranks; `x r` and `y r` are the names of the two objects
    on rank `r` and may be the same.  In all executions `x += y` and `x + y` end on all ranks without error, `x += y` leaves in the object `x` what `x + y` puts
    into a new object: the sum; and the same for `-=`. -/
theorem C06_value {L : Layout} {dt : DType} {a b : Nat → List K} (hL : L.WF n) (ha : L.Good n dt a) (hb : L.Good n dt b) {x y : Nat → Nat} (hh : ∀ r < n, Reachable (h r))
    (hx : ∀ r < n, (h r).get? (x r) = some (L.fam n dt a r)) (hy : ∀ r < n, (h r).get? (y r) = some (L.fam n dt b r)) :
    (∃ out : Nat → Except Err Nat × Heap K, Always n (fun r => HArr.iadd (env n J r) (x r) (y r) (h r)) (fun r => .ok (out r)) ∧
      ∀ r < n, (out r).1 = .ok (x r) ∧ (out r).2.get? (x r) = some (L.fam n dt (fun r => List.zipWith (· + ·) (a r) (b r)) r)) ∧
    (∃ out : Nat → Except Err Nat × Heap K, Always n (fun r => HArr.add (env n J r) (x r) (y r) (h r)) (fun r => .ok (out r)) ∧
      ∀ r < n, ∃ z, (out r).1 = .ok z ∧ New (h r) z ∧ (out r).2.get? z = some (L.fam n dt (fun r => List.zipWith (· + ·) (a r) (b r)) r)) ∧
    (∃ out : Nat → Except Err Nat × Heap K, Always n (fun r => HArr.isub (env n J r) (x r) (y r) (h r)) (fun r => .ok (out r)) ∧
      ∀ r < n, (out r).1 = .ok (x r) ∧ (out r).2.get? (x r) = some (L.fam n dt (fun r => List.zipWith (· - ·) (a r) (b r)) r)) ∧
    (∃ out : Nat → Except Err Nat × Heap K, Always n (fun r => HArr.sub (env n J r) (x r) (y r) (h r)) (fun r => .ok (out r)) ∧
      ∀ r < n, ∃ z, (out r).1 = .ok z ∧ New (h r) z ∧ (out r).2.get? z = some (L.fam n dt (fun r => List.zipWith (· - ·) (a r) (b r)) r)) := by
  have hw := fun r hr => C06_no_sharing (hh r hr)
  refine ⟨?_, ?_, ?_, ?_⟩
  · obtain ⟨out, h1, h2⟩ := HRel.always (fun r hr => HArr.iadd_impl (c := env n J r) (hw r hr) (hx r hr) (hy r hr)) (runs_iadd ha hb).always
    refine ⟨out, h1, fun r hr => ?_⟩
    obtain ⟨z, h3, -, -, h4, h5⟩ := h2 r hr
    exact ⟨by rw [h3, h4], h5⟩
  · obtain ⟨out, h1, h2⟩ := HRel.always (fun r hr => HArr.add_impl (c := env n J r) (hw r hr) (hx r hr) (hy r hr)) (runs_add hL ha hb).always
    refine ⟨out, h1, fun r hr => ?_⟩
    obtain ⟨z, h3, -, -, h4, h5⟩ := h2 r hr
    exact ⟨z, h3, h4, h5⟩
  · obtain ⟨out, h1, h2⟩ := HRel.always (fun r hr => HArr.isub_impl (c := env n J r) (hw r hr) (hx r hr) (hy r hr)) (runs_isub hL ha hb).always
    refine ⟨out, h1, fun r hr => ?_⟩
    obtain ⟨z, h3, -, -, h4, h5⟩ := h2 r hr
    exact ⟨by rw [h3, h4], h5⟩
  · obtain ⟨out, h1, h2⟩ := HRel.always (fun r hr => HArr.sub_impl (c := env n J r) (hw r hr) (hx r hr) (hy r hr)) (runs_sub hL ha hb).always
    refine ⟨out, h1, fun r hr => ?_⟩
    obtain ⟨z, h3, -, -, h4, h5⟩ := h2 r hr
    exact ⟨z, h3, h4, h5⟩

/-- **C06** (value, stacked arrays), partial: the components of `x` are different objects, and a component of `y` is not an earlier component of `x` (in particular `x += x`
    and `x += y` with no common component are allowed).  Missing for the full statement: other aliasing patterns, for which it is false (`C06_violated_stacked`,
    `C06_violated_repeated`).  For `-=` the second condition is not needed. -/
theorem C06_value_stacked_partial {S : SSpace} {d e : List K} (hS : S.WF n) (hd : S.Mem d) (he : S.Mem e) {x y : Nat → List Nat} (hh : ∀ r < n, Reachable (h r))
    (hx : ∀ r < n, HasX (h r) (.stack (x r)) (.stack (S.vec n d r))) (hy : ∀ r < n, HasX (h r) (.stack (y r)) (.stack (S.vec n e r))) (hn : ∀ r < n, (x r).Nodup) :
    ((∀ r < n, ((x r).zip (y r)).Pairwise fun p q => q.2 ≠ p.1) →
      ∃ out : Nat → Except Err (List Nat) × Heap K, Always n (fun r => HStack.iadd (env n J r) (x r) (y r) (h r)) (fun r => .ok (out r)) ∧
        ∀ r < n, (out r).1 = .ok (x r) ∧ HasX (out r).2 (.stack (x r)) (.stack (S.vec n (List.zipWith (· + ·) d e) r))) ∧
    ∃ out : Nat → Except Err (List Nat) × Heap K, Always n (fun r => HStack.isub (env n J r) (x r) (y r) (h r)) (fun r => .ok (out r)) ∧
      ∀ r < n, (out r).1 = .ok (x r) ∧ HasX (out r).2 (.stack (x r)) (.stack (S.vec n (List.zipWith (· - ·) d e) r)) := by
  have hw := fun r hr => C06_no_sharing (hh r hr)
  refine ⟨fun ha => ?_, ?_⟩
  · obtain ⟨out, h1, h2⟩ := HRel.always (fun r hr => HStack.iadd_impl (c := env n J r) (hw r hr) (hx r hr) (hy r hr) (hn r hr) (ha r hr)) (runs_iadd_svec hS hd he).always
    refine ⟨out, h1, fun r hr => ?_⟩
    obtain ⟨z, h3, -, -, h4, h5⟩ := h2 r hr
    exact ⟨by rw [h3, h4], h5⟩
  · obtain ⟨out, h1, h2⟩ := HRel.always (fun r hr => HStack.isub_impl (c := env n J r) (hw r hr) (hx r hr) (hy r hr) (hn r hr)) (runs_isub_svec hS hd he).always
    refine ⟨out, h1, fun r hr => ?_⟩
    obtain ⟨z, h3, -, -, h4, h5⟩ := h2 r hr
    exact ⟨by rw [h3, h4], h5⟩

/-- the conditions hold for `x += x` -/
theorem C06_self_ok {x : List Nat} (hn : x.Nodup) : (x.zip x).Pairwise fun p q => q.2 ≠ p.1 := by
  induction hn with
  | nil => simp
  | cons h1 _ ih => exact .cons (fun p hp => (h1 _ (List.of_mem_zip hp).2).symm) ih

end

/-! ### Examples and counterexamples on one rank -/

deriving instance DecidableEq for NDArray
deriving instance DecidableEq for DObj
deriving instance DecidableEq for Heap

/-- a memory with one object per list: a scattered vector on one rank -/
def exHeap (l : List (List ℚ)) : Heap ℚ :=
  ⟨(List.range l.length).map fun i => ⟨[(l.getD i []).length], .scatter, 0, none, [0], [(l.getD i []).length], .real, i⟩, l.map fun d => ⟨[d.length], .real, d⟩⟩

/-- a call on one rank whose outcome is computed -/
theorem Reachable.of_sim {h h' : Heap ℚ} (k : Call ℚ) (hh : Reachable h) (hk : Live h k.refs)
    (he : (simOk 60 1 fun r => k.run (env 1 (fun _ _ => 0) r) h).map (List.map Prod.snd) = some [h']) : Reachable h' := by
  obtain ⟨σ, ⟨qs, h1, h2⟩, h3⟩ := runs_of_simOk 60 (by decide) he
  have h4 : h' = (σ 0).2 := by simpa using h3 0 (by decide)
  subst h4
  exact Reachable.call (n := 1) (r := 0) k hh hk (by decide) rfl (SStep.nbRun h1).run (s := St.init qs) (o := (σ 0).1) (h2 0 (by decide))

/-- the memory with the vectors [1, 2] and [5, 7] is reachable: two calls of the constructor and two assignments -/
theorem exHeap_reachable : Reachable (exHeap [[1, 2], [5, 7]]) := by
  have h1 := Reachable.of_sim (h' := exHeap [[0, 0]]) (.new [2] .scatter 0 none none .real) (.start []) (by simp [Live, Call.refs]) (by decide +kernel)
  have h2 := Reachable.of_sim (h' := exHeap [[0, 0], [0, 0]]) (.new [2] .scatter 0 none none .real) h1 (by simp [Live, Call.refs]) (by decide +kernel)
  have h3 := Reachable.of_sim (h' := exHeap [[1, 2], [0, 0]]) (.setItem 0 Index.all ⟨[2], .real, [1, 2]⟩) h2 (by simp [Live, Call.refs, exHeap]) (by decide +kernel)
  exact Reachable.of_sim (.setItem 1 Index.all ⟨[2], .real, [5, 7]⟩) h3 (by simp [Live, Call.refs, exHeap]) (by decide +kernel)

/-- Non-vacuity of `C06_value`, for `x += y` and for `x += x`: the two objects of the memory above hold the vectors [1, 2] and [5, 7]. -/
example : (Layout.lin 2 fun _ => 2).WF 1 ∧ (Layout.lin 2 fun _ => 2).Good 1 .real (fun _ => [(1 : ℚ), 2]) ∧ (Layout.lin 2 fun _ => 2).Good 1 .real (fun _ => [(5 : ℚ), 7]) ∧
    (∀ r < 1, (exHeap [[1, 2], [5, 7]]).get? 0 = some ((Layout.lin 2 fun _ => 2).fam 1 .real (fun _ => [1, 2]) r)) ∧
    ∀ r < 1, (exHeap [[1, 2], [5, 7]]).get? 1 = some ((Layout.lin 2 fun _ => 2).fam 1 .real (fun _ => [5, 7]) r) := by
  refine ⟨⟨by decide, fun _ => by decide, by simp [Layout.lin]⟩, ⟨fun r hr => ?_, fun _ _ _ _ _ => rfl, by simp [Layout.lin]⟩, ⟨fun r hr => ?_, fun _ _ _ _ _ => rfl, by simp [Layout.lin]⟩,
    fun r hr => ?_, fun r hr => ?_⟩ <;> (obtain rfl : r = 0 := by omega) <;> rfl

/-- Non-vacuity of `C06_value_stacked_partial`: x = (u, v) and y = (u, v) (the same components), which are different objects. -/
example : SSpace.WF [⟨.lin 2 fun _ => 2, .real⟩, ⟨.lin 2 fun _ => 2, .real⟩] 1 ∧ SSpace.Mem [⟨.lin 2 fun _ => 2, .real⟩, ⟨.lin 2 fun _ => 2, .real⟩] [(1 : ℚ), 2, 5, 7] ∧
    (∀ r < 1, HasX (exHeap [[1, 2], [5, 7]]) (.stack [0, 1]) (.stack (SSpace.vec 1 [⟨.lin 2 fun _ => 2, .real⟩, ⟨.lin 2 fun _ => 2, .real⟩] [(1 : ℚ), 2, 5, 7] r))) ∧
    [0, 1].Nodup ∧ ([0, 1].zip [0, 1]).Pairwise fun p q => q.2 ≠ p.1 := by
  refine ⟨fun V hV => ?_, ⟨⟨rfl, fun _ _ _ => rfl⟩, ⟨rfl, fun _ _ _ => rfl⟩, rfl⟩, fun r hr => ?_, by decide, by decide⟩
  · simp only [List.mem_cons, List.not_mem_nil, or_false, or_self] at hV
    subst hV
    exact ⟨by decide, fun _ => by decide, by simp [Layout.lin]⟩
  · obtain rfl : r = 0 := by omega
    exact .cons rfl (.cons rfl .nil)

/-- What the two statements `x += x; y -= x` do to the memory above (the third object is the temporary `-x`). -/
example : Reachable (exHeap [[2, 4], [5, 7]]) ∧ Reachable (exHeap [[2, 4], [3, 3], [-2, -4]]) := by
  have h1 : Reachable (exHeap [[2, 4], [5, 7]]) := Reachable.of_sim (.iadd (.one 0) (.one 0)) exHeap_reachable (by simp [Live, Call.refs, exHeap, XRef.refs]) (by decide +kernel)
  exact ⟨h1, Reachable.of_sim (.isub (.one 1) (.one 0)) h1 (by simp [Live, Call.refs, exHeap, XRef.refs]) (by decide +kernel)⟩

/-- **C06 is false** for stacked arrays sharing components: with u = [1, 2], v = [5, 7], x = (u, v) and y = (v, u), `x += y` leaves u = [6, 9] and v = [11, 16] instead of
    u = v = [6, 9], because the new u is used for the second component. -/
theorem C06_violated_stacked :
    ∃ σ : Nat → Except Err (List Nat) × Heap ℚ, Always 1 (fun r => HStack.iadd (env 1 (fun _ _ => (0 : ℚ)) r) [0, 1] [1, 0] (exHeap [[1, 2], [5, 7]])) (fun r => .ok (σ r)) ∧
      (σ 0).2.bufs.take 2 = [⟨[2], .real, [6, 9]⟩, ⟨[2], .real, [11, 16]⟩] := by
  obtain ⟨σ, h1, h2⟩ := runs_of_simOk 100 (ps := fun r => HStack.iadd (env 1 (fun _ _ => (0 : ℚ)) r) [0, 1] [1, 0] (exHeap [[1, 2], [5, 7]])) (g := fun p => p.2.bufs.take 2) (n := 1)
    (outs := [[⟨[2], .real, [6, 9]⟩, ⟨[2], .real, [11, 16]⟩]]) (by decide) (by decide +kernel)
  exact ⟨σ, h1.always, by simpa using (h2 0 (by decide)).symm⟩

/-- **C06 is false** for a stacked array with a repeated component: with x = (u, u) and y = (v, v), `x += y` adds v twice. -/
theorem C06_violated_repeated :
    ∃ σ : Nat → Except Err (List Nat) × Heap ℚ, Always 1 (fun r => HStack.iadd (env 1 (fun _ _ => (0 : ℚ)) r) [0, 0] [1, 1] (exHeap [[1, 2], [5, 7]])) (fun r => .ok (σ r)) ∧
      (σ 0).2.bufs.take 2 = [⟨[2], .real, [11, 16]⟩, ⟨[2], .real, [5, 7]⟩] := by
  obtain ⟨σ, h1, h2⟩ := runs_of_simOk 100 (ps := fun r => HStack.iadd (env 1 (fun _ _ => (0 : ℚ)) r) [0, 0] [1, 1] (exHeap [[1, 2], [5, 7]])) (g := fun p => p.2.bufs.take 2) (n := 1)
    (outs := [[⟨[2], .real, [11, 16]⟩, ⟨[2], .real, [5, 7]⟩]]) (by decide) (by decide +kernel)
  exact ⟨σ, h1.always, by simpa using (h2 0 (by decide)).symm⟩

end Verif

/-
  The calls made by the methods of `DistributedArray`, by `norm` and by the decorator `reshaped`.
-/
import Verif.Proofs.Traffic
import Verif.Model.Norm
import Verif.Model.Decorators
import Mathlib.Tactic.Linarith

namespace Verif
open NDArray

variable {K α β : Type} {rep : CollKind → List Nat → Msg K → Prop} {ok : CommCall (Msg K) → Prop}

/-- collective calls with sizes and shapes are allowed -/
def AllSizesOK (ok : CommCall (Msg K) → Prop) : Prop := ∀ kd cm v, v.entries = 0 → ok (.coll kd cm v)

/-- the same, except for `allgather` of a number -/
def SizesOK (ok : CommCall (Msg K) → Prop) : Prop := ∀ kd cm v, v.entries = 0 → (kd = .allgather → ∀ y, v ≠ .nat y) → ok (.coll kd cm v)

theorem AllSizesOK.sizes (h : AllSizesOK ok) : SizesOK ok := fun kd cm v hv _ => h kd cm v hv

/-- collective calls with one number are allowed -/
def NumbersOK (ok : CommCall (Msg K) → Prop) : Prop := ∀ kd cm v, v.entries ≤ 1 → ok (.coll kd cm v)

theorem NumbersOK.sizes (h : NumbersOK ok) : AllSizesOK ok := fun kd cm v hv => h kd cm v (by omega)

theorem CallsW.bind' {w : Msg K → Nat} {k v k1 v1 k2 v2 : Nat} {p : P K α} {f : α → P K β} {Q : α → Prop} {R : β → Prop} (h : CallsW w rep ok k1 v1 p Q)
    (hf : ∀ a, Q a → CallsW w rep ok k2 v2 (f a) R) (hk : k1 + k2 ≤ k) (hv : v1 + v2 ≤ v) : CallsW w rep ok k v (p.bind f) R :=
  (h.bind hf).mono hk hv fun _ => id

theorem CallsW.liftBind {w : Msg K → Nat} {k v : Nat} {o : Except Err α} {f : α → P K β} {R : β → Prop}
    (hf : ∀ a, o = .ok a → CallsW w rep ok k v (f a) R) : CallsW w rep ok k v ((Prog.lift o : P K α).bind f) R := by
  cases o with
  | ok a => exact hf a rfl
  | error e => exact .throw

theorem calls_gather [Enc K α] (kd : CollKind) (cm : List Nat) (x : α) (h : ok (.coll kd cm (Enc.enc x))) :
    Calls rep ok 1 (Enc.enc (K := K) x).entries (gather kd cm x) fun _ => True := by
  have := CallsW.coll (w := Msg.entries) (rep := rep) (k := 0) (v := 0) (Q := fun _ : List α => True) (f := fun ms => Prog.lift (decAll (α := α) ms)) h
    fun ms _ => CallsW.lift fun _ _ => trivial
  simpa [gather] using this

theorem calls_gatherEnc [Enc K α] (hinj : ∀ m (y : α), Enc.dec (K := K) m = some y → m = Enc.enc y) (kd : CollKind) (cm : List Nat) (x : α)
    (h : ok (.coll kd cm (Enc.enc x))) :
    Calls rep ok 1 (Enc.enc (K := K) x).entries (gather kd cm x) fun l => ∀ y ∈ l, rep kd cm (Enc.enc y) := by
  have := CallsW.coll (w := Msg.entries) (rep := rep) (k := 0) (v := 0) (Q := fun l : List α => ∀ y ∈ l, rep kd cm (Enc.enc y))
    (f := fun ms => Prog.lift (decAll (α := α) ms)) h fun ms hms => CallsW.lift fun l hl y hy => ?_
  · simpa [gather] using this
  unfold decAll at hl
  split at hl
  · rename_i l' e
    obtain rfl : l' = l := by simpa using hl
    clear hl h
    induction ms generalizing l' with
    | nil => simp at e; subst e; simp at hy
    | cons m ms ih =>
      rw [List.mapM_cons] at e
      cases hm : (Enc.dec (K := K) (α := α) m) with
      | none => simp [hm] at e
      | some a =>
        cases ht : ms.mapM (Enc.dec (K := K) (α := α)) with
        | none => simp [hm, ht] at e
        | some t =>
          have e' : a :: t = l' := by simpa [hm, ht] using e
          subst e'
          rcases List.mem_cons.mp hy with rfl | hy
          · rw [← hinj m y hm]; exact hms m (by simp)
          · exact ih (fun x hx => hms x (by simp [hx])) _ ht hy
  · cases hl

theorem calls_gatherNat (kd : CollKind) (cm : List Nat) (x : Nat) (h : ok (.coll kd cm (.nat x))) :
    Calls rep ok 1 0 (gather kd cm x) fun l => ∀ y ∈ l, rep kd cm (.nat y) :=
  calls_gatherEnc (fun m y hm => by
    cases m with
    | nat z =>
      have : some z = some y := hm
      rw [Option.some.inj this]; rfl
    | _ => exact absurd hm (by simp [Enc.dec])) kd cm x h

theorem calls_gatherArr (kd : CollKind) (cm : List Nat) (x : NDArray K) (h : ok (.coll kd cm (.arr x))) :
    Calls rep ok 1 x.data.length (gather kd cm x) fun l => ∀ y ∈ l, rep kd cm (.arr y) :=
  calls_gatherEnc (fun m y hm => by
    cases m with
    | arr z =>
      have : some z = some y := hm
      rw [Option.some.inj this]; rfl
    | _ => exact absurd hm (by simp [Enc.dec])) kd cm x h

theorem calls_allreduce [Enc K α] (cm : List Nat) (op : α → α → Except Err α) (x : α) (h : ok (.coll .allreduce cm (Enc.enc x))) :
    Calls rep ok 1 (Enc.enc (K := K) x).entries (allreduce cm op x) fun _ => True := by
  unfold allreduce
  simp only [Prog.bind_eq]
  refine CallsW.bind' (calls_gather _ _ _ h) (k2 := 0) (v2 := 0) (fun l _ => ?_) le_rfl le_rfl
  split
  · exact CallsW.lift fun _ _ => trivial
  · exact .throw

section
variable [Field K] [StarRing K]

/-- `e` has the attributes of `d` -/
structure Like (d e : DArr K) : Prop where
  part : e.part = d.part
  axis : e.axis = d.axis
  gshape : e.gshape = d.gshape
  lshape : e.lshape = d.lshape
  shape : e.larr.shape = d.larr.shape

omit [Field K] [StarRing K] in
theorem Like.trans {d e f : DArr K} (h : Like d e) (g : Like e f) : Like d f :=
  ⟨g.part.trans h.part, g.axis.trans h.axis, g.gshape.trans h.gshape, g.lshape.trans h.lshape, g.shape.trans h.shape⟩

/-- the attributes of a new array -/
structure Made (part : Partition) (axis : Nat) (gshape ls : List Nat) (d : DArr K) : Prop where
  part : d.part = part
  axis : d.axis = axis
  gshape : d.gshape = gshape
  lshape : d.lshape = ls
  shape : d.larr.shape = ls

omit [Field K] [StarRing K] in
theorem Made.like {part : Partition} {axis : Nat} {gshape ls : List Nat} {d e : DArr K} (h : Made part axis gshape ls d) (g : Like d e) :
    Made part axis gshape ls e :=
  ⟨g.part.trans h.part, g.axis.trans h.axis, g.gshape.trans h.gshape, g.lshape.trans h.lshape, g.shape.trans h.shape⟩

/-- the local shape of a new array -/
def madeShape (c : Ctx K) (gshape : List Nat) (part : Partition) (axis : Nat) (lshapes : Option (List (List Nat))) : List Nat :=
  if lshapes.getD [] = [] then localSplit c gshape part axis else (lshapes.getD []).getD c.rank []

theorem calls_mkDArr (hok : SizesOK ok) (c : Ctx K) (gshape : List Nat) (part : Partition) (axis : Nat) (lshapes : Option (List (List Nat)))
    (mask : Option (List Nat)) (dt : DType) :
    Calls rep ok 2 0 (mkDArr c gshape part axis lshapes mask dt) (Made part axis gshape (madeShape c gshape part axis lshapes)) := by
  unfold mkDArr
  split
  · exact .throw
  · simp only [Prog.bind_eq]
    refine CallsW.bind' (k1 := 1) (v1 := 0) (Q := fun _ => True) ?_ (k2 := 1) (v2 := 0) (fun sub _ => ?_) le_rfl le_rfl
    · unfold mkSub
      split
      · exact .ret trivial
      · split
        · exact .throw
        · unfold splitComm
          simp only [Prog.bind_eq]
          exact CallsW.bind' (calls_gather _ _ _ (hok _ _ _ rfl (by simp [Enc.enc]))) (k2 := 0) (v2 := 0) (fun l _ => .ret trivial) le_rfl le_rfl
    · refine CallsW.bind' (k1 := 1) (v1 := 0) (Q := fun _ => True) ?_ (k2 := 0) (v2 := 0) (fun _ _ => .ret ⟨rfl, rfl, rfl, rfl, rfl⟩) le_rfl le_rfl
      unfold checkLocalShapes
      dsimp only
      split
      · exact .ret trivial
      · split
        · exact .throw
        · split
          · split
            · exact .throw
            · exact .ret trivial
          · split
            · exact .throw
            · simp only [Prog.bind_eq]
              refine CallsW.bind' (calls_allreduce _ _ _ (hok _ _ _ rfl (by simp [Enc.enc]))) (k2 := 0) (v2 := 0) (fun l _ => ?_) le_rfl le_rfl
              split
              · exact .throw
              · exact .ret trivial

/-- without local shapes and mask nothing is communicated -/
theorem calls_mkDArr_none (c : Ctx K) (gshape : List Nat) (part : Partition) (axis : Nat) (dt : DType) :
    Calls rep ok 0 0 (mkDArr c gshape part axis none none dt) (Made part axis gshape (localSplit c gshape part axis)) := by
  unfold mkDArr
  split
  · exact .throw
  · simp only [mkSub, checkLocalShapes, Option.getD_none, if_true, Prog.bind_eq, Prog.ret_bind]
    exact .ret ⟨rfl, rfl, rfl, rfl, rfl⟩

theorem calls_setItem {c : Ctx K} {d : DArr K} (hd : d.part ≠ .broadcast) (ix : Index) (v : NDArray K) :
    Calls rep ok 0 0 (d.setItem c ix v) (Like d) := by
  unfold DArr.setItem
  rw [if_neg hd]
  simp only [Prog.bind_eq]
  refine CallsW.liftBind fun a ha => .ret ⟨rfl, rfl, rfl, rfl, ?_⟩
  unfold setIndex at ha
  revert ha
  cases ix d.larr.shape with
  | error e => intro ha; cases ha
  | ok q =>
    cases hb : bcastTo q.1 v with
    | error e => intro ha; simp [hb, bind, Except.bind] at ha
    | ok w => intro ha; simp [hb, bind, Except.bind, pure, Except.pure] at ha; rw [← ha]

theorem calls_setAll {c : Ctx K} {d : DArr K} (hd : d.part ≠ .broadcast) (v : NDArray K) :
    Calls rep ok 0 0 (d.setAll c v) (Like d) := calls_setItem hd _ _

theorem calls_checkCompat (d e : DArr K) : Calls rep ok 0 0 (d.checkCompat e) fun _ => d.part = e.part := by
  unfold DArr.checkCompat
  split
  · exact .throw
  · rename_i h
    split
    · exact .throw
    · split
      · exact .throw
      · exact .ret (not_not.mp h)

theorem calls_likeMask (hok : SizesOK ok) (c : Ctx K) (d : DArr K) (mask : Option (List Nat)) :
    Calls rep ok 3 0 (d.likeMask c mask) fun e => e.part = d.part ∧ e.axis = d.axis ∧ e.gshape = d.gshape := by
  unfold DArr.likeMask DArr.localShapes allgather
  simp only [Prog.bind_eq]
  exact CallsW.bind' (calls_gather _ _ _ (hok _ _ _ rfl (by simp [Enc.enc]))) (k2 := 2) (v2 := 0) (fun l _ => (calls_mkDArr hok ..).imp fun _ h => ⟨h.part, h.axis, h.gshape⟩) (by omega) le_rfl

theorem calls_likeSet (hok : SizesOK ok) {c : Ctx K} {d : DArr K} (hd : d.part ≠ .broadcast) (mask : Option (List Nat)) (v : NDArray K) :
    Calls rep ok 3 0 ((d.likeMask c mask).bind fun r => r.setAll c v) fun e => e.part = d.part ∧ e.axis = d.axis ∧ e.gshape = d.gshape :=
  CallsW.bind' (calls_likeMask hok c d mask) (k2 := 0) (v2 := 0) (fun r hr => (calls_setAll (by rw [hr.1]; exact hd) v).imp fun e he =>
    ⟨he.part.trans hr.1, he.axis.trans hr.2.1, he.gshape.trans hr.2.2⟩) le_rfl le_rfl

theorem calls_neg (hok : SizesOK ok) {c : Ctx K} {d : DArr K} (hd : d.part ≠ .broadcast) :
    Calls rep ok 3 0 (d.neg c) fun e => e.part = d.part := (calls_likeSet hok hd _ _).imp fun _ h => h.1

theorem calls_smul (hok : SizesOK ok) {c : Ctx K} {d : DArr K} (hd : d.part ≠ .broadcast) (t : DType) (s : K) :
    Calls rep ok 3 0 (d.smul c t s) fun e => e.part = d.part := (calls_likeSet hok hd _ _).imp fun _ h => h.1

theorem calls_conj (hok : SizesOK ok) {c : Ctx K} {d : DArr K} (hd : d.part ≠ .broadcast) :
    Calls rep ok 3 0 (d.conj c) fun e => e.part = d.part := (calls_likeSet hok hd _ _).imp fun _ h => h.1

theorem calls_copy (hok : SizesOK ok) {c : Ctx K} {d : DArr K} (hd : d.part ≠ .broadcast) :
    Calls rep ok 3 0 (d.copy c) fun e => e.part = d.part := (calls_likeSet hok hd _ _).imp fun _ h => h.1

theorem calls_zerosLike (hok : SizesOK ok) {c : Ctx K} {d : DArr K} (hd : d.part ≠ .broadcast) :
    Calls rep ok 3 0 (d.zerosLike c) fun e => e.part = d.part := (calls_likeSet hok hd _ _).imp fun _ h => h.1

theorem calls_zip (hok : SizesOK ok) {c : Ctx K} {d e : DArr K} (hd : d.part ≠ .broadcast) (f : K → K → K) :
    Calls rep ok 3 0 ((d.checkCompat e).bind fun _ => (d.like c).bind fun r => (Prog.lift (NDArray.zip f d.larr e.larr) : P K _).bind fun v =>
      r.setAll c v) fun r => r.part = d.part := by
  refine CallsW.bind' (calls_checkCompat d e) (k2 := 3) (v2 := 0) (fun _ _ => ?_) (by omega) le_rfl
  refine CallsW.bind' (calls_likeMask hok c d d.mask) (k2 := 0) (v2 := 0) (fun r hr => ?_) le_rfl le_rfl
  exact CallsW.liftBind fun v _ => (calls_setAll (by rw [hr.1]; exact hd) v).imp fun e he => he.part.trans hr.1

theorem calls_add (hok : SizesOK ok) {c : Ctx K} {d e : DArr K} (hd : d.part ≠ .broadcast) :
    Calls rep ok 3 0 (d.add c e) fun r => r.part = d.part := calls_zip hok hd (· + ·)

theorem calls_mul (hok : SizesOK ok) {c : Ctx K} {d e : DArr K} (hd : d.part ≠ .broadcast) :
    Calls rep ok 3 0 (d.mul c e) fun r => r.part = d.part := calls_zip hok hd (· * ·)

theorem calls_iadd {c : Ctx K} {d e : DArr K} (hd : d.part ≠ .broadcast) :
    Calls rep ok 0 0 (d.iadd c e) fun r => r.part = d.part := by
  unfold DArr.iadd
  simp only [Prog.bind_eq]
  refine CallsW.bind' (calls_checkCompat d e) (k2 := 0) (v2 := 0) (fun _ _ => ?_) le_rfl le_rfl
  exact CallsW.liftBind fun v _ => (calls_setAll hd v).imp fun _ h => h.part

theorem calls_sub (hok : SizesOK ok) {c : Ctx K} {d e : DArr K} (hd : d.part ≠ .broadcast) (he : e.part ≠ .broadcast) :
    Calls rep ok 6 0 (d.sub' c e) fun r => r.part = d.part := by
  unfold DArr.sub'
  simp only [Prog.bind_eq]
  exact CallsW.bind' (calls_neg hok he) (k2 := 3) (v2 := 0) (fun _ _ => calls_add hok hd) le_rfl le_rfl

theorem calls_isub (hok : SizesOK ok) {c : Ctx K} {d e : DArr K} (hd : d.part ≠ .broadcast) (he : e.part ≠ .broadcast) :
    Calls rep ok 3 0 (d.isub c e) fun r => r.part = d.part := by
  unfold DArr.isub
  simp only [Prog.bind_eq]
  exact CallsW.bind' (calls_neg hok he) (k2 := 0) (v2 := 0) (fun _ _ => calls_iadd hd) le_rfl le_rfl

theorem calls_ravel (hok : SizesOK ok) {c : Ctx K} {d : DArr K} (hd : d.part ≠ .broadcast) :
    Calls rep ok 3 0 (d.ravel c) fun r => r.part = d.part := by
  unfold DArr.ravel DArr.localShapes allgather
  simp only [Prog.bind_eq]
  refine CallsW.bind' (calls_gather _ _ _ (hok _ _ _ rfl (by simp [Enc.enc]))) (k2 := 2) (v2 := 0) (fun l _ => ?_) (by omega) le_rfl
  refine CallsW.bind' (calls_mkDArr hok ..) (k2 := 0) (v2 := 0) (fun r hr => ?_) le_rfl le_rfl
  exact (calls_setAll (by rw [hr.part]; exact hd) _).imp fun e he => he.part.trans hr.part

theorem calls_toScatter (hok : AllSizesOK ok) (c : Ctx K) (x : NDArray K) :
    Calls rep ok 1 0 (toDist c x .scatter 0 none none) (Made .scatter 0 x.shape (localSplit c x.shape .scatter 0)) := by
  unfold toDist allgather
  simp only [Prog.bind_eq]
  refine CallsW.bind' (calls_mkDArr_none ..) (k2 := 1) (v2 := 0) (fun d hd => ?_) (by omega) le_rfl
  rw [if_neg (by simp [Partition.isBroadcast])]
  refine CallsW.bind' (calls_gather _ _ _ (hok _ _ _ rfl)) (k2 := 0) (v2 := 0) (fun l _ => ?_) le_rfl le_rfl
  exact (calls_setAll (by rw [hd.part]; simp) _).imp fun e he => hd.like he

theorem calls_toDist (hok : AllSizesOK ok) (c : Ctx K) (x : NDArray K) (part : Partition) (hp : part ≠ .broadcast) (axis : Nat)
    (lshapes : Option (List (List Nat))) (mask : Option (List Nat)) :
    Calls rep ok 3 0 (toDist c x part axis lshapes mask) (Made part axis x.shape (madeShape c x.shape part axis lshapes)) := by
  unfold toDist allgather
  simp only [Prog.bind_eq]
  refine CallsW.bind' (calls_mkDArr hok.sizes ..) (k2 := 1) (v2 := 0) (fun d hd => ?_) (by omega) le_rfl
  have hs : ∀ v, Calls rep ok 0 0 (d.setAll c v) (Made part axis x.shape (madeShape c x.shape part axis lshapes)) := fun v =>
    (calls_setAll (by rw [hd.part]; exact hp) _).imp fun e he => hd.like he
  split
  · exact (hs _).mono (by omega) le_rfl fun _ => id
  · exact CallsW.bind' (calls_gather _ _ _ (hok _ _ _ rfl)) (k2 := 0) (v2 := 0) (fun l _ => hs _) le_rfl le_rfl

theorem calls_toScatter' (hok : AllSizesOK ok) (c : Ctx K) (part : Partition) (d : DArr K) :
    Calls rep ok 1 0 (d.toScatter c part) fun _ => True := by
  unfold DArr.toScatter
  split
  · exact (calls_toScatter hok c _).imp fun _ _ => trivial
  · exact .ret trivial

theorem calls_dot (hok : NumbersOK ok) (c : Ctx K) (d e : DArr K) : Calls rep ok 3 1 (d.dot c e) fun _ => True := by
  unfold DArr.dot
  simp only [Prog.bind_eq]
  refine CallsW.bind' (calls_checkCompat d e) (k2 := 3) (v2 := 1) (fun _ _ => ?_) (by omega) le_rfl
  refine CallsW.bind' (calls_toScatter' hok.sizes c _ d) (k2 := 2) (v2 := 1) (fun x _ => ?_) (by omega) le_rfl
  refine CallsW.bind' (calls_toScatter' hok.sizes c _ e) (k2 := 1) (v2 := 1) (fun y _ => ?_) (by omega) le_rfl
  refine CallsW.liftBind fun v _ => ?_
  exact CallsW.bind' (calls_allreduce _ _ _ (hok _ _ _ le_rfl)) (k2 := 0) (v2 := 0) (fun _ _ => .ret trivial) le_rfl le_rfl

theorem calls_asarray (c : Ctx K) (d : DArr K) (hok : ok (.coll .allgather c.world (.arr d.larr))) :
    Calls rep ok 1 d.larr.data.length (d.asarray c) fun _ => True := by
  unfold DArr.asarray allgather
  split
  · exact .ret trivial
  · simp only [Prog.bind_eq]
    exact CallsW.bind' (calls_gather _ _ _ hok) (k2 := 0) (v2 := 0) (fun l _ => CallsW.lift fun _ _ => trivial) le_rfl le_rfl

theorem calls_sendEach {tag : Nat} {m : Msg K} {a : α} {Q : α → Prop} (hQ : Q a) : ∀ (l : List Nat), (∀ q ∈ l, ok (.send q tag m)) →
    Calls rep ok l.length (l.length * m.entries) (sendEach tag m l (.ret a)) Q
  | [], _ => .ret hQ
  | q :: l, h => by
    have := CallsW.send (rep := rep) (h q (by simp)) (calls_sendEach hQ l fun q hq => h q (by simp [hq]))
    rw [List.length_cons, Nat.succ_mul]
    exact this

/-- `__setitem__` of a BROADCAST array: the root sends the value to all other ranks -/
theorem calls_setItem_bcast {c : Ctx K} {d : DArr K} (ix : Index) (v : NDArray K)
    (hs : c.rank = 0 → ∀ q < c.size, ok (.send q bcastTag (.arr v))) (hr : c.rank ≠ 0 → ok (.recv 0 bcastTag)) :
    Calls rep ok (if c.rank = 0 then c.size - 1 else 1) (if c.rank = 0 then (c.size - 1) * v.data.length else 0) (d.setItem c ix v)
      fun e => e.part = d.part ∧ e.gshape = d.gshape := by
  have hrest : ∀ v0, Calls rep ok 0 0 ((Prog.lift (setIndex ix d.larr v0) : P K _).bind fun a => .ret { d with larr := a })
      fun e => e.part = d.part ∧ e.gshape = d.gshape := fun v0 => CallsW.liftBind fun a _ => .ret ⟨rfl, rfl⟩
  unfold DArr.setItem
  by_cases hb : d.part = .broadcast
  · rw [if_pos hb]
    simp only [Prog.bind_eq]
    refine CallsW.bind' (k1 := if c.rank = 0 then c.size - 1 else 1) (v1 := if c.rank = 0 then (c.size - 1) * v.data.length else 0)
      (Q := fun _ => True) ?_ (k2 := 0) (v2 := 0) (fun v0 _ => hrest v0) le_rfl le_rfl
    unfold bcast
    split
    · rename_i h0
      have hl : c.world.tail.length = c.size - 1 := by simp [Ctx.world]
      have := calls_sendEach (rep := rep) (tag := bcastTag) (m := (Enc.enc v : Msg K)) (a := v) (Q := fun _ => True) trivial c.world.tail
        fun q hq => hs h0 q (by have := List.mem_of_mem_tail hq; simpa [Ctx.world] using this)
      rw [hl] at this
      exact this
    · rename_i h0
      refine CallsW.recv (k := 0) (v := 0) (hr h0) fun m => ?_
      split
      · exact .ret trivial
      · exact .throw
  · rw [if_neg hb]
    simp only [Prog.bind_eq]
    exact (hrest v).mono (by omega) (by omega) fun _ => id

theorem length_sliceData_le (s : List Nat) (ax lo hi : Nat) (d : List K) :
    (sliceData s ax lo hi d).length ≤ outer s ax * ((hi - lo) * inner s ax) := by
  unfold sliceData
  rw [List.length_flatMap]
  refine (List.sum_le_card_nsmul _ ((hi - lo) * inner s ax) fun x hx => ?_).trans_eq (by simp)
  obtain ⟨o, _, rfl⟩ := List.mem_map.mp hx
  exact List.length_take_le _ _

theorem getD_le {l : List Nat} {g i m : Nat} (h : ∀ x ∈ l, min x m ≤ g) : min ((l ++ [0]).getD i 0) m ≤ g := by
  rw [List.getD_eq_getElem?_getD]
  cases hi : (l ++ [0])[i]? with
  | none => simp
  | some x =>
    have := List.mem_of_getElem? hi
    rcases List.mem_append.mp this with hx | hx
    · simpa using h x hx
    · have : x = 0 := by simpa using hx
      simp [this]

theorem slice_msg_entries {a : NDArray K} {ax lo hi g : Nat} (h : hi - lo ≤ g) : (a.slice ax lo hi).data.length ≤ g * rowSize a.shape ax := by
  refine (length_sliceData_le _ _ _ _ _).trans ?_
  unfold rowSize
  calc outer a.shape ax * ((hi - lo) * inner a.shape ax) ≤ outer a.shape ax * (g * inner a.shape ax) :=
        Nat.mul_le_mul_left _ (Nat.mul_le_mul_right _ h)
    _ = g * (outer a.shape ax * inner a.shape ax) := by ring

/-- `add_ghost_cells`, if the other ranks announce at most `g` cells or the local array has at most `g` slices -/
theorem calls_ghost (c : Ctx K) (d : DArr K) (front back : Option Nat) (g : Nat)
    (hs : ∀ x, front = some x ∨ back = some x → ok (.coll .allgather c.world (.nat x)))
    (hrep : ∀ x, rep .allgather c.world (.nat x) → min x (len d.lshape d.axis) ≤ g)
    (hn : ∀ q t, (q = c.rank + 1 ∨ q + 1 = c.rank) → ok (.recv q t))
    (hm : ∀ q t a, (q = c.rank + 1 ∨ q + 1 = c.rank) → a.data.length ≤ g * rowSize d.larr.shape d.axis → ok (.send q t (.arr a))) :
    Calls rep ok 6 (2 * (g * rowSize d.larr.shape d.axis)) (d.addGhostCells c front back) fun _ => True := by
  set w := g * rowSize d.larr.shape d.axis with hw
  have hrecv : ∀ q t, (q = c.rank + 1 ∨ q + 1 = c.rank) → Calls rep ok 1 0 (recvFrom (K := K) (α := NDArray K) q t) fun _ => True := by
    intro q t hq
    refine CallsW.recv (k := 0) (v := 0) (hn q t hq) fun m => ?_
    split
    · exact .ret trivial
    · exact .throw
  have hsend : ∀ q t (a : NDArray K), (q = c.rank + 1 ∨ q + 1 = c.rank) → a.data.length ≤ w → Calls rep ok 1 w (sendTo (K := K) q t a) fun _ => True := by
    intro q t a hq ha
    exact (CallsW.send (rep := rep) (k := 0) (v := 0) (m := .arr a) (hm q t a hq ha) (.ret trivial)).mono le_rfl (by simpa [Msg.entries] using ha)
      fun _ => id
  have hfront : ∀ f g0, front = some f → Calls rep ok 3 w (d.ghostFront c f g0) fun _ => True := by
    intro f g0 hf
    unfold DArr.ghostFront allgather
    simp only [Prog.bind_eq]
    refine CallsW.bind' (calls_gatherNat _ _ _ (hs f (.inl hf))) (k2 := 2) (v2 := w) (fun tot ht => ?_) (by omega) (by omega)
    have hcf : min ((tot ++ [0]).getD (c.rank + 1) 0) (len d.lshape d.axis) ≤ g := getD_le fun x hx => hrep x (ht x hx)
    have htail : ∀ g1 : NDArray K, Calls rep ok 1 w (if c.rank ≠ c.size - 1 then
        if (tot ++ [0]).getD (c.rank + 1) 0 > len d.lshape d.axis then .throw .value
        else (sendTo (c.rank + 1) 1 (d.larr.slice d.axis (len d.lshape d.axis - (tot ++ [0]).getD (c.rank + 1) 0) (len d.lshape d.axis))).bind
          fun _ => .ret g1
        else .ret g1) fun _ => True := by
      intro g1
      split
      · split
        · exact .throw
        · exact CallsW.bind' (hsend _ _ _ (.inl rfl) (slice_msg_entries (by omega))) (k2 := 0) (v2 := 0) (fun _ _ => .ret trivial) le_rfl le_rfl
      · exact .ret trivial
    split
    · refine CallsW.bind' (hrecv _ _ (.inr (by omega))) (k2 := 1) (v2 := w) (fun m _ => ?_) le_rfl (by omega)
      exact CallsW.liftBind fun g1 _ => htail g1
    · exact (htail g0).mono (by omega) le_rfl fun _ => id
  have hback : ∀ b g0, back = some b → Calls rep ok 3 w (d.ghostBack c b g0) fun _ => True := by
    intro b g0 hb
    unfold DArr.ghostBack allgather
    simp only [Prog.bind_eq]
    refine CallsW.bind' (calls_gatherNat _ _ _ (hs b (.inr hb))) (k2 := 2) (v2 := w) (fun tot ht => ?_) (by omega) (by omega)
    have hcb : min (if c.rank = 0 then 0 else (tot ++ [0]).getD (c.rank - 1) 0) (len d.lshape d.axis) ≤ g := by
      split
      · omega
      · exact getD_le fun x hx => hrep x (ht x hx)
    have hr : Calls rep ok 1 0 (if c.rank ≠ c.size - 1 then (recvFrom (K := K) (α := NDArray K) (c.rank + 1) 0).bind fun m =>
        Prog.lift (concat d.axis [g0, m]) else .ret g0) fun _ => True := by
      split
      · exact CallsW.bind' (hrecv _ _ (.inl rfl)) (k2 := 0) (v2 := 0) (fun m _ => CallsW.lift fun _ _ => trivial) le_rfl le_rfl
      · exact .ret trivial
    generalize (if c.rank = 0 then 0 else (tot ++ [0]).getD (c.rank - 1) 0) = cb at hcb ⊢
    split
    · split
      · exact .throw
      · exact CallsW.bind' (hsend _ _ _ (.inr (by omega)) (slice_msg_entries (by omega))) (fun _ _ => hr) (by omega) (by omega)
    · exact hr.mono (by omega) (by omega) fun _ => id
  unfold DArr.addGhostCells
  simp only [Prog.bind_eq]
  have htail : ∀ g0 : NDArray K, Calls rep ok 3 w (match back with
      | some b => d.ghostBack c b g0
      | none => .ret g0) fun _ => True := by
    intro g0
    split
    · exact hback _ _ rfl
    · exact .ret trivial
  split
  · exact CallsW.bind' (hfront _ _ rfl) (fun g0 _ => htail g0) le_rfl (by omega)
  · exact (htail _).mono (by omega) (by omega) fun _ => id

end

/-! ### norm -/

section
variable [RCLike K]

theorem reduceAxis_flat {f : List K → Except Err FNum} {a : NDArray K} {b : NDArray FNum}
    (h : reduceAxis f 0 a.flatten = .ok b) : b.data.length = 1 := by
  unfold reduceAxis at h
  simp only [NDArray.flatten, outer, inner, List.take_zero, List.prod_nil, List.drop_succ_cons, List.drop_nil, Nat.mul_one, List.range_one,
    List.mapM_cons, List.mapM_nil] at h
  revert h
  cases f (column (len [a.data.length] 0) 1 a.data (0 / 1) (0 % 1)) with
  | ok x => intro h; obtain rfl := Except.ok.inj h; rfl
  | error e => intro h; cases h

theorem calls_norm (hok : NumbersOK ok) (c : Ctx K) (d : DArr K) (o : NormOrd) : Calls rep ok 2 1 (d.norm c o none) fun _ => True := by
  unfold DArr.norm
  simp only [Prog.bind_eq]
  refine CallsW.bind' (calls_toScatter' hok.sizes c _ d) (k2 := 1) (v2 := 1) (fun x _ => ?_) le_rfl le_rfl
  have hred : ∀ (op : RArr → RArr → Except Err RArr) (f : List K → Except Err FNum) (g : RArr → P K (NDArray FNum)),
      (∀ s, Calls rep ok 0 0 (g s) fun _ => True) →
      Calls rep ok 1 1 ((Prog.lift (reduceAxis f 0 x.larr.flatten) : P K _).bind fun b => (allreduce x.sub op (RArr.mk b)).bind g) fun _ => True := by
    intro op f g hg
    refine CallsW.liftBind fun b hb => ?_
    have h1 : (Enc.enc (K := K) (RArr.mk b)).entries = 1 := reduceAxis_flat hb
    have := calls_allreduce (rep := rep) x.sub op (RArr.mk b) (hok _ _ _ h1.le)
    rw [h1] at this
    exact CallsW.bind' this (fun s _ => hg s) le_rfl le_rfl
  unfold computeVectorNorm
  dsimp only
  simp only [Prog.bind_eq]
  split
  · exact .throw
  · exact .throw
  · exact .throw
  · split
    · exact hred _ _ _ fun s => .ret trivial
    · exact hred _ _ _ fun s => .ret trivial
  · exact hred _ _ _ fun s => .ret trivial
  · exact hred _ _ _ fun s => .ret trivial

end

end Verif

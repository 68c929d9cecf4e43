/- Methods of solver objects as programs on the memory that return the attributes. -/
import Verif.Model.SolverObject
import Verif.Props.C62

set_option linter.unusedSectionVars false

namespace Verif
open NDArray

/-! ### Laws of `HP` -/

section
variable {K α β γ : Type}

theorem HP.ret_bind (a : α) (k : α → HP K β) : (HP.ret a >>= k) = k a := rfl

theorem HP.throw_bind (e : Err) (k : α → HP K β) : (HP.throw e >>= k) = HP.throw e := rfl

theorem HP.bind_assoc (m : HP K α) (k : α → HP K β) (l : β → HP K γ) : ((m >>= k) >>= l) = (m >>= fun a => k a >>= l) := by
  funext h
  show ((m h).bind _).bind _ = (m h).bind _
  rw [Prog.bind_assoc]
  congr 1
  funext p
  rcases p with ⟨o, h'⟩
  cases o <;> rfl

theorem HP.bind_ret (m : HP K α) : (m >>= HP.ret) = m := by
  funext h
  show (m h).bind _ = m h
  conv_rhs => rw [← Prog.bind_ret (m h)]
  congr 1
  funext p
  rcases p with ⟨o, h'⟩
  cases o <;> rfl

theorem HP.bind_congr {m : HP K α} {k l : α → HP K β} (h : ∀ a, k a = l a) : (m >>= k) = (m >>= l) := by rw [funext h]

end

/-- what a method does, seen from outside: the result with the attributes if there is no exception -/
def OM.seen {σ K α : Type} (m : OM σ K α) (o : σ) : HP K (α × σ) := fun h => (m o h).bind fun p => .ret (match p.1 with
  | .ok a => .ok (a, p.2.1)
  | .error e => .error e, p.2.2)

namespace OM
variable {σ K α β : Type} {o : σ}

theorem seen_ret (a : α) : (OM.ret a : OM σ K α).seen o = HP.ret (a, o) := rfl
theorem seen_throw (e : Err) : (OM.throw e : OM σ K α).seen o = HP.throw e := rfl

theorem seen_bind (m : OM σ K α) (k : α → OM σ K β) : (m >>= k).seen o = m.seen o >>= fun p => (k p.1).seen p.2 := by
  funext h
  show ((m o h).bind _).bind _ = ((m o h).bind _).bind _
  rw [Prog.bind_assoc, Prog.bind_assoc]
  congr 1
  funext p
  rcases p with ⟨r, o', h'⟩
  cases r <;> rfl

theorem seen_lift (m : HP K α) : (OM.lift m : OM σ K α).seen o = m >>= fun a => HP.ret (a, o) := by
  funext h
  show ((m h).bind _).bind _ = (m h).bind _
  rw [Prog.bind_assoc]
  congr 1
  funext p
  rcases p with ⟨r, h'⟩
  cases r <;> rfl

theorem seen_set (f : σ → σ) : (OM.set f : OM σ K Unit).seen o = HP.ret ((), f o) := rfl

/-- the outcome of reading an attribute -/
def read {α : Type} (o : σ) : Option α → HP K (α × σ)
  | some a => HP.ret (a, o)
  | none => HP.throw .attribute

theorem seen_get (f : σ → Option α) : (OM.get f : OM σ K α).seen o = read o (f o) := by
  funext h'
  unfold OM.seen OM.get
  cases f o <;> rfl

/-- the outcome of looking up `append` -/
def readList (o : σ) : Option Costs → HP K (List ℝ × σ)
  | some (.list l) => HP.ret (l, o)
  | _ => HP.throw .attribute

theorem seen_appendable (f : σ → Option Costs) : (OM.appendable f : OM σ K (List ℝ)).seen o = readList o (f o) := by
  unfold OM.appendable
  rw [seen_bind, seen_get]
  rcases f o with _ | (l | l) <;> rfl

/-- the outcome of indexing -/
def readItem {α : Type} (o : σ) : Option α → HP K (α × σ)
  | some a => HP.ret (a, o)
  | none => HP.throw .index

theorem seen_item (l : List α) (i : Nat) : (OM.item l i : OM σ K α).seen o = readItem o l[i]? := by
  unfold OM.item
  cases l[i]? <;> rfl

end OM

namespace CGObj
variable {K : Type} [RCLike K] {c : Ctx K} {op : HXOp K} {cb : XRef → HP K Unit}

/-- the attributes in state `s`, while `cost` is `l` -/
def of (s : HCG) (l : Costs) : CGObj := ⟨some s.y, some s.niter, some s.tol, some s.r, some s.c, some s.kold, some l, some s.iiter⟩

theorem setup_seen (o : CGObj) (y x0 : XRef) (niter : Option Int) (tol : ℝ) :
    (setup c op y x0 niter tol).seen o = HCG.setup c op y x0 niter tol >>= fun p => HP.ret (p.2, of p.1 (.list p.1.cost)) := by
  unfold setup HCG.setup
  simp only [OM.seen_bind, OM.seen_set, OM.seen_lift, HP.ret_bind, HP.bind_assoc, OM.seen_get, OM.read, OM.seen_appendable, OM.readList, OM.seen_ret]
  rfl

/-- a step with the list of costs -/
theorem step_seen (s : HCG) (x : XRef) : (step c op x).seen (of s (.list s.cost)) = HCG.step c op s x >>= fun p => HP.ret (p.2, of p.1 (.list p.1.cost)) := by
  unfold step HCG.step
  simp only [of, OM.seen_bind, OM.seen_set, OM.seen_lift, HP.ret_bind, HP.bind_assoc, OM.seen_get, OM.read, OM.seen_appendable, OM.readList, OM.seen_ret]

/-- a step after `finalize` -/
theorem step_seen_array (s : HCG) (l : List ℝ) (x : XRef) : (step c op x).seen (of s (.array l)) = HCG.step c op s x >>= fun _ => HP.throw .attribute := by
  unfold step HCG.step
  simp only [of, OM.seen_bind, OM.seen_set, OM.seen_lift, HP.ret_bind, HP.bind_assoc, OM.seen_get, OM.read, OM.seen_appendable, OM.readList, HP.throw_bind]

theorem loop_seen (m : Int) : ∀ (f : Nat) (s : HCG) (x : XRef) (tr : List (XArr K)),
    (loop c op cb m f x tr).seen (of s (.list s.cost)) = HCG.loop c op cb m f s x tr >>= fun q => HP.ret ((q.2.1, q.2.2), of q.1 (.list q.1.cost)) := by
  intro f
  induction f with
  | zero => intro s x tr; rfl
  | succ f ih =>
    intro s x tr
    unfold loop HCG.loop
    simp only [OM.seen_bind, OM.seen_get, of, OM.read, HP.ret_bind]
    split_ifs with hc
    · rw [OM.seen_bind]
      erw [step_seen]
      simp only [OM.seen_bind, OM.seen_lift, HP.ret_bind, HP.bind_assoc, ih]
      rfl
    · rfl

theorem loop_seen_array (m : Int) (f : Nat) (s : HCG) (l : List ℝ) (x : XRef) (tr : List (XArr K)) :
    (loop c op cb m (f + 1) x tr).seen (of s (.array l)) =
      if (s.iiter : Int) < m ∧ s.kold > s.tol then HCG.step c op s x >>= fun _ => HP.throw .attribute else HP.ret ((x, tr), of s (.array l)) := by
  unfold loop
  simp only [OM.seen_bind, OM.seen_get, of, OM.read, HP.ret_bind]
  split_ifs with hc
  · rw [OM.seen_bind]
    erw [step_seen_array]
    simp only [HP.bind_assoc, HP.throw_bind]
  · rfl

theorem run_seen (s : HCG) (x : XRef) (niter : Option Int) :
    (run c op cb x niter).seen (of s (.list s.cost)) = HCG.run c op cb s x niter >>= fun q => HP.ret ((q.2.1, q.2.2), of q.1 (.list q.1.cost)) := by
  unfold run HCG.run
  rcases niter with _ | m
  · rcases h : s.niter with _ | m
    · simp only [OM.seen_bind, OM.seen_get, of, OM.read, HP.ret_bind, h]; rfl
    · simp only [OM.seen_bind, OM.seen_get, of, OM.read, HP.ret_bind, h]
      have := loop_seen (c := c) (op := op) (cb := cb) m (m - s.iiter).toNat s x []
      rw [of, h] at this
      exact this
  · simp only [OM.seen_bind, OM.seen_ret, OM.seen_get, of, OM.read, HP.ret_bind]
    exact loop_seen (c := c) (op := op) (cb := cb) m (m - s.iiter).toNat s x []

theorem run_seen_array (s : HCG) (l : List ℝ) (x : XRef) (m : Int) :
    (run c op cb x (some m)).seen (of s (.array l)) =
      if (s.iiter : Int) < m ∧ s.kold > s.tol then HCG.step c op s x >>= fun _ => HP.throw .attribute else HP.ret ((x, []), of s (.array l)) := by
  unfold run
  simp only [OM.seen_bind, OM.seen_ret, OM.seen_get, of, OM.read, HP.ret_bind]
  rcases h : (m - s.iiter).toNat with _ | f
  · rw [if_neg fun hc => by omega]; rfl
  · exact loop_seen_array (c := c) (op := op) (cb := cb) m f s l x []

theorem finalize_seen (s : HCG) (l : Costs) : (finalize (K := K)).seen (of s l) = HP.ret ((), of s (.array l.vals)) := rfl

theorem solve_seen (o : CGObj) (y x0 : XRef) (niter : Option Int) (tol : ℝ) :
    (solve c op cb y x0 niter tol).seen o = HCG.setup c op y x0 niter tol >>= fun p => HCG.run c op cb p.1 p.2 niter >>= fun q =>
      HP.ret ((q.2.1, q.1.iiter, q.1.cost, q.2.2), of q.1 (.array q.1.cost)) := by
  unfold solve
  simp only [OM.seen_bind, setup_seen, HP.bind_assoc, HP.ret_bind, run_seen, finalize_seen]
  rfl

end CGObj

/-- `CGLS.step` up to the assignment to `iiter`: the new search direction with its image, the new gradient norm and the updated residual -/
noncomputable def HCGLS.update {K : Type} [RCLike K] (c : Ctx K) (op : HXOp K) (st : HCGLS) (x : XRef) : HP K (HCGLS × XRef) := do
  let qc ← HX.conj c st.q
  let qq ← HX.dot c st.q qc
  let ccj ← HX.conj c st.c
  let cc ← HX.dot c st.c ccj
  let av ← HP.lift (npDiv (st.kold : K) (qq + (st.damp : K) * cc))
  let ac ← HX.fmul c ‖av‖ st.c
  let x ← HX.iadd c x ac
  let aq ← HX.fmul c ‖av‖ st.q
  let s ← HX.isub c st.s aq
  let dx ← HX.fmul c st.damp x
  let rs ← op.rmv c s
  let r ← HX.sub c rs dx
  let k ← HX.absDot c r r
  let b ← HP.lift (pyDiv k st.kold)
  let bc ← HX.fmul c b st.c
  let cn ← HX.add c r bc
  let q ← op.mv c cn
  HP.ret ({ st with s := s, c := cn, q := q, kold := k, iiter := st.iiter + 1 }, x)

namespace CGLSObj
variable {K : Type} [RCLike K] {c : Ctx K} {op : HXOp K} {cb : XRef → HP K Unit}

/-- the attributes in state `s`, while `cost` is `l`; the last three are set by `finalize` -/
def of (s : HCGLS) (l : Costs) (e : Option Nat × Option ℝ × Option FNum) : CGLSObj :=
  ⟨some s.y, some s.damp, some s.niter, some s.tol, some s.s, some s.c, some s.q, some s.kold, some l, some s.cost1, some s.iiter, e.1, e.2.1, e.2.2⟩

variable {e : Option Nat × Option ℝ × Option FNum}

theorem step_split (s : HCGLS) (x : XRef) : HCGLS.step c op s x = HCGLS.update c op s x >>= fun p => HX.norm c p.1.s >>= fun v => HP.lift v.toFloat >>= fun ck => HX.absDot c p.2 p.2 >>= fun xx =>
    HP.ret ({ p.1 with cost := p.1.cost ++ [ck], cost1 := p.1.cost1 ++ [FNum.sqrt (ck ^ 2 + p.1.damp * xx)] }, p.2) := by
  unfold HCGLS.step HCGLS.update
  simp only [HP.bind_assoc, HP.ret_bind]

theorem setup_seen (o : CGLSObj) (y x0 : XRef) (niter : Option Int) (damp tol : ℝ) :
    (setup c op y x0 niter damp tol).seen o =
      HCGLS.setup c op y x0 niter damp tol >>= fun p => HP.ret (p.2, of p.1 (.list p.1.cost) (o.istop, o.r1norm, o.r2norm)) := by
  unfold setup HCGLS.setup
  simp only [OM.seen_bind, OM.seen_set, OM.seen_lift, HP.ret_bind, HP.bind_assoc, OM.seen_get, OM.read, OM.seen_appendable, OM.readList, OM.seen_item, OM.seen_ret]
  rfl

theorem update_seen (s : HCGLS) (l : Costs) (x : XRef) : (update c op x).seen (of s l e) = HCGLS.update c op s x >>= fun p => HP.ret (p.2, of p.1 l e) := by
  unfold update HCGLS.update
  simp only [of, OM.seen_bind, OM.seen_set, OM.seen_lift, HP.ret_bind, HP.bind_assoc, OM.seen_get, OM.read, OM.seen_ret]

theorem record_seen {s : HCGLS} {l : List ℝ} (hl : l.length = s.iiter) (x : XRef) : (record (K := K) c x).seen (of s (.list l) e) =
    HX.norm c s.s >>= fun v => HP.lift v.toFloat >>= fun ck => HX.absDot c x x >>= fun xx =>
      HP.ret (x, of { s with cost1 := s.cost1 ++ [FNum.sqrt (ck ^ 2 + s.damp * xx)] } (.list (l ++ [ck])) e) := by
  unfold record
  simp only [of, OM.seen_bind, OM.seen_set, OM.seen_lift, HP.ret_bind, HP.bind_assoc, OM.seen_get, OM.read, OM.seen_appendable, OM.readList, OM.seen_item, Costs.vals, OM.seen_ret]
  have : ∀ v : ℝ, (l ++ [v])[s.iiter]? = some v := fun v => by rw [← hl]; simp
  simp only [this, OM.readItem, HP.ret_bind]

theorem update_yields (s : HCGLS) (x : XRef) : HYields (fun p => p.1.iiter = s.iiter + 1 ∧ p.1.cost = s.cost) (HCGLS.update c op s x) := by
  unfold HCGLS.update
  repeat refine HYields.after fun _ => ?_
  exact .ret ⟨rfl, rfl⟩

theorem step_yields (s : HCGLS) (x : XRef) (hl : s.cost.length = s.iiter + 1) : HYields (fun p => p.1.cost.length = p.1.iiter + 1) (HCGLS.step c op s x) := by
  unfold HCGLS.step
  repeat refine HYields.after fun _ => ?_
  exact .ret (by simp [hl])

theorem setup_yields (y x0 : XRef) (niter : Option Int) (damp tol : ℝ) : HYields (fun p => p.1.cost.length = p.1.iiter + 1) (HCGLS.setup c op y x0 niter damp tol) := by
  unfold HCGLS.setup
  repeat refine HYields.after fun _ => ?_
  exact .ret rfl

/-- a step with the list of costs -/
theorem step_seen {s : HCGLS} (hl : s.cost.length = s.iiter + 1) (x : XRef) :
    (step c op x).seen (of s (.list s.cost) e) = HCGLS.step c op s x >>= fun p => HP.ret (p.2, of p.1 (.list p.1.cost) e) := by
  unfold step
  rw [OM.seen_bind, update_seen, step_split]
  simp only [HP.bind_assoc, HP.ret_bind]
  refine HYields.bind_congr (update_yields s x) fun p hp => ?_
  rw [record_seen (by omega)]
  simp only [of, hp.2]

/-- a step after `finalize` -/
theorem step_seen_array (s : HCGLS) (l : List ℝ) (x : XRef) : (step c op x).seen (of s (.array l) e) = HCGLS.update c op s x >>= fun _ => HP.throw .attribute := by
  unfold step
  rw [OM.seen_bind, update_seen]
  simp only [HP.bind_assoc, HP.ret_bind]
  refine HP.bind_congr fun p => ?_
  unfold record
  rw [OM.seen_bind, OM.seen_appendable]
  rfl

theorem loop_seen (m : Int) : ∀ (f : Nat) (s : HCGLS) (x : XRef) (tr : List (XArr K)), s.cost.length = s.iiter + 1 →
    (loop c op cb m f x tr).seen (of s (.list s.cost) e) = HCGLS.loop c op cb m f s x tr >>= fun q => HP.ret ((q.2.1, q.2.2), of q.1 (.list q.1.cost) e) := by
  intro f
  induction f with
  | zero => intro s x tr _; rfl
  | succ f ih =>
    intro s x tr hl
    unfold loop HCGLS.loop
    have hst := step_seen (c := c) (op := op) (e := e) hl x
    simp only [OM.seen_bind, OM.seen_get, of, OM.read, HP.ret_bind] at hst ⊢
    split_ifs with hc
    · rw [OM.seen_bind, hst]
      simp only [HP.ret_bind, HP.bind_assoc, OM.seen_bind, OM.seen_lift]
      refine HYields.bind_congr (step_yields s x hl) fun p hp => ?_
      refine HP.bind_congr fun v => HP.bind_congr fun _ => ?_
      exact ih p.1 p.2 (tr ++ [v]) hp
    · rfl

theorem loop_seen_array (m : Int) (f : Nat) (s : HCGLS) (l : List ℝ) (x : XRef) (tr : List (XArr K)) :
    (loop c op cb m (f + 1) x tr).seen (of s (.array l) e) =
      if (s.iiter : Int) < m ∧ s.kold > s.tol then HCGLS.update c op s x >>= fun _ => HP.throw .attribute else HP.ret ((x, tr), of s (.array l) e) := by
  have hst := step_seen_array (c := c) (op := op) (e := e) s l x
  unfold loop
  simp only [OM.seen_bind, OM.seen_get, of, OM.read, HP.ret_bind] at hst ⊢
  split_ifs with hc
  · rw [OM.seen_bind, hst]
    simp only [HP.bind_assoc, HP.throw_bind]
  · rfl

theorem run_seen {s : HCGLS} (hl : s.cost.length = s.iiter + 1) (x : XRef) (niter : Option Int) :
    (run c op cb x niter).seen (of s (.list s.cost) e) = HCGLS.run c op cb s x niter >>= fun q => HP.ret ((q.2.1, q.2.2), of q.1 (.list q.1.cost) e) := by
  unfold run HCGLS.run
  rcases niter with _ | m
  · rcases h : s.niter with _ | m
    · simp only [OM.seen_bind, OM.seen_get, of, OM.read, HP.ret_bind, h]; rfl
    · simp only [OM.seen_bind, OM.seen_get, of, OM.read, HP.ret_bind, h]
      have := loop_seen (c := c) (op := op) (cb := cb) (e := e) m (m - s.iiter).toNat s x [] hl
      rw [of, h] at this
      exact this
  · simp only [OM.seen_bind, OM.seen_ret, OM.seen_get, of, OM.read, HP.ret_bind]
    exact loop_seen (c := c) (op := op) (cb := cb) m (m - s.iiter).toNat s x [] hl

theorem run_seen_array (s : HCGLS) (l : List ℝ) (x : XRef) (m : Int) :
    (run c op cb x (some m)).seen (of s (.array l) e) =
      if (s.iiter : Int) < m ∧ s.kold > s.tol then HCGLS.update c op s x >>= fun _ => HP.throw .attribute else HP.ret ((x, []), of s (.array l) e) := by
  unfold run
  simp only [OM.seen_bind, OM.seen_ret, OM.seen_get, of, OM.read, HP.ret_bind]
  rcases h : (m - s.iiter).toNat with _ | f
  · rw [if_neg fun hc => by omega]; rfl
  · exact loop_seen_array (c := c) (op := op) (cb := cb) m f s l x []

/-- the attributes set by `finalize` -/
noncomputable def ends (r : HCGLS.Result K) : Option Nat × Option ℝ × Option FNum := (some r.istop, some r.r1norm, some r.r2norm)

theorem solve_seen (o : CGLSObj) (y x0 : XRef) (niter : Option Int) (damp tol : ℝ) :
    (solve c op cb y x0 niter damp tol).seen o = HCGLS.setup c op y x0 niter damp tol >>= fun p => HCGLS.run c op cb p.1 p.2 niter >>= fun q =>
      HCGLS.finalize q.1 q.2.1 q.2.2 >>= fun r => HP.ret (r, of q.1 (.array q.1.cost) (ends r)) := by
  unfold solve
  simp only [OM.seen_bind, setup_seen, HP.bind_assoc, HP.ret_bind]
  refine HYields.bind_congr (setup_yields y x0 niter damp tol) fun p hp => ?_
  rw [run_seen hp]
  simp only [HP.bind_assoc, HP.ret_bind]
  refine HP.bind_congr fun q => ?_
  unfold finalize HCGLS.finalize
  simp only [of, OM.seen_bind, OM.seen_set, HP.ret_bind, HP.bind_assoc, OM.seen_get, OM.read, OM.seen_item, OM.seen_ret]
  rcases q.1.cost1[q.1.iiter]? with _ | v
  · rfl
  · rfl

end CGLSObj
end Verif

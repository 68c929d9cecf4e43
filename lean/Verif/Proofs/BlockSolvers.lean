/-
  The solvers with arbitrary arithmetic compute what the serial algorithms of Spec/BlockSolvers.lean compute.
-/
import Verif.Spec.BlockSolvers
import Verif.Proofs.FloatArray
import Verif.Proofs.Reduce

namespace Verif
open NDArray

variable {K : Type} (A : Arith K) {n : Nat} {J : Nat → Nat → K} {L L' : Layout} {x y : SVec K}

/-! ### parts of vectors -/

theorem a_piece_map {α β : Type} (f : α → β) (d : List α) (r : Nat) : L.piece (d.map f) r = (L.piece d r).map f := by
  unfold Layout.piece
  split_ifs
  · rfl
  · unfold sliceData
    rw [List.map_flatMap]
    congr 1
    funext o
    rw [chunk_map, List.map_take, List.map_drop]

theorem a_piece_zip {α β γ : Type} (f : α → β → γ) {d : List α} {e : List β} (h : d.length = e.length) (r : Nat) :
    L.piece (List.zipWith f d e) r = List.zipWith f (L.piece d r) (L.piece e r) := by
  unfold Layout.piece
  split_ifs
  · rfl
  · unfold sliceData
    rw [zipWith_flatMap]
    · congr 1
      funext o
      rw [chunk_zipWith, List.drop_zipWith, List.take_zipWith]
    · intro o _
      simp [chunk, h]

theorem a_sync_piece (w : List K) : L.sync (L.piece w) = L.piece w := by
  unfold Layout.sync
  split_ifs with h
  · funext r
    simp [Layout.piece, h, Partition.isBroadcast]
  · rfl

theorem a_fam_congr {dt : DType} {a b : Nat → List K} {r : Nat} (h : a r = b r) : L.fam n dt a r = L.fam n dt b r := by simp [Layout.fam, h]

/-- assigning a part of a vector -/
theorem b_set {dt dt' : DType} {a : Nat → List K} {w : List K} (hL : L.WF n) (ha : ∀ r < n, (a r).length = (L.lshape r).prod) (hw : w.length = L.gshape.prod) :
    Runs n (fun r => A.setAll (env n J r) (L.fam n dt a r) ⟨L.lshape r, dt', L.piece w r⟩) (fun r => .ok (L.fam n dt (L.piece (w.map (A.cast dt))) r)) := by
  refine (runs_aSetAll A (v := fun r => ⟨L.lshape r, dt', L.piece w r⟩) ha (fun _ _ => rfl) fun r hr => a_length_piece hL hw hr).congr (fun _ _ => rfl) fun r _ => ?_
  congr 1
  refine a_fam_congr ?_
  rw [a_piece_map]
  show ((L.sync (L.piece w)) r).map _ = _
  rw [a_sync_piece]

theorem b_new {dt dt' : DType} {a : Nat → List K} {w : List K} (hL : L.WF n) (hm : L.mask = none) (hw : w.length = L.gshape.prod) :
    Runs n (fun r => (A.like (env n J r) (L.fam n dt a r)).bind fun d => A.setAll (env n J r) d ⟨L.lshape r, dt', L.piece w r⟩)
      (fun r => .ok (L.fam n dt (L.piece (w.map (A.cast dt))) r)) :=
  Runs.bind_ok (a_like A hL hm) (b_set A hL (fun r _ => length_aJunk A r) hw)

/-- the vector as the objects of class DistributedArray -/
def SVec.dpart (L : Layout) (n : Nat) (x : SVec K) (r : Nat) : DArr K := L.fam n x.dt (L.piece x.v) r

theorem b_map {f : K → K} {t : DType → DType} (hL : L.WF n) (hm : L.mask = none) (hx : x.v.length = L.gshape.prod) :
    Runs n (fun r => (A.like (env n J r) (x.dpart L n r)).bind fun d => A.setAll (env n J r) d ⟨L.lshape r, t x.dt, (L.piece x.v r).map f⟩)
      (fun r => .ok ((x.map A f).dpart L n r)) := by
  refine (b_new A (J := J) (dt := x.dt) (dt' := t x.dt) (a := L.piece x.v) (w := x.v.map f) hL hm (by simpa using hx)).congr (fun r _ => ?_) fun r _ => ?_
  · rw [a_piece_map]; rfl
  · simp [SVec.dpart, SVec.map, List.map_map]; rfl

theorem b_neg (hL : L.WF n) (hm : L.mask = none) (hx : x.v.length = L.gshape.prod) :
    Runs n (fun r => A.dneg (env n J r) (x.dpart L n r)) (fun r => .ok ((x.map A A.neg).dpart L n r)) := b_map A (t := id) hL hm hx

theorem b_conj (hL : L.WF n) (hm : L.mask = none) (hx : x.v.length = L.gshape.prod) :
    Runs n (fun r => A.dconj (env n J r) (x.dpart L n r)) (fun r => .ok ((x.conj A).dpart L n r)) := b_map A (t := id) hL hm hx

theorem b_scale (a : K) (hL : L.WF n) (hm : L.mask = none) (hx : x.v.length = L.gshape.prod) :
    Runs n (fun r => A.dsmul (env n J r) (x.dpart L n r) .real a) (fun r => .ok ((x.scale A a).dpart L n r)) := b_map A (f := (A.mul · a)) (t := (·.promote .real)) hL hm hx

theorem b_copy (hL : L.WF n) (hm : L.mask = none) (hx : x.v.length = L.gshape.prod) :
    Runs n (fun r => A.dcopy (env n J r) (x.dpart L n r)) (fun r => .ok ((x.copy A).dpart L n r)) := by
  refine (b_map A (f := id) (t := id) (J := J) hL hm hx).congr (fun r _ => ?_) fun _ _ => rfl
  simp [Arith.dcopy, Prog.bind_eq]
  rfl

theorem SVec.zip_eq (f : K → K → K) : x.zip A f y = ⟨x.dt, (List.zipWith f x.v y.v).map (A.cast x.dt)⟩ := by
  unfold SVec.zip
  rw [List.map_zipWith]

theorem b_add (hL : L.WF n) (hm : L.mask = none) (hx : x.v.length = L.gshape.prod) (hy : y.v.length = L.gshape.prod) :
    Runs n (fun r => A.dadd (env n J r) (x.dpart L n r) (y.dpart L n r)) (fun r => .ok ((x.add A y).dpart L n r)) := by
  unfold Arith.dadd SVec.dpart
  simp only [Prog.bind_eq, a_checkCompat, a_zip, Prog.ret_bind, Prog.lift_ok]
  refine (b_new A (J := J) (dt := x.dt) (dt' := x.dt.promote y.dt) (a := L.piece x.v) (w := List.zipWith A.add x.v y.v) hL hm (by simp [hx, hy])).congr (fun r _ => ?_) fun r _ => ?_
  · rw [a_piece_zip _ (hx.trans hy.symm)]
  · rw [SVec.add, SVec.zip_eq]

theorem b_iadd (hL : L.WF n) (hx : x.v.length = L.gshape.prod) (hy : y.v.length = L.gshape.prod) :
    Runs n (fun r => A.diadd (env n J r) (x.dpart L n r) (y.dpart L n r)) (fun r => .ok ((x.add A y).dpart L n r)) := by
  unfold Arith.diadd SVec.dpart
  simp only [Prog.bind_eq, a_checkCompat, a_zip, Prog.ret_bind, Prog.lift_ok]
  refine (b_set A (J := J) (dt := x.dt) (dt' := x.dt.promote y.dt) (a := L.piece x.v) (w := List.zipWith A.add x.v y.v) hL (fun r hr => a_length_piece hL hx hr) (by simp [hx, hy])).congr (fun r _ => ?_) fun r _ => ?_
  · rw [a_piece_zip _ (hx.trans hy.symm)]
  · rw [SVec.add, SVec.zip_eq]

theorem SVec.length_map (f : K → K) : (x.map A f).v.length = x.v.length := by simp [SVec.map]

theorem SVec.length_zip (f : K → K → K) (h : x.v.length = y.v.length) : (x.zip A f y).v.length = x.v.length := by simp [SVec.zip, h]

theorem b_sub (hL : L.WF n) (hm : L.mask = none) (hx : x.v.length = L.gshape.prod) (hy : y.v.length = L.gshape.prod) :
    Runs n (fun r => A.dsub (env n J r) (x.dpart L n r) (y.dpart L n r)) (fun r => .ok ((x.sub A y).dpart L n r)) :=
  Runs.bind_ok (b_neg A hL hm hy) (b_add A hL hm hx (by rw [SVec.length_map]; exact hy))

theorem b_isub (hL : L.WF n) (hm : L.mask = none) (hx : x.v.length = L.gshape.prod) (hy : y.v.length = L.gshape.prod) :
    Runs n (fun r => A.disub (env n J r) (x.dpart L n r) (y.dpart L n r)) (fun r => .ok ((x.sub A y).dpart L n r)) :=
  Runs.bind_ok (b_neg A hL hm hy) (b_iadd A hL hx (by rw [SVec.length_map]; exact hy))

/-! ### reductions -/

theorem b_reduce {v : Nat → K} : Runs n (fun r => A.reduce (List.range n) (v r)) (fun _ => .ok (A.sum ((List.range n).map v))) := by
  rcases Nat.eq_zero_or_pos n with rfl | hn
  · exact Runs.of_zero
  unfold Arith.reduce
  simp only [Prog.bind_eq]
  refine runs_gather (v := fun r => Sc.mk (v r)) ?_
  simp only [range_cons hn, List.map_cons, List.map_map]
  exact Runs.ret _

theorem scatLayout_eq : scatLayout L n = Layout.mk L.gshape .scatter 0 (fun r => L.gshape.getD 0 0 / n + if r < L.gshape.getD 0 0 % n then 1 else 0) none := by
  unfold scatLayout
  congr 1
  funext r
  unfold balanced
  show (if r < L.gshape.getD 0 0 % n then L.gshape.getD 0 0 / n + 1 else L.gshape.getD 0 0 / n) = _
  split_ifs <;> rfl

theorem b_toScatter (hL : L.WF n) (hx : x.v.length = L.gshape.prod) :
    Runs n (fun r => A.toScatter (env n J r) L.part (x.dpart L n r)) (fun r => .ok ((redLayout L n).fam n x.dt (x.block A L n) r)) := by
  unfold Arith.toScatter redLayout
  by_cases hb : L.part.isBroadcast = true
  · simp only [if_pos hb]
    rcases Nat.eq_zero_or_pos n with rfl | hn
    · exact Runs.of_zero
    refine (runs_aToDist A (J := J) (L := scatLayout L n) (dt := x.dt) (a := fun _ => x.v) (scatLayout_wf hL hn) rfl rfl rfl fun r hr => hx).congr (fun r _ => ?_) fun r _ => ?_
    · show A.toDist (env n J r) ⟨L.gshape, x.dt, x.v⟩ .scatter 0 none none = A.toDist (env n J r) ⟨L.lshape r, x.dt, L.piece x.v r⟩ .scatter 0 none none
      rw [lshape_bcast hb]
      simp [Layout.piece, hb]
    · congr 1
      refine a_fam_congr ?_
      simp only [SVec.block, if_pos hb, scatLayout_eq]
  · simp only [if_neg hb]
    refine (Runs.ret _).congr (fun _ _ => rfl) fun r _ => ?_
    congr 1
    refine a_fam_congr ?_
    simp only [SVec.block, if_neg hb]

theorem length_block (hL : L.WF n) (hx : x.v.length = L.gshape.prod) {r : Nat} (hr : r < n) : (x.block A L n r).length = ((redLayout L n).lshape r).prod := by
  unfold SVec.block redLayout
  split_ifs with hb
  · rw [List.length_map, ← scatLayout_eq, a_length_piece (L := scatLayout L n) (scatLayout_wf hL (by omega)) hx hr]
  · exact a_length_piece hL hx hr

theorem b_dot (hL : L.WF n) (hm : L.mask = none) (hx : x.v.length = L.gshape.prod) (hy : y.v.length = L.gshape.prod) :
    Runs n (fun r => A.ddot (env n J r) (x.dpart L n r) (y.dpart L n r)) (fun _ => .ok (x.blockDot A L n y)) := by
  have key : Runs n (fun r => (A.toScatter (env n J r) L.part (x.dpart L n r)).bind fun x => (A.toScatter (env n J r) L.part (y.dpart L n r)).bind fun y =>
      (Prog.lift (if x.larr.data.length = y.larr.data.length then .ok (A.dot x.larr.data y.larr.data) else .error .value)).bind (A.reduce (List.range n)))
      (fun _ => .ok (x.blockDot A L n y)) := by
    refine Runs.bind_ok (b_toScatter A hL hx) (Runs.bind_ok (b_toScatter A hL hy) ?_)
    refine (b_reduce A (v := fun q => A.dot (x.block A L n q) (y.block A L n q))).congr (fun r hr => ?_) fun _ _ => rfl
    have h : (x.block A L n r).length = (y.block A L n r).length := (length_block A hL hx hr).trans (length_block A hL hy hr).symm
    show _ = (Prog.lift (if (x.block A L n r).length = (y.block A L n r).length then _ else _)).bind _
    rw [if_pos h]
    rfl
  refine key.congr (fun r hr => ?_) fun _ _ => rfl
  simp only [Arith.ddot, Prog.bind_eq, SVec.dpart, a_checkCompat, Prog.ret_bind]
  simp [Layout.fam, Layout.members, hm]

theorem b_norm (hL : L.WF n) (hm : L.mask = none) (hx : x.v.length = L.gshape.prod) :
    Runs n (fun r => A.dnorm (env n J r) (x.dpart L n r)) (fun _ => .ok (x.blockNorm A L n)) := by
  have hsub : ∀ r, ((redLayout L n).fam n x.dt (x.block A L n) r).sub = List.range n := fun r => by
    unfold redLayout
    split_ifs
    · rfl
    · simp [Layout.fam, Layout.members, hm]
  unfold Arith.dnorm
  simp only [Prog.bind_eq]
  refine Runs.bind_ok (b_toScatter A hL hx) ?_
  simp only [hsub]
  exact Runs.bind_ok (b_reduce A (v := fun q => A.sumSq (x.block A L n q))) (Runs.ret _)

/-! ### objects of both classes -/

section
variable (hL : L.WF n) (hm : L.mask = none) (hx : x.v.length = L.gshape.prod)
include hL hm hx

theorem p_copy : Runs n (fun r => A.copy (env n J r) (x.part L n r)) (fun r => .ok ((x.copy A).part L n r)) := Runs.bind_ok (b_copy A hL hm hx) (Runs.ret _)

theorem p_scale (a : K) : Runs n (fun r => A.fmulX (env n J r) a (x.part L n r)) (fun r => .ok ((x.scale A a).part L n r)) := Runs.bind_ok (b_scale A a hL hm hx) (Runs.ret _)

theorem p_norm : Runs n (fun r => A.normX (env n J r) (x.part L n r)) (fun _ => .ok (x.blockNorm A L n)) := b_norm A hL hm hx

variable (hy : y.v.length = L.gshape.prod)
include hy

theorem p_add : Runs n (fun r => A.addX (env n J r) (x.part L n r) (y.part L n r)) (fun r => .ok ((x.add A y).part L n r)) := Runs.bind_ok (b_add A hL hm hx hy) (Runs.ret _)

theorem p_sub : Runs n (fun r => A.subX (env n J r) (x.part L n r) (y.part L n r)) (fun r => .ok ((x.sub A y).part L n r)) := Runs.bind_ok (b_sub A hL hm hx hy) (Runs.ret _)

theorem p_isub : Runs n (fun r => A.isubX (env n J r) (x.part L n r) (y.part L n r)) (fun r => .ok ((x.sub A y).part L n r)) := Runs.bind_ok (b_isub A hL hm hx hy) (Runs.ret _)

theorem p_dotConj : Runs n (fun r => A.dotConj (env n J r) (x.part L n r) (y.part L n r)) (fun _ => .ok (x.blockDot A L n (y.conj A))) :=
  Runs.bind_ok (Runs.bind_ok (b_conj A hL hm hy) (Runs.ret fun r => XArr.one ((y.conj A).dpart L n r))) (b_dot A hL hm hx (by rw [SVec.conj, SVec.length_map]; exact hy))

theorem p_absDot : Runs n (fun r => A.absDot (env n J r) (x.part L n r) (y.part L n r)) (fun _ => .ok (A.abs (x.blockDot A L n (y.conj A)))) :=
  Runs.bind_ok (p_dotConj A hL hm hx hy) (Runs.ret _)

omit hm in
theorem p_iadd : Runs n (fun r => A.iaddX (env n J r) (x.part L n r) (y.part L n r)) (fun r => .ok ((x.add A y).part L n r)) := Runs.bind_ok (b_iadd A hL hx hy) (Runs.ret _)

end

theorem SVec.length_add {N : Nat} (hx : x.v.length = N) (hy : y.v.length = N) : (x.add A y).v.length = N := by rw [SVec.add, SVec.length_zip A _ (hx.trans hy.symm), hx]
theorem SVec.length_scale {N : Nat} (a : K) (hx : x.v.length = N) : (x.scale A a).v.length = N := by rw [SVec.scale, SVec.length_map, hx]
theorem SVec.length_copy {N : Nat} (hx : x.v.length = N) : (x.copy A).v.length = N := by rw [SVec.copy, SVec.length_map, hx]
theorem SVec.length_sub {N : Nat} (hx : x.v.length = N) (hy : y.v.length = N) : (x.sub A y).v.length = N := SVec.length_add A hx (by rw [SVec.length_map, hy])

/-! ### CG -/

variable {op : Nat → XOp K} {F : SVec K → SVec K} {x0 : SVec K} {niter : Option Int} {tol : K} {D : DType → Prop}

structure SCG.Sized (s : SCG K) (N : Nat) (D : DType → Prop) : Prop where
  x : s.x.v.length = N
  r : s.r.v.length = N
  c : s.c.v.length = N
  rd : D s.r.dt
  cd : D s.c.dt

/-- the solver object when the serial state is `s` -/
def SCG.obj (L : Layout) (n : Nat) (y : SVec K) (niter : Option Int) (tol : K) (cost : List K) (it : Nat) (s : SCG K) (r : Nat) : FCG K :=
  ⟨y.part L n r, niter, tol, s.r.part L n r, s.c.part L n r, s.k, cost, it⟩

theorem bcg_start_sized (hF : ∀ x : SVec K, x.v.length = L.gshape.prod → D x.dt → (F x).v.length = L.gshape.prod) {dot : SVec K → SVec K → K}
    (hy : y.v.length = L.gshape.prod) (hx : x0.v.length = L.gshape.prod) (dy : D y.dt) (dx : D x0.dt) : (SCG.start A dot F y x0).Sized L.gshape.prod D := by
  have h1 := SVec.length_copy A hx
  have h2 := SVec.length_sub A hy (hF _ h1 dx)
  exact ⟨h1, h2, SVec.length_copy A h2, dy, dy⟩

theorem bcg_setup (hL : L.WF n) (hm : L.mask = none) (hop : ActsAs n J (fun r => (op r).mv) L L F D) (hy : y.v.length = L.gshape.prod) (hx : x0.v.length = L.gshape.prod) (dy : D y.dt) (dx : D x0.dt) :
    Runs n (fun r => FCG.setup A (env n J r) (op r) (y.part L n r) (x0.part L n r) niter tol)
      (fun r => .ok ((SCG.start A (SVec.blockDot A L n) F y x0).obj L n y niter tol [A.sqrt (SCG.start A (SVec.blockDot A L n) F y x0).k] 0 r,
        (SCG.start A (SVec.blockDot A L n) F y x0).x.part L n r)) := by
  have h1 := SVec.length_copy A hx
  have h2 := SVec.length_sub A hy (hop.length _ h1 dx)
  unfold FCG.setup
  simp only [Prog.bind_eq]
  refine Runs.bind_ok (p_copy A hL hm hx) ?_
  refine Runs.bind_ok (hop.runs _ h1 dx).runs ?_
  refine Runs.bind_ok (p_sub A hL hm hy (hop.length _ h1 dx)) ?_
  refine Runs.bind_ok (p_copy A hL hm h2) ?_
  refine Runs.bind_ok (p_absDot A hL hm h2 h2) ?_
  exact Runs.ret _

theorem bcg_step (hL : L.WF n) (hm : L.mask = none) (hop : ActsAs n J (fun r => (op r).mv) L L F D) {s : SCG K} (hs : s.Sized L.gshape.prod D) {cost : List K} {it : Nat} :
    (∀ s', SCG.next A (SVec.blockDot A L n) F s = .ok s' → s'.Sized L.gshape.prod D ∧
      Runs n (fun r => FCG.step A (env n J r) (op r) (s.obj L n y niter tol cost it r) (s.x.part L n r))
        (fun r => .ok (s'.obj L n y niter tol (cost ++ [A.sqrt s'.k]) (it + 1) r, s'.x.part L n r))) ∧
    ∀ e, SCG.next A (SVec.blockDot A L n) F s = .error e →
      Runs n (fun r => FCG.step A (env n J r) (op r) (s.obj L n y niter tol cost it r) (s.x.part L n r)) (fun _ => .error e) := by
  have hq := hop.length _ hs.c hs.cd
  unfold FCG.step
  simp only [Prog.bind_eq, SCG.obj]
  unfold SCG.next
  simp only [bind, Except.bind]
  cases ha : A.npDiv s.k (A.abs (SVec.blockDot A L n s.c (SVec.conj A (F s.c)))) with
  | error e =>
    refine ⟨fun s' h => (by cases h), fun e' h => ?_⟩
    injection h with h
    subst h
    refine Runs.bind_ok (hop.runs _ hs.c hs.cd).runs (Runs.bind_ok (p_absDot A hL hm hs.c hq) ?_)
    rw [ha]
    exact Runs.throw _
  | ok a =>
    have hr := SVec.length_sub A hs.r (SVec.length_scale A a hq)
    dsimp only
    cases hb : A.pyDiv (A.abs (SVec.blockDot A L n (SVec.sub A s.r (SVec.scale A a (F s.c))) (SVec.conj A (SVec.sub A s.r (SVec.scale A a (F s.c)))))) s.k with
    | error e =>
      refine ⟨fun s' h => (by cases h), fun e' h => ?_⟩
      injection h with h
      subst h
      refine Runs.bind_ok (hop.runs _ hs.c hs.cd).runs (Runs.bind_ok (p_absDot A hL hm hs.c hq) ?_)
      simp only [ha, Prog.lift_ok, Prog.ret_bind]
      refine Runs.bind_ok (p_scale A hL hm hs.c a) ?_
      refine Runs.bind_ok (p_iadd A hL hs.x (SVec.length_scale A a hs.c)) ?_
      refine Runs.bind_ok (p_scale A hL hm hq a) ?_
      refine Runs.bind_ok (p_isub A hL hm hs.r (SVec.length_scale A a hq)) ?_
      refine Runs.bind_ok (p_absDot A hL hm hr hr) ?_
      rw [hb]
      exact Runs.throw _
    | ok b =>
      refine ⟨fun s' h => ?_, fun e h => (by cases h)⟩
      injection h with h
      subst h
      refine ⟨⟨SVec.length_add A hs.x (SVec.length_scale A a hs.c), hr, SVec.length_add A hr (SVec.length_scale A b hs.c), hs.rd, hs.rd⟩, ?_⟩
      refine Runs.bind_ok (hop.runs _ hs.c hs.cd).runs (Runs.bind_ok (p_absDot A hL hm hs.c hq) ?_)
      simp only [ha, Prog.lift_ok, Prog.ret_bind]
      refine Runs.bind_ok (p_scale A hL hm hs.c a) ?_
      refine Runs.bind_ok (p_iadd A hL hs.x (SVec.length_scale A a hs.c)) ?_
      refine Runs.bind_ok (p_scale A hL hm hq a) ?_
      refine Runs.bind_ok (p_isub A hL hm hs.r (SVec.length_scale A a hq)) ?_
      refine Runs.bind_ok (p_absDot A hL hm hr hr) ?_
      simp only [hb, Prog.lift_ok, Prog.ret_bind]
      refine Runs.bind_ok (p_scale A hL hm hs.c b) ?_
      refine Runs.bind_ok (p_add A hL hm hr (SVec.length_scale A b hs.c)) ?_
      exact Runs.ret _

/-- the loop when it ends after `m` steps -/
theorem bcg_loop (hL : L.WF n) (hm : L.mask = none) (hop : ActsAs n J (fun r => (op r).mv) L L F D) {mx : Int} {m : Nat} {s : Nat → SCG K}
    (hs : ∀ i < m, SCG.next A (SVec.blockDot A L n) F (s i) = .ok (s (i + 1))) (h0 : (s 0).Sized L.gshape.prod D) (hst : StopsAt A mx tol (fun i => (s i).k) m) :
    ∀ (f j : Nat) (tr : Nat → List (XArr K)), j ≤ m → (f : Int) = max (mx - j) 0 →
    Runs n (fun r => FCG.loop A (env n J r) (op r) mx f ((s j).obj L n y niter tol ((List.range (j + 1)).map fun i => A.sqrt (s i).k) j r) ((s j).x.part L n r) (tr r))
      (fun r => .ok ((s m).obj L n y niter tol ((List.range (m + 1)).map fun i => A.sqrt (s i).k) m r, (s m).x.part L n r,
        tr r ++ (List.range' (j + 1) (m - j)).map fun i => (s i).x.part L n r)) := by
  have hsz : ∀ i ≤ m, (s i).Sized L.gshape.prod D := by
    intro i hi
    induction i with
    | zero => exact h0
    | succ i ih => exact ((bcg_step A (y := y) (niter := niter) (tol := tol) (cost := []) (it := 0) hL hm hop (ih (by omega))).1 _ (hs i (by omega))).1
  intro f
  induction f with
  | zero =>
    intro j tr hj hf
    have hmj : m = j := by
      by_contra hne
      have := (hst.1 j (by omega)).1
      omega
    subst hmj
    refine (Runs.ret _).congr (fun r _ => rfl) fun r _ => ?_
    simp
  | succ f ih =>
    intro j tr hj hf
    rcases Nat.lt_or_eq_of_le hj with hlt | rfl
    · have hc := hst.1 j hlt
      have := Runs.bind_ok (k := fun r p => FCG.loop A (env n J r) (op r) mx f p.1 p.2 (tr r ++ [p.2]))
        ((bcg_step A (J := J) (y := y) (niter := niter) (tol := tol) (cost := (List.range (j + 1)).map fun i => A.sqrt (s i).k) (it := j) hL hm hop (hsz j hj)).1 _ (hs j hlt)).2
        ((ih (j + 1) (fun r => tr r ++ [(s (j + 1)).x.part L n r]) hlt (by omega)).congr (fun r _ => by
          rw [List.range_succ (n := j + 1), List.map_append]; rfl) fun _ _ => rfl)
      refine this.congr (fun r _ => ?_) fun r _ => ?_
      · simp only [FCG.loop, Prog.bind_eq]
        rw [if_pos]
        exact hc
      · have e : m - j = (m - (j + 1)) + 1 := by omega
        rw [e, List.range'_succ]
        simp
    · refine (Runs.ret _).congr (fun r _ => ?_) fun r _ => by simp; rfl
      simp only [FCG.loop]
      rw [if_neg]
      exact hst.2

/-- the loop when step `m` raises -/
theorem bcg_loop_error (hL : L.WF n) (hm : L.mask = none) (hop : ActsAs n J (fun r => (op r).mv) L L F D) {mx : Int} {m : Nat} {s : Nat → SCG K} {e : Err}
    (hs : ∀ i < m, SCG.next A (SVec.blockDot A L n) F (s i) = .ok (s (i + 1))) (he : SCG.next A (SVec.blockDot A L n) F (s m) = .error e) (h0 : (s 0).Sized L.gshape.prod D)
    (hst : ∀ i ≤ m, (i : Int) < mx ∧ A.gt (s i).k tol = true) :
    ∀ (f j : Nat) (cost : List K) (tr : Nat → List (XArr K)), j ≤ m → (f : Int) = max (mx - j) 0 →
    Runs n (fun r => FCG.loop A (env n J r) (op r) mx f ((s j).obj L n y niter tol cost j r) ((s j).x.part L n r) (tr r)) (fun _ => .error e) := by
  have hsz : ∀ i ≤ m, (s i).Sized L.gshape.prod D := by
    intro i hi
    induction i with
    | zero => exact h0
    | succ i ih => exact ((bcg_step A (y := y) (niter := niter) (tol := tol) (cost := []) (it := 0) hL hm hop (ih (by omega))).1 _ (hs i (by omega))).1
  intro f
  induction f with
  | zero =>
    intro j cost tr hj hf
    have := (hst j hj).1
    omega
  | succ f ih =>
    intro j cost tr hj hf
    have hc := hst j hj
    have key : Runs n (fun r => (FCG.step A (env n J r) (op r) ((s j).obj L n y niter tol cost j r) ((s j).x.part L n r)).bind
        fun p => FCG.loop A (env n J r) (op r) mx f p.1 p.2 (tr r ++ [p.2])) (fun _ => .error e) := by
      rcases Nat.lt_or_eq_of_le hj with hlt | rfl
      · exact Runs.bind_ok ((bcg_step A (J := J) (y := y) (niter := niter) (tol := tol) (cost := cost) (it := j) hL hm hop (hsz j hj)).1 _ (hs j hlt)).2
          (ih (j + 1) _ (fun r => tr r ++ [(s (j + 1)).x.part L n r]) hlt (by omega))
      · exact Runs.bind ((bcg_step A (J := J) (y := y) (niter := niter) (tol := tol) (cost := cost) (it := j) hL hm hop (hsz j hj)).2 _ he) (Runs.throw _)
    refine key.congr (fun r _ => ?_) fun _ _ => rfl
    simp only [FCG.loop, Prog.bind_eq]
    rw [if_pos]
    exact hc

theorem scg_seq_next {dot : SVec K → SVec K → K} {m : Nat} {s : Nat → SCG K} (hs : ∀ i ≤ m, SCG.seq A dot F y x0 i = .ok (s i)) : ∀ i < m, SCG.next A dot F (s i) = .ok (s (i + 1)) := by
  intro i hi
  have h := hs (i + 1) hi
  rw [SCG.seq, hs i (by omega)] at h
  exact h

theorem scg_seq_zero {dot : SVec K → SVec K → K} {m : Nat} {s : Nat → SCG K} (hs : ∀ i ≤ m, SCG.seq A dot F y x0 i = .ok (s i)) : s 0 = SCG.start A dot F y x0 := by
  have h := hs 0 (Nat.zero_le _)
  injection h with h
  exact h.symm

theorem bcg_solve (hL : L.WF n) (hm : L.mask = none) (hop : ActsAs n J (fun r => (op r).mv) L L F D) (hy : y.v.length = L.gshape.prod) (hx : x0.v.length = L.gshape.prod) (dy : D y.dt) (dx : D x0.dt) {mx : Int} {m : Nat}
    {s : Nat → SCG K} (hs : ∀ i ≤ m, SCG.seq A (SVec.blockDot A L n) F y x0 i = .ok (s i)) (hst : StopsAt A mx tol (fun i => (s i).k) m) :
    Runs n (fun r => FCG.solve A (env n J r) (op r) (y.part L n r) (x0.part L n r) (some mx) tol)
      (fun r => .ok ((s m).x.part L n r, m, (List.range (m + 1)).map (fun i => A.sqrt (s i).k), (List.range' 1 m).map fun i => (s i).x.part L n r)) := by
  have h0 := scg_seq_zero A hs
  have hz : (s 0).Sized L.gshape.prod D := h0 ▸ bcg_start_sized A hop.length hy hx dy dx
  unfold FCG.solve
  simp only [Prog.bind_eq]
  refine Runs.bind_ok (bcg_setup A hL hm hop hy hx dy dx) ?_
  have hl := bcg_loop A (J := J) (y := y) (niter := some mx) (tol := tol) hL hm hop (scg_seq_next A hs) hz hst (mx.toNat) 0 (fun _ => []) (Nat.zero_le _) (by simp)
  refine Runs.bind_ok (hl.congr (fun r _ => ?_) fun _ _ => rfl) ?_
  · rw [← h0]
    simp [FCG.run, SCG.obj]
  · refine (Runs.ret _).congr (fun r _ => rfl) fun r _ => ?_
    simp [SCG.obj]

theorem bcg_solve_error (hL : L.WF n) (hm : L.mask = none) (hop : ActsAs n J (fun r => (op r).mv) L L F D) (hy : y.v.length = L.gshape.prod) (hx : x0.v.length = L.gshape.prod) (dy : D y.dt) (dx : D x0.dt) {mx : Int} {m : Nat}
    {s : Nat → SCG K} {e : Err} (hs : ∀ i ≤ m, SCG.seq A (SVec.blockDot A L n) F y x0 i = .ok (s i)) (he : SCG.seq A (SVec.blockDot A L n) F y x0 (m + 1) = .error e)
    (hst : ∀ i ≤ m, (i : Int) < mx ∧ A.gt (s i).k tol = true) :
    Runs n (fun r => FCG.solve A (env n J r) (op r) (y.part L n r) (x0.part L n r) (some mx) tol) (fun _ => .error e) := by
  have h0 := scg_seq_zero A hs
  have hz : (s 0).Sized L.gshape.prod D := h0 ▸ bcg_start_sized A hop.length hy hx dy dx
  have he' : SCG.next A (SVec.blockDot A L n) F (s m) = .error e := by
    rw [SCG.seq, hs m le_rfl] at he
    exact he
  unfold FCG.solve
  simp only [Prog.bind_eq]
  refine Runs.bind_ok (bcg_setup A hL hm hop hy hx dy dx) ?_
  have hl := bcg_loop_error A (J := J) (y := y) (niter := some mx) (tol := tol) hL hm hop (scg_seq_next A hs) he' hz hst (mx.toNat) 0 [A.sqrt (s 0).k] (fun _ => []) (Nat.zero_le _) (by simp)
  refine Runs.bind (hl.congr (fun r _ => ?_) fun _ _ => rfl) (Runs.throw _)
  rw [← h0]
  simp [FCG.run, SCG.obj]

/-- every sequence either stops or fails -/
theorem stops_or_fails {S : Type} (q : Nat → Except Err S) (k : S → K) (s0 : S) (h0 : q 0 = .ok s0) (mx : Int) (tol : K) :
    (∃ (m : Nat) (s : Nat → S), (∀ i ≤ m, q i = .ok (s i)) ∧ StopsAt A mx tol (fun i => k (s i)) m) ∨
    ∃ (m : Nat) (s : Nat → S) (e : Err), (∀ i ≤ m, q i = .ok (s i)) ∧ q (m + 1) = .error e ∧ ∀ i ≤ m, (i : Int) < mx ∧ A.gt (k (s i)) tol = true := by
  classical
  -- either some state is missing or ends the loop
  let bad : Nat → Prop := fun i => ∀ t, q i = .ok t → ¬ ((i : Int) < mx ∧ A.gt (k t) tol = true)
  have hex : ∃ i, bad i := ⟨mx.toNat, fun t _ h => by have := h.1; omega⟩
  let m := Nat.find hex
  have hlow : ∀ i < m, ∃ t, q i = .ok t ∧ (i : Int) < mx ∧ A.gt (k t) tol = true := by
    intro i hi
    have := Nat.find_min hex hi
    simp only [bad, not_forall, not_not] at this
    obtain ⟨t, h1, h2⟩ := this
    exact ⟨t, h1, h2⟩
  let s : Nat → S := fun i => match q i with | .ok t => t | .error _ => s0
  have hsq : ∀ i t, q i = .ok t → s i = t := by
    intro i t h
    simp only [s, h]
  cases hq : q m with
  | ok t =>
    refine .inl ⟨m, s, fun i hi => ?_, fun i hi => ?_, ?_⟩
    · rcases Nat.lt_or_eq_of_le hi with hlt | rfl
      · obtain ⟨u, hu, _⟩ := hlow i hlt
        rw [hu, hsq i u hu]
      · rw [hq, hsq m t hq]
    · obtain ⟨u, hu, h⟩ := hlow i hi
      show (i : Int) < mx ∧ A.gt (k (s i)) tol = true
      rw [hsq i u hu]
      exact h
    · show ¬ ((m : Int) < mx ∧ A.gt (k (s m)) tol = true)
      rw [hsq m t hq]
      exact Nat.find_spec hex t hq
  | error e =>
    have hpos : m ≠ 0 := by
      intro h
      rw [h, h0] at hq
      cases hq
    obtain ⟨p, hp⟩ := Nat.exists_eq_succ_of_ne_zero hpos
    refine .inr ⟨p, s, e, fun i hi => ?_, by rw [show p + 1 = m from hp.symm, hq], fun i hi => ?_⟩
    · obtain ⟨u, hu, _⟩ := hlow i (by omega)
      rw [hu, hsq i u hu]
    · obtain ⟨u, hu, h⟩ := hlow i (by omega)
      rw [hsq i u hu]
      exact h

/-! ### CGLS -/

variable {F' : SVec K → SVec K} {damp damp2 : K} {D' : DType → Prop}

structure SLS.Sized (t : SLS K) (N M : Nat) (D' : DType → Prop) : Prop where
  x : t.x.v.length = N
  s : t.s.v.length = M
  c : t.c.v.length = N
  q : t.q.v.length = M
  sd : D' t.s.dt

/-- the solver object when the serial state is `t` -/
def SLS.obj (L L' : Layout) (n : Nat) (y : SVec K) (damp2 : K) (niter : Option Int) (tol : K) (cost cost1 : List K) (it : Nat) (t : SLS K) (r : Nat) : FCGLS K :=
  ⟨y.part L' n r, damp2, niter, tol, t.s.part L' n r, t.c.part L n r, t.q.part L' n r, t.k, cost, cost1, it⟩

theorem bls_setup (hL : L.WF n) (hm : L.mask = none) (hL' : L'.WF n) (hm' : L'.mask = none) (hop : ActsAs n J (fun r => (op r).mv) L L' F D)
    (hop' : ActsAs n J (fun r => (op r).rmv) L' L F' D') (hD : ∀ s : SVec K, s.v.length = L'.gshape.prod → D' s.dt → D (F' s).dt) (hd : A.pySq damp = .ok damp2) (hy : y.v.length = L'.gshape.prod) (hx : x0.v.length = L.gshape.prod) (dy : D' y.dt) (dx : D x0.dt) :
    (∀ t, SLS.start A (SVec.blockDot A L n) (SVec.blockNorm A L' n) F F' damp y x0 = .ok t → t.Sized L.gshape.prod L'.gshape.prod D' ∧
      Runs n (fun r => FCGLS.setup A A.normX (env n J r) (op r) (y.part L' n r) (x0.part L n r) niter damp tol)
        (fun r => .ok (t.obj L L' n y damp2 niter tol [t.r1] [t.r2] 0 r, t.x.part L n r))) ∧
    ∀ e, SLS.start A (SVec.blockDot A L n) (SVec.blockNorm A L' n) F F' damp y x0 = .error e →
      Runs n (fun r => FCGLS.setup A A.normX (env n J r) (op r) (y.part L' n r) (x0.part L n r) niter damp tol) (fun _ => .error e) := by
  have h1 := SVec.length_copy A hx
  have h2 := SVec.length_sub A hy (hop.length _ h1 dx)
  have h3 := SVec.length_sub A (hop'.length _ h2 dy) (SVec.length_scale A damp h1)
  have h4 := SVec.length_copy A h3
  unfold FCGLS.setup
  simp only [Prog.bind_eq, hd, Prog.lift_ok, Prog.ret_bind]
  unfold SLS.start
  simp only [bind, Except.bind]
  cases hs : A.pySq (SVec.blockNorm A L' n (SVec.sub A y (F (SVec.copy A x0)))) with
  | error e =>
    refine ⟨fun t h => (by cases h), fun e' h => ?_⟩
    injection h with h
    subst h
    refine Runs.bind_ok (p_copy A hL hm hx) ?_
    refine Runs.bind_ok (hop.runs _ h1 dx).runs ?_
    refine Runs.bind_ok (p_sub A hL' hm' hy (hop.length _ h1 dx)) ?_
    refine Runs.bind_ok (p_scale A hL hm h1 damp) ?_
    refine Runs.bind_ok (hop'.runs _ h2 dy).runs ?_
    refine Runs.bind_ok (p_sub A hL hm (hop'.length _ h2 dy) (SVec.length_scale A damp h1)) ?_
    refine Runs.bind_ok (p_copy A hL hm h3) ?_
    refine Runs.bind_ok (hop.runs _ h4 (hD _ h2 dy)).runs ?_
    refine Runs.bind_ok (p_absDot A hL hm h3 h3) ?_
    refine Runs.bind_ok (p_norm A hL' hm' h2) ?_
    rw [hs]
    exact Runs.throw _
  | ok sq =>
    refine ⟨fun t h => ?_, fun e h => (by cases h)⟩
    injection h with h
    subst h
    refine ⟨⟨h1, h2, h4, hop.length _ h4 (hD _ h2 dy), dy⟩, ?_⟩
    refine Runs.bind_ok (p_copy A hL hm hx) ?_
    refine Runs.bind_ok (hop.runs _ h1 dx).runs ?_
    refine Runs.bind_ok (p_sub A hL' hm' hy (hop.length _ h1 dx)) ?_
    refine Runs.bind_ok (p_scale A hL hm h1 damp) ?_
    refine Runs.bind_ok (hop'.runs _ h2 dy).runs ?_
    refine Runs.bind_ok (p_sub A hL hm (hop'.length _ h2 dy) (SVec.length_scale A damp h1)) ?_
    refine Runs.bind_ok (p_copy A hL hm h3) ?_
    refine Runs.bind_ok (hop.runs _ h4 (hD _ h2 dy)).runs ?_
    refine Runs.bind_ok (p_absDot A hL hm h3 h3) ?_
    refine Runs.bind_ok (p_norm A hL' hm' h2) ?_
    simp only [hs, Prog.lift_ok, Prog.ret_bind]
    refine Runs.bind_ok (p_absDot A hL hm h1 h1) ?_
    exact Runs.ret _

theorem bls_step (hL : L.WF n) (hm : L.mask = none) (hL' : L'.WF n) (hm' : L'.mask = none) (hop : ActsAs n J (fun r => (op r).mv) L L' F D)
    (hop' : ActsAs n J (fun r => (op r).rmv) L' L F' D') (hD : ∀ s : SVec K, s.v.length = L'.gshape.prod → D' s.dt → D (F' s).dt) {t : SLS K} (ht : t.Sized L.gshape.prod L'.gshape.prod D') {cost cost1 : List K} {it : Nat} :
    (∀ t', SLS.next A (SVec.blockDot A L n) (SVec.blockDot A L' n) (SVec.blockNorm A L' n) F F' damp2 t = .ok t' → t'.Sized L.gshape.prod L'.gshape.prod D' ∧
      Runs n (fun r => FCGLS.step A A.normX (env n J r) (op r) (t.obj L L' n y damp2 niter tol cost cost1 it r) (t.x.part L n r))
        (fun r => .ok (t'.obj L L' n y damp2 niter tol (cost ++ [t'.r1]) (cost1 ++ [t'.r2]) (it + 1) r, t'.x.part L n r))) ∧
    ∀ e, SLS.next A (SVec.blockDot A L n) (SVec.blockDot A L' n) (SVec.blockNorm A L' n) F F' damp2 t = .error e →
      Runs n (fun r => FCGLS.step A A.normX (env n J r) (op r) (t.obj L L' n y damp2 niter tol cost cost1 it r) (t.x.part L n r)) (fun _ => .error e) := by
  unfold FCGLS.step
  simp only [Prog.bind_eq, SLS.obj]
  unfold SLS.next
  simp only [bind, Except.bind]
  cases ha : A.npDiv t.k (A.add (SVec.blockDot A L' n t.q (SVec.conj A t.q)) (A.mul damp2 (SVec.blockDot A L n t.c (SVec.conj A t.c)))) with
  | error e =>
    refine ⟨fun t' h => (by cases h), fun e' h => ?_⟩
    injection h with h
    subst h
    refine Runs.bind_ok (p_dotConj A hL' hm' ht.q ht.q) (Runs.bind_ok (p_dotConj A hL hm ht.c ht.c) ?_)
    rw [ha]
    exact Runs.throw _
  | ok a =>
    dsimp only
    have h1 := SVec.length_add A ht.x (SVec.length_scale A (A.abs a) ht.c)
    have h2 := SVec.length_sub A ht.s (SVec.length_scale A (A.abs a) ht.q)
    have d2 : D' (SVec.sub A t.s (SVec.scale A (A.abs a) t.q)).dt := ht.sd
    generalize hX : SVec.add A t.x (SVec.scale A (A.abs a) t.c) = X at *
    generalize hS : SVec.sub A t.s (SVec.scale A (A.abs a) t.q) = S at *
    have h3 := SVec.length_sub A (hop'.length _ h2 d2) (SVec.length_scale A damp2 h1)
    have d3 : D (SVec.sub A (F' S) (SVec.scale A damp2 X)).dt := hD _ h2 d2
    generalize hR : SVec.sub A (F' S) (SVec.scale A damp2 X) = R at *
    have pre : ∀ {β : Type} (k : Nat → XArr K → XArr K → XArr K → K → P K β) (ρ : Nat → Except Err β),
        Runs n (fun r => k r (X.part L n r) (S.part L' n r) (R.part L n r) (A.abs (SVec.blockDot A L n R (SVec.conj A R)))) ρ →
        Runs n (fun r => (A.dotConj (env n J r) (t.q.part L' n r) (t.q.part L' n r)).bind fun qq => (A.dotConj (env n J r) (t.c.part L n r) (t.c.part L n r)).bind fun cc =>
          (Prog.lift (A.npDiv t.k (A.add qq (A.mul damp2 cc)))).bind fun av => (A.fmulX (env n J r) (A.abs av) (t.c.part L n r)).bind fun ac =>
          (A.iaddX (env n J r) (t.x.part L n r) ac).bind fun x => (A.fmulX (env n J r) (A.abs av) (t.q.part L' n r)).bind fun aq =>
          (A.isubX (env n J r) (t.s.part L' n r) aq).bind fun s => (A.fmulX (env n J r) damp2 x).bind fun dx => ((op r).rmv (env n J r) s).bind fun rs =>
          (A.subX (env n J r) rs dx).bind fun rr => (A.absDot (env n J r) rr rr).bind fun kk => k r x s rr kk) ρ := by
      intro β k ρ h
      refine Runs.bind_ok (p_dotConj A hL' hm' ht.q ht.q) (Runs.bind_ok (p_dotConj A hL hm ht.c ht.c) ?_)
      simp only [ha, Prog.lift_ok, Prog.ret_bind]
      refine Runs.bind_ok (p_scale A hL hm ht.c _) ?_
      refine Runs.bind_ok (p_iadd A hL ht.x (SVec.length_scale A _ ht.c)) ?_
      refine Runs.bind_ok (p_scale A hL' hm' ht.q _) ?_
      refine Runs.bind_ok (p_isub A hL' hm' ht.s (SVec.length_scale A _ ht.q)) ?_
      rw [hX, hS]
      refine Runs.bind_ok (p_scale A hL hm h1 _) ?_
      refine Runs.bind_ok (hop'.runs _ h2 d2).runs ?_
      refine Runs.bind_ok (p_sub A hL hm (hop'.length _ h2 d2) (SVec.length_scale A _ h1)) ?_
      rw [hR]
      exact Runs.bind_ok (p_absDot A hL hm h3 h3) h
    cases hb : A.pyDiv (A.abs (SVec.blockDot A L n R (SVec.conj A R))) t.k with
    | error e =>
      refine ⟨fun t' h => (by cases h), fun e' h => ?_⟩
      injection h with h
      subst h
      refine pre (fun r x s rr kk => _) _ ?_
      rw [hb]
      exact Runs.throw _
    | ok b =>
      dsimp only
      have h4 := SVec.length_add A h3 (SVec.length_scale A b ht.c)
      cases hq : A.pySq (SVec.blockNorm A L' n S) with
      | error e =>
        refine ⟨fun t' h => (by cases h), fun e' h => ?_⟩
        injection h with h
        subst h
        refine pre (fun r x s rr kk => _) _ ?_
        simp only [hb, Prog.lift_ok, Prog.ret_bind]
        refine Runs.bind_ok (p_scale A hL hm ht.c b) ?_
        refine Runs.bind_ok (p_add A hL hm h3 (SVec.length_scale A b ht.c)) ?_
        refine Runs.bind_ok (hop.runs _ h4 d3).runs ?_
        refine Runs.bind_ok (p_norm A hL' hm' h2) ?_
        rw [hq]
        exact Runs.throw _
      | ok sq =>
        refine ⟨fun t' h => ?_, fun e h => (by cases h)⟩
        injection h with h
        subst h
        refine ⟨⟨h1, h2, h4, hop.length _ h4 d3, d2⟩, pre (fun r x s rr kk => _) _ ?_⟩
        simp only [hb, Prog.lift_ok, Prog.ret_bind]
        refine Runs.bind_ok (p_scale A hL hm ht.c b) ?_
        refine Runs.bind_ok (p_add A hL hm h3 (SVec.length_scale A b ht.c)) ?_
        refine Runs.bind_ok (hop.runs _ h4 d3).runs ?_
        refine Runs.bind_ok (p_norm A hL' hm' h2) ?_
        simp only [hq, Prog.lift_ok, Prog.ret_bind]
        refine Runs.bind_ok (p_absDot A hL hm h1 h1) ?_
        exact Runs.ret _

theorem bls_sized (hL : L.WF n) (hm : L.mask = none) (hL' : L'.WF n) (hm' : L'.mask = none) (hop : ActsAs n J (fun r => (op r).mv) L L' F D)
    (hop' : ActsAs n J (fun r => (op r).rmv) L' L F' D') (hD : ∀ s : SVec K, s.v.length = L'.gshape.prod → D' s.dt → D (F' s).dt) {m : Nat} {t : Nat → SLS K}
    (hs : ∀ i < m, SLS.next A (SVec.blockDot A L n) (SVec.blockDot A L' n) (SVec.blockNorm A L' n) F F' damp2 (t i) = .ok (t (i + 1))) (h0 : (t 0).Sized L.gshape.prod L'.gshape.prod D') :
    ∀ i ≤ m, (t i).Sized L.gshape.prod L'.gshape.prod D' := by
  intro i hi
  induction i with
  | zero => exact h0
  | succ i ih => exact ((bls_step A (y := ⟨.real, []⟩) (niter := none) (tol := A.zero) (cost := []) (cost1 := []) (it := 0) hL hm hL' hm' hop hop' hD (ih (by omega))).1 _ (hs i (by omega))).1

theorem bls_loop (hL : L.WF n) (hm : L.mask = none) (hL' : L'.WF n) (hm' : L'.mask = none) (hop : ActsAs n J (fun r => (op r).mv) L L' F D)
    (hop' : ActsAs n J (fun r => (op r).rmv) L' L F' D') (hD : ∀ s : SVec K, s.v.length = L'.gshape.prod → D' s.dt → D (F' s).dt) {mx : Int} {m : Nat} {t : Nat → SLS K}
    (hs : ∀ i < m, SLS.next A (SVec.blockDot A L n) (SVec.blockDot A L' n) (SVec.blockNorm A L' n) F F' damp2 (t i) = .ok (t (i + 1))) (h0 : (t 0).Sized L.gshape.prod L'.gshape.prod D')
    (hst : StopsAt A mx tol (fun i => (t i).k) m) :
    ∀ (f j : Nat) (tr : Nat → List (XArr K)), j ≤ m → (f : Int) = max (mx - j) 0 →
    Runs n (fun r => FCGLS.loop A A.normX (env n J r) (op r) mx f
        ((t j).obj L L' n y damp2 niter tol ((List.range (j + 1)).map fun i => (t i).r1) ((List.range (j + 1)).map fun i => (t i).r2) j r) ((t j).x.part L n r) (tr r))
      (fun r => .ok ((t m).obj L L' n y damp2 niter tol ((List.range (m + 1)).map fun i => (t i).r1) ((List.range (m + 1)).map fun i => (t i).r2) m r, (t m).x.part L n r,
        tr r ++ (List.range' (j + 1) (m - j)).map fun i => (t i).x.part L n r)) := by
  have hsz := bls_sized A hL hm hL' hm' hop hop' hD hs h0
  intro f
  induction f with
  | zero =>
    intro j tr hj hf
    have hmj : m = j := by
      by_contra hne
      have := (hst.1 j (by omega)).1
      omega
    subst hmj
    refine (Runs.ret _).congr (fun r _ => rfl) fun r _ => ?_
    simp
  | succ f ih =>
    intro j tr hj hf
    rcases Nat.lt_or_eq_of_le hj with hlt | rfl
    · have hc := hst.1 j hlt
      have := Runs.bind_ok (k := fun r p => FCGLS.loop A A.normX (env n J r) (op r) mx f p.1 p.2 (tr r ++ [p.2]))
        ((bls_step A (J := J) (y := y) (niter := niter) (tol := tol) (cost := (List.range (j + 1)).map fun i => (t i).r1) (cost1 := (List.range (j + 1)).map fun i => (t i).r2) (it := j)
          hL hm hL' hm' hop hop' hD (hsz j hj)).1 _ (hs j hlt)).2
        ((ih (j + 1) (fun r => tr r ++ [(t (j + 1)).x.part L n r]) hlt (by omega)).congr (fun r _ => by
          rw [List.range_succ (n := j + 1), List.map_append, List.map_append]; rfl) fun _ _ => rfl)
      refine this.congr (fun r _ => ?_) fun r _ => ?_
      · simp only [FCGLS.loop, Prog.bind_eq]
        rw [if_pos]
        exact hc
      · have e : m - j = (m - (j + 1)) + 1 := by omega
        rw [e, List.range'_succ]
        simp
    · refine (Runs.ret _).congr (fun r _ => ?_) fun r _ => by simp; rfl
      simp only [FCGLS.loop]
      rw [if_neg]
      exact hst.2

theorem bls_loop_error (hL : L.WF n) (hm : L.mask = none) (hL' : L'.WF n) (hm' : L'.mask = none) (hop : ActsAs n J (fun r => (op r).mv) L L' F D)
    (hop' : ActsAs n J (fun r => (op r).rmv) L' L F' D') (hD : ∀ s : SVec K, s.v.length = L'.gshape.prod → D' s.dt → D (F' s).dt) {mx : Int} {m : Nat} {t : Nat → SLS K} {e : Err}
    (hs : ∀ i < m, SLS.next A (SVec.blockDot A L n) (SVec.blockDot A L' n) (SVec.blockNorm A L' n) F F' damp2 (t i) = .ok (t (i + 1)))
    (he : SLS.next A (SVec.blockDot A L n) (SVec.blockDot A L' n) (SVec.blockNorm A L' n) F F' damp2 (t m) = .error e) (h0 : (t 0).Sized L.gshape.prod L'.gshape.prod D')
    (hst : ∀ i ≤ m, (i : Int) < mx ∧ A.gt (t i).k tol = true) :
    ∀ (f j : Nat) (cost cost1 : List K) (tr : Nat → List (XArr K)), j ≤ m → (f : Int) = max (mx - j) 0 →
    Runs n (fun r => FCGLS.loop A A.normX (env n J r) (op r) mx f ((t j).obj L L' n y damp2 niter tol cost cost1 j r) ((t j).x.part L n r) (tr r)) (fun _ => .error e) := by
  have hsz := bls_sized A hL hm hL' hm' hop hop' hD hs h0
  intro f
  induction f with
  | zero =>
    intro j cost cost1 tr hj hf
    have := (hst j hj).1
    omega
  | succ f ih =>
    intro j cost cost1 tr hj hf
    have hc := hst j hj
    have key : Runs n (fun r => (FCGLS.step A A.normX (env n J r) (op r) ((t j).obj L L' n y damp2 niter tol cost cost1 j r) ((t j).x.part L n r)).bind
        fun p => FCGLS.loop A A.normX (env n J r) (op r) mx f p.1 p.2 (tr r ++ [p.2])) (fun _ => .error e) := by
      rcases Nat.lt_or_eq_of_le hj with hlt | rfl
      · exact Runs.bind_ok ((bls_step A (J := J) (y := y) (niter := niter) (tol := tol) (cost := cost) (cost1 := cost1) (it := j) hL hm hL' hm' hop hop' hD (hsz j hj)).1 _ (hs j hlt)).2
          (ih (j + 1) _ _ (fun r => tr r ++ [(t (j + 1)).x.part L n r]) hlt (by omega))
      · exact Runs.bind ((bls_step A (J := J) (y := y) (niter := niter) (tol := tol) (cost := cost) (cost1 := cost1) (it := j) hL hm hL' hm' hop hop' hD (hsz j hj)).2 _ he) (Runs.throw _)
    refine key.congr (fun r _ => ?_) fun _ _ => rfl
    simp only [FCGLS.loop, Prog.bind_eq]
    rw [if_pos]
    exact hc

theorem sls_seq_ok {dot dot' : SVec K → SVec K → K} {nrm : SVec K → K} {m : Nat} {t : Nat → SLS K} (hs : ∀ i ≤ m, SLS.seq A dot dot' nrm F F' damp y x0 i = .ok (t i)) :
    ∃ d, A.pySq damp = .ok d ∧ SLS.start A dot nrm F F' damp y x0 = .ok (t 0) ∧ (∀ i < m, SLS.next A dot dot' nrm F F' d (t i) = .ok (t (i + 1))) ∧
      SLS.seq A dot dot' nrm F F' damp y x0 (m + 1) = SLS.next A dot dot' nrm F F' d (t m) := by
  have h := hs 0 (Nat.zero_le _)
  simp only [SLS.seq, bind, Except.bind] at h
  cases hd : A.pySq damp with
  | error e => rw [hd] at h; cases h
  | ok d =>
    rw [hd] at h
    refine ⟨d, rfl, h, fun i hi => ?_, ?_⟩
    · have h := hs (i + 1) hi
      simp only [SLS.seq, bind, Except.bind, hd, hs i (by omega)] at h
      exact h
    · simp only [SLS.seq, bind, Except.bind, hd, hs m le_rfl]

theorem bls_solve (hL : L.WF n) (hm : L.mask = none) (hL' : L'.WF n) (hm' : L'.mask = none) (hop : ActsAs n J (fun r => (op r).mv) L L' F D)
    (hop' : ActsAs n J (fun r => (op r).rmv) L' L F' D') (hD : ∀ s : SVec K, s.v.length = L'.gshape.prod → D' s.dt → D (F' s).dt) (hy : y.v.length = L'.gshape.prod) (hx : x0.v.length = L.gshape.prod) (dy : D' y.dt) (dx : D x0.dt) {mx : Int} {m : Nat} {t : Nat → SLS K}
    (hs : ∀ i ≤ m, SLS.seq A (SVec.blockDot A L n) (SVec.blockDot A L' n) (SVec.blockNorm A L' n) F F' damp y x0 i = .ok (t i)) (hst : StopsAt A mx tol (fun i => (t i).k) m) :
    Runs n (fun r => FCGLS.solve A A.normX (env n J r) (op r) (y.part L' n r) (x0.part L n r) (some mx) damp tol)
      (fun r => .ok ⟨(t m).x.part L n r, if A.lt (t m).k tol then 1 else 2, m, (t m).k, (t m).r2, (List.range (m + 1)).map (fun i => (t i).r1), (List.range' 1 m).map fun i => (t i).x.part L n r⟩) := by
  obtain ⟨d, hd, h0, hn, -⟩ := sls_seq_ok A hs
  obtain ⟨hz, hset⟩ := (bls_setup A (J := J) (niter := some mx) (tol := tol) hL hm hL' hm' hop hop' hD hd hy hx dy dx).1 _ h0
  unfold FCGLS.solve
  simp only [Prog.bind_eq]
  refine Runs.bind_ok hset ?_
  have hl := bls_loop A (J := J) (y := y) (niter := some mx) (tol := tol) hL hm hL' hm' hop hop' hD hn hz hst (mx.toNat) 0 (fun _ => []) (Nat.zero_le _) (by simp)
  refine Runs.bind_ok (hl.congr (fun r _ => ?_) fun _ _ => rfl) ?_
  · simp [FCGLS.run, SLS.obj]
  · have hget : ((List.range (m + 1)).map fun i => (t i).r2)[m]? = some (t m).r2 := by simp
    refine (Runs.ret _).congr (fun r _ => ?_) fun _ _ => rfl
    simp only [FCGLS.finalize, SLS.obj, hget]
    simp
    rfl

theorem bls_solve_error (hL : L.WF n) (hm : L.mask = none) (hL' : L'.WF n) (hm' : L'.mask = none) (hop : ActsAs n J (fun r => (op r).mv) L L' F D)
    (hop' : ActsAs n J (fun r => (op r).rmv) L' L F' D') (hD : ∀ s : SVec K, s.v.length = L'.gshape.prod → D' s.dt → D (F' s).dt) (hy : y.v.length = L'.gshape.prod) (hx : x0.v.length = L.gshape.prod) (dy : D' y.dt) (dx : D x0.dt) {mx : Int} {m : Nat} {t : Nat → SLS K} {e : Err}
    (hs : ∀ i ≤ m, SLS.seq A (SVec.blockDot A L n) (SVec.blockDot A L' n) (SVec.blockNorm A L' n) F F' damp y x0 i = .ok (t i))
    (he : SLS.seq A (SVec.blockDot A L n) (SVec.blockDot A L' n) (SVec.blockNorm A L' n) F F' damp y x0 (m + 1) = .error e)
    (hst : ∀ i ≤ m, (i : Int) < mx ∧ A.gt (t i).k tol = true) :
    Runs n (fun r => FCGLS.solve A A.normX (env n J r) (op r) (y.part L' n r) (x0.part L n r) (some mx) damp tol) (fun _ => .error e) := by
  obtain ⟨d, hd, h0, hn, hl⟩ := sls_seq_ok A hs
  rw [hl] at he
  obtain ⟨hz, hset⟩ := (bls_setup A (J := J) (niter := some mx) (tol := tol) hL hm hL' hm' hop hop' hD hd hy hx dy dx).1 _ h0
  unfold FCGLS.solve
  simp only [Prog.bind_eq]
  refine Runs.bind_ok hset ?_
  have hl := bls_loop_error A (J := J) (y := y) (niter := some mx) (tol := tol) hL hm hL' hm' hop hop' hD hn he hz hst (mx.toNat) 0 [(t 0).r1] [(t 0).r2] (fun _ => []) (Nat.zero_le _) (by simp)
  refine Runs.bind (hl.congr (fun r _ => ?_) fun _ _ => rfl) (Runs.throw _)
  simp [FCGLS.run, SLS.obj]

/-- already `setup` raises -/
theorem bls_solve_setup_error (hL : L.WF n) (hm : L.mask = none) (hL' : L'.WF n) (hm' : L'.mask = none) (hop : ActsAs n J (fun r => (op r).mv) L L' F D)
    (hop' : ActsAs n J (fun r => (op r).rmv) L' L F' D') (hD : ∀ s : SVec K, s.v.length = L'.gshape.prod → D' s.dt → D (F' s).dt) (hy : y.v.length = L'.gshape.prod) (hx : x0.v.length = L.gshape.prod) (dy : D' y.dt) (dx : D x0.dt) {mx : Int} {e : Err}
    (he : SLS.seq A (SVec.blockDot A L n) (SVec.blockDot A L' n) (SVec.blockNorm A L' n) F F' damp y x0 0 = .error e) :
    Runs n (fun r => FCGLS.solve A A.normX (env n J r) (op r) (y.part L' n r) (x0.part L n r) (some mx) damp tol) (fun _ => .error e) := by
  simp only [SLS.seq, bind, Except.bind] at he
  unfold FCGLS.solve
  simp only [Prog.bind_eq]
  cases hd : A.pySq damp with
  | error e' =>
    rw [hd] at he
    injection he with he
    subst he
    refine Runs.bind (ρ := fun _ => .error e') ?_ (Runs.throw _)
    unfold FCGLS.setup
    simp only [Prog.bind_eq, hd]
    exact Runs.throw _
  | ok d =>
    rw [hd] at he
    exact Runs.bind ((bls_setup A (J := J) (niter := some mx) (tol := tol) hL hm hL' hm' hop hop' hD hd hy hx dy dx).2 _ he) (Runs.throw _)

/-! ### when the layout does not matter -/

/-- the parts of a vector have its entries, each once -/
theorem a_perm_pieces {α : Type} (hL : L.WF n) (hp : L.part = .scatter) {d : List α} (hd : d.length = L.gshape.prod) : ((List.range n).flatMap (L.piece d)).Perm d := by
  cases d with
  | nil =>
    have : ∀ r, L.piece ([] : List α) r = [] := by
      intro r
      have := a_piece_map (L := L) (fun e : Empty => e.elim) [] r (β := α)
      cases h : L.piece ([] : List Empty) r with
      | nil => simpa [h] using this
      | cons e _ => exact e.elim
    simp [this]
  | cons a d =>
    let l : List ℚ := (List.range (d.length + 1)).map (Nat.cast : ℕ → ℚ)
    let f : ℚ → α := fun q => (a :: d).getD q.num.toNat a
    have e : l.map f = a :: d := by
      apply List.ext_getElem
      · simp [l]
      · intro i h1 h2
        simp [l, f, List.getElem?_eq_getElem h2]
    have hl : l.length = L.gshape.prod := by simpa [l] using hd
    have h := perm_global hL hp (fun r hr => length_piece hL hl hr)
    rw [global_piece hL hl] at h
    rw [← e]
    have : (fun r => L.piece (l.map f) r) = fun r => (L.piece l r).map f := funext fun r => a_piece_map f l r
    rw [show L.piece (l.map f) = fun r => (L.piece l r).map f from this, ← List.map_flatMap]
    exact (h.map f).symm

/-- the layout of the blocks -/
def blockLayout (L : Layout) (n : Nat) : Layout :=
  if L.part.isBroadcast then Layout.mk L.gshape .scatter 0 (fun r => L.gshape.getD 0 0 / n + if r < L.gshape.getD 0 0 % n then 1 else 0) none else L

theorem blockLayout_wf (hn : 0 < n) (hL : L.WF n) : (blockLayout L n).WF n ∧ (blockLayout L n).part = .scatter ∧ (blockLayout L n).gshape = L.gshape := by
  unfold blockLayout
  split_ifs with h
  · exact ⟨⟨Nat.lt_of_le_of_lt (Nat.zero_le _) hL.axis_lt, fun _ => by
      have e : (fun r => L.gshape.getD 0 0 / n + if r < L.gshape.getD 0 0 % n then 1 else 0) = balanced (L.gshape.getD 0 0) n := by
        funext r
        unfold balanced
        split_ifs <;> omega
      show psum (fun r => L.gshape.getD 0 0 / n + if r < L.gshape.getD 0 0 % n then 1 else 0) n = L.gshape.getD 0 0
      rw [e]
      exact psum_balanced_total _ hn, fun _ h => by cases h⟩, rfl, rfl⟩
  · exact ⟨hL, isBroadcast_false h, rfl⟩

theorem SVec.stored_map (hi : ∀ dt a, A.cast dt (A.cast dt a) = A.cast dt a) (f : K → K) (x : SVec K) : (x.map A f).Stored A := by
  intro a ha
  obtain ⟨b, -, rfl⟩ := List.mem_map.1 ha
  exact hi _ _

theorem SVec.stored_zip (hi : ∀ dt a, A.cast dt (A.cast dt a) = A.cast dt a) (f : K → K → K) (x y : SVec K) : (x.zip A f y).Stored A := by
  intro a ha
  obtain ⟨i, h, rfl⟩ := List.mem_iff_getElem.1 ha
  simp only [SVec.zip, List.getElem_zipWith]
  exact hi _ _

theorem a_mem_piece {α : Type} {L : Layout} {d : List α} {q : Nat} {a : α} (h : a ∈ L.piece d q) : a ∈ d := by
  unfold Layout.piece at h
  split_ifs at h
  · exact h
  · obtain ⟨o, -, h⟩ := List.mem_flatMap.1 h
    exact List.mem_of_mem_drop (List.mem_of_mem_take (List.mem_of_mem_drop (List.mem_of_mem_take h)))

theorem block_eq (x : SVec K) (hx : L.part.isBroadcast = true → x.Stored A) (q : Nat) : x.block A L n q = (blockLayout L n).piece x.v q := by
  unfold SVec.block blockLayout
  split_ifs with h
  · conv_rhs => rw [← List.map_id ((Layout.mk _ _ _ _ _).piece x.v q)]
    exact List.map_congr_left fun a ha => hx h _ (a_mem_piece ha)
  · rfl

theorem blockDot_free (hA : OrderFree A) : ∃ t : SVec K → SVec K → K, ∀ (n : Nat) (L : Layout), 0 < n → L.WF n →
    ∀ x y : SVec K, x.v.length = L.gshape.prod → y.v.length = L.gshape.prod → (L.part.isBroadcast = true → x.Stored A) → (L.part.isBroadcast = true → y.Stored A) → x.blockDot A L n y = t x y := by
  obtain ⟨t, ht⟩ := hA.dot
  refine ⟨fun x y => t (x.v.zip y.v), fun n L hn hL x y hx hy sx sy => ?_⟩
  obtain ⟨h1, h2, h3⟩ := blockLayout_wf hn hL
  have h := ht ((List.range n).map fun q => (x.block A L n q, y.block A L n q)) (by
    intro b hb
    obtain ⟨q, hq, rfl⟩ := List.mem_map.1 hb
    have hq : q < n := by simpa using hq
    simp only [block_eq A x sx, block_eq A y sy]
    rw [a_length_piece h1 (by rw [h3, hx]) hq, a_length_piece h1 (by rw [h3, hy]) hq])
  rw [List.map_map] at h
  refine h.trans ?_
  congr 1
  rw [Multiset.coe_eq_coe, List.flatMap_map]
  simp only [block_eq A x sx, block_eq A y sy]
  have e : ∀ q, ((blockLayout L n).piece x.v q).zip ((blockLayout L n).piece y.v q) = (blockLayout L n).piece (x.v.zip y.v) q := fun q => (a_piece_zip Prod.mk (hx.trans hy.symm) q).symm
  simp only [e]
  exact a_perm_pieces h1 h2 (by rw [h3, List.length_zip, hx, hy, min_self])

theorem blockNorm_free (hA : OrderFree A) : ∃ t : SVec K → K, ∀ (n : Nat) (L : Layout), 0 < n → L.WF n →
    ∀ x : SVec K, x.v.length = L.gshape.prod → (L.part.isBroadcast = true → x.Stored A) → x.blockNorm A L n = t x := by
  obtain ⟨t, ht⟩ := hA.norm
  refine ⟨fun x => A.root (t x.v), fun n L hn hL x hx sx => ?_⟩
  obtain ⟨h1, h2, h3⟩ := blockLayout_wf hn hL
  have h := ht ((List.range n).map fun q => x.block A L n q)
  rw [List.map_map] at h
  refine congrArg A.root (h.trans ?_)
  congr 1
  rw [Multiset.coe_eq_coe, ← List.flatMap_def]
  simp only [block_eq A x sx]
  exact a_perm_pieces h1 h2 (by rw [h3, hx])

theorem SVec.length_conj {N : Nat} (hx : x.v.length = N) : (x.conj A).v.length = N := by rw [SVec.conj, SVec.length_map, hx]

/-- only the products of vectors of the right length, all of which have been stored, matter -/
theorem scg_seq_congr {N : Nat} {dot₁ dot₂ : SVec K → SVec K → K} (hF : ∀ x : SVec K, x.v.length = N → D x.dt → (F x).v.length = N)
    {P : SVec K → Prop} (hm : ∀ f x, P (SVec.map A f x)) (hz : ∀ f x y, P (SVec.zip A f x y))
    (hd : ∀ x y : SVec K, x.v.length = N → y.v.length = N → P x → P y → dot₁ x y = dot₂ x y) (hy : y.v.length = N) (hx : x0.v.length = N) (dy : D y.dt) (dx : D x0.dt) (j : Nat) :
    SCG.seq A dot₁ F y x0 j = SCG.seq A dot₂ F y x0 j ∧ ∀ s, SCG.seq A dot₁ F y x0 j = .ok s → s.Sized N D ∧ P s.c := by
  have hc : ∀ {x : SVec K}, x.v.length = N → (x.conj A).v.length = N := fun h => SVec.length_conj A h
  induction j with
  | zero =>
    have h1 := SVec.length_copy A hx
    have h2 := SVec.length_sub A hy (hF _ h1 dx)
    refine ⟨?_, fun s h => ?_⟩
    · simp only [SCG.seq, SCG.start, hd _ _ h2 (hc h2) (hz _ _ _) (hm _ _)]
    · injection h with h
      subst h
      exact ⟨⟨h1, h2, SVec.length_copy A h2, dy, dy⟩, hm _ _⟩
  | succ j ih =>
    simp only [SCG.seq]
    rw [← ih.1]
    cases hs : SCG.seq A dot₁ F y x0 j with
    | error e => exact ⟨rfl, fun s h => by cases h⟩
    | ok s =>
      obtain ⟨hz', hp⟩ := ih.2 s hs
      have h1 := hF _ hz'.c hz'.cd
      simp only [Except.bind, SCG.next, bind]
      rw [hd _ _ hz'.c (hc h1) hp (hm _ _)]
      cases A.npDiv s.k (A.abs (dot₂ s.c (SVec.conj A (F s.c)))) with
      | error e => exact ⟨rfl, fun s h => by cases h⟩
      | ok a =>
        have h2 := SVec.length_sub A hz'.r (SVec.length_scale A a h1)
        simp only
        rw [hd _ _ h2 (hc h2) (hz _ _ _) (hm _ _)]
        cases A.pyDiv (A.abs (dot₂ (SVec.sub A s.r (SVec.scale A a (F s.c))) (SVec.conj A (SVec.sub A s.r (SVec.scale A a (F s.c)))))) s.k with
        | error e => exact ⟨rfl, fun s h => by cases h⟩
        | ok b =>
          refine ⟨rfl, fun t h => ?_⟩
          injection h with h
          subst h
          exact ⟨⟨SVec.length_add A hz'.x (SVec.length_scale A a hz'.c), h2, SVec.length_add A h2 (SVec.length_scale A b hz'.c), hz'.rd, hz'.rd⟩, hz _ _ _⟩

theorem sls_seq_congr {N M : Nat} {dot₁ dot₂ dot₁' dot₂' : SVec K → SVec K → K} {nrm₁ nrm₂ : SVec K → K} (hF : ∀ x : SVec K, x.v.length = N → D x.dt → (F x).v.length = M)
    (hF' : ∀ x : SVec K, x.v.length = M → D' x.dt → (F' x).v.length = N) (hD : ∀ s : SVec K, s.v.length = M → D' s.dt → D (F' s).dt) {P P' : SVec K → Prop} (hm : ∀ f x, P (SVec.map A f x)) (hz : ∀ f x y, P (SVec.zip A f x y)) (hPP : ∀ x, P x → P' x)
    (hP : ∀ x : SVec K, x.v.length = N → D x.dt → P' (F x)) (hd : ∀ x y : SVec K, x.v.length = N → y.v.length = N → P x → P y → dot₁ x y = dot₂ x y)
    (hd' : ∀ x y : SVec K, x.v.length = M → y.v.length = M → P' x → P' y → dot₁' x y = dot₂' x y) (hn : ∀ x : SVec K, x.v.length = M → P' x → nrm₁ x = nrm₂ x)
    (hy : y.v.length = M) (hx : x0.v.length = N) (dy : D' y.dt) (dx : D x0.dt) (j : Nat) :
    SLS.seq A dot₁ dot₁' nrm₁ F F' damp y x0 j = SLS.seq A dot₂ dot₂' nrm₂ F F' damp y x0 j ∧ ∀ t, SLS.seq A dot₁ dot₁' nrm₁ F F' damp y x0 j = .ok t → t.Sized N M D' ∧ P t.c ∧ P' t.q := by
  have hc : ∀ {x : SVec K} {k : Nat}, x.v.length = k → (x.conj A).v.length = k := fun h => SVec.length_conj A h
  have hstart : SLS.start A dot₁ nrm₁ F F' damp y x0 = SLS.start A dot₂ nrm₂ F F' damp y x0 ∧ ∀ t, SLS.start A dot₁ nrm₁ F F' damp y x0 = .ok t → t.Sized N M D' ∧ P t.c ∧ P' t.q := by
    have h1 := SVec.length_copy A hx
    have h2 := SVec.length_sub A hy (hF _ h1 dx)
    have h3 := SVec.length_sub A (hF' _ h2 dy) (SVec.length_scale A damp h1)
    simp only [SLS.start, bind, Except.bind, hn _ h2 (hPP _ (hz _ _ _)), hd _ _ h3 (hc h3) (hz _ _ _) (hm _ _), hd _ _ h1 (hc h1) (hm _ _) (hm _ _)]
    cases A.pySq (nrm₂ (SVec.sub A y (F (SVec.copy A x0)))) with
    | error e => exact ⟨trivial, fun s h => by cases h⟩
    | ok q =>
      refine ⟨trivial, fun t h => ?_⟩
      injection h with h
      subst h
      exact ⟨⟨h1, h2, SVec.length_copy A h3, hF _ (SVec.length_copy A h3) (hD _ h2 dy), dy⟩, hm _ _, hP _ (SVec.length_copy A h3) (hD _ h2 dy)⟩
  have hnext : ∀ d t, SLS.Sized t N M D' → P t.c → P' t.q → SLS.next A dot₁ dot₁' nrm₁ F F' d t = SLS.next A dot₂ dot₂' nrm₂ F F' d t ∧
      ∀ t', SLS.next A dot₁ dot₁' nrm₁ F F' d t = .ok t' → t'.Sized N M D' ∧ P t'.c ∧ P' t'.q := by
    intro d t ht pc pq
    simp only [SLS.next, bind, Except.bind, hd' _ _ ht.q (hc ht.q) pq (hPP _ (hm _ _)), hd _ _ ht.c (hc ht.c) pc (hm _ _)]
    cases A.npDiv t.k (A.add (dot₂' t.q (SVec.conj A t.q)) (A.mul d (dot₂ t.c (SVec.conj A t.c)))) with
    | error e => exact ⟨rfl, fun s h => by cases h⟩
    | ok a =>
      have h1 := SVec.length_add A ht.x (SVec.length_scale A (A.abs a) ht.c)
      have h2 := SVec.length_sub A ht.s (SVec.length_scale A (A.abs a) ht.q)
      have d2 : D' (SVec.sub A t.s (SVec.scale A (A.abs a) t.q)).dt := ht.sd
      have pX : P (SVec.add A t.x (SVec.scale A (A.abs a) t.c)) := hz _ _ _
      have pS : P (SVec.sub A t.s (SVec.scale A (A.abs a) t.q)) := hz _ _ _
      simp only
      generalize hX : SVec.add A t.x (SVec.scale A (A.abs a) t.c) = X at *
      generalize hS : SVec.sub A t.s (SVec.scale A (A.abs a) t.q) = S at *
      have h3 := SVec.length_sub A (hF' _ h2 d2) (SVec.length_scale A d h1)
      simp only [hd _ _ h3 (hc h3) (hz _ _ _) (hm _ _), hn _ h2 (hPP _ pS), hd _ _ h1 (hc h1) pX (hm _ _)]
      have d3 : D (SVec.sub A (F' S) (SVec.scale A d X)).dt := hD _ h2 d2
      generalize hR : SVec.sub A (F' S) (SVec.scale A d X) = R at *
      cases A.pyDiv (A.abs (dot₂ R (SVec.conj A R))) t.k with
      | error e => exact ⟨trivial, fun s h => by cases h⟩
      | ok b =>
        simp only
        cases A.pySq (nrm₂ S) with
        | error e => exact ⟨trivial, fun s h => by cases h⟩
        | ok q =>
          have h4 := SVec.length_add A h3 (SVec.length_scale A b ht.c)
          refine ⟨trivial, fun t h => ?_⟩
          injection h with h
          subst h
          exact ⟨⟨h1, h2, h4, hF _ h4 d3, d2⟩, hz _ _ _, hP _ h4 d3⟩
  induction j with
  | zero =>
    simp only [SLS.seq, bind, Except.bind]
    cases A.pySq damp with
    | error e => exact ⟨rfl, fun s h => by cases h⟩
    | ok d => exact hstart
  | succ j ih =>
    simp only [SLS.seq, bind, Except.bind]
    cases A.pySq damp with
    | error e => exact ⟨rfl, fun s h => by cases h⟩
    | ok d =>
      simp only
      rw [← ih.1]
      cases hs : SLS.seq A dot₁ dot₁' nrm₁ F F' damp y x0 j with
      | error e => exact ⟨rfl, fun s h => by cases h⟩
      | ok t => exact hnext d t (ih.2 t hs).1 (ih.2 t hs).2.1 (ih.2 t hs).2.2

end Verif

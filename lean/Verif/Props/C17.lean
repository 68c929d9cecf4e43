/- C17 (incompatible operands are rejected), C18 (reported on every rank: violated),
   C50 (zeros_like is neutral: violated with a mask). -/
import Verif.Proofs.Reduce
import Verif.Props.C20
import Verif.MPI.Wf

namespace Verif
open NDArray

set_option linter.unusedSectionVars false

variable {K : Type} [Field K] [StarRing K] [CharZero K] {n : Nat} {J : Nat → Nat → K}

/-- The operands have the same partition, local shape and mask on this rank. -/
def Compatible (d e : DArr K) : Prop := d.part = e.part ∧ d.lshape = e.lshape ∧ d.mask = e.mask

/-- the operations of C17 -/
inductive BinOp | add | iadd | mul | dot

/-- run the operation and forget the result -/
def BinOp.run (c : Ctx K) (d e : DArr K) : BinOp → P K Unit
  | .add => do let _ ← d.add c e; return ()
  | .iadd => do let _ ← d.iadd c e; return ()
  | .mul => do let _ ← d.mul c e; return ()
  | .dot => do let _ ← d.dot c e; return ()

omit [CharZero K] in
theorem checkCompat_eq (d e : DArr K) [Decidable (Compatible d e)] :
    d.checkCompat e = if Compatible d e then .ret () else .throw .value := by
  by_cases h1 : d.part = e.part <;> by_cases h2 : d.lshape = e.lshape <;> by_cases h3 : d.mask = e.mask <;>
    simp [DArr.checkCompat, Compatible, h1, h2, h3]

/-- **C17**.  On a rank `r` where the operands are incompatible, `add`, `iadd`, `multiply` and `dot`
    end with ValueError on that rank in every execution, whatever the other ranks do; and the
    exception is raised before any MPI call or value. -/
theorem C17_incompatible (c : Ctx K) (d e : DArr K) (h : ¬ Compatible d e) (op : BinOp) :
    op.run c d e = .throw .value ∧
    ∀ (ps : Nat → P K Unit) (r : Nat), ps r = op.run c d e → RankEnds n ps r (.error .value) := by
  classical
  have e1 : op.run c d e = .throw .value := by
    cases op <;>
      simp [BinOp.run, DArr.add, DArr.iadd, DArr.mul, DArr.dot, checkCompat_eq, h]
  exact ⟨e1, fun ps r hr => RankEnds.of_steps .refl (by rw [hr, e1]; rfl)⟩

/-- Conversely, when all ranks' operands are parts of arrays of the same layout, none of the
    operations is rejected (for `dot`, broadcast operands must hold the same data on all ranks). -/
theorem C17_compatible_accepted (L : Layout) (dt : DType) (a b : Nat → List K) (hL : L.WF n)
    (ha : L.Good n dt a) (hb : L.Good n dt b) :
    (∀ r, Compatible (L.fam n dt a r) (L.fam n dt b r)) ∧
    (∀ op : BinOp, (op = .dot → L.Agree n a ∧ L.Agree n b) → Always n (fun r => op.run (env n J r) (L.fam n dt a r) (L.fam n dt b r))
      (fun _ => .ok ())) := by
  refine ⟨fun r => ⟨rfl, rfl, rfl⟩, fun op hop => ?_⟩
  cases op with
  | add => exact (Runs.bind_ok (runs_add hL ha hb) (k := fun _ _ => .ret ()) (Runs.ret fun _ => ())).always
  | iadd => exact (Runs.bind_ok (runs_iadd ha hb) (k := fun _ _ => .ret ()) (Runs.ret fun _ => ())).always
  | mul => exact (Runs.bind_ok (runs_mul hL ha hb) (k := fun _ _ => .ret ()) (Runs.ret fun _ => ())).always
  | dot =>
    rcases Nat.eq_zero_or_pos n with rfl | hn
    · exact Runs.of_zero.always
    · exact (Runs.bind_ok (runs_dot hn hL ha hb (hop rfl).1 (hop rfl).2) (k := fun _ _ => .ret ()) (Runs.ret fun _ => ())).always

/-- **C18**, partial: the claim holds when the operands are incompatible on *every* rank.  The full
    claim ("on some rank" implies an exception on all ranks) is false: see `C18_violated` and
    `C18_characterization`. -/
theorem C18_partial (d e : Nat → DArr K) (h : ∀ r < n, ¬ Compatible (d r) (e r)) :
    Always n (fun r => (d r).add (env n J r) (e r)) (fun _ => .error .value) := by
  classical
  refine (Runs.congr (Runs.throw fun _ => .value) (fun r hr => ?_) (fun _ _ => rfl)).always
  simp [DArr.add, checkCompat_eq, h r hr]

open Classical in
/-- What `x + y` does for operands that are incompatible on some rank: every execution ends with
    ValueError on the ranks where they differ, and with the other ranks waiting forever. -/
theorem C18_characterization (d e : Nat → DArr K) (q : Nat) (hq : q < n) (hqe : ¬ Compatible (d q) (e q)) :
    Ends n (fun r => (d r).add (env n J r) (e r))
      (fun r => if Compatible (d r) (e r) then none else some (.error .value)) := by
  refine Ends.of_blocked .refl fun r hr => ?_
  by_cases hc : Compatible (d r) (e r)
  · simp only [if_pos hc]
    right
    refine ⟨.allgather, List.range n, Enc.enc (d r).lshape, fun ms => ((Prog.lift (decAll ms)).bind fun ls => mkDArr (env n J r) (d r).gshape (d r).part (d r).axis
        (some ls) (d r).mask (d r).dtype).bind fun x =>
          (Prog.lift (NDArray.zip (· + ·) (d r).larr (e r).larr)).bind fun v => x.setAll (env n J r) v,
      ?_, q, by simpa using hq, fun v' k' h => ?_⟩
    · simp only [DArr.add, checkCompat_eq, if_pos hc, Prog.bind_eq, Prog.ret_bind]
      rfl
    · simp [DArr.add, checkCompat_eq, hqe] at h
  · simp only [if_neg hc]
    simp [DArr.add, checkCompat_eq, hc]

/-- **C18 is false**: on 3 ranks, `x` with local shapes (2),(1),(1) and `y` with (1),(2),(1), both
    well laid out arrays of global shape (4): ranks 0 and 1 raise ValueError, rank 2 waits forever
    in every execution. -/
theorem C18_violated : ∃ (L L' : Layout) (a b : Nat → List ℚ), L.WF 3 ∧ L'.WF 3 ∧ L.gshape = L'.gshape ∧
    L.Good 3 .real a ∧ L'.Good 3 .real b ∧
    Ends 3 (fun r => (L.fam 3 .real a r).add (env 3 (fun _ _ => 0) r) (L'.fam 3 .real b r))
      (fun r => if r = 2 then none else some (.error .value)) := by
  refine ⟨⟨[4], .scatter, 0, fun r => if r = 0 then 2 else 1, none⟩,
    ⟨[4], .scatter, 0, fun r => if r = 1 then 2 else 1, none⟩,
    fun r => List.replicate (if r = 0 then 2 else 1) 1, fun r => List.replicate (if r = 1 then 2 else 1) 1,
    ⟨by simp, by intro _; rfl, by simp⟩, ⟨by simp, by intro _; rfl, by simp⟩, rfl,
    ⟨fun r _ => by simp [Layout.lshape, Partition.isBroadcast], fun _ _ _ _ _ => rfl, by simp⟩,
    ⟨fun r _ => by simp [Layout.lshape, Partition.isBroadcast], fun _ _ _ _ _ => rfl, by simp⟩, ?_⟩
  have := C18_characterization (n := 3) (J := fun _ _ => (0 : ℚ))
    (fun r => (Layout.mk [4] .scatter 0 (fun r => if r = 0 then 2 else 1) none).fam 3 .real
      (fun r => List.replicate (if r = 0 then 2 else 1) 1) r)
    (fun r => (Layout.mk [4] .scatter 0 (fun r => if r = 1 then 2 else 1) none).fam 3 .real
      (fun r => List.replicate (if r = 1 then 2 else 1) 1) r) 0 (by decide)
    (by simp [Compatible, Layout.fam, Layout.lshape, Partition.isBroadcast])
  refine ⟨this.terminates, fun s h1 h2 r hr => ?_⟩
  have h3 := this.outcome s h1 h2 r hr
  match r, hr with
  | 0, _ => simpa [Compatible, Layout.fam, Layout.lshape, Partition.isBroadcast] using h3
  | 1, _ => simpa [Compatible, Layout.fam, Layout.lshape, Partition.isBroadcast] using h3
  | 2, _ => simpa [Compatible, Layout.fam, Layout.lshape, Partition.isBroadcast] using h3

/-- Non-vacuity of C17 / C18_partial: masked against unmasked operand. -/
example : ¬ Compatible ((Layout.mk [2] .scatter 0 (fun _ => 1) (some [0, 1])).fam 2 .real (fun _ => [(1 : ℚ)]) 0)
    ((Layout.mk [2] .scatter 0 (fun _ => 1) none).fam 2 .real (fun _ => [(1 : ℚ)]) 0) := by
  simp [Compatible, Layout.fam]

/-! ### C50 -/

/-- **C50**, partial: without a mask, `x + x.zeros_like()` is `x` (same layout and data on every
    rank).  With a mask the claim is false: `C50_violated`. -/
theorem C50_partial (L : Layout) (dt : DType) (a : Nat → List K) (hL : L.WF n) (ha : L.Good n dt a)
    (hm : L.mask = none) :
    Always n (fun r => do
        let z ← (L.fam n dt a r).zerosLike (env n J r)
        (L.fam n dt a r).add (env n J r) z)
      (fun r => .ok (L.fam n dt a r)) := by
  have hu : L.unmask = L := by cases L; simp [Layout.unmask] at hm ⊢; exact hm.symm
  have hz : L.Good n dt fun r => List.replicate (L.lshape r).prod (0 : K) := by
    refine ⟨fun r _ => by simp, fun r _ _ x hx => ?_, fun hb r _ => ?_⟩
    · rw [List.eq_of_mem_replicate hx]; simp
    · have hb' : L.part.isBroadcast = true := by simp [hb, Partition.isBroadcast]
      simp [lshape_bcast hb']
  have h1 := runs_zerosLike (J := J) (dt := dt) (a := a) hL
  rw [hu] at h1
  refine (Runs.bind_ok h1 ((runs_add (J := J) hL ha hz).congr (fun _ _ => rfl) fun r hr => ?_)).always
  congr 1
  apply fam_congr
  have h2 : ∀ (l : List K) (m : Nat), l.length = m → List.zipWith (· + ·) l (List.replicate m 0) = l := by
    intro l
    induction l with
    | nil => simp
    | cons x l ih => intro m hm; subst hm; simp [List.replicate_succ, ih]
  exact h2 _ _ (ha.length r hr)

/-- **C50 is false with a mask**: for every masked array, on any number of ranks,
    `x + x.zeros_like()` raises ValueError on every rank, in every execution. -/
theorem C50_violated (L : Layout) (dt : DType) (a : Nat → List K) (hL : L.WF n) (m : List Nat)
    (hm : L.mask = some m) :
    Always n (fun r => do
        let z ← (L.fam n dt a r).zerosLike (env n J r)
        (L.fam n dt a r).add (env n J r) z)
      (fun _ => .error .value) := by
  refine (Runs.bind_ok (runs_zerosLike (J := J) (dt := dt) (a := a) hL)
    (Runs.congr (Runs.throw fun _ => .value) (fun r hr => ?_) (fun _ _ => rfl))).always
  have : ¬ Compatible (L.fam n dt a r) (L.unmask.fam n dt (fun r => List.replicate (L.lshape r).prod 0) r) := by
    simp [Compatible, Layout.fam, Layout.unmask, hm]
  classical
  simp [DArr.add, checkCompat_eq, this]

/-- Non-vacuity: masked and unmasked arrays on two ranks. -/
example : ∀ mask ∈ [none, some [0, 1]], (Layout.mk [3] .scatter 0 (fun r => 2 - r) mask).WF 2 ∧
    (Layout.mk [3] .scatter 0 (fun r => 2 - r) mask).Good 2 .real (fun r => if r = 0 then [1, 2] else [(3 : ℚ)]) := by
  intro mask hm
  refine ⟨⟨by simp, fun _ => rfl, fun m h => ?_⟩, ⟨fun r hr => ?_, fun _ _ _ _ _ => rfl, by simp⟩⟩
  · simp only [List.mem_cons, List.not_mem_nil, or_false] at hm
    rcases hm with rfl | rfl
    · cases h
    · injection h with h; subst h; simp
  · match r, hr with
    | 0, _ => rfl
    | 1, _ => rfl

end Verif

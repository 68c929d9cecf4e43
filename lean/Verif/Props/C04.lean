/- C04: writes to SCATTER and UNSAFE_BROADCAST arrays are local. -/
import Verif.Props.C20

namespace Verif
open NDArray

variable {K : Type} [Field K] [StarRing K] [CharZero K] {n : Nat} {J : Nat → Nat → K}

/-- **C04** (no communication).  For a SCATTER or UNSAFE_BROADCAST array, assignment performs no
    MPI call: it is a local computation, whose outcome depends only on the rank's own array, the
    index and the value supplied by that rank. -/
theorem C04_no_communication (c : Ctx K) (d : DArr K) (hp : d.part ≠ .broadcast) (ix : Index) (v : NDArray K) :
    d.setItem c ix v = Prog.lift ((setIndex ix d.larr v).map fun b => { d with larr := b }) := by
  simp only [DArr.setItem, if_neg hp, Prog.bind_eq]
  cases setIndex ix d.larr v <;> rfl

/-- **C04** (effect).  An arbitrary subset `W` of the ranks assigns rank-dependent values `v r`.
    Every execution terminates; afterwards each writing rank `r` holds its array updated with
    `v r` (or raised, if NumPy rejects the assignment), and all other ranks hold what they held. -/
theorem C04_local_writes (L : Layout) (dt : DType) (a : Nat → List K) (hp : L.part ≠ .broadcast)
    (W : Nat → Bool) (ix : Index) (v : Nat → NDArray K) :
    Always n (fun r => if W r then (L.fam n dt a r).setItem (env n J r) ix (v r) else .ret (L.fam n dt a r))
      (fun r => if W r then (setIndex ix ⟨L.lshape r, dt, a r⟩ (v r)).map fun b => { L.fam n dt a r with larr := b }
        else .ok (L.fam n dt a r)) := by
  refine (Runs.congr (Runs.lift _) (fun r _ => ?_) (fun _ _ => rfl)).always
  by_cases hw : W r = true
  · rw [if_pos hw, if_pos hw, C04_no_communication _ _ hp]; rfl
  · rw [if_neg hw, if_neg hw]; rfl

/-- **C04** (value).  `x[:] = v` with a value of the local shape and dtype stores exactly that value. -/
theorem C04_whole_array (L : Layout) (dt : DType) (a b : Nat → List K) (hp : L.part ≠ .broadcast)
    (ha : L.Good n dt a) (hb : L.Good n dt b) (W : Nat → Bool) :
    Always n (fun r => if W r then (L.fam n dt a r).setAll (env n J r) ⟨L.lshape r, dt, b r⟩ else .ret (L.fam n dt a r))
      (fun r => .ok (L.fam n dt (fun r => if W r then b r else a r) r)) := by
  refine (Runs.congr (Runs.ret _) (fun r hr => ?_) (fun _ _ => rfl)).always
  by_cases hw : W r = true
  · rw [if_pos hw, DArr.setAll, C04_no_communication _ _ hp]
    rw [setIndex_all (a := (L.fam n dt a r).larr) (v := ⟨L.lshape r, dt, b r⟩) (ha.length r hr) rfl (hb.length r hr)]
    simp only [Except.map, Prog.lift_ok, Layout.fam, hw, if_true]
    rw [castTo_of_fits (hb.fits r hr)]
  · rw [if_neg hw]; simp [Layout.fam, hw]

/-- Non-vacuity, and contrast with BROADCAST: two ranks, only rank 1 writes.  On an
    UNSAFE_BROADCAST array both ranks terminate; on a BROADCAST array rank 1 waits forever. -/
example : (Layout.mk [1] .unsafeBroadcast 0 (fun _ => 0) none).Good 2 .real (fun r => [(r : ℚ)]) ∧
    Ends 2 (fun r => if r = 1 then
        ((Layout.mk [1] .broadcast 0 (fun _ => 0) none).fam 2 .real (fun _ => [(0 : ℚ)]) r).setAll
          (env 2 (fun _ _ => 0) r) ⟨[1], .real, [5]⟩
      else .ret ((Layout.mk [1] .broadcast 0 (fun _ => 0) none).fam 2 .real (fun _ => [(0 : ℚ)]) r))
      (fun r => if r = 1 then none else some (.ok
        ((Layout.mk [1] .broadcast 0 (fun _ => 0) none).fam 2 .real (fun _ => [(0 : ℚ)]) r))) := by
  refine ⟨⟨fun _ _ => rfl, fun _ _ _ _ _ => rfl, by simp⟩, Ends.of_blocked .refl fun r hr => ?_⟩
  match r, hr with
  | 0, _ => rfl
  | 1, _ => exact .inl ⟨0, bcastTag, _, rfl⟩

end Verif

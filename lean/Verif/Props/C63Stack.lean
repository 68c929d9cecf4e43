/- C63: MPIVStack on other communicators rejects operators that do not fit together; what `reshaped` returns. -/
import Verif.Props.C63
import Verif.Props.C16

namespace Verif
open NDArray

variable {K : Type} [Field K] [StarRing K] [CharZero K] {n : Nat} {J : Nat → Nat → K} {C : Comms n}

/-- **C63** (MPIVStack, rejection).  With operators of different column counts on each of the communicators the constructor raises ValueError on all ranks. -/
theorem C63_vstack_reject {ops : Nat → List (LOp K)} {dtype : Option DType}
    (h : ∀ r < n, ∃ q ∈ C.mem (C.grp r), ∃ q' ∈ C.mem (C.grp r), ∃ o ∈ ops q, ∃ o' ∈ ops q', o.cols ≠ o'.cols) :
    Always n (fun r => mkVStackOn (C.base J r) (ops r) dtype) (fun _ => .error .value) := by
  refine Runs.always ?_
  unfold mkVStackOn
  simp only [Prog.bind_eq]
  refine runs_allgather_on C (J := J) (v := fun r => [((ops r).map (·.rows)).sum]) ?_
  refine runs_allgather_on C (J := J) (v := fun r => (ops r).map (·.cols)) ?_
  refine Runs.congr (Runs.throw fun _ => Err.value) (fun r hr => ?_) fun _ _ => rfl
  obtain ⟨q, hq, q', hq', o, ho, o', ho', hne⟩ := h r hr
  have m1 : o.cols ∈ ((C.mem (C.grp r)).map fun q => (ops q).map (·.cols)).flatten :=
    List.mem_flatten.2 ⟨_, List.mem_map.2 ⟨q, hq, rfl⟩, List.mem_map.2 ⟨o, ho, rfl⟩⟩
  have m2 : o'.cols ∈ ((C.mem (C.grp r)).map fun q => (ops q).map (·.cols)).flatten :=
    List.mem_flatten.2 ⟨_, List.mem_map.2 ⟨q', hq', rfl⟩, List.mem_map.2 ⟨o', ho', rfl⟩⟩
  generalize ((C.mem (C.grp r)).map fun q => (ops q).map (·.cols)).flatten = l at m1 m2
  cases l with
  | nil => simp at m1
  | cons N rest =>
    have : (rest.any fun x => decide (x ≠ N)) = true := by
      by_contra hcon
      simp only [List.any_eq_true, not_exists, decide_eq_true_eq, not_and, not_not] at hcon
      have key : ∀ y ∈ N :: rest, y = N := fun y hy => by
        rcases List.mem_cons.1 hy with e | hy
        · exact e
        · exact hcon y hy
      exact hne ((key _ m1).trans (key _ m2).symm)
    simp only [if_pos this]

/-- **C63** (`reshaped`, result).  On communicators of one rank an operator that returns a two-dimensional array gives the flattened array, distributed over the world:
    here with the operator that returns its argument. -/
theorem C63_reshaped_self_flat {m w : Nat} {a : Nat → List K} {dt : DType} (hn : 1 < n) (hk : ∀ r < n, C.size (C.grp r) = 1) (hm : ∀ r < n, (a r).length = n * m * w)
    (hf : ∀ r < n, FitsL dt (a r)) :
    Always n (fun r => reshapedOn (C.base J r) [n * m, w] none (fun y => .ret y) ((Layout.mk [n * m * w] .scatter 0 (fun _ => n * m * w) none).fam 1 dt (fun _ => a r) 0))
      (fun r => .ok ((Layout.mk [n * m * w] .scatter 0 (fun _ => m * w) none).fam n dt (fun q => (a q).take (m * w)) r)) := by
  refine Runs.always ?_
  unfold reshapedOn
  simp only [Prog.bind_eq, Prog.ret_bind]
  refine Runs.bind_ok (C63_reshaped_self (C := C) (J := J) hn hk hm hf).runs ?_
  set L : Layout := ⟨[n * m, w], .scatter, 0, fun _ => m, none⟩ with hLd
  have hbal : balanced (n * m) n = fun _ => m := by
    funext r
    unfold balanced
    rw [if_neg (by simp), Nat.mul_div_cancel_left _ (by omega)]
  have hL : L.WF n := ⟨by simp [hLd], fun _ => by
    show psum (fun _ => m) n = n * m
    rw [← hbal, psum_balanced_total _ (by omega)], by simp [hLd]⟩
  have hle : m * w ≤ n * m * w := by rw [Nat.mul_assoc]; exact Nat.le_mul_of_pos_left _ (by omega)
  have hlen : ∀ r < n, ((a r).take (m * w)).length = (L.lshape r).prod := fun r hr => by
    rw [List.length_take, hm r hr, lshape_scatter rfl]
    simp [hLd, hle]
  have hfits : ∀ r < n, FitsL dt ((a r).take (m * w)) := fun r hr h x hx => hf r hr h x (List.mem_of_mem_take hx)
  refine (runs_ravel (J := J) (L := L) (dt := dt) (a := fun q => (a q).take (m * w)) hL hlen).congr (fun r hr => ?_) fun r hr => ?_
  · rfl
  · have hs : (L.sync (fun q => (a q).take (m * w)) r).map (castTo dt) = (a r).take (m * w) := by
      unfold Layout.sync
      rw [if_neg (by simp [hLd])]
      exact castTo_of_fits (hfits r hr)
    have hsz : ∀ q, (L.lshape q).prod = m * w := fun q => by rw [lshape_scatter rfl]; simp [hLd]
    have hR : L.ravel = ⟨[n * m * w], .scatter, 0, fun _ => m * w, none⟩ := by
      unfold Layout.ravel
      congr 1
      · simp [hLd]
      · exact funext hsz
    congr 1
    rw [hR]
    unfold Layout.fam
    simp only [hs]

/-- Non-vacuity: two ranks with communicators of their own. -/
example : Always 2 (fun r => reshapedOn (selfComms.base (fun _ _ => (0 : ℚ)) r) [2 * 2, 1] none (fun y => .ret y)
      ((Layout.mk [2 * 2 * 1] .scatter 0 (fun _ => 2 * 2 * 1) none).fam 1 .real (fun _ => if r = 0 then [1, 2, 3, 4] else [5, 6, 7, 8]) 0))
    (fun r => .ok ((Layout.mk [2 * 2 * 1] .scatter 0 (fun _ => 2 * 1) none).fam 2 .real (fun q => (if q = 0 then [1, 2, 3, 4] else [5, 6, 7, 8]).take (2 * 1)) r)) :=
  C63_reshaped_self_flat (C := selfComms) (m := 2) (w := 1) (a := fun r => if r = 0 then [1, 2, 3, 4] else [5, 6, 7, 8]) (dt := .real) (by decide)
    (fun r hr => by
      match r, hr with
      | 0, _ => rfl
      | 1, _ => rfl) (fun r _ => by split_ifs <;> rfl) fun r _ => fun _ _ _ => rfl

/-- Non-vacuity: two ranks with communicators of their own, each with an operator of one column and an operator of two columns. -/
example : Always 2 (fun r => mkVStackOn (selfComms.base (fun _ _ => (0 : ℚ)) r) [.row [1], .row [1, 2]] none) (fun _ => .error .value) :=
  C63_vstack_reject (C := selfComms) (ops := fun _ => [.row [1], .row [1, 2]]) fun r hr =>
    ⟨r, Comms.mem_grp hr, r, Comms.mem_grp hr, .row [1], by simp, .row [1, 2], by simp, by simp [LOp.row]⟩

end Verif

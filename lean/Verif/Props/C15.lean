/- C15: results are schedule independent. -/
import Verif.MPI.Wf

namespace Verif

variable {M α : Type}

/-- **C15**.  The ranks `0 .. n-1` run arbitrary programs made of local computation, sends,
    receives and collectives (every API call of the model is such a program).
    * no execution is infinite;
    * all executions that cannot continue end in the same state: each rank has the same result, or
      raised the same exception, or waits forever, whatever the interleaving and the buffering;
    * if one execution completes on all ranks, then no execution deadlocks: every execution that
      cannot continue has completed on all ranks with the same results. -/
theorem C15_schedule_independent (n : Nat) (ps : Nat → Prog M α) :
    (WellFounded fun s' s : St M α => Step n s s') ∧
    (∀ s s', Run n (St.init ps) s → Stuck n s → Run n (St.init ps) s' → Stuck n s' → s = s') ∧
    (∀ ρ s, Run n (St.init ps) s → Final n s ρ →
      ∀ s', Run n (St.init ps) s' → (∃ s'', Run n s' s'' ∧ Final n s'' ρ) ∧ (Stuck n s' → Final n s' ρ)) := by
  refine ⟨step_wf n, fun s s' h hs h' hs' => ?_, fun ρ s h hf s' h' => ?_⟩
  · exact Run.stuck_eq hs' (h.to_stuck hs h')
  · have h1 := h.to_stuck hf.stuck h'
    exact ⟨⟨s, h1, hf⟩, fun hs' => by rw [← Run.stuck_eq hs' h1]; exact hf⟩

/-- **C15** for a single rank: if rank `r` has returned (or raised) in one execution, it can never
    end differently in another one, even if other ranks wait forever. -/
theorem C15_rank (n : Nat) (ps : Nat → Prog M α) (r : Nat) (o o' : Except Err α) (s s' : St M α)
    (h : Run n (St.init ps) s) (hr : s.prog r = Prog.lift o)
    (h' : Run n (St.init ps) s') (hr' : s'.prog r = Prog.lift o') : o = o' :=
  ((RankEnds.of_run h hr s' h').2 o' hr').symm

/-- Non-vacuity: two ranks exchanging messages; a buffered and an unbuffered execution. -/
example : ∃ s : St Nat Nat, Run 2 (St.init fun r => if r = 0 then .send 1 0 5 (.ret 7) else .recv 0 0 .ret) s ∧
    Final 2 s (fun r => .ok (if r = 0 then 7 else 5)) := by
  refine ⟨_, .single ⟨_, LStep.rdv (i := 0) (j := 1) (t := 0) (v := 5) (k := .ret 7) (k' := .ret)
    (by decide) (by decide) rfl rfl rfl⟩, fun r hr => ?_⟩
  match r, hr with
  | 0, _ => rfl
  | 1, _ => rfl

end Verif

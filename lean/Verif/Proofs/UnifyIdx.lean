/- A tactic used in the stencil proofs: rewrites `F a j` to `F b j` for the atoms of the goal whose indices `omega` proves equal. -/
import Mathlib.Tactic.Ring
import Lean

namespace Verif
open Lean Meta Elab Tactic

/-- applications of `F` to `k` arguments in `e` -/
partial def idxAtoms (F : Expr) (k : Nat) (e : Expr) (acc : Array Expr) : Array Expr :=
  match e with
  | .app f a =>
    let acc := idxAtoms F k a (idxAtoms F k f acc)
    if e.getAppFn == F && e.getAppNumArgs == k && !acc.contains e then acc.push e else acc
  | .mdata _ b => idxAtoms F k b acc
  | _ => acc

/-- `unify_idx F` -/
elab "unify_idx" f:ident : tactic => do
  let mut seen : Array Expr := #[]
  for _ in [0:40] do
    let s := seen
    let nxt ← withMainContext do
      let F ← elabTerm f none
      let tgt ← instantiateMVars (← getMainTarget)
      let k := (← instantiateMVars (← inferType F)).getForallBinderNames.length
      pure ((idxAtoms F k tgt #[]).find? fun a => !s.contains a)
    match nxt with
    | none => break
    | some a =>
      let mut done := false
      for b in s do
        if !done then
          let st ← saveState
          let ok ← try
            withMainContext do
              let eqn ← mkEq (a.getArg! 0) (b.getArg! 0)
              let p ← mkFreshExprMVar eqn
              let gs ← getGoals
              setGoals [p.mvarId!]
              evalTactic (← `(tactic| omega))
              setGoals gs
              let F ← elabTerm f none
              let js := a.getAppArgs.extract 1 a.getAppNumArgs
              let lam ← withLocalDeclD `z (mkConst ``Nat) fun z => mkLambdaFVars #[z] (mkAppN F (#[z] ++ js))
              let h ← mkCongrArg lam (← instantiateMVars p)
              let h ← mkExpectedTypeHint h (← mkEq a (mkAppN F (#[b.getArg! 0] ++ js)))
              let g ← getMainGoal
              let r ← g.rewrite (← g.getType) h
              let g ← g.replaceTargetEq r.eNew r.eqProof
              replaceMainGoal (g :: r.mvarIds)
            pure true
          catch _ => do
            st.restore
            pure false
          if ok then done := true
      if !done then seen := seen.push a

example (F : Nat → Nat → Int) (a b j : Nat) (h : a + 1 = b) : F (a + 2) j + F b j - F (1 + b) j = F (a + 1) j := by
  unify_idx F
  ring

example (u : Nat → Int) (a b : Nat) (h : a + 1 = b) : u (a + 2) + u b - u (1 + b) = u (a + 1) := by
  unify_idx u
  ring

end Verif

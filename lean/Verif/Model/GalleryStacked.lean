/-
  Model of the first part of one more script of the gallery: /repo/examples/plot_stacked_array.py:23-118 (the rest is `exStacked` in Model/Gallery.lean).

  The numbers of entries per rank (`p` and `q`, in the script 10 and 4) and the numbers written into the arrays (1, 2, 10, 5, 6) are parameters.  Floating-point types are one
  dtype (`real`), arithmetic is exact.  Prints are left out: the program returns the arrays and numbers that rank 0 prints.
-/
import Verif.Model.Gallery

namespace Verif
open NDArray

variable {K : Type} [RCLike K]

/-- `StackedDistributedArray([DistributedArray(size * p), DistributedArray(size * q)])`, the first filled with `u`, the second with `v` — plot_stacked_array.py:25-36 and 56-65 -/
def exPair (c : Ctx K) (p q : Nat) (u v : K) : P K (SArr K) := do
  let s1 ← mkDArr c [c.size * p] .scatter 0 none none .real                     -- :25-27, :56-58
  let s2 ← mkDArr c [c.size * q] .scatter 0 none none .real                     -- :28-30, :59-61
  let s1 ← s1.setAll c (scalar .real u)                                          -- :32, :63
  let s2 ← s2.setAll c (scalar .real v)                                          -- :32, :63
  .ret [s1, s2]                                                                 -- :37, :64

/-- `if rank == 0: arr[0][:] = w` — plot_stacked_array.py:47-48 (IndexError if the stack has no arrays) -/
def exModify (c : Ctx K) (w : K) (x : SArr K) : P K (SArr K) :=
  if c.rank = 0 then
    match x with
    | [] => .throw .index
    | d :: l => do
      let d ← d.setAll c (scalar .real w)
      .ret (d :: l)
  else .ret x

/-- what rank 0 prints -/
structure StackShow (K : Type) where
  full1 : NDArray K
  modified : NDArray K
  full2 : NDArray K
  neg : NDArray K
  sum : NDArray K
  sub : NDArray K
  mult : NDArray K
  dot : K
  l0 : FNum
  l1 : FNum
  l2 : FNum
  linf : FNum

/-- plot_stacked_array.py:25-118 -/
noncomputable def exStackOps (c : Ctx K) (p q : Nat) (u₁ u₂ w v₁ v₂ : K) : P K (StackShow K) := do
  let a ← exPair c p q u₁ u₂                                                    -- :25-37
  let f1 ← SArr.asarray c a                                                     -- :42
  let a ← exModify c w a                                                        -- :47-48
  let fm ← SArr.asarray c a                                                     -- :49
  let b ← exPair c p q v₁ v₂                                                    -- :56-64
  let f2 ← SArr.asarray c b                                                     -- :68
  let x ← SArr.neg c a                                                          -- :74
  let fneg ← SArr.asarray c x                                                   -- :75
  let x ← SArr.add c a b                                                        -- :81
  let fsum ← SArr.asarray c x                                                   -- :82
  let x ← SArr.sub' c a b                                                       -- :88
  let fsub ← SArr.asarray c x                                                   -- :89
  let x ← SArr.mul c a b                                                        -- :95
  let fmul ← SArr.asarray c x                                                   -- :96
  let d ← SArr.dot c a b                                                        -- :102
  let l0 ← SArr.norm c a (.num 0)                                               -- :109
  let l1 ← SArr.norm c a (.num 1)                                               -- :110
  let l2 ← SArr.norm c a (.num 2)                                               -- :111
  let li ← SArr.norm c a .inf                                                   -- :112
  .ret ⟨f1, fm, f2, fneg, fsum, fsub, fmul, d, l0, l1, l2, li⟩

end Verif

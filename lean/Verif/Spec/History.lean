/-
  Client programs: arbitrary sequences of API calls on a store of distributed arrays.

  Every rank executes the same sequence of calls (SPMD); only the values assigned may depend on
  the rank.
-/
import Verif.Model.DistributedArray
import Verif.Spec.Layout

namespace Verif
open NDArray

variable {K : Type} [Field K] [StarRing K]

/-- A NumPy array whose shape and dtype are the same on all ranks and whose entries are supplied
    by each rank. -/
structure Val (K : Type) where
  shape : List Nat
  dtype : DType
  entry : Nat → Nat → K

/-- the array supplied by rank `r` -/
def Val.on (v : Val K) (r : Nat) : NDArray K :=
  ⟨v.shape, v.dtype, (List.range v.shape.prod).map fun i => castTo v.dtype (v.entry r i)⟩

/-- API calls; `i`, `j` are positions in the store. -/
inductive Cmd (K : Type)
  /-- `DistributedArray(...)` left uninitialised -/
  | new (gshape : List Nat) (part : Partition) (axis : Nat) (lshapes : Option (List (List Nat)))
      (mask : Option (List Nat)) (dt : DType)
  /-- `d = DistributedArray(...); d[:] = v` -/
  | newSet (gshape : List Nat) (part : Partition) (axis : Nat) (lshapes : Option (List (List Nat)))
      (mask : Option (List Nat)) (dt : DType) (v : Val K)
  /-- `DistributedArray.to_dist(x, ...)` -/
  | toDist (x : Val K) (part : Partition) (axis : Nat) (lshapes : Option (List (List Nat)))
      (mask : Option (List Nat))
  /-- `d_i[ix] = v` -/
  | set (i : Nat) (ix : Index) (v : Val K)
  | neg (i : Nat)
  | add (i j : Nat)
  | iadd (i j : Nat)
  | sub (i j : Nat)
  | isub (i j : Nat)
  | mul (i j : Nat)
  | smul (i : Nat) (t : DType) (s : K)
  | conj (i : Nat)
  | copy (i : Nat)
  | zerosLike (i : Nat)
  | ravel (i : Nat)

/-- the array is written before it can be read -/
def Cmd.Init : Cmd K → Prop
  | .new .. => False
  | _ => True

/-- look up an array (the client raises if there is none) -/
def getVar (σ : List (DArr K)) (i : Nat) : P K (DArr K) :=
  match σ[i]? with
  | some d => .ret d
  | none => .throw .attribute

/-- One API call, executed by rank `c.rank` on its store: out-of-place calls append their result,
    in-place calls replace the array. -/
def Cmd.run (c : Ctx K) (σ : List (DArr K)) : Cmd K → P K (List (DArr K))
  | .new g p ax ls m dt => do return σ ++ [← mkDArr c g p ax ls m dt]
  | .newSet g p ax ls m dt v => do
      let d ← mkDArr c g p ax ls m dt
      return σ ++ [← d.setAll c (v.on c.rank)]
  | .toDist x p ax ls m => do return σ ++ [← Verif.toDist c (x.on c.rank) p ax ls m]
  | .set i ix v => do
      let d ← getVar σ i
      return σ.set i (← d.setItem c ix (v.on c.rank))
  | .neg i => do return σ ++ [← (← getVar σ i).neg c]
  | .add i j => do return σ ++ [← (← getVar σ i).add c (← getVar σ j)]
  | .iadd i j => do return σ.set i (← (← getVar σ i).iadd c (← getVar σ j))
  | .sub i j => do return σ ++ [← (← getVar σ i).sub' c (← getVar σ j)]
  | .isub i j => do return σ.set i (← (← getVar σ i).isub c (← getVar σ j))
  | .mul i j => do return σ ++ [← (← getVar σ i).mul c (← getVar σ j)]
  | .smul i t s => do return σ ++ [← (← getVar σ i).smul c t s]
  | .conj i => do return σ ++ [← (← getVar σ i).conj c]
  | .copy i => do return σ ++ [← (← getVar σ i).copy c]
  | .zerosLike i => do return σ ++ [← (← getVar σ i).zerosLike c]
  | .ravel i => do return σ ++ [← (← getVar σ i).ravel c]

/-- A history of API calls. -/
def runHistory (c : Ctx K) : List (Cmd K) → List (DArr K) → P K (List (DArr K))
  | [], σ => .ret σ
  | cmd :: h, σ => do runHistory c h (← cmd.run c σ)

end Verif

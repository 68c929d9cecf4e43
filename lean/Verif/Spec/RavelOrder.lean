/-
  Flattening: the place of the entry with a given multi-index.
-/
import Mathlib.Algebra.BigOperators.Group.List.Basic

namespace Verif

/-- the multi-index `ix` is valid for the shape -/
def ValidIdx : List Nat → List Nat → Prop
  | [], [] => True
  | m :: s, i :: ix => i < m ∧ ValidIdx s ix
  | _, _ => False

/-- the place of the entry in C order: the last index runs fastest -/
def cPlace : List Nat → List Nat → Nat
  | m :: s, i :: ix => i * s.prod + cPlace s ix
  | _, _ => 0

/-- the place of the entry in Fortran order: the first index runs fastest -/
def fPlace : List Nat → List Nat → Nat
  | m :: s, i :: ix => i + m * fPlace s ix
  | _, _ => 0

end Verif

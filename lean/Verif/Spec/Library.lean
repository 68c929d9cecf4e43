/-
  The operators that a user can build with the library.
-/
import Verif.Model.HeapLeaves
import Verif.Spec.Heap
import Verif.MPI.Runs

namespace Verif
open NDArray

variable {K : Type} [Field K] [StarRing K]

/-- `a` is a result of the program `m` on some rank, in some execution with any programs on the other ranks, beginning with any memory -/
def ResultOf {α : Type} (m : HP K α) (a : α) : Prop :=
  ∃ (n r : Nat) (h h' : Heap K) (ps : Nat → P K (Except Err α × Heap K)) (s : St (Msg K) (Except Err α × Heap K)), r < n ∧ h.WF ∧ ps r = m h ∧ Run n (St.init ps) s ∧ s.prog r = .ret (.ok a, h')

/-- operators of their own class: the classes of the library, and user-defined classes whose `_matvec` and `_rmatvec` return a new array computed from the value of the argument -/
inductive Library : HPrim K → Prop
  | user (p : Prim K) : Library p.heap
  | wrap (o : LOp K) : Library (hwrap o)
  | firstDerivative (k : FDKind) (o : Deriv K) : Library (hfirstDerivative k o)
  | secondDerivative (k : SDKind) (o : Deriv K) : Library (hsecondDerivative k o)
  | blockDiag {c : Ctx K} {ops : List (LOp K)} {mask : Option (List Nat)} {dt : Option DType} {q : HPrim K} (hq : ResultOf (hmkBlockDiag c ops mask dt) q) : Library q
  | vstack {c : Ctx K} {ops : List (LOp K)} {dt : Option DType} {q : HPrim K} (hq : ResultOf (hmkVStack c ops dt) q) : Library q
  | hstack {c : Ctx K} {ops : List (LOp K)} {dt : Option DType} {q : HPrim K} (hq : ResultOf (hmkHStack c ops dt) q) : Library q
  | laplacian {c : Ctx K} {sd : Serial K SDKind} {dims axes : List Nat} {weights : List (Scal K)} {sampling : List K} {edge : Bool} {kind : SDKind} {dt : DType} {q : HPrim K}
      (hq : ResultOf (hmkLaplacian c sd dims axes weights sampling edge kind dt) q) : Library q
  | fredholm {c : Ctx K} {G : NDArray K} {nz : Nat} {saveGt usematmul : Bool} {dt : DType} {q : HPrim K} (hq : ResultOf (hmkFredholm c G nz saveGt usematmul dt) q) : Library q

/-- expressions of operators: everything that can be built with `H`, `T`, `*`, `+`, `-`, `**` and `conj` -/
inductive LibM : MOp K (HPrim K) → Prop
  | leaf {q : HPrim K} (hq : Library q) : LibM (.leaf q)
  | mdc {c : Ctx K} {fft : Nat → Nat → Nat → Bool → LOp K} {sqrt : Nat → K} {G : NDArray K} {nt nv nfreq : Nat} {dt dr : K} {twosided saveGt conj usematmul prescaled : Bool}
      {q : MOp K (HPrim K) × DType} (hq : ResultOf (hmkMDC c fft sqrt G nt nv nfreq dt dr twosided saveGt conj usematmul prescaled) q) : LibM q.1
  | adj {A : MOp K (HPrim K)} (hA : LibM A) : LibM (.adj A)
  | trans {A : MOp K (HPrim K)} (hA : LibM A) : LibM (.trans A)
  | prod {A B : MOp K (HPrim K)} (hA : LibM A) (hB : LibM B) : LibM (.prod A B)
  | scaled {A : MOp K (HPrim K)} (hA : LibM A) (s : Scal K) : LibM (.scaled A s)
  | sum {A B : MOp K (HPrim K)} (hA : LibM A) (hB : LibM B) : LibM (.sum A B)
  | pow {A : MOp K (HPrim K)} (hA : LibM A) (p : Nat) : LibM (.pow A p)
  | conj {A : MOp K (HPrim K)} (hA : LibM A) : LibM (.conj A)

/-- expressions of stacked operators -/
inductive LibS : SOp K (HPrim K) → Prop
  | vstack {ops : List (MOp K (HPrim K))} (hA : ∀ o ∈ ops, LibM o) : LibS (.vstack ops)
  | bdiag {ops : List (MOp K (HPrim K))} (hA : ∀ o ∈ ops, LibM o) : LibS (.bdiag ops)
  | gradient {c : Ctx K} {fd : Serial K FDKind} {dims : List Nat} {sampling : List K} {edge : Bool} {kind : FDKind} {dt : DType} {q : SOp K (HPrim K)}
      (hq : ResultOf (hmkGradient c fd dims sampling edge kind dt) q) : LibS q
  | adj {A : SOp K (HPrim K)} (hA : LibS A) : LibS (.adj A)
  | trans {A : SOp K (HPrim K)} (hA : LibS A) : LibS (.trans A)
  | prod {A B : SOp K (HPrim K)} (hA : LibS A) (hB : LibS B) : LibS (.prod A B)
  | scaled {A : SOp K (HPrim K)} (hA : LibS A) (s : Scal K) : LibS (.scaled A s)
  | sum {A B : SOp K (HPrim K)} (hA : LibS A) (hB : LibS B) : LibS (.sum A B)
  | pow {A : SOp K (HPrim K)} (hA : LibS A) (p : Nat) : LibS (.pow A p)
  | conj {A : SOp K (HPrim K)} (hA : LibS A) : LibS (.conj A)

end Verif

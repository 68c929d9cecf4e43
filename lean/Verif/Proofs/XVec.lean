/- Operations on vectors that are distributed arrays or stacks of them. -/
import Verif.Spec.StackedOperator
import Verif.Proofs.StackedNorm

set_option linter.unusedSectionVars false

namespace Verif
open NDArray

section
variable {K : Type} [Field K] [StarRing K] [CharZero K] {n : Nat} {J : Nat → Nat → K} {S : XSpace}

theorem Runs.map_ok {α β : Type} {ps : Nat → P K α} {a : Nat → α} (f : α → β) (h : Runs n ps (fun r => .ok (a r))) :
    Runs n (fun r => (ps r).bind fun y => .ret (f y)) (fun r => .ok (f (a r))) := Runs.bind_ok h (Runs.ret _)

theorem XSpace.Mem.length {d : List K} (h : S.Mem d) : d.length = S.dim := by
  cases S with
  | one V => exact h.1
  | stack S => exact SSpace.Mem.length h

theorem XSpace.Mem.map {f : K → K} (hf : S.HasReal → ∀ x, star x = x → star (f x) = f x) {d : List K} (h : S.Mem d) : S.Mem (d.map f) := by
  cases S with
  | one V => exact mem_map hf h
  | stack S => exact SSpace.Mem.map (fun V hV hr => hf ⟨V, hV, hr⟩) h

theorem XSpace.Mem.zip {f : K → K → K} (hf : ∀ x y, star x = x → star y = y → star (f x y) = f x y) {d e : List K} (h : S.Mem d) (he : S.Mem e) :
    S.Mem (List.zipWith f d e) := by
  cases S with
  | one V => exact mem_zip (fun _ => hf) h he
  | stack S => exact SSpace.Mem.zip hf h he

theorem XSpace.mem_conj {d : List K} (h : S.Mem d) : S.Mem (d.map star) := h.map fun _ x hx => by simp [hx]
theorem XSpace.mem_add {d e : List K} (hd : S.Mem d) (he : S.Mem e) : S.Mem (List.zipWith (· + ·) d e) := hd.zip (fun x y hx hy => by simp [hx, hy]) he
theorem XSpace.mem_sub {d e : List K} (hd : S.Mem d) (he : S.Mem e) : S.Mem (List.zipWith (· - ·) d e) := hd.zip (fun x y hx hy => by simp [hx, hy]) he
theorem XSpace.mem_smul {s : K} (hs : S.HasReal → star s = s) {d : List K} (hd : S.Mem d) : S.Mem (d.map (· * s)) :=
  hd.map fun h x hx => by simp [hx, hs h, mul_comm]

theorem runs_copy_xvec (hS : S.WF n) {d : List K} (hd : S.Mem d) : Runs n (fun r => (S.vec n d r).copy (env n J r)) (fun r => .ok (S.vec n d r)) := by
  cases S with
  | one V => exact Runs.map_ok _ (runs_copy_vec hS hd)
  | stack S => exact Runs.map_ok _ (runs_copy_svec hS hd)

theorem runs_conj_xvec (hS : S.WF n) {d : List K} (hd : S.Mem d) : Runs n (fun r => (S.vec n d r).conj (env n J r)) (fun r => .ok (S.vec n (d.map star) r)) := by
  cases S with
  | one V => exact Runs.map_ok _ (runs_conj_vec hS hd)
  | stack S => exact Runs.map_ok _ (runs_conj_svec hS hd)

theorem runs_add_xvec (hS : S.WF n) {d e : List K} (hd : S.Mem d) (he : S.Mem e) :
    Runs n (fun r => (S.vec n d r).add (env n J r) (S.vec n e r)) (fun r => .ok (S.vec n (List.zipWith (· + ·) d e) r)) := by
  cases S with
  | one V => exact Runs.map_ok _ (runs_add_vec hS hd he)
  | stack S => exact Runs.map_ok _ (runs_add_svec hS hd he)

theorem runs_iadd_xvec (hS : S.WF n) {d e : List K} (hd : S.Mem d) (he : S.Mem e) :
    Runs n (fun r => (S.vec n d r).iadd (env n J r) (S.vec n e r)) (fun r => .ok (S.vec n (List.zipWith (· + ·) d e) r)) := by
  cases S with
  | one V => exact Runs.map_ok _ (runs_iadd_vec hS hd he)
  | stack S => exact Runs.map_ok _ (runs_iadd_svec hS hd he)

theorem runs_sub_xvec (hS : S.WF n) {d e : List K} (hd : S.Mem d) (he : S.Mem e) :
    Runs n (fun r => (S.vec n d r).sub' (env n J r) (S.vec n e r)) (fun r => .ok (S.vec n (List.zipWith (· - ·) d e) r)) := by
  cases S with
  | one V => exact Runs.map_ok _ (runs_sub_vec hS hd he)
  | stack S => exact Runs.map_ok _ (runs_sub_svec hS hd he)

theorem runs_isub_xvec (hS : S.WF n) {d e : List K} (hd : S.Mem d) (he : S.Mem e) :
    Runs n (fun r => (S.vec n d r).isub (env n J r) (S.vec n e r)) (fun r => .ok (S.vec n (List.zipWith (· - ·) d e) r)) := by
  cases S with
  | one V => exact Runs.map_ok _ (runs_isub_vec hS hd he)
  | stack S => exact Runs.map_ok _ (runs_isub_svec hS hd he)

theorem runs_smul_xvec (hS : S.WF n) {t : DType} {s : K} (hs : S.HasReal → star s = s) {d : List K} (hd : S.Mem d) :
    Runs n (fun r => (S.vec n d r).smul (env n J r) t s) (fun r => .ok (S.vec n (d.map (· * s)) r)) := by
  cases S with
  | one V => exact Runs.map_ok _ (runs_smul_vec hS hs hd)
  | stack S => exact Runs.map_ok _ (runs_smul_svec hS (fun V hV h => hs ⟨V, hV, h⟩) hd)

theorem runs_dot_xvec (hS : S.WF n) (hm : S.NoMask) {d e : List K} (hd : S.Mem d) (he : S.Mem e) :
    Runs n (fun r => (S.vec n d r).dot (env n J r) (S.vec n e r)) (fun _ => .ok (List.zipWith (· * ·) d e).sum) := by
  cases S with
  | one V => exact runs_dot_vec hS hm hd he
  | stack S => exact runs_dot_svec hS hm hd he

theorem XComputes.mem {mv : Nat → Ctx K → XArr K → P K (XArr K)} {S T : XSpace} {f : List K → List K} (h : XComputes n J mv S T f) {d : List K}
    (hd : S.Mem d) : T.Mem (f d) := (h d hd).1
theorem XComputes.runs {mv : Nat → Ctx K → XArr K → P K (XArr K)} {S T : XSpace} {f : List K → List K} (h : XComputes n J mv S T f) {d : List K}
    (hd : S.Mem d) : Runs n (fun r => mv r (env n J r) (S.vec n d r)) (fun r => .ok (T.vec n (f d) r)) := (h d hd).2.runs
theorem XComputes.intro {mv : Nat → Ctx K → XArr K → P K (XArr K)} {S T : XSpace} {f : List K → List K}
    (h : ∀ d, S.Mem d → T.Mem (f d) ∧ Runs n (fun r => mv r (env n J r) (S.vec n d r)) (fun r => .ok (T.vec n (f d) r))) :
    XComputes n J mv S T f := fun d hd => ⟨(h d hd).1, (h d hd).2.always⟩

end

section
variable {K : Type} [RCLike K] {n : Nat} {J : Nat → Nat → K} {S : XSpace}

theorem runs_norm_xvec (hS : S.WF n) (hm : S.NoMask) (h0 : S ≠ .stack []) {d : List K} (hd : S.Mem d) :
    Runs n (fun r => (S.vec n d r).norm (env n J r)) (fun _ => .ok (.fin (Real.sqrt (d.map fun x => ‖x‖ ^ 2).sum))) := by
  cases S with
  | one V => exact Runs.map_ok _ (runs_norm_vec (o := .none) hS hm hd ⟨fun _ _ => trivial, fun h => h.elim⟩ ⟨by simp, by simp⟩)
  | stack S => exact runs_norm_svec hS hm (fun h => h0 (by rw [h])) hd (fun _ _ => ⟨fun _ _ => trivial, fun h => h.elim⟩) ⟨by simp, by simp⟩ (fun h => h.elim)

end
end Verif

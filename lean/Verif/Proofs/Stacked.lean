/- Operations on stacked distributed vectors. -/
import Verif.Spec.Stacked
import Verif.Proofs.Vec
import Verif.MPI.Bind

set_option linter.unusedSectionVars false

namespace Verif
open NDArray

variable {K : Type} [Field K] [StarRing K] [CharZero K] {n : Nat} {J : Nat → Nat → K}

theorem SSpace.Mem.length : ∀ {S : SSpace} {d : List K}, S.Mem d → d.length = S.dim
  | [], d, h => by rw [show d = [] from h]; rfl
  | V :: S, d, h => by
    have h1 := h.1.1
    have h2 := SSpace.Mem.length h.2
    rw [List.length_take] at h1
    rw [List.length_drop] at h2
    simp only [SSpace.dim, List.map_cons, List.sum_cons] at h2 ⊢
    omega

theorem SSpace.dim_cons (V : VSpace) (S : SSpace) : SSpace.dim (V :: S) = V.L.gshape.prod + SSpace.dim S := by
  simp [SSpace.dim]

theorem SSpace.length_vec : ∀ {S : SSpace} {d : List K} {r : Nat}, (S.vec n d r).length = S.length
  | [], _, _ => rfl
  | V :: S, d, r => by simp [SSpace.vec, SSpace.length_vec (S := S)]

theorem SSpace.gshape_vec : ∀ {S : SSpace} {d : List K} {r : Nat}, (S.vec n d r).map (·.gshape) = S.map fun V => V.L.gshape
  | [], _, _ => rfl
  | V :: S, d, r => by
    simp only [SSpace.vec, List.map_cons, SSpace.gshape_vec (S := S)]
    rfl

/-- the loop over the components of a stack -/
theorem runs_forList_nil {α β : Type} {f : Nat → α → P K β} : Runs n (fun r => forList (f r) []) (fun _ => .ok []) := Runs.ret _

theorem runs_forList_cons {α β : Type} {f : Nat → α → P K β} {a : Nat → α} {l : Nat → List α} {b : Nat → β} {bs : Nat → List β}
    (h1 : Runs n (fun r => f r (a r)) (fun r => .ok (b r))) (h2 : Runs n (fun r => forList (f r) (l r)) (fun r => .ok (bs r))) :
    Runs n (fun r => forList (f r) (a r :: l r)) (fun r => .ok (b r :: bs r)) := by
  simp only [forList, Prog.bind_eq]
  exact Runs.bind_ok (k := fun r b => (forList (f r) (l r)).bind fun bs => .ret (b :: bs)) h1 (Runs.bind_ok h2 (Runs.ret _))

/-- one operand -/
theorem runs_forList_vec {f : Nat → DArr K → P K (DArr K)} {g : K → K} {P : VSpace → Prop}
    (h : ∀ V : VSpace, P V → V.L.WF n → ∀ d, V.Mem d → Runs n (fun r => f r (V.vec n d r)) (fun r => .ok (V.vec n (d.map g) r))) :
    ∀ {S : SSpace} {d : List K}, S.WF n → (∀ V ∈ S, P V) → S.Mem d → Runs n (fun r => forList (f r) (S.vec n d r)) (fun r => .ok (S.vec n (d.map g) r))
  | [], d, _, _, _ => runs_forList_nil
  | V :: S, d, hS, hP, hd => by
    have h1 := h V (hP _ (by simp)) (hS _ (by simp)) _ hd.1
    have h2 := runs_forList_vec h (S := S) (fun W hW => hS _ (by simp [hW])) (fun W hW => hP _ (by simp [hW])) hd.2
    simp only [SSpace.vec, List.map_take.symm, List.map_drop.symm] at h1 h2 ⊢
    exact runs_forList_cons h1 h2

theorem SSpace.Mem.map {f : K → K} : ∀ {S : SSpace} (_ : ∀ V ∈ S, V.dt = .real → ∀ x, star x = x → star (f x) = f x) {d : List K}, S.Mem d → S.Mem (d.map f)
  | [], _, d, hd => by rw [show d = [] from hd]; rfl
  | V :: S, hf, d, hd => by
    refine ⟨?_, ?_⟩
    · rw [List.map_take.symm]; exact mem_map (hf V (by simp)) hd.1
    · rw [List.map_drop.symm]; exact SSpace.Mem.map (fun W hW => hf W (by simp [hW])) hd.2

theorem SSpace.Mem.zip {f : K → K → K} : ∀ {S : SSpace} (_ : ∀ x y, star x = x → star y = y → star (f x y) = f x y) {d e : List K},
    S.Mem d → S.Mem e → S.Mem (List.zipWith f d e)
  | [], _, d, e, hd, he => by rw [show d = [] from hd]; rfl
  | V :: S, hf, d, e, hd, he => by
    refine ⟨?_, ?_⟩
    · rw [List.take_zipWith]; exact mem_zip (fun _ => hf) hd.1 he.1
    · rw [List.drop_zipWith]; exact SSpace.Mem.zip hf hd.2 he.2

/-- two operands of the same layouts -/
theorem runs_forList_vec₂ {f : Nat → DArr K × DArr K → P K (DArr K)} {g : K → K → K}
    (h : ∀ V : VSpace, V.L.WF n → ∀ d e, V.Mem d → V.Mem e → Runs n (fun r => f r (V.vec n d r, V.vec n e r)) (fun r => .ok (V.vec n (List.zipWith g d e) r))) :
    ∀ {S : SSpace} {d e : List K}, S.WF n → S.Mem d → S.Mem e →
      Runs n (fun r => forList (f r) ((S.vec n d r).zip (S.vec n e r))) (fun r => .ok (S.vec n (List.zipWith g d e) r))
  | [], d, e, _, _, _ => runs_forList_nil
  | V :: S, d, e, hS, hd, he => by
    have h1 := h V (hS _ (by simp)) _ _ hd.1 he.1
    have h2 := runs_forList_vec₂ h (S := S) (fun W hW => hS _ (by simp [hW])) hd.2 he.2
    simp only [SSpace.vec, List.take_zipWith, List.drop_zipWith, List.zip_cons_cons] at h1 h2 ⊢
    exact runs_forList_cons h1 h2

/-- two operands of the same layouts and a target -/
theorem runs_forList_vec₃ {f : Nat → DArr K × DArr K × DArr K → P K (DArr K)} {g : K → K → K}
    (h : ∀ V : VSpace, V.L.WF n → ∀ c d e, V.Mem c → V.Mem d → V.Mem e → Runs n (fun r => f r (V.vec n c r, V.vec n d r, V.vec n e r)) (fun r => .ok (V.vec n (List.zipWith g d e) r))) :
    ∀ {S : SSpace} {c d e : List K}, S.WF n → S.Mem c → S.Mem d → S.Mem e →
      Runs n (fun r => forList (f r) ((S.vec n c r).zip ((S.vec n d r).zip (S.vec n e r)))) (fun r => .ok (S.vec n (List.zipWith g d e) r))
  | [], c, d, e, _, _, _, _ => runs_forList_nil
  | V :: S, c, d, e, hS, hc, hd, he => by
    have h1 := h V (hS _ (by simp)) _ _ _ hc.1 hd.1 he.1
    have h2 := runs_forList_vec₃ h (S := S) (fun W hW => hS _ (by simp [hW])) hc.2 hd.2 he.2
    simp only [SSpace.vec, List.take_zipWith, List.drop_zipWith, List.zip_cons_cons] at h1 h2 ⊢
    exact runs_forList_cons h1 h2

/-- overwriting a vector by another -/
theorem runs_set_vec {S : VSpace} (hL : S.L.WF n) {d e : List K} (hd : S.Mem d) (he : S.Mem e) :
    Runs n (fun r => (S.vec n d r).setAll (env n J r) (S.vec n e r).larr) (fun r => .ok (S.vec n e r)) :=
  runs_new_vec (S := S) (v := fun r => (S.vec n e r).larr) hL he (fun _ _ => rfl) (fun _ _ => rfl) (S.L.piece d) (fun r hr => (good_vec hL hd).length r hr)

variable {S : SSpace}

theorem runs_copy_svec (hS : S.WF n) {d : List K} (hd : S.Mem d) :
    Runs n (fun r => (S.vec n d r).copy (env n J r)) (fun r => .ok (S.vec n d r)) := by
  have := runs_forList_vec (n := n) (f := fun r d => d.copy (env n J r)) (g := id) (P := fun _ => True)
    (fun V _ hV d hd => by rw [List.map_id]; exact runs_copy_vec hV hd) hS (fun _ _ => trivial) hd
  rw [List.map_id] at this
  exact this

theorem runs_conj_svec (hS : S.WF n) {d : List K} (hd : S.Mem d) :
    Runs n (fun r => (S.vec n d r).conj (env n J r)) (fun r => .ok (S.vec n (d.map star) r)) :=
  runs_forList_vec (n := n) (f := fun r d => d.conj (env n J r)) (g := star) (P := fun _ => True) (fun V _ hV d hd => runs_conj_vec hV hd) hS (fun _ _ => trivial) hd

theorem runs_neg_svec (hS : S.WF n) {d : List K} (hd : S.Mem d) :
    Runs n (fun r => (S.vec n d r).neg (env n J r)) (fun r => .ok (S.vec n (d.map (- ·)) r)) := by
  refine Runs.bind_ok (runs_copy_svec hS hd) ?_
  refine runs_forList_vec (n := n) (f := fun r d => d.setAll (env n J r) (d.larr.map (- ·))) (g := (- ·)) (P := fun _ => True) (fun V _ hV d hd => ?_) hS (fun _ _ => trivial) hd
  exact runs_new_vec (S := V) (v := fun r => (V.vec n d r).larr.map (- ·)) hV (mem_neg hd) (fun _ _ => rfl) (fun r _ => (piece_map _ d r).symm) (V.L.piece d)
    (fun r hr => (good_vec hV hd).length r hr)

theorem runs_checkSize {d e : List K} : Runs n (fun r => SArr.checkSize (S.vec n d r) (S.vec n e r)) (fun _ => .ok ()) := by
  refine (Runs.ret fun _ => ()).congr (fun r _ => ?_) fun _ _ => rfl
  unfold SArr.checkSize
  rw [if_neg, if_neg]
  · rw [SSpace.gshape_vec, SSpace.gshape_vec]; simp
  · rw [SSpace.length_vec, SSpace.length_vec]; simp

theorem runs_add_svec (hS : S.WF n) {d e : List K} (hd : S.Mem d) (he : S.Mem e) :
    Runs n (fun r => (S.vec n d r).add (env n J r) (S.vec n e r)) (fun r => .ok (S.vec n (List.zipWith (· + ·) d e) r)) := by
  refine Runs.bind_ok runs_checkSize ?_
  refine Runs.bind_ok (runs_copy_svec hS hd) ?_
  refine runs_forList_vec₃ (n := n) (g := (· + ·)) (fun V hV c d e hc hd he => ?_) hS hd hd he
  exact Runs.bind_ok (runs_add_vec (J := J) hV hd he) (runs_set_vec hV hc (mem_add hd he))

theorem runs_mul_vec {S : VSpace} (hL : S.L.WF n) {d e : List K} (hd : S.Mem d) (he : S.Mem e) :
    Runs n (fun r => (S.vec n d r).mul (env n J r) (S.vec n e r)) (fun r => .ok (S.vec n (List.zipWith (· * ·) d e) r)) :=
  (runs_mul hL (good_vec hL hd) (good_vec hL he)).congr (fun _ _ => rfl) fun r _ => by
    rw [vec_congr (piece_zip _ (hd.1.trans he.1.symm) r).symm]

theorem mem_mul {S : VSpace} {d e : List K} (hd : S.Mem d) (he : S.Mem e) : S.Mem (List.zipWith (· * ·) d e) :=
  mem_zip (fun _ x y hx hy => by simp [hx, hy, mul_comm]) hd he

theorem runs_mul_svec (hS : S.WF n) {d e : List K} (hd : S.Mem d) (he : S.Mem e) :
    Runs n (fun r => (S.vec n d r).mul (env n J r) (S.vec n e r)) (fun r => .ok (S.vec n (List.zipWith (· * ·) d e) r)) := by
  refine Runs.bind_ok runs_checkSize ?_
  refine Runs.bind_ok (runs_copy_svec hS hd) ?_
  refine runs_forList_vec₃ (n := n) (g := (· * ·)) (fun V hV c d e hc hd he => ?_) hS hd hd he
  exact Runs.bind_ok (runs_mul_vec (J := J) hV hd he) (runs_set_vec hV hc (mem_mul hd he))

theorem runs_iadd_svec (hS : S.WF n) {d e : List K} (hd : S.Mem d) (he : S.Mem e) :
    Runs n (fun r => (S.vec n d r).iadd (env n J r) (S.vec n e r)) (fun r => .ok (S.vec n (List.zipWith (· + ·) d e) r)) := by
  refine Runs.bind_ok runs_checkSize ?_
  refine runs_forList_vec₂ (n := n) (g := (· + ·)) (fun V hV d e hd he => ?_) hS hd he
  exact Runs.bind_ok (runs_add_vec (J := J) hV hd he) (runs_set_vec hV hd (mem_add hd he))

theorem SSpace.mem_neg {d : List K} (hd : S.Mem d) : S.Mem (d.map (- ·)) := hd.map fun _ _ _ x hx => by simp [hx]
theorem SSpace.mem_conj {d : List K} (hd : S.Mem d) : S.Mem (d.map star) := hd.map fun _ _ _ x hx => by simp [hx]
theorem SSpace.mem_smul {s : K} (hs : ∀ V ∈ S, V.dt = .real → star s = s) {d : List K} (hd : S.Mem d) : S.Mem (d.map (· * s)) :=
  hd.map fun V hV h x hx => by simp [hx, hs V hV h, mul_comm]
theorem SSpace.mem_add {d e : List K} (hd : S.Mem d) (he : S.Mem e) : S.Mem (List.zipWith (· + ·) d e) :=
  hd.zip (fun x y hx hy => by simp [hx, hy]) he
theorem SSpace.mem_sub {d e : List K} (hd : S.Mem d) (he : S.Mem e) : S.Mem (List.zipWith (· - ·) d e) :=
  hd.zip (fun x y hx hy => by simp [hx, hy]) he

theorem zipWith_sub (d e : List K) : List.zipWith (· - ·) d e = List.zipWith (· + ·) d (e.map (- ·)) := by
  rw [List.zipWith_map_right]
  simp only [sub_eq_add_neg]

theorem runs_sub_svec (hS : S.WF n) {d e : List K} (hd : S.Mem d) (he : S.Mem e) :
    Runs n (fun r => (S.vec n d r).sub' (env n J r) (S.vec n e r)) (fun r => .ok (S.vec n (List.zipWith (· - ·) d e) r)) := by
  rw [zipWith_sub]
  exact Runs.bind_ok (runs_neg_svec hS he) (runs_add_svec hS hd (SSpace.mem_neg he))

theorem runs_isub_svec (hS : S.WF n) {d e : List K} (hd : S.Mem d) (he : S.Mem e) :
    Runs n (fun r => (S.vec n d r).isub (env n J r) (S.vec n e r)) (fun r => .ok (S.vec n (List.zipWith (· - ·) d e) r)) := by
  rw [zipWith_sub]
  exact Runs.bind_ok (runs_neg_svec hS he) (runs_iadd_svec hS hd (SSpace.mem_neg he))

theorem runs_smul_svec (hS : S.WF n) {t : DType} {s : K} (hs : ∀ V ∈ S, V.dt = .real → star s = s) {d : List K} (hd : S.Mem d) :
    Runs n (fun r => (S.vec n d r).smul (env n J r) t s) (fun r => .ok (S.vec n (d.map (· * s)) r)) := by
  refine Runs.bind_ok (runs_copy_svec hS hd) ?_
  have key : ∀ {S : SSpace} {c d : List K}, S.WF n → (∀ V ∈ S, V.dt = .real → star s = s) → S.Mem c → S.Mem d →
      Runs n (fun r => forList (fun p : DArr K × DArr K => (do
        let z ← p.2.smul (env n J r) t s
        p.1.setAll (env n J r) z.larr : P K (DArr K))) ((S.vec n c r).zip (S.vec n d r))) (fun r => .ok (S.vec n (d.map (· * s)) r)) := by
    intro S
    induction S with
    | nil => intro c d _ _ _ _; exact runs_forList_nil
    | cons V S ih =>
      intro c d hS hs hc hd
      have h1 := Runs.bind_ok (k := fun r (z : DArr K) => (V.vec n (c.take V.L.gshape.prod) r).setAll (env n J r) z.larr)
        (runs_smul_vec (J := J) (t := t) (hS V (by simp)) (hs V (by simp)) hd.1)
        (runs_set_vec (hS V (by simp)) hc.1 (Verif.mem_smul (hs V (by simp)) hd.1))
      have h2 := ih (fun W hW => hS _ (by simp [hW])) (fun W hW => hs _ (by simp [hW])) hc.2 hd.2
      simp only [SSpace.vec, List.map_take.symm, List.map_drop.symm, List.zip_cons_cons] at h1 h2 ⊢
      exact runs_forList_cons h1 h2
  exact key hS hs hd hd

/-- no component carries a mask -/
def SSpace.NoMask (S : SSpace) : Prop := ∀ V ∈ S, V.L.mask = none

theorem runs_dot_svec (hS : S.WF n) (hm : S.NoMask) {d e : List K} (hd : S.Mem d) (he : S.Mem e) :
    Runs n (fun r => (S.vec n d r).dot (env n J r) (S.vec n e r)) (fun _ => .ok (List.zipWith (· * ·) d e).sum) := by
  have key : ∀ {S : SSpace} {d e : List K}, S.WF n → S.NoMask → S.Mem d → S.Mem e →
      ∃ l : List K, l.sum = (List.zipWith (· * ·) d e).sum ∧
        Runs n (fun r => forList (fun p : DArr K × DArr K => p.1.dot (env n J r) p.2) ((S.vec n d r).zip (S.vec n e r))) (fun _ => .ok l) := by
    intro S
    induction S with
    | nil => intro d e _ _ hd _; exact ⟨[], by rw [show d = [] from hd]; rfl, runs_forList_nil⟩
    | cons V S ih =>
      intro d e hS hm hd he
      obtain ⟨l, hl, h2⟩ := ih (fun W hW => hS _ (by simp [hW])) (fun W hW => hm _ (by simp [hW])) hd.2 he.2
      have h1 := runs_dot_vec (J := J) (hS V (by simp)) (hm V (by simp)) hd.1 he.1
      refine ⟨(List.zipWith (· * ·) (d.take V.L.gshape.prod) (e.take V.L.gshape.prod)).sum :: l, ?_, ?_⟩
      · rw [List.sum_cons, hl, ← List.take_zipWith, ← List.drop_zipWith, List.sum_take_add_sum_drop]
      · simp only [SSpace.vec, List.zip_cons_cons]
        exact runs_forList_cons h1 h2
  obtain ⟨l, hl, h⟩ := key hS hm hd he
  refine Runs.bind_ok runs_checkSize ?_
  refine Runs.bind_ok h ?_
  rw [← hl]
  refine (Runs.ret _).congr (fun _ _ => rfl) fun _ _ => ?_
  rw [List.sum_eq_foldl]

end Verif

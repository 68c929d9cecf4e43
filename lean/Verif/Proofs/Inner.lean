/- The inner product of flat vectors. -/
import Verif.Proofs.Operators

set_option linter.unusedSectionVars false

namespace Verif
open NDArray

variable {K : Type} [Field K] [StarRing K] [CharZero K]

theorem ip_nil_left (v : List K) : ip [] v = 0 := by simp [ip]
theorem ip_nil_right (v : List K) : ip v [] = 0 := by simp [ip]
theorem ip_cons (a b : K) (u v : List K) : ip (a :: u) (b :: v) = star a * b + ip u v := by simp [ip]

theorem ip_append {u v : List K} (h : u.length = v.length) (u' v' : List K) : ip (u ++ u') (v ++ v') = ip u v + ip u' v' := by
  unfold ip; rw [List.zipWith_append h, List.sum_append]

theorem ip_comm (u v : List K) : star (ip u v) = ip v u := by
  induction u generalizing v with
  | nil => simp [ip]
  | cons a u ih =>
    cases v with
    | nil => simp [ip]
    | cons b v => simp [ip_cons, ih, mul_comm]

theorem ip_vadd_right {u v w : List K} (h : v.length = w.length) : ip u (vadd v w) = ip u v + ip u w := by
  induction u generalizing v w with
  | nil => simp [ip]
  | cons a u ih =>
    cases v with
    | nil => cases w with
      | nil => simp [ip, vadd]
      | cons c w => simp at h
    | cons b v => cases w with
      | nil => simp at h
      | cons c w =>
        have : vadd (b :: v) (c :: w) = (b + c) :: vadd v w := rfl
        rw [this, ip_cons, ip_cons, ip_cons, ih (by simpa using h)]
        ring

theorem ip_vadd_left {u v w : List K} (h : u.length = v.length) : ip (vadd u v) w = ip u w + ip v w := by
  rw [← ip_comm, ip_vadd_right h, star_add, ip_comm, ip_comm]

theorem ip_zeros_right (u : List K) (N : Nat) : ip u (List.replicate N 0) = 0 := by
  induction u generalizing N with
  | nil => simp [ip]
  | cons a u ih => cases N with
    | zero => simp [ip]
    | succ N => rw [List.replicate_succ, ip_cons, ih]; simp

theorem ip_zeros_left (u : List K) (N : Nat) : ip (List.replicate N 0) u = 0 := by rw [← ip_comm, ip_zeros_right, star_zero]

theorem ip_smul_right (u v : List K) (s : K) : ip u (v.map (· * s)) = ip u v * s := by
  induction u generalizing v with
  | nil => simp [ip]
  | cons a u ih => cases v with
    | nil => simp [ip]
    | cons b v => rw [List.map_cons, ip_cons, ip_cons, ih]; ring

theorem ip_smul_left (u v : List K) (s : K) : ip (u.map (· * s)) v = star s * ip u v := by
  rw [← ip_comm, ip_smul_right, star_mul, ip_comm]

theorem ip_star (u v : List K) : ip (u.map star) (v.map star) = star (ip u v) := by
  induction u generalizing v with
  | nil => simp [ip]
  | cons a u ih => cases v with
    | nil => simp [ip]
    | cons b v => rw [List.map_cons, List.map_cons, ip_cons, ip_cons, ih, star_add, star_mul, mul_comm]

/-- `u.conj().dot(v)` -/
theorem conj_dot (u v : List K) : (List.zipWith (· * ·) (u.map star) v).sum = ip u v := by
  unfold ip; rw [List.zipWith_map_left]

theorem LOp.Adjoint.swap {o : LOp K} (h : o.Adjoint) : o.H.Adjoint := by
  intro u v hu hv
  change ip (o.adj u) v = ip u (o.fwd v)
  rw [← ip_comm v (o.adj u), ← ip_comm (o.fwd v) u, h v u hv hu]

/-- the blocks of a vector -/
theorem ip_split (u v : List K) (k : Nat) (h : u.length = v.length) : ip u v = ip (u.take k) (v.take k) + ip (u.drop k) (v.drop k) := by
  conv_lhs => rw [← List.take_append_drop k u, ← List.take_append_drop k v]
  exact ip_append (by simp [h]) _ _

theorem ip_blockDiag {l : List (LOp K)} (ha : ∀ o ∈ l, o.Adjoint)
    (h0 : ∀ o ∈ l, ∀ d, d.length = o.cols → (o.fwd d).length = o.rows) (h1 : ∀ o ∈ l, ∀ d, d.length = o.rows → (o.adj d).length = o.cols)
    {u v : List K} (hu : u.length = inSum false l) (hv : v.length = inSum true l) :
    ip (blockDiag false l u) v = ip u (blockDiag true l v) := by
  induction l generalizing u v with
  | nil =>
    simp only [inSum, List.map_nil, List.sum_nil] at hu
    simp [blockDiag, slices, ip]
  | cons o os ih =>
    rw [inSum_cons] at hu hv
    have ed : ∀ (b : Bool) (x : List K), blockDiag b (o :: os) x = o.fn b (x.take (o.inDim b)) ++ blockDiag b os (x.drop (o.inDim b)) := fun b x => rfl
    rw [ed, ed]
    have k0 : (o.fn false (u.take (o.inDim false))).length = o.rows := h0 o (by simp) _ (by simp [LOp.inDim] at *; omega)
    have k1 : (o.fn true (v.take (o.inDim true))).length = o.cols := h1 o (by simp) _ (by simp [LOp.inDim] at *; omega)
    conv_lhs => rw [← List.take_append_drop o.rows v]
    conv_rhs => rw [← List.take_append_drop o.cols u]
    rw [ip_append (by rw [k0]; simp [LOp.inDim] at *; omega), ip_append (by rw [k1]; simp [LOp.inDim] at *; omega)]
    congr 1
    · exact ha o (by simp) _ _ (by simp [LOp.inDim] at *; omega) (by simp [LOp.inDim] at *; omega)
    · exact ih (fun o ho => ha o (by simp [ho])) (fun o ho => h0 o (by simp [ho])) (fun o ho => h1 o (by simp [ho]))
        (by simp [LOp.inDim] at *; omega) (by simp [LOp.inDim] at *; omega)

theorem ip_vcat {l : List (LOp K)} {N : Nat} (ha : ∀ o ∈ l, o.Adjoint) (hN : ∀ o ∈ l, o.cols = N)
    (h0 : ∀ o ∈ l, ∀ d, d.length = o.cols → (o.fwd d).length = o.rows) (h1 : ∀ o ∈ l, ∀ d, d.length = o.rows → (o.adj d).length = o.cols)
    {u v : List K} (hu : u.length = N) (hv : v.length = inSum true l) :
    ip (vcat false l u) v = ip u (hsum true N l v) := by
  induction l generalizing v with
  | nil => rw [show hsum true N [] v = List.replicate N 0 from rfl, ip_zeros_right]; simp [vcat, ip]
  | cons o os ih =>
    rw [inSum_cons] at hv
    have hoN := hN o (by simp)
    have e1 : vcat false (o :: os) u = o.fwd u ++ vcat false os u := rfl
    have e2 : hsum true N (o :: os) v = vadd (o.adj (v.take o.rows)) (hsum true N os (v.drop o.rows)) := rfl
    have hv1 : (v.take o.rows).length = o.rows := by simp [LOp.inDim] at *; omega
    have hv2 : (v.drop o.rows).length = inSum true os := by simp [LOp.inDim] at *; omega
    have k0 : (o.fwd u).length = o.rows := h0 o (by simp) _ (by omega)
    have k1 : (o.adj (v.take o.rows)).length = N := by rw [h1 o (by simp) _ hv1, hoN]
    have k2 : (hsum true N os (v.drop o.rows)).length = N := by
      refine length_vsum fun x hx => ?_
      have key : ∀ (l : List (LOp K)), (∀ o ∈ l, o.cols = N) → (∀ o ∈ l, ∀ d, d.length = o.rows → (o.adj d).length = o.cols) →
          ∀ w : List K, w.length = inSum true l → ∀ x ∈ slices true l w, x.length = N := by
        intro l
        induction l with
        | nil => intro _ _ w _ x hx; simp [slices] at hx
        | cons p ps ihp =>
          intro hN h1 w hw x hx
          rw [inSum_cons] at hw
          simp only [slices, List.mem_cons] at hx
          rcases hx with rfl | hx
          · have := h1 p (by simp) (w.take (p.inDim true)) (by simp [LOp.inDim] at *; omega)
            rw [hN p (by simp)] at this
            exact this
          · exact ihp (fun o ho => hN o (by simp [ho])) (fun o ho => h1 o (by simp [ho])) _ (by simp [LOp.inDim] at *; omega) x hx
      exact key os (fun o ho => hN o (by simp [ho])) (fun o ho => h1 o (by simp [ho])) _ hv2 x hx
    rw [e1, e2, ip_vadd_right (by rw [k1, k2])]
    conv_lhs => rw [← List.take_append_drop o.rows v]
    rw [ip_append (by rw [k0, hv1])]
    congr 1
    · exact ha o (by simp) _ _ (by omega) hv1
    · exact ih (fun o ho => ha o (by simp [ho])) (fun o ho => hN o (by simp [ho])) (fun o ho => h0 o (by simp [ho]))
        (fun o ho => h1 o (by simp [ho])) hv2

end Verif

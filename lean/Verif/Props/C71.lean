/-
  C71: arrays of integer dtype.
-/
import Verif.Proofs.IntegerDtype
import Verif.Proofs.StackedNorm
import Verif.Props.C70

namespace Verif
open NDArray

section
variable {n : Nat} {J : Nat → Nat → ℝ} {L L' : Layout} {op : Nat → XOp ℝ} {F F' : SVec ℝ → SVec ℝ} {x y x0 : SVec ℝ} {tol damp : ℝ} {niter : Int} {D D' : DType → Prop}

/-! ### methods of arrays -/

/-- `x * a` truncates the products if `x` is an array of integers -/
theorem C71_multiply (hL : L.WF n) (hm : L.mask = none) (hx : x.v.length = L.gshape.prod) (hi : x.dt = int64) (a : ℝ) (t : DType) :
    Always n (fun r => Arith.ints.dsmul (env n J r) (L.fam n x.dt (L.piece x.v) r) t a) (fun r => .ok (L.fam n int64 (L.piece (x.v.map fun v => intPart (v * a))) r)) := by
  refine (b_map Arith.ints (J := J) (x := x) (f := (· * a)) (t := (·.promote t)) hL hm hx).always.congr fun r _ => ?_
  simp only [SVec.dpart, SVec.map, hi, Arith.ints, if_true]

/-- `x + y` truncates the sums if `x` is an array of integers, whatever `y` is -/
theorem C71_add (hL : L.WF n) (hm : L.mask = none) (hx : x.v.length = L.gshape.prod) (hy : y.v.length = L.gshape.prod) (hi : x.dt = int64) :
    Always n (fun r => Arith.ints.dadd (env n J r) (L.fam n x.dt (L.piece x.v) r) (L.fam n y.dt (L.piece y.v) r))
      (fun r => .ok (L.fam n int64 (L.piece (List.zipWith (fun a b => intPart (a + b)) x.v y.v)) r)) := by
  refine (b_add Arith.ints (J := J) hL hm hx hy).always.congr fun r _ => ?_
  simp only [SVec.dpart, SVec.add, SVec.zip, hi, Arith.ints, Arith.exact, if_true]

/-- Sums, differences and multiples of arrays with integer entries are right, whatever the dtypes, provided that the factor is an integer.  Missing: other factors and other summands, for which it
    is false (`C71_multiply`, `C71_add`), and with them the solvers (`C71_wrong`). -/
theorem C71_exact_partial (hL : L.WF n) (hm : L.mask = none) (hx : x.v.length = L.gshape.prod) (hy : y.v.length = L.gshape.prod) (hxi : ∀ a ∈ x.v, ∃ z : ℤ, a = z) (hyi : ∀ a ∈ y.v, ∃ z : ℤ, a = z) (k : ℤ) (t : DType) :
    Always n (fun r => Arith.ints.dadd (env n J r) (L.fam n x.dt (L.piece x.v) r) (L.fam n y.dt (L.piece y.v) r)) (fun r => .ok (L.fam n x.dt (L.piece (List.zipWith (· + ·) x.v y.v)) r)) ∧
    Always n (fun r => Arith.ints.dsub (env n J r) (L.fam n x.dt (L.piece x.v) r) (L.fam n y.dt (L.piece y.v) r)) (fun r => .ok (L.fam n x.dt (L.piece (List.zipWith (· - ·) x.v y.v)) r)) ∧
    Always n (fun r => Arith.ints.dsmul (env n J r) (L.fam n x.dt (L.piece x.v) r) t k) (fun r => .ok (L.fam n x.dt (L.piece (x.v.map (· * (k : ℝ)))) r)) := by
  have hcast : ∀ dt (z : ℤ), Arith.ints.cast dt (z : ℝ) = z := by
    intro dt z
    simp only [Arith.ints]
    split_ifs
    · exact intPart_int z
    · rfl
  have hzip : ∀ (f : ℝ → ℝ → ℝ) (g : ℤ → ℤ → ℤ) (dt : DType), (∀ a b : ℤ, f a b = g a b) → ∀ l m : List ℝ, (∀ a ∈ l, ∃ z : ℤ, a = z) → (∀ a ∈ m, ∃ z : ℤ, a = z) →
      List.zipWith (fun a b => Arith.ints.cast dt (f a b)) l m = List.zipWith f l m := by
    intro f g dt hf l
    induction l with
    | nil => intro m _ _; simp
    | cons a l ih =>
      intro m hl hm
      cases m with
      | nil => simp
      | cons b m =>
        obtain ⟨p, rfl⟩ := hl a (by simp)
        obtain ⟨q, rfl⟩ := hm b (by simp)
        rw [List.zipWith_cons_cons, List.zipWith_cons_cons, hf, hcast, ih m (fun a h => hl a (by simp [h])) fun a h => hm a (by simp [h])]
  have hneg : y.v.map (fun a => Arith.ints.cast y.dt (-a)) = y.v.map (- ·) := by
    refine List.map_congr_left fun a ha => ?_
    obtain ⟨z, rfl⟩ := hyi a ha
    rw [← Int.cast_neg, hcast]
  refine ⟨?_, ?_, ?_⟩
  · refine (b_add Arith.ints (J := J) hL hm hx hy).always.congr fun r _ => ?_
    have := hzip (· + ·) (· + ·) x.dt (fun a b => by push_cast; rfl) x.v y.v hxi hyi
    simp only [SVec.dpart, SVec.add, SVec.zip]
    rw [← this]
    rfl
  · refine (b_sub Arith.ints (J := J) hL hm hx hy).always.congr fun r _ => ?_
    have := hzip (· + ·) (· + ·) x.dt (fun a b => by push_cast; rfl) x.v (y.v.map (- ·)) hxi (fun a ha => by
      obtain ⟨b, hb, rfl⟩ := List.mem_map.1 ha
      obtain ⟨z, rfl⟩ := hyi b hb
      exact ⟨-z, by push_cast; rfl⟩)
    have e : List.zipWith (· - ·) x.v y.v = List.zipWith (· + ·) x.v (y.v.map (- ·)) := by
      rw [List.zipWith_map_right]
      simp only [sub_eq_add_neg]
    rw [e, ← this, ← hneg]
    rfl
  · refine (b_map Arith.ints (J := J) (x := x) (f := (· * (k : ℝ))) (t := (·.promote t)) hL hm hx).always.congr fun r _ => ?_
    have : x.v.map (fun a => Arith.ints.cast x.dt (a * k)) = x.v.map (· * (k : ℝ)) := by
      refine List.map_congr_left fun a ha => ?_
      obtain ⟨z, rfl⟩ := hxi a ha
      rw [← Int.cast_mul, hcast]
    simp only [SVec.dpart, SVec.map]
    rw [this]

/-! ### the solvers -/

/-- if the start vector is an array of integers, then `cg` returns integers, whatever the equation, and so are all iterates -/
theorem C71_cg_integer (hL : L.WF n) (hm : L.mask = none) (hop : ActsAs n J (fun r => (op r).mv) L L F D) (hy : y.v.length = L.gshape.prod) (hx : x0.v.length = L.gshape.prod) (dy : D y.dt) (dx : D x0.dt) (hi : x0.dt = int64) :
    (∃ (x : SVec ℝ) (it : Nat) (cost : List ℝ) (xs : List (SVec ℝ)), (∀ z ∈ x :: xs, z.dt = int64 ∧ ∀ a ∈ z.v, ∃ k : ℤ, a = k) ∧
      Always n (fun r => FCG.solve Arith.ints (env n J r) (op r) (y.part L n r) (x0.part L n r) (some niter) tol) (fun r => .ok (x.part L n r, it, cost, xs.map fun z => z.part L n r))) ∨
    ∃ e, Always n (fun r => FCG.solve Arith.ints (env n J r) (op r) (y.part L n r) (x0.part L n r) (some niter) tol) (fun _ => .error e) := by
  rcases C70_cg_cases Arith.ints (SVec.blockDot Arith.ints L n) F y x0 niter tol with ⟨m, s, hs, hst⟩ | ⟨m, s, e, hs, he, hst⟩
  · refine .inl ⟨(s m).x, m, (List.range (m + 1)).map (fun i => Arith.ints.sqrt (s i).k), (List.range' 1 m).map fun i => (s i).x, fun z hz => ?_, (C70_cg Arith.ints hL hm hop hy hx dy dx hs hst).congr fun r _ => by simp⟩
    obtain ⟨i, hi', rfl⟩ : ∃ i ≤ m, z = (s i).x := by
      rw [List.mem_cons] at hz
      rcases hz with rfl | hz
      · exact ⟨m, le_rfl, rfl⟩
      · obtain ⟨i, h, rfl⟩ := List.mem_map.1 hz
        rw [List.mem_range'_1] at h
        exact ⟨i, by omega, rfl⟩
    have h := (scg_stored Arith.ints i (s i) (hs i hi')).1
    rw [hi] at h
    exact ⟨h.1, h.int⟩
  · exact .inr ⟨e, C70_cg_error Arith.ints hL hm hop hy hx dy dx hs he hst⟩

/-- `cgls` likewise -/
theorem C71_cgls_integer (hL : L.WF n) (hm : L.mask = none) (hL' : L'.WF n) (hm' : L'.mask = none) (hop : ActsAs n J (fun r => (op r).mv) L L' F D)
    (hop' : ActsAs n J (fun r => (op r).rmv) L' L F' D') (hD : ∀ s : SVec ℝ, s.v.length = L'.gshape.prod → D' s.dt → D (F' s).dt) (hy : y.v.length = L'.gshape.prod) (hx : x0.v.length = L.gshape.prod) (dy : D' y.dt) (dx : D x0.dt) (hi : x0.dt = int64) :
    (∃ (x : SVec ℝ) (istop it : Nat) (r1 r2 : ℝ) (cost : List ℝ) (xs : List (SVec ℝ)), (∀ z ∈ x :: xs, z.dt = int64 ∧ ∀ a ∈ z.v, ∃ k : ℤ, a = k) ∧
      Always n (fun r => FCGLS.solve Arith.ints Arith.ints.normX (env n J r) (op r) (y.part L' n r) (x0.part L n r) (some niter) damp tol)
        (fun r => .ok ⟨x.part L n r, istop, it, r1, r2, cost, xs.map fun z => z.part L n r⟩)) ∨
    ∃ e, Always n (fun r => FCGLS.solve Arith.ints Arith.ints.normX (env n J r) (op r) (y.part L' n r) (x0.part L n r) (some niter) damp tol) (fun _ => .error e) := by
  rcases C70_cgls_cases Arith.ints (SVec.blockDot Arith.ints L n) (SVec.blockDot Arith.ints L' n) (SVec.blockNorm Arith.ints L' n) F F' damp y x0 niter tol with ⟨e, he⟩ | ⟨m, s, hs, hst⟩ | ⟨m, s, e, hs, he, hst⟩
  · exact .inr ⟨e, C70_cgls_setup_error Arith.ints hL hm hL' hm' hop hop' hD hy hx dy dx he⟩
  · refine .inl ⟨(s m).x, if Arith.ints.lt (s m).k tol then 1 else 2, m, (s m).k, (s m).r2, (List.range (m + 1)).map (fun i => (s i).r1), (List.range' 1 m).map fun i => (s i).x, fun z hz => ?_,
      (C70_cgls Arith.ints hL hm hL' hm' hop hop' hD hy hx dy dx hs hst).congr fun r _ => by simp⟩
    obtain ⟨i, hi', rfl⟩ : ∃ i ≤ m, z = (s i).x := by
      rw [List.mem_cons] at hz
      rcases hz with rfl | hz
      · exact ⟨m, le_rfl, rfl⟩
      · obtain ⟨i, h, rfl⟩ := List.mem_map.1 hz
        rw [List.mem_range'_1] at h
        exact ⟨i, by omega, rfl⟩
    have h := (sls_stored Arith.ints i (s i) (hs i hi')).1
    rw [hi] at h
    exact ⟨h.1, h.int⟩
  · exact .inr ⟨e, C70_cgls_error Arith.ints hL hm hL' hm' hop hop' hD hy hx dy dx hs he hst⟩

/-- if the data are an array of integers, then every entry of `cost` is the root of a natural number: `cg` cannot see a residual below 1 -/
theorem C71_cg_cost (hL : L.WF n) (hm : L.mask = none) (hop : ActsAs n J (fun r => (op r).mv) L L F D) (hy : y.v.length = L.gshape.prod) (hx : x0.v.length = L.gshape.prod) (dy : D y.dt) (dx : D x0.dt) (hi : y.dt = int64) :
    (∃ (x : SVec ℝ) (it : Nat) (cost : List ℝ) (xs : List (SVec ℝ)), (∀ c ∈ cost, ∃ k : ℕ, c = Real.sqrt k) ∧
      Always n (fun r => FCG.solve Arith.ints (env n J r) (op r) (y.part L n r) (x0.part L n r) (some niter) tol) (fun r => .ok (x.part L n r, it, cost, xs.map fun z => z.part L n r))) ∨
    ∃ e, Always n (fun r => FCG.solve Arith.ints (env n J r) (op r) (y.part L n r) (x0.part L n r) (some niter) tol) (fun _ => .error e) := by
  rcases C70_cg_cases Arith.ints (SVec.blockDot Arith.ints L n) F y x0 niter tol with ⟨m, s, hs, hst⟩ | ⟨m, s, e, hs, he, hst⟩
  · refine .inl ⟨(s m).x, m, (List.range (m + 1)).map (fun i => Arith.ints.sqrt (s i).k), (List.range' 1 m).map fun i => (s i).x, fun c hc => ?_, (C70_cg Arith.ints hL hm hop hy hx dy dx hs hst).congr fun r _ => by simp⟩
    obtain ⟨i, h, rfl⟩ := List.mem_map.1 hc
    obtain ⟨k, hk⟩ := scg_nat hi i (s i) (hs i (by have := List.mem_range.1 h; omega))
    exact ⟨k, by rw [hk]; rfl⟩
  · exact .inr ⟨e, C70_cg_error Arith.ints hL hm hop hy hx dy dx hs he hst⟩

/-- `cgls` likewise -/
theorem C71_cgls_cost (hL : L.WF n) (hm : L.mask = none) (hL' : L'.WF n) (hm' : L'.mask = none) (hop : ActsAs n J (fun r => (op r).mv) L L' F D)
    (hop' : ActsAs n J (fun r => (op r).rmv) L' L F' D') (hD : ∀ s : SVec ℝ, s.v.length = L'.gshape.prod → D' s.dt → D (F' s).dt) (hy : y.v.length = L'.gshape.prod) (hx : x0.v.length = L.gshape.prod) (dy : D' y.dt) (dx : D x0.dt) (hi : y.dt = int64) :
    (∃ (x : SVec ℝ) (istop it : Nat) (r1 r2 : ℝ) (cost : List ℝ) (xs : List (SVec ℝ)), (∀ c ∈ cost, ∃ k : ℕ, c = Real.sqrt k) ∧
      Always n (fun r => FCGLS.solve Arith.ints Arith.ints.normX (env n J r) (op r) (y.part L' n r) (x0.part L n r) (some niter) damp tol)
        (fun r => .ok ⟨x.part L n r, istop, it, r1, r2, cost, xs.map fun z => z.part L n r⟩)) ∨
    ∃ e, Always n (fun r => FCGLS.solve Arith.ints Arith.ints.normX (env n J r) (op r) (y.part L' n r) (x0.part L n r) (some niter) damp tol) (fun _ => .error e) := by
  rcases C70_cgls_cases Arith.ints (SVec.blockDot Arith.ints L n) (SVec.blockDot Arith.ints L' n) (SVec.blockNorm Arith.ints L' n) F F' damp y x0 niter tol with ⟨e, he⟩ | ⟨m, s, hs, hst⟩ | ⟨m, s, e, hs, he, hst⟩
  · exact .inr ⟨e, C70_cgls_setup_error Arith.ints hL hm hL' hm' hop hop' hD hy hx dy dx he⟩
  · refine .inl ⟨(s m).x, if Arith.ints.lt (s m).k tol then 1 else 2, m, (s m).k, (s m).r2, (List.range (m + 1)).map (fun i => (s i).r1), (List.range' 1 m).map fun i => (s i).x, fun c hc => ?_,
      (C70_cgls Arith.ints hL hm hL' hm' hop hop' hD hy hx dy dx hs hst).congr fun r _ => by simp⟩
    obtain ⟨i, h, rfl⟩ := List.mem_map.1 hc
    exact sls_nat hi i (s i) (hs i (by have := List.mem_range.1 h; omega))
  · exact .inr ⟨e, C70_cgls_error Arith.ints hL hm hL' hm' hop hop' hD hy hx dy dx hs he hst⟩

end

/-! ### a case -/

/-- two entries on two ranks -/
def twoOnTwo : Layout := ⟨[2], .scatter, 0, fun r => if r < 2 then 1 else 0, none⟩

theorem twoOnTwo_wf : twoOnTwo.WF 2 := ⟨by decide, fun _ => by decide, fun _ h => by simp [twoOnTwo] at h⟩

/-- rank `r` multiplies by `w r`, like `MPIBlockDiag` with one `pylops.Diagonal` of dtype float64 on each rank -/
def diagOp (w : Nat → ℝ) : XOp ℝ :=
  let f : Ctx ℝ → XArr ℝ → P ℝ (XArr ℝ) := fun c x => match x with
    | .one d => .ret (.one { d with dtype := float64, larr := ⟨d.larr.shape, float64, d.larr.data.map (· * w c.rank)⟩ })
    | .stack _ => .throw .attribute
  ⟨f, f⟩

theorem diagOp_actsAs (w : Nat → ℝ) (J : Nat → Nat → ℝ) : ActsAs 2 J (fun _ => (diagOp w).mv) twoOnTwo twoOnTwo fun x => ⟨float64, List.zipWith (· * ·) x.v [w 0, w 1]⟩ := by
  refine ⟨fun x h _ => by rw [List.length_zipWith, h]; rfl, fun x h _ => ?_⟩
  obtain ⟨dt, v⟩ := x
  match v, h with
  | [a, b], _ =>
    refine Runs.always ((Runs.ret _).congr (fun r _ => rfl) fun r hr => ?_)
    have : r = 0 ∨ r = 1 := by omega
    rcases this with rfl | rfl <;> rfl

theorem intPart_fifth : intPart (1 / 5) = 0 := by
  rw [intPart, if_pos (by norm_num), Int.cast_eq_zero, Int.floor_eq_zero_iff]
  constructor <;> norm_num

theorem intPart_neg_fifth : intPart (-(1 / 5)) = 0 := by
  rw [intPart, if_neg (by norm_num), Int.cast_eq_zero, Int.ceil_eq_zero_iff]
  constructor <;> norm_num

theorem twoOnTwo_dot (d e : DType) (a b x y : ℝ) : SVec.blockDot Arith.ints twoOnTwo 2 ⟨d, [a, b]⟩ ⟨e, [x, y]⟩ = a * x + b * y := by
  show ([([a * x].sum), ([b * y].sum)] : List ℝ).sum = _
  simp

theorem ints_int (x : ℝ) : Arith.ints.cast int64 x = intPart x := rfl
theorem ints_float (x : ℝ) : Arith.ints.cast float64 x = x := rfl
theorem ints_conj (x : ℝ) : Arith.ints.conj x = x := rfl
theorem ints_neg (x : ℝ) : Arith.ints.neg x = -x := rfl
theorem ints_add (x y : ℝ) : Arith.ints.add x y = x + y := rfl
theorem ints_mul (x y : ℝ) : Arith.ints.mul x y = x * y := rfl
theorem ints_abs (x : ℝ) : Arith.ints.abs x = |x| := rfl
theorem ints_npDiv {x y : ℝ} (h : y ≠ 0) : Arith.ints.npDiv x y = .ok (x / y) := if_neg h
theorem ints_pyDiv {x y : ℝ} (h : y ≠ 0) : Arith.ints.pyDiv x y = .ok (x / y) := if_neg h
theorem ints_gt {x y : ℝ} : Arith.ints.gt x y = true ↔ y < x := by simp [Arith.ints, Arith.exact]
theorem intPart_two_fifths : intPart (2 / 5) = 0 := by
  rw [intPart, if_pos (by norm_num), Int.cast_eq_zero, Int.floor_eq_zero_iff]
  constructor <;> norm_num

theorem intPart_zero : intPart 0 = 0 := by simpa using intPart_int 0
theorem intPart_one : intPart 1 = 1 := by simpa using intPart_int 1

/-- the states of the serial algorithm with data of dtype float64 -/
noncomputable def floatStates (i : Nat) : SCG ℝ :=
  if i = 0 then ⟨⟨float64, [0, 0]⟩, ⟨float64, [1, 1]⟩, ⟨float64, [1, 1]⟩, 2⟩
  else if i = 1 then ⟨⟨float64, [2 / 5, 2 / 5]⟩, ⟨float64, [1 / 5, -1 / 5]⟩, ⟨float64, [6 / 25, -4 / 25]⟩, 2 / 25⟩
  else ⟨⟨float64, [1 / 2, 1 / 3]⟩, ⟨float64, [0, 0]⟩, ⟨float64, [0, 0]⟩, 0⟩

/-- with data of dtype int64 -/
noncomputable def intStates (i : Nat) : SCG ℝ :=
  if i = 0 then ⟨⟨float64, [0, 0]⟩, ⟨int64, [1, 1]⟩, ⟨int64, [1, 1]⟩, 2⟩ else ⟨⟨float64, [0, 0]⟩, ⟨int64, [0, 0]⟩, ⟨int64, [0, 0]⟩, 0⟩

theorem next_float (x₀ x₁ r₀ r₁ c₀ c₁ k : ℝ) (hk : k ≠ 0) (hc : c₀ * (c₀ * 2) + c₁ * (c₁ * 3) ≠ 0) :
    SCG.next Arith.ints (SVec.blockDot Arith.ints twoOnTwo 2) (fun x => ⟨float64, List.zipWith (· * ·) x.v [2, 3]⟩) ⟨⟨float64, [x₀, x₁]⟩, ⟨float64, [r₀, r₁]⟩, ⟨float64, [c₀, c₁]⟩, k⟩ =
      (let a := k / |c₀ * (c₀ * 2) + c₁ * (c₁ * 3)|
       let r₀' := r₀ + -(c₀ * 2 * a)
       let r₁' := r₁ + -(c₁ * 3 * a)
       let k' := |r₀' * r₀' + r₁' * r₁'|
       .ok ⟨⟨float64, [x₀ + c₀ * a, x₁ + c₁ * a]⟩, ⟨float64, [r₀', r₁']⟩, ⟨float64, [r₀' + c₀ * (k' / k), r₁' + c₁ * (k' / k)]⟩, k'⟩) := by
  simp only [SCG.next, bind, Except.bind, SVec.conj, SVec.map, SVec.scale, SVec.sub, SVec.add, SVec.zip, List.map_cons, List.map_nil, List.zipWith_cons_cons, List.zipWith_nil_left, twoOnTwo_dot,
    ints_float, ints_conj, ints_neg, ints_add, ints_mul, ints_abs]
  rw [ints_npDiv (abs_ne_zero.2 hc)]
  simp only
  rw [ints_pyDiv hk]

/-- The equation `2 x₀ = 1, 3 x₁ = 1` on two ranks, from 0, with tol = 0.01.  With data of dtype float64, `cg` returns the solution (1/2, 1/3).  With the same data of dtype int64 it
    returns the start vector and the residual 0 after one iteration: the step (2/5, 2/5) and the residual (1/5, -1/5) have been truncated to 0. -/
theorem C71_wrong (J : Nat → Nat → ℝ) :
    Always 2 (fun r => FCG.solve Arith.ints (env 2 J r) (diagOp fun r => if r = 0 then 2 else 3) ((⟨float64, [1, 1]⟩ : SVec ℝ).part twoOnTwo 2 r) ((⟨float64, [0, 0]⟩ : SVec ℝ).part twoOnTwo 2 r)
      (some 10) (1 / 100)) (fun r => .ok ((⟨float64, [1 / 2, 1 / 3]⟩ : SVec ℝ).part twoOnTwo 2 r, 2, [Real.sqrt 2, Real.sqrt (2 / 25), Real.sqrt 0],
        [(⟨float64, [2 / 5, 2 / 5]⟩ : SVec ℝ).part twoOnTwo 2 r, (⟨float64, [1 / 2, 1 / 3]⟩ : SVec ℝ).part twoOnTwo 2 r])) ∧
    Always 2 (fun r => FCG.solve Arith.ints (env 2 J r) (diagOp fun r => if r = 0 then 2 else 3) ((⟨int64, [1, 1]⟩ : SVec ℝ).part twoOnTwo 2 r) ((⟨float64, [0, 0]⟩ : SVec ℝ).part twoOnTwo 2 r)
      (some 10) (1 / 100)) (fun r => .ok ((⟨float64, [0, 0]⟩ : SVec ℝ).part twoOnTwo 2 r, 1, [Real.sqrt 2, Real.sqrt 0], [(⟨float64, [0, 0]⟩ : SVec ℝ).part twoOnTwo 2 r])) := by
  have hF : (fun x : SVec ℝ => (⟨float64, List.zipWith (· * ·) x.v [if (0 : Nat) = 0 then 2 else 3, if (1 : Nat) = 0 then 2 else 3]⟩ : SVec ℝ)) = fun x => ⟨float64, List.zipWith (· * ·) x.v [2, 3]⟩ := by
    simp
  have hop := diagOp_actsAs (fun r => if r = 0 then 2 else 3) J
  rw [hF] at hop
  constructor
  · refine (C70_cg Arith.ints (m := 2) (s := floatStates) twoOnTwo_wf rfl hop rfl rfl trivial trivial (fun i hi => ?_) ⟨fun i hi => ?_, ?_⟩).congr fun r _ => rfl
    · have h0 : SCG.seq Arith.ints (SVec.blockDot Arith.ints twoOnTwo 2) (fun x => ⟨float64, List.zipWith (· * ·) x.v [2, 3]⟩) ⟨float64, [1, 1]⟩ ⟨float64, [0, 0]⟩ 0 = .ok (floatStates 0) := by
        simp only [SCG.seq, SCG.start, SVec.copy, SVec.conj, SVec.map, SVec.sub, SVec.add, SVec.zip, List.map_cons, List.map_nil, List.zipWith_cons_cons, List.zipWith_nil_left, twoOnTwo_dot,
          ints_float, ints_conj, ints_neg, ints_add, ints_abs, floatStates, if_true, id]
        norm_num
      have h1 : SCG.seq Arith.ints (SVec.blockDot Arith.ints twoOnTwo 2) (fun x => ⟨float64, List.zipWith (· * ·) x.v [2, 3]⟩) ⟨float64, [1, 1]⟩ ⟨float64, [0, 0]⟩ 1 = .ok (floatStates 1) := by
        rw [SCG.seq, h0]
        simp only [Except.bind, floatStates, if_true]
        rw [next_float _ _ _ _ _ _ _ (by norm_num) (by norm_num)]
        norm_num [abs_of_pos]
      have h2 : SCG.seq Arith.ints (SVec.blockDot Arith.ints twoOnTwo 2) (fun x => ⟨float64, List.zipWith (· * ·) x.v [2, 3]⟩) ⟨float64, [1, 1]⟩ ⟨float64, [0, 0]⟩ 2 = .ok (floatStates 2) := by
        rw [SCG.seq, h1]
        simp only [Except.bind, floatStates]
        norm_num
        rw [next_float _ _ _ _ _ _ _ (by norm_num) (by norm_num)]
        norm_num [abs_of_pos]
      have : i = 0 ∨ i = 1 ∨ i = 2 := by omega
      rcases this with rfl | rfl | rfl <;> assumption
    · have : i = 0 ∨ i = 1 := by omega
      rcases this with rfl | rfl
      · exact ⟨by norm_num, ints_gt.2 (by norm_num [floatStates])⟩
      · exact ⟨by norm_num, ints_gt.2 (by norm_num [floatStates])⟩
    · rintro ⟨-, h⟩
      have := ints_gt.1 h
      norm_num [floatStates] at this
  · refine (C70_cg Arith.ints (m := 1) (s := intStates) twoOnTwo_wf rfl hop rfl rfl trivial trivial (fun i hi => ?_) ⟨fun i hi => ?_, ?_⟩).congr fun r _ => rfl
    · have h0 : SCG.seq Arith.ints (SVec.blockDot Arith.ints twoOnTwo 2) (fun x => ⟨float64, List.zipWith (· * ·) x.v [2, 3]⟩) ⟨int64, [1, 1]⟩ ⟨float64, [0, 0]⟩ 0 = .ok (intStates 0) := by
        simp only [SCG.seq, SCG.start, SVec.copy, SVec.conj, SVec.map, SVec.sub, SVec.add, SVec.zip, List.map_cons, List.map_nil, List.zipWith_cons_cons, List.zipWith_nil_left, twoOnTwo_dot,
          ints_float, ints_int, ints_conj, ints_neg, ints_add, ints_abs, intStates, if_true, id]
        norm_num [intPart_one]
      have h1 : SCG.seq Arith.ints (SVec.blockDot Arith.ints twoOnTwo 2) (fun x => ⟨float64, List.zipWith (· * ·) x.v [2, 3]⟩) ⟨int64, [1, 1]⟩ ⟨float64, [0, 0]⟩ 1 = .ok (intStates 1) := by
        rw [SCG.seq, h0]
        simp only [Except.bind, intStates, if_true, SCG.next, bind, SVec.conj, SVec.map, SVec.scale, SVec.sub, SVec.add, SVec.zip, List.map_cons, List.map_nil, List.zipWith_cons_cons, List.zipWith_nil_left, twoOnTwo_dot,
          ints_float, ints_int, ints_conj, ints_neg, ints_add, ints_mul, ints_abs]
        rw [ints_npDiv (by norm_num)]
        simp only
        rw [ints_pyDiv (by norm_num)]
        norm_num [intPart_fifth, intPart_neg_fifth, intPart_two_fifths, intPart_zero]
      have : i = 0 ∨ i = 1 := by omega
      rcases this with rfl | rfl <;> assumption
    · obtain rfl : i = 0 := by omega
      exact ⟨by norm_num, ints_gt.2 (by norm_num [intStates])⟩
    · rintro ⟨-, h⟩
      have := ints_gt.1 h
      norm_num [intStates] at this

theorem intPart_half : intPart (1 / 2) = 0 := by
  rw [intPart, if_pos (by norm_num), Int.cast_eq_zero, Int.floor_eq_zero_iff]
  constructor <;> norm_num

/-- half of (1, 3) is (0, 1) -/
example (J : Nat → Nat → ℝ) : Always 2 (fun r => Arith.ints.dsmul (env 2 J r) (twoOnTwo.fam 2 int64 (twoOnTwo.piece [1, 3]) r) float64 (1 / 2))
    (fun r => .ok (twoOnTwo.fam 2 int64 (twoOnTwo.piece [0, 1]) r)) := by
  refine (C71_multiply (x := ⟨int64, [1, 3]⟩) twoOnTwo_wf rfl rfl rfl (1 / 2) float64).congr fun r _ => ?_
  have h1 : intPart (1 * (1 / 2)) = 0 := by rw [one_mul, intPart_half]
  have h2 : intPart (3 * (1 / 2)) = 1 := by
    rw [intPart, if_pos (by norm_num)]
    have : ⌊(3 * (1 / 2) : ℝ)⌋ = 1 := by
      rw [Int.floor_eq_iff]
      constructor <;> norm_num
    rw [this, Int.cast_one]
  simp only [List.map_cons, List.map_nil, h1, h2]

/-- a sum of arrays of integers -/
example (J : Nat → Nat → ℝ) : Always 2 (fun r => Arith.ints.dadd (env 2 J r) (twoOnTwo.fam 2 int64 (twoOnTwo.piece [1, 3]) r) (twoOnTwo.fam 2 float64 (twoOnTwo.piece [4, -5]) r))
    (fun r => .ok (twoOnTwo.fam 2 int64 (twoOnTwo.piece [5, -2]) r)) := by
  refine (C71_exact_partial (x := ⟨int64, [1, 3]⟩) (y := ⟨float64, [4, -5]⟩) twoOnTwo_wf rfl rfl rfl ?_ ?_ 1 int64).1.congr fun r _ => ?_
  · intro a ha
    simp only [List.mem_cons, List.not_mem_nil, or_false] at ha
    rcases ha with rfl | rfl
    · exact ⟨1, by norm_num⟩
    · exact ⟨3, by norm_num⟩
  · intro a ha
    simp only [List.mem_cons, List.not_mem_nil, or_false] at ha
    rcases ha with rfl | rfl
    · exact ⟨4, by norm_num⟩
    · exact ⟨-5, by norm_num⟩
  · norm_num

/-- the same equation with a start vector of integers: `cg` does not return the solution (1/2, 1/3) -/
example (J : Nat → Nat → ℝ) (niter : Int) (tol : ℝ) (it : Nat) (cost : List ℝ) (xs : Nat → List (XArr ℝ)) :
    ¬ Always 2 (fun r => FCG.solve Arith.ints (env 2 J r) (diagOp fun r => if r = 0 then 2 else 3) ((⟨float64, [1, 1]⟩ : SVec ℝ).part twoOnTwo 2 r) ((⟨int64, [0, 0]⟩ : SVec ℝ).part twoOnTwo 2 r) (some niter) tol)
      (fun r => .ok ((⟨int64, [1 / 2, 1 / 3]⟩ : SVec ℝ).part twoOnTwo 2 r, it, cost, xs r)) := by
  intro h
  rcases C71_cg_integer (y := ⟨float64, [1, 1]⟩) (x0 := ⟨int64, [0, 0]⟩) (niter := niter) (tol := tol) twoOnTwo_wf rfl (diagOp_actsAs (fun r => if r = 0 then 2 else 3) J) rfl rfl trivial trivial rfl with ⟨x, it', cost', xs', hx, hr⟩ | ⟨e, hr⟩
  · have := hr.unique h 0 (by decide)
    injection this with this
    injection this with this _
    have h2 : (x.part twoOnTwo 2 0) = (⟨int64, [1 / 2, 1 / 3]⟩ : SVec ℝ).part twoOnTwo 2 0 := this
    unfold SVec.part at h2
    injection h2 with h2
    have h3 : twoOnTwo.piece x.v 0 = [1 / 2] := congrArg (fun d => d.larr.data) h2
    obtain ⟨k, hk⟩ := (hx x (by simp)).2 (1 / 2) (mem_piece (L := twoOnTwo) (r := 0) (by rw [h3]; simp))
    have h4 : ((2 * k : ℤ) : ℝ) = ((1 : ℤ) : ℝ) := by push_cast; rw [← hk]; norm_num
    have h5 : 2 * k = 1 := Int.cast_injective h4
    omega
  · have := hr.unique h 0 (by decide)
    cases this

end Verif

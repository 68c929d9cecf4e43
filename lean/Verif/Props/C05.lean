/- C05: elementwise operations commute with gathering. -/
import Verif.Props.C01

namespace Verif
open NDArray

variable {K : Type} [Field K] [StarRing K] [CharZero K] {n : Nat} {J : Nat → Nat → K}

/-- The operations of C05. -/
inductive ElemOp (K : Type)
  | neg | add | sub | mul | smul (t : DType) (s : K) | conj | copy | zerosLike

/-- the distributed program: operate on `x` (and `y`), then gather -/
def ElemOp.run (c : Ctx K) (x y : DArr K) : ElemOp K → P K (DArr K)
  | .neg => x.neg c
  | .add => x.add c y
  | .sub => x.sub' c y
  | .mul => x.mul c y
  | .smul t s => x.smul c t s
  | .conj => x.conj c
  | .copy => x.copy c
  | .zerosLike => x.zerosLike c

/-- the NumPy operation, entry by entry -/
def ElemOp.spec : ElemOp K → K → K → K
  | .neg, a, _ => -a
  | .add, a, b => a + b
  | .sub, a, b => a - b
  | .mul, a, b => a * b
  | .smul _ s, a, _ => a * s
  | .conj, a, _ => star a
  | .copy, a, _ => a
  | .zerosLike, _, _ => 0

/-- scalars must be representable in the dtype of the array (mixed dtypes: see C49) -/
def ElemOp.Ok (dt : DType) : ElemOp K → Prop
  | .smul _ s => dt = .real → star s = s
  | _ => True

theorem zipWith_left {A B C : Type} (f : A → C) (a : List A) (b : List B) (h : a.length = b.length) :
    List.zipWith (fun x _ => f x) a b = a.map f := by
  induction a generalizing b with
  | nil => simp
  | cons x a ih => cases b with
    | nil => simp at h
    | cons y b => simp [ih b (by simpa using h)]

/-- result of an operation, rank by rank -/
theorem runs_elemOp {L : Layout} {dt : DType} {a b : Nat → List K} (hL : L.WF n)
    (ha : L.Good n dt a) (hb : L.Good n dt b) (op : ElemOp K) (hop : op.Ok dt) :
    ∃ L' : Layout, (L' = L ∨ L' = L.unmask) ∧
    Runs n (fun r => op.run (env n J r) (L.fam n dt a r) (L.fam n dt b r))
      (fun r => .ok (L'.fam n dt (fun r => List.zipWith op.spec (a r) (b r)) r)) ∧
    L'.Good n dt (fun r => List.zipWith op.spec (a r) (b r)) := by
  have hlen : ∀ r < n, (a r).length = (b r).length := fun r hr => by rw [ha.length r hr, hb.length r hr]
  have un : ∀ (f : K → K) (hf : dt = .real → ∀ x, star x = x → star (f x) = f x)
      (ps : Nat → P K (DArr K)),
      Runs n ps (fun r => .ok (L.fam n dt (fun r => (a r).map f) r)) →
      Runs n ps (fun r => .ok (L.fam n dt (fun r => List.zipWith (fun x _ => f x) (a r) (b r)) r)) ∧
      L.Good n dt (fun r => List.zipWith (fun x _ => f x) (a r) (b r)) := by
    intro f hf ps h
    constructor
    · refine h.congr (fun _ _ => rfl) (fun r hr => ?_)
      congr 1; apply fam_congr; rw [zipWith_left f _ _ (hlen r hr)]
    · have := good_map f hf ha
      exact ⟨fun r hr => by simp only [zipWith_left f _ _ (hlen r hr)]; exact this.length r hr,
        fun r hr => by simp only [zipWith_left f _ _ (hlen r hr)]; exact this.fits r hr,
        fun h r hr => by
          simp only [zipWith_left f _ _ (hlen r hr), zipWith_left f _ _ (hlen 0 (by omega))]
          exact this.consistent h r hr⟩
  cases op with
  | neg => exact ⟨L, .inl rfl, un (- ·) (fun _ x hx => by simp [hx]) _ (runs_neg hL ha)⟩
  | add => exact ⟨L, .inl rfl, runs_add hL ha hb, good_zip _ (fun _ x y hx hy => by simp [hx, hy, ElemOp.spec]) ha hb⟩
  | sub => exact ⟨L, .inl rfl, runs_sub hL ha hb, good_zip _ (fun _ x y hx hy => by simp [hx, hy, ElemOp.spec]) ha hb⟩
  | mul => exact ⟨L, .inl rfl, runs_mul hL ha hb, good_zip _ (fun _ x y hx hy => by simp [hx, hy, ElemOp.spec]) ha hb⟩
  | smul t s => exact ⟨L, .inl rfl, un (· * s) (fun hd x hx => by simp [hx, hop hd, mul_comm]) _ (runs_smul hop hL ha)⟩
  | conj => exact ⟨L, .inl rfl, un star (fun _ x hx => by simp [hx]) _ (runs_conj hL ha)⟩
  | copy => exact ⟨L, .inl rfl, un (fun x => x) (fun _ x hx => hx) _ (by simpa [ElemOp.run] using runs_copy (J := J) hL ha)⟩
  | zerosLike =>
    have h0 : ∀ r < n, List.zipWith (ElemOp.spec (K := K) .zerosLike) (a r) (b r)
        = List.replicate (L.lshape r).prod 0 := by
      intro r hr
      have : List.zipWith (ElemOp.spec (K := K) .zerosLike) (a r) (b r) = (a r).map (fun _ => 0) :=
        zipWith_left (fun _ => 0) _ _ (hlen r hr)
      rw [this, List.map_const', ha.length r hr]
    refine ⟨L.unmask, .inr rfl, ?_, ?_⟩
    · refine (runs_zerosLike hL).congr (fun _ _ => rfl) (fun r hr => ?_)
      congr 1; apply fam_congr; rw [h0 r hr]
    · have := (un (fun _ => 0) (fun _ x _ => by simp) (fun r => .ret (L.fam n dt (fun r => (a r).map (fun _ => 0)) r))
        (Runs.ret _)).2
      exact ⟨this.length, this.fits, this.consistent⟩

/-- what `asarray` returns on rank `r` -/
theorem runs_asarray_any {L : Layout} {dt : DType} {a : Nat → List K} (hL : L.WF n) :
    Runs n (fun r => (L.fam n dt a r).asarray (env n J r))
      (fun r => .ok ⟨L.gshape, dt, if L.part.isBroadcast then a r else L.globalData n a⟩) := by
  by_cases hb : L.part.isBroadcast = true
  · refine (runs_asarray_bcast (J := J) hb).congr (fun _ _ => rfl) (fun r _ => by simp [hb])
  · refine (runs_asarray (J := J) hL (isBroadcast_false hb)).congr (fun _ _ => rfl)
      (fun r _ => by simp [hb, Layout.global])

/-- **C05**.  `x` and `y` are arbitrary arrays of the same layout and dtype with local data `a`
    and `b`.  Gathering the operands, and gathering the result of the operation, gives global
    arrays related by the NumPy operation; the result has the layout of `x`.  (The gathered array
    depends on the rank only for UNSAFE_BROADCAST arrays.) -/
theorem C05_elementwise {L : Layout} {dt : DType} {a b : Nat → List K} (hL : L.WF n)
    (ha : L.Good n dt a) (hb : L.Good n dt b) (op : ElemOp K) (hop : op.Ok dt) :
    ∃ gx gy : Nat → NDArray K,
      Always n (fun r => (L.fam n dt a r).asarray (env n J r)) (fun r => .ok (gx r)) ∧
      Always n (fun r => (L.fam n dt b r).asarray (env n J r)) (fun r => .ok (gy r)) ∧
      (L.part ≠ .unsafeBroadcast → ∀ r < n, gx r = gx 0 ∧ gy r = gy 0) ∧
      Always n (fun r => do
          let z ← op.run (env n J r) (L.fam n dt a r) (L.fam n dt b r)
          let g ← z.asarray (env n J r)
          .ret (g, z.gshape, z.part, z.axis, z.lshape, z.dtype))
        (fun r => .ok (⟨L.gshape, dt, List.zipWith op.spec (gx r).data (gy r).data⟩,
          L.gshape, L.part, L.axis, L.lshape r, dt)) := by
  refine ⟨_, _, (runs_asarray_any hL).always, (runs_asarray_any hL).always, fun hu r hr => ?_, ?_⟩
  · by_cases hbc : L.part.isBroadcast = true
    · have : L.part = .broadcast := by cases h : L.part <;> simp_all [Partition.isBroadcast]
      simp only [ha.consistent this r hr, hb.consistent this r hr, and_self]
    · simp [hbc]
  obtain ⟨L', hL', h1, h2⟩ := runs_elemOp (J := J) hL ha hb op hop
  have hlen : ∀ r < n, (a r).length = (b r).length := fun r hr => by rw [ha.length r hr, hb.length r hr]
  have e : L'.WF n ∧ L'.gshape = L.gshape ∧ L'.part = L.part ∧ L'.axis = L.axis ∧
      (∀ r, L'.lshape r = L.lshape r) ∧ ∀ a : Nat → List K, L'.globalData n a = L.globalData n a := by
    rcases hL' with rfl | rfl
    · exact ⟨hL, rfl, rfl, rfl, fun _ => rfl, fun _ => rfl⟩
    · exact ⟨unmask_wf hL, rfl, rfl, rfl, fun _ => rfl, fun _ => rfl⟩
  obtain ⟨e1, e3, e4, e5, e6, e7⟩ := e
  simp only [Prog.bind_eq]
  refine (Runs.bind_ok h1 (Runs.bind_ok (runs_asarray_any e1) ?_)).always
  refine Runs.congr (Runs.ret _) (fun _ _ => rfl) (fun r _ => ?_)
  simp only [e7, globalData_zip op.spec hlen, Layout.fam, e3, e4, e5, e6]
  by_cases hbc : L.part.isBroadcast = true <;> simp [hbc]

/-- Non-vacuity: a layout of 2 ranks with different local extents and real data. -/
example : (Layout.mk [3] .scatter 0 (fun r => 2 - r) none).WF 2 ∧
    (Layout.mk [3] .scatter 0 (fun r => 2 - r) none).Good 2 .real
      (fun r => if r = 0 then [1, 2] else [(3 : ℚ)]) ∧
    (ElemOp.smul .real (5 : ℚ)).Ok .real := by
  refine ⟨⟨by decide, fun _ => by decide, by simp⟩, ⟨fun r hr => ?_, fun _ _ _ _ _ => rfl, by simp⟩,
    fun _ => rfl⟩
  match r, hr with
  | 0, _ => rfl
  | 1, _ => rfl

end Verif

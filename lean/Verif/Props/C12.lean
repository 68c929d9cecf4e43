/- C12, C13, C14: ghost cells. -/
import Verif.Proofs.Ghost
import Verif.Props.C07

namespace Verif
open NDArray

variable {K : Type} [Field K] [StarRing K] [CharZero K] {n : Nat} {J : Nat → Nat → K} {L : Layout} {dt : DType}
  {a : Nat → List K} {front back : Option (Nat → Nat)}

/-- `cells_front` is optional; its value may differ between ranks: rank `r` passes `f r`. -/
abbrev cellsOf (o : Option (Nat → Nat)) (r : Nat) : Nat := (o.getD fun _ => 0) r

/-- every rank owns the entries its neighbours ask for -/
structure Enough (L : Layout) (n : Nat) (front back : Option (Nat → Nat)) : Prop where
  front : ∀ r, r + 1 < n → cellsOf front (r + 1) ≤ L.sizes r
  back : ∀ r, r + 1 < n → cellsOf back r ≤ L.sizes (r + 1)

/-- position, along the axis, of the first entry rank `r` should see -/
def ghostLo (L : Layout) (front : Option (Nat → Nat)) (r : Nat) : Nat :=
  ((List.range r).map L.sizes).sum - if r = 0 then 0 else cellsOf front r

/-- one past the position of the last entry rank `r` should see -/
def ghostHi (L : Layout) (n : Nat) (back : Option (Nat → Nat)) (r : Nat) : Nat :=
  ((List.range (r + 1)).map L.sizes).sum + if r + 1 = n then 0 else cellsOf back r

/-- the program of rank `r` -/
abbrev ghostProg (n : Nat) (J : Nat → Nat → K) (L : Layout) (dt : DType) (a : Nat → List K) (front back : Option (Nat → Nat)) (r : Nat) :
    P K (NDArray K) := (L.fam n dt a r).addGhostCells (env n J r) (front.map (· r)) (back.map (· r))

theorem window_eq {r : Nat} (hr : r < n) (G : NDArray K) : L.window G r (frontCells (front.getD fun _ => 0) r)
    (backCells n (back.getD fun _ => 0) r) = G.slice L.axis (ghostLo L front r) (ghostHi L n back r) := by
  unfold Layout.window ghostLo ghostHi frontCells backCells Layout.off
  rw [psum_eq_sum, psum_eq_sum]
  have : (r = n - 1) = (r + 1 = n) := by apply propext; omega
  simp only [this]

/-- **C12**, **C14**.  Every execution terminates on all ranks, under every interleaving and every
    choice of buffering sends or not (`Always`), and rank `r` obtains the slice of the global array
    that extends its own part by the requested number of entries. -/
theorem C12_ghost (hL : L.WF n) (hp : L.part = .scatter) (ha : ∀ r < n, (a r).length = (L.lshape r).prod)
    (he : Enough L n front back) :
    Always n (ghostProg n J L dt a front back)
      (fun r => .ok ((L.global n dt a).slice L.axis (ghostLo L front r) (ghostHi L n back r))) := by
  refine Runs.always (Runs.congr (runs_addGhostCells (J := J) hL hp ha ?_ ?_) (fun _ _ => rfl) fun r hr => ?_)
  · rintro f rfl r hr h; exact he.front r h
  · rintro b rfl r hr h
    have := he.back (r - 1) (by omega)
    rw [show r - 1 + 1 = r by omega] at this
    exact this
  · rw [window_eq hr]

/-- what a slice is, entry by entry: position `k` along the axis is position `lo + k` of the sliced
    array; `o` and `i` are the (flattened) indices along the dimensions before and after the axis -/
theorem slice_entries {G : NDArray K} (hG : G.WF) {ax lo hi : Nat} (hax : ax < G.shape.length) (h1 : lo ≤ hi) (h2 : hi ≤ len G.shape ax)
    {o k i : Nat} (ho : o < outer G.shape ax) (hk : k < hi - lo) (hi' : i < inner G.shape ax) :
    (G.slice ax lo hi).data[(o * (hi - lo) + k) * inner G.shape ax + i]?
      = G.data[(o * len G.shape ax + (lo + k)) * inner G.shape ax + i]? := by
  have h := chunk_sliceData hax hG h1 h2 ho
  have hlt : k * inner G.shape ax + i < (hi - lo) * inner G.shape ax := by
    calc _ < (k + 1) * inner G.shape ax := by rw [Nat.add_mul, Nat.one_mul]; omega
      _ ≤ _ := Nat.mul_le_mul_right _ hk
  have hlt2 : lo * inner G.shape ax + (k * inner G.shape ax + i) < len G.shape ax * inner G.shape ax := by
    calc _ < lo * inner G.shape ax + (hi - lo) * inner G.shape ax := by omega
      _ = hi * inner G.shape ax := by rw [← Nat.add_mul]; congr 1; omega
      _ ≤ _ := Nat.mul_le_mul_right _ h2
  have h' := congrArg (fun l => l[k * inner G.shape ax + i]?) h
  simp only [chunk, List.getElem?_take, List.getElem?_drop, if_pos hlt, if_pos hlt2] at h'
  unfold slice
  dsimp only
  rw [show (o * (hi - lo) + k) * inner G.shape ax + i = o * ((hi - lo) * inner G.shape ax) + (k * inner G.shape ax + i) by ring, h']
  congr 1
  ring

/-- **C12**, entry by entry. -/
theorem C12_entries (hL : L.WF n) (hp : L.part = .scatter) (ha : ∀ r < n, (a r).length = (L.lshape r).prod)
    (he : Enough L n front back) {r : Nat} (hr : r < n) :
    ∃ g : NDArray K, (∀ s, Run n (St.init (ghostProg n J L dt a front back)) s → Stuck n s → s.prog r = .ret g) ∧
      g.shape = L.gshape.set L.axis (ghostHi L n back r - ghostLo L front r) ∧
      ∀ o < outer L.gshape L.axis, ∀ k < ghostHi L n back r - ghostLo L front r, ∀ i < inner L.gshape L.axis,
        g.data[(o * (ghostHi L n back r - ghostLo L front r) + k) * inner L.gshape L.axis + i]?
          = (L.global n dt a).data[(o * len L.gshape L.axis + (ghostLo L front r + k)) * inner L.gshape L.axis + i]? := by
  have hhi : ghostHi L n back r ≤ len L.gshape L.axis := by
    unfold ghostHi
    rw [← psum_eq_sum]
    split_ifs with h
    · exact off_le hL hp (by omega)
    · have h1 := he.back r (by omega)
      have h2 := off_le (r := r + 1 + 1) hL hp (by omega)
      have h3 := off_succ (L := L) (r + 1)
      simp only [Layout.off] at *
      omega
  have hlo : ghostLo L front r ≤ ghostHi L n back r := by
    unfold ghostLo ghostHi
    have := psum_mono L.sizes (show r ≤ r + 1 by omega)
    rw [psum_eq_sum, psum_eq_sum] at this
    omega
  refine ⟨_, fun s h1 h2 => (C12_ghost hL hp ha he).outcome s h1 h2 r hr, ?_, fun o ho k hk i hi => ?_⟩
  · simp only [NDArray.slice, Layout.global]
    rw [Nat.min_eq_left hhi, Nat.min_eq_left (by omega)]
  · exact slice_entries (G := L.global n dt a) (global_wf hL hp ha) hL.axis_lt hlo hhi ho hk hi

/-- **C14**.  If every rank owns enough entries, no execution of the exchange gets stuck: all
    executions are finite, every execution that cannot continue has returned on all ranks, and every
    unfinished execution can continue with a step that buffers no message. -/
theorem C14_deadlock_free (hL : L.WF n) (hp : L.part = .scatter) (ha : ∀ r < n, (a r).length = (L.lshape r).prod)
    (he : Enough L n front back) :
    (∃ B, ∀ k s, RunN n k (St.init (ghostProg n J L dt a front back)) s → k ≤ B) ∧
    (∀ s, Run n (St.init (ghostProg n J L dt a front back)) s → Stuck n s → ∀ r < n, ∃ g, s.prog r = .ret g) ∧
    ∀ s, Run n (St.init (ghostProg n J L dt a front back)) s →
      (∀ r < n, ∃ g, s.prog r = .ret g) ∨ ∃ s', NBStep n s s' := by
  have h := C12_ghost (J := J) (dt := dt) hL hp ha he
  refine ⟨h.terminates, fun s h1 h2 r hr => ⟨_, h.outcome s h1 h2 r hr⟩, fun s h1 => ?_⟩
  rcases h.progress s h1 with h | h
  · exact .inl fun r hr => ⟨_, h r hr⟩
  · exact .inr h

/-- rank `r` owns fewer entries than a neighbour asks for -/
def TooSmall (L : Layout) (n : Nat) (front back : Option (Nat → Nat)) (r : Nat) : Prop :=
  (r + 1 < n ∧ L.sizes r < cellsOf front (r + 1)) ∨ (0 < r ∧ L.sizes r < cellsOf back (r - 1))

/-- **C13** (safety).  Whatever the sizes and requests are: at any point of any execution, a rank that
    has returned has returned exactly the right window of the global array, and a rank that has
    raised has raised ValueError and is too small. -/
theorem C13_safe (hL : L.WF n) (hp : L.part = .scatter) (ha : ∀ r < n, (a r).length = (L.lshape r).prod)
    {s} (hs : Run n (St.init (ghostProg n J L dt a front back)) s) {r : Nat} (hr : r < n) :
    (∀ g, s.prog r = .ret g → g = (L.global n dt a).slice L.axis (ghostLo L front r) (ghostHi L n back r)) ∧
    ∀ e, s.prog r = .throw e → e = .value ∧ TooSmall L n front back r := by
  obtain ⟨qs, h1, h2⟩ := ghost_steps (J := J) (dt := dt) (a := a) hL hp front back
  have key := fun o ho => Safe.sound_steps h1 (fun q hq => by
    rw [h2 q hq]; exact safe_mid (J := J) (front := front) (back := back) hL hp ha hq) hs hr (o := o) ho
  constructor
  · intro g hg
    have := key (.ok g) hg
    rw [← window_eq hr]
    exact this
  · intro e he
    obtain ⟨h3, h4⟩ := key (.error e) he
    refine ⟨h3, h4.imp ?_ ?_⟩
    · rintro ⟨f, rfl, h⟩
      by_contra h'
      exact h fun h'' => by simp only [cellsOf, Option.getD_some] at h'; omega
    · rintro ⟨b, rfl, h⟩
      by_contra h'
      exact h fun h'' => by simp only [cellsOf, Option.getD_some] at h'; omega

/-- **C13** (the first rank that is too small for the front cells of its successor raises). -/
theorem C13_raises_front_partial (hL : L.WF n) (hp : L.part = .scatter) (ha : ∀ r < n, (a r).length = (L.lshape r).prod)
    {f : Nat → Nat} {m : Nat} (hm : m + 1 < n) (hbad : L.sizes m < f (m + 1)) (hfirst : ∀ r < m, f (r + 1) ≤ L.sizes r) :
    RankEnds n (ghostProg n J L dt a (some f) back) m (.error .value) :=
  ghost_raises_front (f := f) hL hp ha back (by omega) (fun r hr _ => hfirst r hr) fun h => absurd (h hm) (by omega)

/-- **C13** (every rank that is too small for the back cells of its predecessor raises, provided the
    front cells can be delivered). -/
theorem C13_raises_back_partial (hL : L.WF n) (hp : L.part = .scatter) (ha : ∀ r < n, (a r).length = (L.lshape r).prod)
    {b : Nat → Nat} {m : Nat} (h0 : 0 < m) (hm : m < n) (hbad : L.sizes m < b (m - 1))
    (hfront : ∀ r, r + 1 < n → cellsOf front (r + 1) ≤ L.sizes r) :
    RankEnds n (ghostProg n J L dt a front (some b)) m (.error .value) :=
  ghost_raises_back (b := b) hL hp ha hm (fun f hf r hr h => by subst hf; exact hfront r h) fun h => absurd (h h0) (by omega)

/-- What the code does beyond the first rank that is too small in the front phase: all later ranks
    wait forever for a message, they neither return nor raise. -/
theorem C13_later_ranks_wait (hL : L.WF n) (hp : L.part = .scatter) (ha : ∀ r < n, (a r).length = (L.lshape r).prod)
    {f : Nat → Nat} {m : Nat} (hm : m + 1 < n) (hbad : L.sizes m < f (m + 1))
    {s} (hs : Run n (St.init (ghostProg n J L dt a (some f) back)) s) {r : Nat} (hmr : m < r) (hr : r < n) :
    (∀ g, s.prog r ≠ .ret g) ∧ ∀ e, s.prog r ≠ .throw e :=
  ⟨fun g => ghost_waits (f := f) hL hp ha back (by omega) (fun h => absurd (h hm) (by omega)) hs hmr hr (.ok g),
   fun e => ghost_waits (f := f) hL hp ha back (by omega) (fun h => absurd (h hm) (by omega)) hs hmr hr (.error e)⟩

/-- The claim of C13 that *each* rank that is too small raises, is false: three ranks with one entry
    each, all asking for two cells in front; rank 1 is too small for rank 2 but never raises. -/
def ghostEx : Layout := ⟨[3], .scatter, 0, fun _ => 1, none⟩

theorem ghostEx_wf : ghostEx.WF 3 := ⟨by simp [ghostEx], fun _ => rfl, by simp [ghostEx]⟩

theorem C13_violated (back : Option (Nat → Nat)) :
    TooSmall ghostEx 3 (some fun _ => 2) back 1 ∧
    ∀ s, Run 3 (St.init (ghostProg 3 (fun _ _ => 0) ghostEx .real (fun r => [(r : ℚ)]) (some fun _ => 2) back)) s →
      ∀ e, s.prog 1 ≠ .throw e := by
  refine ⟨.inl ⟨by omega, by simp [ghostEx, cellsOf]⟩, fun s hs => ?_⟩
  exact (C13_later_ranks_wait (m := 0) ghostEx_wf rfl (fun r hr => by simp [ghostEx, Layout.lshape, Partition.isBroadcast]) (by omega)
    (by simp [ghostEx]) hs (by omega) (by omega)).2

/-- Non-vacuity of C12–C14: (0, 1, 2) over three ranks, one cell on either side. -/
example : Always 3 (ghostProg 3 (fun _ _ => 0) ghostEx .real (fun r => [(r : ℚ)]) (some fun _ => 1) (some fun _ => 1))
    (fun r => .ok (if r = 0 then ⟨[2], .real, [0, 1]⟩ else if r = 1 then ⟨[3], .real, [0, 1, 2]⟩ else ⟨[2], .real, [1, 2]⟩)) := by
  refine (C12_ghost ghostEx_wf rfl (fun r hr => by simp [ghostEx, Layout.lshape, Partition.isBroadcast])
    ⟨fun _ _ => by simp [ghostEx, cellsOf], fun _ _ => by simp [ghostEx, cellsOf]⟩).congr fun r hr => ?_
  match r, hr with
  | 0, _ => decide +kernel
  | 1, _ => decide +kernel
  | 2, _ => decide +kernel

/-- Non-vacuity of `C13_raises_front_partial`: rank 0 raises in the example of `C13_violated`. -/
example : RankEnds 3 (ghostProg 3 (fun _ _ => 0) ghostEx .real (fun r => [(r : ℚ)]) (some fun _ => 2) none) 0 (.error .value) :=
  C13_raises_front_partial ghostEx_wf rfl (fun r hr => by simp [ghostEx, Layout.lshape, Partition.isBroadcast]) (by omega)
    (by simp [ghostEx]) (by simp)

/-- Non-vacuity of `C13_raises_back_partial`. -/
example : RankEnds 3 (ghostProg 3 (fun _ _ => 0) ghostEx .real (fun r => [(r : ℚ)]) none (some fun _ => 2)) 2 (.error .value) :=
  C13_raises_back_partial ghostEx_wf rfl (fun r hr => by simp [ghostEx, Layout.lshape, Partition.isBroadcast]) (by omega)
    (by omega) (by simp [ghostEx]) (by simp [ghostEx, cellsOf])

end Verif

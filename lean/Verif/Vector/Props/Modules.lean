import Verif.Vector.Props.Values

/-!
# C88: memory goes back to the module it came from (vector)

Programs consist of modules (executable, shared libraries) that may each have their own heap.  Blocks are numbered in the
order of their allocation; `modOf b` is the module whose code allocated block `b`, i.e. the module that made the call
during which `storage_t(capacity)` ran.  Nothing is assumed about `modOf`: calls can be made by any module in any order.
The function stored by line 47 for block `b` is compiled into module `modOf b`, too.
-/

namespace Ptl.Vector

variable {α : Type} {T : Elem α} {s s' : St α Storage} {V V' : Vars α} {op : Op α} {r : Option Nat}

/-- the module that gets the memory of a vector back when it is destroyed or reallocates -/
def Storage.returnsTo (modOf : Nat → Nat) (o : Storage) : Option Nat := o.dealloc.map modOf

/-- C88: after every history, whichever modules made the calls, a vector with a buffer holds the deallocation function of
the module that allocated the buffer, and a vector without a buffer holds none. -/
theorem C88_vector (h : Reach T s V) (modOf : Nat → Nat) {i : Nat} {d : Ptr} {c : Nat} {xs : List α}
    (hsh : Shows s i d c xs) :
    ∃ o, s.obj (.var i) = some o ∧ d = ⟨o.ptr, 0⟩ ∧ o.dealloc = o.ptr ∧ o.returnsTo modOf = d.blk.map modOf := by
  obtain ⟨hinv, rfl⟩ := h.inv
  obtain ⟨o, ho, rfl, rfl⟩ := hinv.of_shows hsh
  obtain ⟨ho, hg⟩ := hinv.wf.get ho
  have e : o.dealloc = o.ptr := by
    rcases hg with ⟨rfl, _⟩ | ⟨b, hd, hp, _⟩
    · rfl
    · rw [hd, hp]
  exact ⟨o, ho, rfl, e, by simp only [Storage.returnsTo, e]⟩

/-- C88: no call along any history hands a block to another function than the one that was stored when the block was
allocated. -/
theorem C88_vector_release (h : Reach T s V) (hs : Spec T op V V' r) : op.run T s ≠ .ub .wrongDealloc :=
  C02_no_undefined_behaviour h hs _

/-- The model tells: calling the function stored for another block is an error. -/
theorem C88_vector_model (s : St α Storage) {d b : Nat} {l : List (Option α)} (hb : s.blk b = some l) (hd : d ≠ b) :
    free d (some b) s = .ub .wrongDealloc := by
  simp [free, hb, hd]

/-- a non-empty vector has a buffer -/
theorem Shows.blk (h : Reach T s V) {i : Nat} {d : Ptr} {c : Nat} {xs : List α} (hsh : Shows s i d c xs) (hx : xs ≠ []) :
    ∃ b, d = ⟨some b, 0⟩ := by
  obtain ⟨hinv, rfl⟩ := h.inv
  obtain ⟨o, ho, rfl, rfl⟩ := hinv.of_shows hsh
  cases hp : o.ptr with
  | none => exact absurd ((hinv.wf.get ho).2.null hp).2 hx
  | some b => exact ⟨b, rfl⟩

-- two vectors with different buffers are swapped, then both are destroyed: all calls succeed (so each buffer was released
-- by the function that came with it), and in between each vector holds the function for the buffer it took over
example : ∃ s s1 s2 s3 b b', Reach natElem s demoV ∧ b ≠ b' ∧
    (∃ c, Shows s 0 ⟨some b, 0⟩ c [1, 2, 3]) ∧ (∃ c, Shows s 1 ⟨some b', 0⟩ c [7]) ∧
    (Op.swap 0 1).run natElem s = .ok none s1 ∧ (∃ c, Shows s1 0 ⟨some b', 0⟩ c [7]) ∧
    (∃ o, s1.obj (.var 0) = some o ∧ o.dealloc = some b') ∧ (∃ o, s1.obj (.var 1) = some o ∧ o.dealloc = some b) ∧
    (Op.dtor 0).run natElem s1 = .ok none s2 ∧ (Op.dtor 1).run natElem s2 = .ok none s3 ∧ ∀ b, s3.blk b = none := by
  obtain ⟨s, h, ho⟩ := demo
  obtain ⟨d, c, sh0⟩ := h.shows (i := 0) (xs := [1, 2, 3]) rfl
  obtain ⟨d', c', sh1⟩ := h.shows (i := 1) (xs := [7]) rfl
  obtain ⟨b, rfl⟩ := sh0.blk h (by decide)
  obtain ⟨b', rfl⟩ := sh1.blk h (by decide)
  have hlen : ∀ i xs, (upd (upd demoV 0 (some [7])) 1 (some [1, 2, 3])) i = some xs → xs.length ≤ 1000 := by
    intro i xs h; simp only [upd] at h
    split at h
    · cases h; decide
    · split at h
      · cases h; decide
      · exact demoV_len _ _ h
  obtain ⟨s1, hr1, h1, o1⟩ := h.next (Spec.swap (i := 0) (j := 1) (xs := [1, 2, 3]) (ys := [7]) rfl rfl) ho
    (demo_short hlen (by intro i n h; cases h))
  obtain ⟨s2, hr2, h2, o2⟩ := h1.next (Spec.dtor (i := 0) (xs := [7]) rfl) o1
    (demo_short (by
      intro i xs h
      by_cases hi : i = 0
      · rw [hi, upd_same] at h; cases h
      · rw [upd_ne _ _ hi] at h; exact hlen i xs h) (by intro i n h; cases h))
  obtain ⟨s3, hr3, h3, o3⟩ := h2.next (Spec.dtor (i := 1) (xs := [1, 2, 3]) rfl) o2
    (demo_short (by
      intro i xs h
      by_cases hi : i = 1
      · rw [hi, upd_same] at h; cases h
      · rw [upd_ne _ _ hi] at h
        by_cases hi : i = 0
        · rw [hi, upd_same] at h; cases h
        · rw [upd_ne _ _ hi] at h; exact hlen i xs h) (by intro i n h; cases h))
  obtain ⟨s1', hr1', sw0, sw1, _⟩ := C12_swap h sh0 sh1
  rw [hr1] at hr1'
  cases hr1'
  obtain ⟨p, hp, e, f, _⟩ := C88_vector h1 id sw0
  obtain ⟨q, hq, e', f', _⟩ := C88_vector h1 id sw1
  refine ⟨s, s1, s2, s3, b, b', h, ?_, ⟨c, sh0⟩, ⟨c', sh1⟩, hr1, ⟨c', sw0⟩, ⟨p, hp, ?_⟩, ⟨q, hq, ?_⟩, hr2, hr3, ?_⟩
  · rintro rfl
    obtain ⟨x, hx, e1, _⟩ := C88_vector h id sh0
    obtain ⟨y, hy, e2, _⟩ := C88_vector h id sh1
    have := h.inv.1.wf.inj _ _ x y b hx hy (by cases x; cases e1; rfl) (by cases y; cases e2; rfl)
    cases this
  · rw [f]; cases p; cases e; rfl
  · rw [f']; cases q; cases e'; rfl
  · refine C02_no_leak h3 fun i => ?_
    by_cases hi : i = 1
    · rw [hi, upd_same]
    · rw [upd_ne _ _ hi]
      by_cases hi' : i = 0
      · rw [hi', upd_same]
      · rw [upd_ne _ _ hi', upd_ne _ _ hi, upd_ne _ _ hi']; simp [demoV, upd, hi, hi']

end Ptl.Vector

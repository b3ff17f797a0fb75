import Verif.Vector.Access

/-!
# Progress, and a concrete history

Used to show that the hypotheses of the property theorems are met by actual, non-trivial states.
-/

namespace Ptl.Vector

variable {α : Type} {T : Elem α} {s : St α Storage} {V V' : Vars α} {op : Op α} {r : Option Nat}

/-- a call within its preconditions that meets no failing step and is not too long returns normally -/
theorem Reach.next (h : Reach T s V) (hs : Spec T op V V' r) (horc : ∀ k, s.orc k = false)
    (hlen : ¬ TooLong T op V') : ∃ s', op.run T s = .ok r s' ∧ Reach T s' V' ∧ ∀ k, s'.orc k = false := by
  obtain ⟨hinv, rfl⟩ := h.inv
  have := step hinv hs
  cases hr : op.run T s with
  | ok r' s' =>
    rw [hr] at this
    obtain ⟨h1, h2, h3, h4, rfl⟩ := this
    exact ⟨s', rfl, h.ok hs hr, by rw [h2.orc]; exact horc⟩
  | exc e s' =>
    rw [hr] at this
    rcases this.2 with h | ⟨_, k, _, _, h⟩
    · exact absurd h.2 hlen
    · rw [horc] at h; cases h
  | ub => rw [hr] at this; exact this.elim
  | term => rw [hr] at this; have h := this.2; rw [horc] at h; cases h

theorem Op.room_le (op : Op α) (n : Nat) : op.room n ≤ 2 * n := by cases op <;> simp only [Op.room] <;> omega

/-- an element type whose moved-from and self-moved objects become 0 -/
def natElem : Elem Nat :=
  { moved := fun _ => 0, selfMove := fun _ => 0, dflt := 0, size := 4, size_pos := by decide, size_max := by decide }

theorem natElem_max : natElem.maxCapacity = 2305843009213693951 := by decide

/-- contents of the demo variables: `0 = [1,2,3]`, `1 = [7]`, everything else not alive -/
def demoV : Vars Nat := upd (upd (fun _ => none) 0 (some [1, 2, 3])) 1 (some [7])

theorem demo_short {V : Vars Nat} {op : Op Nat} (h : ∀ i xs, V i = some xs → xs.length ≤ 1000)
    (hr : ∀ i n, op = .reserve i n → n ≤ 1000) : ¬ TooLong natElem op V := by
  rintro (⟨i, xs, _, h1, h2⟩ | ⟨i, n, h1, h2⟩)
  · have := h i xs h1; have := op.room_le xs.length; rw [natElem_max] at h2; omega
  · have := hr i n h1; rw [natElem_max] at h2; omega

theorem AreAll.vals {V : Vars α} (vs : List α) : Src.AreAll V (vs.map .val) vs := by
  induction vs with
  | nil => exact .nil
  | cons v vs ih => exact .cons (.val v) ih

/-- the demo state is reachable, with a failure oracle that never fails -/
theorem demo : ∃ s, Reach natElem s demoV ∧ ∀ k, s.orc k = false := by
  obtain ⟨s1, _, h1, o1⟩ := (Reach.start (T := natElem) fun _ => false).next
    (Spec.ctorRange (i := 0) (r := .refs ([1, 2, 3].map .val)) rfl (.refs (AreAll.vals _)) (by decide)) (fun _ => rfl)
    (demo_short (by intro i xs h; simp only [upd] at h; split at h <;> cases h; decide) (by intro i n h; cases h))
  obtain ⟨s2, _, h2, o2⟩ := h1.next
    (Spec.ctorRange (i := 1) (r := .refs ([7].map .val)) rfl (.refs (AreAll.vals _)) (by decide)) o1
    (demo_short (by
      intro i xs h; simp only [upd] at h
      split at h
      · cases h; decide
      · split at h <;> cases h; decide) (by intro i n h; cases h))
  exact ⟨s2, h2, o2⟩

theorem demoV_len (i : Nat) (xs : List Nat) (h : demoV i = some xs) : xs.length ≤ 1000 := by
  simp only [demoV, upd] at h
  split at h
  · cases h; decide
  · split at h <;> cases h; decide

/-- the demo state with a reserved capacity -/
theorem demo_reserved : ∃ s, Reach natElem s demoV ∧ (∀ k, s.orc k = false) ∧
    ∃ s0 V0 r, Reach natElem s0 demoV ∧ Spec natElem (.reserve 0 100) demoV V0 r ∧
      (Op.reserve 0 100).run natElem s0 = .ok r s := by
  obtain ⟨s, h, ho⟩ := demo
  obtain ⟨s', hr, h', ho'⟩ := h.next (Spec.reserve (i := 0) (n := 100) rfl (by decide)) ho
    (demo_short demoV_len (by intro i n h; cases h; decide))
  exact ⟨s', h', ho', s, demoV, none, h, Spec.reserve rfl (by decide), hr⟩

end Ptl.Vector

import Verif.Str.Hist

/-!
# Progress, and a concrete history

Used to show that the hypotheses of the property theorems are met by actual, non-trivial states.
-/

namespace Ptl.Str

variable {s s' : St} {V V' : Vars} {op : Op} {r : Option Nat}

theorem Clean.next (h : Clean s V) (hs : Spec (Big s) op V V' r) (ho : ∀ k, s.orc k = false)
    (hn : ∀ n, Asks op V' n → n + 23 ≤ maxSize) :
    ∃ s', op.run s = .ok r s' ∧ Clean s' V' ∧ ∀ k, s'.orc k = false := by
  obtain ⟨s', hr, _, ho'⟩ := h.reach.next hs ho hn
  exact ⟨s', hr, h.ok hs hr, ho'⟩

/-- the state after a call -/
def after (op : Op) (s : St) : St :=
  match op.run s with
  | .ok _ s' => s'
  | .exc _ s' => s'
  | _ => s

theorem run_after (h : (match op.run s with | .ok r' _ => r' == r | _ => false) = true) :
    op.run s = .ok r (after op s) := by
  unfold after
  cases hr : op.run s with
  | ok r' s' => rw [hr] at h; simp at h; simp [h]
  | exc _ _ => rw [hr] at h; cases h
  | ub _ => rw [hr] at h; cases h
  | term => rw [hr] at h; cases h

theorem exc_after {e : Exc} (h : (match op.run s with | .exc e' _ => decide (e' = e) | _ => false) = true) :
    op.run s = .exc e (after op s) := by
  unfold after
  cases hr : op.run s with
  | ok r' s' => rw [hr] at h; cases h
  | exc e' _ => rw [hr] at h; simp at h; simp [h]
  | ub _ => rw [hr] at h; cases h
  | term => rw [hr] at h; cases h

theorem ub_of {α : Type} {m : SM α} {f : Fault} (h : (match m s with | .ub g => decide (g = f) | _ => false) = true) :
    m s = .ub f := by
  cases hr : m s with
  | ok r' s' => rw [hr] at h; cases h
  | exc e' _ => rw [hr] at h; cases h
  | ub _ => rw [hr] at h; simp at h; rw [h]
  | term => rw [hr] at h; cases h

/-- bytes outside all strings -/
theorem AreAll.vals {V : Vars} (bs : List UInt8) : Src.AreAll V (bs.map .val) bs := by
  induction bs with
  | nil => exact .nil
  | cons v vs ih => exact .cons (.val v) ih

/-- the bytes `begin()+off, begin()+off+1, …` of variable `j` -/
def slice (j off n : Nat) : List Src := (List.range n).map fun k => .elem j (off + k)

theorem AreAll.slice {V : Vars} {j : Nat} {pre bs post : List UInt8} (h : V j = some (pre ++ bs ++ post)) :
    Src.AreAll V (slice j pre.length bs.length) bs := by
  unfold Str.slice
  induction bs generalizing pre with
  | nil => exact .nil
  | cons v vs ih =>
    rw [List.length_cons, List.range_succ_eq_map, List.map_cons, List.map_map]
    refine .cons (.elem h (by simp)) ?_
    have := ih (pre := pre ++ [v]) (by rw [h]; simp)
    have e : (fun k => Src.elem j ((pre ++ [v]).length + k)) = (fun k => Src.elem j (pre.length + k)) ∘ Nat.succ := by
      funext k; simp [Nat.add_assoc, Nat.add_comm 1]
    rw [← e]; exact this

/-- "abc" -/
def abc : List UInt8 := [97, 98, 99]
/-- thirty bytes, too long for the internal buffer -/
def thirty : List UInt8 := [1, 2, 3, 4, 5, 6, 7, 8, 9, 10, 11, 12, 13, 14, 15, 16, 17, 18, 19, 20, 21, 22, 23, 24, 25, 26, 27, 28, 29, 30]

/-- contents of the demo variables: `0` is short, `1` is long, everything else is not alive -/
def demoV : Vars := upd (upd (fun _ => none) 0 (some abc)) 1 (some thirty)

theorem demo_short {V : Vars} {op : Op} (h : ∀ i xs, V i = some xs → xs.length ≤ 1000)
    (hr : ∀ i n, op = .reserve i n → n ≤ 1000) (n : Nat) (ha : Asks op V n) : n + 23 ≤ maxSize := by
  have : n ≤ 1000 := by
    rcases ha with ⟨i, xs, _, h2, rfl⟩ | ⟨i, rfl⟩
    · exact h i xs h2
    · exact hr i n rfl
  unfold maxSize ptrdiffMax; omega

theorem short_upd {V : Vars} {i : Nat} {p : Option (List UInt8)} (h : ∀ i xs, V i = some xs → xs.length ≤ 1000)
    (hp : ∀ xs, p = some xs → xs.length ≤ 1000) : ∀ j xs, upd V i p j = some xs → xs.length ≤ 1000 := by
  intro j xs hj
  by_cases e : j = i
  · subst e; rw [upd_same] at hj; exact hp xs hj
  · rw [upd_ne _ _ e] at hj; exact h j xs hj

theorem demoV_len : ∀ i xs, demoV i = some xs → xs.length ≤ 1000 :=
  short_upd (short_upd (by intro i xs h; cases h) (by intro xs h; cases h; decide)) (by intro xs h; cases h; decide)

/-- the demo state is reachable, with a failure oracle that never fails -/
theorem demo : ∃ s, Clean s demoV ∧ ∀ k, s.orc k = false := by
  obtain ⟨s1, _, h1, o1⟩ := (Clean.start fun _ => false).next
    (Spec.ctorRange (i := 0) (l := abc.map .val) rfl (AreAll.vals _) (by decide)) (fun _ => rfl)
    (demo_short (short_upd (by intro i xs h; cases h) (by intro xs h; cases h; decide)) (by intro i n h; cases h))
  obtain ⟨s2, _, h2, o2⟩ := h1.next
    (Spec.ctorRange (i := 1) (l := thirty.map .val) rfl (AreAll.vals _) (by decide)) o1
    (demo_short demoV_len (by intro i n h; cases h))
  exact ⟨s2, h2, o2⟩

end Ptl.Str

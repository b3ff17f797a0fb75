import Verif.Str.Steps

/-! # Histories of string calls, and what a client observes -/

namespace Ptl.Str

variable {s s' : St} {V V' : Vars} {op : Op} {r : Option Nat}

theorem Inv.start (orc : Nat → Bool) : Inv (start orc) :=
  ⟨⟨by simp [Str.start], by simp [Str.start], by simp [Str.start], by simp [Str.start], by simp [Str.start]⟩, by simp [abs, Str.start],
    by simp [abs, Str.start]⟩

/-- an exception leaves the contents alone -/
theorem Outcome.exc_vars {e : Exc} (hinv : Inv s) (h : Outcome op s V' r (.exc e s')) : vars s' = vars s := by
  obtain ⟨hi, _, _, h1, h2, _, _⟩ := h
  funext j
  cases hj : abs s (.var j) with
  | none => rw [show vars s j = none by simp [vars, varsOf, hj]]; simp [vars, varsOf, h2 j hj]
  | some v =>
    obtain ⟨xs, t, hh⟩ := hinv.holds j v hj
    obtain ⟨v', t', h3, h4, _⟩ := h1 j v xs t hj hh
    rw [vars_of_abs hj hh, vars_of_abs h3 h4]

theorem Reach.inv (h : Reach s V) : Inv s ∧ vars s = V := by
  induction h with
  | start orc => exact ⟨Inv.start orc, by funext i; simp [vars, varsOf, abs, Str.start]⟩
  | ok _ hs hr ih =>
    obtain ⟨hinv, rfl⟩ := ih
    have := step hinv hs
    rw [hr] at this
    exact ⟨this.1, this.2.2.2.1⟩
  | thrown _ hs hr ih =>
    obtain ⟨hinv, rfl⟩ := ih
    have := step hinv hs
    rw [hr] at this
    exact ⟨this.1, this.exc_vars hinv⟩

theorem Zero.start (orc : Nat → Bool) : Zero (start orc) := by intro i v h; simp [abs, Str.start] at h

theorem Clean.zero (h : Clean s V) : Zero s := by
  induction h with
  | start orc => exact Zero.start orc
  | ok h hs hr ih =>
    obtain ⟨hinv, rfl⟩ := h.reach.inv
    have := step hinv hs
    rw [hr] at this
    exact this.2.2.2.2.2 ih
  | thrown h hs hr hf ih =>
    obtain ⟨hinv, rfl⟩ := h.reach.inv
    have := step hinv hs
    rw [hr] at this
    intro i v hv
    rw [this.2.2.2.2.2.1 hf] at hv
    exact ih i v hv

/-! ### observation -/

theorem readAt_mem {q : Base} {l : List (Option UInt8)} {k : Nat} {b : UInt8} (hm : s.mem q = some l) (hk : l[k]? = some (some b)) :
    readAt ⟨some q, k⟩ s = .ok b s := by simp [readAt, hm, hk]

theorem index_ok (hw : WF s) {i : Id} {v : Vw} (h : abs s i = some v) (k : Nat) : index i k s = .ok ⟨some v.base, k⟩ s := by
  unfold index
  mstep (data_ok hw h)
  simp [Ptr.add]

theorem readFrom_ok (hw : WF s) {i : Nat} {v : Vw} (h : abs s (.var i) = some v) {t : UInt8} :
    ∀ {ys pre : List UInt8}, Holds v (pre ++ ys) t → readFrom i pre.length ys.length s = .ok ys s := by
  intro ys
  induction ys with
  | nil => intro pre _; rfl
  | cons y ys ih =>
    intro pre hh
    have h2 := ih (pre := pre ++ [y]) (by simpa using hh)
    obtain ⟨_, rest, hb⟩ := hh
    simp only [List.length_append, List.length_singleton] at h2
    unfold readFrom
    mstep (index_ok hw h _)
    mstep (readAt_mem (b := y) (hw.mem h) (by rw [hb]; simp))
    mstep h2
    rfl

theorem Inv.shows (hinv : Inv s) {i : Nat} {v : Vw} {xs : List UInt8} {t : UInt8} (h : abs s (.var i) = some v) (hh : Holds v xs t) :
    Shows s i ⟨some v.base, 0⟩ v.cap xs t := by
  have hsz := size_ok hinv.wf h
  rw [hh.1] at hsz
  refine ⟨data_ok hinv.wf h, hsz, capacity_ok hinv.wf h, ?_, ?_⟩
  · unfold readBack
    mstep hsz
    exact readFrom_ok hinv.wf h (pre := []) hh
  · obtain ⟨_, rest, hb⟩ := hh
    simp only [Ptr.add, Nat.zero_add]
    exact readAt_mem (hinv.wf.mem h) (by rw [hb]; simp)

theorem Inv.of_shows (hinv : Inv s) {i : Nat} {d : Ptr} {c : Nat} {xs : List UInt8} {t : UInt8} (h : Shows s i d c xs t) :
    ∃ v, abs s (.var i) = some v ∧ d = ⟨some v.base, 0⟩ ∧ c = v.cap ∧ Holds v xs t := by
  cases ha : abs s (.var i) with
  | none =>
    have h1 := h.data
    unfold Str.data at h1
    rw [M.bind_ub (x := .deadObject) (by simp [getObj, abs_none.1 ha])] at h1
    cases h1
  | some v =>
    obtain ⟨ys, u, hh⟩ := hinv.holds i v ha
    have k := hinv.shows ha hh
    have e1 := h.data.symm.trans k.data
    have e2 := h.capacity.symm.trans k.capacity
    have e3 := h.bytes.symm.trans k.bytes
    cases e1; cases e2; cases e3
    have e4 := h.term.symm.trans k.term
    cases e4
    exact ⟨v, rfl, rfl, rfl, hh⟩

theorem Reach.shows (h : Reach s V) {i : Nat} {xs : List UInt8} (hi : V i = some xs) : ∃ d c t, Shows s i d c xs t := by
  obtain ⟨hinv, rfl⟩ := h.inv
  obtain ⟨v, t, hv, hh⟩ := vars_some hinv hi
  exact ⟨_, _, _, hinv.shows hv hh⟩

theorem Reach.of_shows (h : Reach s V) {i : Nat} {d : Ptr} {c : Nat} {xs : List UInt8} {t : UInt8} (hs : Shows s i d c xs t) :
    V i = some xs := by
  obtain ⟨hinv, rfl⟩ := h.inv
  obtain ⟨v, hv, _, _, hh⟩ := hinv.of_shows hs
  exact vars_of_abs hv hh

theorem Shows.unique {i : Nat} {d d' : Ptr} {c c' : Nat} {xs xs' : List UInt8} {t t' : UInt8} (h : Shows s i d c xs t)
    (k : Shows s i d' c' xs' t') : d = d' ∧ c = c' ∧ xs = xs' ∧ t = t' := by
  have e1 := h.data.symm.trans k.data
  have e2 := h.capacity.symm.trans k.capacity
  have e3 := h.bytes.symm.trans k.bytes
  cases e1; cases e2; cases e3
  have e4 := h.term.symm.trans k.term
  cases e4
  exact ⟨rfl, rfl, rfl, rfl⟩

/-- if no allocation fails and nothing is near `max_size()`, a call returns -/
theorem Reach.next (h : Reach s V) (hs : Spec (Big s) op V V' r) (ho : ∀ k, s.orc k = false) (hn : ∀ n, Asks op V' n → n + 23 ≤ maxSize) :
    ∃ s', op.run s = .ok r s' ∧ Reach s' V' ∧ ∀ k, s'.orc k = false := by
  obtain ⟨hinv, rfl⟩ := h.inv
  have hst := step hinv hs
  have nohit : ∀ s', ¬ Hit s s' := fun s' ⟨k, _, _, hk⟩ => by rw [ho] at hk; cases hk
  cases hr : op.run s with
  | ok r' s' =>
    rw [hr] at hst
    obtain ⟨_, ha, _, _, rfl, _⟩ := hst
    exact ⟨s', rfl, h.ok hs hr, by rw [ha.orc]; exact ho⟩
  | exc e s' =>
    rw [hr] at hst
    rcases hst.2.2.2.2.2.2 with ⟨_, n, ha, hb⟩ | ⟨_, n, ha, _, hb | hb⟩ | ⟨_, _, hb⟩
    · have := hn n ha; omega
    · have := hn n ha; omega
    · exact absurd hb (nohit _)
    · exact absurd hb (nohit _)
  | ub => rw [hr] at hst; exact hst.elim
  | term =>
    rw [hr] at hst
    obtain ⟨_, n, ha, _, hb | ⟨k, _, hk⟩⟩ := hst
    · have := hn n ha; omega
    · rw [ho] at hk; cases hk

end Ptl.Str

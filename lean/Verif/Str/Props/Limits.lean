import Verif.Str.Props.History

/-! # C20: requests beyond `max_size()` -/

namespace Ptl.Str

variable {s s' : St} {V V' : Vars} {op : Op} {r : Option Nat}

/-- C20: no reachable string is longer than `max_size()` -/
theorem C20_no_longer_than_max_size (h : Reach s V) {i : Nat} {xs : List UInt8} (hi : V i = some xs) :
    xs.length ≤ maxSize := by
  obtain ⟨d, c, t, hsh⟩ := h.shows hi
  rcases C17_representation h hsh with ⟨_, _, h⟩ | ⟨b, _, _, _, h1, h2⟩
  · unfold maxSize ptrdiffMax; omega
  · omega

/-- C20: `reserve` beyond `max_size()` throws `length_error` and changes nothing at all -/
theorem C20_reserve (h : Reach s V) {i n : Nat} {xs : List UInt8} (hi : V i = some xs) (hn : maxSize < n) :
    (Op.reserve i n).run s = .exc .lengthError s := by
  obtain ⟨hinv, rfl⟩ := h.inv
  obtain ⟨v, t, hv, hh⟩ := vars_some hinv hi
  have hlt := hinv.wf.lt hv
  have : ¬ n ≤ v.cap := by unfold maxSize at hn; omega
  unfold Op.run noRet reserve
  refine M.bind_exc ?_
  mstep (capacity_ok hinv.wf hv)
  rw [if_neg this, if_pos hn]
  rfl

/-- C20: a call whose result would be a string longer than `max_size()` (or that reserves more) throws, and all
strings are as before; the literal `_s`, which is `noexcept`, terminates instead.  Missing from the full property:
counts so large that the new size is not representable in `size_type` (within 23 bytes of 2^64 for the constructors and
forward ranges); for them it is false, see `C20_refuted`. -/
theorem C20_beyond_max_size_partial (h : Reach s V) (hs : Spec (Big s) op V V' r) {n : Nat} (ha : Asks op V' n)
    (hn : maxSize < n) :
    (∃ e s', op.run s = .exc e s' ∧ Reach s' V ∧
      (e = .lengthError ∨ e = .badAlloc ∨ (e = .user ∧ ∃ b, .thr b ∈ op.sources)) ∧
      ((op.Forward → e ≠ .user) → s'.obj = s.obj ∧ s'.mem = s.mem)) ∨
    ((∃ i lit, op = .literal i lit) ∧ op.run s = .term) := by
  have hc := Reach.call h hs
  cases hr : op.run s with
  | ok r' s' =>
    rw [hr] at hc
    rcases ha with ⟨i, xs, _, hV, rfl⟩ | ⟨i, rfl⟩
    · have := C20_no_longer_than_max_size hc.2 hV; omega
    · have : ∃ xs, V i = some xs := by cases hs; exact ⟨_, ‹_›⟩
      obtain ⟨xs, hx⟩ := this
      rw [C20_reserve h hx hn] at hr; cases hr
  | exc e s' =>
    refine .inl ⟨e, s', rfl, h.thrown hs hr, ?_, fun hf => C18_strong_guarantee_partial h hs hr hf⟩
    rcases C15_throws_only_for_a_reason h hs hr with ⟨rfl, _⟩ | ⟨rfl, _⟩ | ⟨rfl, h, _⟩
    · exact .inl rfl
    · exact .inr (.inl rfl)
    · exact .inr (.inr ⟨rfl, h⟩)
  | ub => rw [hr] at hc; exact hc.elim
  | term => rw [hr] at hc; exact .inr ⟨hc.1, rfl⟩

-- requests for 2^63 bytes in a reachable state, within the hypotheses
example : ∃ s V V' r, Reach s V ∧ Spec (Big s) (.appendFill 0 (2 ^ 63) 120) V V' r ∧
    Asks (.appendFill 0 (2 ^ 63) 120) V' (2 ^ 63 + 3) ∧ maxSize < 2 ^ 63 + 3 := by
  obtain ⟨s, h, _⟩ := demo
  refine ⟨s, demoV, _, _, h.reach, .appendFill (i := 0) (xs := abc) rfl (by decide), ?_, by decide⟩
  refine .inl ⟨0, _, rfl, upd_same _ _ _, ?_⟩
  rw [List.length_append, List.length_replicate, Nat.add_comm]; rfl

/-- the constructor requests memory for a wrapped-around size and then writes outside of it -/
theorem ctor_wraps : (Op.ctorFill 0 (2 ^ 64 - 1) 120).run (start fun _ => false) = .ub .outOfBounds :=
  ub_of (by decide +kernel)

/-- C20 is violated by `append(count, ch)` whenever the new size is not representable: the sum wraps around, the string
is shortened to the wrapped size, and then written far beyond its buffer.  This happens for every string and every such
count. -/
theorem C20_append_wraps_refuted (h : Reach s V) {i n : Nat} {xs : List UInt8} (hi : V i = some xs) (ch : UInt8)
    (h1 : n < 2 ^ 64) (h2 : 2 ^ 64 ≤ xs.length + n) : (Op.appendFill i n ch).run s = .ub .outOfBounds := by
  have hmax := C20_no_longer_than_max_size h hi
  obtain ⟨hinv, rfl⟩ := h.inv
  obtain ⟨v, t, hv, hh⟩ := vars_some hinv hi
  have hlt := hinv.wf.lt hv
  have hlen := hh.len (hinv.wf.gd hv)
  have hsz := size_ok hinv.wf hv
  rw [hh.1] at hsz
  have e : szAdd xs.length n = xs.length + n - 2 ^ 64 := by
    unfold szAdd szMod
    unfold maxSize ptrdiffMax at hmax
    omega
  have hle : xs.length + n - 2 ^ 64 ≤ v.cap := by omega
  rcases resize_run hinv.wf hv hh (xs.length + n - 2 ^ 64) 0 with ⟨s', v', hr, st, _, hc, _⟩ | ⟨_, _, _, _, _, hc⟩
  · rw [if_pos hle] at hc
    have hw' := st.wf
    have hv' := st.at
    have hl := (hw'.gd hv').len
    show (Op.appendFill i n ch).run s = _
    unfold Op.run noRet appendFill appendNoAliasing
    refine M.bind_ub ?_
    mstep hsz
    rw [e]
    mstep hr
    unfold fillAt
    mstep (data_ok hw' hv')
    unfold fill writeN
    rw [if_neg (by intro h; have := congrArg List.length h; rw [List.length_replicate, List.length_nil] at this; unfold maxSize ptrdiffMax at hmax; omega)]
    simp only [Ptr.add, hw'.mem hv', List.length_replicate]
    rw [if_pos (by rw [hl, hc]; unfold ptrdiffMax at hlt; omega)]
  · omega

/-- C20 is violated by the constructor `string(count, ch)`, also in the very first call of a program. -/
theorem C20_refuted : ∃ (s : St) (V : Vars) (n : Nat) (ch : UInt8), Reach s V ∧ V 0 = none ∧ n < 2 ^ 64 ∧ maxSize < n ∧
    (Op.ctorFill 0 n ch).run s = .ub .outOfBounds :=
  ⟨_, _, 2 ^ 64 - 1, 120, .start fun _ => false, rfl, by decide, by decide, ctor_wraps⟩

-- the hypotheses of `C20_append_wraps_refuted` in the demo state
example : ∃ s V xs, Reach s V ∧ V 0 = some xs ∧ 2 ^ 64 - 1 < 2 ^ 64 ∧ 2 ^ 64 ≤ xs.length + (2 ^ 64 - 1) := by
  obtain ⟨s, h, _⟩ := demo
  exact ⟨s, _, abc, h.reach, rfl, by decide, by decide⟩

end Ptl.Str

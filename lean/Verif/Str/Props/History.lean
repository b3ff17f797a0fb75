import Verif.Str.Demo

/-!
# C15–C18: histories of string calls

`Reach s V`: `s` is a state a client can be in, `V` the contents of its variables according to the specification
`Spec` on byte lists (Client.lean).  `Shows s i d c xs t`: what the client observes of variable `i`: `data()`,
`capacity()`, all `size()` bytes, and the byte at `data()[size()]`.
-/

namespace Ptl.Str

variable {s s' : St} {V V' : Vars} {op : Op} {r : Option Nat}

/-! ## C15 -/

/-- C15: after every history, what the client reads from each live string is exactly the byte list the specification
says, and strings that are not alive according to the specification are not alive. -/
theorem C15_contents (h : Reach s V) (i : Nat) :
    (∀ xs, V i = some xs → ∃ d c t, Shows s i d c xs t) ∧ (V i = none → s.obj (.var i) = none) := by
  refine ⟨fun xs hi => h.shows hi, fun hi => ?_⟩
  obtain ⟨_, rfl⟩ := h.inv
  exact abs_none.1 (vars_none hi)

/-- what the client sees of all strings is what the specification says: which ones are alive, and the contents of those -/
def Agrees (s : St) (V : Vars) : Prop :=
  ∀ i, (∀ xs, V i = some xs → ∃ d c t, Shows s i d c xs t) ∧ (V i = none → s.obj (.var i) = none)

theorem Reach.agrees (h : Reach s V) : Agrees s V := C15_contents h

theorem Reach.call (h : Reach s V) (hs : Spec (Big s) op V V' r) :
    match op.run s with
    | .ok r' s' => r' = r ∧ Reach s' V'
    | .exc _ s' => Reach s' V
    | .ub _ => False
    | .term => (∃ i lit, op = .literal i lit) ∧
        ∃ n, Asks op V' n ∧ 22 < n ∧ (maxSize < n + 23 ∨ ∃ k, s.tick ≤ k ∧ s.orc k = true) := by
  obtain ⟨hinv, rfl⟩ := h.inv
  have := step hinv hs
  cases hr : op.run s with
  | ok r' s' =>
    rw [hr] at this
    exact ⟨this.2.2.2.2.1, h.ok hs hr⟩
  | exc e s' => exact h.thrown hs hr
  | ub => rw [hr] at this; exact this.elim
  | term => rw [hr] at this; exact this

/-- C15: every call within its precondition, in every reachable state, either returns normally, with the specified
result and the specified contents, or throws and the contents are as before, or (only for the literal `_s`, which is
`noexcept`) terminates because the memory it needs cannot be had.  It is never undefined. -/
theorem C15_call (h : Reach s V) (hs : Spec (Big s) op V V' r) :
    match op.run s with
    | .ok r' s' => r' = r ∧ Reach s' V' ∧ Agrees s' V'
    | .exc _ s' => Reach s' V ∧ Agrees s' V
    | .ub _ => False
    | .term => (∃ i lit, op = .literal i lit) ∧
        ∃ n, Asks op V' n ∧ 22 < n ∧ (maxSize < n + 23 ∨ ∃ k, s.tick ≤ k ∧ s.orc k = true) := by
  have := h.call hs
  cases hr : op.run s with
  | ok r' s' => rw [hr] at this; exact ⟨this.1, this.2, this.2.agrees⟩
  | exc e s' => rw [hr] at this; exact ⟨this, this.agrees⟩
  | ub => rw [hr] at this; exact this
  | term => rw [hr] at this; exact this

/-- C15: exceptions have a reason: more than `max_size()` bytes were asked for; or more than fit into the internal
buffer, and the allocation was refused (or is within 23 bytes of `max_size()`); or an iterator of the client threw. -/
theorem C15_throws_only_for_a_reason (h : Reach s V) (hs : Spec (Big s) op V V' r) {e : Exc}
    (hr : op.run s = .exc e s') :
    (e = .lengthError ∧ ∃ n, Asks op V' n ∧ maxSize < n) ∨
    (e = .badAlloc ∧ ∃ n, Asks op V' n ∧ 22 < n ∧
      (maxSize < n + 23 ∨ ∃ k, s.tick ≤ k ∧ k < s'.tick ∧ s.orc k = true)) ∨
    (e = .user ∧ (∃ b, .thr b ∈ op.sources) ∧ ∃ k, s.tick ≤ k ∧ k < s'.tick ∧ s.orc k = true) := by
  obtain ⟨hinv, rfl⟩ := h.inv
  have := step hinv hs
  rw [hr] at this
  exact this.2.2.2.2.2.2

/-- C15: calls do not disturb other strings, not even their address, capacity or terminator -/
theorem C15_frame (h : Reach s V) (hs : Spec (Big s) op V V' r)
    (hr : (∃ r', op.run s = .ok r' s') ∨ (∃ e, op.run s = .exc e s'))
    {j : Nat} (hj : ¬ op.Targets j) {d : Ptr} {c : Nat} {xs : List UInt8} {t : UInt8} (hsh : Shows s j d c xs t) :
    Shows s' j d c xs t := by
  obtain ⟨hinv, rfl⟩ := h.inv
  have := step hinv hs
  obtain ⟨v, hv, rfl, rfl, hh⟩ := hinv.of_shows hsh
  rcases hr with ⟨r', hr⟩ | ⟨e, hr⟩
  · rw [hr] at this
    exact this.1.shows (by rw [this.2.2.1 j hj]; exact hv) hh
  · rw [hr] at this
    exact this.1.shows (by rw [this.2.2.1 j hj]; exact hv) hh

/-- C15: the specification gives exactly one result per call: it is a function of the contents (and of whether a
moved-from string had more than 22 bytes of capacity) -/
theorem C15_spec_deterministic {V1 V2 : Vars} {r1 r2 : Option Nat} (h : Reach s V) (h1 : Spec (Big s) op V V1 r1)
    (h2 : Spec (Big s) op V V2 r2) (ho : ∀ k, s.orc k = false) (hl : ∀ n, Asks op V1 n → n + 23 ≤ maxSize) :
    V1 = V2 ∧ r1 = r2 := by
  obtain ⟨s', hr, h', _⟩ := h.next h1 ho hl
  have k2 := Reach.call h h2
  rw [hr] at k2
  exact ⟨h'.inv.2.symm.trans k2.2.inv.2, k2.1⟩

-- a reachable state in which a self-aliasing insert is within its preconditions
example : ∃ s V V' r, Reach s V ∧ Spec (Big s) (.insertRange 0 1 (slice 0 1 2)) V V' r ∧
    V' 0 = some [97, 98, 99, 98, 99] ∧ V' 1 = some thirty := by
  obtain ⟨s, h, _⟩ := demo
  exact ⟨s, demoV, _, _, h.reach,
    .insertRange (pre := [97]) (post := [98, 99]) rfl (AreAll.slice (pre := [97]) (bs := [98, 99]) (post := []) rfl) (by decide),
    rfl, rfl⟩

/-! ## C16 -/

/-- C16: after every history all bytes up to and including the one at `data()[size()]` are initialised and readable. -/
theorem C16_initialised (h : Reach s V) {i : Nat} {xs : List UInt8} (hi : V i = some xs) :
    ∃ d c t, Shows s i d c xs t := h.shows hi

/-- C16, for all histories in which no exception thrown by a forward iterator leaves append, assign, insert or
replace: every live string is null-terminated.  Missing from the full property: those histories; for them it is false,
see `C16_refuted`. -/
theorem C16_terminated_partial (h : Clean s V) {i : Nat} {d : Ptr} {c : Nat} {xs : List UInt8} {t : UInt8}
    (hsh : Shows s i d c xs t) : t = 0 := by
  obtain ⟨v, hv, rfl, rfl, hh⟩ := h.reach.inv.1.of_shows hsh
  obtain ⟨ys, hz⟩ := h.zero i v hv
  exact ((h.reach.inv.1.shows hv hh).unique (h.reach.inv.1.shows hv hz)).2.2.2

/-- C16: a call never introduces a missing terminator unless a forward iterator threw -/
theorem C16_preserved (h : Reach s V) (hz : ∀ i d c xs t, Shows s i d c xs t → t = 0) (hs : Spec (Big s) op V V' r)
    (hr : (∃ r', op.run s = .ok r' s') ∨ (∃ e, op.run s = .exc e s' ∧ (op.Forward → e ≠ .user))) :
    ∀ i d c xs t, Shows s' i d c xs t → t = 0 := by
  obtain ⟨hinv, rfl⟩ := h.inv
  have hst := step hinv hs
  have hzero : Zero s := fun i v hv => by
    obtain ⟨xs, t, hh⟩ := hinv.holds i v hv
    have := hz i _ _ _ _ (hinv.shows hv hh)
    subst this; exact ⟨xs, hh⟩
  have key : Inv s' ∧ Zero s' := by
    rcases hr with ⟨r', hr⟩ | ⟨e, hr, hf⟩
    · rw [hr] at hst; exact ⟨hst.1, hst.2.2.2.2.2 hzero⟩
    · rw [hr] at hst
      refine ⟨hst.1, fun i v hv => ?_⟩
      rw [hst.2.2.2.2.2.1 hf] at hv
      exact hzero i v hv
  intro i d c xs t hsh
  obtain ⟨v, hv, rfl, rfl, hh⟩ := key.1.of_shows hsh
  obtain ⟨ys, hy⟩ := key.2 i v hv
  exact ((key.1.shows hv hh).unique (key.1.shows hv hy)).2.2.2

example : ∃ s V d c, Clean s V ∧ Shows s 0 d c abc 0 ∧ ∃ d c, Shows s 1 d c thirty 0 := by
  obtain ⟨s, h, _⟩ := demo
  obtain ⟨d, c, t, h0⟩ := h.reach.shows (i := 0) (xs := abc) rfl
  obtain ⟨d', c', t', h1⟩ := h.reach.shows (i := 1) (xs := thirty) rfl
  cases C16_terminated_partial h h0
  cases C16_terminated_partial h h1
  exact ⟨s, _, d, c, h, h0, d', c', h1⟩

/-! ## C17 -/

/-- C17: after every history a string is in its internal buffer, with capacity 22 and at most 22 bytes, or at the start
of a heap buffer with a capacity that is a multiple of 24, at least 48, and at least the size. -/
theorem C17_representation (h : Reach s V) {i : Nat} {d : Ptr} {c : Nat} {xs : List UInt8} {t : UInt8}
    (hsh : Shows s i d c xs t) :
    (d = ⟨some (.sso (.var i)), 0⟩ ∧ c = 22 ∧ xs.length ≤ 22) ∨
    (∃ b, d = ⟨some (.heap b), 0⟩ ∧ 48 ≤ c ∧ 24 ∣ c ∧ xs.length ≤ c ∧ c ≤ maxSize) := by
  obtain ⟨v, hv, rfl, rfl, hh⟩ := h.inv.1.of_shows hsh
  have hg := h.inv.1.wf.gd hv
  have hsz := hg.siz
  rw [hh.1] at hsz
  rcases hg.shape with ⟨hb, hc⟩ | ⟨b, hb, h1, h2, h3⟩
  · exact .inl ⟨by rw [hb], hc, by omega⟩
  · exact .inr ⟨b, by rw [hb], h1, h2, hsz, by unfold maxSize; omega⟩

/-- C17: along every history no call runs into undefined behaviour (reading the inactive member of the union, access
outside the buffer, reading indeterminate bytes, double free, use after free). -/
theorem C17_no_undefined_behaviour (h : Reach s V) (hs : Spec (Big s) op V V' r) (f : Fault) : op.run s ≠ .ub f := by
  intro hr
  have := Reach.call h hs
  rw [hr] at this
  exact this

/-- C17: after every history each memory region (heap buffer or internal buffer) belongs to exactly one live string,
and has `capacity() + 1` bytes. -/
theorem C17_every_buffer_is_owned (h : Reach s V) {p : Base} {l : List (Option UInt8)} (hp : s.mem p = some l) :
    ∃ i, (∃ c xs t, Shows s i ⟨some p, 0⟩ c xs t ∧ l.length = c + 1) ∧
      ∀ j d c xs t, Shows s j d c xs t → d.base = some p → j = i := by
  obtain ⟨hinv, rfl⟩ := h.inv
  obtain ⟨i, o, ho, hb⟩ := hinv.wf.owned p l hp
  have ha : abs s i = some ⟨o.base i, o.cap, o.siz, (s.mem (o.base i)).getD []⟩ := by simp [abs, ho]
  cases i with
  | tmp k => rw [hinv.tmp k] at ha; cases ha
  | var i =>
    obtain ⟨xs, t, hh⟩ := hinv.holds i _ ha
    have hl := (hinv.wf.gd ha).len
    have hs := hinv.shows ha hh
    simp only [hb, hp, Option.getD_some] at hl hs
    refine ⟨i, ⟨_, xs, t, hs, hl⟩, ?_⟩
    intro j d c ys u hj hd
    obtain ⟨v, hv, rfl, rfl, _⟩ := hinv.of_shows hj
    by_cases e : j = i
    · exact e
    · exact absurd ((Option.some.inj hd).trans hb.symm) (hinv.wf.base_ne hv ha (by rintro ⟨⟩; exact e rfl))

/-- C17: when all strings are gone, so is all memory: no leak, whatever happened before. -/
theorem C17_no_leak (h : Reach s V) (hV : ∀ i, V i = none) (p : Base) : s.mem p = none := by
  cases hp : s.mem p with
  | none => rfl
  | some l =>
    obtain ⟨i, ⟨c, xs, t, hsh, _⟩, _⟩ := C17_every_buffer_is_owned h hp
    have := h.of_shows hsh
    rw [hV] at this; cases this

/-- the demo history, with everything destroyed again -/
theorem demo_done : ∃ s V, Clean s V ∧ (∀ i, V i = none) ∧ s.nblk ≠ 0 := by
  obtain ⟨s, h, ho⟩ := demo
  obtain ⟨s1, hr1, h1, o1⟩ := h.next (Spec.dtor (i := 0) rfl) ho
    (demo_short (short_upd demoV_len (by intro xs h; cases h)) (by intro i n h; cases h))
  obtain ⟨s2, hr2, h2, o2⟩ := h1.next (Spec.dtor (i := 1) rfl) o1
    (demo_short (short_upd (short_upd demoV_len (by intro xs h; cases h)) (by intro xs h; cases h)) (by intro i n h; cases h))
  refine ⟨s2, _, h2, ?_, ?_⟩
  · intro i; simp only [upd, demoV]
    split
    · rfl
    · split
      · rfl
      · rfl
  · have hinv := h.reach.inv.1
    obtain ⟨d, c, t, hsh⟩ := h.reach.shows (i := 1) (xs := thirty) rfl
    have hlt : 0 < s.nblk := by
      rcases C17_representation h.reach hsh with ⟨_, _, hl⟩ | ⟨b, hd, _⟩
      · exact absurd hl (by decide)
      · obtain ⟨v, hv, hd', _, _⟩ := hinv.of_shows hsh
        rcases hinv.wf.cases hv with ⟨_, hb, _⟩ | ⟨b', _, _, _, _, hb⟩
        · rw [hd', hb] at hd; cases hd
        · omega
    have a1 : s.nblk ≤ s1.nblk := by
      have hst := step hinv (op := .dtor 0) (by rw [h.reach.inv.2]; exact Spec.dtor rfl)
      rw [hr1] at hst; exact hst.2.1.nblk
    have a2 : s1.nblk ≤ s2.nblk := by
      have hst := step h1.reach.inv.1 (op := .dtor 1) (by rw [h1.reach.inv.2]; exact Spec.dtor rfl)
      rw [hr2] at hst; exact hst.2.1.nblk
    omega

-- a history that ends with all strings destroyed after heap buffers had been in use
example : ∃ s V, Reach s V ∧ (∀ i, V i = none) ∧ s.nblk ≠ 0 := by
  obtain ⟨s, V, h, h1, h2⟩ := demo_done
  exact ⟨s, V, h.reach, h1, h2⟩

-- both representations occur
example : ∃ s V d c d' c' t t', Reach s V ∧ Shows s 0 d c abc t ∧ Shows s 1 d' c' thirty t' := by
  obtain ⟨s, h, _⟩ := demo
  obtain ⟨d, c, t, h0⟩ := h.reach.shows (i := 0) (xs := abc) rfl
  obtain ⟨d', c', t', h1⟩ := h.reach.shows (i := 1) (xs := thirty) rfl
  exact ⟨s, _, d, c, d', c', t, t', h.reach, h0, h1⟩

/-! ## C18 -/

/-- the abstraction determines objects and memory -/
theorem WF.ext (hw : WF s) (hw' : WF s') (h : abs s' = abs s) : s'.obj = s.obj ∧ s'.mem = s.mem := by
  have hobj : s'.obj = s.obj := by
    funext i
    cases ha : abs s i with
    | none => rw [abs_none.1 ha, abs_none.1 (by rw [h]; exact ha)]
    | some v =>
      have ha' : abs s' i = some v := by rw [h]; exact ha
      rcases hw.cases ha with ⟨h1, h2, _⟩ | ⟨b, h1, h2, _⟩ <;> rcases hw'.cases ha' with ⟨h1', h2', _⟩ | ⟨b', h1', h2', _⟩
      · rw [h1, h1']
      · rw [h2] at h2'; cases h2'
      · rw [h2] at h2'; cases h2'
      · rw [h2] at h2'; cases h2'; rw [h1, h1']
  refine ⟨hobj, ?_⟩
  have sub : ∀ {s s' : St}, WF s → WF s' → abs s' = abs s → ∀ p l, s.mem p = some l → s'.mem p = some l := by
    intro s s' hw hw' h p l hp
    obtain ⟨i, o, ho, hb⟩ := hw.owned p l hp
    have ha : abs s i = some ⟨p, o.cap, o.siz, l⟩ := by simp [abs, ho, hb, hp]
    exact hw'.mem (by rw [h]; exact ha)
  funext p
  cases hp : s.mem p with
  | some l => exact sub hw hw' h p l hp
  | none =>
    cases hp' : s'.mem p with
    | none => rfl
    | some l => have := sub hw' hw h.symm p l hp'; rw [hp] at this; cases this

/-- C18, except for exceptions thrown by forward iterators of append/assign/insert/replace: a call that throws leaves
every object (representation, size, capacity, which strings exist) and every byte of memory exactly as they were.
Missing: forward iterators that throw; what remains true for them is `C18_iterators`, what is false `C18_refuted`. -/
theorem C18_strong_guarantee_partial (h : Reach s V) (hs : Spec (Big s) op V V' r) {e : Exc}
    (hr : op.run s = .exc e s') (hf : op.Forward → e ≠ .user) : s'.obj = s.obj ∧ s'.mem = s.mem := by
  obtain ⟨hinv, rfl⟩ := h.inv
  have := step hinv hs
  rw [hr] at this
  exact hinv.wf.ext this.1.wf (this.2.2.2.2.2.1 hf)

/-- C18 in terms of what the client sees, under the same restriction -/
theorem C18_observation_partial (h : Reach s V) (hs : Spec (Big s) op V V' r) {e : Exc} (hr : op.run s = .exc e s')
    (hf : op.Forward → e ≠ .user) {i : Nat} {d : Ptr} {c : Nat} {xs : List UInt8} {t : UInt8} (hsh : Shows s i d c xs t) :
    Shows s' i d c xs t := by
  obtain ⟨hinv, rfl⟩ := h.inv
  have := step hinv hs
  rw [hr] at this
  obtain ⟨v, hv, rfl, rfl, hh⟩ := hinv.of_shows hsh
  exact this.1.shows (by rw [this.2.2.2.2.2.1 hf]; exact hv) hh

/-- C18, for all exceptions, also those of forward iterators: every string keeps its contents, address, size and
capacity, and no string comes into or goes out of existence.  Only the byte behind the contents may differ. -/
theorem C18_iterators (h : Reach s V) (hs : Spec (Big s) op V V' r) {e : Exc} (hr : op.run s = .exc e s') {i : Nat} :
    (∀ d c xs t, Shows s i d c xs t → ∃ t', Shows s' i d c xs t') ∧ (V i = none → s'.obj (.var i) = none) := by
  have h' := h.thrown hs hr
  refine ⟨?_, fun hi => (C15_contents h' i).2 hi⟩
  obtain ⟨hinv, rfl⟩ := h.inv
  have := step hinv hs
  rw [hr] at this
  intro d c xs t hsh
  obtain ⟨v, hv, rfl, rfl, hh⟩ := hinv.of_shows hsh
  obtain ⟨v', t', h1, h2, h3, h4⟩ := this.2.2.2.1 i v xs t hv hh
  have k := this.1.shows h1 h2
  rw [h3, h4] at k
  exact ⟨t', k⟩

/-- the iterators of the witness below: two bytes, the second of which cannot be read because the iterator throws -/
def twoThrowing : List Src := [.thr 120, .thr 121]

theorem twoThrowing_ok (V : Vars) : Src.AreAll V twoThrowing [120, 121] := .cons (.thr _) (.cons (.thr _) .nil)

/-- the state before the call of the witness below -/
def beforeThrow : St := after (.ctorRange 0 (abc.map .val)) (start fun k => k == 1)

theorem beforeThrow_run : (Op.ctorRange 0 (abc.map .val)).run (start fun k => k == 1) = .ok none beforeThrow :=
  run_after (by decide +kernel)

theorem beforeThrow_clean : Clean beforeThrow (upd (fun _ => none) 0 (some abc)) :=
  (Clean.start fun k => k == 1).ok (.ctorRange rfl (AreAll.vals _) (by decide)) beforeThrow_run

theorem afterThrow_run : (Op.appendRange 0 twoThrowing).run beforeThrow =
    .exc .user (after (.appendRange 0 twoThrowing) beforeThrow) := exc_after (by decide +kernel)

theorem afterThrow_term : readAt ⟨some (.sso (.var 0)), 3⟩ (after (.appendRange 0 twoThrowing) beforeThrow) =
    .ok 120 (after (.appendRange 0 twoThrowing) beforeThrow) := by
  have h : (match readAt ⟨some (.sso (.var 0)), 3⟩ (after (.appendRange 0 twoThrowing) beforeThrow) with
    | .ok b _ => decide (b = 120) | _ => false) = true := by decide +kernel
  unfold readAt at *
  revert h
  simp only
  cases (after (.appendRange 0 twoThrowing) beforeThrow).mem (.sso (.var 0)) with
  | none => intro h; cases h
  | some l =>
    simp only
    cases l[3]? with
    | none => intro h; cases h
    | some x =>
      cases x with
      | none => intro h; cases h
      | some b => simp only [decide_eq_true_eq]; rintro rfl; rfl

theorem afterThrow_shows : ∃ d, Shows (after (.appendRange 0 twoThrowing) beforeThrow) 0 d 22 abc 120 := by
  have hs := (beforeThrow_clean.reach).thrown
    (.appendRange (i := 0) (upd_same _ _ _) (twoThrowing_ok _) (by decide)) afterThrow_run
  obtain ⟨d, c, t, hsh⟩ := hs.shows (i := 0) (upd_same _ _ _)
  have hc : (match capacity (.var 0) (after (.appendRange 0 twoThrowing) beforeThrow) with
    | .ok c _ => decide (c = 22) | _ => false) = true := by decide +kernel
  rw [hsh.capacity] at hc
  simp at hc
  subst hc
  rcases C17_representation hs hsh with ⟨rfl, _, _⟩ | ⟨b, _, hb, _⟩
  · have := hsh.term.symm.trans afterThrow_term
    cases this
    exact ⟨_, hsh⟩
  · omega

/-- C18 is violated: in a reachable state, `append` of a range of forward iterators throws (the second dereference
fails) and leaves the string without its terminator, which it had before: the byte after the contents of "abc" is the
first appended byte. -/
theorem C18_refuted : ∃ (s s' : St) (V V' : Vars) (l : List Src) (r : Option Nat) (d d' : Ptr) (t : UInt8),
    Clean s V ∧ Spec (Big s) (.appendRange 0 l) V V' r ∧ (Op.appendRange 0 l).run s = .exc .user s' ∧
    Shows s 0 d 22 abc 0 ∧ Shows s' 0 d' 22 abc t ∧ t ≠ 0 := by
  obtain ⟨d', h'⟩ := afterThrow_shows
  obtain ⟨d, c, t, hsh⟩ := beforeThrow_clean.reach.shows (i := 0) (upd_same _ _ _)
  have hsp : Spec (Big beforeThrow) (.appendRange 0 twoThrowing) (upd (fun _ => none) 0 (some abc)) _ _ :=
    .appendRange (upd_same _ _ _) (twoThrowing_ok _) (by decide)
  cases C16_terminated_partial beforeThrow_clean hsh
  obtain ⟨t', k⟩ := (C18_iterators beforeThrow_clean.reach hsp afterThrow_run).1 _ _ _ _ hsh
  obtain ⟨rfl, rfl, _, _⟩ := k.unique h'
  exact ⟨_, _, _, _, _, _, _, _, _, beforeThrow_clean, hsp, afterThrow_run, hsh, h', by decide⟩

/-- C16 is violated: a reachable state with a string that is not null-terminated. -/
theorem C16_refuted : ∃ (s : St) (V : Vars) (d : Ptr) (c : Nat) (t : UInt8), Reach s V ∧ Shows s 0 d c abc t ∧ t ≠ 0 := by
  obtain ⟨s, s', V, V', l, r, d, d', t, h, hs, hr, _, h', ht⟩ := C18_refuted
  exact ⟨s', V, d', 22, t, h.reach.thrown hs hr, h', ht⟩

-- a call that throws in a reachable state, not because of iterators: the allocation for 40 bytes fails
example : ∃ (s s' : St) (V V' : Vars) (r : Option Nat), Reach s V ∧ V 0 = some abc ∧
    Spec (Big s) (.appendFill 0 40 120) V V' r ∧ (Op.appendFill 0 40 120).run s = .exc .badAlloc s' := by
  let s : St := after (.ctorRange 0 (abc.map .val)) (start fun k => k == 0)
  have hs : Reach s (upd (fun _ => none) 0 (some abc)) :=
    (Reach.start fun k => k == 0).ok (.ctorRange rfl (AreAll.vals _) (by decide)) (run_after (r := none) (by decide +kernel))
  exact ⟨s, _, _, _, _, hs, rfl, .appendFill (xs := abc) rfl (by decide), exc_after (by decide +kernel)⟩

end Ptl.Str

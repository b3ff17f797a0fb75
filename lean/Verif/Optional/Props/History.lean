import Verif.Optional.Demo

/-!
# C46, C47, C50: histories of optional calls

`Reach E s V`: `s` is a state a client can be in, `V` what its optionals are according to `Spec` and `Torn` (Client.lean),
which do not mention the model.  `Shows s i o`: what the client observes of optional `i`.  `E.Plain`: `T{x}` copies or moves
an `x` of type `T` (see C63 for what happens otherwise).
-/

set_option linter.unusedSectionVars false

namespace Ptl.Optional

variable {α : Type} {E : Elem α} {s s' : St α} {i j : Nat} {x y v w : α} {o o' : Option α} {V V' V1 : Vars α}
  {op : Op α} {src : Src α} {a : Args α} {e : Exc}

/-! ## C46 -/

/-- C46: after every history, with whatever exceptions, each live optional is as the specification says -/
theorem C46_contents (hE : E.Plain) (h : Reach E s V) (i : Nat) :
    (∀ o, V i = some o → Shows s i o) ∧ (V i = none → s.obj i = none) :=
  ⟨fun _ hi => (h.inv hE).shows hi, fun hi => (h.inv hE).dead hi⟩

/-- C46: the flag says whether there is a live object in the union -/
theorem C46_flag (hE : E.Plain) (h : Reach E s V) {ob : Obj α} (ho : s.obj i = some ob) : ob.initialized = ob.val.isSome := by
  have hi := h.inv hE
  cases hv : V i with
  | none => rw [hi.dead hv] at ho; cases ho
  | some q => rw [hi.at hv] at ho; cases ho; rfl

/-- what the client sees of all optionals is what the specification says: which ones are alive, and the contents of those -/
def Agrees (s : St α) (V : Vars α) : Prop := ∀ i, (∀ o, V i = some o → Shows s i o) ∧ (V i = none → s.obj i = none)

theorem Reach.agrees (h : Reach E s V) (hE : E.Plain) : Agrees s V := C46_contents hE h

theorem Reach.call (h : Reach E s V) (hE : E.Plain) (hs : Spec E op V V') :
    match op.run E s with
    | .ok _ s' => Reach E s' V'
    | .exc _ s' => ∃ V'', Torn E op V V'' ∧ Reach E s' V''
    | .ub _ => False
    | .term => False := by
  have := step hE (h.inv hE) hs
  cases hr : op.run E s with
  | ok r s' => exact h.ok hs hr
  | exc e s' =>
    rw [hr] at this
    obtain ⟨_, ⟨V'', ht, _⟩, _⟩ := this
    exact ⟨V'', ht, h.thrown hs hr ht⟩
  | ub => rw [hr] at this; exact this.elim
  | term => rw [hr] at this; exact this.elim

/-- C46: every call within its precondition, in every reachable state, returns normally and the optionals are what is
specified, or throws and they are what is specified for that case.  It is never undefined – nothing is constructed over a
live object, destroyed or read where there is none, or left undestroyed – and never terminates the program. -/
theorem C46_call (hE : E.Plain) (h : Reach E s V) (hs : Spec E op V V') :
    match op.run E s with
    | .ok _ s' => Reach E s' V' ∧ Agrees s' V'
    | .exc _ s' => ∃ V'', Torn E op V V'' ∧ Reach E s' V'' ∧ Agrees s' V''
    | .ub _ => False
    | .term => False := by
  have := h.call hE hs
  cases hr : op.run E s with
  | ok r s' => rw [hr] at this; exact ⟨this, this.agrees hE⟩
  | exc e s' => rw [hr] at this; obtain ⟨V'', ht, h'⟩ := this; exact ⟨V'', ht, h', h'.agrees hE⟩
  | ub => rw [hr] at this; exact this
  | term => rw [hr] at this; exact this

/-- C46: a call throws only because an operation of the element type threw during the call -/
theorem C46_throws_only_for_a_reason (hE : E.Plain) (h : Reach E s V) (hs : Spec E op V V')
    (hr : op.run E s = .exc e s') : e = .user ∧ ∃ m, s.tick ≤ m ∧ m < s'.tick ∧ s.orc m = true := by
  have := step hE (h.inv hE) hs
  rw [hr] at this
  exact ⟨this.1, this.2.2.2⟩

/-- C46: when all optionals are gone, so are all the values -/
theorem C46_no_leak (hE : E.Plain) (h : Reach E s V) (hd : ∀ i, V i = none) (i : Nat) : s.obj i = none :=
  (h.inv hE).dead (hd i)

-- a reachable state, and calls within their preconditions in it: assignment of an empty one, and emplacing from the
-- optional's own value
example : ∃ s V', Reach demoE s demoV ∧ Spec demoE (.assignCopy 0 1) demoV V' ∧ V' 0 = some none := by
  obtain ⟨s, h, _⟩ := demo (fun _ => false) rfl
  exact ⟨s, _, h, .assignCopy (o := some 7) rfl rfl, rfl⟩
example : ∃ s V', Reach demoE s demoV ∧ Spec demoE (.emplace 2 (.ref 2 (· + 1) id false)) demoV V' ∧
    V' 2 = some (some 6) := by
  obtain ⟨s, h, _⟩ := demo (fun _ => false) rfl
  exact ⟨s, _, h, .emplace (o := some 5) rfl (.ref (x := 5) rfl), rfl⟩

/-! ## C47 -/

/-- C47: a call that throws while the optional it should give a value to is empty leaves that optional empty -/
theorem C47_empty_stays_empty (hE : E.Plain) (h : Reach E s V) (hs : Spec E op V V') (hr : op.run E s = .exc e s')
    (hi : V i = some none) : Shows s' i none := by
  have := h.call hE hs
  rw [hr] at this
  obtain ⟨V'', ht, h'⟩ := this
  refine (C46_contents hE h' i).1 none ?_
  cases ht with
  | same => exact hi
  | copyEmpty => exact hi
  | @copyFull k l x y _ h1 h2 =>
    by_cases e : i = k
    · subst e; rw [hi] at h1; cases h1
    · rw [upd_ne _ _ e]; exact hi
  | fromEmpty => exact hi
  | @fromFull k l x y _ h1 h2 =>
    by_cases e : i = k
    · subst e; rw [hi] at h1; cases h1
    · rw [upd_ne _ _ e]; exact hi

/-- C47: an optional that has a value still has one after a call that throws -/
theorem C47_full_stays_full (hE : E.Plain) (h : Reach E s V) (hs : Spec E op V V') (hr : op.run E s = .exc e s')
    (hi : V i = some (some x)) : ∃ x', Shows s' i (some x') := by
  have := h.call hE hs
  rw [hr] at this
  obtain ⟨V'', ht, h'⟩ := this
  have : ∃ x', V'' i = some (some x') := by
    cases ht with
    | same => exact ⟨x, hi⟩
    | copyEmpty => exact ⟨x, hi⟩
    | @copyFull k l x y _ h1 h2 =>
      by_cases e : i = k
      · subst e; exact ⟨_, by rw [upd_same]⟩
      · exact ⟨_, by rw [upd_ne _ _ e]; exact hi⟩
    | fromEmpty => exact ⟨x, hi⟩
    | @fromFull k l x y _ h1 h2 =>
      by_cases e : i = k
      · subst e; exact ⟨_, by rw [upd_same]⟩
      · exact ⟨_, by rw [upd_ne _ _ e]; exact hi⟩
  obtain ⟨x', hx⟩ := this
  exact ⟨x', (C46_contents hE h' i).1 _ hx⟩

/-- C47: if `emplace` throws – also when its arguments refer to the optional's own value – every optional keeps its state -/
theorem C47_emplace (hE : E.Plain) (h : Reach E s V) (hs : Spec E (.emplace i a) V V')
    (hr : Op.run E (.emplace i a) s = .exc e s') (hj : V j = some o) : Shows s' j o := by
  have := h.call hE hs
  rw [hr] at this
  obtain ⟨V'', ht, h'⟩ := this
  cases ht with
  | same => exact (C46_contents hE h' j).1 _ hj

/-- C47: so it is with constructions: the new optional does not come into existence, the others keep their state -/
theorem C47_construct (hE : E.Plain) (h : Reach E s V) (hs : Spec E op V V') (hr : op.run E s = .exc e s')
    (hi : V i = none) : s'.obj i = none := by
  have := h.call hE hs
  rw [hr] at this
  obtain ⟨V'', ht, h'⟩ := this
  refine (C46_contents hE h' i).2 ?_
  cases ht with
  | same => exact hi
  | copyEmpty => exact hi
  | @copyFull k l x y _ h1 h2 =>
    by_cases e : i = k
    · subst e; rw [hi] at h1; cases h1
    · rw [upd_ne _ _ e]; exact hi
  | fromEmpty => exact hi
  | @fromFull k l x y _ h1 h2 =>
    by_cases e : i = k
    · subst e; rw [hi] at h1; cases h1
    · rw [upd_ne _ _ e]; exact hi

/-- C47: optionals other than the target of the call that throws keep their state, whatever the call -/
theorem C47_others (hE : E.Plain) (h : Reach E s V) (hs : Spec E op V V') (hr : op.run E s = .exc e s')
    (hj : V j = some o) (hc : ∀ k, op ≠ .assignCopy j k) (hf : ∀ x, op ≠ .assignFrom j x) : Shows s' j o := by
  have := h.call hE hs
  rw [hr] at this
  obtain ⟨V'', ht, h'⟩ := this
  refine (C46_contents hE h' j).1 _ ?_
  cases ht with
  | same => exact hj
  | copyEmpty => exact hj
  | @copyFull k l x y _ h1 h2 =>
    rw [upd_ne]
    · exact hj
    · intro e; subst e; exact hc _ rfl
  | fromEmpty => exact hj
  | @fromFull k l x y _ h1 h2 =>
    rw [upd_ne]
    · exact hj
    · intro e; subst e; exact hf _ rfl

/-- C47: if the copy assignment of the element type has the strong guarantee, so have all calls on optionals -/
theorem C47_strong (hE : E.Plain) (ht : ∀ x y, E.torn x y = x) (h : Reach E s V) (hs : Spec E op V V')
    (hr : op.run E s = .exc e s') : Reach E s' V ∧ ∀ j o, V j = some o → Shows s' j o := by
  have := h.call hE hs
  rw [hr] at this
  obtain ⟨V'', ht', h'⟩ := this
  have : V'' = V := by
    cases ht' with
    | same => rfl
    | copyEmpty => rfl
    | copyFull h1 h2 => rw [ht, upd_eq _ _ _ h1]
    | fromEmpty => rfl
    | fromFull h1 h2 => rw [ht, upd_eq _ _ _ h1]
  rw [this] at h'
  exact ⟨h', fun j o hj => (C46_contents hE h' j).1 o hj⟩

/-- C47: calls that move, swap, reset or destroy never throw -/
def Quiet : Op α → Prop
  | .ctorNull _ | .ctorMove _ _ | .ctorFromMove _ _ | .dtor _ | .assignNull _ | .assignMove _ _ | .assignFromMove _ _
  | .reset _ | .swap _ _ => True
  | _ => False

theorem C47_nothrow (hE : E.Plain) (h : Reach E s V) (hs : Spec E op V V') (hq : Quiet op) :
    ∃ s', op.run E s = .ok () s' ∧ Reach E s' V' ∧ Agrees s' V' := by
  have := h.call hE hs
  have hn : ∀ m : OM α Unit, ∀ e s', M.noexcept m s ≠ .exc e s' := by
    intro m e s' h
    unfold M.noexcept at h
    cases hm : m s <;> rw [hm] at h <;> cases h
  cases hr : op.run E s with
  | ok r s' => rw [hr] at this; exact ⟨s', rfl, this, this.agrees hE⟩
  | exc e s' =>
    exfalso
    cases op with
    | ctorNull i =>
      cases hs with
      | ctorNull hi =>
        have he : Op.run E (.ctorNull i) s = _ := M.bind_ok (newObj_ok ((h.inv hE).dead hi))
        rw [he] at hr; cases hr
    | ctorMove i j => exact hn _ _ _ hr
    | ctorFromMove i j => exact hn _ _ _ hr
    | dtor i => exact hn _ _ _ hr
    | assignNull i => exact hn _ _ _ hr
    | assignMove i j => exact hn _ _ _ hr
    | assignFromMove i j => exact hn _ _ _ hr
    | reset i => exact hn _ _ _ hr
    | swap i j => exact hn _ _ _ hr
    | _ => exact hq
  | ub => rw [hr] at this; exact this.elim
  | term => rw [hr] at this; exact this.elim

-- an assignment to a full optional that throws (leaving the wreck 904), one to an empty one, and an `emplace`
example : ∃ s s', Reach demoE s demoV ∧ Op.run demoE (.assignCopy 0 2) s = .exc .user s' ∧ Shows s' 0 (some 904) := by
  obtain ⟨s, h, ho, htk⟩ := demo (fun k => k == 1) rfl
  have h0 : s.obj 0 = some ⟨some 7, true⟩ := (h.inv demoE_plain).at (i := 0) (o := some 7) rfl
  have h2 : s.obj 2 = some ⟨some 5, true⟩ := (h.inv demoE_plain).at (i := 2) (o := some 5) rfl
  have hs : Spec demoE (.assignCopy 0 2) demoV _ := .assignCopy (o := some 7) (o' := some 5) rfl rfl
  have hf : fallible s = .exc .user { s with tick := s.tick + 1 } := by simp [fallible, ho, htk]
  have hr : Op.run demoE (.assignCopy 0 2) s =
      .exc .user { s with tick := s.tick + 1, obj := upd s.obj 0 (some ⟨some 904, true⟩) } := by
    show assignCopy demoE 0 2 s = _
    unfold assignCopy
    rw [if_pos (by decide), M.bind_ok (flag_ok h2)]
    show assignFrom demoE 0 (.own 2) s = _
    unfold assignFrom
    rw [M.bind_ok (flag_ok h0)]
    show copyOver demoE 0 (.own 2) s = _
    unfold copyOver
    rw [M.bind_ok (readVal_ok h0), M.bind_ok (read_ok (src := .own 2) (v := 5) ⟨true, h2⟩),
      M.bind_exc (M.onExc_exc hf (writeVal_ok (s := { s with tick := s.tick + 1 }) h0))]
    rfl
  refine ⟨s, _, h, hr, ?_⟩
  exact (C46_contents demoE_plain (h.thrown hs hr (.copyFull rfl rfl)) 0).1 (some 904) rfl
example : ∃ s s', Reach demoE s demoV ∧ Op.run demoE (.emplace 0 (.thr 8)) s = .exc .user s' ∧ Shows s' 0 (some 7) := by
  obtain ⟨s, h, ho, htk⟩ := demo (fun k => k == 1) rfl
  have h0 : s.obj 0 = some ⟨some 7, true⟩ := (h.inv demoE_plain).at (i := 0) (o := some 7) rfl
  have hf : fallible s = .exc .user { s with tick := s.tick + 1 } := by simp [fallible, ho, htk]
  have hr : Op.run demoE (.emplace 0 (.thr 8)) s = .exc .user { s with tick := s.tick + 1 } := by
    have h1 : emplace demoE 0 (.thr 8) s = .exc .user { s with tick := s.tick + 1 } := by
      unfold emplace
      rw [M.bind_ok (flag_ok h0)]
      exact M.bind_exc (M.bind_exc (M.bind_exc hf))
    exact M.bind_exc h1
  exact ⟨s, _, h, hr, C47_emplace demoE_plain h (.emplace (o := some 7) rfl (.thr 8)) hr rfl⟩
example : ∃ s s', Reach demoE s demoV ∧ Op.run demoE (.assignFrom 1 (.ext 8)) s = .exc .user s' ∧ Shows s' 1 none := by
  obtain ⟨s, h, ho, htk⟩ := demo (fun k => k == 1) rfl
  have h1 : s.obj 1 = some ⟨none, false⟩ := (h.inv demoE_plain).at (i := 1) (o := none) rfl
  have hf : fallible s = .exc .user { s with tick := s.tick + 1 } := by simp [fallible, ho, htk]
  have hr : Op.run demoE (.assignFrom 1 (.ext 8)) s = .exc .user { s with tick := s.tick + 1 } := by
    show assignFrom demoE 1 (.ext 8) s = _
    unfold assignFrom
    rw [M.bind_ok (flag_ok h1)]
    exact M.bind_exc (M.bind_ok (read_ok (src := .ext 8) (s := s) (v := 8) rfl) |>.trans (M.bind_exc hf))
  exact ⟨s, _, h, hr, C47_empty_stays_empty demoE_plain h (.assignFrom (x := .ext 8) (o := none) (v := 8) rfl rfl) hr rfl⟩

/-! ## C50 -/

/-- C50: `swap` always returns, and has exchanged the states of the two optionals, for all four combinations -/
theorem C50_swap (hE : E.Plain) (h : Reach E s V) (hi : V i = some o) (hj : V j = some o') :
    ∃ s', Op.run E (.swap i j) s = .ok () s' ∧ Shows s' i o' ∧ Shows s' j o := by
  obtain ⟨s', hr, h', _⟩ := C47_nothrow hE h (.swap hi hj) (op := .swap i j) trivial
  refine ⟨s', hr, (C46_contents hE h' i).1 _ ?_, (C46_contents hE h' j).1 _ (upd_same _ _ _)⟩
  by_cases e : i = j
  · subst e; rw [hi] at hj; cases hj; rw [upd_same]
  · rw [upd_ne _ _ e, upd_same]

/-- C50: swapping an optional with itself does nothing -/
theorem C50_swap_self (i : Nat) : Op.run E (.swap i i) s = .ok () s := by
  show swap E i i s = _
  unfold swap
  rw [if_pos rfl]
  rfl

/-- C50: constructing from `std::move(o)` gives the new optional `o`'s state; `o` still has a value if it had one, the one
that the element type's move constructor left -/
theorem C50_move_construct (hE : E.Plain) (h : Reach E s V) (hi : V i = none) (hj : V j = some o) :
    ∃ s', Op.run E (.ctorMove i j) s = .ok () s' ∧ Shows s' i o ∧ Shows s' j (o.map E.moved) := by
  obtain ⟨s', hr, h', _⟩ := C47_nothrow hE h (.ctorMove hi hj) (op := .ctorMove i j) trivial
  have hne : j ≠ i := by intro e; rw [e, hi] at hj; cases hj
  refine ⟨s', hr, (C46_contents hE h' i).1 _ (upd_same _ _ _), (C46_contents hE h' j).1 _ ?_⟩
  rw [upd_ne _ _ hne, upd_same]

/-- C50: so does assigning from `std::move(o)` -/
theorem C50_move_assign (hE : E.Plain) (h : Reach E s V) (hne : i ≠ j) (hi : V i = some o) (hj : V j = some o') :
    ∃ s', Op.run E (.assignMove i j) s = .ok () s' ∧ Shows s' i o' ∧
      Shows s' j (o'.map (if o.isSome then E.movedAssign else E.moved)) := by
  obtain ⟨s', hr, h', _⟩ := C47_nothrow hE h (.assignMove hne hi hj) (op := .assignMove i j) trivial
  refine ⟨s', hr, (C46_contents hE h' i).1 _ (upd_same _ _ _), (C46_contents hE h' j).1 _ ?_⟩
  rw [upd_ne _ _ hne.symm, upd_same]

/-- C50: move-assigning an optional to itself does nothing -/
theorem C50_move_assign_self (i : Nat) : Op.run E (.assignMove i i) s = .ok () s := by
  show assignMove E i i s = _
  unfold assignMove
  rw [if_neg (by simp)]
  rfl

/-- C50: other optionals are not affected -/
theorem C50_others (hE : E.Plain) (h : Reach E s V) (hi : V i = some o) (hj : V j = some o') {k : Nat}
    {o'' : Option α} (hk : V k = some o'') (hki : k ≠ i) (hkj : k ≠ j) {s1 s2 : St α}
    (h1 : Op.run E (.swap i j) s = .ok () s1) (h2 : Op.run E (.assignMove i j) s = .ok () s2) :
    Shows s1 k o'' ∧ Shows s2 k o'' := by
  constructor
  · refine (C46_contents hE (h.ok (.swap hi hj) h1) k).1 _ ?_
    rw [upd_ne _ _ hkj, upd_ne _ _ hki]; exact hk
  · by_cases e : i = j
    · subst e
      exact (C46_contents hE (h.ok (.assignMoveSelf hi) h2) k).1 _ hk
    · refine (C46_contents hE (h.ok (.assignMove e hi hj) h2) k).1 _ ?_
      rw [upd_ne _ _ hki, upd_ne _ _ hkj]; exact hk

-- swapping 7 with nothing; moving 7 onto 5
example : ∃ s s', Reach demoE s demoV ∧ Op.run demoE (.swap 0 1) s = .ok () s' ∧ Shows s' 0 none ∧ Shows s' 1 (some 7) := by
  obtain ⟨s, h, _⟩ := demo (fun _ => false) rfl
  obtain ⟨s', h1, h2, h3⟩ := C50_swap demoE_plain h (i := 0) (j := 1) (o := some 7) (o' := none) rfl rfl
  exact ⟨s, s', h, h1, h2, h3⟩
example : ∃ s s', Reach demoE s demoV ∧ Op.run demoE (.assignMove 2 0) s = .ok () s' ∧ Shows s' 2 (some 7) ∧
    Shows s' 0 (some 902) := by
  obtain ⟨s, h, _⟩ := demo (fun _ => false) rfl
  obtain ⟨s', h1, h2, h3⟩ := C50_move_assign demoE_plain h (i := 2) (j := 0) (o := some 5) (o' := some 7) (by decide) rfl rfl
  exact ⟨s, s', h, h1, h2, h3⟩

end Ptl.Optional

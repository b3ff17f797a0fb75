import Verif.Variant.Demo

/-!
# C39, C40, C41, C44: histories of variant calls

`Reach E ts s V`: `s` is a state a client can be in, `V` what its variables hold according to `Spec` (Client.lean), which
does not mention the model.  `Shows ts s i T x`: what the client observes of variable `i`.  `Alts ts`: the list of
alternatives satisfies the static assertions (see C45).  `E.Plain`: for all alternatives `T{x}` copies or moves an `x` of
type `T` (see C63 for what happens otherwise).
-/

set_option linter.unusedSectionVars false

namespace Ptl.Variant

variable {τ ν : Type} [DecidableEq τ] {E : Elem τ ν} {ts : List τ} {T T' : τ} {s s' : St ν} {i j : Nat}
  {x y v : ν} {V V' : Vars τ ν} {op : Op τ ν}

/-! ## C39 -/

/-- C39: after every history, with whatever exceptions, every live variant holds exactly one value: the one, and of the
type, that the specification says. -/
theorem C39_contents (hE : E.Plain) (ha : Alts ts) (h : Reach E ts s V) (i : Nat) :
    (∀ T x, V i = some (T, x) → T ∈ ts ∧ Shows ts s i T x) ∧ (V i = none → s.obj (.var i) = none) := by
  have hi := h.inv hE ha
  exact ⟨fun T x hv => ⟨(hi.live i T x hv).1, hi.shows ha hv⟩, fun hv => hi.dead i hv⟩

/-- C39: never valueless: in every reachable state a live variant stores one live object, whose type is number `type` in
the list of alternatives. -/
theorem C39_never_valueless (hE : E.Plain) (ha : Alts ts) (h : Reach E ts s V) {o : Obj ν} (ho : s.obj (.var i) = some o) :
    ∃ T x, o.slot = some (o.type, x) ∧ ts[o.type]? = some T ∧ Shows ts s i T x := by
  have hi := h.inv hE ha
  cases hv : V i with
  | none => rw [hi.dead i hv] at ho; cases ho
  | some p =>
    obtain ⟨T, x⟩ := p
    obtain ⟨hT, hob⟩ := hi.live i T x hv
    rw [ho] at hob; cases hob
    exact ⟨T, x, rfl, ha.at_ hT, hi.shows ha hv⟩

/-- what the client sees of all variants is what the specification says: which ones are alive, and the values of those -/
def Agrees (ts : List τ) (s : St ν) (V : Vars τ ν) : Prop :=
  ∀ i, (∀ T x, V i = some (T, x) → T ∈ ts ∧ Shows ts s i T x) ∧ (V i = none → s.obj (.var i) = none)

theorem Reach.agrees (h : Reach E ts s V) (hE : E.Plain) (ha : Alts ts) : Agrees ts s V := C39_contents hE ha h

theorem Reach.call (h : Reach E ts s V) (hE : E.Plain) (ha : Alts ts) (hs : Spec E ts op V V') :
    match op.run E ts s with
    | .ok _ s' => Reach E ts s' V'
    | .exc _ s' => Reach E ts s' V
    | .ub _ => False
    | .term => False := by
  have := step hE ha (h.inv hE ha) hs
  cases hr : op.run E ts s with
  | ok r s' => exact h.ok hs hr
  | exc e s' => exact h.thrown hs hr
  | ub => rw [hr] at this; exact this.elim
  | term => rw [hr] at this; exact this.elim

/-- C39: every call within its precondition, in every reachable state, either returns normally and the variables hold what
is specified, or throws and they hold what they held before.  It is never undefined and never terminates the program. -/
theorem C39_call (hE : E.Plain) (ha : Alts ts) (h : Reach E ts s V) (hs : Spec E ts op V V') :
    match op.run E ts s with
    | .ok _ s' => Reach E ts s' V' ∧ Agrees ts s' V'
    | .exc _ s' => Reach E ts s' V ∧ Agrees ts s' V
    | .ub _ => False
    | .term => False := by
  have := h.call hE ha hs
  cases hr : op.run E ts s with
  | ok r s' => rw [hr] at this; exact ⟨this, this.agrees hE ha⟩
  | exc e s' => rw [hr] at this; exact ⟨this, this.agrees hE ha⟩
  | ub => rw [hr] at this; exact this
  | term => rw [hr] at this; exact this

/-- C39: a call throws only because the constructor of an alternative threw during the call -/
theorem C39_throws_only_for_a_reason (hE : E.Plain) (ha : Alts ts) (h : Reach E ts s V) (hs : Spec E ts op V V') {e : Exc}
    (hr : op.run E ts s = .exc e s') : e = .user ∧ ∃ m, s.tick ≤ m ∧ m < s'.tick ∧ s.orc m = true := by
  have := step hE ha (h.inv hE ha) hs
  rw [hr] at this
  exact ⟨this.1, this.2.2.2.2⟩

-- a reachable state, and calls within their preconditions in it: one that changes the alternative, one whose argument
-- is the value of the target itself
example : ∃ s V', Reach demoE demoTs s demoV ∧ Spec demoE demoTs (.assignCopy 0 1) demoV V' ∧ V' 0 = some (.str, 5) := by
  obtain ⟨s, h, _⟩ := demo
  exact ⟨s, _, h, .assignCopy (T := .int) (x := 7) rfl rfl, rfl⟩
example : ∃ s V', Reach demoE demoTs s demoV ∧
    Spec demoE demoTs (.emplace 1 .str (.ref 1 .str (· + 1) id false)) demoV V' ∧ V' 1 = some (.str, 6) := by
  obtain ⟨s, h, _⟩ := demo
  exact ⟨s, _, h, .emplace (T' := .str) (y := 5) rfl (by decide) (.ref (x := 5) rfl) (by simp [Src.Overlaps]), rfl⟩

/-! ## C40 -/

/-- C40: along every history no call runs into undefined behaviour: nothing is constructed over a live object, destroyed
or read where there is none or one of another type, or left undestroyed when its storage goes away. -/
theorem C40_lifetimes (hE : E.Plain) (ha : Alts ts) (h : Reach E ts s V) (hs : Spec E ts op V V') (f : Fault) :
    op.run E ts s ≠ .ub f := by
  intro hr
  have := h.call hE ha hs
  rw [hr] at this
  exact this

/-- C40: between calls the only variant objects are the client's variables (no temporaries are left over), and those that
the client has destroyed are gone -/
theorem C40_no_leak (hE : E.Plain) (ha : Alts ts) (h : Reach E ts s V) (id : Id) (ho : s.obj id ≠ none) :
    ∃ i, id = .var i ∧ V i ≠ none := by
  have hi := h.inv hE ha
  cases id with
  | tmp n => exact (ho (hi.tmp n)).elim
  | var i => exact ⟨i, rfl, fun e => ho (hi.dead i e)⟩

-- both variables destroyed: no objects are left
example : ∃ s V, Reach demoE demoTs s V ∧ ∀ id, s.obj id = none := by
  obtain ⟨s, h, ho⟩ := demo
  obtain ⟨s1, _, h1, o1⟩ := h.next demoE_plain demo_alts (Spec.dtor (i := 0) (T := .int) (x := 7) rfl) ho
  obtain ⟨s2, _, h2, _⟩ := h1.next demoE_plain demo_alts (Spec.dtor (i := 1) (T := .str) (x := 5) rfl) o1
  refine ⟨s2, _, h2, fun id => ?_⟩
  cases hh : s2.obj id with
  | none => rfl
  | some o =>
    obtain ⟨i, _, hi⟩ := C40_no_leak demoE_plain demo_alts h2 id (by rw [hh]; simp)
    refine (hi ?_).elim
    simp only [upd, demoV]
    split
    · rfl
    · split <;> simp_all

/-! ## C41 -/

/-- C41: a call that throws leaves every variant exactly as it was -/
theorem C41_strong_guarantee (hE : E.Plain) (ha : Alts ts) (h : Reach E ts s V) (hs : Spec E ts op V V') {e : Exc}
    (hr : op.run E ts s = .exc e s') : s'.obj = s.obj := by
  have := step hE ha (h.inv hE ha) hs
  rw [hr] at this
  exact this.2.2.1

/-- C41 in terms of what the client sees -/
theorem C41_observation (hE : E.Plain) (ha : Alts ts) (h : Reach E ts s V) (hs : Spec E ts op V V') {e : Exc}
    (hr : op.run E ts s = .exc e s') (hv : V i = some (T, x)) : Shows ts s i T x ∧ Shows ts s' i T x :=
  ⟨((C39_contents hE ha h i).1 T x hv).2, ((C39_contents hE ha (h.thrown hs hr) i).1 T x hv).2⟩

-- a copy assignment that throws: the copy of the new value fails
example : ∃ (s s' : St Nat) (V V' : Vars Ty Nat), Reach demoE demoTs s V ∧ V 0 = some (.int, 0) ∧
    Spec demoE demoTs (.assignCopy 0 1) V V' ∧ (Op.assignCopy 0 1).run demoE demoTs s = .exc .user s' := by
  let orc : Nat → Bool := fun k => k == 2
  let V1 : Vars Ty Nat := upd (fun _ => none) 0 (some (.int, 0))
  let V2 : Vars Ty Nat := upd V1 1 (some (.str, 5))
  have sp1 : Spec demoE demoTs (.ctorDefault 0) (fun _ => none) V1 := .ctorDefault rfl rfl
  have sp2 : Spec demoE demoTs (.ctorValue 1 .str (.thr 5)) V1 V2 := .ctorValue rfl (by decide) (.thr 5)
  have sp3 : Spec demoE demoTs (.assignCopy 0 1) V2 (upd V2 0 (some (.str, 5))) :=
    .assignCopy (T := .int) (x := 0) rfl rfl
  refine ⟨_, _, V2, _, .ok (.ok (.start orc) sp1 rfl) sp2 rfl, rfl, sp3, rfl⟩

/-! ## C44 -/

/-- C44: a copy holds the same alternative and value, and the source is unchanged -/
theorem C44_copy_construct (hE : E.Plain) (ha : Alts ts) (h : Reach E ts s V) (hi : V i = none) (hj : V j = some (T, x))
    (hr : Op.run E ts (.ctorCopy i j) s = .ok () s') : Shows ts s' i T x ∧ Shows ts s' j T x := by
  have h' := h.ok (Spec.ctorCopy hi hj) hr
  have hne : j ≠ i := by intro e; rw [e, hi] at hj; cases hj
  exact ⟨((C39_contents hE ha h' i).1 T x (by simp)).2, ((C39_contents hE ha h' j).1 T x (by rw [upd_ne _ _ hne]; exact hj)).2⟩

/-- C44: copy assignment, also from the variant itself, and whether or not the alternatives coincide -/
theorem C44_copy_assign (hE : E.Plain) (ha : Alts ts) (h : Reach E ts s V) (hi : V i = some (T, x)) (hj : V j = some (T', y))
    (hr : Op.run E ts (.assignCopy i j) s = .ok () s') : Shows ts s' i T' y ∧ Shows ts s' j T' y := by
  have h' := h.ok (Spec.assignCopy hi hj) hr
  refine ⟨((C39_contents hE ha h' i).1 T' y (by simp)).2, ((C39_contents hE ha h' j).1 T' y ?_).2⟩
  by_cases e : j = i
  · subst e; simp
  · rw [upd_ne _ _ e]; exact hj

/-- C44: move construction transfers the value and leaves a moved-from value of the same alternative behind; it cannot
fail -/
theorem C44_move_construct (hE : E.Plain) (ha : Alts ts) (h : Reach E ts s V) (hi : V i = none) (hj : V j = some (T, x)) :
    ∃ s', Op.run E ts (.ctorMove i j) s = .ok () s' ∧ Shows ts s' i T x ∧ Shows ts s' j T (E.moved T x) := by
  have hne : i ≠ j := by intro e; rw [e, hj] at hi; cases hi
  have hI := h.inv hE ha
  obtain ⟨hT, ho⟩ := hI.live j T x hj
  obtain ⟨s', e, _⟩ := (ctorMove_ok hE (ha.at_ hT) (hI.dead i hi) ho).elim
  have h' := h.ok (Spec.ctorMove hi hj) e
  exact ⟨s', e, ((C39_contents hE ha h' i).1 T x (by rw [upd_ne _ _ hne]; simp)).2,
    ((C39_contents hE ha h' j).1 T _ (by simp)).2⟩

/-- C44: move assignment between different variants; it cannot fail -/
theorem C44_move_assign (hE : E.Plain) (ha : Alts ts) (h : Reach E ts s V) (hi : V i = some (T, x)) (hj : V j = some (T', y))
    (hne : i ≠ j) : ∃ s', Op.run E ts (.assignMove i j) s = .ok () s' ∧ Shows ts s' i T' y ∧
      Shows ts s' j T' (E.moved T' y) := by
  have hI := h.inv hE ha
  obtain ⟨hT, ho⟩ := hI.live i T x hi
  obtain ⟨hT', ho'⟩ := hI.live j T' y hj
  obtain ⟨s', e, _⟩ := (assignMove_ok (i := .var i) (j := .var j) hE ha hI.part (by simpa using hne) (ha.at_ hT) (ha.at_ hT')
    ho ho').elim
  have h' := h.ok (Spec.assignMove hi hj hne) e
  exact ⟨s', e, ((C39_contents hE ha h' i).1 T' y (by rw [upd_ne _ _ hne]; simp)).2,
    ((C39_contents hE ha h' j).1 T' _ (by simp)).2⟩

/-- C44: swap exchanges alternatives and values, whether or not the alternatives coincide; it cannot fail -/
theorem C44_swap (hE : E.Plain) (ha : Alts ts) (h : Reach E ts s V) (hi : V i = some (T, x)) (hj : V j = some (T', y)) :
    ∃ s', Op.run E ts (.swap i j) s = .ok () s' ∧ Shows ts s' i T' y ∧ Shows ts s' j T x := by
  have hm := step hE ha (h.inv hE ha) (Spec.swap (E := E) (ts := ts) hi hj)
  cases hr : Op.run E ts (.swap i j) s with
  | ok u s' =>
    have h' := h.ok (Spec.swap hi hj) hr
    refine ⟨s', rfl, ((C39_contents hE ha h' i).1 T' y ?_).2, ((C39_contents hE ha h' j).1 T x (by simp)).2⟩
    by_cases e : i = j
    · subst e
      rw [hi] at hj; cases hj
      simp
    · rw [upd_ne _ _ e]; simp
  | exc e s' =>
    exfalso
    have : ∀ (m : VM ν Unit), M.noexcept m s ≠ .exc e s' := by
      intro m; unfold M.noexcept; split <;> simp_all
    exact this _ hr
  | ub => rw [hr] at hm; exact hm.elim
  | term => rw [hr] at hm; exact hm.elim

/-- C44: assignment of a variant to itself and swapping it with itself change nothing at all -/
theorem C44_self : Op.run E ts (.assignCopy i i) s = .ok () s ∧ Op.run E ts (.assignMove i i) s = .ok () s ∧
    Op.run E ts (.swap i i) s = .ok () s := ⟨assignCopy_self, assignMove_self, swap_self⟩

/-- C44: variants other than the operands are not affected by copying, moving and swapping -/
theorem C44_others (hE : E.Plain) (ha : Alts ts) (h : Reach E ts s V) (hs : Spec E ts op V V')
    (hr : op.run E ts s = .ok () s') {k : Nat} (hop : op = .ctorCopy i j ∨ op = .ctorMove i j ∨ op = .assignCopy i j ∨
      op = .assignMove i j ∨ op = .swap i j) (hki : k ≠ i) (hkj : k ≠ j) (hk : V k = some (T, x)) : Shows ts s' k T x := by
  have h' := h.ok hs hr
  refine ((C39_contents hE ha h' k).1 T x ?_).2
  rcases hop with rfl | rfl | rfl | rfl | rfl <;> cases hs <;> simp [upd_ne, hki, hkj, hk]

-- variants holding different alternatives, on which all of the above apply
example : ∃ s, Reach demoE demoTs s demoV ∧ demoV 0 = some (.int, 7) ∧ demoV 1 = some (.str, 5) ∧ demoV 2 = none ∧
    demoE.moved .str 5 = 0 := by
  obtain ⟨s, h, _⟩ := demo
  exact ⟨s, h, rfl, rfl, rfl, rfl⟩
-- and it really is a swap of the two
example : ∃ s s', Reach demoE demoTs s demoV ∧ Op.run demoE demoTs (.swap 0 1) s = .ok () s' ∧
    Shows demoTs s' 0 .str 5 ∧ Shows demoTs s' 1 .int 7 := by
  obtain ⟨s, h, _⟩ := demo
  obtain ⟨s', e, h1, h2⟩ := C44_swap demoE_plain demo_alts h (i := 0) (j := 1) rfl rfl
  exact ⟨s, s', h, e, h1, h2⟩

end Ptl.Variant

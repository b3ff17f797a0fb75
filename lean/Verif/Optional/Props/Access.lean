import Verif.Optional.Props.History

/-! # C48, C49 and C63: access, comparison, brace construction -/

set_option linter.unusedSectionVars false

namespace Ptl.Optional

variable {α : Type} {E : Elem α} {s s' : St α} {i j : Nat} {x y v w : α} {o o' : Option α} {V V' V1 : Vars α}
  {op : Op α} {src : Src α} {a : Args α} {e : Exc}

/-! ## C48 -/

/-- C48: `has_value` and `operator bool` (one function in the model, optional.hpp:112 and 115) say whether there is a value -/
theorem C48_has_value (hE : E.Plain) (h : Reach E s V) (hi : V i = some o) : hasValue i s = .ok o.isSome s := by
  cases (C46_contents hE h i).1 o hi with
  | empty h1 => exact h1
  | full h1 => exact h1

/-- C48: `value()` refers to the value – the same object as `*o` – if there is one, and throws `bad_optional_access`
otherwise; nothing changes -/
theorem C48_value (hE : E.Plain) (h : Reach E s V) (hi : V i = some o) :
    match o with
    | some x => ∃ p, value i s = .ok p s ∧ deref i s = .ok p s ∧ readVal p s = .ok x s
    | none => value i s = .exc .badOptionalAccess s := by
  cases (C46_contents hE h i).1 o hi with
  | empty _ h1 => exact h1
  | full _ h1 h2 h3 => exact ⟨_, h1, h2, h3⟩

/-- C48: the reference that `value()` returns can be assigned through: the optional then holds the new value -/
theorem C48_value_writes (hE : E.Plain) (h : Reach E s V) (hi : V i = some (some x)) (v : α) :
    ∃ s', Op.run E (.writeValue i v) s = .ok () s' ∧ Shows s' i (some v) := by
  have hs : Spec E (.writeValue i v) V _ := .writeValue hi
  have hv : value i s = .ok i s := by
    unfold value
    rw [M.bind_ok (flag_ok ((h.inv hE).at hi))]
    rfl
  have hr : Op.run E (.writeValue i v) s = _ := M.bind_ok hv |>.trans (writeVal_ok (b := true) ((h.inv hE).at hi))
  exact ⟨_, hr, (C46_contents hE (h.ok hs hr) i).1 _ (upd_same _ _ _)⟩

/-- the result of a function whose value the client ignores in the operation `op` -/
theorem ignored {β : Type} {m : OM α β} {r : β} (h : m s = .ok r s') : (m >>= fun _ => (pure () : OM α Unit)) s = .ok () s' :=
  M.bind_ok h
theorem ignored_exc {β : Type} {m : OM α β} (h : m s = .exc e s') :
    (m >>= fun _ => (pure () : OM α Unit)) s = .exc e s' := M.bind_exc h

/-- C48: `value_or` on an lvalue that has a value: the result is that value, and no optional changes – the default is not
even converted.  Copying the value may throw, which changes nothing either. -/
theorem C48_value_or_full (hE : E.Plain) (h : Reach E s V) (hi : V i = some (some x)) (a : Args α) :
    match valueOr i a s with
    | .ok r s' => r = x ∧ Reach E s' V ∧ Agrees s' V
    | .exc _ s' => Reach E s' V ∧ Agrees s' V
    | .ub _ => False
    | .term => False := by
  have hs : Spec E (.getValueOr i a) V V := .getValueOr hi
  have hv : valueOr i a s = (fallible >>= fun _ => pure x) s := by
    unfold valueOr
    rw [M.bind_ok (flag_ok ((h.inv hE).at hi))]
    exact M.bind_ok (readVal_ok (b := true) ((h.inv hE).at hi))
  rcases fallible_cases s with ⟨e, hk⟩ | ⟨e, hk⟩
  · have hr : valueOr i a s = .ok x { s with tick := s.tick + 1 } := hv.trans (M.bind_ok e)
    rw [hr]
    exact ⟨rfl, h.ok hs (ignored hr), (h.ok hs (ignored hr)).agrees hE⟩
  · have hr : valueOr i a s = .exc .user { s with tick := s.tick + 1 } := hv.trans (M.bind_exc e)
    rw [hr]
    have h' := h.thrown hs (ignored_exc hr) (.same (by simp) (by simp))
    exact ⟨h', h'.agrees hE⟩

/-- C48: `value_or` on an rvalue that has a value: the result is that value, which is moved out; it never throws -/
theorem C48_value_or_move_full (hE : E.Plain) (h : Reach E s V) (hi : V i = some (some x)) (a : Args α) :
    ∃ s', valueOrMove E i a s = .ok x s' ∧ Reach E s' (upd V i (some (some (E.moved x)))) ∧ Shows s' i (some (E.moved x)) ∧
      ∀ j o, j ≠ i → V j = some o → Shows s' j o := by
  have ho := (h.inv hE).at hi
  have hv : valueOrMove E i a s = .ok x { s with obj := Ptl.upd s.obj i (some ⟨some (E.moved x), true⟩) } := by
    unfold valueOrMove
    rw [M.bind_ok (flag_ok ho)]
    exact M.bind_ok (readVal_ok (b := true) ho) |>.trans (M.bind_ok (writeVal_ok (b := true) ho))
  have h' := h.ok (.takeValueOr hi) (ignored hv)
  refine ⟨_, hv, h', (h'.agrees hE i).1 _ (upd_same _ _ _), fun j o hj ho => (h'.agrees hE j).1 _ ?_⟩
  rw [upd_ne _ _ hj]; exact ho

/-- C48: `value_or` on an empty optional: the result is the default; the optional stays empty -/
theorem C48_value_or_empty (hE : E.Plain) (h : Reach E s V) (hi : V i = some none) (ha : a.Gives V v V1) :
    (match valueOr i a s with
    | .ok r s' => r = v ∧ Reach E s' V1 ∧ Agrees s' V1 ∧ Shows s' i none
    | .exc _ s' => Reach E s' V ∧ Agrees s' V
    | .ub _ => False
    | .term => False) ∧ valueOrMove E i a s = valueOr i a s := by
  have ho := (h.inv hE).at hi
  have h1 : valueOr i a s = a.eval s := by
    unfold valueOr
    rw [M.bind_ok (flag_ok ho)]
    rfl
  have h2 : valueOrMove E i a s = a.eval s := by
    unfold valueOrMove
    rw [M.bind_ok (flag_ok ho)]
    rfl
  refine ⟨?_, h2.trans h1.symm⟩
  obtain ⟨ob, hin, _⟩ := (h.inv hE).args ha
  have hs : Spec E (.getValueOr i a) V V1 := .getDefault hi ha
  rcases eval_ok hin with ⟨s1, e, _⟩ | hf
  · have hr := h1.trans e
    rw [hr]
    have h' := h.ok hs (ignored hr)
    refine ⟨rfl, h', h'.agrees hE, (C46_contents hE h' i).1 none ?_⟩
    cases ha with
    | val => exact hi
    | thr => exact hi
    | @ref j x f g nt hj =>
      rw [upd_ne]
      · exact hi
      · intro e; subst e; rw [hi] at hj; cases hj
  · obtain ⟨s1, e, _⟩ := hf.ex
    have hr := h1.trans e
    rw [hr]
    have h' := h.thrown hs (ignored_exc hr) (.same (by simp) (by simp))
    exact ⟨h', h'.agrees hE⟩

-- 7 and nothing
example : ∃ s, Reach demoE s demoV ∧ value 1 s = .exc .badOptionalAccess s ∧ valueOr 1 (.val 9) s = .ok 9 s := by
  obtain ⟨s, h, _⟩ := demo (fun _ => false) rfl
  refine ⟨s, h, C48_value demoE_plain h (i := 1) (o := none) rfl, ?_⟩
  have h1 : s.obj 1 = some ⟨none, false⟩ := (h.inv demoE_plain).at (i := 1) (o := none) rfl
  unfold valueOr
  rw [M.bind_ok (flag_ok h1)]
  rfl

/-! ## C49 -/

/-- what comparing two optionals should mean: nothing is less than everything else -/
def cmpSpec (E : Elem α) (c : Cmp) : Option α → Option α → Bool
  | some x, some y => E.cmp c x y
  | none, none => natCmp c 0 0
  | none, some _ => natCmp c 0 1
  | some _, none => natCmp c 1 0

theorem Inv.compare (h : Inv s V) (hi : V i = some o) (hj : V j = some o') (c : Cmp) :
    Optional.compare E c i j s = .ok (cmpSpec E c o o') s := by
  have h1 := h.at hi
  have h2 := h.at hj
  unfold Optional.compare
  apply M.noexcept_ok
  rw [M.bind_ok (flag_ok h1), M.bind_ok (flag_ok h2)]
  cases o with
  | none => cases o' <;> cases c <;> rfl
  | some x =>
    cases o' with
    | none => cases c <;> rfl
    | some y =>
      have hv : (do
          let x ← readVal i
          let y ← readVal j
          pure (E.cmp c x y) : OM α Bool) s = .ok (E.cmp c x y) s := by
        rw [M.bind_ok (readVal_ok (b := true) h1), M.bind_ok (readVal_ok (b := true) h2)]
        rfl
      cases c <;> exact hv

/-- C49: the six operators on two optionals compute the specified comparison, and change nothing -/
theorem C49_compare (hE : E.Plain) (h : Reach E s V) (hi : V i = some o) (hj : V j = some o') (c : Cmp) :
    compare E c i j s = .ok (cmpSpec E c o o') s := (h.inv hE).compare hi hj c

theorem Inv.compareNull (h : Inv s V) (hi : V i = some o) (c : Cmp) :
    Optional.compareNull c i s = .ok (cmpSpec E c o none) s ∧ Optional.nullCompare c i s = .ok (cmpSpec E c none o) s := by
  have h1 := h.at hi
  constructor
  · unfold Optional.compareNull
    apply M.noexcept_ok
    rw [M.bind_ok (flag_ok h1)]
    cases o <;> cases c <;> rfl
  · unfold Optional.nullCompare
    apply M.noexcept_ok
    rw [M.bind_ok (flag_ok h1)]
    cases o <;> cases c <;> rfl

/-- C49: in comparisons with `nullopt`, on either side, `nullopt` is an empty optional -/
theorem C49_nullopt (hE : E.Plain) (h : Reach E s V) (hi : V i = some o) (c : Cmp) :
    compareNull c i s = .ok (cmpSpec E c o none) s ∧ nullCompare c i s = .ok (cmpSpec E c none o) s := (h.inv hE).compareNull hi c

theorem Inv.compareValue (h : Inv s V) (hi : V i = some o) (hx : src.Has V v) (c : Cmp) :
    Optional.compareValue E c i src s = .ok (cmpSpec E c o (some v)) s ∧ Optional.valueCompare E c src i s = .ok (cmpSpec E c (some v) o) s := by
  have h1 := h.at hi
  have h2 := h.hasIn hx
  constructor
  · unfold Optional.compareValue
    apply M.noexcept_ok
    rw [M.bind_ok (flag_ok h1)]
    cases o with
    | none => cases c <;> rfl
    | some x => exact M.bind_ok (readVal_ok (b := true) h1) |>.trans (M.bind_ok (read_ok h2))
  · unfold Optional.valueCompare
    apply M.noexcept_ok
    rw [M.bind_ok (flag_ok h1)]
    cases o with
    | none => cases c <;> rfl
    | some x => exact M.bind_ok (read_ok h2) |>.trans (M.bind_ok (readVal_ok (b := true) h1))

/-- C49: in comparisons with a value, on either side, the value – which may be the one inside an optional – is an optional
that holds it -/
theorem C49_value (hE : E.Plain) (h : Reach E s V) (hi : V i = some o) (hx : src.Has V v) (c : Cmp) :
    compareValue E c i src s = .ok (cmpSpec E c o (some v)) s ∧ valueCompare E c src i s = .ok (cmpSpec E c (some v) o) s := (h.inv hE).compareValue hi hx c

theorem cmpSpec_weak (hw : WeakOps E.cmp) : WeakOps (cmpSpec E) := by
  refine ⟨⟨?_, ?_, ?_⟩, ?_, ?_, ?_, ?_, ?_⟩
  · intro a
    cases a with
    | none => rfl
    | some x => exact hw.strict.irrefl x
  · intro a b c
    cases a <;> cases b <;> cases c <;> simp only [cmpSpec, natCmp] <;> first | exact hw.strict.trans _ _ _ | simp
  · intro a b c
    cases a <;> cases b <;> cases c <;> simp only [cmpSpec, natCmp] <;> first | exact hw.strict.incomp _ _ _ | simp
  · intro a b
    cases a <;> cases b <;> first | exact hw.gt _ _ | rfl
  · intro a b
    cases a <;> cases b <;> first | exact hw.le _ _ | rfl
  · intro a b
    cases a <;> cases b <;> first | exact hw.ge _ _ | rfl
  · intro a b
    cases a <;> cases b <;> first | exact hw.eq _ _ | rfl
  · intro a b
    cases a <;> cases b <;> first | exact hw.ne _ _ | rfl

theorem cmpSpec_total (hw : TotalOps E.cmp) : TotalOps (cmpSpec E) := by
  refine ⟨cmpSpec_weak hw.toWeakOps, ?_⟩
  intro a b
  cases a <;> cases b <;> simp only [cmpSpec]
  · simp [natCmp]
  · simp [natCmp]
  · simp [natCmp]
  · rw [hw.same]; simp

/-- the answer of an operator applied to optionals `i` and `j` in state `s` -/
def answer (E : Elem α) (s : St α) (c : Cmp) (i j : Nat) : Bool :=
  match compare E c i j s with
  | .ok b _ => b
  | _ => false

theorem answer_eq (hE : E.Plain) (h : Reach E s V) (hi : V i = some o) (hj : V j = some o') (c : Cmp) :
    answer E s c i j = cmpSpec E c o o' := by rw [answer, C49_compare hE h hi hj]

/-- C49: after every history, the operators applied to the live optionals are consistent, and a strict weak order, if those of the
element type are -/
theorem C49_weak_order (hE : E.Plain) (h : Reach E s V) (hw : WeakOps E.cmp) :
    (∀ c i j, V i ≠ none → V j ≠ none → compare E c i j s = .ok (answer E s c i j) s) ∧
    WeakOps fun c (i j : { i // V i ≠ none }) => answer E s c i.1 j.1 := by
  have hv : ∀ i : { i // V i ≠ none }, V i.1 = some ((V i.1).getD none) := fun ⟨i, hi⟩ => by
    show V i = some ((V i).getD none)
    cases hv : V i with
    | none => exact absurd hv hi
    | some o => rfl
  constructor
  · intro c i j hi hj
    rw [answer_eq hE h (hv ⟨i, hi⟩) (hv ⟨j, hj⟩), C49_compare hE h (hv ⟨i, hi⟩) (hv ⟨j, hj⟩)]
  · have e : (fun c (i j : { i // V i ≠ none }) => answer E s c i.1 j.1) =
        fun c i j => cmpSpec E c ((V i.1).getD none) ((V j.1).getD none) := by
      funext c i j; exact answer_eq hE h (hv i) (hv j) c
    rw [e]
    exact (cmpSpec_weak hw).comap fun i : { i // V i ≠ none } => (V i.1).getD none

/-- C49: if the operators of the element type are consistent with a total order, `==` of two optionals is equality of what they
hold, and so is being `<` neither way -/
theorem C49_total_order (hE : E.Plain) (h : Reach E s V) (hw : TotalOps E.cmp) (hi : V i = some o) (hj : V j = some o') :
    (compare E .eq i j s = .ok true s ↔ o = o') ∧
    (compare E .lt i j s = .ok false s ∧ compare E .lt j i s = .ok false s ↔ o = o') := by
  have ht := cmpSpec_total hw
  rw [C49_compare hE h hi hj, C49_compare hE h hi hj, C49_compare hE h hj hi]
  constructor
  · rw [← ht.same]; simp
  · rw [← ht.same, ht.eq]; simp

/-- C49: in that order the empty optional is the least element and no value equals it -/
theorem C49_empty_least (hE : E.Plain) (h : Reach E s V) (hi : V i = some none) (hj : V j = some o) (hk : V k = some (some x)) :
    compare E .le i j s = .ok true s ∧ compare E .lt j i s = .ok false s ∧ compare E .lt i k s = .ok true s ∧
      compare E .eq i k s = .ok false s := by
  rw [C49_compare hE h hi hj, C49_compare hE h hj hi, C49_compare hE h hi hk, C49_compare hE h hi hk]
  refine ⟨?_, ?_, rfl, rfl⟩ <;> cases o <;> rfl

-- in the demo, 5 < 7 and nothing is less than 5
example : ∃ s, Reach demoE s demoV ∧ TotalOps demoE.cmp ∧ ¬ compare demoE .eq 0 2 s = .ok true s := by
  obtain ⟨s, h, _⟩ := demo (fun _ => false) rfl
  exact ⟨s, h, natCmp_total, fun he => by
    have := (C49_total_order demoE_plain h natCmp_total (i := 0) (j := 2) (o := some 7) (o' := some 5) rfl rfl).1.1 he
    cases this⟩
example : ∃ s, Reach demoE s demoV ∧ compare demoE .lt 2 0 s = .ok true s ∧ compare demoE .ge 1 2 s = .ok false s ∧
    valueCompare demoE .gt (.ext 6) 1 s = .ok true s := by
  obtain ⟨s, h, _⟩ := demo (fun _ => false) rfl
  exact ⟨s, h, C49_compare demoE_plain h (i := 2) (j := 0) (o := some 5) (o' := some 7) rfl rfl .lt,
    C49_compare demoE_plain h (i := 1) (j := 2) (o := none) (o' := some 5) rfl rfl .ge,
    (C49_value demoE_plain h (i := 1) (o := none) (src := .ext 6) (v := 6) rfl rfl .gt).2⟩

/-! ## C63 for optionals -/

/-- an element type with a constructor from a list of itself: `T{x}` is a list with the one element `x`; values are depths
of nesting -/
def greedyE : Elem Nat := { demoE with braced := fun x => x + 1 }

/-- C63 is false for optionals, too: after `optional<T> o{std::in_place, …}; optional<T> p{o};`, `p` holds something else
than `o`, and so it is with `swap` with an empty optional -/
theorem C63_optional_refuted : ∃ s1 s2 s3 s4 : St Nat,
    Op.run greedyE (.ctorInPlace 0 (.val 3)) (start Nat fun _ => false) = .ok () s1 ∧
    Op.run greedyE (.ctorCopy 1 0) s1 = .ok () s2 ∧ readVal 0 s2 = .ok 3 s2 ∧ readVal 1 s2 = .ok 4 s2 ∧
    Op.run greedyE (.ctorNull 2) s2 = .ok () s3 ∧
    Op.run greedyE (.swap 2 0) s3 = .ok () s4 ∧ readVal 2 s4 = .ok 4 s4 :=
  ⟨_, _, _, _, rfl, rfl, rfl, rfl, rfl, rfl, rfl⟩

/-- C63 (part): if `T{x}` copies an `x` of type `T`, so does an optional.  Missing: other types, see
`C63_optional_refuted`. -/
theorem C63_optional_partial (hE : E.Plain) (h : Reach E s V) (hi : V i = none) (hj : V j = some o)
    (hr : Op.run E (.ctorCopy i j) s = .ok () s') : Shows s' i o ∧ Shows s' j o := by
  have h' := h.ok (.ctorCopy hi hj) hr
  have hne : j ≠ i := by intro e; rw [e, hi] at hj; cases hj
  exact ⟨(C46_contents hE h' i).1 _ (upd_same _ _ _), (C46_contents hE h' j).1 _ (by rw [upd_ne _ _ hne]; exact hj)⟩

end Ptl.Optional

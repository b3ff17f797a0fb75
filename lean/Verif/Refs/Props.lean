import Verif.Refs.Model

/-!
# C96, C97: constructing `array_ref` and `optional_ref`

The specification says which access an expression gives (`Access`, `Wanted`), without regard to the constructors.
-/

namespace Ptl.Refs

variable {τ : Type}

/-! ## C96: array_ref -/

/-- The expression gives access to elements of this type: as the object itself does, to the elements; a temporary gives const
access. -/
inductive Access : Shape τ → Kind → CT τ → Prop
  | object {d dc sz v P} : d = some P → Access (.cls d dc sz v) ⟨false, true⟩ P
  | constObject {d dc sz v P} {lvalue : Bool} : dc = some P → Access (.cls d dc sz v) ⟨true, lvalue⟩ P
  | temporary {d dc sz v P} : dc = some P → Access (.cls d dc sz v) ⟨false, false⟩ P
  | ilist {E e} : Access (.ilist E) e ⟨E, true⟩
  | array {E} {const : Bool} : Access (.array E) ⟨const, true⟩ E
  | arrayTemporary {E} {const : Bool} : Access (.array E) ⟨const, false⟩ ⟨E.base, true⟩
  | ref {E e} : Access (.self E) e E

/-- a pointer to the former can be used as a pointer to the latter: of the same class or a base, `const` may be added -/
def Points (L : Lang τ) (P T : CT τ) : Prop := L.derived P.base T.base = true ∧ (P.const = true → T.const = true)

/-- `size()` returns an unsigned type -/
def HasSize : Shape τ → Prop
  | .cls _ _ sz _ => sz = some .unsigned
  | _ => True

/-- `data()` of a non-const object gives no less than that of a const object -/
def Regular : Shape τ → Prop
  | .cls d dc _ _ => ∀ Q, dc = some Q → ∃ P, d = some P ∧ P.base = Q.base ∧ (P.const = true → Q.const = true)
  | _ => True

/-- an rvalue of a type `E[n]` where `E` is not const -/
def ArrayTemporary (s : Shape τ) (e : Kind) : Prop := ∃ E : CT τ, s = .array E ∧ E.const = false ∧ e.lvalue = false

theorem stdData_iff (s : Shape τ) (e : Kind) (P : CT τ) : stdData s e = some P ↔ Access s e P ∧ ¬ ArrayTemporary s e := by
  constructor
  · intro h
    obtain ⟨c, l⟩ := e
    cases s with
    | cls d dc sz v =>
      refine ⟨?_, by rintro ⟨_, h, _⟩; cases h⟩
      cases c <;> cases l <;> simp only [stdData, Bool.or_self, Bool.or_true, Bool.not_true, Bool.not_false, Bool.or_false,
        if_true, Bool.false_eq_true, if_false] at h
      · exact .temporary h
      · exact .object h
      · exact .constObject h
      · exact .constObject h
    | ilist E => cases h; exact ⟨.ilist, by rintro ⟨_, h, _⟩; cases h⟩
    | self E => cases h; exact ⟨.ref, by rintro ⟨_, h, _⟩; cases h⟩
    | array E =>
      cases l with
      | true => cases h; exact ⟨.array, by rintro ⟨_, _, _, h⟩; cases h⟩
      | false =>
        obtain ⟨b, k⟩ := E
        cases k with
        | true => cases h; exact ⟨.arrayTemporary, by rintro ⟨_, h, h', _⟩; cases h; cases h'⟩
        | false => cases h
  · rintro ⟨h, ht⟩
    cases h with
    | object h => exact h
    | constObject h => exact h
    | temporary h => exact h
    | ilist => rfl
    | array => simp [stdData]
    | ref => rfl
    | @arrayTemporary E c =>
      obtain ⟨b, k⟩ := E
      cases k with
      | true => rfl
      | false => exact absurd ⟨_, rfl, rfl, rfl⟩ ht

theorem size_iff (s : Shape τ) : stdSize s = some .unsigned ↔ HasSize s := by
  cases s <;> simp [stdSize, HasSize]

theorem ptr_iff (L : Lang τ) (P Q : CT τ) : L.ptr P Q = true ↔ Points L P Q := by
  unfold Points
  obtain ⟨b, c⟩ := P; obtain ⟨b', c'⟩ := Q
  cases c <;> cases c' <;> simp [Lang.ptr]

/-- what the constraint accepts, the body of the constructor can point to, as far as `data()` is concerned -/
theorem body_data {L : Lang τ} {T P : CT τ} {s : Shape τ} {e : Kind} (hr : Regular s) (h : stdData s e = some P) (hp : L.ptr P T = true) :
    ∃ Q, stdData s ⟨e.const, true⟩ = some Q ∧ L.ptr Q T = true := by
  obtain ⟨c, l⟩ := e
  cases s with
  | cls d dc sz v =>
    cases c <;> cases l
    · obtain ⟨Q, hq, hb, hc⟩ := hr P h
      rw [ptr_iff] at hp
      exact ⟨Q, hq, (ptr_iff ..).2 ⟨hb ▸ hp.1, fun h => hp.2 (hc h)⟩⟩
    · exact ⟨P, h, hp⟩
    · exact ⟨P, h, hp⟩
    · exact ⟨P, h, hp⟩
  | ilist E => exact ⟨P, h, hp⟩
  | self E => exact ⟨P, h, hp⟩
  | array E =>
    refine ⟨P, ?_, hp⟩
    have h' : (if (l || E.const) = true then some E else none) = some P := h
    split at h'
    · exact h'
    · cases h'

theorem body_ptr {L : Lang τ} {T : CT τ} {s : Shape τ} {e : Kind} (h : bodyCompiles L T s e = true) :
    ∃ Q, stdData s ⟨e.const, true⟩ = some Q ∧ L.ptr Q T = true := by
  unfold bodyCompiles at h
  split at h
  · next P h1 _ => exact ⟨P, h1, h⟩
  · cases h

theorem arrayRef_ok {L : Lang τ} {T U : CT τ} {s : Shape τ} {e : Kind} (hr : Regular s) :
    arrayRef L T s e = .ok U ↔ U = T ∧ (∃ P, stdData s e = some P ∧ L.ptr P T = true) ∧ stdSize s = some .unsigned := by
  unfold arrayRef compatible bodyCompiles
  cases hd : stdData s e with
  | none => simp
  | some P =>
    cases hp : L.ptr P T with
    | false => simp [hp]
    | true =>
      obtain ⟨Q, hq, hqp⟩ := body_data hr hd hp
      rw [hq]
      cases hs : stdSize s with
      | none => simp [hp]
      | some z =>
        cases z
        · simp only [hp, hqp, if_true, Result.ok.injEq, and_true, Option.some.injEq, exists_eq_left']
          exact eq_comm
        · simp [hp]

/-- **C96** for `array_ref`: an `array_ref<T>` can be constructed from an expression exactly if the expression gives access to
elements of type `T`, apart from `const` (or, see C73, of a derived class).  Missing: ranges whose `size()` does not return an
unsigned type, and temporary arrays, see `C96_array_exact`. -/
theorem C96_array_partial (L : Lang τ) (T : CT τ) {s : Shape τ} {e : Kind} (hr : Regular s) (hs : HasSize s)
    (ha : ¬ ArrayTemporary s e) : arrayRef L T s e = .ok T ↔ ∃ P, Access s e P ∧ Points L P T := by
  rw [arrayRef_ok hr, size_iff]
  simp only [stdData_iff, ptr_iff, hs, ha, not_false_iff, and_true, true_and]

/-- **C96** for `array_ref`, exactly -/
theorem C96_array_exact (L : Lang τ) (T : CT τ) {s : Shape τ} {e : Kind} (hr : Regular s) :
    arrayRef L T s e = .ok T ↔ (∃ P, Access s e P ∧ Points L P T) ∧ HasSize s ∧ ¬ ArrayTemporary s e := by
  rw [arrayRef_ok hr, size_iff]
  simp only [stdData_iff, ptr_iff, true_and]
  constructor
  · rintro ⟨⟨P, ⟨h1, h2⟩, h3⟩, h4⟩; exact ⟨⟨P, h1, h3⟩, h4, h2⟩
  · rintro ⟨⟨P, h1, h3⟩, h4, h2⟩; exact ⟨⟨P, ⟨h1, h2⟩, h3⟩, h4⟩

/-- **C96** is false for ranges whose `size()` returns a signed type, as in Qt, or that have none: the constructor claims to accept
them, and then does not compile -/
theorem C96_size_refuted (L : Lang τ) (T : CT τ) {s : Shape τ} {e : Kind} {P : CT τ} (ha : Access s e P) (hn : ¬ ArrayTemporary s e)
    (hp : Points L P T) (hs : ¬ HasSize s) : arrayRef L T s e = .error := by
  have hd := (stdData_iff s e P).2 ⟨ha, hn⟩
  unfold arrayRef compatible bodyCompiles
  rw [hd]
  simp only [(ptr_iff ..).2 hp, if_true]
  split
  · next h1 h2 => exact absurd ((size_iff _).1 h2) hs
  · rfl

/-- **C96** for `array_ref`: access to const elements does not become access to non-const elements, whatever `data` does -/
theorem C96_array_const (L : Lang τ) {T U : CT τ} {s : Shape τ} {e : Kind} (h : arrayRef L T s e = .ok U) (hU : U.const = false) :
    (∃ P, Access s e P ∧ P.const = false) ∧ ∃ P, Access s ⟨e.const, true⟩ P ∧ P.const = false := by
  unfold arrayRef compatible at h
  cases hd : stdData s e with
  | none => rw [hd] at h; simp at h
  | some P =>
    rw [hd] at h
    change (if L.ptr P T = true then (if bodyCompiles L T s e = true then Result.ok T else .error) else .rejected) = .ok U at h
    split at h
    · next hp =>
      split at h
      · next hb =>
        obtain ⟨Q, hq, hqp⟩ := body_ptr hb
        obtain rfl : T = U := by injection h
        refine ⟨⟨P, ((stdData_iff ..).1 hd).1, ?_⟩, Q, ((stdData_iff ..).1 hq).1, ?_⟩
        · cases hc : P.const with
          | false => rfl
          | true => have := ((ptr_iff ..).1 hp).2 hc; rw [hU] at this; cases this
        · cases hc : Q.const with
          | false => rfl
          | true => have := ((ptr_iff ..).1 hqp).2 hc; rw [hU] at this; cases this
      · cases h
    · cases h

/-- **C96** for a pointer and the number of elements: this works for all numbers.  Missing: the literal 0, and signed variables in
braces, see `C96_count_refuted`. -/
theorem C96_count_partial (braces : Bool) : pairRef braces .pointer = .ok .twoPointers ∧ pairRef braces .count = .ok .pointerSize ∧
    pairRef false .signed = .ok .pointerSize := ⟨rfl, rfl, rfl⟩

/-- **C96** is false for the number 0, which might as well be a pointer -/
theorem C96_count_refuted (braces : Bool) : pairRef braces .zero = .rejected ∧ pairRef true .signed = .error := ⟨rfl, rfl⟩

/-! ## C96: optional_ref -/

/-- the object is a `T` (or derived), and may be accessed as one -/
def IsObject (L : Lang τ) (T : CT τ) (c : Src τ) (e : Kind) : Prop :=
  L.derived c.name T.base = true ∧ (e.const = true → T.const = true) ∧ (e.lvalue = true ∨ T.const = true)

/-- what `*x` gives, for a const object or not -/
def Src.star (c : Src τ) : Bool → Option (Deref τ)
  | false => c.deref
  | true => c.derefConst

theorem derefOn_eq (c : Src τ) (const : Bool) : c.derefOn const = c.star const := by
  cases const <;> rfl

/-- What an `optional_ref<T>` made from the expression should refer to: the object, if it is a `T`, otherwise the `T` that `*x` gives,
where `x` can also be tested for having a value.  A temporary gives const access, as for `array_ref`. -/
inductive Wanted (L : Lang τ) (T : CT τ) (c : Src τ) (e : Kind) : Bound → Prop
  | object : IsObject L T c e → Wanted L T c e .object
  | value {P : CT τ} : ¬ IsObject L T c e → c.star (e.const || !e.lvalue) = some (.lvalue P) → c.test = true → Points L P T →
      Wanted L T c e .value

/-- if it is an `optional_ref<E>`: its members (optional_ref.hpp:87-93) -/
def Src.Wf (L : Lang τ) (c : Src τ) : Prop :=
  ∀ E, c.self = some E → L.derived c.name E.base = false ∧ c.test = true ∧ c.deref = some (.lvalue E) ∧ c.derefConst = some (.lvalue E) ∧
    c.derefRvalue = some (.lvalue E)

/-- `*x` gives a `T` -/
def Leads (L : Lang τ) (T : CT τ) (c : Src τ) (const : Bool) : Prop := ∃ P, c.star const = some (.lvalue P) ∧ c.test = true ∧ Points L P T

/-- the cases in which the wrong thing happens -/
inductive Trap (L : Lang τ) (T : CT τ) (c : Src τ) (e : Kind) : Prop
  /-- `*x` does not give an lvalue, though `x` is a `T`, say -/
  | byValue {P : CT τ} {b : Bound} : c.star e.const = some (.other P) → Wanted L T c e b → Trap L T c e
  /-- a temporary `x`, `*x` gives a `T` -/
  | temporary : e = ⟨false, false⟩ → c.self ≠ some T → Wanted L T c e .value → Trap L T c e
  /-- `x` is a `T` (apart from `const` and derivation), and so is `*x` -/
  | both : e ≠ ⟨false, false⟩ → T ≠ ⟨c.name, e.const⟩ → Leads L T c e.const → Wanted L T c e .object → Trap L T c e
  /-- `x` is no `T` and does not lead to one, but converts to a `const T` -/
  | converts : T.const = true → L.derived c.name T.base = false → L.converts c.name T.base = true →
      (∀ b, ¬ Wanted L T c e b) → (∀ P, c.star e.const ≠ some (.other P)) → Trap L T c e

section
variable (L : Lang τ) (T : CT τ) (c : Src τ) (e : Kind)

theorem compatible_none : compatibleOptional L T c e.const = none ↔ ∃ P, c.star e.const = some (.other P) := by
  unfold compatibleOptional
  rw [derefOn_eq]
  split <;> simp_all

theorem compatible_true : compatibleOptional L T c e.const = some true ↔ Leads L T c e.const := by
  unfold compatibleOptional Leads
  rw [derefOn_eq]
  split <;> simp_all [ptr_iff]

theorem viaObject_object : viaObject L T c e = some .object ↔ IsObject L T c e := by
  unfold viaObject IsObject
  cases L.derived c.name T.base
  · simp
  · obtain ⟨ec, el⟩ := e; obtain ⟨b, k⟩ := T
    cases ec <;> cases el <;> cases k <;> simp

theorem viaObject_temporary :
    viaObject L T c e = some .temporary ↔ L.derived c.name T.base = false ∧ T.const = true ∧ L.converts c.name T.base = true := by
  unfold viaObject
  cases L.derived c.name T.base
  · simp
  · simp only [if_true]
    split <;> simp

theorem viaObject_value : viaObject L T c e ≠ some .value := by
  unfold viaObject
  split
  · split <;> simp
  · split <;> simp

/-- object and value are not wanted at the same time -/
theorem wanted_unique {b b' : Bound} (h : Wanted L T c e b) (h' : Wanted L T c e b') : b = b' := by
  cases h <;> cases h' <;> first | rfl | contradiction

theorem wanted_temporary : ¬ Wanted L T c e .temporary := by
  intro h; cases h

theorem bindable_iff : e.bindable = true ↔ e ≠ ⟨false, false⟩ := by
  obtain ⟨ec, el⟩ := e
  cases ec <;> cases el <;> simp [Kind.bindable]

theorem wanted_value (hb : e.bindable = true) : Wanted L T c e .value ↔ ¬ IsObject L T c e ∧ Leads L T c e.const := by
  have he : (e.const || !e.lvalue) = e.const := by
    obtain ⟨ec, el⟩ := e
    cases ec <;> cases el <;> first | rfl | cases hb
  constructor
  · intro h
    cases h with
    | value h1 h2 h3 h4 => rw [he] at h2; exact ⟨h1, _, h2, h3, h4⟩
  · rintro ⟨h1, P, h2, h3, h4⟩
    rw [← he] at h2
    exact .value h1 h2 h3 h4

end

section
variable [DecidableEq τ] {L : Lang τ} {T : CT τ} {c : Src τ} {e : Kind}

theorem bindable_false (h : e.bindable = false) : e = ⟨false, false⟩ := by
  obtain ⟨ec, el⟩ := e
  cases ec <;> cases el <;> first | rfl | cases h

/-- **C96** for `optional_ref`, exactly: an `optional_ref<T>` can be constructed from an expression when, and refers to what, it should,
except in these cases -/
theorem C96_optional_exact (hw : c.Wf L) : (∀ b, optionalRef L T c e = .ok b ↔ Wanted L T c e b) ↔ ¬ Trap L T c e := by
  by_cases h1 : compatibleOptional L T c e.const = none
  · have ho : optionalRef L T c e = .error := by simp [optionalRef, h1]
    obtain ⟨P, hP⟩ := (compatible_none ..).1 h1
    rw [ho]
    constructor
    · intro h ht
      have hn : ∀ b, ¬ Wanted L T c e b := fun b hb => nomatch (h b).2 hb
      cases ht with
      | byValue _ h => exact hn _ h
      | temporary _ _ h => exact hn _ h
      | both _ _ _ h => exact hn _ h
      | converts _ _ _ _ h => exact h _ hP
    · intro ht b
      exact ⟨fun h => (nomatch h), fun h => absurd (.byValue hP h) ht⟩
  · have hno : ∀ P, c.star e.const ≠ some (.other P) := fun P h => h1 ((compatible_none ..).2 ⟨P, h⟩)
    by_cases h2 : c.self = some T
    · have ho : optionalRef L T c e = .ok .value := by simp [optionalRef, h1, h2]
      obtain ⟨w1, w2, w3, w4, w5⟩ := hw T h2
      have hv : Wanted L T c e .value := by
        refine .value (P := T) (fun h => by rw [h.1] at w1; cases w1) ?_ w2 ⟨L.refl _, id⟩
        unfold Src.star
        split <;> assumption
      rw [ho]
      constructor
      · intro _ ht
        cases ht with
        | byValue h _ => exact hno _ h
        | temporary _ h _ => exact h h2
        | both _ _ _ h => exact nomatch wanted_unique _ _ _ _ h hv
        | converts _ _ _ h => exact h _ hv
      · intro _ b
        constructor
        · intro h; injection h with h; exact h ▸ hv
        · intro h; rw [wanted_unique _ _ _ _ h hv]
    · by_cases h3 : e.bindable = true ∧ Leads L T c e.const
      · have h3' := (compatible_true ..).2 h3.2
        by_cases h4 : IsObject L T c e
        · have h4' := (viaObject_object ..).2 h4
          have hv : Wanted L T c e .object := .object h4
          by_cases h5 : T = ⟨c.name, e.const⟩
          · have ho : optionalRef L T c e = .ok .object := by
              unfold optionalRef
              rw [h3', h4', h3.1]
              simp [h2, ← h5]
            rw [ho]
            constructor
            · intro _ ht
              cases ht with
              | byValue h _ => exact hno _ h
              | temporary _ _ h => exact nomatch wanted_unique _ _ _ _ h hv
              | both _ h _ _ => exact h h5
              | converts _ _ _ h => exact h _ hv
            · intro _ b
              constructor
              · intro h; injection h with h; exact h ▸ hv
              · intro h; rw [wanted_unique _ _ _ _ h hv]
          · have ho : optionalRef L T c e = .ok .value := by
              unfold optionalRef
              rw [h3', h4', h3.1]
              simp [h2, h5]
            rw [ho]
            constructor
            · intro h
              exact nomatch wanted_unique _ _ _ _ ((h _).1 rfl) hv
            · intro ht
              exact absurd (.both ((bindable_iff _).1 h3.1) h5 h3.2 hv) ht
        · have hv : Wanted L T c e .value := (wanted_value _ _ _ _ h3.1).2 ⟨h4, h3.2⟩
          have h4' : ¬ viaObject L T c e = some .object := fun h => h4 ((viaObject_object ..).1 h)
          have ho : optionalRef L T c e = .ok .value := by
            unfold optionalRef
            rw [h3', h3.1]
            simp [h2, h4']
          rw [ho]
          constructor
          · intro _ ht
            cases ht with
            | byValue h _ => exact hno _ h
            | temporary h _ _ => rw [h] at h3; exact nomatch h3.1
            | both _ _ _ h => exact nomatch wanted_unique _ _ _ _ h hv
            | converts _ _ _ h => exact h _ hv
          · intro _ b
            constructor
            · intro h; injection h with h; exact h ▸ hv
            · intro h; rw [wanted_unique _ _ _ _ h hv]
      · have h3' : ¬ (e.bindable = true ∧ compatibleOptional L T c e.const = some true) :=
          fun h => h3 ⟨h.1, (compatible_true ..).1 h.2⟩
        have ho : optionalRef L T c e = match viaObject L T c e with | some b => .ok b | none => .rejected := by
          unfold optionalRef
          simp only [beq_iff_eq, h1, if_false, h2, Bool.and_eq_true, h3']
          cases viaObject L T c e <;> rfl
        have htemp : Wanted L T c e .value → Trap L T c e := by
          intro hv
          refine .temporary ?_ h2 hv
          cases hb : e.bindable with
          | false => exact bindable_false hb
          | true => exact absurd ⟨hb, ((wanted_value _ _ _ _ hb).1 hv).2⟩ h3
        cases hvo : viaObject L T c e with
        | none =>
          rw [hvo] at ho
          have hno' : ¬ IsObject L T c e := fun h => by rw [(viaObject_object ..).2 h] at hvo; cases hvo
          constructor
          · intro h ht
            have hn : ∀ b, ¬ Wanted L T c e b := fun b hb => by have := (h b).2 hb; rw [ho] at this; cases this
            cases ht with
            | byValue _ h => exact hn _ h
            | temporary _ _ h => exact hn _ h
            | both _ _ _ h => exact hn _ h
            | converts g1 g2 g3 _ _ => rw [(viaObject_temporary ..).2 ⟨g2, g1, g3⟩] at hvo; cases hvo
          · intro ht b
            rw [ho]
            refine ⟨fun h => (nomatch h), fun h => ?_⟩
            cases h with
            | object h => exact absurd h hno'
            | value g1 g2 g3 g4 => exact absurd (htemp (.value g1 g2 g3 g4)) ht
        | some b =>
          rw [hvo] at ho
          cases b with
          | value => exact absurd hvo (viaObject_value _ _ _ _)
          | object =>
            have hv : Wanted L T c e .object := .object ((viaObject_object ..).1 hvo)
            rw [ho]
            constructor
            · intro _ ht
              cases ht with
              | byValue h _ => exact hno _ h
              | temporary _ _ h => exact nomatch wanted_unique _ _ _ _ h hv
              | both g1 _ g2 _ => exact h3 ⟨(bindable_iff _).2 g1, g2⟩
              | converts _ _ _ h => exact h _ hv
            · intro _ b
              constructor
              · intro h; injection h with h; exact h ▸ hv
              · intro h; rw [wanted_unique _ _ _ _ h hv]
          | temporary =>
            obtain ⟨g1, g2, g3⟩ := (viaObject_temporary ..).1 hvo
            rw [ho]
            constructor
            · intro h
              exact absurd ((h _).1 rfl) (wanted_temporary _ _ _ _)
            · intro ht
              refine absurd ?_ ht
              by_cases hv : Wanted L T c e .value
              · exact htemp hv
              · refine .converts g2 g1 g3 (fun b hb => ?_) hno
                cases hb with
                | object h => have := h.1; rw [g1] at this; cases this
                | value a1 a2 a3 a4 => exact hv (.value a1 a2 a3 a4)

/-- **C96** for `optional_ref`: from an lvalue, an `optional_ref<T>` can be constructed when, and refers to what, it should.  Missing:
classes with `operator*` that are (derived from) `T` or where it gives no lvalue, temporaries and conversions, see
`C96_optional_exact`. -/
theorem C96_optional_partial (hw : c.Wf L) (hl : e.lvalue = true) (hd : ∀ P, c.star e.const ≠ some (.other P))
    (hb : Leads L T c e.const → L.derived c.name T.base = false)
    (hc : L.derived c.name T.base = false → L.converts c.name T.base = false) (b : Bound) :
    optionalRef L T c e = .ok b ↔ Wanted L T c e b := by
  refine (C96_optional_exact hw).2 ?_ b
  intro ht
  cases ht with
  | byValue h _ => exact hd _ h
  | temporary h _ _ => rw [h] at hl; cases hl
  | both _ _ h g =>
    cases g with
    | object g => have := g.1; rw [hb h] at this; cases this
  | converts _ h g _ _ => rw [hc h] at g; cases g

/-- **C96** for `optional_ref`: access to const objects does not become access to non-const objects -/
theorem C96_optional_const (hw : c.Wf L) {b : Bound} (h : optionalRef L T c e = .ok b) (hT : T.const = false) :
    (b = .object ∧ e = ⟨false, true⟩) ∨ (b = .value ∧ ∃ P, c.star e.const = some (.lvalue P) ∧ P.const = false) := by
  have hptr : ∀ P, Points L P T → P.const = false := by
    intro P hp
    cases hc : P.const with
    | false => rfl
    | true => have := hp.2 hc; rw [hT] at this; cases this
  have hobj : IsObject L T c e → e = ⟨false, true⟩ := by
    rintro ⟨_, g2, g3⟩
    obtain ⟨ec, el⟩ := e
    simp only [hT] at g2 g3
    cases ec <;> cases el <;> simp_all
  unfold optionalRef at h
  split at h
  · cases h
  · split at h
    · next h2 =>
      have h2 : c.self = some T := by simpa using h2
      obtain ⟨w1, w2, w3, w4, w5⟩ := hw T h2
      injection h with h
      refine .inr ⟨h.symm, T, ?_, hT⟩
      unfold Src.star
      split <;> assumption
    · split at h
      · next h3 =>
        simp only [Bool.and_eq_true, beq_iff_eq] at h3
        obtain ⟨P, g1, _, g3⟩ := (compatible_true ..).1 h3.2
        split at h
        · next h4 =>
          simp only [Bool.and_eq_true, beq_iff_eq] at h4
          injection h with h
          exact .inl ⟨h.symm, hobj ((viaObject_object ..).1 h4.1)⟩
        · injection h with h
          exact .inr ⟨h.symm, P, g1, hptr P g3⟩
      · cases hvo : viaObject L T c e with
        | none => rw [hvo] at h; cases h
        | some b' =>
          rw [hvo] at h
          injection h with h
          subst h
          cases b' with
          | object => exact .inl ⟨rfl, hobj ((viaObject_object ..).1 hvo)⟩
          | value => exact absurd hvo (viaObject_value _ _ _ _)
          | temporary => have := ((viaObject_temporary ..).1 hvo).2.1; rw [hT] at this; cases this

/-- **C96** is false for temporaries: none of an optional, a pointer or an `optional_ref<U>` converts to an `optional_ref<T>`, except an
`optional_ref<T>`; so the result of a function returning `optional_ref<T>` is no argument for a function taking
`optional_ref<const T>` -/
theorem C96_temporary_refuted (hs : c.self ≠ some T) (h : L.derived c.name T.base = false) (hc : L.converts c.name T.base = false) (b : Bound) :
    optionalRef L T c ⟨false, false⟩ ≠ .ok b := by
  unfold optionalRef viaObject
  simp only [h, hc, beq_iff_eq, hs, if_false, Bool.and_false, Bool.false_eq_true]
  split
  · exact fun h => (nomatch h)
  · rw [if_neg (by simp [Kind.bindable])]
    exact fun h => (nomatch h)

/-- **C96** is false for a class derived from `T`, or for `T` itself if `const` is added, that has a `T` as value: `optional_ref` refers to
that -/
theorem C96_both_refuted (hs : c.self ≠ some T) (hb : e ≠ ⟨false, false⟩) (hT : T ≠ ⟨c.name, e.const⟩) (hl : Leads L T c e.const) :
    optionalRef L T c e = .ok .value := by
  unfold optionalRef
  rw [(compatible_true ..).2 hl, (bindable_iff e).2 hb]
  simp [hs, hT]

/-- **C96** is false for a type that converts to `const T`: the `optional_ref` refers to a temporary object -/
theorem C96_converts_refuted (hs : c.self ≠ some T) (hd : c.star e.const = none) (hT : T.const = true)
    (h : L.derived c.name T.base = false) (hc : L.converts c.name T.base = true) : optionalRef L T c e = .ok .temporary := by
  have h1 : compatibleOptional L T c e.const = some false := by unfold compatibleOptional; rw [derefOn_eq, hd]
  unfold optionalRef
  rw [h1, (viaObject_temporary ..).2 ⟨h, hT, hc⟩]
  simp [hs]

/-- **C96** is false for a `T` with an `operator*` returning a value: there is no way to make an `optional_ref` to it -/
theorem C96_by_value_refuted {P : CT τ} (hd : c.star e.const = some (.other P)) : optionalRef L T c e = .error := by
  unfold optionalRef
  rw [(compatible_none ..).2 ⟨P, hd⟩]
  simp

end

/-! ## C97: deduced types -/

/-- **C97** for containers that own their elements: the deduced `array_ref` can be constructed and gives the access the argument gives.
Missing: other ranges, see `C97_array_exact`. -/
theorem C97_array_partial (L : Lang τ) {E : τ} {k : Bool} {e : Kind} {P : CT τ}
    (ha : Access (.cls (some ⟨E, k⟩) (some ⟨E, true⟩) (some .unsigned) (some ⟨E, k⟩)) e P) :
    deducedArrayRef L (.cls (some ⟨E, k⟩) (some ⟨E, true⟩) (some .unsigned) (some ⟨E, k⟩)) e = .ok P := by
  have hr := L.refl E
  cases ha with
  | object h => cases h; cases k <;> simp [deducedArrayRef, deduceArrayRef, arrayRef, compatible, bodyCompiles, stdData, stdSize, Lang.ptr, hr]
  | @constObject _ _ _ _ _ l h => cases h; cases k <;> cases l <;> simp [deducedArrayRef, deduceArrayRef, arrayRef, compatible, bodyCompiles, stdData, stdSize, Lang.ptr, hr]
  | temporary h => cases h; cases k <;> simp [deducedArrayRef, deduceArrayRef, arrayRef, compatible, bodyCompiles, stdData, stdSize, Lang.ptr, hr]

/-- **C97** for arrays and for `array_ref` -/
theorem C97_array_ref (L : Lang τ) (E : CT τ) (e : Kind) :
    deducedArrayRef L (.self E) e = .ok E ∧ (e.lvalue = true → deducedArrayRef L (.array E) e = .ok E) := by
  have hr := L.refl E.base
  have hp : L.ptr E E = true := (ptr_iff ..).2 ⟨hr, id⟩
  refine ⟨?_, fun h => ?_⟩
  · simp [deducedArrayRef, deduceArrayRef, arrayRef, compatible, bodyCompiles, stdData, stdSize, hp]
  · simp [deducedArrayRef, deduceArrayRef, arrayRef, compatible, bodyCompiles, stdData, stdSize, hp, h]

section
variable (L : Lang τ) {d dc : Option (CT τ)} {V P : CT τ} {e : Kind}

theorem deduced_cls (hr : Regular (.cls d dc (some .unsigned) (some V))) (ha : Access (.cls d dc (some .unsigned) (some V)) e P)
    (hb : P.base = V.base) : deducedArrayRef L (.cls d dc (some .unsigned) (some V)) e =
      if e = ⟨false, true⟩ then (if P.const = true ∧ V.const = false then .rejected else .ok V) else .ok ⟨V.base, true⟩ := by
  have hd : stdData (.cls d dc (some .unsigned) (some V)) e = some P :=
    (stdData_iff ..).2 ⟨ha, by rintro ⟨_, h, _⟩; cases h⟩
  have hrf := L.refl V.base
  have key : ∀ T : CT τ, deduceArrayRef (.cls d dc (some .unsigned) (some V)) e = some T → L.ptr P T = true →
      deducedArrayRef L (.cls d dc (some .unsigned) (some V)) e = .ok T := by
    intro T hT hp
    unfold deducedArrayRef
    rw [hT]
    exact (arrayRef_ok hr).2 ⟨rfl, ⟨P, hd, hp⟩, rfl⟩
  split
  · next he =>
    subst he
    have hT : deduceArrayRef (.cls d dc (some .unsigned) (some V)) ⟨false, true⟩ = some V := rfl
    split
    · next h =>
      have hp : L.ptr P V = false := by simp [Lang.ptr, h.1, h.2]
      unfold deducedArrayRef arrayRef compatible
      rw [hT]
      simp [hd, hp]
    · next h =>
      refine key V hT ((ptr_iff ..).2 ⟨hb ▸ hrf, fun h1 => ?_⟩)
      cases h2 : V.const with
      | true => rfl
      | false => exact absurd ⟨h1, h2⟩ h
  · next he =>
    refine key _ ?_ ((ptr_iff ..).2 ⟨hb ▸ hrf, fun _ => rfl⟩)
    obtain ⟨ec, el⟩ := e
    cases ec <;> cases el <;> first | rfl | exact absurd rfl he

/-- **C97** for ranges, exactly: the deduced `array_ref` gives the access the argument gives -/
theorem C97_array_exact (hr : Regular (.cls d dc (some .unsigned) (some V))) (ha : Access (.cls d dc (some .unsigned) (some V)) e P)
    (hb : P.base = V.base) : deducedArrayRef L (.cls d dc (some .unsigned) (some V)) e = .ok P ↔
      (e = ⟨false, true⟩ → V.const = P.const) ∧ (e ≠ ⟨false, true⟩ → P.const = true) := by
  rw [deduced_cls L hr ha hb]
  obtain ⟨b, k⟩ := P; obtain ⟨b', k'⟩ := V
  cases hb
  by_cases he : e = ⟨false, true⟩
  · cases k <;> cases k' <;> simp [he]
  · cases k <;> cases k' <;> simp [he]

/-- **C97** for ranges, exactly: the deduced `array_ref` can be constructed -/
theorem C97_array_compiles (hr : Regular (.cls d dc (some .unsigned) (some V))) (ha : Access (.cls d dc (some .unsigned) (some V)) e P)
    (hb : P.base = V.base) : (∃ T, deducedArrayRef L (.cls d dc (some .unsigned) (some V)) e = .ok T) ↔
      ¬ (e = ⟨false, true⟩ ∧ P.const = true ∧ V.const = false) := by
  rw [deduced_cls L hr ha hb]
  by_cases he : e = ⟨false, true⟩
  · by_cases h : P.const = true ∧ V.const = false
    · simp [he, h]
    · simp only [he, if_true, h, if_false, and_false, not_false_iff, iff_true]; exact ⟨_, rfl⟩
  · simp [he]

end

/-- **C97** is false for variables that are views of const elements, such as `string_ref` and `std::string_view` (whose `value_type` is
not const), and `std::initializer_list`: from them no type can be deduced that can be constructed -/
theorem C97_view_refuted (L : Lang τ) (E : τ) (sz : Option SizeTy) :
    deducedArrayRef L (.cls (some ⟨E, true⟩) (some ⟨E, true⟩) sz (some ⟨E, false⟩)) ⟨false, true⟩ = .rejected ∧
      deducedArrayRef L (.ilist E) ⟨false, true⟩ = .rejected ∧
      arrayRef L ⟨E, true⟩ (.cls (some ⟨E, true⟩) (some ⟨E, true⟩) (some .unsigned) (some ⟨E, false⟩)) ⟨false, true⟩ = .ok ⟨E, true⟩ ∧
      arrayRef L ⟨E, true⟩ (.ilist E) ⟨false, true⟩ = .ok ⟨E, true⟩ := by
  have hr := L.refl E
  simp [deducedArrayRef, deduceArrayRef, arrayRef, compatible, bodyCompiles, stdData, stdSize, Lang.ptr, hr]

/-- **C97** is false for views of non-const elements that are const or temporary: the elements become const -/
theorem C97_mutable_view_refuted (L : Lang τ) (E : τ) {e : Kind} (he : e ≠ ⟨false, true⟩) :
    deducedArrayRef L (.cls (some ⟨E, false⟩) (some ⟨E, false⟩) (some .unsigned) (some ⟨E, false⟩)) e = .ok ⟨E, true⟩ ∧
      arrayRef L ⟨E, false⟩ (.cls (some ⟨E, false⟩) (some ⟨E, false⟩) (some .unsigned) (some ⟨E, false⟩)) e = .ok ⟨E, false⟩ := by
  have hr := L.refl E
  obtain ⟨ec, el⟩ := e
  cases ec <;> cases el <;>
    first
      | exact absurd rfl he
      | simp [deducedArrayRef, deduceArrayRef, arrayRef, compatible, bodyCompiles, stdData, stdSize, Lang.ptr, hr]

section
variable [DecidableEq τ] {L : Lang τ} {c : Src τ} {e : Kind}

/-- **C97** for `optional_ref`, exactly: for classes with `operator*`, where `x` is not (derived from) the type of `*x` -/
theorem C97_optional_exact {P : CT τ} {R : Deref τ} (hs : c.self = none) (hd : c.star e.const = some (.lvalue P))
    (hR : c.derefRvalue = some R) (hb : R.ty.base = P.base) (hn : L.derived c.name P.base = false) (hc : L.converts c.name P.base = false) :
    deducedOptionalRef L c e = .ok (P, .value) ↔
      c.test = true ∧ e ≠ ⟨false, false⟩ ∧ (e = ⟨false, true⟩ → R.ty.const = P.const) ∧ (e ≠ ⟨false, true⟩ → P.const = true) := by
  have hrf := L.refl P.base
  unfold deducedOptionalRef deduceOptionalRef
  rw [hs, hR]
  obtain ⟨b, k⟩ := P
  obtain ⟨ec, el⟩ := e
  obtain ⟨b', k', hty⟩ : ∃ b' k', R.ty = ⟨b', k'⟩ := ⟨_, _, rfl⟩
  rw [hty] at hb ⊢
  cases hb
  simp only at hd hn hc hrf
  cases ec <;> cases el <;> cases k <;> cases k' <;> cases ht : c.test <;>
    simp [optionalRef, compatibleOptional, derefOn_eq, hd, Lang.ptr, hrf, ht, hs, viaObject, hn, hc, Kind.bindable, hty]

/-- **C97** for optionals that are no temporaries, and own their value: the deduced `optional_ref` can be constructed and gives the
access the argument gives.  Missing: other optionals, see `C97_optional_exact`. -/
theorem C97_optional_partial {E : τ} {R : Deref τ} (hs : c.self = none) (hd : c.deref = some (.lvalue ⟨E, false⟩))
    (hdc : c.derefConst = some (.lvalue ⟨E, true⟩)) (hR : c.derefRvalue = some R) (hE : R.ty = ⟨E, false⟩) (ht : c.test = true)
    (hn : L.derived c.name E = false) (hc : L.converts c.name E = false) (hl : e.lvalue = true) :
    deducedOptionalRef L c e = .ok (⟨E, e.const⟩, .value) := by
  obtain ⟨ec, el⟩ := e
  cases hl
  cases ec
  · exact (C97_optional_exact (R := R) (e := ⟨false, true⟩) hs hd hR (by rw [hE]) hn hc).2 ⟨ht, by simp, fun _ => by rw [hE], fun h => absurd rfl h⟩
  · exact (C97_optional_exact (R := R) (e := ⟨true, true⟩) hs hdc hR (by rw [hE]) hn hc).2 ⟨ht, by simp, fun h => (nomatch h), fun _ => rfl⟩

/-- **C97** for an `optional_ref`, and for variables without `operator*` -/
theorem C97_optional_ref (hw : c.Wf L) : (∀ E, c.self = some E → deducedOptionalRef L c e = .ok (E, .value)) ∧
    (c.self = none → c.deref = none → c.derefConst = none → c.derefRvalue = none → e ≠ ⟨false, false⟩ →
      deducedOptionalRef L c e = .ok (⟨c.name, e.const⟩, .object)) := by
  constructor
  · intro E hE
    obtain ⟨w1, w2, w3, w4, w5⟩ := hw E hE
    have h1 : c.star e.const = some (.lvalue E) := by unfold Src.star; split <;> assumption
    unfold deducedOptionalRef deduceOptionalRef optionalRef compatibleOptional
    rw [hE, derefOn_eq, h1]
    simp
  · intro h1 h2 h3 h4 h5
    rw [← bindable_iff] at h5
    have h6 : e.lvalue = true ∨ e.const = true := by
      obtain ⟨ec, el⟩ := e
      cases ec <;> cases el <;> simp_all [Kind.bindable]
    have hd : c.star e.const = none := by unfold Src.star; split <;> assumption
    have hv : viaObject L ⟨c.name, e.const⟩ c e = some .object := (viaObject_object ..).2 ⟨L.refl _, id, h6⟩
    unfold deducedOptionalRef deduceOptionalRef
    rw [h1, h4]
    simp [h5, optionalRef, compatibleOptional, derefOn_eq, hd, h1, hv]

/-- **C97** is false for temporaries of optionals and pointers: the type deduced cannot be constructed -/
theorem C97_temporary_refuted {R : Deref τ} (hs : c.self = none) (hR : c.derefRvalue = some R) (hn : L.derived c.name R.ty.base = false)
    (hc : L.converts c.name R.ty.base = false) :
    deduceOptionalRef c ⟨false, false⟩ = some ⟨R.ty.base, true⟩ ∧ ∀ x, deducedOptionalRef L c ⟨false, false⟩ ≠ .ok x := by
  have h1 : deduceOptionalRef c ⟨false, false⟩ = some ⟨R.ty.base, true⟩ := by unfold deduceOptionalRef; rw [hs, hR]; rfl
  refine ⟨h1, fun x h => ?_⟩
  unfold deducedOptionalRef at h
  rw [h1] at h
  have := C96_temporary_refuted (L := L) (c := c) (T := ⟨R.ty.base, true⟩) (by rw [hs]; simp) hn hc
  simp only at h
  split at h
  · next b hb => exact this b hb
  · cases h
  · cases h

/-- **C97** is false for iterators and other classes with `operator*` that cannot be tested: the type deduced is that of `*x` and cannot be
constructed, though an `optional_ref` to `x` can -/
theorem C97_iterator_refuted {E : τ} {k : Bool} (hs : c.self = none) (hd : c.deref = some (.lvalue ⟨E, k⟩))
    (hR : c.derefRvalue = some (.lvalue ⟨E, k⟩)) (ht : c.test = false) (hn : L.derived c.name E = false) (hc : L.converts c.name E = false) :
    deducedOptionalRef L c ⟨false, true⟩ = .rejected ∧ optionalRef L ⟨c.name, false⟩ c ⟨false, true⟩ = .ok .object := by
  have hr := L.refl c.name
  constructor
  · unfold deducedOptionalRef deduceOptionalRef
    rw [hs, hR]
    simp [optionalRef, compatibleOptional, Src.derefOn, hd, ht, hs, viaObject, hn, hc, Deref.ty]
  · simp [optionalRef, compatibleOptional, Src.derefOn, hd, ht, hs, viaObject, hr]

/-- **C97** is false for const pointers, smart pointers and other things that do not own their value: it becomes const -/
theorem C97_pointer_refuted {E : τ} (hs : c.self = none) (hd : c.derefConst = some (.lvalue ⟨E, false⟩))
    (hR : c.derefRvalue = some (.lvalue ⟨E, false⟩)) (ht : c.test = true) (hn : L.derived c.name E = false) :
    deducedOptionalRef L c ⟨true, true⟩ = .ok (⟨E, true⟩, .value) ∧ optionalRef L ⟨E, false⟩ c ⟨true, true⟩ = .ok .value := by
  have hr := L.refl E
  constructor
  · unfold deducedOptionalRef deduceOptionalRef
    rw [hs, hR]
    simp [optionalRef, compatibleOptional, Src.derefOn, hd, ht, hs, viaObject, hn, Deref.ty, Lang.ptr, hr, Kind.bindable]
  · simp [optionalRef, compatibleOptional, Src.derefOn, hd, ht, hs, viaObject, hn, Lang.ptr, hr, Kind.bindable]

end

/-! ## concrete types -/

namespace Ex

/-- some names of types -/
inductive N where
  | int | double | base | derived | node | optional | iterator | ref | lazy
  deriving DecidableEq, Repr

/-- `derived` is derived from `base`; `int` converts to `double` -/
def L : Lang N where
  derived a b := a == b || (a == .derived && b == .base)
  refl a := by simp
  converts a b := a == .int && b == .double

/-- `std::vector<int>` -/
def vec : Shape N := .cls (some ⟨.int, false⟩) (some ⟨.int, true⟩) (some .unsigned) (some ⟨.int, false⟩)
/-- `QVector<int>` -/
def qvec : Shape N := .cls (some ⟨.int, false⟩) (some ⟨.int, true⟩) (some .signed) (some ⟨.int, false⟩)
/-- `std::optional<int>`: `*std::move(o)` is no lvalue -/
def opt : Src N := ⟨.optional, some (.lvalue ⟨.int, false⟩), some (.lvalue ⟨.int, true⟩), some (.other ⟨.int, false⟩), true, none⟩
/-- `optional_ref<int>` -/
def oref : Src N := ⟨.ref, some (.lvalue ⟨.int, false⟩), some (.lvalue ⟨.int, false⟩), some (.lvalue ⟨.int, false⟩), true, some ⟨.int, false⟩⟩
/-- `int *`, or an iterator, which cannot be tested -/
def it (test : Bool) : Src N := ⟨.iterator, some (.lvalue ⟨.int, false⟩), some (.lvalue ⟨.int, false⟩), some (.lvalue ⟨.int, false⟩), test, none⟩
/-- a node of a list: `*node` is the next one -/
def node : Src N := ⟨.node, some (.lvalue ⟨.node, false⟩), some (.lvalue ⟨.node, true⟩), some (.lvalue ⟨.node, false⟩), true, none⟩
/-- `operator*` computes a value -/
def lazy : Src N := ⟨.lazy, some (.other ⟨.int, false⟩), some (.other ⟨.int, false⟩), some (.other ⟨.int, false⟩), true, none⟩
/-- `int` -/
def int : Src N := ⟨.int, none, none, none, true, none⟩

example : arrayRef L ⟨.int, false⟩ vec ⟨false, true⟩ = .ok ⟨.int, false⟩ := by decide
example : arrayRef L ⟨.int, false⟩ vec ⟨false, false⟩ = .rejected := by decide
example : arrayRef L ⟨.int, true⟩ vec ⟨false, false⟩ = .ok ⟨.int, true⟩ := by decide
example : arrayRef L ⟨.int, true⟩ qvec ⟨false, true⟩ = .error := by decide
example : arrayRef L ⟨.double, true⟩ vec ⟨false, true⟩ = .rejected := by decide
example : arrayRef L ⟨.base, true⟩ (.array ⟨.derived, false⟩) ⟨false, true⟩ = .ok ⟨.base, true⟩ := by decide
example : arrayRef L ⟨.int, true⟩ (.self ⟨.int, false⟩) ⟨false, false⟩ = .ok ⟨.int, true⟩ := by decide
example : deducedArrayRef L vec ⟨true, true⟩ = .ok ⟨.int, true⟩ := by decide
example : optionalRef L ⟨.int, true⟩ opt ⟨false, true⟩ = .ok .value := by decide
example : optionalRef L ⟨.int, true⟩ opt ⟨false, false⟩ = .rejected := by decide
example : optionalRef L ⟨.int, false⟩ opt ⟨true, true⟩ = .rejected := by decide
example : optionalRef L ⟨.int, true⟩ oref ⟨false, true⟩ = .ok .value := by decide
example : optionalRef L ⟨.int, true⟩ oref ⟨false, false⟩ = .rejected := by decide
example : optionalRef L ⟨.int, false⟩ oref ⟨false, false⟩ = .ok .value := by decide
example : optionalRef L ⟨.node, false⟩ node ⟨false, true⟩ = .ok .object := by decide
example : optionalRef L ⟨.node, true⟩ node ⟨false, true⟩ = .ok .value := by decide
example : optionalRef L ⟨.lazy, false⟩ lazy ⟨false, true⟩ = .error := by decide
example : optionalRef L ⟨.double, true⟩ int ⟨false, true⟩ = .ok .temporary := by decide
example : optionalRef L ⟨.double, false⟩ int ⟨false, true⟩ = .rejected := by decide
example : deducedOptionalRef L opt ⟨false, true⟩ = .ok (⟨.int, false⟩, .value) := by decide
example : deducedOptionalRef L opt ⟨false, false⟩ = .rejected := by decide
example : deducedOptionalRef L int ⟨true, true⟩ = .ok (⟨.int, true⟩, .object) := by decide
example : deducedOptionalRef L (it true) ⟨false, true⟩ = .ok (⟨.int, false⟩, .value) := by decide
example : deducedOptionalRef L (it true) ⟨true, true⟩ = .ok (⟨.int, true⟩, .value) := by decide
example : deducedOptionalRef L (it false) ⟨false, true⟩ = .rejected := by decide
example : oref.Wf L := by
  intro E h
  cases h
  decide

end Ex

end Ptl.Refs

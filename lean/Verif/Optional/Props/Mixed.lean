import Verif.Optional.Props.Access

/-!
# C91: comparing an optional with a value of another type

`opt == v` should mean that `opt` holds a value that is `== v`, whatever the type of `v` (as for `std::optional`).  The
operators of `ptl::optional` that accept a value (optional.hpp:275-313) take a `const Type &`: a `v` of another type is
converted to `Type` first, and the converted value is compared.
-/

namespace Ptl.Optional

variable {α β : Type}

/-! ### which operator is called -/

/-- how an operand of some type is converted to the type of a parameter: not at all, by a standard conversion, by a
user-defined conversion (a constructor or a conversion function), or it cannot be -/
inductive Conv where
  | exact
  | std
  | user
  | no
  deriving DecidableEq, Repr

/-- the better conversion has the lower rank -/
def Conv.rank : Conv → Option Nat
  | .exact => some 0
  | .std => some 1
  | .user => some 2
  | .no => none

/-- what matters of the type of the other operand: is it this `optional`, is it `std::nullopt_t`, and how is it converted to
`Type`? -/
structure Operand where
  isOptional : Bool
  isNullopt : Bool
  toType : Conv

/-- the overloads of each of the operators (optional.hpp:191-313): for two optionals, for `nullopt`, for a value -/
inductive Overload where
  | optional
  | nullopt
  | value
  deriving DecidableEq, Repr

/-- conversion of the other operand to the parameter of the overload.  An `optional` can be made from `nullopt` (line 35) and
from a `Type` (lines 42-45); that is a user-defined conversion, and no second one may precede it.  (No operand that has a
conversion function to this `optional` is considered.) -/
def Operand.conv (u : Operand) : Overload → Conv
  | .optional =>
    if u.isOptional then .exact
    else if u.isNullopt then .user
    else match u.toType with
      | .exact | .std => .user
      | .user | .no => .no
  | .nullopt => if u.isNullopt then .exact else .no
  | .value => u.toType

/-- overload resolution: the overload with the best conversion, if there is exactly one -/
def Operand.resolve (u : Operand) : Option Overload :=
  let all := [Overload.optional, .nullopt, .value]
  let better (a b : Overload) : Bool := match (u.conv a).rank, (u.conv b).rank with
    | some x, some y => decide (x < y)
    | some _, none => true
    | none, _ => false
  match all.filter fun a => (u.conv a).rank.isSome && all.all fun b => a == b || better a b with
  | [a] => some a
  | _ => none

/-- C91: a value that is neither an optional nor `nullopt` is compared by the overloads for values – if it can be converted to
`Type`; otherwise the comparison does not compile -/
theorem C91_overload (u : Operand) (h1 : u.isOptional = false) (h2 : u.isNullopt = false) :
    u.resolve = if u.toType = .no then none else some .value := by
  obtain ⟨a, b, c⟩ := u
  simp only at h1 h2
  subst h1 h2
  cases c <;> decide

/-- C91: two optionals are compared as optionals, and an optional with `nullopt` by the overload for that, even if a `Type`
can be made from anything -/
theorem C91_overload_same (u : Operand) (h : u.toType ≠ .exact) :
    (u.isOptional = true → u.isNullopt = false → u.resolve = some .optional) ∧
      (u.isNullopt = true → u.isOptional = false → u.resolve = some .nullopt) := by
  obtain ⟨a, b, c⟩ := u
  simp only at h ⊢
  constructor
  · rintro rfl rfl
    cases c <;> first | exact absurd rfl h | decide
  · rintro rfl rfl
    cases c <;> first | exact absurd rfl h | decide

/-! ### what it does -/

/-- `opt ∘ v` for a `v` of another type (optional.hpp:275-293): `conv` is the conversion to `Type`; it precedes the call -/
def mixedCompare (E : Elem α) (conv : β → α) (c : Cmp) (i : Nat) (v : β) : OM α Bool := compareValue E c i (.ext (conv v))

/-- `v ∘ opt` (optional.hpp:295-313) -/
def compareMixed (E : Elem α) (conv : β → α) (c : Cmp) (v : β) (i : Nat) : OM α Bool := valueCompare E c (.ext (conv v)) i

/-- what `opt ∘ v` should mean: an empty optional is less than every value, a value is compared by the operator for these two
types (`het`) -/
def mixedSpec (het : Cmp → α → β → Bool) (c : Cmp) : Option α → β → Bool
  | none, _ => natCmp c 0 1
  | some x, v => het c x v

/-- what `v ∘ opt` should mean -/
def specMixed (het : Cmp → β → α → Bool) (c : Cmp) : β → Option α → Bool
  | _, none => natCmp c 1 0
  | v, some x => het c v x

variable {E : Elem α} {s s' : St α} {V V' : Vars α} {i : Nat} {o : Option α} {conv : β → α} {c : Cmp} {v : β}

theorem mixedCompare_ok (hE : E.Plain) (h : Reach E s V) (hi : V i = some o) :
    mixedCompare E conv c i v s = .ok (mixedSpec (fun c x v => E.cmp c x (conv v)) c o v) s ∧
      compareMixed E conv c v i s = .ok (specMixed (fun c v x => E.cmp c (conv v) x) c v o) s := by
  obtain ⟨h1, h2⟩ := C49_value hE h hi (src := .ext (conv v)) (v := conv v) rfl c
  refine ⟨h1.trans ?_, h2.trans ?_⟩ <;> cases o <;> rfl

/-- an optional with a given value can be made -/
theorem holding (E : Elem α) (x : α) : ∃ s V, Reach E s V ∧ V 0 = some (some x) := by
  have hs : Spec E (.ctorInPlace 0 (.val x)) (fun _ => none) _ := .ctorInPlace rfl (.val x)
  exact ⟨_, _, Reach.ok (.start fun _ => false) hs rfl, upd_same _ _ _⟩

/-- C91: comparisons (on either side) mean what they should if the conversion does not change the result of comparisons; in
particular if `v` is a `Type` (`conv := id`) or of a type all values of which a `Type` can represent -/
theorem C91_partial {het : Cmp → α → β → Bool} {het' : Cmp → β → α → Bool} (hE : E.Plain) (h : Reach E s V) (hi : V i = some o)
    (h1 : ∀ x, E.cmp c x (conv v) = het c x v) (h2 : ∀ x, E.cmp c (conv v) x = het' c v x) :
    mixedCompare E conv c i v s = .ok (mixedSpec het c o v) s ∧ compareMixed E conv c v i s = .ok (specMixed het' c v o) s := by
  obtain ⟨h3, h4⟩ := mixedCompare_ok (conv := conv) (c := c) (v := v) hE h hi
  refine ⟨h3.trans ?_, h4.trans ?_⟩ <;> cases o <;> simp [mixedSpec, specMixed, h1, h2]

/-- C91: … and only then: if the conversion of `v` changes the result of the comparison with any value, then there is an
optional (one with that value) for which the comparison gives the wrong result -/
theorem C91_exact {het : Cmp → α → β → Bool} (hE : E.Plain) :
    (∀ s V i o, Reach E s V → V i = some o → mixedCompare E conv c i v s = .ok (mixedSpec het c o v) s) ↔
      ∀ x, E.cmp c x (conv v) = het c x v := by
  constructor
  · intro h x
    obtain ⟨s, V, hr, hV⟩ := holding E x
    have h1 := h s V 0 _ hr hV
    rw [(mixedCompare_ok hE hr hV).1] at h1
    injection h1
  · intro h s V i o hr hi
    refine (mixedCompare_ok hE hr hi).1.trans ?_
    cases o <;> simp [mixedSpec, h]

/-- C91: the same for `v` on the left -/
theorem C91_exact_left {het : Cmp → β → α → Bool} (hE : E.Plain) :
    (∀ s V i o, Reach E s V → V i = some o → compareMixed E conv c v i s = .ok (specMixed het c v o) s) ↔
      ∀ x, E.cmp c (conv v) x = het c v x := by
  constructor
  · intro h x
    obtain ⟨s, V, hr, hV⟩ := holding E x
    have h1 := h s V 0 _ hr hV
    rw [(mixedCompare_ok hE hr hV).2] at h1
    injection h1
  · intro h s V i o hr hi
    refine (mixedCompare_ok hE hr hi).2.trans ?_
    cases o <;> simp [specMixed, h]

/-! ### a conversion that does change the result -/

/-- (non-negative) floating-point numbers, as multiples of one half; converted to an integer by dropping the fraction -/
def trunc (h : Nat) : Nat := h / 2

/-- comparison of an integer with such a number: the integer is converted -/
def halfCmp (c : Cmp) (x h : Nat) : Bool := natCmp c (2 * x) h

/-- C91 is refuted: an `optional<int>` that holds 7 is `==` to 7.5 and not `<` 7.5, though 7 is not `==` to 7.5 and is less -/
theorem C91_refuted : ∃ (s : St Nat) (V : Vars Nat), Reach demoE s V ∧ V 0 = some (some 7) ∧
    mixedCompare demoE trunc .eq 0 15 s = .ok true s ∧ mixedSpec halfCmp .eq (some 7) 15 = false ∧
    mixedCompare demoE trunc .lt 0 15 s = .ok false s ∧ mixedSpec halfCmp .lt (some 7) 15 = true ∧
    ¬ (∀ s V i o, Reach demoE s V → V i = some o → mixedCompare demoE trunc .eq i 15 s = .ok (mixedSpec halfCmp .eq o 15) s) := by
  obtain ⟨s, h, -⟩ := demo (fun _ => false) rfl
  refine ⟨s, _, h, rfl, (mixedCompare_ok demoE_plain h (i := 0) (o := some 7) rfl).1, rfl,
    (mixedCompare_ok demoE_plain h (i := 0) (o := some 7) rfl).1, rfl, ?_⟩
  rw [C91_exact demoE_plain]
  intro h'
  exact absurd (h' 7) (by decide)

/-- numbers without a fraction are compared correctly: 7.0 -/
example : ∃ s, Reach demoE s demoV ∧ mixedCompare demoE trunc .eq 0 14 s = .ok true s ∧ mixedCompare demoE trunc .gt 2 14 s = .ok false s ∧
    compareMixed demoE trunc .gt 14 1 s = .ok true s := by
  obtain ⟨s, h, -⟩ := demo (fun _ => false) rfl
  exact ⟨s, h, (mixedCompare_ok demoE_plain h (i := 0) (o := some 7) rfl).1, (mixedCompare_ok demoE_plain h (i := 2) (o := some 5) rfl).1,
    (mixedCompare_ok demoE_plain h (i := 1) (o := none) rfl).2⟩

end Ptl.Optional

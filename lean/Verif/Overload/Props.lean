import Verif.Basic

/-!
# C74, C75: which constructor is chosen

Overload resolution and constraints for the forwarding constructors `tuple(Args &&...)` (inc/ptl/tuple.hpp:89-91) and
`array(Args &&...)` (inc/ptl/array.hpp:177-179).  Every definition cites the lines it models, or is a language rule.
-/

namespace Ptl.Overload

/-! ### language rules -/

/-- value category -/
inductive Cat where
  | lvalue
  | rvalue
  deriving DecidableEq, Repr

/-- a reference to a (const) object, as parameter type or as the kind of an argument expression -/
structure Kind where
  const : Bool
  cat : Cat
  deriving DecidableEq, Repr

/-- does a reference parameter bind to such an argument of the same class?  `X &`: non-const lvalues; `const X &`: everything; `X &&`: non-const
rvalues; `const X &&`: rvalues -/
def binds (param arg : Kind) : Bool :=
  match param.cat, arg.cat with
  | .lvalue, .lvalue => param.const || !arg.const
  | .lvalue, .rvalue => param.const
  | .rvalue, .rvalue => param.const || !arg.const
  | .rvalue, .lvalue => false

/-- is binding to parameter `p` better than binding to `q`?  An rvalue reference beats an lvalue reference for rvalues; otherwise the less
const-qualified of two references of the same kind is better -/
def better (p q arg : Kind) : Bool :=
  if p.cat = q.cat then !p.const && q.const else decide (p.cat = .rvalue ∧ arg.cat = .rvalue)

/-- the constructors for one argument: the implicit copy and move constructors, the forwarding constructor -/
inductive Ctor where
  | copy
  | move
  | forward
  deriving DecidableEq, Repr

/-- parameter of a constructor; `Args &&` is deduced to be the argument's kind -/
def Ctor.param : Ctor → (arg : Kind) → Kind
  | .copy, _ => ⟨true, .lvalue⟩
  | .move, _ => ⟨false, .rvalue⟩
  | .forward, arg => arg

/-- candidate `c` is better than `d`: by the binding, or, if neither binding is better, by not being a template -/
def Ctor.beats (c d : Ctor) (arg : Kind) : Bool :=
  better (c.param arg) (d.param arg) arg ||
    (!better (d.param arg) (c.param arg) arg && decide (c ≠ .forward) && decide (d = .forward))

/-- the candidates: those that bind, the forwarding constructor only if its constraint is met -/
def candidates (accepts : Bool) (arg : Kind) : List Ctor :=
  [Ctor.copy, .move, .forward].filter fun c => binds (c.param arg) arg && (accepts || decide (c ≠ .forward))

/-- the chosen constructor: the candidate better than all others (`none`: ambiguous) -/
def select (accepts : Bool) (arg : Kind) : Option Ctor :=
  (candidates accepts arg).find? fun c => (candidates accepts arg).all fun d => decide (d = c) || c.beats d arg

/-! ### the constraints -/

/-- tuple.hpp:89 `sizeof...(Args) == sizeof...(Types) || sizeof...(Args) == 0` -/
def tupleAccepts (types args : Nat) : Bool := args == types || args == 0

/-- `std::is_convertible_v<From, To>` for types without reference; types are named by numbers -/
structure Conv where
  conv : Nat → Nat → Bool
  refl : ∀ T, conv T T = true

/-- an argument: an expression of type `ty` -/
structure Arg where
  ty : Nat
  kind : Kind
  deriving DecidableEq, Repr

/-- the type `Args` deduced for `Args && args`, as the target of a conversion from a prvalue of type `T`: lvalue reference to non-const,
lvalue reference to const, or no reference.  A prvalue does not convert to an lvalue reference to non-const.  (Simplification: no
conversion functions to references.) -/
def Conv.toDeduced (C : Conv) (T : Nat) (a : Arg) : Bool :=
  match a.kind.cat, a.kind.const with
  | .lvalue, false => false
  | _, _ => C.conv T a.ty

/-- array.hpp:177 `(std::is_convertible_v<Type, Args> &&...)` -/
def arrayAccepts (C : Conv) (T : Nat) (args : List Arg) : Bool := args.all (C.toDeduced T)

/-- how the copy or move constructor is chosen for a 1-argument construction of an array (named `self`) of `T`s from another array of that type.
`T` converts to `self`, through the forwarding constructor itself. -/
def arraySelect (C : Conv) (self T : Nat) (arg : Kind) : Option Ctor := select (arrayAccepts C T [⟨self, arg⟩]) arg

/-- likewise for a tuple with `n` elements -/
def tupleSelect (n : Nat) (arg : Kind) : Option Ctor := select (tupleAccepts n 1) arg

/-! ### what is asked for -/

/-- construction from an object of the same type copies it, or moves from it if it is a non-const rvalue -/
def wanted (arg : Kind) : Ctor := if arg.cat = .rvalue ∧ arg.const = false then .move else .copy

/-- all arguments can be converted to the element type -/
def AllConvert (C : Conv) (T : Nat) (args : List Arg) : Prop := ∀ a ∈ args, C.conv a.ty T = true

/-! ## C74: construction from an object of the same type -/

/-- C74 for tuples that do not have exactly one element.  Missing: one-element tuples, see `C74_tuple_refuted`. -/
theorem C74_tuple_partial (n : Nat) (hn : n ≠ 1) (arg : Kind) : tupleSelect n arg = some (wanted arg) := by
  have : tupleAccepts n 1 = false := by simp [tupleAccepts]; omega
  rw [tupleSelect, this]
  rcases arg with ⟨_ | _, _ | _⟩ <;> decide

/-- C74 for one-element tuples, copied from const lvalues and moved from non-const rvalues -/
theorem C74_tuple_one_partial (arg : Kind) (h : arg = ⟨true, .lvalue⟩ ∨ arg = ⟨false, .rvalue⟩) : tupleSelect 1 arg = some (wanted arg) := by
  rcases h with rfl | rfl <;> decide

/-- C74 fails for one-element tuples: a copy of a non-const tuple is made by the forwarding constructor, which tries to construct the
element from the tuple -/
theorem C74_tuple_refuted : tupleSelect 1 ⟨false, .lvalue⟩ = some .forward := by decide

/-- … and of a const rvalue -/
theorem C74_tuple_const_rvalue_refuted : tupleSelect 1 ⟨true, .rvalue⟩ = some .forward := by decide

/-- C74 for arrays, copied from lvalues and moved from non-const rvalues.  Missing: const rvalues, see `C74_array_refuted`. -/
theorem C74_array_partial (C : Conv) (self T : Nat) (arg : Kind) (h : arg ≠ ⟨true, .rvalue⟩) : arraySelect C self T arg = some (wanted arg) := by
  unfold arraySelect
  rcases arg with ⟨_ | _, _ | _⟩
  · have : arrayAccepts C T [⟨self, ⟨false, .lvalue⟩⟩] = false := rfl
    rw [this]; decide
  · cases arrayAccepts C T [⟨self, ⟨false, .rvalue⟩⟩] <;> decide
  · cases arrayAccepts C T [⟨self, ⟨true, .lvalue⟩⟩] <;> decide
  · exact absurd rfl h

/-- C74 fails for const rvalues (`std::move` of a const array, a function returning `const array`): the forwarding constructor is chosen,
because the element type converts to the array -/
theorem C74_array_refuted (C : Conv) (self T : Nat) (h : C.conv T self = true) : arraySelect C self T ⟨true, .rvalue⟩ = some .forward := by
  have : arrayAccepts C T [⟨self, ⟨true, .rvalue⟩⟩] = true := by simp [arrayAccepts, Conv.toDeduced, h]
  unfold arraySelect
  rw [this]
  decide

/-! ## C75: arrays from values -/

/-- exactly which arguments are accepted -/
theorem C75_exact (C : Conv) (T : Nat) (args : List Arg) : arrayAccepts C T args = true ↔
    ∀ a ∈ args, a.kind ≠ ⟨false, .lvalue⟩ ∧ C.conv T a.ty = true := by
  unfold arrayAccepts
  rw [List.all_eq_true]
  constructor
  · intro h a ha
    have := h a ha
    rcases a with ⟨ty, ⟨_ | _, _ | _⟩⟩ <;> simp_all [Conv.toDeduced]
  · intro h a ha
    have := h a ha
    rcases a with ⟨ty, ⟨_ | _, _ | _⟩⟩ <;> simp_all [Conv.toDeduced]

/-- C75 for rvalues and const lvalues of types that convert to the element type exactly if the element type converts to them (such
as the element type itself, or arithmetic types).  Missing: the others, see `C75_lvalue_refuted` and `C75_conversion_refuted`. -/
theorem C75_partial (C : Conv) (T : Nat) (args : List Arg) (hk : ∀ a ∈ args, a.kind ≠ ⟨false, .lvalue⟩)
    (hc : ∀ a ∈ args, C.conv a.ty T = C.conv T a.ty) : arrayAccepts C T args = true ↔ AllConvert C T args := by
  rw [C75_exact]
  constructor
  · intro h a ha; rw [hc a ha]; exact (h a ha).2
  · intro h a ha; exact ⟨hk a ha, by rw [← hc a ha]; exact h a ha⟩

/-- C75 fails: no array can be constructed from a non-const lvalue, not even one of the element type (`int x; array<int, 1> a{x};`) -/
theorem C75_lvalue_refuted (C : Conv) (T : Nat) (args : List Arg) (h : ⟨T, ⟨false, .lvalue⟩⟩ ∈ args) : arrayAccepts C T args = false := by
  cases h' : arrayAccepts C T args with
  | false => rfl
  | true => exact absurd rfl ((C75_exact C T args).mp h' _ h).1

/-- C75 fails: the constraint asks for the conversion in the wrong direction; arguments that convert to the element type are rejected
(`array<string, 1>{"a"}`), those that do not are accepted (and then do not compile) -/
theorem C75_conversion_refuted (C : Conv) (T U : Nat) (k : Kind) (hk : k ≠ ⟨false, .lvalue⟩) :
    (C.conv U T = true → C.conv T U = false → AllConvert C T [⟨U, k⟩] ∧ arrayAccepts C T [⟨U, k⟩] = false) ∧
    (C.conv U T = false → C.conv T U = true → ¬ AllConvert C T [⟨U, k⟩] ∧ arrayAccepts C T [⟨U, k⟩] = true) := by
  refine ⟨fun h1 h2 => ⟨by simpa [AllConvert] using h1, ?_⟩, fun h1 h2 => ⟨by simp [AllConvert, h1], ?_⟩⟩
  · cases h' : arrayAccepts C T [⟨U, k⟩] with
    | false => rfl
    | true =>
      have := ((C75_exact C T _).mp h' _ List.mem_cons_self).2
      rw [h2] at this; cases this
  · rw [C75_exact]
    intro a ha
    cases ha with
    | head => exact ⟨hk, h2⟩
    | tail _ ha => cases ha

/-! ### concrete cases -/

/-- `const char *` (1) converts to `string` (0), not the other way round -/
def strings : Conv := ⟨fun T U => T == U || (T == 1 && U == 0), fun T => by simp⟩

example : strings.conv 1 0 = true ∧ arrayAccepts strings 0 [⟨1, ⟨false, .rvalue⟩⟩, ⟨1, ⟨false, .rvalue⟩⟩] = false := by decide
example : arrayAccepts strings 0 [⟨0, ⟨false, .rvalue⟩⟩, ⟨0, ⟨true, .lvalue⟩⟩] = true := by decide
example : arrayAccepts strings 0 [⟨0, ⟨false, .lvalue⟩⟩] = false := by decide
example : tupleSelect 2 ⟨false, .lvalue⟩ = some .copy ∧ tupleSelect 1 ⟨true, .lvalue⟩ = some .copy ∧
    tupleSelect 1 ⟨false, .rvalue⟩ = some .move := by decide

end Ptl.Overload

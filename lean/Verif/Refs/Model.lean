import Verif.Basic

/-!
# What `array_ref` and `optional_ref` can be constructed from

Which constructor is selected for an expression, whether it compiles, and which type class template argument deduction finds.
Types are names (`τ`); what the constraints of the constructors look at – the member functions `data` and `size`, `operator*`
and the conversion to `bool` – is given for every class, so that the results hold for all classes.

Simplifications: `volatile` is left out; conversions between pointers are those that add `const` or go from a derived to an
accessible, unambiguous base class; functions `data` found by
argument-dependent lookup (array_ref.hpp:42-44) are left out.
-/

namespace Ptl.Refs

variable {τ : Type}

/-- an object type: the type without `const`, and whether it is `const` -/
structure CT (τ : Type) where
  base : τ
  const : Bool
  deriving DecidableEq, Repr

/-- what the language says about types -/
structure Lang (τ : Type) where
  /-- the same type, or a class derived from it -/
  derived : τ → τ → Bool
  refl : ∀ t, derived t t = true
  /-- objects of the first type convert implicitly to (temporary) objects of the second type, which is not a base class -/
  converts : τ → τ → Bool

/-- [conv.qual], [conv.ptr]: does `P *` convert to `Q *`? -/
def Lang.ptr (L : Lang τ) (P Q : CT τ) : Bool := L.derived P.base Q.base && (!P.const || Q.const)

/-- constness and value category of an expression -/
structure Kind where
  const : Bool
  lvalue : Bool
  deriving DecidableEq, Repr

/-- is it an expression that `T &`, with `T` to be deduced, can be bound to?  (`T` is deduced as `const X` for a const rvalue.) -/
def Kind.bindable (e : Kind) : Bool := e.lvalue || e.const

/-! ## array_ref -/

/-- the type `size()` returns; what matters in array_ref.hpp:192 is whether it can be converted to `std::size_t` within braces -/
inductive SizeTy where
  /-- `std::size_t` or a smaller unsigned type -/
  | unsigned
  /-- a signed type, of which `std::size_t` does not have all values (`int`, `std::ptrdiff_t`) -/
  | signed
  deriving DecidableEq, Repr

/-- the types an `array_ref` may be constructed from -/
inductive Shape (τ : Type) where
  /-- a class: the type that `x.data()` gives a pointer to, for a non-const and a const object `x`, if that compiles; the type of
  `size()`; `value_type` -/
  | cls (data dataConst : Option (CT τ)) (size : Option SizeTy) (value : Option (CT τ))
  /-- `std::initializer_list<E>` -/
  | ilist (elem : τ)
  /-- an array `E[n]`; the array is `const` if its elements are -/
  | array (elem : CT τ)
  /-- `array_ref<E>` itself: `data() const`, `size()`, `value_type` as in array_ref.hpp:157-158, 195-200 -/
  | self (elem : CT τ)
  deriving DecidableEq, Repr

/-- `std::data(e)` ([iterator.container]): the type it gives a pointer to, if it compiles.  The overloads are `data(C &)`,
`data(const C &)`, `data(T (&)[N])` and `data(std::initializer_list<E>)`. A non-const rvalue can be bound to `const C &` only. -/
def stdData : Shape τ → Kind → Option (CT τ)
  | .cls d dc _ _, e => if e.const || !e.lvalue then dc else d
  | .ilist E, _ => some ⟨E, true⟩
  | .array E, e => if e.lvalue || E.const then some E else none
  | .self E, _ => some E

/-- `std::size(x)` for an lvalue -/
def stdSize : Shape τ → Option SizeTy
  | .cls _ _ s _ => s
  | _ => some .unsigned

/-- array_ref.hpp:27-61 `is_compatible_range`: `data(std::declval<ContiguousRange>())` compiles and gives a pointer that converts
to `Type *`. -/
def compatible (L : Lang τ) (T : CT τ) (s : Shape τ) (e : Kind) : Bool :=
  match stdData s e with
  | none => false
  | some P => L.ptr P T

/-- array_ref.hpp:192 `array_ref{std::data(range), std::size(range)}`: `range` is an lvalue; the braces forbid to convert a signed
size to `size_type`.  (For an own rvalue or const lvalue the copy constructor is selected instead, which always compiles.) -/
def bodyCompiles (L : Lang τ) (T : CT τ) (s : Shape τ) (e : Kind) : Bool :=
  match stdData s ⟨e.const, true⟩, stdSize s with
  | some P, some .unsigned => L.ptr P T
  | _, _ => false

/-- result of an attempted construction -/
inductive Result (β : Type) where
  /-- compiles -/
  | ok (b : β)
  /-- there is no constructor; `std::is_constructible_v` is `false` -/
  | rejected
  /-- there is a constructor, but it (or its constraint) does not compile -/
  | error
  deriving DecidableEq, Repr

/-- array_ref.hpp:190-192 `array_ref<T>(e)`; what the pointer given to the elements points to -/
def arrayRef (L : Lang τ) (T : CT τ) (s : Shape τ) (e : Kind) : Result (CT τ) :=
  if compatible L T s e then
    if bodyCompiles L T s e then .ok T else .error
  else .rejected

/-- array_ref.hpp:249-256, the deduction guides; that for arrays; `const ContiguousRange &`; `ContiguousRange &`, which is better for
a non-const lvalue, and cannot be bound to a non-const rvalue; for anything const the former is more specialised.  For an
`array_ref` the copy deduction candidate ([over.match.class.deduct]), taking `array_ref<Type>` by value, is more specialised. -/
def deduceArrayRef : Shape τ → Kind → Option (CT τ)
  | .cls _ _ _ none, _ => none
  | .cls _ _ _ (some V), e => if e.lvalue && !e.const then some V else some ⟨V.base, true⟩
  | .ilist E, e => some ⟨E, !(e.lvalue && !e.const)⟩
  | .array E, e => if e.lvalue || E.const then some E else none
  | .self E, _ => some E

/-- `array_ref r{e};` -/
def deducedArrayRef (L : Lang τ) (s : Shape τ) (e : Kind) : Result (CT τ) :=
  match deduceArrayRef s e with
  | none => .rejected
  | some T => arrayRef L T s e

/-! ### pointer and number -/

/-- the second argument of `array_ref(p, x)` -/
inductive Second where
  | pointer
  /-- an expression of an unsigned type, or a constant of a signed type other than the literal 0 that is not negative -/
  | count
  /-- an expression of a signed type that is not a constant -/
  | signed
  /-- the literal `0`: also a null pointer constant -/
  | zero
  deriving DecidableEq, Repr

/-- which constructor -/
inductive PairFn where
  | twoPointers | pointerSize
  deriving DecidableEq, Repr

/-- array_ref.hpp:177-185: overload resolution between `(pointer, pointer)` and `(pointer, size_type)`.  The literal 0 converts to both,
by conversions of the same rank.  In braces a conversion that narrows is selected, and then does not compile. -/
def pairRef (braces : Bool) : Second → Result PairFn
  | .pointer => .ok .twoPointers
  | .count => .ok .pointerSize
  | .signed => if braces then .error else .ok .pointerSize
  | .zero => .rejected

/-! ## optional_ref -/

/-- what `*x` gives -/
inductive Deref (τ : Type) where
  /-- an lvalue -/
  | lvalue (T : CT τ)
  /-- anything else, for instance a value -/
  | other (T : CT τ)
  deriving DecidableEq, Repr

/-- the type `*x` has, apart from references -/
def Deref.ty : Deref τ → CT τ
  | .lvalue T => T
  | .other T => T

/-- the types an `optional_ref` may be constructed from: the name; what `*x` gives, if it compiles, for non-const lvalues, const
lvalues and non-const rvalues; whether const objects convert (explicitly) to `bool`; whether it is `optional_ref<E>` itself -/
structure Src (τ : Type) where
  name : τ
  deref : Option (Deref τ)
  derefConst : Option (Deref τ)
  derefRvalue : Option (Deref τ)
  test : Bool
  self : Option (CT τ)
  deriving DecidableEq, Repr

/-- `*x` for an lvalue -/
def Src.derefOn (c : Src τ) (const : Bool) : Option (Deref τ) := if const then c.derefConst else c.deref

/-- what an `optional_ref` made from `x` refers to -/
inductive Bound where
  /-- `x` itself -/
  | object
  /-- what `x` refers to or contains -/
  | value
  /-- a temporary object, made from `x` -/
  | temporary
  deriving DecidableEq, Repr

/-- optional_ref.hpp:79 `optional_ref(Type & value)`; `const T &` can be bound to rvalues and, after a conversion, to temporary objects -/
def viaObject (L : Lang τ) (T : CT τ) (c : Src τ) (e : Kind) : Option Bound :=
  if L.derived c.name T.base then
    if (!e.const || T.const) && (e.lvalue || T.const) then some .object else none
  else if T.const && L.converts c.name T.base then some .temporary
  else none

/-- optional_ref.hpp:19-71 `is_compatible_optional<Optional>`, where `Optional` is `const` if the expression is: `none` if the static
assertion in it (line 53) fails -/
def compatibleOptional (L : Lang τ) (T : CT τ) (c : Src τ) (const : Bool) : Option Bool :=
  match c.derefOn const with
  | none => some false
  | some (.other _) => none
  | some (.lvalue P) => some (c.test && L.ptr P T)

/-- optional_ref.hpp:73-83 `optional_ref<T>(e)`: `Optional` can be deduced for all expressions, and then the constraint is looked at;
`optional_ref(Optional & op)` can be called for `bindable` expressions; it is better than
`optional_ref(Type & value)`, unless both parameters have the same type, when the one that is no template is selected.  For an
`optional_ref<T>` there are also the copy and move constructors. -/
def optionalRef [DecidableEq τ] (L : Lang τ) (T : CT τ) (c : Src τ) (e : Kind) : Result Bound :=
  if compatibleOptional L T c e.const == none then .error
  else if c.self == some T then .ok .value
  else if e.bindable && compatibleOptional L T c e.const == some true then
    if viaObject L T c e == some .object && T == ⟨c.name, e.const⟩ then .ok .object else .ok .value
  else match viaObject L T c e with
    | some b => .ok b
    | none => .rejected

/-- optional_ref.hpp:112-116, the deduction guides `const Optional &` and `Optional &` as for `array_ref`; if `*x` does not compile, the
guide implied by the constructor of line 79 remains -/
def deduceOptionalRef (c : Src τ) (e : Kind) : Option (CT τ) :=
  match c.self with
  | some T => some T
  | none => match c.derefRvalue with
    | some P => if e.lvalue && !e.const then some P.ty else some ⟨P.ty.base, true⟩
    | none => if e.bindable then some ⟨c.name, e.const⟩ else none

/-- `optional_ref r{e};` -/
def deducedOptionalRef [DecidableEq τ] (L : Lang τ) (c : Src τ) (e : Kind) : Result (CT τ × Bound) :=
  match deduceOptionalRef c e with
  | none => .rejected
  | some T => match optionalRef L T c e with
    | .ok b => .ok (T, b)
    | .rejected => .rejected
    | .error => .error

end Ptl.Refs

import Verif.Layout.Model

/-!
# The library's classes as element types of each other

What a class template demands of its arguments are static assertions over type traits, and what the traits say of a class follows from
its declaration.  `Class` is such a declaration: base classes, data members, and the special member functions it declares; `Class.traits`
are the rules of the language (C++17 [class.ctor], [class.copy.ctor], [class.copy.assign], [class.dtor], [class]/7, [except.spec]).  The
classes of the library are then written down declaration by declaration, and `Ty` is the language of types that can be made of them.

Simplifications, all noted where they are made:
* a union of pointers counts as one pointer; an anonymous union counts as its members, of which none has to be constructible;
* constraints of constructor templates that never win against the special member functions for the arguments the traits ask about
  (a `const` lvalue or an rvalue of the same class) are left out;
* nothing is said about types that are incomplete while they are used as arguments.
-/

namespace Ptl.Traits

/-- What the type traits say about a type.  `none`: the expression is not valid; `some b`: valid, and `b` tells whether it is `noexcept`. -/
structure Traits where
  /-- `is_standard_layout_v` -/
  std : Bool
  /-- whether it, or a base class of it, has data members (for the rule about standard layout in derived classes) -/
  data : Bool
  /-- `is_default_constructible_v`: `T()` -/
  dflt : Option Bool
  /-- constructing from a `const` lvalue -/
  copyC : Option Bool
  /-- constructing from an rvalue -/
  moveC : Option Bool
  /-- assigning a `const` lvalue -/
  copyA : Option Bool
  /-- assigning an rvalue -/
  moveA : Option Bool
  /-- destroying -/
  dtor : Option Bool
  /-- `swap(a, b)` for two lvalues, with `std::swap` as a candidate -/
  swap : Option Bool
  /-- size and alignment -/
  lay : Layout.Ty
  deriving DecidableEq, Repr

/-! ### the questions the static assertions ask -/

namespace Traits
variable (t : Traits)

/-- `std::is_default_constructible_v` (asks for the destructor as well, as do the following three) -/
def isDefault : Bool := t.dflt.isSome && t.dtor.isSome
/-- `std::is_copy_constructible_v` -/
def isCopy : Bool := t.copyC.isSome && t.dtor.isSome
/-- `std::is_nothrow_move_constructible_v` -/
def isMove : Bool := t.moveC == some true && t.dtor == some true
/-- `std::is_copy_assignable_v` -/
def isCopyAssign : Bool := t.copyA.isSome
/-- `std::is_nothrow_move_assignable_v` -/
def isMoveAssign : Bool := t.moveA == some true
/-- `std::is_nothrow_destructible_v` -/
def isDtor : Bool := t.dtor == some true
/-- `std::is_nothrow_swappable_v` -/
def isSwap : Bool := t.swap == some true

end Traits

/-! ### what the language makes of a declaration -/

/-- access of a data member -/
inductive Acc
  | priv | pub
  deriving DecidableEq, Repr

/-- how a class declares one of its special member functions -/
inductive Decl
  /-- not at all -/
  | no
  /-- with a body of its own, `noexcept` or not -/
  | user (noexc : Bool)
  /-- `noexcept = default` -/
  | dfltd
  deriving DecidableEq, Repr

/-- `declares` -/
def Decl.given : Decl → Bool
  | .no => false
  | _ => true

/-- a class -/
structure Class where
  bases : List Traits := []
  members : List (Acc × Traits) := []
  /-- members of an anonymous union in the class -/
  unions : List (Acc × Traits) := []
  /-- whether it has a constructor besides the special ones (then there is no implicit default constructor) -/
  ctors : Bool := false
  dflt : Decl := .no
  copyC : Decl := .no
  moveC : Decl := .no
  copyA : Decl := .no
  moveA : Decl := .no
  dtor : Decl := .no
  /-- a `friend swap` found by argument-dependent lookup: `noexcept` or not -/
  swap : Option Bool := none
  lay : Layout.Ty

/-- a memberwise operation: valid if it is for all subobjects, `noexcept` if it is for all -/
def memberwise (f : Traits → Option Bool) : List Traits → Option Bool
  | [] => some true
  | t :: ts =>
    match f t, memberwise f ts with
    | some a, some b => some (a && b)
    | _, _ => none

namespace Class
variable (c : Class)

/-- subobjects that memberwise operations touch -/
def subs : List Traits := c.bases ++ c.members.map (·.2)

/-- all data members that are the class's own, with their access -/
def own : List (Acc × Traits) := c.members ++ c.unions

/-- a special member function as declared; `noexcept = default` is memberwise, with the exception specification as written -/
def special (d : Decl) (f : Traits → Option Bool) (implicit : Option Bool) : Option Bool :=
  match d with
  | .user b => some b
  | .dfltd => (memberwise f c.subs).map fun _ => true
  | .no => implicit

/-- [class.ctor]/4: no other constructor may be declared -/
def dfltOf : Option Bool :=
  c.special c.dflt (·.dflt) <|
    if c.ctors || c.copyC.given || c.moveC.given then none else memberwise (·.dflt) c.subs

/-- [class.copy.ctor]/6: deleted when a move operation is declared -/
def copyCOf : Option Bool :=
  c.special c.copyC (·.copyC) <|
    if c.moveC.given || c.moveA.given then none else memberwise (·.copyC) c.subs

/-- [class.copy.ctor]/8: implicit only if no other copy operation, move operation or destructor is declared; else rvalues go to the copy
constructor, as they do when the implicit one would be deleted -/
def moveCOf : Option Bool :=
  c.special c.moveC (·.moveC) <|
    if c.copyC.given || c.copyA.given || c.moveA.given || c.dtor.given then c.copyCOf
    else (memberwise (·.moveC) c.subs).or c.copyCOf

/-- [class.copy.assign]/2 -/
def copyAOf : Option Bool :=
  c.special c.copyA (·.copyA) <|
    if c.moveC.given || c.moveA.given then none else memberwise (·.copyA) c.subs

/-- [class.copy.assign]/4 -/
def moveAOf : Option Bool :=
  c.special c.moveA (·.moveA) <|
    if c.copyC.given || c.copyA.given || c.moveC.given || c.dtor.given then c.copyAOf
    else (memberwise (·.moveA) c.subs).or c.copyAOf

/-- [class.dtor]/5 -/
def dtorOf : Option Bool := c.special c.dtor (·.dtor) (memberwise (·.dtor) c.subs)

/-- [class]/7: all members and bases have standard layout, all members have the same access, and the data members are all in one class.
(The library's base classes are `storage_t` and `traits`, which are nobody's element type, so a base class never has the type of the
first member.) -/
def stdOf : Bool :=
  c.own.all (·.2.std) && c.bases.all (·.std) &&
  c.own.all (fun m => c.own.all fun n => m.1 == n.1) &&
  decide ((if c.own.isEmpty then 0 else 1) + (c.bases.filter (·.data)).length ≤ 1)

/-- [utility.swap]: `std::swap` moves three times; a `friend swap` is preferred -/
def swapOf : Option Bool :=
  match c.swap with
  | some b => some b
  | none =>
    match c.moveCOf, c.moveAOf with
    | some a, some b => some (a && b)
    | _, _ => none

/-- what the traits say of a class -/
def traits : Traits where
  std := c.stdOf
  data := !c.own.isEmpty || c.bases.any (·.data)
  dflt := c.dfltOf
  copyC := c.copyCOf
  moveC := c.moveCOf
  copyA := c.copyAOf
  moveA := c.moveAOf
  dtor := c.dtorOf
  swap := c.swapOf
  lay := c.lay

end Class

/-- a scalar: integers, pointers (size and alignment as given) -/
def scalar (lay : Layout.Ty) : Traits where
  std := true
  data := false
  dflt := some true
  copyC := some true
  moveC := some true
  copyA := some true
  moveA := some true
  dtor := some true
  swap := some true
  lay := lay

/-- an array of `n` elements, as a data member: whatever is done to it is done to every element -/
def arrayOf (t : Traits) (n : Nat) : Traits :=
  { t with data := false, lay := ⟨n * t.lay.size, t.lay.align⟩ }

/-- `const T`: constructing from an rvalue takes the copy constructor; nothing can be assigned or swapped -/
def constOf (t : Traits) : Traits := { t with moveC := t.copyC, copyA := none, moveA := none, swap := none }

/-! ### the library's classes, `P` being the size of a pointer, a function pointer and `std::size_t` -/

section
variable (P : Nat)

/-- a pointer -/
def ptr : Traits := scalar ⟨P, P⟩

/-- vector.hpp:35-73 `storage_t` (a class with private members, and a function pointer) -/
def vectorStorage : Class where
  members := [(.priv, ptr P), (.priv, ptr P), (.priv, ptr P), (.priv, ptr P)]
  ctors := true
  dflt := .dfltd
  moveC := .user true
  moveA := .user true
  dtor := .user true
  lay := ⟨4 * P, P⟩

/-- vector.hpp:19, 90, 247-255, 378 -/
def vectorClass : Class where
  members := [(.priv, (vectorStorage P).traits)]
  ctors := true
  dflt := .dfltd
  copyC := .user false
  moveC := .dfltd
  copyA := .user false
  moveA := .dfltd
  dtor := .dfltd
  swap := some true
  lay := ⟨4 * P, P⟩

/-- string.hpp:19-35, 53-80 `storage_t`: a function pointer and a union of two classes of scalars -/
def stringStorage : Class where
  members := [(.priv, ptr P)]
  unions := [(.priv, scalar ⟨3 * P, 1⟩), (.priv, scalar ⟨3 * P, P⟩)]
  ctors := true
  dflt := .user true
  moveC := .user true
  moveA := .user true
  dtor := .user true
  lay := ⟨4 * P, P⟩

/-- string.hpp:18, 138, 297-306, 570 -/
def stringClass : Class where
  members := [(.priv, (stringStorage P).traits)]
  ctors := true
  dflt := .dfltd
  copyC := .user false
  moveC := .dfltd
  copyA := .user false
  moveA := .dfltd
  dtor := .dfltd
  swap := some true
  lay := ⟨4 * P, P⟩

end

/-- optional.hpp:17, 26-72, 94, 188-190 -/
def optionalClass (t : Traits) : Class where
  members := [(.priv, scalar Layout.uchar)]
  unions := [(.priv, t)]
  ctors := true
  dflt := .user true
  copyC := .user false
  moveC := .user true
  copyA := .user false
  moveA := .user true
  dtor := .user true
  swap := some true
  lay := Layout.optional t.lay

/-- variant.hpp:15-29 `storage_t`: not packed; the constructor and the destructor do nothing -/
def variantStorage : List Traits → Class
  | [] => { lay := Layout.empty }
  | head :: tail => {
      unions := [(.priv, head), (.priv, (variantStorage tail).traits)]
      dflt := .user true
      dtor := .user true
      lay := Layout.storage (List.map (·.lay) (head :: tail)) }

/-- variant.hpp:179, 195-196, 203-205 (the default constructor is a template that is there if the first alternative is default
constructible), 207-208, 223-239, 248, 319-321 -/
def variantClass (ts : List Traits) : Class where
  members := [(.priv, (variantStorage ts).traits), (.priv, scalar Layout.uchar)]
  ctors := true
  dflt := match ts with
    | head :: _ => if head.isDefault then .user false else .no
    | [] => .no
  copyC := .user false
  moveC := .user true
  copyA := .user false
  moveA := .user true
  dtor := .user true
  swap := some true
  lay := Layout.variant (ts.map (·.lay))

/-- array.hpp:15-23, 29, 40, 178-180 (the constructor template can be called without arguments), 250-252; everything else is implicit -/
def arrayClass (P : Nat) (t : Traits) (n : Nat) : Class where
  members := [(.priv, if n = 0 then ptr P else arrayOf t n)]
  ctors := true
  dflt := .user false
  swap := some true
  lay := if n = 0 then ⟨P, P⟩ else ⟨n * t.lay.size, t.lay.align⟩

/-- tuple.hpp:25-75 `storage_t`: one derived from the next, every one with a private member; the constructor template takes at least one
argument -/
def tupleStorage : List Traits → Class
  | [] => { lay := Layout.empty }
  | head :: tail => {
      bases := [(tupleStorage tail).traits]
      members := [(.priv, head)]
      ctors := true
      lay := ⟨Layout.tupleBase (List.map (·.lay) (head :: tail)), 1⟩ }

/-- tuple.hpp:82-91 (the constructor template can be called without arguments), 110-112; everything else is implicit -/
def tupleClass (ts : List Traits) : Class where
  members := [(.priv, (tupleStorage ts).traits)]
  ctors := true
  dflt := .user false
  swap := some true
  lay := Layout.tuple (ts.map (·.lay))

/-- bitset.hpp:29-36, 55, 61, 124, 364-366; everything else is implicit -/
def bitsetClass (n : Nat) : Class where
  members := [(.priv, scalar ⟨max 1 ((n + 7) / 8), 1⟩)]
  ctors := true
  dflt := .dfltd
  swap := some true
  lay := ⟨max 1 ((n + 7) / 8), 1⟩

/-- array_ref.hpp:24-25, 170-192, string_ref.hpp:15-16, 119-137: two private pointers, a defaulted default constructor, everything else
implicit -/
def rangeRefClass (P : Nat) : Class where
  members := [(.priv, ptr P), (.priv, ptr P)]
  ctors := true
  dflt := .dfltd
  lay := ⟨2 * P, P⟩

/-- optional_ref.hpp:16-17, 73-83: one private pointer, a defaulted default constructor, everything else implicit -/
def optionalRefClass (P : Nat) : Class where
  members := [(.priv, ptr P)]
  ctors := true
  dflt := .dfltd
  lay := ⟨P, P⟩

/-- variant_ref.hpp:95-134: a union of pointers and an index; the copy operations are declared and not `noexcept`, the move operations not
declared; there is no default constructor and no `swap` -/
def variantRefClass (P : Nat) : Class where
  members := [(.priv, ptr P), (.priv, ptr P)]
  ctors := true
  copyC := .user false
  copyA := .user false
  dtor := .dfltd
  lay := ⟨2 * P, P⟩

/-- function_ref.hpp:53-91: `traits` and `invoker` have no data members -/
def functionTraits : Class where
  bases := [({ lay := Layout.empty : Class }).traits]
  lay := Layout.empty

/-- function_ref.hpp:100-127: a pointer (in a class of its own, 16-41) and a function pointer; the copy operations are declared
`noexcept = default`, the move operations not declared; there is no default constructor and no `swap` -/
def functionRefClass (P : Nat) : Class where
  bases := [functionTraits.traits]
  members := [(.priv, ptr P), (.priv, ptr P)]
  ctors := true
  copyC := .dfltd
  copyA := .dfltd
  lay := ⟨2 * P, P⟩

/-! ### the types -/

/-- object types made of the library's classes and others -/
inductive Ty : Type
  /-- any other type, known by what the traits say; `id` tells types apart that agree in everything -/
  | other (id : Nat) (t : Traits)
  | const (T : Ty)
  | vector (T : Ty)
  | string
  | optional (T : Ty)
  | variant (Ts : List Ty)
  | array (T : Ty) (n : Nat)
  | tuple (Ts : List Ty)
  | bitset (n : Nat)
  | arrayRef (T : Ty)
  | stringRef
  | optionalRef (T : Ty)
  | variantRef (Ts : List Ty)
  /-- `id` stands for the signature -/
  | functionRef (id : Nat)

mutual
/-- what the traits say of a type -/
def traits (P : Nat) : Ty → Traits
  | .other _ t => t
  | .const T => constOf (traits P T)
  | .vector _ => (vectorClass P).traits
  | .string => (stringClass P).traits
  | .optional T => (optionalClass (traits P T)).traits
  | .variant Ts => (variantClass (traitsAll P Ts)).traits
  | .array T n => (arrayClass P (traits P T) n).traits
  | .tuple Ts => (tupleClass (traitsAll P Ts)).traits
  | .bitset n => (bitsetClass n).traits
  | .arrayRef _ => (rangeRefClass P).traits
  | .stringRef => (rangeRefClass P).traits
  | .optionalRef _ => (optionalRefClass P).traits
  | .variantRef _ => (variantRefClass P).traits
  | .functionRef _ => (functionRefClass P).traits

/-- … of several types -/
def traitsAll (P : Nat) : List Ty → List Traits
  | [] => []
  | T :: Ts => traits P T :: traitsAll P Ts
end

/-! ### the static assertions -/

/-- vector.hpp:20-27 -/
def vectorReq (t : Traits) : Bool :=
  t.std && t.isDefault && t.isCopy && t.isMove && t.isCopyAssign && t.isMoveAssign && t.isDtor && t.isSwap

/-- array.hpp:31-38 -/
def arrayReq (t : Traits) : Bool :=
  t.std && t.isDefault && t.isCopy && t.isMove && t.isCopyAssign && t.isMoveAssign && t.isDtor && t.isSwap

/-- optional.hpp:18-24 -/
def optionalReq (t : Traits) : Bool :=
  t.std && t.isCopy && t.isMove && t.isCopyAssign && t.isMoveAssign && t.isDtor && t.isSwap

/-- variant.hpp:182-187 (nothing about assignment) -/
def variantReq (t : Traits) : Bool := t.std && t.isCopy && t.isMove && t.isDtor && t.isSwap

/-- tuple.hpp:12-23, of the type without `const` -/
def tupleReq (t : Traits) : Bool :=
  t.std && t.isDefault && t.isCopy && t.isMove && t.isCopyAssign && t.isMoveAssign && t.isDtor && t.isSwap

/-- `std::is_const_v` -/
def Ty.isConst : Ty → Bool
  | .const _ => true
  | _ => false

/-- `std::remove_cv_t` -/
def Ty.bare : Ty → Ty
  | .const T => T
  | T => T

/-- vector.hpp:31-32 `max_capacity` for elements of `size` bytes -/
def maxCapacity (P size : Nat) : Nat := (2 ^ (8 * P - 1) - 1) / size

/-- A type that compiles as an object type: all static assertions in it, and in the types it is made of, hold.  A reference class does
not instantiate what it refers to. -/
inductive Compiles (P : Nat) : Ty → Prop
  | other {id : Nat} {t : Traits} : Compiles P (.other id t)
  | const : Compiles P T → T.isConst = false → Compiles P (.const T)
  /-- vector.hpp:20-27, 33 -/
  | vector : Compiles P T → vectorReq (traits P T) → 10 < maxCapacity P (traits P T).lay.size → Compiles P (.vector T)
  | string : Compiles P .string
  /-- optional.hpp:18-24 -/
  | optional : Compiles P T → optionalReq (traits P T) → Compiles P (.optional T)
  /-- variant.hpp:174-175 (the empty variant is not defined), 180-191 -/
  | variant : Ts ≠ [] → (∀ T ∈ Ts, Compiles P T) → (∀ T ∈ Ts, variantReq (traits P T)) → Ts.length - 1 < 254 → Ts.Nodup →
      Layout.variantAssert ((traitsAll P Ts).map (·.lay)) → Compiles P (.variant Ts)
  /-- array.hpp:30-38 -/
  | array : Compiles P T → T.isConst = false → arrayReq (traits P T) → Compiles P (.array T n)
  /-- tuple.hpp:83 -/
  | tuple : (∀ T ∈ Ts, Compiles P T) → (∀ T ∈ Ts, tupleReq (traits P T.bare)) → Compiles P (.tuple Ts)
  | bitset : Compiles P (.bitset n)
  | arrayRef : Compiles P (.arrayRef T)
  | stringRef : Compiles P .stringRef
  | optionalRef : Compiles P (.optionalRef T)
  /-- variant_ref.hpp:91-92 (the empty one is not defined), 96-97 -/
  | variantRef : Ts ≠ [] → Ts.length - 1 < 2 ^ (8 * P - 1) - 1 → Ts.Nodup → Compiles P (.variantRef Ts)
  | functionRef {id : Nat} : Compiles P (.functionRef id)

/-! ### what happens when the default constructor is used -/

mutual
/-- whether the default constructor, which the traits only know the declaration of, compiles when it is used:
* vector.hpp:247, string.hpp:297, optional.hpp:31-32, bitset.hpp:124, array_ref.hpp:171, string_ref.hpp:120, optional_ref.hpp:74: nothing is
  constructed that could fail to;
* array.hpp:178-180 `values{}` constructs all elements from nothing, if there are any;
* tuple.hpp:89-91 `storage{}`, of which the constructor (46-47) takes at least one argument, except for `storage_t<>` (28-29);
* variant.hpp:203-205, 46-48 constructs the first alternative from nothing;
* another type does as it says. -/
def builds : Ty → Bool
  | .other _ t => t.dflt.isSome && t.dtor.isSome
  | .const T => builds T
  | .array T n => n == 0 || builds T
  | .tuple Ts => Ts.isEmpty
  | .variant Ts => firstBuilds Ts
  | .variantRef _ => false
  | .functionRef _ => false
  | _ => true

def firstBuilds : List Ty → Bool
  | [] => false
  | T :: _ => builds T
end

/-- vector.hpp:316 `resize(count)`, and 262 the constructor that calls it: the elements are constructed from nothing -/
def resizes (T : Ty) : Bool := builds T

end Ptl.Traits

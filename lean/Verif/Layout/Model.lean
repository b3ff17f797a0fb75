import Verif.Basic

/-!
# Layout of `variant`, `optional`, `tuple`, and of the elements an `array_ref` denotes

Every definition cites the lines it models.  A type is known by its size and alignment; `#pragma pack(push, 1)`
(inc/ptl/variant.hpp:177, inc/ptl/optional.hpp:13, inc/ptl/tuple.hpp:43) means: members are placed without regard to their
alignment, and the alignment of the class is 1.  Where there is no such pragma, members are placed by the usual rules.
-/

namespace Ptl.Layout

/-- what the language implementation says about a type -/
structure Ty where
  size : Nat
  align : Nat
  deriving DecidableEq, Repr

/-- sizes are positive multiples of the alignment, which is a power of two -/
def Ty.Wf (T : Ty) : Prop := 0 < T.size ∧ T.align ∣ T.size ∧ ∃ k, T.align = 2 ^ k

/-- `n`, rounded up to a multiple of `a` -/
def roundUp (n a : Nat) : Nat := (n + a - 1) / a * a

/-- a union by the usual rules -/
def union (T U : Ty) : Ty := ⟨roundUp (max T.size U.size) (max T.align U.align), max T.align U.align⟩

/-- an empty class -/
def empty : Ty := ⟨1, 1⟩

/-- `unsigned char` -/
def uchar : Ty := ⟨1, 1⟩

/-! ### packed classes -/

/-- a packed class with two members: offset of the second -/
def packedSecond (T : Ty) : Nat := T.size

/-- a packed class with two members -/
def packed (T U : Ty) : Ty := ⟨T.size + U.size, 1⟩

/-! ### variant -/

/-- variant.hpp:15-23 `storage_t`; it is not packed.  All alternatives are at its address. -/
def storage : List Ty → Ty
  | [] => empty
  | head :: tail => union head (storage tail)

/-- variant.hpp:79-85 `max_sizeof` -/
def maxSizeof : List Ty → (size : Nat) → Nat
  | [], size => size
  | head :: tail, size => maxSizeof tail (if head.size > size then head.size else size)

/-- variant.hpp:191 the static assertion -/
def variantAssert (ts : List Ty) : Bool := (storage ts).size == maxSizeof ts 0

/-- variant.hpp:177-179, 195-196 -/
def variant (ts : List Ty) : Ty := packed (storage ts) uchar

/-- variant.hpp:195, 35, 41: offset of the alternatives in a variant -/
def variantValue : Nat := 0

/-- variant.hpp:196: offset of `type` -/
def variantType (ts : List Ty) : Nat := packedSecond (storage ts)

/-! ### optional -/

/-- optional.hpp:26-28 the anonymous union: packed, so its size is that of its member -/
def optionalUnion (T : Ty) : Ty := ⟨T.size, 1⟩

/-- optional.hpp:13, 17, 26-29 -/
def optional (T : Ty) : Ty := packed (optionalUnion T) uchar

/-- optional.hpp:26-28: offset of `val` -/
def optionalValue : Nat := 0

/-- optional.hpp:29: offset of `initialized` -/
def optionalInit (T : Ty) : Nat := packedSecond (optionalUnion T)

/-! ### tuple -/

/-- tuple.hpp:28-29, 43-45, 74: size of a `storage_t` as a base class: an empty one takes no space -/
def tupleBase : List Ty → Nat
  | [] => 0
  | head :: tail => tupleBase tail + head.size

/-- tuple.hpp:82-87: a tuple is a class with a `storage_t`, which is packed -/
def tuple (ts : List Ty) : Ty := ⟨if ts = [] then 1 else tupleBase ts, 1⟩

/-- tuple.hpp:45, 74: offset of element `k`: its `storage_t` is a base class of all those before, at offset 0; the member follows
the base class -/
def tupleValue : List Ty → (k : Nat) → Nat
  | [], _ => 0
  | _ :: tail, 0 => tupleBase tail
  | _ :: tail, k + 1 => tupleValue tail k

/-! ### array_ref -/

/-- array_ref.hpp:190-192, 207 `data() + index` for an `array_ref<T>` whose `first_` is address `first` (27-61: any range whose data pointer
converts to `T *` is accepted) -/
def refElement (T : Ty) (first index : Nat) : Nat := first + index * T.size

/-- address of element `index` of an array of `T` at address `first` -/
def element (T : Ty) (first index : Nat) : Nat := first + index * T.size

end Ptl.Layout

import Verif.Basic

/-!
# C108: each header can be included on its own

Which names of the standard library each header of the library uses, which standard headers it includes (the first lines of each file), and which
standard headers declare which names according to C++17.  A qualified name such as `std::invoke` is looked up where the template is defined, so it has to be
declared before; what else an implementation happens to declare differs between implementations.
-/

namespace Ptl.Includes

/-- Names of the standard library (those used by the library).

* `trait`: the names of <type_traits> (`integral_constant` and the names that end with `_v` or `_t`);
* `move` the cast, `moveRange` the algorithm with three arguments;
* `placementNew`: `operator new(std::size_t, void *)`;
* `ios`: `std::ios::failbit`. -/
inductive Name where
  | trait | size_t | ptrdiff_t
  | move | forward | swap | exchange | declval | inPlace | indexSequence | tupleSize | initializerList
  | addressof | destroy | uninitialized
  | iteratorTag | reverseIterator | iteratorTraits | backInserter | distance | makeMoveIterator | dataSize
  | copy | moveRange | copyBackward | copyN | equal | fill | fillN | lexicographicalCompare | swapRanges | allOf | anyOf | transform | minMax | rotate
  | accumulate | numericLimits | charBit | logicError | hash | invoke | compareObjects
  | nullopt | badOptionalAccess | badVariantAccess
  | placementNew | badAlloc | terminate | calloc | free | memcpy
  | stringView | charTraits | istream | ostream | ios
  deriving DecidableEq, Repr

/-- standard headers (those included by the library or declaring the names) -/
inductive Std where
  | algorithm | climits | cstddef | cstdlib | cstring | exception | functional | initializer_list | ios | iosfwd | istream | iterator | limits | memory | new
  | numeric | optional | ostream | stdexcept | string | string_view | tuple | type_traits | utility | variant
  deriving DecidableEq, Repr

/-- What a program may rely on (C++17): the declarations in the synopsis of each header, and what the standard says besides: [initializer_list.syn] is included by
<algorithm> and <utility> ([algorithm.syn], [utility]); `std::hash` is declared by several headers ([unord.hash]/2), `data` and `size` too ([iterator.container]),
`tuple_size` and `tuple_element` by <tuple> and <utility>.  `size_t`: [support.types], [cstring.syn], [cstdlib.syn].  In favour of the library, <istream> and <ostream> are
said to declare `std::ios`, the base class of the streams. -/
def guaranteed : Std → List Name
  | .algorithm => [.initializerList, .copy, .moveRange, .copyBackward, .copyN, .equal, .fill, .fillN, .lexicographicalCompare, .swapRanges, .allOf, .anyOf, .transform,
      .minMax, .rotate]
  | .climits => [.charBit]
  | .cstddef => [.size_t, .ptrdiff_t]
  | .cstdlib => [.size_t, .calloc, .free]
  | .cstring => [.size_t, .memcpy]
  | .exception => [.terminate]
  | .functional => [.invoke, .compareObjects, .hash]
  | .initializer_list => [.initializerList]
  | .ios => [.ios, .istream, .ostream]
  | .iosfwd => [.istream, .ostream]
  | .istream => [.istream, .ios]
  | .iterator => [.iteratorTag, .reverseIterator, .iteratorTraits, .backInserter, .distance, .makeMoveIterator, .dataSize]
  | .limits => [.numericLimits]
  | .memory => [.addressof, .destroy, .uninitialized, .hash]
  | .new => [.placementNew, .badAlloc]
  | .numeric => [.accumulate]
  | .optional => [.nullopt, .badOptionalAccess, .hash]
  | .ostream => [.ostream, .ios]
  | .stdexcept => [.logicError]
  | .string => [.charTraits, .initializerList, .hash, .dataSize]
  | .string_view => [.stringView, .hash, .dataSize]
  | .tuple => [.tupleSize]
  | .type_traits => [.trait]
  | .utility => [.move, .forward, .swap, .exchange, .declval, .inPlace, .indexSequence, .tupleSize, .initializerList]
  | .variant => [.badVariantAccess, .hash]

/-- the headers of the library -/
inductive Hdr where
  | array | array_ref | bitset | function_ref | optional | optional_ref | string | string_ref | tuple | variant | variant_ref | vector
  deriving DecidableEq, Repr

/-- all of them -/
def Hdr.all : List Hdr := [.array, .array_ref, .bitset, .function_ref, .optional, .optional_ref, .string, .string_ref, .tuple, .variant, .variant_ref, .vector]

/-- the `#include` lines: array.hpp:8-11, array_ref.hpp:8-11, bitset.hpp:8-13, function_ref.hpp:8-9, optional.hpp:8-10, optional_ref.hpp:8-10,
string.hpp:8-14, string_ref.hpp:8-10, tuple.hpp:8, variant.hpp:8-11, variant_ref.hpp:8-11, vector.hpp:8-13 -/
def includes : Hdr → List Std
  | .array => [.iterator, .algorithm, .stdexcept, .type_traits]
  | .array_ref => [.utility, .iterator, .stdexcept, .type_traits]
  | .bitset => [.climits, .istream, .ostream, .numeric, .algorithm, .type_traits]
  | .function_ref => [.utility, .type_traits]
  | .optional => [.utility, .optional, .type_traits]
  | .optional_ref => [.utility, .optional, .type_traits]
  | .string => [.limits, .memory, .cstring, .iterator, .algorithm, .stdexcept, .string_view]
  | .string_ref => [.limits, .stdexcept, .string_view]
  | .tuple => [.type_traits]
  | .variant => [.limits, .utility, .variant, .type_traits]
  | .variant_ref => [.limits, .utility, .variant, .type_traits]
  | .vector => [.limits, .memory, .iterator, .algorithm, .stdexcept, .type_traits]

/-- the names used in the rest of the file, with a line for each:

* array.hpp: 30 `is_const_v`, 15, 76, 61, 179, 281, 74, 174, 256, 221, 263, 249, 211
* array_ref.hpp: 67 `remove_cv_t`, 159, 68, 44, 66, 167, 192, 210
* bitset.hpp: 328 `enable_if_t`, 20, 414, 17, 372, 279, 362, 161, 167, 194, 129, 175, 144, 382, 339, 334, 352
* function_ref.hpp: 14 `remove_cv_t`, 48, 115, 48
* optional.hpp: 18 `is_standard_layout_v`, 39, 49, 183, 49 `in_place_t`, 37, 152, 37, 34, 120
* optional_ref.hpp: 51 `is_same_v`, 105, 113, 79, 76, 100
* string.hpp: 146 `conditional_t`, 22, 145, 403, 114, 324, 71, 143, 294, 308, 309, 312, 309, 435, 265, 106, 411, 322, 60, 450, 387, 399, 629, 45, 238, 284, 613
* string_ref.hpp: 20, 21, 28, 116, 152, 162, 234, 137, 18, 214
* tuple.hpp: 16, 49, 102, 47, 64, 140
* variant.hpp: 66 `is_same_v`, 31, 110, 47, 165, 106, 217, 102, 35, 55, 327 `equal_to`, 48, 300
* variant_ref.hpp: 45 `is_same_v`, 27, 44, 142, 81, 60, 38, 96, 72, 162
* vector.hpp: 20, 31, 32, 200, 301, 85, 54, 265, 57, 344, 214, 95, 244, 257, 258, 336, 352, 258, 343, 390, 382, 46, 193, 32, 45, 361, 49, 48, 47 -/
def uses : Hdr → List Name
  | .array => [.trait, .size_t, .ptrdiff_t, .move, .forward, .tupleSize, .iteratorTag, .reverseIterator, .equal, .fill, .lexicographicalCompare, .swapRanges, .logicError]
  | .array_ref => [.trait, .size_t, .ptrdiff_t, .declval, .iteratorTag, .reverseIterator, .dataSize, .logicError]
  | .bitset => [.trait, .size_t, .tupleSize, .charBit, .equal, .fillN, .swapRanges, .allOf, .anyOf, .transform, .minMax, .accumulate, .logicError, .hash, .istream,
      .ostream, .ios]
  | .function_ref => [.trait, .forward, .addressof, .invoke]
  | .optional => [.trait, .move, .forward, .swap, .inPlace, .addressof, .destroy, .placementNew, .nullopt, .badOptionalAccess]
  | .optional_ref => [.trait, .forward, .declval, .addressof, .nullopt, .badOptionalAccess]
  | .string => [.trait, .size_t, .ptrdiff_t, .move, .swap, .initializerList, .addressof, .iteratorTag, .reverseIterator, .iteratorTraits, .backInserter, .distance,
      .copy, .moveRange, .copyBackward, .copyN, .fill, .fillN, .minMax, .rotate, .numericLimits, .logicError, .hash, .memcpy, .stringView, .charTraits, .ostream]
  | .string_ref => [.size_t, .ptrdiff_t, .iteratorTag, .reverseIterator, .numericLimits, .logicError, .hash, .stringView, .charTraits, .ostream]
  | .tuple => [.trait, .size_t, .move, .forward, .swap, .tupleSize]
  | .variant => [.trait, .size_t, .move, .forward, .swap, .declval, .inPlace, .indexSequence, .addressof, .destroy, .compareObjects, .placementNew, .badVariantAccess]
  | .variant_ref => [.trait, .size_t, .ptrdiff_t, .forward, .declval, .indexSequence, .addressof, .numericLimits, .terminate, .badVariantAccess]
  | .vector => [.trait, .size_t, .ptrdiff_t, .move, .forward, .swap, .exchange, .initializerList, .addressof, .destroy, .uninitialized, .iteratorTag, .reverseIterator,
      .iteratorTraits, .backInserter, .distance, .makeMoveIterator, .copy, .moveRange, .equal, .lexicographicalCompare, .minMax, .rotate, .numericLimits, .logicError,
      .placementNew, .badAlloc, .calloc, .free]

/-! ### what is asked for -/

/-- an implementation of the standard library: what its headers declare -/
abbrev Impl := Std → Name → Prop

/-- it declares at least what the standard says -/
def Conforming (I : Impl) : Prop := ∀ h n, n ∈ guaranteed h → I h n

/-- the header can be used if the standard headers `before` were included before it: each name it uses is declared -/
def Compiles (I : Impl) (before : List Std) (p : Hdr) : Prop := ∀ n ∈ uses p, ∃ h ∈ before ++ includes p, I h n

/-- C108 for a header: it can be included on its own, whatever the implementation -/
def SelfContained (p : Hdr) : Prop := ∀ I, Conforming I → Compiles I [] p

/-! ### lemmas -/

/-- the names that are not declared for sure -/
def missing (before : List Std) (p : Hdr) : List Name := (uses p).filter fun n => !(before ++ includes p).any fun h => (guaranteed h).contains n

theorem mem_missing {before : List Std} {p : Hdr} {n : Name} : n ∈ missing before p ↔ n ∈ uses p ∧ ∀ h ∈ before ++ includes p, n ∉ guaranteed h := by
  simp only [missing, List.mem_filter, Bool.not_eq_true', List.any_eq_false, List.contains_iff_mem]

theorem compiles_of_missing {before : List Std} {p : Hdr} (h : missing before p = []) {I : Impl} (hI : Conforming I) : Compiles I before p := by
  intro n hn
  apply Classical.byContradiction
  intro hc
  have : n ∈ missing before p := mem_missing.2 ⟨hn, fun h hh hg => hc ⟨h, hh, hI h n hg⟩⟩
  rw [h] at this
  cases this

theorem not_compiles_of_missing {before : List Std} {p : Hdr} {n : Name} (h : n ∈ missing before p) :
    ∃ I, Conforming I ∧ ¬ Compiles I before p := by
  refine ⟨fun h n => n ∈ guaranteed h, fun _ _ h => h, fun hc => ?_⟩
  obtain ⟨hu, hm⟩ := mem_missing.1 h
  obtain ⟨k, hk, hg⟩ := hc n hu
  exact hm k hk hg

/-! ## C108 -/

/-- exactly which headers can be included on their own: those that use no name that is not declared -/
theorem C108_exact (p : Hdr) : SelfContained p ↔ ∀ n ∈ uses p, ∃ h ∈ includes p, n ∈ guaranteed h := by
  constructor
  · intro hs n hn
    obtain ⟨h, hh, hg⟩ := hs (fun h n => n ∈ guaranteed h) (fun _ _ h => h) n hn
    exact ⟨h, hh, hg⟩
  · intro h I hI n hn
    obtain ⟨k, hk, hg⟩ := h n hn
    exact ⟨k, hk, hI k n hg⟩

/-- C108 for array_ref.hpp, with implementations whose <iterator> declares `std::size_t` and `std::ptrdiff_t`, as the types used in its synopsis.  Missing: the others, see
`C108_refuted` -/
theorem C108_array_ref_partial (I : Impl) (hI : Conforming I) (hs : I .iterator .size_t) (hp : I .iterator .ptrdiff_t) : Compiles I [] .array_ref := by
  intro n hn
  by_cases h1 : n = .size_t
  · exact ⟨.iterator, by decide, h1 ▸ hs⟩
  by_cases h2 : n = .ptrdiff_t
  · exact ⟨.iterator, by decide, h2 ▸ hp⟩
  have key : ∀ n ∈ uses .array_ref, n = .size_t ∨ n = .ptrdiff_t ∨ ∃ h ∈ includes .array_ref, n ∈ guaranteed h := by decide
  rcases key n hn with h | h | ⟨k, hk, hg⟩
  · exact absurd h h1
  · exact absurd h h2
  · exact ⟨k, hk, hI k n hg⟩

/-- C108 fails for all headers: for each there is a conforming implementation with which it does not compile on its own -/
theorem C108_refuted (p : Hdr) : ¬ SelfContained p := by
  rw [C108_exact]
  cases p <;> decide

/-- … and the names are not only `size_t` and `ptrdiff_t`, except for array_ref.hpp: `std::invoke` in function_ref.hpp, `std::forward` and `std::tuple_size` in tuple.hpp, … -/
theorem C108_names_refuted : missing [.cstddef] .function_ref = [.addressof, .invoke] ∧ missing [.cstddef] .tuple = [.move, .forward, .swap, .tupleSize] ∧
    missing [.cstddef] .array = [.move, .forward, .tupleSize] ∧ missing [.cstddef] .bitset = [.tupleSize, .logicError, .hash] ∧
    missing [.cstddef] .optional = [.addressof, .destroy, .placementNew] ∧ missing [.cstddef] .optional_ref = [.addressof] ∧
    missing [.cstddef] .string = [.trait, .move, .swap, .charTraits, .ostream] ∧
    missing [.cstddef] .string_ref = [.iteratorTag, .reverseIterator, .charTraits, .ostream] ∧
    missing [.cstddef] .variant = [.addressof, .destroy, .compareObjects, .placementNew] ∧
    missing [.cstddef] .variant_ref = [.addressof, .terminate] ∧
    missing [.cstddef] .vector = [.move, .forward, .swap, .exchange, .placementNew, .badAlloc, .calloc, .free] ∧
    missing [.cstddef] .array_ref = [] := by decide +kernel

/-- each of these names keeps the header from compiling with some implementation that declares `size_t` and `ptrdiff_t` -/
theorem C108_each_refuted (p : Hdr) (n : Name) (h : n ∈ missing [.cstddef] p) : ∃ I, Conforming I ∧ ¬ Compiles I [.cstddef] p := not_compiles_of_missing h

/-- what a program has to include before a header so that it compiles with every implementation -/
def remedy : Hdr → List Std
  | .array => [.cstddef, .utility]
  | .array_ref => [.cstddef]
  | .bitset => [.cstddef, .utility, .stdexcept, .functional]
  | .function_ref => [.memory, .functional]
  | .optional => [.memory, .new]
  | .optional_ref => [.memory]
  | .string => [.cstddef, .utility, .type_traits, .string, .ostream]
  | .string_ref => [.cstddef, .iterator, .string, .ostream]
  | .tuple => [.cstddef, .utility]
  | .variant => [.cstddef, .memory, .new, .functional]
  | .variant_ref => [.cstddef, .memory, .exception]
  | .vector => [.cstddef, .cstdlib, .new, .utility]

/-- C108 with these headers included before.  Missing: a header on its own, see `C108_refuted` -/
theorem C108_remedy_partial (p : Hdr) (I : Impl) (hI : Conforming I) : Compiles I (remedy p) p := by
  refine compiles_of_missing ?_ hI
  cases p <;> decide +kernel

/-- … each of which is needed -/
theorem C108_remedy_minimal (p : Hdr) (h : Std) (hh : h ∈ remedy p) : ∃ I, Conforming I ∧ ¬ Compiles I ((remedy p).erase h) p := by
  have key : ∀ p ∈ Hdr.all, ∀ h ∈ remedy p, missing ((remedy p).erase h) p ≠ [] := by decide +kernel
  have hp : p ∈ Hdr.all := by cases p <;> decide
  cases hm : missing ((remedy p).erase h) p with
  | nil => exact absurd hm (key p hp h hh)
  | cons n ns => exact not_compiles_of_missing (n := n) (by rw [hm]; exact List.mem_cons_self ..)

/-- tuple.hpp includes <type_traits> only: `std::forward` (line 47) is not declared by it -/
example : Name.forward ∈ uses .tuple ∧ includes .tuple = [.type_traits] ∧ Name.forward ∉ guaranteed .type_traits := by decide

end Ptl.Includes

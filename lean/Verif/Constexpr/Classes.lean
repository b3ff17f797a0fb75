import Verif.Constexpr.Basic

/-!
# C86 for the other classes with functions declared `constexpr`
-/

namespace Ptl.Arr

open Constexpr

/-- the functions of `array` and of its iterators -/
inductive Fn where
  | ctor | copy | move | assign | assignMove | dtor | get | getMove
  | iterDefault | iterCtor | iterCopy | preInc | postInc | preDec | postDec | deref | arrow | iterIndex | addA | add | addFlipped | subA | sub
  | diff | toConst | iterEq | iterNe | iterLt | iterGt | iterLe | iterGe
  | data | size | empty | maxSize | front | back | index | at | fill | begin | cbegin | end | cend | rbegin | crbegin | rend | crend
  | swap | friendSwap | opEq | opNe | opLt | opGt | opLe | opGe
  deriving DecidableEq, Repr

/-- array.hpp:42-272 (lines at each): what each calls when it returns normally; overloads for `const` do the same and are not listed
separately -/
def body : Fn → Body Fn
  | .copy | .move | .assign | .assignMove | .dtor => {}                    -- implicit
  | .ctor => { std := [.forward] }                                         -- 177-179
  | .get => { own := [.index] }                                            -- 42-55
  | .getMove => { own := [.index], std := [.move] }                        -- 56-69
  | .iterDefault | .iterCopy => {}                                         -- 80-81
  | .iterCtor => {}                                                        -- 159-160
  | .preInc | .preDec | .deref | .arrow => {}                              -- 83-84, 92-93, 101-104
  | .postInc => { own := [.iterCopy, .preInc] }                            -- 85-90
  | .postDec => { own := [.iterCopy, .preDec] }                            -- 94-99
  | .iterIndex => { own := [.add, .deref] }                                -- 106-107
  | .addA | .subA => {}                                                    -- 109-110, 121-122
  | .add => { own := [.addA, .iterCopy] }                                  -- 111-116
  | .addFlipped => { own := [.add] }                                       -- 117-119
  | .sub => { own := [.subA, .iterCopy] }                                  -- 123-128
  | .diff => {}                                                            -- 130-132
  | .toConst => { own := [.iterCtor] }                                     -- 134-135
  | .iterEq | .iterLt => {}                                                -- 137-139, 144-146
  | .iterNe => { own := [.iterEq] }                                        -- 140-142
  | .iterGt | .iterGe => { own := [.iterLt] }                              -- 147-149, 153-155
  | .iterLe => { own := [.iterGt] }                                        -- 150-152
  | .data | .size | .maxSize => {}                                         -- 181-187, 192-194
  | .empty => { own := [.size] }                                           -- 188-191
  | .front => { own := [.index] }                                          -- 196-199
  | .back => { own := [.index, .size] }                                    -- 200-203
  | .index => { own := [.data] }                                           -- 205-208
  | .at => { own := [.size, .index] }                                      -- 209-218
  | .fill => { own := [.begin, .end], std := [.fill] }                     -- 220-221
  | .begin => { own := [.data, .iterCtor] }                                -- 223-226
  | .cbegin => { own := [.begin] }                                         -- 227-228
  | .end => { own := [.begin, .size, .add] }                               -- 229-232
  | .cend => { own := [.end] }                                             -- 233-234
  | .rbegin => { own := [.end], std := [.reverseIterator] }                -- 235-238
  | .crbegin => { own := [.cend], std := [.reverseIterator] }              -- 239-240
  | .rend => { own := [.begin], std := [.reverseIterator] }                -- 241-244
  | .crend => { own := [.cbegin], std := [.reverseIterator] }              -- 245-246
  | .swap => { own := [.begin, .end], std := [.swapRanges] }               -- 248-249
  | .friendSwap => { own := [.swap] }                                      -- 250-252
  | .opEq => { own := [.begin, .end], std := [.equal] }                    -- 254-256
  | .opNe => { own := [.opEq] }                                            -- 257-259
  | .opLt => { own := [.begin, .end], std := [.lexicographicalCompare] }   -- 261-263
  | .opGt | .opGe => { own := [.opLt] }                                    -- 264-266, 270-272
  | .opLe => { own := [.opGt] }                                            -- 267-269

/-- `fill`, swapping and comparing whole arrays -/
def Fn.algorithmic : Fn → Bool
  | .fill | .swap | .friendSwap | .opEq | .opNe | .opLt | .opGt | .opLe | .opGe => true
  | _ => false

/-- **C86** for `array`: construction, access and iteration can be evaluated at compile time.
Missing: `fill`, `swap` and comparison, see `C86_array_exact`. -/
theorem C86_array_partial (f : Fn) (h : f.algorithmic = false) : Usable cxx17 body f := by
  refine .of_check 8 f ?_
  revert h; cases f <;> decide

/-- **C86** for `array`, exactly -/
theorem C86_array_exact (f : Fn) : Usable cxx17 body f ↔ f.algorithmic = false := by
  refine ⟨fun hu => ?_, C86_array_partial f⟩
  refine Bool.eq_false_iff.2 fun hc => Usable.not_of_bad 8 f ?_ hu
  revert hc; cases f <;> decide

/-- with the rules of C++20 it holds for all of them -/
theorem C86_array_cxx20 (f : Fn) : Usable cxx20 body f := .of_check 8 f (by cases f <;> decide)

-- `a.back()` and `++a.begin()` are usable, `a == b` is not
example : Usable cxx17 body .back ∧ Usable cxx17 body .preInc ∧ ¬ Usable cxx17 body .opEq :=
  ⟨C86_array_partial _ rfl, C86_array_partial _ rfl, fun h => by cases (C86_array_exact _).1 h⟩

end Ptl.Arr

namespace Ptl.Constexpr

/-- constructors of `tuple`, `optional`, `variant`, `variant_ref` and `function_ref` that are declared `constexpr`, and the
functions of the library they call; `tuple n`: for a tuple of `n` types -/
inductive Ctor where
  | tuple (n : Nat) | tupleStorage (n : Nat)
  | optNull | optNullopt | optCopy | optMove | optValue | optValueMove | optInPlace
  | varDefault | varValue | varIndex | varType | varStorage | varSet
  | vrefObj | vrefCopy | vrefSet | vrefAssign
  | frefFn | frefObj | frefCopy | frefStorageObj | frefStorageFn
  /-- `function_ref::operator()`, and the function that the pointer it calls refers to -/
  | frefCall | frefFunctor | frefGet
  deriving DecidableEq, Repr

/-- what each calls.  `optional`, `variant` and `variant`'s storage have destructors that are neither trivial nor `constexpr`
(optional.hpp:93-94, variant.hpp:29, 248); `variant_ref` leaves its members to assignments in the body. -/
def ctors : Ctor → Body Ctor
  | .tuple n => { own := [.tupleStorage n], std := [.forward] }                                  -- tuple.hpp:88-90
  | .tupleStorage 0 => {}                                                                        -- tuple.hpp:29-41, implicit
  | .tupleStorage (n + 1) => { declared := false, own := [.tupleStorage n], std := [.forward] }  -- tuple.hpp:46-47
  | .optNull | .optNullopt => { std := [.uninitialised, .destructor] }                           -- optional.hpp:31-34
  | .optCopy | .optValue => { std := [.addressof, .placementNew, .destructor] }                  -- optional.hpp:36-37, 41-42
  | .optMove | .optValueMove => { std := [.addressof, .move, .placementNew, .destructor] }       -- optional.hpp:38-39, 43-44
  | .optInPlace => { std := [.addressof, .forward, .placementNew, .destructor] }                 -- optional.hpp:46-49
  | .varDefault => { own := [.varStorage, .varSet], std := [.destructor] }                       -- variant.hpp:203-205
  | .varValue | .varIndex => { own := [.varStorage, .varSet], std := [.forward, .destructor] }   -- variant.hpp:210-217
  | .varType => { own := [.varIndex], std := [.forward, .destructor] }                           -- variant.hpp:218-221
  | .varStorage => { std := [.uninitialised, .destructor] }                                      -- variant.hpp:27-29
  | .varSet => { std := [.forward, .addressof, .placementNew] }                                  -- variant.hpp:44-49
  | .vrefObj => { own := [.vrefSet], std := [.uninitialised] }                                   -- variant_ref.hpp:112-125
  | .vrefCopy => { own := [.vrefAssign], std := [.uninitialised] }                               -- variant_ref.hpp:127-128
  | .vrefSet => { std := [.addressof] }                                                          -- variant_ref.hpp:34-39
  | .vrefAssign => { own := [.vrefSet] }                                                         -- variant_ref.hpp:59-65
  | .frefFn => { declared := false, own := [.frefStorageFn] }                                    -- function_ref.hpp:110-111
  | .frefObj => { own := [.frefStorageObj], std := [.addressof] }                                -- function_ref.hpp:113-115
  | .frefCopy => {}                                                                              -- function_ref.hpp:117-118
  | .frefStorageObj => {}                                                                        -- function_ref.hpp:24-30
  | .frefStorageFn => { declared := false }                                                      -- function_ref.hpp:32-33
  | .frefCall => { own := [.frefFunctor], std := [.forward] }                                    -- function_ref.hpp:69-73
  | .frefFunctor => { declared := false, own := [.frefGet], std := [.forward] }                  -- function_ref.hpp:65-67
  | .frefGet => {}                                                                               -- function_ref.hpp:35-41

/-- constructors of the class templates, `tuple<>` aside -/
def Ctor.never : Ctor → Bool
  | .tuple (_ + 1) | .optNull | .optNullopt | .optCopy | .optMove | .optValue | .optValueMove | .optInPlace | .varDefault | .varValue
  | .varIndex | .varType | .vrefObj | .vrefCopy | .frefCall => true
  | _ => false

/-- **C86** is false for `tuple`, `optional`, `variant` and `variant_ref`: they have no constructor that could be used in a constant
expression, so that none of their members can; and for `function_ref::operator()` -/
theorem C86_refuted (c : Ctor) (h : c.never = true) : (ctors c).declared = true ∧ ¬ Usable cxx17 ctors c := by
  refine ⟨?_, Usable.not_of_bad 2 c ?_⟩
  · cases c <;> first | rfl | cases h
  · cases c with
    | tuple n => cases n with
      | zero => cases h
      | succ n => rfl
    | _ => first | rfl | cases h

/-- **C86** holds for `tuple<>` and for creating and copying a `function_ref` that refers to an object -/
theorem C86_partial : Usable cxx17 ctors (.tuple 0) ∧ Usable cxx17 ctors .frefObj ∧ Usable cxx17 ctors .frefCopy :=
  ⟨.of_check 2 _ rfl, .of_check 2 _ rfl, .of_check 1 _ rfl⟩

/-- C++20 alone changes it for `variant_ref` only -/
theorem C86_cxx20 (c : Ctor) (h : c.never = true) : Usable cxx20 ctors c ↔ c = .vrefObj ∨ c = .vrefCopy := by
  constructor
  · intro hu
    refine Classical.byContradiction fun hc => Usable.not_of_bad 2 c ?_ hu
    cases c with
    | tuple n => cases n with
      | zero => cases h
      | succ n => rfl
    | vrefObj => exact absurd (.inl rfl) hc
    | vrefCopy => exact absurd (.inr rfl) hc
    | _ => first | rfl | cases h
  · rintro (rfl | rfl)
    · exact .of_check 2 _ rfl
    · exact .of_check 3 _ rfl

end Ptl.Constexpr

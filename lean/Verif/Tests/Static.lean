import Verif.Layout.Model
import Verif.Access.Const
import Verif.Refs.Model
import Verif.Deduce.Props

/-! # The static assertions of the tests, on the model

Not modelled: the sizes of `array`, `function_ref` and `variant_ref`. -/

namespace Ptl.Tests.Static

/-! ### sizes -/

section
open Ptl.Layout

/-- test/optional.cpp:12-16 (`char`, `short`, `int`, `long`, `long long`, whatever their alignment) -/
theorem optional_sizes (align : Nat) : ∀ size ∈ [1, 2, 4, 8, 8], (optional ⟨size, align⟩).size = size + 1 := by
  intro size _
  rfl

/-- test/tuple.cpp:10-12 -/
theorem tuple_sizes (c i l : Nat) : (tuple []).size = 1 ∧ (tuple [⟨1, c⟩, ⟨4, i⟩]).size = 1 + 4 ∧
    (tuple [⟨8, l⟩, ⟨1, c⟩, ⟨4, i⟩]).size = 8 + 1 + 4 := by
  refine ⟨rfl, ?_, ?_⟩ <;> simp [tuple, tupleBase]

end

/-! ### types -/

section
open Ptl.Access

/-- test/tuple.cpp:14-21: `T &`, `const T &`, `T &&`, `const T &&` -/
theorem tuple_get : call .tuple .get false false false = some (.elem false false) ∧
    call .tuple .get false true false = some (.elem true false) ∧
    call .tuple .get false false true = some (.elem false true) ∧
    call .tuple .get false true true = some (.elem true true) := by decide

end

section
open Ptl.Refs

/-- types by name: 0 is `int`; `std::vector<int>` and so on are not derived from anything -/
def lang : Lang Nat := ⟨fun a b => a == b, by simp, fun _ _ => false⟩

/-- `int[1]`, `const int[1]`, `std::vector<int>` -/
def arr : Shape Nat := .array ⟨0, false⟩
def carr : Shape Nat := .array ⟨0, true⟩
def vec : Shape Nat := .cls (some ⟨0, false⟩) (some ⟨0, true⟩) (some .unsigned) (some ⟨0, false⟩)

/-- test/array_ref.cpp:67-83 -/
theorem array_ref_ctad : deducedArrayRef lang arr ⟨false, true⟩ = .ok ⟨0, false⟩ ∧
    deducedArrayRef lang carr ⟨true, true⟩ = .ok ⟨0, true⟩ ∧
    deducedArrayRef lang vec ⟨false, true⟩ = .ok ⟨0, false⟩ ∧
    deducedArrayRef lang vec ⟨true, true⟩ = .ok ⟨0, true⟩ := by decide

/-- `int`, `int *`, `const int *`, `std::optional<int>` -/
def int : Src Nat := ⟨0, none, none, none, true, none⟩
def ptr : Src Nat := ⟨1, some (.lvalue ⟨0, false⟩), some (.lvalue ⟨0, false⟩), some (.lvalue ⟨0, false⟩), true, none⟩
def cptr : Src Nat := ⟨2, some (.lvalue ⟨0, true⟩), some (.lvalue ⟨0, true⟩), some (.lvalue ⟨0, true⟩), true, none⟩
def opt : Src Nat := ⟨3, some (.lvalue ⟨0, false⟩), some (.lvalue ⟨0, true⟩), some (.other ⟨0, false⟩), true, none⟩

/-- test/optional_ref.cpp:62-86 -/
theorem optional_ref_ctad : deducedOptionalRef lang int ⟨false, true⟩ = .ok (⟨0, false⟩, .object) ∧
    deducedOptionalRef lang int ⟨true, true⟩ = .ok (⟨0, true⟩, .object) ∧
    deducedOptionalRef lang ptr ⟨false, true⟩ = .ok (⟨0, false⟩, .value) ∧
    deducedOptionalRef lang cptr ⟨false, true⟩ = .ok (⟨0, true⟩, .value) ∧
    deducedOptionalRef lang opt ⟨false, true⟩ = .ok (⟨0, false⟩, .value) ∧
    deducedOptionalRef lang opt ⟨true, true⟩ = .ok (⟨0, true⟩, .value) := by decide

end

section
open Ptl.Deduce

/-- test/optional.cpp:116-119 -/
theorem optional_ctad (L : Deduce.Lang) : deduced L .optional [temp Deduce.int] = some (.optional Deduce.int) := rfl

/-- test/array.cpp:12-13, 71-76 -/
theorem array_ctad (L : Deduce.Lang) : deduced L .array [temp Deduce.int, temp Deduce.int, temp Deduce.int, temp Deduce.int] = some (.array Deduce.int 4) ∧
    deduced L .array [temp double, temp double, temp double] = some (.array double 3) ∧
    deduced L .array [temp Deduce.int] = some (.array Deduce.int 1) ∧
    deduced L .array [temp Deduce.int, temp Deduce.int] = some (.array Deduce.int 2) := ⟨rfl, rfl, rfl, rfl⟩

/-- test/tuple.cpp:76-85; `named 3` is `bool` -/
theorem tuple_ctad (L : Deduce.Lang) : deduced L .tuple [] = some (.tuple []) ∧
    deduced L .tuple [temp Deduce.int] = some (.tuple [Deduce.int]) ∧
    deduced L .tuple [temp Deduce.int, temp double] = some (.tuple [Deduce.int, double]) ∧
    deduced L .tuple [temp Deduce.int, temp double, temp (.named 3)] = some (.tuple [Deduce.int, double, .named 3]) := ⟨rfl, rfl, rfl, rfl⟩

/-- test/function_ref.cpp:25-28; `fn 0` is `int()`, `fn 1` is `int() noexcept` -/
theorem function_ref_ctad (L : Deduce.Lang) : deduced L .functionRef [var (.fn 0)] = some (.functionRef (.fn 0)) ∧
    deduced L .functionRef [temp (.ptr false (.fn 0))] = some (.functionRef (.fn 0)) ∧
    deduced L .functionRef [var (.fn 1)] = some (.functionRef (.fn 1)) ∧
    deduced L .functionRef [temp (.ptr false (.fn 1))] = some (.functionRef (.fn 1)) := ⟨rfl, rfl, rfl, rfl⟩

end

end Ptl.Tests.Static

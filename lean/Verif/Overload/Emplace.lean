import Verif.Basic

/-!
# C78: which calls of `variant::emplace` compile

Which constructions are instantiated by `variant::emplace` (inc/ptl/variant.hpp:250-264).  Types are elements of `τ`, argument lists (with their value
categories) elements of `A`.  Every definition cites the lines it models, or is a language rule.
-/

set_option linter.unusedSectionVars false

namespace Ptl.Overload

variable {τ A : Type} [DecidableEq τ]

/-- what the language says about constructions -/
structure Lang (τ A : Type) where
  /-- does `T{args...}` compile? -/
  braces : τ → A → Bool
  /-- `std::is_nothrow_constructible_v<T, Args...>` -/
  nothrow : τ → A → Bool
  /-- the argument list that consists of an rvalue of type `T` -/
  rvalue : τ → A

/-- a body that needs several constructions compiles if all of them do -/
def Lang.all (L : Lang τ A) (needs : List (τ × A)) : Bool := needs.all fun n => L.braces n.1 n.2

/-- variant.hpp:44-49 `storage_t::set<I>(args...)`: needs alternative `I` from the arguments (`none`: there is no such alternative) -/
def needSet (ts : List τ) (i : Nat) (args : A) : Option (τ × A) := (ts[i]?).map fun T => (T, args)

/-- variant.hpp:123-129 `internal_variant::emplace`: one dispatch function per alternative, each calling `set` with the arguments -/
def needDispatch (ts : List τ) (args : A) : List (τ × A) := (List.range ts.length).filterMap fun i => needSet ts i args

/-- variant.hpp:131-142 `internal_variant::assign<true>`, used by the move assignment (232-239) -/
def needMove (L : Lang τ A) (ts : List τ) : List (τ × A) := (List.range ts.length).filterMap fun i => (ts[i]?).map fun T => (T, L.rvalue T)

/-- variant.hpp:252-264 `emplace<T>(args...)`, for an alternative `T` (`can_store<T>`) -/
def needEmplace (L : Lang τ A) (ts : List τ) (T : τ) (args : A) : List (τ × A) :=
  if L.nothrow T args then
    -- 255-258
    needDispatch ts args
  else
    -- 260: the constructor 218-221, which delegates to 214-217; 261
    (T, args) :: needMove L ts

/-- does the call compile? -/
def emplaceCompiles (L : Lang τ A) (ts : List τ) (T : τ) (args : A) : Bool := decide (T ∈ ts) && L.all (needEmplace L ts T args)

/-! ### what is asked for -/

/-- alternatives can be move constructed (variant.hpp requires it) -/
def Movable (L : Lang τ A) (ts : List τ) : Prop := ∀ T ∈ ts, L.braces T (L.rvalue T) = true

/-- C78, full statement: everything an alternative can be constructed from can be emplaced -/
def EmplaceAccepts (τ A : Type) [DecidableEq τ] : Prop :=
  ∀ (L : Lang τ A) (ts : List τ), Movable L ts → ∀ T ∈ ts, ∀ args, L.braces T args = true → emplaceCompiles L ts T args = true

/-! ## C78 -/

theorem mem_needDispatch {ts : List τ} {args : A} {n : τ × A} : n ∈ needDispatch ts args ↔ n.1 ∈ ts ∧ n.2 = args := by
  unfold needDispatch needSet
  simp only [List.mem_filterMap, List.mem_range, Option.map_eq_some_iff]
  constructor
  · rintro ⟨i, _, T, hT, rfl⟩
    exact ⟨List.mem_of_getElem? hT, rfl⟩
  · rintro ⟨h, rfl⟩
    obtain ⟨i, hi, e⟩ := List.mem_iff_getElem.1 h
    exact ⟨i, hi, n.1, by rw [List.getElem?_eq_getElem hi, e], rfl⟩

theorem mem_needMove {L : Lang τ A} {ts : List τ} {n : τ × A} : n ∈ needMove L ts ↔ n.1 ∈ ts ∧ n.2 = L.rvalue n.1 := by
  unfold needMove
  simp only [List.mem_filterMap, List.mem_range, Option.map_eq_some_iff]
  constructor
  · rintro ⟨i, _, T, hT, rfl⟩
    exact ⟨List.mem_of_getElem? hT, rfl⟩
  · rintro ⟨h, e'⟩
    obtain ⟨i, hi, e⟩ := List.mem_iff_getElem.1 h
    exact ⟨i, hi, n.1, by rw [List.getElem?_eq_getElem hi, e], by rw [← e']⟩

/-- exactly which calls compile -/
theorem C78_exact (L : Lang τ A) (ts : List τ) (hm : Movable L ts) (T : τ) (hT : T ∈ ts) (args : A) :
    emplaceCompiles L ts T args = true ↔
      if L.nothrow T args then ∀ U ∈ ts, L.braces U args = true else L.braces T args = true := by
  unfold emplaceCompiles needEmplace Lang.all
  simp only [hT, decide_true, Bool.true_and]
  split
  · rw [List.all_eq_true]
    constructor
    · intro h U hU; exact h (U, args) (mem_needDispatch.2 ⟨hU, rfl⟩)
    · intro h n hn; have := mem_needDispatch.1 hn; rw [this.2]; exact h _ this.1
  · rw [List.all_eq_true]
    constructor
    · intro h; exact h (T, args) List.mem_cons_self
    · intro h n hn
      rcases List.mem_cons.1 hn with rfl | hn
      · exact h
      · have := mem_needMove.1 hn; rw [this.2]; exact hm _ this.1

/-- C78 (part): constructions that may throw, and arguments from which every alternative can be constructed.  Missing: the others, see
`C78_refuted`. -/
theorem C78_partial (L : Lang τ A) (ts : List τ) (hm : Movable L ts) (T : τ) (hT : T ∈ ts) (args : A) (h : L.braces T args = true)
    (hn : L.nothrow T args = false ∨ ∀ U ∈ ts, L.braces U args = true) : emplaceCompiles L ts T args = true := by
  rw [C78_exact L ts hm T hT args]
  split
  · rename_i hn'
    rcases hn with hn | hn
    · rw [hn] at hn'; cases hn'
    · exact hn
  · exact h

/-- C78 is false: if the construction does not throw, and some other alternative cannot be constructed from the arguments, the call does not
compile -/
theorem C78_other_refuted (L : Lang τ A) (ts : List τ) (T U : τ) (hU : U ∈ ts) (args : A) (hn : L.nothrow T args = true)
    (hb : L.braces U args = false) : emplaceCompiles L ts T args = false := by
  unfold emplaceCompiles needEmplace Lang.all
  rw [if_pos hn]
  cases h : (needDispatch ts args).all fun n => L.braces n.1 n.2 with
  | false => simp
  | true =>
    have := List.all_eq_true.1 h (U, args) (mem_needDispatch.2 ⟨hU, rfl⟩)
    rw [hb] at this; cases this

/-! ### concrete cases -/

/-- some types -/
inductive Ty where
  | int | double | string
  deriving DecidableEq, Repr

/-- some arguments: nothing, an int rvalue, a double rvalue, a string rvalue, a string literal -/
inductive Ag where
  | none | int | double | string | literal
  deriving DecidableEq, Repr

/-- the rules for these: `int{1.5}` narrows and does not compile, `string{"..."}` may throw -/
def cpp : Lang Ty Ag where
  braces
    | _, .none => true
    | .int, a => a == .int
    | .double, a => a == .double
    | .string, a => a == .string || a == .literal
  nothrow
    | _, .none => true
    | .int, a => a == .int || a == .double
    | .double, a => a == .int || a == .double
    | .string, a => a == .string
  rvalue
    | .int => .int
    | .double => .double
    | .string => .string

theorem cpp_movable (ts : List Ty) : Movable cpp ts := by intro T _; cases T <;> rfl

/-- C78 is false -/
theorem C78_refuted : ¬ EmplaceAccepts Ty Ag := by
  intro h
  have := h cpp [.int, .string] (cpp_movable _) .string (by simp) .string rfl
  revert this; decide

-- `variant<int, string> v; v.emplace<string>(std::move(s));`: no, but from a literal: yes
example : emplaceCompiles cpp [.int, .string] .string .string = false ∧ emplaceCompiles cpp [.int, .string] .string .literal = true := by decide
-- `variant<int, double> v; v.emplace<double>(1.5); v.emplace<int>(1);`
example : emplaceCompiles cpp [.int, .double] .double .double = false ∧ emplaceCompiles cpp [.int, .double] .int .int = false := by decide
example : emplaceCompiles cpp [.int, .double, .string] .string .none = true ∧ emplaceCompiles cpp [.int] .int .int = true := by decide
-- wrong arguments do not compile, nor do types that are not alternatives
example : emplaceCompiles cpp [.int, .string] .string .int = false ∧ emplaceCompiles cpp [.int] .string .literal = false := by decide

end Ptl.Overload

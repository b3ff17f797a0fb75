/-!
# C100: which iterators can be passed to vector and string

The overloads for iterators are selected by `std::iterator_traits<Iterator>::iterator_category`, the category.  A category is a class;
categories of iterators written by users and by other libraries (for instance those of Boost) may be derived from the standard
ones.
-/

namespace Ptl.Tags

/-- the standard categories ([std.iterator.tags]); the latter three are derived from each other and from `input` -/
inductive Std where
  | input | output | forward | bidirectional | random
  deriving DecidableEq, Repr

/-- one is the other or derived from it -/
def Std.isA : Std → Std → Bool
  | .input, b => b == .input
  | .output, b => b == .output
  | .forward, b => b == .forward || b == .input
  | .bidirectional, b => b == .bidirectional || b == .forward || b == .input
  | .random, b => b == .random || b == .bidirectional || b == .forward || b == .input

/-- A category: one of the standard ones; another class with these bases (or a type that has nothing to do with iterators, with no
bases); or there is none, for instance if the type is no iterator. -/
inductive Cat where
  | std (c : Std)
  | user (bases : List Std)
  | none
  deriving DecidableEq, Repr

/-- `std::is_same_v<std::input_iterator_tag, C>` -/
def Cat.isInput : Cat → Bool
  | .std .input => true
  | _ => false

/-- `std::is_base_of_v<B, C>` -/
def Cat.base (b : Std) : Cat → Bool
  | .std c => c.isA b
  | .user bs => bs.any (·.isA b)
  | .none => false

/-- the overload selected -/
inductive Algorithm where
  /-- every element is read once, as the iterator gets there -/
  | onePass
  /-- the elements are counted first -/
  | twoPass
  deriving DecidableEq, Repr

/-- the result of overload resolution -/
inductive Pick where
  | one (a : Algorithm)
  | ambiguous
  | nothing
  deriving DecidableEq, Repr

/-- vector.hpp:257-260 (constructors), 333-336 (`assign`), 349-355 (`insert`); string.hpp:308-311 (constructors), 421-427 (`append`),
444-447 (`assign`), 467-473 (`insert`), 495-502 (`replace`): two overloads, with these constraints -/
def pick (c : Cat) : Pick :=
  match c.isInput, c.base .forward with
  | true, true => .ambiguous
  | true, false => .one .onePass
  | false, true => .one .twoPass
  | false, false => .nothing

/-! ## specification -/

/-- the iterator can be read from -/
inductive Readable : Cat → Prop
  | std {c : Std} : c ≠ .output → Readable (.std c)
  | user {bs : List Std} {c : Std} : c ∈ bs → c ≠ .output → Readable (.user bs)

/-- the elements can be visited several times -/
inductive MultiPass : Cat → Prop
  | std {c : Std} : c ≠ .output → c ≠ .input → MultiPass (.std c)
  | user {bs : List Std} {c : Std} : c ∈ bs → c ≠ .output → c ≠ .input → MultiPass (.user bs)

theorem base_forward (c : Cat) : c.base .forward = true ↔ MultiPass c := by
  have key : ∀ c : Std, c.isA .forward = true ↔ c ≠ .output ∧ c ≠ .input := by intro c; cases c <;> decide
  cases c with
  | std c =>
    rw [Cat.base, key]
    exact ⟨fun h => .std h.1 h.2, fun h => by cases h with | std a b => exact ⟨a, b⟩⟩
  | user bs =>
    rw [Cat.base, List.any_eq_true]
    constructor
    · rintro ⟨c, h1, h2⟩
      have := (key c).1 h2
      exact .user h1 this.1 this.2
    · intro h
      cases h with
      | user h1 h2 h3 => exact ⟨_, h1, (key _).2 ⟨h2, h3⟩⟩
  | none => exact ⟨fun h => (nomatch h), fun h => (nomatch h)⟩

theorem multiPass_readable {c : Cat} (h : MultiPass c) : Readable c := by
  cases h with
  | std a _ => exact .std a
  | user a b _ => exact .user a b

/-- **C100**: a call is never ambiguous, only iterators that allow it are used twice, and only iterators that can be read are used at all -/
theorem C100_safe (c : Cat) : pick c ≠ .ambiguous ∧ (pick c = .one .twoPass ↔ MultiPass c) ∧ (pick c ≠ .nothing → Readable c) := by
  rw [← base_forward]
  have hm : c.base .forward = true → Readable c := fun h => multiPass_readable ((base_forward c).1 h)
  cases c with
  | std c => cases c <;> exact ⟨by decide, by decide, fun h => by first | exact absurd rfl h | exact .std (by simp)⟩
  | user bs => unfold pick; cases h : Cat.base .forward (.user bs) <;> simp_all [Cat.isInput]
  | none => simp [pick, Cat.isInput, Cat.base]

/-- **C100** for the standard categories: all iterators that can be read can be used.  Missing: other categories, see `C100_exact`. -/
theorem C100_partial (c : Std) : pick (.std c) ≠ .nothing ↔ Readable (.std c) := by
  refine ⟨(C100_safe _).2.2, fun h => ?_⟩
  cases h with
  | std h => cases c <;> first | (exact absurd rfl h) | decide

/-- **C100**, exactly: iterators that can be read can be used, unless their category is derived from `std::input_iterator_tag` and not
from `std::forward_iterator_tag` -/
theorem C100_exact (c : Cat) : pick c ≠ .nothing ↔ Readable c ∧ ¬ (∃ bs, c = .user bs ∧ ¬ MultiPass c) := by
  have h1 := C100_safe c
  cases c with
  | std c => rw [C100_partial]; simp
  | none => exact ⟨fun h => absurd rfl h, fun h => (nomatch h.1)⟩
  | user bs =>
    constructor
    · intro h
      refine ⟨h1.2.2 h, ?_⟩
      rintro ⟨bs', _, hn⟩
      refine h ?_
      have : Cat.base .forward (.user bs) = false := by
        cases hb : Cat.base .forward (.user bs) with
        | false => rfl
        | true => exact absurd ((base_forward _).1 hb) hn
      simp [pick, this, Cat.isInput]
    · rintro ⟨_, h⟩ hp
      refine h ⟨bs, rfl, fun hm => ?_⟩
      rw [h1.2.1.2 hm] at hp
      cases hp

/-- **C100** is false for categories derived from `std::input_iterator_tag` only -/
theorem C100_refuted : Readable (.user [.input]) ∧ pick (.user [.input]) = .nothing := ⟨.user (List.mem_singleton.2 rfl) (by simp), rfl⟩

example : pick (.std .input) = .one .onePass := by decide
example : pick (.std .random) = .one .twoPass := by decide
example : pick (.std .output) = .nothing := by decide
/-- derived from two categories, as in Boost -/
example : pick (.user [.input, .bidirectional]) = .one .twoPass := by decide
/-- `vector<int>(5, 3)` -/
example : pick .none = .nothing := by decide

end Ptl.Tags

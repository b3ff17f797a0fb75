/-!
# C99: recursive data types

Which types can be members of a class that is not complete yet?  A member of class type needs a complete class.  For a class template
this means to instantiate it with all static assertions at class scope, which ask for properties of the arguments, and these
for complete arguments.

Simplification: all other requirements on arguments (C71, C94) are assumed to be met.
-/

namespace Ptl.Recursive

/-- types; classes of the program have numbers -/
inductive Ty where
  | scalar
  | pointer (T : Ty)
  | cls (n : Nat)
  | string
  | bitset (n : Nat)
  | vector (T : Ty)
  | array (T : Ty) (n : Nat)
  | optional (T : Ty)
  | variant (Ts : List Ty)
  | tuple (Ts : List Ty)
  | arrayRef (T : Ty)
  | stringRef
  | optionalRef (T : Ty)
  | variantRef (Ts : List Ty)
  | functionRef (Ts : List Ty)

mutual
/-- Is the type complete, or can it be instantiated, when the classes below `done` are complete?
* vector.hpp:19-33, array.hpp:29-38, optional.hpp:17-24, variant.hpp:179-191, tuple.hpp:81-83: static assertions about the arguments
* array_ref.hpp:24-25, 62-88: pointers; the member templates are not instantiated yet
* optional_ref.hpp:16-17: a pointer
* variant_ref.hpp:18-24, 94-105: pointers; `validate_unique` asks for `std::is_same` only
* function_ref.hpp:53-73, 98-108: the arguments are used as parameter and result types in declarations only
* string.hpp, string_ref.hpp, bitset.hpp: no types as arguments -/
def usable (done : Nat) : Ty → Bool
  | .scalar => true
  | .pointer _ => true
  | .cls n => n < done
  | .string => true
  | .bitset _ => true
  | .vector T => usable done T
  | .array T _ => usable done T
  | .optional T => usable done T
  | .variant Ts => usableAll done Ts
  | .tuple Ts => usableAll done Ts
  | .arrayRef _ => true
  | .stringRef => true
  | .optionalRef _ => true
  | .variantRef _ => true
  | .functionRef _ => true

/-- a pack of types -/
def usableAll (done : Nat) : List Ty → Bool
  | [] => true
  | T :: Ts => usable done T && usableAll done Ts
end

/-- a program: classes, in this order, with the types of their members -/
abbrev Program := List (List Ty)

/-- it compiles: in class `i`, only the classes before are complete -/
def compiles (p : Program) : Bool := (List.range p.length).all fun i => (p.getD i []).all (usable i)

/-! ## specification -/

/-- an object of the type has an object of class `n` inside -/
inductive Contains : Ty → Nat → Prop
  | cls {n : Nat} : Contains (.cls n) n
  | array {T : Ty} {m n : Nat} : Contains T n → Contains (.array T m) n
  | optional {T : Ty} {n : Nat} : Contains T n → Contains (.optional T) n
  | variant {Ts : List Ty} {T : Ty} {n : Nat} : T ∈ Ts → Contains T n → Contains (.variant Ts) n
  | tuple {Ts : List Ty} {T : Ty} {n : Nat} : T ∈ Ts → Contains T n → Contains (.tuple Ts) n

/-- an object of the type owns objects of class `n` that are elements of a vector -/
inductive Elements : Ty → Nat → Prop
  | here {T : Ty} {n : Nat} : Contains T n → Elements (.vector T) n
  | vector {T : Ty} {n : Nat} : Elements T n → Elements (.vector T) n
  | array {T : Ty} {m n : Nat} : Elements T n → Elements (.array T m) n
  | optional {T : Ty} {n : Nat} : Elements T n → Elements (.optional T) n
  | variant {Ts : List Ty} {T : Ty} {n : Nat} : T ∈ Ts → Elements T n → Elements (.variant Ts) n
  | tuple {Ts : List Ty} {T : Ty} {n : Nat} : T ∈ Ts → Elements T n → Elements (.tuple Ts) n

/-- `T` is the type of a member of class `i` -/
def Member (p : Program) (i : Nat) (T : Ty) : Prop := ∃ Ts, p[i]? = some Ts ∧ T ∈ Ts

/-- The program should compile: what is inside the objects of a class is complete before.  (`std::vector` can be instantiated with a
class that is not complete yet, [vector.overview].) -/
def ShouldCompile (p : Program) : Prop := ∀ i T n, Member p i T → Contains T n → n < i

/-- class `i` owns objects of class `n` -/
def Owns (p : Program) (i n : Nat) : Prop := ∃ T, Member p i T ∧ (Contains T n ∨ Elements T n)

/-- the same through any number of classes -/
inductive OwnsAll (p : Program) : Nat → Nat → Prop
  | one {i n : Nat} : Owns p i n → OwnsAll p i n
  | more {i j n : Nat} : Owns p i j → OwnsAll p j n → OwnsAll p i n

/-! ## proofs -/

mutual
theorem usable_iff (done : Nat) : (T : Ty) → (usable done T = true ↔ ∀ n, Contains T n ∨ Elements T n → n < done)
  | .scalar => by simp only [usable, true_iff]; rintro n (h | h) <;> cases h
  | .pointer _ => by simp only [usable, true_iff]; rintro n (h | h) <;> cases h
  | .string => by simp only [usable, true_iff]; rintro n (h | h) <;> cases h
  | .bitset _ => by simp only [usable, true_iff]; rintro n (h | h) <;> cases h
  | .arrayRef _ => by simp only [usable, true_iff]; rintro n (h | h) <;> cases h
  | .stringRef => by simp only [usable, true_iff]; rintro n (h | h) <;> cases h
  | .optionalRef _ => by simp only [usable, true_iff]; rintro n (h | h) <;> cases h
  | .variantRef _ => by simp only [usable, true_iff]; rintro n (h | h) <;> cases h
  | .functionRef _ => by simp only [usable, true_iff]; rintro n (h | h) <;> cases h
  | .cls m => by
    simp only [usable, decide_eq_true_eq]
    constructor
    · rintro h n (g | g) <;> cases g
      exact h
    · intro h; exact h m (.inl .cls)
  | .vector T => by
    rw [usable, usable_iff done T]
    constructor
    · rintro h n (g | g) <;> cases g
      · next g => exact h n (.inl g)
      · next g => exact h n (.inr g)
    · rintro h n (g | g)
      · exact h n (.inr (.here g))
      · exact h n (.inr (.vector g))
  | .array T m => by
    rw [usable, usable_iff done T]
    constructor
    · rintro h n (g | g) <;> cases g
      · next g => exact h n (.inl g)
      · next g => exact h n (.inr g)
    · rintro h n (g | g)
      · exact h n (.inl (.array g))
      · exact h n (.inr (.array g))
  | .optional T => by
    rw [usable, usable_iff done T]
    constructor
    · rintro h n (g | g) <;> cases g
      · next g => exact h n (.inl g)
      · next g => exact h n (.inr g)
    · rintro h n (g | g)
      · exact h n (.inl (.optional g))
      · exact h n (.inr (.optional g))
  | .variant Ts => by
    rw [usable, usableAll_iff done Ts]
    constructor
    · rintro h n (g | g) <;> cases g
      · next hT g => exact h _ hT n (.inl g)
      · next hT g => exact h _ hT n (.inr g)
    · rintro h T hT n (g | g)
      · exact h n (.inl (.variant hT g))
      · exact h n (.inr (.variant hT g))
  | .tuple Ts => by
    rw [usable, usableAll_iff done Ts]
    constructor
    · rintro h n (g | g) <;> cases g
      · next hT g => exact h _ hT n (.inl g)
      · next hT g => exact h _ hT n (.inr g)
    · rintro h T hT n (g | g)
      · exact h n (.inl (.tuple hT g))
      · exact h n (.inr (.tuple hT g))

theorem usableAll_iff (done : Nat) : (Ts : List Ty) → (usableAll done Ts = true ↔ ∀ T ∈ Ts, ∀ n, Contains T n ∨ Elements T n → n < done)
  | [] => by simp [usableAll]
  | T :: Ts => by
    rw [usableAll, Bool.and_eq_true, usable_iff done T, usableAll_iff done Ts]
    simp
end

theorem compiles_iff (p : Program) : compiles p = true ↔ ∀ i T, Member p i T → usable i T = true := by
  unfold compiles Member
  simp only [List.all_eq_true, List.mem_range]
  constructor
  · rintro h i T ⟨Ts, h1, h2⟩
    obtain ⟨hi, h3⟩ := List.getElem?_eq_some_iff.1 h1
    refine h i hi T ?_
    rw [List.getD_eq_getElem?_getD, h1]
    exact h2
  · intro h i hi T hT
    refine h i T ⟨p[i], List.getElem?_eq_getElem hi, ?_⟩
    rw [List.getD_eq_getElem?_getD, List.getElem?_eq_getElem hi] at hT
    exact hT

/-! ## C99 -/

/-- **C99**, exactly: a program compiles if the classes of objects inside a member and those of the elements of vectors are complete
before -/
theorem C99_exact (p : Program) : compiles p = true ↔ ShouldCompile p ∧ ∀ i T n, Member p i T → Elements T n → n < i := by
  rw [compiles_iff]
  constructor
  · intro h
    exact ⟨fun i T n hm hc => (usable_iff i T).1 (h i T hm) n (.inl hc), fun i T n hm hc => (usable_iff i T).1 (h i T hm) n (.inr hc)⟩
  · rintro ⟨h1, h2⟩ i T hm
    refine (usable_iff i T).2 fun n hn => ?_
    rcases hn with hn | hn
    · exact h1 i T n hm hn
    · exact h2 i T n hm hn

/-- **C99** for classes that refer to each other through pointers and the library's references only.  Missing: vectors, see
`C99_exact`. -/
theorem C99_partial {p : Program} (h : ∀ i T n, Member p i T → Elements T n → n < i) : compiles p = true ↔ ShouldCompile p := by
  rw [C99_exact]
  exact ⟨fun h => h.1, fun g => ⟨g, h⟩⟩

/-- **C99** for the library's references: they can be members of classes that are not complete, whatever they refer to -/
theorem C99_references (T : Ty) (Ts : List Ty) (done : Nat) : usable done (.arrayRef T) = true ∧ usable done (.optionalRef T) = true ∧
    usable done (.variantRef Ts) = true ∧ usable done (.functionRef Ts) = true := by
  simp [usable]

/-- **C99** is false for vectors: no class has a vector of itself, nor of something it is part of -/
theorem C99_vector_refuted {p : Program} {i n : Nat} {T : Ty} (hm : Member p i T) (he : Elements T n) (hn : i ≤ n) : compiles p = false := by
  cases h : compiles p with
  | false => rfl
  | true => have := ((C99_exact p).1 h).2 i T n hm he; omega

/-- **C99** is false: in no program that compiles does a class own objects of itself, through whatever other classes: there are no
trees -/
theorem C99_tree_refuted {p : Program} (h : compiles p = true) {i n : Nat} (ho : OwnsAll p i n) : n < i := by
  have one : ∀ {i n : Nat}, Owns p i n → n < i := by
    rintro i n ⟨T, hm, hc | hc⟩
    · exact ((C99_exact p).1 h).1 i T n hm hc
    · exact ((C99_exact p).1 h).2 i T n hm hc
  induction ho with
  | one h => exact one h
  | more h _ ih => have := one h; omega

/-- a tree: `struct Node { string name; vector<Node> children; };` -/
def tree : Program := [[.string, .vector (.cls 0)]]
/-- the same with pointers to the nodes, and a reference to the parent -/
def pointerTree : Program := [[.string, .vector (.pointer (.cls 0)), .optionalRef (.cls 0), .arrayRef (.vector (.cls 0))]]
/-- `struct Json { variant<int, string, vector<Json>> value; };` -/
def json : Program := [[.variant [.scalar, .string, .vector (.cls 0)]]]

example : compiles tree = false := by decide
example : compiles pointerTree = true := by decide
example : compiles json = false := by decide
example : compiles [[.scalar], [.vector (.cls 0)], [.optional (.cls 1), .functionRef [.cls 2, .cls 3]], [.tuple [.cls 2, .scalar]]] = true := by decide
example : compiles [[.vector (.cls 1)], [.scalar]] = false := by decide
example : ShouldCompile tree := by
  rintro i T n ⟨Ts, h, hT⟩ hc
  match i, h with
  | 0, h =>
    cases h
    simp only [List.mem_cons, List.not_mem_nil, or_false] at hT
    rcases hT with rfl | rfl <;> cases hc

end Ptl.Recursive

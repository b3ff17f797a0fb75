import Verif.Basic

/-!
# C69: lifetimes of the nested unions of `variant` and `variant_ref`

`storage_t<Head, Tail...>` (inc/ptl/variant.hpp:15-57, inc/ptl/variant_ref.hpp:15-40) is a class with an anonymous union of a
`Head` (pointer) and a `storage_t<Tail...>`.  Neither constructor begins the lifetime of a member (variant.hpp:28,
variant_ref.hpp: implicit), and `set` begins only that of the innermost `val` or `ptr`, but calls a member function of every
`next` on the way to it.  The models in `Verif/Variant` and `Verif/VarRef` do not look at these lifetimes, because no compiler
makes use of them outside constant expressions; here is what the language rules say.
-/

namespace Ptl.Union

/-- which member of a `storage_t`'s union is within its lifetime: none, the value (or pointer), the nested storage -/
inductive Store (ν : Type) where
  | raw
  | val (v : ν)
  | next (s : Store ν)

variable {ν : Type}

abbrev UM (ν β : Type) := M (Store ν) β

/-- call a member function of `next`: it must be within its lifetime -/
def inNext {β : Type} (m : UM ν β) : UM ν β
  | .next s => match m s with
    | .ok b s' => .ok b (.next s')
    | .exc e s' => .exc e (.next s')
    | .ub f => .ub f
    | .term => .term
  | _ => .ub .inactiveMember

/-- variant.hpp:28 the constructor: no member is initialised -/
def ctor : Store ν := .raw

/-- variant.hpp:44-49 `set<I>`, 48: placement new ends the lifetime of whatever was there -/
def set (v : ν) : Nat → UM ν Unit
  | 0 => fun _ => .ok () (.val v)
  | i + 1 => inNext (set v i)

/-- variant.hpp:31-42 `get<I>`, and access to `*get<I>()` -/
def get : Nat → UM ν ν
  | 0 => fun s => match s with
    | .val v => .ok v s
    | .raw => .ub .readRaw
    | .next _ => .ub .inactiveMember
  | i + 1 => inNext (get i)

/-- variant.hpp:51-56 `destroy<I>` -/
def destroy : Nat → UM ν Unit
  | 0 => fun s => match s with
    | .val _ => .ok () .raw
    | _ => .ub .destroyRaw
  | i + 1 => inNext (destroy i)

/-- variant_ref.hpp:34-39 `set<I>`, 38: assignment to the pointer `this->ptr`, which makes it the active member of its own union -/
def refSet (v : ν) : Nat → UM ν Unit
  | 0 => fun _ => .ok () (.val v)
  | i + 1 => inNext (refSet v i)

/-- variant_ref.hpp:27-32 `get<I>` -/
def refGet : Nat → UM ν ν
  | 0 => fun s => match s with
    | .val v => .ok v s
    | .raw => .ub .readRaw
    | .next _ => .ub .inactiveMember
  | i + 1 => inNext (refGet i)

/-- a storage in which the lifetime of the nested storages down to alternative `i` has begun -/
def begun : Nat → Store ν
  | 0 => .raw
  | i + 1 => .next (begun i)

/-! ### what holds -/

/-- C69 for the first alternative: storing it in a new storage, reading it and destroying it is defined.  Missing: the others, see
`C69_refuted`. -/
theorem C69_first_partial (v : ν) : ∃ s, set v 0 ctor = .ok () s ∧ get 0 s = .ok v s ∧ ∃ s', destroy 0 s = .ok () s' :=
  ⟨.val v, rfl, rfl, _, rfl⟩

theorem C69_ref_first_partial (v : ν) : ∃ s, refSet v 0 ctor = .ok () s ∧ refGet 0 s = .ok v s := ⟨.val v, rfl, rfl⟩

/-- C69 for every alternative, if the lifetimes of the nested storages have begun (which the code leaves to the compiler): store,
read and destroy alternative `i`; afterwards the storage is as before -/
theorem C69_begun_partial (v : ν) (i : Nat) : ∃ s, set v i (begun i) = .ok () s ∧ get i s = .ok v s ∧ destroy i s = .ok () (begun i) := by
  induction i with
  | zero => exact ⟨.val v, rfl, rfl, rfl⟩
  | succ i ih =>
    obtain ⟨s, h1, h2, h3⟩ := ih
    exact ⟨.next s, by simp [set, begun, inNext, h1], by simp [get, inNext, h2], by simp [destroy, inNext, begun, h3]⟩

theorem C69_ref_begun_partial (v : ν) (i : Nat) : ∃ s, refSet v i (begun i) = .ok () s ∧ refGet i s = .ok v s := by
  induction i with
  | zero => exact ⟨.val v, rfl, rfl⟩
  | succ i ih =>
    obtain ⟨s, h1, h2⟩ := ih
    exact ⟨.next s, by simp [refSet, begun, inNext, h1], by simp [refGet, inNext, h2]⟩

/-! ### what does not -/

/-- C69 fails for every alternative but the first: storing a value in a new variant's storage calls a member function of an object
whose lifetime has not begun.  (In constant expressions this is diagnosed.) -/
theorem C69_refuted (v : ν) (i : Nat) (hi : i ≠ 0) : set v i ctor = .ub .inactiveMember := by
  cases i with
  | zero => exact absurd rfl hi
  | succ i => rfl

theorem C69_ref_refuted (v : ν) (i : Nat) (hi : i ≠ 0) : refSet v i ctor = .ub .inactiveMember := by
  cases i with
  | zero => exact absurd rfl hi
  | succ i => rfl

/-- … also in a storage that held the first alternative, as in an assignment or `emplace` that changes the alternative -/
theorem C69_change_refuted (v w : ν) (i : Nat) (hi : i ≠ 0) : ∃ s s', set v 0 ctor = .ok () s ∧ destroy 0 s = .ok () s' ∧
    set w i s' = .ub .inactiveMember := by
  refine ⟨.val v, .raw, rfl, rfl, ?_⟩
  exact C69_refuted w i hi

/-! ### concrete cases -/

example : set 7 2 (begun 2 : Store Nat) = .ok () (.next (.next (.val 7))) := rfl
example : get 2 (.next (.next (.val 7)) : Store Nat) = .ok 7 (.next (.next (.val 7))) := rfl
example : get 1 (.next (.next (.val 7)) : Store Nat) = .ub .inactiveMember := rfl

end Ptl.Union

import Verif.Nested.Basic

/-!
# C104: arrays, tuples, optionals and variants of objects of any class

In `Verif/Arr`, `Verif/Tuple`, `Verif/Optional` and `Verif/Variant` the objects inside are values of a type with a few functions.  Here they are objects of a class of which
nothing is known but its functions (`Class`), so that the results can be nested.  Only the special member functions and `swap` are modelled.
-/

namespace Ptl.Nested

/-! ### members in a state of their own -/

/-- the state of a class with members: what belongs to its objects themselves, and the state of the members -/
structure With (τ σ : Type) where
  own : τ
  mem : σ

/-- a call of a member's function -/
def inner {τ σ α : Type} (m : M σ α) : M (With τ σ) α := fun s =>
  match m s.mem with
  | .ok a t => .ok a { s with mem := t }
  | .exc e t => .exc e { s with mem := t }
  | .ub f => .ub f
  | .term => .term

/-- a call of a function of the `k`th member -/
def nth {κ : Type} [DecidableEq κ] {σ : κ → Type} (k : κ) {α : Type} (m : M (σ k) α) : M (∀ k, σ k) α := fun s =>
  match m (s k) with
  | .ok a t => .ok a (put s k t)
  | .exc e t => .exc e (put s k t)
  | .ub f => .ub f
  | .term => .term

/-- the class of the `k`th members -/
def Class.nth {κ : Type} [DecidableEq κ] {σ : κ → Type} (k : κ) (C : Class (σ k)) : Class (∀ k, σ k) where
  copy i j := Nested.nth k (C.copy i j)
  move i j := Nested.nth k (C.move i j)
  assign i j := Nested.nth k (C.assign i j)
  moveAssign i j := Nested.nth k (C.moveAssign i j)
  swap i j := Nested.nth k (C.swap i j)
  dtor i := Nested.nth k (C.dtor i)

/-- the same class, objects numbered differently -/
def Class.at {σ : Type} (C : Class σ) (f : Nat → Nat) : Class σ where
  copy i j := C.copy (f i) (f j)
  move i j := C.move (f i) (f j)
  assign i j := C.assign (f i) (f j)
  moveAssign i j := C.moveAssign (f i) (f j)
  swap i j := C.swap (f i) (f j)
  dtor i := C.dtor (f i)

/-! ### numbers, pointers -/

/-- a type without special member functions (numbers, pointers, the views and references of the library).  `std::swap` -/
def scalar (ν : Type) : Class (Nat → Option ν) where
  copy i j := fun s => match s j with | some y => .ok () (upd s i (some y)) | none => .ub .deadObject
  move i j := fun s => match s j with | some y => .ok () (upd s i (some y)) | none => .ub .deadObject
  assign i j := fun s => match s i, s j with | some _, some y => .ok () (upd s i (some y)) | _, _ => .ub .deadObject
  moveAssign i j := fun s => match s i, s j with | some _, some y => .ok () (upd s i (some y)) | _, _ => .ub .deadObject
  swap i j := fun s => match s i, s j with | some x, some y => .ok () (upd (upd s i (some y)) j (some x)) | _, _ => .ub .deadObject
  dtor i := fun s => match s i with | some _ => .ok () (upd s i none) | none => .ub .deadObject

/-! ### arrays -/

/-- array.hpp:13-21, 40: `Size` objects.  The special member functions are implicit; array.hpp:248-252 `swap` is `std::swap_ranges`, from the first to the last.  (Arrays
without elements have no state, so they are left out.)  Element `k` of array `i` is object `i * Size + k`. -/
def array {σ : Type} (C : Class σ) (n : Nat) : Class σ :=
  product (fun k : Fin (n + 1) => C.at fun i => i * (n + 1) + k) (List.finRange (n + 1)) (List.finRange (n + 1))

/-! ### tuples -/

/-- tuple.hpp:44-47, 74: a base class with the other components, then the first: the special member functions are implicit and go from the last component to the first;
tuple.hpp:62-67 `swap` from the first to the last.  (Tuples without components have no state.) -/
def tuple {n : Nat} {σ : Fin (n + 1) → Type} (C : ∀ k, Class (σ k)) : Class (∀ k, σ k) :=
  product (fun k => (C k).nth k) (List.finRange (n + 1)).reverse (List.finRange (n + 1))

/-! ### optionals -/

section Optional

variable {σ : Type} (C : Class σ)

/-- optional.hpp:29 `initialized`, of the optionals that are alive -/
abbrev Flags := Nat → Option Bool

/-- `initialized` -/
def initialized (i : Nat) : M (With Flags σ) Bool := fun s => match s.own i with | some b => .ok b s | none => .ub .deadObject

/-- `initialized = b` -/
def setInitialized (i : Nat) (b : Option Bool) : M (With Flags σ) Unit := fun s => .ok () { s with own := upd s.own i b }

/-- optional.hpp:148-154 `reset` -/
def reset (i : Nat) : M (With Flags σ) Unit := M.noexcept do
  if ← initialized i then
    inner (C.dtor i)
    setInitialized i (some false)

/-- optional.hpp:74-82 `operator=(const Type &)`, given the value of optional `j` -/
def assignValue (i j : Nat) : M (With Flags σ) Unit := do
  if ← initialized i then inner (C.assign i j)
  else
    inner (C.copy i j)
    setInitialized i (some true)

/-- optional.hpp:83-91 `operator=(Type &&)`, given the value of optional `j` -/
def assignRvalue (i j : Nat) : M (With Flags σ) Unit := M.noexcept do
  if ← initialized i then inner (C.moveAssign i j)
  else
    inner (C.move i j)
    setInitialized i (some true)

/-- The value of optional `i` is object `i`.  If a constructor throws there is no optional.  (That `Type{…}` is the copy or move constructor: C63, C74.) -/
def optional : Class (With Flags σ) where
  /- optional.hpp:36-37 -/
  copy i j := do
    let b ← initialized j
    setInitialized i (some b)
    M.onExc (do if ← initialized j then inner (C.copy i j)) (setInitialized i none)
  /- optional.hpp:38-39 -/
  move i j := M.noexcept do
    let b ← initialized j
    setInitialized i (some b)
    if ← initialized j then inner (C.move i j)
  /- optional.hpp:57-64 -/
  assign i j := do
    if i ≠ j then
      if ← initialized j then assignValue C i j else reset C i
  /- optional.hpp:65-72 -/
  moveAssign i j := M.noexcept do
    if i ≠ j then
      if ← initialized j then assignRvalue C i j else reset C i
  /- optional.hpp:168-189 -/
  swap i j := M.noexcept do
    if i = j then return ()
    let a ← initialized i
    let b ← initialized j
    if !a && !b then return ()
    else if a && !b then
      inner (C.move j i)
      setInitialized j (some true)
      inner (C.dtor i)
      setInitialized i (some false)
    else if !a && b then
      inner (C.move i j)
      setInitialized i (some true)
      inner (C.dtor j)
      setInitialized j (some false)
    else inner (C.swap i j)
  /- optional.hpp:93-94 -/
  dtor i := M.noexcept do
    reset C i
    setInitialized i none

end Optional

/-! ### variants -/

section Variant

variable {κ : Type} [DecidableEq κ] {σ : Type} (C : κ → Class σ)

/-- variant.hpp:196 `type`, of the variants that are alive -/
abbrev Types (κ : Type) := Nat → Option κ

/-- `type` -/
def type (i : Nat) : M (With (Types κ) σ) κ := fun s => match s.own i with | some k => .ok k s | none => .ub .deadObject

/-- `type = k` -/
def setType (i : Nat) (k : Option κ) : M (With (Types κ) σ) Unit := fun s => .ok () { s with own := upd s.own i k }

/-- variant.hpp:131-142 `assign<Move>`, 44-49 `set`: constructs alternative `k` of variant `i` from that of variant `j` -/
def assignFrom (move : Bool) (k : κ) (i j : Nat) : M (With (Types κ) σ) Unit :=
  if move then M.noexcept (inner ((C k).move i j)) else inner ((C k).copy i j)

/-- variant.hpp:144-150 `destroy`, 51-56 -/
def destroy (k : κ) (i : Nat) : M (With (Types κ) σ) Unit := M.noexcept (inner ((C k).dtor i))

/-- variant.hpp:207 -/
def copyVariant (i j : Nat) : M (With (Types κ) σ) Unit := do
  let k ← type j
  setType i (some k)
  M.onExc (assignFrom C false k i j) (setType i none)

/-- variant.hpp:208 -/
def moveVariant (i j : Nat) : M (With (Types κ) σ) Unit := M.noexcept do
  let k ← type j
  setType i (some k)
  assignFrom C true k i j

/-- variant.hpp:248 -/
def dtorVariant (i : Nat) : M (With (Types κ) σ) Unit := M.noexcept do
  let k ← type i
  destroy C k i
  setType i none

/-- variant.hpp:223-231; variant 0 is the local variable `tmp` -/
def assignVariant (i j : Nat) : M (With (Types κ) σ) Unit := do
  if i ≠ j then
    copyVariant C 0 j
    M.withDtor (do
      let k ← type i
      destroy C k i
      let k' ← type 0
      assignFrom C true k' i 0
      let k'' ← type j
      setType i (some k'')) (dtorVariant C 0)

/-- variant.hpp:232-239 -/
def moveAssignVariant (i j : Nat) : M (With (Types κ) σ) Unit := M.noexcept do
  if i ≠ j then
    let k ← type i
    destroy C k i
    let k' ← type j
    assignFrom C true k' i j
    let k'' ← type j
    setType i (some k'')

/-- `std::swap`; variant 0 is its local variable -/
def stdSwap (i j : Nat) : M (With (Types κ) σ) Unit := M.noexcept do
  moveVariant C 0 i
  M.withDtor (do
    moveAssignVariant C i j
    moveAssignVariant C j 0) (dtorVariant C 0)

/-- variant.hpp:315-321, 160-169 -/
def swapVariant (i j : Nat) : M (With (Types κ) σ) Unit := M.noexcept do
  if i = j then return ()
  let k ← type i
  let k' ← type j
  if k = k' then M.noexcept (inner ((C k).swap i j)) else stdSwap C i j

/-- Alternative `k` of variant `i` is object `i` of the class for `k`.  Variant 0 is for local variables. -/
def variant : Class (With (Types κ) σ) where
  copy i j := copyVariant C (i + 1) (j + 1)
  move i j := moveVariant C (i + 1) (j + 1)
  assign i j := assignVariant C (i + 1) (j + 1)
  moveAssign i j := moveAssignVariant C (i + 1) (j + 1)
  swap i j := swapVariant C (i + 1) (j + 1)
  dtor i := dtorVariant C (i + 1)

end Variant

end Ptl.Nested

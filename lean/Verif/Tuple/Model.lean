import Verif.Arr.Model

/-!
# Model of `ptl::tuple<Types...>` (inc/ptl/tuple.hpp)

Every definition cites the lines it models.  `ts` describes `Types...`.  The state, the locations of elements and the
operations on them are those of the array model: element `k` of tuple `i` is `⟨i, k⟩`, where `k` counts how many `storage_t` are
between `storage_t<Types...>` and the one whose `value` it is (every `storage_t` is the base class of the one before, 43-76).
-/

namespace Ptl.Tuple

open View (Loc)
open Arr (St AM readLoc writeLoc newObj alive fallible copyAssign moveAssign swapElem)

/-- an element type.  Moves, swaps and destruction cannot throw (tuple.hpp:14-23); `eq` and `lt` are its `==` and `<`. -/
structure Elem (ν : Type) extends Arr.Elem ν where
  /-- value of `Head{arg}` for an argument with the given value (conversion, braces) -/
  init : ν → ν
  eq : ν → ν → Bool
  lt : ν → ν → Bool

variable {ν : Type}

/-- an argument of the constructor: some object with value `v` (the construction from it may throw); element `k` of tuple `j`;
the same as an rvalue (of the type to construct, so it cannot throw) -/
inductive Arg (ν : Type) where
  | val (v : ν)
  | elem (j k : Nat)
  | mv (j k : Nat)

variable (ts : List (Elem ν))

/-- tuple.hpp:47 `value{std::forward<Arg>(arg)}`.  (Simplification: an argument from which the construction throws is unchanged.) -/
def Arg.take (T : Elem ν) : Arg ν → AM ν ν
  | .val v => do
    fallible
    pure (T.init v)
  | .elem j k => do
    fallible
    let v ← readLoc ⟨j, k⟩
    pure (T.init v)
  | .mv j k => do
    let v ← readLoc ⟨j, k⟩
    writeLoc ⟨j, k⟩ (T.moved v)
    pure (T.init v)

/-! ### storage_t -/

/-- tuple.hpp:46-47 constructor: first the base class, with the remaining arguments, then the member.  Other numbers of arguments
do not compile. -/
def storage : List (Elem ν) → List (Arg ν) → AM ν (List ν)
  | [], [] => pure []
  | T :: ts, a :: as => do
    let vs ← storage ts as
    let v ← a.take T
    pure (v :: vs)
  | _, _ => M.ub .precondition

/-- tuple.hpp:49-60 `get<Index>`, for the storage at depth `d`; indices beyond the end do not compile -/
def storageGet (i : Nat) : List (Elem ν) → (index d : Nat) → AM ν Loc
  | [], _, _ => M.ub .precondition
  | _ :: ts, index, d => if index = 0 then pure ⟨i, d⟩ else storageGet i ts (index - 1) (d + 1)

/-- tuple.hpp:33, 62-67 `swap` -/
def storageSwap (i j : Nat) : List (Elem ν) → (d : Nat) → AM ν Unit
  | [], _ => pure ()
  | _ :: ts, d => do
    swapElem ⟨i, d⟩ ⟨j, d⟩
    storageSwap i j ts (d + 1)

/-- tuple.hpp:37, 69-70 `equal` -/
def storageEqual (i j : Nat) : List (Elem ν) → (d : Nat) → AM ν Bool
  | [], _ => pure true
  | T :: ts, d => do
    let x ← readLoc ⟨i, d⟩
    let y ← readLoc ⟨j, d⟩
    if T.eq x y then storageEqual i j ts (d + 1) else pure false

/-- tuple.hpp:40, 71-72 `less` -/
def storageLess (i j : Nat) : List (Elem ν) → (d : Nat) → AM ν Bool
  | [], _ => pure false
  | T :: ts, d => do
    let x ← readLoc ⟨i, d⟩
    let y ← readLoc ⟨j, d⟩
    if T.lt x y then pure true
    else if T.lt y x then pure false
    else storageLess i j ts (d + 1)

/-- the implicit copy constructor: base class first, then the member -/
def storageCopy (j : Nat) : List (Elem ν) → (d : Nat) → AM ν (List ν)
  | [], _ => pure []
  | _ :: ts, d => do
    let vs ← storageCopy j ts (d + 1)
    fallible
    let v ← readLoc ⟨j, d⟩
    pure (v :: vs)

/-- the implicit move constructor -/
def storageMove (j : Nat) : List (Elem ν) → (d : Nat) → AM ν (List ν)
  | [], _ => pure []
  | T :: ts, d => do
    let vs ← storageMove j ts (d + 1)
    let v ← readLoc ⟨j, d⟩
    writeLoc ⟨j, d⟩ (T.moved v)
    pure (v :: vs)

/-- the implicit copy assignment: base class first, then the member -/
def storageAssign (i j : Nat) : List (Elem ν) → (d : Nat) → AM ν Unit
  | [], _ => pure ()
  | T :: ts, d => do
    storageAssign i j ts (d + 1)
    copyAssign T.toElem ⟨i, d⟩ (.elem j d)

/-- the implicit move assignment -/
def storageMoveAssign (i j : Nat) : List (Elem ν) → (d : Nat) → AM ν Unit
  | [], _ => pure ()
  | T :: ts, d => do
    storageMoveAssign i j ts (d + 1)
    moveAssign T.toElem ⟨i, d⟩ ⟨j, d⟩

/-! ### tuple -/

/-- tuple.hpp:89-91 constructor.  (No arguments for a non-empty tuple: accepted by the constraint, but does not compile.) -/
def ctor (i : Nat) (args : List (Arg ν)) : AM ν Unit := do
  let vs ← storage ts args
  newObj i vs

/-- the implicit copy constructor (its selection for one-element tuples: `Verif/Overload`) -/
def ctorCopy (i j : Nat) : AM ν Unit := do
  let _ ← alive j
  let vs ← storageCopy j ts 0
  newObj i vs

/-- the implicit move constructor -/
def ctorMove (i j : Nat) : AM ν Unit := do
  let _ ← alive j
  let vs ← storageMove j ts 0
  newObj i vs

/-- the implicit destructor -/
def dtor (i : Nat) : AM ν Unit := do
  let _ ← alive i
  fun s => .ok () { s with mem := upd s.mem i none }

/-- the implicit copy assignment -/
def assignCopy (i j : Nat) : AM ν Unit := do
  let _ ← alive j
  let _ ← alive i
  storageAssign i j ts 0

/-- the implicit move assignment -/
def assignMove (i j : Nat) : AM ν Unit := do
  let _ ← alive j
  let _ ← alive i
  storageMoveAssign i j ts 0

/-- tuple.hpp:94-105 `get<Index>`; the rvalue overloads give the same element as an rvalue -/
def get (i index : Nat) : AM ν Loc := do
  let _ ← alive i
  storageGet i ts index 0

/-- tuple.hpp:107-111 `swap`, member and non-member -/
def swap (i j : Nat) : AM ν Unit := M.noexcept do
  let _ ← alive i
  let _ ← alive j
  storageSwap i j ts 0

/-- tuple.hpp:113-115 `==` -/
def opEq (i j : Nat) : AM ν Bool := do
  let _ ← alive i
  let _ ← alive j
  storageEqual i j ts 0

/-- tuple.hpp:116-118 `!=` -/
def opNe (i j : Nat) : AM ν Bool := do
  let b ← opEq ts i j
  pure (!b)

/-- tuple.hpp:120-122 `<` -/
def opLt (i j : Nat) : AM ν Bool := do
  let _ ← alive i
  let _ ← alive j
  storageLess i j ts 0

/-- tuple.hpp:123-125 `>` -/
def opGt (i j : Nat) : AM ν Bool := opLt ts j i

/-- tuple.hpp:126-128 `<=` -/
def opLe (i j : Nat) : AM ν Bool := do
  let b ← opGt ts i j
  pure (!b)

/-- tuple.hpp:129-131 `>=` -/
def opGe (i j : Nat) : AM ν Bool := do
  let b ← opLt ts i j
  pure (!b)

/-! ### `std::tuple_size`, `std::tuple_element` -/

/-- tuple.hpp:139-140 -/
def tupleSize : Nat := ts.length

/-- tuple.hpp:142-146: recursion to the head; `none`: no such specialisation -/
def tupleElement {τ : Type} : (index : Nat) → List τ → Option τ
  | _, [] => none
  | 0, head :: _ => some head
  | index + 1, _ :: tail => tupleElement index tail

end Ptl.Tuple

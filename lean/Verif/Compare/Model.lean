import Verif.Basic
import Verif.Bytes

/-!
# Comparison operators whose element comparisons may throw

The models of the containers compare elements by functions that do not throw.  Here the elements' operators may throw: an answer `none` is an
exception.  Containers are given by their values (how these are read from memory is in the models of the containers).  Every definition cites the
lines it models.
-/

namespace Ptl.Compare

variable {α : Type}

/-- an element operator: the answer, or `none` if it throws -/
abbrev Ask (α : Type) := α → α → Option Bool

/-- computations without state -/
abbrev CM := M Unit

/-- call an element operator -/
def ask (r : Option Bool) : CM Bool :=
  match r with
  | some b => pure b
  | none => M.throw .user

/-! ### vector and array -/

/-- `std::lexicographical_compare` -/
def lexLoop (lt : Ask α) : List α → List α → CM Bool
  | [], [] => pure false
  | [], _ :: _ => pure true
  | _ :: _, [] => pure false
  | x :: xs, y :: ys => do
    if ← ask (lt x y) then pure true
    else if ← ask (lt y x) then pure false
    else lexLoop lt xs ys

/-- `std::equal`, element by element -/
def eqLoop (eq : Ask α) : List α → List α → CM Bool
  | x :: xs, y :: ys => do
    if ← ask (eq x y) then eqLoop eq xs ys else pure false
  | _, _ => pure true

/-- vector.hpp:381-382, array.hpp:261-263 `operator<` (`noexcept`) -/
def rangeLt (lt : Ask α) (xs ys : List α) : CM Bool := M.noexcept (lexLoop lt xs ys)
/-- vector.hpp:383-384, array.hpp:264-266 `operator>` (`noexcept`) -/
def rangeGt (lt : Ask α) (xs ys : List α) : CM Bool := M.noexcept (rangeLt lt ys xs)
/-- vector.hpp:385-386, array.hpp:267-269 `operator<=` (`noexcept`) -/
def rangeLe (lt : Ask α) (xs ys : List α) : CM Bool := M.noexcept do
  let b ← rangeGt lt xs ys
  pure (!b)
/-- vector.hpp:387-388, array.hpp:270-272 `operator>=` (`noexcept`) -/
def rangeGe (lt : Ask α) (xs ys : List α) : CM Bool := M.noexcept do
  let b ← rangeLt lt xs ys
  pure (!b)
/-- vector.hpp:389-390, array.hpp:254-256 `operator==` (`noexcept`): `std::equal` for random access iterators, which compares the lengths first -/
def rangeEq (eq : Ask α) (xs ys : List α) : CM Bool := M.noexcept do
  if xs.length ≠ ys.length then pure false else eqLoop eq xs ys
/-- vector.hpp:391-392, array.hpp:257-259 `operator!=` (`noexcept`) -/
def rangeNe (eq : Ask α) (xs ys : List α) : CM Bool := M.noexcept do
  let b ← rangeEq eq xs ys
  pure (!b)

/-! ### tuple; one operator per element type -/

/-- tuple.hpp:40, 71-72 `less` (`noexcept`) -/
def tupleLess : List (Ask α) → List α → List α → CM Bool
  | lt :: lts, x :: xs, y :: ys => M.noexcept do
    if ← ask (lt x y) then pure true
    else if ← ask (lt y x) then pure false
    else tupleLess lts xs ys
  | _, _, _ => pure false

/-- tuple.hpp:37, 69-70 `equal` (`noexcept`) -/
def tupleEqual : List (Ask α) → List α → List α → CM Bool
  | eq :: eqs, x :: xs, y :: ys => M.noexcept do
    if ← ask (eq x y) then tupleEqual eqs xs ys else pure false
  | _, _, _ => pure true

/-- tuple.hpp:120-122 `operator<` (`noexcept`) -/
def tupleLt (lts : List (Ask α)) (xs ys : List α) : CM Bool := M.noexcept (tupleLess lts xs ys)
/-- tuple.hpp:113-115 `operator==` (`noexcept`) -/
def tupleEq (eqs : List (Ask α)) (xs ys : List α) : CM Bool := M.noexcept (tupleEqual eqs xs ys)
/-- tuple.hpp:116-118 `operator!=` (`noexcept`) -/
def tupleNe (eqs : List (Ask α)) (xs ys : List α) : CM Bool := M.noexcept do
  let b ← tupleEq eqs xs ys
  pure (!b)
/-- tuple.hpp:123-125 `operator>` (`noexcept`) -/
def tupleGt (lts : List (Ask α)) (xs ys : List α) : CM Bool := M.noexcept (tupleLt lts ys xs)
/-- tuple.hpp:126-128 `operator<=` (`noexcept`) -/
def tupleLe (lts : List (Ask α)) (xs ys : List α) : CM Bool := M.noexcept do
  let b ← tupleGt lts xs ys
  pure (!b)
/-- tuple.hpp:129-131 `operator>=` (`noexcept`) -/
def tupleGe (lts : List (Ask α)) (xs ys : List α) : CM Bool := M.noexcept do
  let b ← tupleLt lts xs ys
  pure (!b)

/-! ### optional and variant; the six operators of the values are independent of each other -/

/-- the six operators of a class -/
abbrev Asks (α : Type) := Cmp → Ask α

/-- optional.hpp:191-233 `==`, `!=`, `<`, `<=`, `>`, `>=` (`noexcept`) -/
def optionalCmp (ops : Asks α) : Cmp → Option α → Option α → CM Bool
  | .eq, x, y => M.noexcept do
    if x.isSome != y.isSome then pure false
    else match x, y with
      | some x, some y => ask (ops .eq x y)
      | _, _ => pure true
  | .ne, x, y => M.noexcept do
    if x.isSome != y.isSome then pure true
    else match x, y with
      | some x, some y => ask (ops .ne x y)
      | _, _ => pure false
  | .lt, x, y => M.noexcept do
    match y with
    | none => pure false
    | some y => match x with
      | none => pure true
      | some x => ask (ops .lt x y)
  | .le, x, y => M.noexcept do
    match x with
    | none => pure true
    | some x => match y with
      | none => pure false
      | some y => ask (ops .le x y)
  | .gt, x, y => M.noexcept do
    match x with
    | none => pure false
    | some x => match y with
      | none => pure true
      | some y => ask (ops .gt x y)
  | .ge, x, y => M.noexcept do
    match y with
    | none => pure true
    | some y => match x with
      | none => pure false
      | some x => ask (ops .ge x y)

/-- variant.hpp:152-158 `compare` (`noexcept`): the operator of alternative `type` -/
def variantCompare (alts : List (Asks α)) (type : Nat) (c : Cmp) (x y : α) : CM Bool := M.noexcept do
  match alts[type]? with
  | some ops => ask (ops c x y)
  | none => M.ub .outOfBounds

/-- variant.hpp:323-364 the six operators (`noexcept`); a variant is its index and its value -/
def variantCmp (alts : List (Asks α)) (c : Cmp) (x y : Nat × α) : CM Bool := M.noexcept do
  match c with
  | .eq => if x.1 ≠ y.1 then pure false else variantCompare alts x.1 .eq x.2 y.2
  | .ne => if x.1 ≠ y.1 then pure true else variantCompare alts x.1 .ne x.2 y.2
  | .lt => if x.1 < y.1 then pure true else if x.1 > y.1 then pure false else variantCompare alts x.1 .lt x.2 y.2
  | .le => if x.1 < y.1 then pure true else if x.1 > y.1 then pure false else variantCompare alts x.1 .le x.2 y.2
  | .gt => if x.1 > y.1 then pure true else if x.1 < y.1 then pure false else variantCompare alts x.1 .gt x.2 y.2
  | .ge => if x.1 > y.1 then pure true else if x.1 < y.1 then pure false else variantCompare alts x.1 .ge x.2 y.2

end Ptl.Compare

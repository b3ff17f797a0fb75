import Verif.Tests.Basic
import Verif.Tuple.Client

/-! # test/tuple.cpp, run on the model -/

namespace Ptl.Tests.Tuple

open Ptl.Tuple
open Ptl.Arr (St AM readLoc)

/-- `int`, `float` (only integral values occur) and `bool` (0 and 1) -/
def int : Elem Int :=
  { moved := id, selfMove := id, torn := fun old _ => old, dflt := 0, init := id, eq := (· == ·), lt := (· < ·) }

/-- `tuple<int, float, bool>` -/
def ts : List (Elem Int) := [int, int, int]

/-- a test case: nothing throws -/
def ok (test : AM Int Unit) : Bool := passes (start fun _ => false) test

section
variable (ts : List (Elem Int))

/-- a call -/
def call (op : Op Int) : AM Int Unit := op.run ts

/-- `tup.get<k>()`, read -/
def value (i k : Nat) : AM Int Int := do
  let l ← get ts i k
  readLoc l

/-- `REQUIRE(l.get<k>() == r.get<k>())` for all `k` -/
def same (l r : Nat) : AM Int Unit :=
  (List.range ts.length).forM fun k => do require ((← value ts l k) == (← value ts r k))

/-- `REQUIRE((l == r))` -/
def eq (l r : Nat) : AM Int Unit := do require (← opEq ts l r)

/-- `REQUIRE((l < r) == b)` -/
def lt (l r : Nat) (b : Bool := true) : AM Int Unit := do require ((← opLt ts l r) == b)

/-- the end of the scope -/
def leave (is : List Nat) : AM Int Unit := is.forM fun i => call ts (.dtor i)

end

/-- test/tuple.cpp:23-40 -/
theorem tuple_ctor : ok (do
    call ts (.ctor 0 [.val 5, .val 1, .val 1])
    call ts (.ctorCopy 1 0)
    same ts 0 1
    call ts (.ctor 2 [.val 1, .val 0, .val 0])
    call ts (.assignCopy 2 1)
    same ts 0 2
    call [] (.ctor 10 [])
    call [] (.ctorCopy 11 10)
    call [] (.ctor 12 [])
    call [] (.assignCopy 12 10)
    leave [] [12, 11, 10]
    leave ts [2, 1, 0]) = true := by decide +kernel

/-- test/tuple.cpp:42-50 -/
theorem tuple_swapping : ok (do
    call ts (.ctor 10 [.val 5, .val 1, .val 1])
    call ts (.ctor 11 [.val 1, .val 0, .val 0])
    call ts (.ctorCopy 0 10)
    call ts (.ctorCopy 1 11)
    eq ts 0 10
    eq ts 1 11
    call ts (.swap 0 1)
    eq ts 0 11
    eq ts 1 10
    leave ts [1, 0, 11, 10]) = true := by decide +kernel

/-- test/tuple.cpp:52-66 -/
theorem tuple_comparison : ok (do
    call ts (.ctor 0 [.val 5, .val 1, .val 1])
    call ts (.ctor 1 [.val 1, .val 0, .val 0])
    lt ts 1 0
    call ts (.set 0 0 1)
    lt ts 1 0
    call ts (.set 0 1 0)
    lt ts 1 0
    call ts (.set 0 2 0)
    lt ts 1 0 false
    eq ts 1 0
    call [] (.ctor 10 [])
    call [] (.ctor 11 [])
    lt [] 10 11 false
    eq [] 10 11
    leave [] [11, 10]
    leave ts [1, 0]) = true := by decide +kernel

/-- test/tuple.cpp:68-74: the structured binding names the elements of a copy -/
theorem tuple_structured_binding : ok (do
    call ts (.ctor 0 [.val 5, .val 1, .val 1])
    call ts (.ctorCopy 1 0)
    require (tupleSize ts == 3)
    same ts 1 0
    leave ts [1, 0]) = true := by decide +kernel

-- a test whose expectation is wrong does not pass
example : ok (do
    call ts (.ctor 0 [.val 5, .val 1, .val 1])
    lt ts 0 0) = false := by decide +kernel

end Ptl.Tests.Tuple

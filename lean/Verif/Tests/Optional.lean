import Verif.Tests.Basic
import Verif.Optional.Client

/-! # test/optional.cpp, run on the model -/

namespace Ptl.Tests.Optional

open Ptl.Optional

/-- a type with the operators of `α`; `moved` is left behind by moves -/
def elem {α : Type} (moved : α → α) (lt eq : α → α → Bool) : Elem α where
  braced v := v
  moveThrows := false
  moved := moved
  movedAssign := moved
  selfMove v := v
  torn old _ := old
  cmp
    | .lt, a, b => lt a b
    | .le, a, b => !lt b a
    | .gt, a, b => lt b a
    | .ge, a, b => !lt a b
    | .eq, a, b => eq a b
    | .ne, a, b => !eq a b

/-- `int` (and `float`, of which only integral values occur) -/
def int : Elem Int := elem id (· < ·) (· == ·)

/-- `moveable` (test/utils.hpp:12-26): its value is the flag `moved` -/
def moveable : Elem Bool := elem (fun _ => true) (fun a b => !a && b) (· == ·)

/-- `ptl::string`: a moved-from string is empty -/
def str : Elem (List UInt8) := elem (fun _ => []) (fun a b => decide (a < b)) (· == ·)

section
variable {α : Type}

/-- a test case: nothing throws -/
def ok (test : OM α Unit) : Bool := passes (start α fun _ => false) test

/-- `REQUIRE(static_cast<bool>(op) == b)` -/
def has (i : Nat) (b : Bool := true) : OM α Unit := do require ((← hasValue i) == b)

/-- `REQUIRE(*op == v)` -/
def is [BEq α] (i : Nat) (v : α) : OM α Unit := do
  let p ← deref i
  require ((← readVal p) == v)

/-- `REQUIRE(l <op> r)` -/
def cmp (E : Elem α) (c : Cmp) (l r : Nat) : OM α Unit := do require (← compare E c l r)

/-- the end of the scope -/
def leave (is : List Nat) : OM α Unit := is.forM dtor

end

/-- test/optional.cpp:18-36 -/
theorem optional_ctor : ok (do
    let call := Op.run int
    call (.ctorNull 1)
    has 1 false
    call (.assignFromMove 1 (.ext 1))
    has 1
    is 1 1
    call (.ctorInPlace 2 (.val 5))
    has 2
    is 2 5
    call (.ctorNull 3)
    has 3 false
    call (.emplace 3 (.val 10))
    has 3
    is 3 10
    leave [3, 2, 1]) = true := by decide +kernel

/-- test/optional.cpp:38-46 -/
theorem optional_copy : ok (do
    let call := Op.run int
    call (.ctorNull 1)
    call (.ctorCopy 2 1)
    cmp int .eq 1 2
    call (.ctorFromMove 3 (.ext 5))
    call (.assignCopy 2 3)
    cmp int .eq 3 2
    leave [3, 2, 1]) = true := by decide +kernel

/-- test/optional.cpp:48-57 -/
theorem optional_move : ok (do
    let call := Op.run moveable
    call (.ctorFromMove 1 (.ext false))
    call (.ctorMove 2 1)
    is 1 true
    is 2 false
    call (.assignMove 1 2)
    is 1 false
    is 2 true
    leave [2, 1]) = true := by decide +kernel

/-- test/optional.cpp:59-73 -/
theorem optional_value : ok (do
    let call := Op.run int
    call (.ctorNull 1)
    has 1 false
    require ((← valueOr 1 (.val 10)) == 10)
    requireThrows (value 1)
    call (.assignFromMove 1 (.ext 20))
    has 1
    require ((← valueOr 1 (.val 10)) == 20)
    let _ ← value 1
    call (.assignNull 1)
    has 1 false
    require ((← valueOr 1 (.val 10)) == 10)
    requireThrows (value 1)
    leave [1]) = true := by decide +kernel

/-- test/optional.cpp:75-89 -/
theorem optional_value_string : ok (do
    let call := Op.run str
    call (.ctorNull 2)
    has 2 false
    require ((← valueOrMove str 2 (.val b!"Test")) == b!"Test")
    requireThrows (value 2)
    call (.assignFromMove 2 (.ext b!"Hello World"))
    has 2
    require ((← valueOrMove str 2 (.val b!"Test")) == b!"Hello World")
    let _ ← value 2
    call (.assignNull 2)
    has 2 false
    require ((← valueOrMove str 2 (.val b!"Test")) == b!"Test")
    requireThrows (value 2)
    leave [2]) = true := by decide +kernel

/-- test/optional.cpp:92-103 -/
theorem optional_swapping : ok (do
    let call := Op.run int
    call (.ctorFromMove 1 (.ext 5))
    call (.ctorFromMove 2 (.ext 10))
    call (.swap 1 2)
    is 1 10
    is 2 5
    call (.ctorNull 3)
    call (.swap 1 3)
    has 1 false
    has 3
    is 3 10
    leave [3, 2, 1]) = true := by decide +kernel

/-- test/optional.cpp:105-114 -/
theorem optional_comparison : ok (do
    let call := Op.run int
    call (.ctorNull 1)
    call (.ctorFromMove 2 (.ext 5))
    call (.ctorFromMove 3 (.ext 10))
    call (.ctorNull 4)
    call (.ctorFromMove 5 (.ext 10))
    cmp int .ne 1 2
    cmp int .ne 1 3
    cmp int .eq 1 4
    cmp int .ne 1 5
    cmp int .lt 2 3
    cmp int .lt 2 5
    cmp int .eq 3 5
    leave [5, 4, 3, 2, 1]) = true := by decide +kernel

-- a test whose expectation is wrong does not pass
example : ok (do
    Op.run int (.ctorNull 1)
    has 1) = false := by decide +kernel

end Ptl.Tests.Optional

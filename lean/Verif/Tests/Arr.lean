import Verif.Tests.Basic
import Verif.Arr.Client

/-! # test/array.cpp, run on the model -/

namespace Ptl.Tests.Arr

open Ptl.Arr

/-- `int` -/
def int : Elem Int := { moved := id, selfMove := id, torn := fun old _ => old, dflt := 0 }

/-- a test case: nothing throws -/
def ok (test : AM Int Unit) : Bool := passes (start fun _ => false) test

section
variable (N : Nat)

/-- a call -/
def call (op : Op Int) : AM Int Unit := op.run int N

/-- `array<int, N> a{…}` -/
def brace (i : Nat) (l : List Int) : AM Int Unit := call N (.ctor i (l.map .val))

/-- `a[k]`, read -/
def at' (i k : Nat) : AM Int Int := do
  let l ← index N i k
  readLoc l

/-- `for(const auto & tmp : a) REQUIRE(tmp == v)` -/
def allAre (i : Nat) (v : Int) : AM Int Unit := do
  let b ← begin_ N i
  let e ← end_ N i
  let ls ← onMem (Iter.walk · e (N + 1) b)
  require (ls.length == N)
  ls.forM fun l => do require ((← readLoc l) == v)

/-- `for(std::size_t i{0}; i < a.size(); ++i) REQUIRE(a[i] == f(i))` -/
def each (i : Nat) (f : Nat → Int) : AM Int Unit :=
  (List.range (size N)).forM fun k => do require ((← at' N i k) == f k)

/-- `REQUIRE((l == r) == b)` -/
def eq (l r : Nat) (b : Bool := true) : AM Int Unit := do require ((← opEq N (· == ·) l r) == b)

/-- `REQUIRE(l != r)` -/
def ne (l r : Nat) : AM Int Unit := do require (← opNe N (· == ·) l r)

/-- `REQUIRE((l < r) == b)` -/
def lt (l r : Nat) (b : Bool := true) : AM Int Unit := do require ((← opLt N (· < ·) l r) == b)

/-- the end of the scope -/
def leave (is : List Nat) : AM Int Unit := is.forM fun i => call N (.dtor i)

end

/-- test/array.cpp:15-22 -/
theorem array_ctor : ok (do
    brace 10 0 []
    allAre 10 0 0
    brace 10 1 [0, 1, 2, 3, 4, 5, 6, 7, 8, 9]
    each 10 1 fun k => k
    brace 10 2 [9, 8, 7, 6, 5, 4, 3, 2, 1]
    each 10 2 fun k => (10 - 1) - k
    leave 10 [2, 1, 0]) = true := by decide +kernel

/-- test/array.cpp:24-31 (`max_size` is the same function, array.hpp:192-195) -/
theorem array_size : ok (do
    brace 10 0 []
    require (size 10 == 10)
    brace 0 1 []
    require (size 0 == 0)
    leave 0 [1]
    leave 10 [0]) = true := by decide +kernel

/-- test/array.cpp:33-40 -/
theorem array_comparison : ok (do
    brace 3 0 [0, 1, 2]
    call 3 (.ctorCopy 1 0)
    eq 3 0 1
    lt 3 0 1 false
    brace 3 2 [0, 1, 3]
    lt 3 0 2
    eq 3 0 2 false
    leave 3 [2, 1, 0]) = true := by decide +kernel

/-- test/array.cpp:42-46 -/
theorem array_fill : ok (do
    brace 10 0 []
    call 10 (.fill 0 (.val 10))
    allAre 10 0 10
    leave 10 [0]) = true := by decide +kernel

/-- test/array.cpp:48-61 -/
theorem array_swapping : ok (do
    brace 3 0 [0, 1, 2]
    brace 3 1 [3, 4, 5]
    call 3 (.ctorCopy 10 0)
    call 3 (.ctorCopy 11 1)
    eq 3 0 10
    eq 3 1 11
    ne 3 0 1
    call 3 (.swap 0 1)
    eq 3 0 11
    eq 3 1 10
    ne 3 0 1
    leave 3 [11, 10, 1, 0]) = true := by decide +kernel

/-- test/array.cpp:63-69: the structured binding names the elements `get<0>`, `get<1>`, `get<2>` of a copy -/
theorem array_structured_binding : ok (do
    brace 3 0 [0, 1, 2]
    call 3 (.ctorCopy 1 0)
    (List.range 3).forM fun k => do
      let l ← get 3 1 k
      require ((← readLoc l) == (← at' 3 0 k))
    leave 3 [1, 0]) = true := by decide +kernel

-- a test whose expectation is wrong does not pass
example : ok (do
    brace 10 0 []
    allAre 10 0 1) = false := by decide +kernel

end Ptl.Tests.Arr

import Verif.Tests.Basic
import Verif.Vector.Client

/-! # test/vector.cpp, run on the model -/

namespace Ptl.Tests.Vector

open Ptl.Vector

/-- `int` -/
def int : Elem Int :=
  { moved := id, selfMove := id, dflt := 0, size := 4, size_pos := by decide, size_max := by decide }

/-- a test case: nothing fails (no allocation, no copy) -/
def ok (test : VM Int Unit) : Bool := passes (start Int fun _ => false) test

/-- a call whose result is not used -/
def call (op : Op Int) : VM Int Unit := do
  let _ ← op.run int
  pure ()

/-- `const auto it{call}; REQUIRE(it == v.begin() + k);` -/
def gives (op : Op Int) (k : Nat) : VM Int Unit := do
  let r ← op.run int
  require (r == some k)

/-- elements of a braced list or of a `std::vector` -/
def vals (l : List Int) : Rng Int := .refs (l.map .val)

/-- `vector v{…}` -/
def brace (i : Nat) (l : List Int) : VM Int Unit := call (.ctorRange i (vals l))

/-- `vi == vj` -/
def eq (i j : Nat) : VM Int Unit := do require (← opEq (· == ·) (.var i) (.var j))

/-- `vi != vj` -/
def ne (i j : Nat) : VM Int Unit := do require (← opNe (· == ·) (.var i) (.var j))

/-- `REQUIRE(v == ptl::vector{…})`; the temporary is variable 99 -/
def is (i : Nat) (l : List Int) : VM Int Unit := do
  brace 99 l
  eq i 99
  call (.dtor 99)

/-- `REQUIRE(v.size() == n)` -/
def hasSize (i n : Nat) : VM Int Unit := do require ((← size (.var i)) == n)

/-- `REQUIRE(v.empty() == b)` -/
def isEmpty (i : Nat) (b : Bool) : VM Int Unit := do require ((← empty (.var i)) == b)

/-- `REQUIRE(v[k] == x)` -/
def atIs (i k : Nat) (x : Int) : VM Int Unit := do
  let p ← index (.var i) k
  let y ← readAt p
  require (y == x)

/-- `for(auto k{0}; k < n; ++k) …` -/
def times : Nat → (Nat → VM Int Unit) → VM Int Unit
  | 0, _ => pure ()
  | n + 1, f => do
    times n f
    f n

/-- test/vector.cpp:13-36 -/
theorem vector_ctor : ok (do
    call (.ctorDefault 0)
    isEmpty 0 true
    brace 1 [0, 1, 2, 3, 4, 5, 6, 7, 8, 9]
    hasSize 1 10
    times 10 fun k => atIs 1 k k
    call (.ctorInput 2 [0, 1, 2, 3, 4, 5, 6, 7, 8, 9])
    eq 2 1
    call (.ctorRange 3 (.refs ((List.range 10).map (.elem 1))))
    eq 3 1
    call (.ctorCount 4 10)
    hasSize 4 10
    is 4 [0, 0, 0, 0, 0, 0, 0, 0, 0, 0]
    call (.ctorFill 5 10 (.val 1))
    hasSize 5 10
    is 5 [1, 1, 1, 1, 1, 1, 1, 1, 1, 1]) = true := by decide +kernel

/-- test/vector.cpp:38-47 -/
theorem vector_copy : ok (do
    brace 0 [9, 8, 7, 6, 5, 4, 3, 2, 1, 0]
    hasSize 0 10
    call (.ctorCopy 1 0)
    eq 0 1
    call (.ctorDefault 2)
    call (.assignCopy 2 1)
    eq 2 1) = true := by decide +kernel

/-- test/vector.cpp:49-62 -/
theorem vector_move : ok (do
    brace 0 [9, 8, 7, 6, 5, 4, 3, 2, 1, 0]
    hasSize 0 10
    call (.ctorMove 1 0)
    isEmpty 0 true
    hasSize 1 10
    ne 1 0
    call (.ctorDefault 2)
    call (.assignMove 2 1)
    isEmpty 1 true
    hasSize 2 10
    ne 2 1) = true := by decide +kernel

/-- test/vector.cpp:64-71 -/
theorem vector_swapping : ok (do
    brace 0 [0, 1, 2, 3, 4]
    brace 1 [5, 6, 7, 8, 9]
    call (.swap 0 1)
    times 5 fun k => do
      atIs 0 k (k + 5)
      atIs 1 k k) = true := by decide +kernel

/-- test/vector.cpp:73-93 -/
theorem vector_resize : ok (do
    brace 0 [1, 2, 3, 4, 5, 6, 7, 8, 9]
    call (.resize 0 3)
    is 0 [1, 2, 3]
    call (.resize 0 5)
    is 0 [1, 2, 3, 0, 0]
    call (.resize 0 5)
    is 0 [1, 2, 3, 0, 0]
    call (.resizeFill 0 2 (.val 10))
    is 0 [1, 2]
    call (.resizeFill 0 5 (.val 10))
    is 0 [1, 2, 10, 10, 10]
    call (.resizeFill 0 5 (.val 20))
    is 0 [1, 2, 10, 10, 10]) = true := by decide +kernel

/-- test/vector.cpp:95-107 -/
theorem vector_clear : ok (do
    call (.ctorDefault 0)
    isEmpty 0 true
    call (.clear 0)
    isEmpty 0 true
    let r ← pushBack int (.var 0) (.val 0)
    let x ← readAt r
    require (x == 0)
    isEmpty 0 false
    call (.clear 0)
    isEmpty 0 true) = true := by decide +kernel

/-- test/vector.cpp:109-120 -/
theorem vector_erase : ok (do
    brace 0 [0, 0, 0, 10, 11, 12, 13, 14, 0, 0, 0, 99, 20, 21, 22, 23, 24, 0, 0, 0]
    gives (.erase 0 0 3) 0
    is 0 [10, 11, 12, 13, 14, 0, 0, 0, 99, 20, 21, 22, 23, 24, 0, 0, 0]
    let f ← pos 0 5
    let l ← pos 0 8
    let it1 ← erase int (.var 0) f l
    let x ← readAt it1
    require (x == 99)
    is 0 [10, 11, 12, 13, 14, 99, 20, 21, 22, 23, 24, 0, 0, 0]
    gives (.erase 0 11 14) 11
    is 0 [10, 11, 12, 13, 14, 99, 20, 21, 22, 23, 24]) = true := by decide +kernel

/-- test/vector.cpp:122-147 -/
theorem vector_insert : ok (do
    brace 0 [10, 11, 12, 13, 14, 20, 21, 22, 23, 24]
    gives (.insertInput 0 0 [99, 98, 97]) 0
    is 0 [99, 98, 97, 10, 11, 12, 13, 14, 20, 21, 22, 23, 24]
    gives (.insertInput 0 8 [99, 98, 97]) 8
    is 0 [99, 98, 97, 10, 11, 12, 13, 14, 99, 98, 97, 20, 21, 22, 23, 24]
    gives (.insertInput 0 16 [99, 98, 97]) 16
    hasSize 0 19
    is 0 [99, 98, 97, 10, 11, 12, 13, 14, 99, 98, 97, 20, 21, 22, 23, 24, 99, 98, 97]
    gives (.insertFill 0 0 2 (.val 55)) 0
    is 0 [55, 55, 99, 98, 97, 10, 11, 12, 13, 14, 99, 98, 97, 20, 21, 22, 23, 24, 99, 98, 97]
    gives (.insertFill 0 10 2 (.val 55)) 10
    is 0 [55, 55, 99, 98, 97, 10, 11, 12, 13, 14, 55, 55, 99, 98, 97, 20, 21, 22, 23, 24, 99, 98, 97]
    gives (.insertFill 0 23 2 (.val 55)) 23
    hasSize 0 25
    is 0 [55, 55, 99, 98, 97, 10, 11, 12, 13, 14, 55, 55, 99, 98, 97, 20, 21, 22, 23, 24, 99, 98, 97, 55, 55]) = true := by
  decide +kernel

/-- test/vector.cpp:149-162 -/
theorem vector_assign : ok (do
    call (.ctorDefault 0)
    call (.assignInput 0 [0, 1, 2, 3, 4, 5, 6, 7, 8, 9])
    is 0 [0, 1, 2, 3, 4, 5, 6, 7, 8, 9]
    call (.assignRange 0 (vals [1, 2, 3]))
    is 0 [1, 2, 3]
    call (.assignFill 0 4 (.val 1))
    is 0 [1, 1, 1, 1]) = true := by decide +kernel

-- a test whose expectation is wrong does not pass
example : ok (do
    brace 0 [1, 2, 3]
    is 0 [1, 2, 4]) = false := by decide +kernel

end Ptl.Tests.Vector

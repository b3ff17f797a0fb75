import Verif.Tests.Basic
import Verif.Bitset.Client

/-! # test/bitset.cpp, run on the model -/

namespace Ptl.Tests.Bitset

open Ptl.Bitset

/-- a test case -/
def ok (test : BM Unit) : Bool := passes (start fun c => c == 32) test

/-- a call whose result is not used -/
def call (n : Nat) (op : Op) : BM Unit := do
  let _ ← op.run n
  pure ()

/-- `REQUIRE(call == r)` -/
def gives (n : Nat) (op : Op) (r : Res) : BM Unit := do
  let r' ← op.run n
  require (r' == r)

/-- test/bitset.cpp:15-19 for the `std::bitset` in which exactly the bits `l` are set: the loop from `m` bits down -/
def sameBits (n i : Nat) (l : List Nat) : Nat → BM Unit
  | 0 => pure ()
  | m + 1 => do
    gives n (.index i m) (.bool (l.contains m))
    sameBits n i l m

/-- `REQUIRE(sb == pb)` for the `std::bitset` in which exactly the bits `l` are set -/
def is (n i : Nat) (l : List Nat) : BM Unit := sameBits n i l n

/-- `REQUIRE(bi == bj)` -/
def eq (n i j : Nat) : BM Unit := gives n (.opEq i j) (.bool true)

/-- test/bitset.cpp:23-35 -/
theorem bitset_ctor : ok (do
    call 10 (.ctor 1)
    is 10 1 []
    call 10 (.ctorVal 2 0b01010101#64)
    is 10 2 [0, 2, 4, 6]
    call 4 (.ctorVal 3 0b01010101#64)
    is 4 3 [0, 2]) = true := by decide +kernel

/-- test/bitset.cpp:37-56: what is written to the `std::stringstream` can be read next -/
theorem bitset_io : ok (do
    call 5 (.ctorVal 1 0b1000#64)
    call 5 (.insert 1)
    let os ← getOs
    require (os.out == b!"01000")
    let is ← getIs
    setIs { is with rest := is.rest ++ os.out }
    call 5 (.ctor 2)
    call 5 (.extract 2)
    eq 5 1 2
    let is ← getIs
    setIs { is with rest := is.rest ++ b!"10" }
    call 1 (.ctor 4)
    call 1 (.extract 4)
    call 1 (.ctorVal 5 1#64)
    eq 1 4 5
    call 1 (.extract 4)
    call 1 (.ctorVal 6 0#64)
    eq 1 4 6) = true := by decide +kernel

/-- test/bitset.cpp:58-83 -/
theorem bitset_set : ok (do
    call 10 (.ctor 0)
    call 10 (.setAt 0 5 true)
    call 10 (.setAt 0 8 true)
    is 10 0 [5, 8]
    call 10 (.setAll 0)
    is 10 0 [0, 1, 2, 3, 4, 5, 6, 7, 8, 9]
    call 10 (.setAt 0 1 false)
    is 10 0 [0, 2, 3, 4, 5, 6, 7, 8, 9]
    call 10 (.resetAt 0 5)
    is 10 0 [0, 2, 3, 4, 6, 7, 8, 9]
    call 10 (.resetAll 0)
    is 10 0 []) = true := by decide +kernel

/-- `REQUIRE(pb.count() == k)` and the same of `none`, `any` and `all` -/
def counts (k : Nat) (none any all : Bool) : BM Unit := do
  gives 10 (.count 0) (.nat k)
  gives 10 (.noneSet 0) (.bool none)
  gives 10 (.anySet 0) (.bool any)
  gives 10 (.allSet 0) (.bool all)

/-- test/bitset.cpp:85-134 -/
theorem bitset_count : ok (do
    call 10 (.ctor 0)
    counts 0 true false false
    call 10 (.setAt 0 1 true)
    gives 10 (.test 0 1) (.bool true)
    gives 10 (.test 0 0) (.bool false)
    counts 1 false true false
    call 10 (.setAt 0 4 true)
    gives 10 (.test 0 1) (.bool true)
    gives 10 (.test 0 3) (.bool false)
    gives 10 (.test 0 4) (.bool true)
    counts 2 false true false
    call 10 (.setAll 0)
    counts 10 false true true
    call 10 (.resetAll 0)
    counts 0 true false false
    call 10 (.flipAll 0)
    counts 10 false true true
    call 10 (.flipAt 0 5)
    gives 10 (.test 0 0) (.bool true)
    gives 10 (.test 0 5) (.bool false)
    counts 9 false true false) = true := by decide +kernel

/-- `for(auto k : l) b.set(k)` -/
def sets (i : Nat) : List Nat → BM Unit
  | [] => pure ()
  | k :: l => do
    call 10 (.setAt i k true)
    sets i l

/-- `REQUIRE((b1 op b2) == expected)`; the temporary is variable 99 and `expected` is variable 3 -/
def makes (op : Nat → Op) : BM Unit := do
  call 10 (op 99)
  eq 10 99 3
  call 10 (.dtor 99)

/-- test/bitset.cpp:136-160 -/
theorem bitset_bitwise : ok (do
    call 10 (.ctor 1)
    call 10 (.ctor 2)
    call 10 (.ctor 3)
    sets 1 [0, 2, 4, 6, 8]
    sets 2 [0, 3, 6, 9]
    call 10 (.setAll 3)
    call 10 (.resetAt 3 1)
    call 10 (.resetAt 3 5)
    call 10 (.resetAt 3 7)
    makes (.opOr · 1 2)
    call 10 (.resetAll 3)
    sets 3 [0, 6]
    makes (.opAnd · 1 2)
    call 10 (.resetAll 3)
    sets 3 [2, 3, 4, 8, 9]
    makes (.opXor · 1 2)) = true := by decide +kernel

/-- test/bitset.cpp:162-192 -/
theorem bitset_shifting : ok (do
    call 10 (.ctor 0)
    call 10 (.ctor 1)
    call 10 (.setAt 0 0 true)
    call 10 (.shlA 0 1)
    call 10 (.setAt 1 1 true)
    eq 10 0 1
    call 10 (.shlA 0 7)
    call 10 (.resetAll 1)
    call 10 (.setAt 1 8 true)
    eq 10 0 1
    call 10 (.shrA 0 3)
    call 10 (.resetAll 1)
    call 10 (.setAt 1 5 true)
    eq 10 0 1
    call 10 (.shrA 0 9)
    call 10 (.resetAll 1)
    eq 10 0 1
    call 10 (.setAt 0 0 true)
    call 10 (.shlA 0 10)
    eq 10 0 1) = true := by decide +kernel

/-- test/bitset.cpp:194-203 -/
theorem bitset_swapping : ok (do
    call 10 (.ctorVal 1 0b10101010#64)
    call 10 (.ctorVal 2 0b01010101#64)
    call 10 (.copy 3 1)
    call 10 (.copy 4 2)
    eq 10 1 3
    eq 10 2 4
    call 10 (.swap 3 4)
    eq 10 1 4
    eq 10 2 3) = true := by decide +kernel

/-- test/bitset.cpp:205-212 -/
theorem bitset_structured_binding : ok (do
    call 3 (.ctor 0)
    call 3 (.setAt 0 1 true)
    let a ← get 3 0 0
    let b ← get 3 0 1
    let c ← get 3 0 2
    require (!a)
    require b
    require (!c)) = true := by decide +kernel

/-- test/bitset.cpp:225-235 -/
theorem bitset_operator_bool : ok (do
    call 4 (.ctor 0)
    require (!(← toBool 4 0))
    call 4 (.setAt 0 0 true)
    require (← toBool 4 0)
    call 4 (.resetAt 0 0)
    require (!(← toBool 4 0))
    call 4 (.setAll 0)
    require (← toBool 4 0)
    call 4 (.resetAll 0)
    require (!(← toBool 4 0))) = true := by decide +kernel

-- a test whose expectation is wrong does not pass
example : ok (do
    call 10 (.ctorVal 0 5#64)
    is 10 0 [0, 3]) = false := by decide +kernel

end Ptl.Tests.Bitset

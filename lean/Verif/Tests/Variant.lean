import Verif.Tests.Basic
import Verif.Variant.Client
import Verif.Overload.Visit

/-! # test/variant.cpp, run on the model -/

namespace Ptl.Tests.Variant

open Ptl.Variant

/-- the alternatives that occur -/
inductive Ty where
  | int | double | x | y | moveable
  deriving DecidableEq

/-- Values are integers: those of `int`, tenths for `double`, the flag `moved` for `moveable` (test/utils.hpp:12-26). -/
def elem : Elem Ty Int where
  dflt _ := 0
  braced _ v := v
  moveThrows _ := false
  moved T v := if T = .moveable then 1 else v
  cmp
    | .lt, _, a, b => a < b
    | .le, _, a, b => a ≤ b
    | .gt, _, a, b => a > b
    | .ge, _, a, b => a ≥ b
    | .eq, _, a, b => a == b
    | .ne, _, a, b => a != b

/-- a test case: nothing throws -/
def ok (test : VM Int Unit) : Bool := passes (start Int fun _ => false) test

section
variable (ts : List Ty)

/-- a call -/
def call (op : Op Ty Int) : VM Int Unit := op.run elem ts

/-- `REQUIRE(var.holds<T>() == b)` -/
def holds (i : Nat) (T : Ty) (b : Bool := true) : VM Int Unit := do require ((← Ptl.Variant.holds ts (.var i) T) == b)

/-- `var.get<T>()`, read -/
def value (i : Nat) (T : Ty) : VM Int Int := do
  let p ← get ts (.var i) T
  readAt p

/-- `REQUIRE(var.get<T>() == v)` -/
def is (i : Nat) (T : Ty) (v : Int) : VM Int Unit := do require ((← value ts i T) == v)

/-- `REQUIRE(l <op> r)`, or that it is false -/
def cmp (c : Cmp) (l r : Nat) (b : Bool := true) : VM Int Unit := do
  require ((← compare elem ts c (.var l) (.var r)) == b)

/-- the end of the scope -/
def leave (is : List Nat) : VM Int Unit := is.forM fun i => call ts (.dtor i)

end

/-- test/variant.cpp:11-37 -/
theorem variant_ctor : ok (do
    let ts := [.int, .double]
    call ts (.ctorDefault 1)
    is ts 1 .int 0
    call ts (.assignValue 1 .double (.val 100))
    holds ts 1 .double
    is ts 1 .double 100
    call ts (.assignValue 1 .int (.val 10))
    holds ts 1 .int
    is ts 1 .int 10
    let us := [.int, .double, .x, .y]
    call us (.ctorValue 2 .x (.thr 0))
    holds us 2 .x
    call us (.emplace 2 .y (.thr 0))
    holds us 2 .y
    leave us [2]
    leave ts [1]) = true := by decide +kernel

/-- test/variant.cpp:39-50 -/
theorem variant_copy : ok (do
    let ts := [.double, .int]
    call ts (.ctorValue 0 .int (.val 1000))
    holds ts 0 .double false
    call ts (.ctorCopy 1 0)
    holds ts 1 .double false
    require ((← value ts 0 .int) == (← value ts 1 .int))
    call ts (.ctorDefault 2)
    call ts (.assignCopy 2 1)
    holds ts 2 .double false
    require ((← value ts 0 .int) == (← value ts 2 .int))
    leave ts [2, 1, 0]) = true := by decide +kernel

/-- test/variant.cpp:52-61 -/
theorem variant_move : ok (do
    let ts := [.moveable]
    call ts (.ctorDefault 1)
    call ts (.ctorMove 2 1)
    is ts 1 .moveable 1
    is ts 2 .moveable 0
    call ts (.assignMove 1 2)
    is ts 1 .moveable 0
    is ts 2 .moveable 1
    leave ts [2, 1]) = true := by decide +kernel

/-- `var.visit(…)` with the eight visitors of the test, for a variant of kind `v`: visitor `k` is called -/
def visits (v : Overload.Kind) (k : Nat) : VM Int Unit := do
  let ts := [Ty.int, Ty.double]
  let called ← visit ts (fun _ _ r => r) (.var 0) fun p =>
    pure (match Overload.visitVariant [0, 1] v Overload.eight with
      | some ks => ks[p.alt]?
      | none => none)
  require (called == some k)

/-- `var.visit(…)`, `std::as_const(var).visit(…)`, `std::move(var).visit(…)`, `std::move(std::as_const(var)).visit(…)`; in each group of
visitors `k` stands for `int` (0) and `double` (1) -/
def visitsAll (k : Nat) : VM Int Unit := do
  visits ⟨false, .lvalue⟩ k
  visits ⟨true, .lvalue⟩ (2 + k)
  visits ⟨false, .rvalue⟩ (4 + k)
  visits ⟨true, .rvalue⟩ (6 + k)

/-- `REQUIRE(var.visit([](const auto & value) -> double { return value; }) == d)` -/
def visitsValue (d : Int) : VM Int Unit := do
  let r ← visit [Ty.int, Ty.double] (fun _ _ r => r) (.var 0) fun p => do
    let v ← readAt p
    pure (if p.ty = .int then 10 * v else v)
  require (r == d)

/-- test/variant.cpp:63-191 -/
theorem variant_visit : ok (do
    let ts := [.int, .double]
    call ts (.ctorDefault 0)
    visitsAll 0
    call ts (.assignValue 0 .double (.val 15))
    visitsAll 1
    visitsValue 15
    call ts (.assignValue 0 .int (.val 1))
    visitsAll 0
    visitsValue 10
    leave ts [0]) = true := by decide +kernel

/-- test/variant.cpp:193-210 -/
theorem variant_swapping : ok (do
    let ts := [.int, .double]
    call ts (.ctorValue 1 .int (.val 10))
    call ts (.ctorValue 2 .double (.val 202))
    holds ts 1 .int
    holds ts 2 .double
    call ts (.swap 1 2)
    holds ts 1 .double
    is ts 1 .double 202
    holds ts 2 .int
    is ts 2 .int 10
    call ts (.ctorValue 3 .int (.val 20))
    call ts (.swap 2 3)
    holds ts 2 .int
    is ts 2 .int 20
    holds ts 3 .int
    is ts 3 .int 10
    leave ts [3, 2, 1]) = true := by decide +kernel

/-- test/variant.cpp:212-231 -/
theorem variant_comparison : ok (do
    let ts := [.int, .double]
    call ts (.ctorValue 1 .int (.val 10))
    call ts (.ctorValue 2 .double (.val 100))
    cmp ts .eq 1 2 false
    cmp ts .ne 1 2
    call ts (.ctorCopy 3 1)
    cmp ts .eq 1 3
    cmp ts .ne 1 3 false
    cmp ts .lt 1 2
    cmp ts .gt 1 2 false
    cmp ts .gt 2 1
    cmp ts .lt 2 1 false
    call ts (.ctorValue 4 .int (.val 1))
    cmp ts .gt 1 4
    cmp ts .lt 4 1
    leave ts [4, 3, 2, 1]) = true := by decide +kernel

-- a test whose expectation is wrong does not pass
example : ok (do
    call [.int, .double] (.ctorDefault 0)
    visits ⟨false, .lvalue⟩ 1) = false := by decide +kernel

end Ptl.Tests.Variant

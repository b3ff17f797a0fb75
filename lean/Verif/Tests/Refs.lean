import Verif.Tests.Basic
import Verif.View.Client
import Verif.OptRef.Client
import Verif.VarRef.Client
import Verif.Fun.Props
import Verif.Overload.Visit

/-! # test/array_ref.cpp, test/string_ref.cpp, test/optional_ref.cpp, test/variant_ref.cpp and test/function_ref.cpp, run on the model -/

namespace Ptl.Tests

/-! ### array_ref and string_ref -/

namespace View

open Ptl.View

section
variable {α : Type} [BEq α]

/-- a test case -/
def ok (test : RM α Unit) : Bool := passes (start α) test

/-- a call -/
def call (op : Op α) : RM α Unit := op.run

/-- `REQUIRE(r.size() == n)` -/
def hasSize (r n : Nat) : RM α Unit := do require ((← size (← load r)) == n)

/-- `r[k]`, read -/
def at' (r k : Nat) : RM α α := do
  let x ← load r
  let l ← index x k
  onMem l.read

/-- `REQUIRE(r[0] == …); REQUIRE(r[1] == …); …` -/
def are (r : Nat) (xs : List α) : RM α Unit :=
  (List.range xs.length).forM fun k => do require (some (← at' r k) == xs[k]?)

end

/-- test/array_ref.cpp:12-18: `array_ref<int>` and `array_ref<const int>` are the same at run time -/
theorem array_ref_ctor : ok (α := Int) (do
    call (.alloc 0 [0, 1, 2, 3, 4, 5, 6, 7, 8, 9])
    call (.range 0 0)
    call (.range 1 0)
    hasSize 0 10
    are 0 [0]) = true := by decide +kernel

/-- test/array_ref.cpp:20-32: `v0` is empty: its `data()` is null, or a pointer to the end of an array -/
theorem array_ref_size : ok (α := Int) (do
    let x ← mkRange .null 0
    store 0 x
    hasSize 0 0
    call (.alloc 0 [])
    call (.range 1 0)
    hasSize 1 0
    call (.alloc 1 (List.replicate 10 0))
    call (.range 10 1)
    hasSize 10 10) = true := by decide +kernel

/-- test/array_ref.cpp:34-65 -/
theorem array_ref_subviews : ok (α := Int) (do
    call (.alloc 0 [0, 1, 2, 3, 4, 5, 6, 7, 8, 9])
    call (.range 0 0)
    call (.first 1 0 3)
    hasSize 1 3
    are 1 [0, 1, 2]
    call (.last 2 0 4)
    hasSize 2 4
    are 2 [6, 7, 8, 9]
    call (.from_ 3 0 4)
    hasSize 3 6
    are 3 [4, 5, 6, 7, 8, 9]
    call (.sub 4 0 5 3)
    hasSize 4 3
    are 4 [5, 6, 7]) = true := by decide +kernel

/-- test/string_ref.cpp:14-29 -/
theorem string_ref_ctor : ok (do
    let data := b!"Hello" ++ [0] ++ b!"World" ++ [0]
    call (.alloc 0 data)
    call (.range 0 0)
    hasSize 0 12
    require ((← at' 0 5) == 0)
    require ((← print (← load 0)).length == 12)
    call (.null 1)
    require (← compare .ne (← load 0) (← load 1))
    call (.copy 1 0)
    require (← compare .eq (← load 0) (← load 1))) = true := by decide +kernel

/-- test/string_ref.cpp:31-41 (a literal has a terminator) -/
theorem string_ref_size : ok (do
    call (.alloc 0 (b!"TEST" ++ [0]))
    store 0 (← mkCStr (.at 0 0))
    hasSize 0 4
    store 1 (← literal (.at 0 0) 4)
    hasSize 1 4) = true := by decide +kernel

/-- test/string_ref.cpp:43-72 -/
theorem string_ref_substr : ok (do
    call (.alloc 0 (b!"Hello World" ++ [0]))
    store 0 (← mkSized (.at 0 0) 11)
    require ((← view (← load 0)) == b!"Hello World")
    call (.copy 1 0)
    call (.removePrefix 1 3)
    hasSize 1 8
    are 1 b!"lo World"
    call (.copy 2 0)
    call (.removeSuffix 2 3)
    hasSize 2 8
    are 2 b!"Hello Wo"
    call (.from_ 3 0 4)
    are 3 b!"o World"
    call (.sub 4 0 5 3)
    are 4 b!" Wo") = true := by decide +kernel

-- a test whose expectation is wrong does not pass
example : ok (α := Int) (do
    call (.alloc 0 [0, 1, 2])
    call (.range 0 0)
    call (.last 2 0 2)
    are 2 [0, 1]) = false := by decide +kernel

end View

/-! ### optional_ref -/

namespace OptRef

open Ptl.OptRef

/-- `int` -/
def int : Optional.Elem Int where
  braced v := v
  moveThrows := false
  moved v := v
  movedAssign v := v
  selfMove v := v
  torn old _ := old
  cmp _ _ _ := true

/-- a test case -/
def ok (test : RM Int Unit) : Bool := passes (start Int fun _ => false) test

/-- a call -/
def call (op : Op Int) : RM Int Unit := op.run int

/-- `REQUIRE(static_cast<bool>(r) == b)` -/
def has (r : Nat) (b : Bool := true) : RM Int Unit := do require ((← hasValue r) == b)

/-- `REQUIRE(*r == v)` -/
def is (r : Nat) (v : Int) : RM Int Unit := do require ((← readLoc (← deref r)) == v)

/-- test/optional_ref.cpp:10-42 (with `ptl::optional` in place of `std::optional`) -/
theorem optional_ref_ctor : ok (do
    call (.ctorNull 0)
    has 0 false
    call (.newObj 1 0)
    call (.ctorObj 1 (.plain 1))
    has 1
    is 1 0
    call (.ctorObj 2 (.plain 1))
    has 2
    is 2 0
    call (.newObj 2 10)
    call (.ctorObj 3 (.plain 2))
    has 3
    is 3 10
    call (.opt (.ctorFrom 0 (.ext 5)))
    call (.ctorFrom 4 (.opt 0))
    has 4
    is 4 5
    call (.ctorFrom 5 (.opt 0))
    has 5
    is 5 5
    call (.opt (.ctorFrom 1 (.ext 10)))
    call (.ctorFrom 6 (.opt 1))
    has 6
    is 6 10) = true := by decide +kernel

/-- test/optional_ref.cpp:44-60 (assignments are through a temporary, 99) -/
theorem optional_ref_value : ok (do
    call (.ctorNull 0)
    has 0 false
    require ((← valueOr 0 (.val 10)) == 10)
    requireThrows (value 0)
    call (.newObj 0 20)
    call (.ctorObj 99 (.plain 0))
    call (.assign 0 99)
    call (.dtor 99)
    has 0
    require ((← valueOr 0 (.val 10)) == 20)
    let _ ← value 0
    call (.ctorNull 99)
    call (.assign 0 99)
    call (.dtor 99)
    has 0 false
    require ((← valueOr 0 (.val 10)) == 10)
    requireThrows (value 0)) = true := by decide +kernel

-- a test whose expectation is wrong does not pass
example : ok (do
    call (.ctorNull 0)
    has 0) = false := by decide +kernel

end OptRef

/-! ### variant_ref -/

namespace VarRef

open Ptl.VarRef

/-- the types that occur -/
inductive Ty where
  | int | double
  deriving DecidableEq

/-- values of `int`, tenths for `double` -/
def ok (test : RM Ty Int Unit) : Bool := passes (start Ty Int) test

section
variable (ts : List (CT Ty))

/-- a call -/
def call (op : Op Ty Int) : RM Ty Int Unit := op.run ts

/-- `REQUIRE(r.holds<T>())` -/
def holds (r : Nat) (T : CT Ty) : RM Ty Int Unit := do require (← Ptl.VarRef.holds ts T r)

/-- `REQUIRE(r.get<T>() == v)` -/
def is (r : Nat) (T : CT Ty) (v : Int) : RM Ty Int Unit := do require ((← readPtr T (← get ts T r)) == v)

end

/-- test/variant_ref.cpp:10-34 (assignments are through a temporary, 99) -/
theorem variant_ref_ctor : ok (do
    let ts := [⟨.int, false⟩, ⟨.int, true⟩, ⟨.double, true⟩]
    call ts (.newObj 1 ⟨.double, true⟩ 100)
    call ts (.ctor 0 ⟨.double, true, true⟩ 1)
    holds ts 0 ⟨.double, true⟩
    is ts 0 ⟨.double, true⟩ 100
    call ts (.newObj 2 ⟨.int, true⟩ 10)
    call ts (.ctor 99 ⟨.int, true, true⟩ 2)
    call ts (.assign 0 99)
    call ts (.dtor 99)
    holds ts 0 ⟨.int, true⟩
    is ts 0 ⟨.int, true⟩ 10
    call ts (.newObj 3 ⟨.int, false⟩ 1)
    call ts (.ctor 99 ⟨.int, false, true⟩ 3)
    call ts (.assign 0 99)
    call ts (.dtor 99)
    holds ts 0 ⟨.int, false⟩
    is ts 0 ⟨.int, false⟩ 1
    let us := [⟨.int, false⟩, ⟨.double, false⟩]
    call us (.ctor 1 ⟨.int, false, true⟩ 3)
    holds us 1 ⟨.int, false⟩
    is us 1 ⟨.int, false⟩ 1
    call us (.write 1 ⟨.int, false⟩ 255)
    is us 1 ⟨.int, false⟩ 255) = true := by decide +kernel

/-- `variant_ref<const int, const double>` -/
def both : List (CT Ty) := [⟨.int, true⟩, ⟨.double, true⟩]

/-- `[](int) {…}, [](double) {…}` (0 and 1): a parameter of the same type suits best, a converted one will do -/
def two : List Overload.Visitor :=
  let byValue (name : Nat) : Overload.Visitor :=
    ⟨name, ⟨false, .rvalue⟩, true, false, fun a => some (if a.ty = name then 0 else 1)⟩
  [byValue 0, byValue 1]

/-- `var.visit(…)` with these: visitor `k` is called; its argument is initialised from the object -/
def visits (r k : Nat) : RM Ty Int Unit := do
  let called ← visit both (fun _ _ b => b) r fun U p => do
    let _ ← readPtr U p
    pure (match Overload.visitRef [(0, true), (1, true)] two with
      | some ks => ks[both.idxOf U]?
      | none => none)
  require (called == some k)

/-- test/variant_ref.cpp:36-55, if 10, 1.5 and 1 were variables -/
theorem variant_ref_visit : ok (do
    call both (.newObj 0 ⟨.int, true⟩ 10)
    call both (.newObj 1 ⟨.double, true⟩ 15)
    call both (.newObj 2 ⟨.int, true⟩ 1)
    call both (.ctor 0 ⟨.int, true, true⟩ 0)
    visits 0 0
    call both (.ctor 99 ⟨.double, true, true⟩ 1)
    call both (.assign 0 99)
    call both (.dtor 99)
    visits 0 1
    call both (.ctor 99 ⟨.int, true, true⟩ 2)
    call both (.assign 0 99)
    call both (.dtor 99)
    visits 0 0) = true := by decide +kernel

/-- test/variant_ref.cpp:37-42 as it is: 10 is a temporary object, and is gone at the end of the declaration.  The visitor's argument is then
initialised from an object that does not exist: the behaviour of the test is undefined. -/
theorem variant_ref_visit_undefined : (match (do
    call both (.newObj 0 ⟨.int, false⟩ 10)
    call both (.ctor 0 ⟨.int, false, false⟩ 0)
    call both (.killObj 0)
    visits 0 0) (start Ty Int) with
  | .ub .deadObject => true
  | _ => false) = true := by decide +kernel

end VarRef

/-! ### function_ref -/

namespace Fun

open Ptl.Fun

/-- the functions and functors of the test: functions 1 and 2; classes 1 to 4.  Their result is a number.  Only functors 3 and 4 have an
`operator()` that is not `const`; 2 and 4 are `noexcept`, as function 2 is. -/
def env : Env Unit Nat where
  beh
    | .fn f, _, w => .ok (.val (f - 1)) w
    | .obj _ c _, _, w => .ok (.val (c - 1)) w
  fnInv _ := true
  fnNx f := f == 2
  clsInv c const := !const || c ≤ 2
  clsNx c _ := c == 2 || c == 4
  conv v := v

/-- functor object `n` is of class `n` -/
def world : World Unit Nat := { fct := fun n => if 1 ≤ n ∧ n ≤ 4 then some (n, ()) else none, dat := fun _ => none }

/-- a test case -/
def ok (test : FM Unit Nat Unit) : Bool := passes (start world) test

/-- `function_ref<int()>`, `function_ref<int() noexcept>`, `function_ref<int() const>`, `function_ref<int() const noexcept>` -/
def freeThrowing : Sig := ⟨false, false, .value⟩
def freeNoexcept : Sig := ⟨false, true, .value⟩
def constFreeThrowing : Sig := ⟨true, false, .value⟩
def constFreeNoexcept : Sig := ⟨true, true, .value⟩

/-- `REQUIRE(ref() == v)` -/
def is (G : Sig) (r v : Nat) : FM Unit Nat Unit := do
  let x ← Ptl.Fun.call env G r []
  require (x == .val v)

/-- test/function_ref.cpp:30-39; 41-50 (function pointers) is the same program -/
theorem function_ref_function : ok (do
    ctorFn env freeThrowing 1 1
    is freeThrowing 1 0
    ctorFn env constFreeThrowing 11 1
    is constFreeThrowing 11 0
    ctorFn env freeNoexcept 2 2
    is freeNoexcept 2 1
    ctorFn env constFreeNoexcept 12 2
    is constFreeNoexcept 12 1) = true := by decide +kernel

/-- test/function_ref.cpp:52-73 -/
theorem function_ref_functor : ok (do
    ctorObj env freeThrowing 1 1 1 false
    is freeThrowing 1 0
    ctorObj env constFreeThrowing 11 1 1 false
    is constFreeThrowing 11 0
    ctorObj env freeNoexcept 2 2 2 false
    is freeNoexcept 2 1
    ctorObj env constFreeNoexcept 12 2 2 false
    is constFreeNoexcept 12 1
    ctorObj env freeThrowing 3 3 3 false
    is freeThrowing 3 2
    require (!invocableCls env constFreeThrowing 3 (constOf constFreeThrowing false))
    ctorObj env freeNoexcept 4 4 4 false
    is freeNoexcept 4 3
    require (!invocableCls env constFreeNoexcept 4 (constOf constFreeNoexcept false))) = true := by decide +kernel

-- a test whose expectation is wrong does not pass
example : ok (do
    ctorFn env freeThrowing 1 1
    is freeThrowing 1 1) = false := by decide +kernel

end Fun

end Ptl.Tests

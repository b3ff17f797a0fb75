import Verif.Tests.Basic
import Verif.Str.Client
import Verif.Text.Stream

/-! # test/string.cpp, run on the model -/

namespace Ptl.Tests.Str

open Ptl.Str

/-- a test case: nothing fails (no allocation) -/
def ok (test : SM Unit) : Bool := passes (start fun _ => false) test

/-- a call whose result is not used -/
def call (op : Op) : SM Unit := do
  let _ ← op.run
  pure ()

/-- `const auto it{call}; REQUIRE(it == s.begin() + k);` -/
def gives (op : Op) (k : Nat) : SM Unit := do
  let r ← op.run
  require (r == some k)

/-- characters of a literal or of a `std::string` -/
def vals (l : List UInt8) : List Src := l.map .val

/-- the first `n` characters of string `j` -/
def chars (j n : Nat) : List Src := (List.range n).map (.elem j)

/-- `string s{"…"}` (a `string_ref` to the characters, string.hpp:292) -/
def str (i : Nat) (l : List UInt8) : SM Unit := call (.ctorRange i (vals l))

/-- `REQUIRE(s == "…")` -/
def is (i : Nat) (l : List UInt8) : SM Unit := do require (← cmpStrView .eq (.var i) (.ext l))

/-- `REQUIRE(si == sj)` -/
def eq (i j : Nat) : SM Unit := do require (← cmpStrStr .eq (.var i) (.var j))

/-- `REQUIRE(si != sj)` -/
def ne (i j : Nat) : SM Unit := do require (← cmpStrStr .ne (.var i) (.var j))

/-- `REQUIRE(s.size() == n)` -/
def hasSize (i n : Nat) : SM Unit := do require ((← size (.var i)) == n)

/-- `REQUIRE(s.empty() == b)` -/
def isEmpty (i : Nat) (b : Bool) : SM Unit := do require ((← empty (.var i)) == b)

/-- `std::strlen`, for strings of fewer than 100 characters -/
def strlenAt (p : Str.Ptr) : Nat → Nat → SM Nat
  | 0, _ => M.ub .badRange
  | n + 1, k => do
    let ch ← readAt (p.add k)
    if ch = 0 then pure k else strlenAt p n (k + 1)

/-- `REQUIRE(std::strlen(s.c_str()) == n)` -/
def hasLen (i n : Nat) : SM Unit := do
  let p ← data (.var i)
  let k ← strlenAt p 100 0
  require (k == n)

/-- a test about one temporary string, which is variable 99 -/
def temp (op : Nat → Op) (test : Nat → SM Unit) : SM Unit := do
  call (op 99)
  test 99
  call (.dtor 99)

/-- `s = lhs + rhs` -/
def plus (i : Nat) (lhs rhs : List Src) : SM Unit :=
  temp (.concat · lhs rhs) fun t => call (.assignMove i t)

/-- 24 times `x` -/
def xs : List UInt8 := List.replicate 24 (chr 'x')
/-- 24 times `X` -/
def bigXs : List UInt8 := List.replicate 24 (chr 'X')

/-- test/string.cpp:18-40 -/
theorem string_ctor : ok (do
    call (.ctorDefault 0)
    isEmpty 0 true
    hasLen 0 0
    str 1 b!"Hello World"
    is 1 b!"Hello World"
    call (.ctorInput 2 (chars 1 11))
    eq 2 1
    call (.ctorRange 3 (chars 1 11))
    eq 3 1
    call (.ctorFill 4 5 (chr 'x'))
    is 4 b!"xxxxx"
    call (.ctorRange 5 (vals b!"abcde"))
    is 5 b!"abcde") = true := by decide +kernel

/-- test/string.cpp:42-66 -/
theorem string_copy : ok (do
    str 0 b!"Hello World"
    hasSize 0 11
    hasLen 0 11
    call (.ctorCopy 1 0)
    eq 0 1
    call (.ctorDefault 2)
    call (.assignCopy 2 1)
    eq 2 1
    str 3 xs
    hasLen 3 24
    hasSize 3 24
    call (.ctorCopy 4 3)
    hasSize 4 24
    eq 4 3
    call (.ctorDefault 5)
    call (.assignCopy 5 4)
    hasSize 5 24
    eq 5 3) = true := by decide +kernel

/-- test/string.cpp:68-94: a short string is copied when it is moved, a long one leaves the empty string behind -/
theorem string_move : ok (do
    str 0 b!"Hello World"
    hasSize 0 11
    hasLen 0 11
    call (.ctorMove 1 0)
    eq 0 1
    call (.ctorDefault 2)
    call (.assignMove 2 1)
    eq 2 1
    str 3 xs
    hasLen 3 24
    hasSize 3 24
    call (.ctorMove 4 3)
    isEmpty 3 true
    hasSize 4 24
    ne 4 3
    call (.ctorDefault 5)
    call (.assignMove 5 4)
    isEmpty 4 true
    hasSize 5 24
    ne 5 3) = true := by decide +kernel

/-- test/string.cpp:96-120 -/
theorem string_swapping : ok (do
    str 0 b!"Hello"
    str 1 b!"World"
    call (.swap 0 1)
    is 0 b!"World"
    is 1 b!"Hello"
    str 2 b!"Test"
    str 3 xs
    call (.swap 2 3)
    is 2 xs
    is 3 b!"Test"
    str 4 xs
    str 5 b!"Test"
    call (.swap 4 5)
    is 4 b!"Test"
    is 5 xs
    str 6 xs
    str 7 bigXs
    call (.swap 6 7)
    is 6 bigXs
    is 7 xs) = true := by decide +kernel

/-- `REQUIRE(s.push_back(ch) == ch)` -/
def push (i : Nat) (ch : UInt8) : SM Unit := do
  let r ← pushBack (.var i) ch
  let x ← readAt r
  require (x == ch)

/-- test/string.cpp:126-129 -/
def pushes (cap : Nat) : Nat → SM Unit
  | 0 => pure ()
  | n + 1 => do
    pushes cap n
    push 0 ((chr 'a') + UInt8.ofNat n)
    require ((← capacity (.var 0)) == cap)

/-- test/string.cpp:122-143 -/
theorem string_shrinking : ok (do
    call (.ctorDefault 0)
    let cap ← capacity (.var 0)
    pushes cap cap
    call (.shrinkToFit 0)
    require ((← capacity (.var 0)) == cap)
    push 0 (chr 'X')
    require (decide (cap < (← capacity (.var 0))))
    call (.popBack 0)
    require (decide (cap < (← capacity (.var 0))))
    call (.shrinkToFit 0)
    require ((← capacity (.var 0)) == cap)
    require ((← capacity (.var 0)) == (← size (.var 0)))) = true := by decide +kernel

/-- test/string.cpp:155-167 -/
theorem string_clear : ok (do
    call (.ctorDefault 0)
    isEmpty 0 true
    call (.clear 0)
    isEmpty 0 true
    call (.assignRange 0 (vals b!"Hello World"))
    isEmpty 0 false
    call (.clear 0)
    isEmpty 0 true) = true := by decide +kernel

/-- test/string.cpp:169-181 -/
theorem string_erase : ok (do
    str 0 b!"XXXHelloXXX WorldXXX"
    gives (.erase 0 0 3) 0
    is 0 b!"HelloXXX WorldXXX"
    let f ← pos 0 5
    let l ← pos 0 8
    let it1 ← erase (.var 0) f l
    let x ← readAt it1
    require (x == (chr ' '))
    is 0 b!"Hello WorldXXX"
    gives (.erase 0 11 14) 11
    is 0 b!"Hello World") = true := by decide +kernel

/-- test/string.cpp:183-216 -/
theorem string_insert : ok (do
    str 0 b!"HelloWorld"
    gives (.insertInput 0 0 (vals b!"XXX")) 0
    is 0 b!"XXXHelloWorld"
    gives (.insertInput 0 8 (vals b!"XXX")) 8
    is 0 b!"XXXHelloXXXWorld"
    gives (.insertInput 0 16 (vals b!"XXX")) 16
    hasSize 0 19
    is 0 b!"XXXHelloXXXWorldXXX"
    gives (.insertFill 0 0 2 (chr 'Y')) 0
    is 0 b!"YYXXXHelloXXXWorldXXX"
    gives (.insertFill 0 10 2 (chr 'Y')) 10
    is 0 b!"YYXXXHelloYYXXXWorldXXX"
    gives (.insertFill 0 23 2 (chr 'Y')) 23
    hasSize 0 25
    is 0 b!"YYXXXHelloYYXXXWorldXXXYY"
    gives (.insertRange 0 11 (vals b!"abc")) 11
    is 0 b!"YYXXXHelloYabcYXXXWorldXXXYY"
    gives (.insertRange 0 27 (vals b!"abcdefghijklmnopqrstuvwxyz")) 27
    hasSize 0 54
    is 0 b!"YYXXXHelloYabcYXXXWorldXXXYabcdefghijklmnopqrstuvwxyzY") = true := by decide +kernel

/-- test/string.cpp:218-265 -/
theorem string_append : ok (do
    call (.ctorDefault 0)
    call (.appendInput 0 (vals b!"Hello"))
    is 0 b!"Hello"
    call (.appendInput 0 (vals b!"cruel"))
    is 0 b!"Hellocruel"
    call (.appendInput 0 (vals b!"World"))
    is 0 b!"HellocruelWorld"
    call (.appendFill 0 3 (chr 'X'))
    is 0 b!"HellocruelWorldXXX"
    call (.ctorDefault 1)
    call (.appendRange 1 (vals b!"Hello"))
    is 1 b!"Hello"
    call (.appendRange 1 (vals b!"cruel"))
    is 1 b!"Hellocruel"
    call (.appendRange 1 (vals b!"World"))
    is 1 b!"HellocruelWorld"
    call (.appendFill 1 1 (chr '!'))
    is 1 b!"HellocruelWorld!"
    call (.appendRange 1 (chars 0 18))
    is 1 b!"HellocruelWorld!HellocruelWorldXXX"
    call (.ctorDefault 2)
    plus 2 (chars 2 0) (vals b!"Hello")
    is 2 b!"Hello"
    plus 2 (chars 2 5) (vals b!"cruel")
    is 2 b!"Hellocruel"
    plus 2 (chars 2 10) (vals b!"World")
    is 2 b!"HellocruelWorld"
    plus 2 (chars 2 15) (vals b!"!")
    is 2 b!"HellocruelWorld!"
    call (.ctorDefault 3)
    plus 3 (vals b!"!") (chars 3 0)
    is 3 b!"!"
    plus 3 (vals b!"World") (chars 3 1)
    is 3 b!"World!"
    plus 3 (vals b!"cruel") (chars 3 6)
    is 3 b!"cruelWorld!"
    plus 3 (vals b!"Hello") (chars 3 11)
    is 3 b!"HellocruelWorld!") = true := by decide +kernel

/-- test/string.cpp:145-153 -/
theorem string_io : ok (do
    str 0 b!"Hello world"
    let ss ← Text.putString {} (.var 0)
    match Text.getLines [] ss.out with
    | [s1] => is 0 s1
    | _ => require false) = true := by decide +kernel

/-- test/string.cpp:267-280 -/
theorem string_assign : ok (do
    call (.ctorDefault 0)
    call (.assignInput 0 (vals b!"Hello World"))
    is 0 b!"Hello World"
    call (.assignFill 0 3 (chr 'X'))
    is 0 b!"XXX"
    call (.assignRange 0 (vals b!"Hello World"))
    is 0 b!"Hello World") = true := by decide +kernel

/-- test/string.cpp:286-310 (`input`) and 313-337: `Hello`, `cruel` and `World` replace three words of `n` letters -/
def threeWords (input : Bool) (n : Nat) (start s1 s2 : List UInt8) : SM Unit := do
  let replace (i f l : Nat) (src : List UInt8) : Op :=
    if input then .replaceInput i f l (vals src) else .replaceRange i f l (vals src)
  str 0 start
  call (replace 0 0 n b!"Hello")
  is 0 s1
  call (replace 0 6 (6 + n) b!"cruel")
  is 0 s2
  let len ← size (.var 0)
  call (replace 0 (len - n) len b!"World")
  is 0 b!"Hello cruel World"

/-- test/string.cpp:340-362: letters `X` replace three words -/
def threeFills (f1 l1 f2 l2 f3 n : Nat) (start s1 s2 s3 : List UInt8) : SM Unit := do
  str 0 start
  call (.replaceFill 0 f1 l1 n (chr 'X'))
  is 0 s1
  call (.replaceFill 0 f2 l2 n (chr 'X'))
  is 0 s2
  let len ← size (.var 0)
  call (.replaceFill 0 f3 len n (chr 'X'))
  is 0 s3

/-- test/string.cpp:282-363 -/
theorem string_replace :
    ok (threeWords true 3 b!"XXX XXX XXX" b!"Hello XXX XXX" b!"Hello cruel XXX") = true ∧
    ok (threeWords true 5 b!"XXXXX XXXXX XXXXX" b!"Hello XXXXX XXXXX" b!"Hello cruel XXXXX") = true ∧
    ok (threeWords true 7 b!"XXXXXXX XXXXXXX XXXXXXX" b!"Hello XXXXXXX XXXXXXX" b!"Hello cruel XXXXXXX") = true ∧
    ok (threeWords false 3 b!"XXX XXX XXX" b!"Hello XXX XXX" b!"Hello cruel XXX") = true ∧
    ok (threeWords false 5 b!"XXXXX XXXXX XXXXX" b!"Hello XXXXX XXXXX" b!"Hello cruel XXXXX") = true ∧
    ok (threeWords false 7 b!"XXXXXXX XXXXXXX XXXXXXX" b!"Hello XXXXXXX XXXXXXX" b!"Hello cruel XXXXXXX") = true ∧
    ok (threeFills 0 1 4 5 8 3 b!"A A A" b!"XXX A A" b!"XXX XXX A" b!"XXX XXX XXX") = true ∧
    ok (threeFills 0 3 4 7 8 3 b!"AAA AAA AAA" b!"XXX AAA AAA" b!"XXX XXX AAA" b!"XXX XXX XXX") = true ∧
    ok (threeFills 0 3 2 5 4 1 b!"AAA AAA AAA" b!"X AAA AAA" b!"X X AAA" b!"X X X") = true := by
  refine ⟨?_, ?_, ?_, ?_, ?_, ?_, ?_, ?_, ?_⟩ <;> decide +kernel

/-- `REQUIRE("Hello World"_s.substr(…) == "…")`; the literal is variable 98 -/
def ofLiteral (op : Nat → Nat → Op) (l : List UInt8) : SM Unit := do
  call (.literal 98 b!"Hello World")
  temp (op · 98) fun t => is t l
  call (.dtor 98)

/-- test/string.cpp:365-377 -/
theorem string_substr : ok (do
    str 0 b!"Hello World"
    temp (.substr · 0 4) fun t => is t b!"o World"
    ofLiteral (.substrMove · · 4) b!"o World"
    temp (.substr · 0 6) fun t => is t b!"World"
    ofLiteral (.substrMove · · 6) b!"World"
    temp (.substrN · 0 5 3) fun t => is t b!" Wo"
    ofLiteral (.substrNMove · · 5 3) b!" Wo"
    temp (.substrN · 0 4 2) fun t => is t b!"o "
    ofLiteral (.substrNMove · · 4 2) b!"o ") = true := by decide +kernel

-- a test whose expectation is wrong does not pass
example : ok (do
    str 0 b!"Hello"
    is 0 b!"Hallo") = false := by decide +kernel

end Ptl.Tests.Str

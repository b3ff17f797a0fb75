import Verif.View.Mem
import Verif.Bytes

/-!
# Model of the contiguous iterators

The five iterator classes – vector.hpp:93-187, string.hpp:141-235, array.hpp:71-163, array_ref.hpp:63-155,
string_ref.hpp:26-114 – have the same text up to names and constness.  The line numbers below are those in array.hpp.

An operation reads the memory `m` (pointer arithmetic outside an array is undefined) and results in a value or a fault.
-/

namespace Ptl.Iter

open View (Ptr Loc Mem)

/-- array.hpp:162 the data member; default initialised with `nullptr` -/
structure It where
  ptr : Ptr := .null
  deriving DecidableEq, Repr

variable {α : Type}

/-- array.hpp:80-81 default constructor -/
def mk0 : It := {}

/-- array.hpp:84 `++it`: the new value (and the result) -/
def inc (m : Mem α) (it : It) : Except Fault It := do
  let p ← it.ptr.add m 1
  pure ⟨p⟩

/-- array.hpp:86-90 `it++`: the result, and the new value -/
def postInc (m : Mem α) (it : It) : Except Fault (It × It) := do
  let tmp := it
  let it ← inc m it
  pure (tmp, it)

/-- array.hpp:93 `--it` -/
def dec (m : Mem α) (it : It) : Except Fault It := do
  let p ← it.ptr.add m (-1)
  pure ⟨p⟩

/-- array.hpp:95-99 `it--` -/
def postDec (m : Mem α) (it : It) : Except Fault (It × It) := do
  let tmp := it
  let it ← dec m it
  pure (tmp, it)

/-- array.hpp:102 `*it` -/
def deref (m : Mem α) (it : It) : Except Fault Loc := it.ptr.deref m

/-- array.hpp:104 `it->` -/
def arrow (it : It) : Ptr := it.ptr

/-- array.hpp:110 `it += count` -/
def addAssign (m : Mem α) (it : It) (count : Int) : Except Fault It := do
  let p ← it.ptr.add m count
  pure ⟨p⟩

/-- array.hpp:111-116 `lhs + rhs` -/
def add (m : Mem α) (lhs : It) (rhs : Int) : Except Fault It := addAssign m lhs rhs

/-- array.hpp:117-119 `lhs + rhs` -/
def addLeft (m : Mem α) (lhs : Int) (rhs : It) : Except Fault It := add m rhs lhs

/-- array.hpp:107 `it[index]` -/
def index (m : Mem α) (it : It) (index : Int) : Except Fault Loc := do
  let j ← add m it index
  deref m j

/-- array.hpp:122 `it -= count` -/
def subAssign (m : Mem α) (it : It) (count : Int) : Except Fault It := do
  let p ← it.ptr.add m (-count)
  pure ⟨p⟩

/-- array.hpp:123-128 `lhs - rhs` -/
def sub (m : Mem α) (lhs : It) (rhs : Int) : Except Fault It := subAssign m lhs rhs

/-- array.hpp:130-132 `lhs - rhs` for two iterators -/
def diff (m : Mem α) (lhs rhs : It) : Except Fault Int := lhs.ptr.sub m rhs.ptr

/-- array.hpp:134-135 conversion to the const iterator (string_ref.hpp has none); vector.hpp:184-185, string.hpp:232-233
(private) the reverse conversion -/
def convert (it : It) : It := ⟨it.ptr⟩

/-- array.hpp:137-139 `==` -/
def eq (lhs rhs : It) : Bool := lhs.ptr == rhs.ptr

/-- array.hpp:140-142 `!=` -/
def ne (lhs rhs : It) : Bool := !eq lhs rhs

/-- array.hpp:144-146 `<` -/
def lt (lhs rhs : It) : Except Fault Bool := lhs.ptr.less rhs.ptr

/-- array.hpp:147-149 `>` -/
def gt (lhs rhs : It) : Except Fault Bool := lt rhs lhs

/-- array.hpp:150-152 `<=` -/
def le (lhs rhs : It) : Except Fault Bool := do
  let b ← gt lhs rhs
  pure (!b)

/-- array.hpp:153-155 `>=` -/
def ge (lhs rhs : It) : Except Fault Bool := do
  let b ← lt lhs rhs
  pure (!b)

/-! ### the iterators of a container -/

/-- conversion of a `std::size_t` to `std::ptrdiff_t` -/
def toDiff (n : Nat) : Int := if n % 2 ^ 64 < 2 ^ 63 then (n % 2 ^ 64 : Nat) else (n % 2 ^ 64 : Nat) - 2 ^ 64

/-- `begin()` of a container whose `data()` is `p`: vector.hpp:363-365, string.hpp:555-557, array.hpp:223-228,
array_ref.hpp:223-228, string_ref.hpp:176-179 -/
def begin_ (p : Ptr) : It := ⟨p⟩

/-- `end()` of a container whose `data()` and `size()` are `p` and `n`: vector.hpp:366-368, string.hpp:558-560,
array.hpp:229-234, array_ref.hpp:229-234, string_ref.hpp:180-183 -/
def end_ (m : Mem α) (p : Ptr) (n : Nat) : Except Fault It := add m (begin_ p) (toDiff n)

/-- `std::reverse_iterator`: the iterator it is based on -/
structure RIt where
  base : It
  deriving DecidableEq, Repr

/-- `rbegin()`: vector.hpp:369-371, string.hpp:561-563, array.hpp:235-240, array_ref.hpp:235-240, string_ref.hpp:184-187 -/
def rbegin (m : Mem α) (p : Ptr) (n : Nat) : Except Fault RIt := do
  let e ← end_ m p n
  pure ⟨e⟩

/-- `rend()`: vector.hpp:372-374, string.hpp:564-566, array.hpp:241-246, array_ref.hpp:241-246, string_ref.hpp:188-191 -/
def rend (p : Ptr) : RIt := ⟨begin_ p⟩

/-- [reverse.iter.elem] `*it`: the element before the base -/
def RIt.deref (m : Mem α) (it : RIt) : Except Fault Loc := do
  let tmp ← dec m it.base
  Iter.deref m tmp

/-- [reverse.iter.nav] `++it` -/
def RIt.inc (m : Mem α) (it : RIt) : Except Fault RIt := do
  let b ← dec m it.base
  pure ⟨b⟩

/-! ### loops over a range (client code) -/

/-- `for(; it != last; ++it) use(*it);` the elements used; `fuel` bounds the number of rounds -/
def walk (m : Mem α) (last : It) : (fuel : Nat) → It → Except Fault (List Loc)
  | 0, _ => .error .noReturn
  | fuel + 1, it =>
    if ne it last then do
      let l ← deref m it
      let it ← inc m it
      let ls ← walk m last fuel it
      pure (l :: ls)
    else pure []

/-- the same with reverse iterators -/
def rwalk (m : Mem α) (last : RIt) : (fuel : Nat) → RIt → Except Fault (List Loc)
  | 0, _ => .error .noReturn
  | fuel + 1, it =>
    if ne it.base last.base then do
      let l ← it.deref m
      let it ← it.inc m
      let ls ← rwalk m last fuel it
      pure (l :: ls)
    else pure []

/-- the same backwards with a forward iterator: `while(it != first) use(*--it);` -/
def backWalk (m : Mem α) (first : It) : (fuel : Nat) → It → Except Fault (List Loc)
  | 0, _ => .error .noReturn
  | fuel + 1, it =>
    if ne it first then do
      let it ← dec m it
      let l ← deref m it
      let ls ← backWalk m first fuel it
      pure (l :: ls)
    else pure []

/-- `for(n = 0; n < last - first; ++n) use(first[n]);` -/
def indexWalk (m : Mem α) (first last : It) : Except Fault (List Loc) := do
  let d ← diff m last first
  (List.range d.toNat).mapM fun (n : Nat) => index m first n

end Ptl.Iter

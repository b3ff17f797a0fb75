import Verif.View.Mem
import Verif.Bytes

/-!
# Model of `ptl::array_ref<Type>` (inc/ptl/array_ref.hpp) and `ptl::string_ref` (inc/ptl/string_ref.hpp)

Every definition cites the lines it models; the two classes share most of their code.  `size_type` arithmetic is modulo
2^64.  Elements are of type `α` (bytes for `string_ref`, which does not write to them).
-/

namespace Ptl.View

/-- array_ref.hpp:25, string_ref.hpp:16 data members -/
structure Ref where
  first : Ptr
  last : Ptr
  deriving DecidableEq, Repr

/-- program state: the arrays and the reference objects -/
structure St (α : Type) where
  mem : Mem α
  ref : Nat → Option Ref

/-- computations over that state -/
abbrev RM (α β : Type) := M (St α) β

variable {α β : Type}

/-- run a pointer operation -/
def onMem (f : Mem α → Except Fault β) : RM α β := fun s =>
  match f s.mem with
  | .ok b => .ok b s
  | .error e => .ub e

/-- a live reference object -/
def load (r : Nat) : RM α Ref := fun s =>
  match s.ref r with
  | some x => .ok x s
  | none => .ub .deadObject

/-- (re)place a reference object: construction or the implicit copy assignment -/
def store (r : Nat) (x : Ref) : RM α Unit := fun s => .ok () { s with ref := upd s.ref r (some x) }

/-! ### construction -/

/-- array_ref.hpp:170-171, string_ref.hpp:119-120 default constructor -/
def mkNull : RM α Ref := pure ⟨.null, .null⟩

/-- array_ref.hpp:177-178 from two pointers -/
def mkPtrs (first last : Ptr) : RM α Ref := pure ⟨first, last⟩

/-- array_ref.hpp:184-185, string_ref.hpp:131-132 from a pointer and a size -/
def mkSized (p : Ptr) (count : Nat) : RM α Ref := do
  let q ← onMem (p.add · count)
  mkPtrs p q

/-- array_ref.hpp:190-192 from a contiguous range, string_ref.hpp:136-137 from a `std::string_view` -/
def mkRange (data : Ptr) (size : Nat) : RM α Ref := mkSized data size

/-- `traits_type::length`: number of bytes before the first null byte -/
def cLength (p : Ptr) : RM UInt8 Nat := fun s =>
  match p with
  | .null => .ub .nullDeref
  | .at b o =>
    match s.mem b with
    | none => .ub .useAfterFree
    | some xs =>
      if 0 ≤ o ∧ o ≤ xs.length then
        let t := xs.drop o.toNat
        if 0 ∈ t then .ok (t.takeWhile (· != 0)).length s else .ub .outOfBounds
      else .ub .outOfBounds

/-- string_ref.hpp:124-125 from a C string -/
def mkCStr (p : Ptr) : RM UInt8 Ref := do
  let n ← cLength p
  mkSized p n

/-- string_ref.hpp:225-229 `operator""_sr`: the length is ignored -/
def literal (p : Ptr) (_ : Nat) : RM UInt8 Ref := mkCStr p

/-! ### access (on the value of a reference object) -/

/-- array_ref.hpp:194-195, string_ref.hpp:143-144 `data` -/
def data (x : Ref) : RM α Ptr := pure x.first

/-- array_ref.hpp:199-200, string_ref.hpp:148-149 `size`: the difference, converted to `size_type` -/
def size (x : Ref) : RM α Nat := do
  let d ← onMem (x.last.sub · x.first)
  pure (d % 2 ^ 64).toNat

/-- array_ref.hpp:196-198, string_ref.hpp:145-147 `empty` -/
def empty (x : Ref) : RM α Bool := do
  let n ← size x
  pure (n == 0)

/-- array_ref.hpp:206-207, string_ref.hpp:158-159 `operator[]` -/
def index (x : Ref) (i : Nat) : RM α Loc := do
  let p ← data x
  let q ← onMem (p.add · i)
  onMem q.deref

/-- array_ref.hpp:202-203, string_ref.hpp:154-155 `front` -/
def front (x : Ref) : RM α Loc := index x 0

/-- array_ref.hpp:204-205, string_ref.hpp:156-157 `back` -/
def back (x : Ref) : RM α Loc := do
  let n ← size x
  index x (szSub n 1)

/-- array_ref.hpp:208-212, string_ref.hpp:160-164 `at` -/
def at_ (x : Ref) (i : Nat) : RM α Loc := do
  let n ← size x
  if i ≥ n then M.throw .outOfRange else index x i

/-! ### sub-ranges -/

/-- array_ref.hpp:214-215 `first` -/
def first (x : Ref) (count : Nat) : RM α Ref := do
  let p ← data x
  mkSized p count

/-- array_ref.hpp:216-217 `last` -/
def last (x : Ref) (count : Nat) : RM α Ref := do
  let p ← data x
  let n ← size x
  let q ← onMem (p.add · (szSub n count))
  mkSized q count

/-- array_ref.hpp:218-219 `subrange(offset)`, string_ref.hpp:171-172 `substr(offset)` -/
def subrangeFrom (x : Ref) (offset : Nat) : RM α Ref := do
  let p ← data x
  let q ← onMem (p.add · offset)
  let n ← size x
  mkSized q (szSub n offset)

/-- array_ref.hpp:220-221 `subrange(offset, count)`, string_ref.hpp:173-174 `substr(offset, count)` -/
def subrange (x : Ref) (offset count : Nat) : RM α Ref := do
  let p ← data x
  let q ← onMem (p.add · offset)
  mkSized q count

/-- string_ref.hpp:166-167 `remove_prefix` -/
def removePrefix (x : Ref) (count : Nat) : RM α Ref := do
  let p ← onMem (x.first.add · count)
  pure { x with first := p }

/-- string_ref.hpp:168-169 `remove_suffix` -/
def removeSuffix (x : Ref) (count : Nat) : RM α Ref := do
  let p ← onMem (x.last.add · (-(count : Int)))
  pure { x with last := p }

/-! ### `string_ref`: comparison, hash -/

/-- the characters of a `std::string_view` -/
def chars (p : Ptr) : Nat → RM α (List α)
  | 0 => pure []
  | n + 1 => do
    let l ← onMem p.deref
    let c ← onMem l.read
    let q ← onMem (p.add · 1)
    let cs ← chars q n
    pure (c :: cs)

/-- string_ref.hpp:216-218 conversion to `std::string_view`, and all of its characters -/
def view (x : Ref) : RM α (List α) := do
  let p ← data x
  let n ← size x
  chars p n

/-- string_ref.hpp:193-211 the six comparison operators, in terms of those of `std::string_view` (`==` and `<`) -/
def compare (c : Cmp) (x y : Ref) : RM UInt8 Bool := do
  let xs ← view x
  let ys ← view y
  let eq := Cmp.result .eq xs ys
  let lt := Cmp.result .lt xs ys
  let gt := Cmp.result .lt ys xs
  pure (match c with
    | .eq => eq
    | .ne => !eq
    | .lt => lt
    | .gt => gt
    | .le => !gt
    | .ge => !lt)

/-- string_ref.hpp:232-237 `std::hash`; `h` is `std::hash<std::string_view>`, a function of the characters -/
def hash (h : List UInt8 → Nat) (x : Ref) : RM UInt8 Nat := do
  let xs ← view x
  pure (h xs)

/-- string_ref.hpp:213-214 `operator<<`: what is written to a stream without a field width -/
def print (x : Ref) : RM UInt8 (List UInt8) := view x

end Ptl.View

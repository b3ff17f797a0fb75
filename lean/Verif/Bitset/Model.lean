import Verif.Basic
import Verif.Order

/-!
# Model of `ptl::bitset<Size>` (inc/ptl/bitset.hpp)

Every definition cites the lines it models.  `n` is the template argument `Size`.  The array `values` of each bitset
object is a list of bytes; arithmetic on promoted `unsigned char`s followed by `static_cast<unsigned char>` is 8-bit
arithmetic.  Every access `values[k]` is checked; an access outside the array is undefined behaviour.
-/

namespace Ptl.Bitset

/-- `unsigned char` (`CHAR_BIT == 8`, bitset.hpp:17) -/
abbrev Byte := BitVec 8

/-- The part of `std::istream` that extraction uses: characters already consumed (most recent first), characters still
to come, the three error bits, the `skipws` flag and the locale's classification of whitespace.  Exception masks are
at their default (no exceptions from streams); the buffer allows putting the last character back. -/
structure IStream where
  past : List UInt8
  rest : List UInt8
  eof : Bool := false
  fail : Bool := false
  bad : Bool := false
  skipws : Bool := true
  isspace : UInt8 → Bool

/-- The part of `std::ostream` that insertion uses: characters written so far, the field width, the fill character and
whether `adjustfield` is `left`; the sink accepts every character. -/
structure OStream where
  out : List UInt8
  width : Nat := 0
  fill : UInt8 := 32
  left : Bool := false

/-- program state: the arrays of the live bitset objects, an input and an output stream -/
structure St where
  obj : Nat → Option (List Byte)
  is : IStream
  os : OStream

/-- computations over that state -/
abbrev BM (β : Type) := M St β

/-! ### object primitives -/

/-- access a live object's array -/
def getObj (i : Nat) : BM (List Byte) := fun s =>
  match s.obj i with
  | some bs => .ok bs s
  | none => .ub .deadObject

/-- begin the lifetime of object `i` with array `bs` -/
def newObj (i : Nat) (bs : List Byte) : BM Unit := fun s =>
  match s.obj i with
  | some _ => .ub .constructLive
  | none => .ok () { s with obj := upd s.obj i (some bs) }

/-- read `values[k]` of object `i` -/
def rd (i k : Nat) : BM Byte := fun s =>
  match s.obj i with
  | none => .ub .deadObject
  | some bs => match bs[k]? with
    | some b => .ok b s
    | none => .ub .outOfBounds

/-- write `values[k]` of object `i` -/
def wr (i k : Nat) (b : Byte) : BM Unit := fun s =>
  match s.obj i with
  | none => .ub .deadObject
  | some bs => if k < bs.length then .ok () { s with obj := upd s.obj i (some (bs.set k b)) } else .ub .outOfBounds

variable (n : Nat)

/-! ### storage -/

/-- bitset.hpp:20-25 `determine_trailing_mask` -/
def trailingMask : Byte := ([255, 1, 3, 7, 15, 31, 63, 127] : List Byte).getD (n % 8) 0

/-- bitset.hpp:32-39 `sizeof(values)`: a single `unsigned char` for `Size == 0`, otherwise the array -/
def bytes : Nat := if n = 0 then 1 else n / 8 + (if n % 8 ≠ 0 then 1 else 0)

/-- bitset.hpp:58-59 `clear_trailing_bits` -/
def clearTrailing (i : Nat) : BM Unit := do
  let b ← rd i (bytes n - 1)
  wr i (bytes n - 1) (b &&& trailingMask n)

/-! ### algorithms of the standard library, as the loops they prescribe -/

/-- `std::transform` of two arrays into the first (also if both are the same array) -/
def transform2 (f : Byte → Byte → Byte) (i k : Nat) : Nat → Nat → BM Unit
  | _, 0 => pure ()
  | j, m + 1 => do
    let x ← rd i j
    let y ← rd k j
    wr i j (f x y)
    transform2 f i k (j + 1) m

/-- `std::transform` of an array in place -/
def transform1 (f : Byte → Byte) (i : Nat) : Nat → Nat → BM Unit
  | _, 0 => pure ()
  | j, m + 1 => do
    let x ← rd i j
    wr i j (f x)
    transform1 f i (j + 1) m

/-- `std::fill_n` -/
def fillN (i : Nat) (b : Byte) : Nat → Nat → BM Unit
  | _, 0 => pure ()
  | j, m + 1 => do
    wr i j b
    fillN i b (j + 1) m

/-- `std::swap_ranges` (also if both are the same array) -/
def swapRanges (i k : Nat) : Nat → Nat → BM Unit
  | _, 0 => pure ()
  | j, m + 1 => do
    let x ← rd i j
    let y ← rd k j
    wr i j y
    wr k j x
    swapRanges i k (j + 1) m

/-! ### members -/

/-- bitset.hpp:123-124, 61 default constructor: `values{}` -/
def ctorDefault (i : Nat) : BM Unit := newObj i (List.replicate (bytes n) 0)

/-- bitset.hpp:55 implicit copy constructor -/
def ctorCopy (i j : Nat) : BM Unit := do
  let bs ← getObj j
  newObj i bs

/-- bitset.hpp:55 implicit copy assignment -/
def assignCopy (i j : Nat) : BM Unit := do
  let bs ← getObj j
  let _ ← getObj i
  fun s => .ok () { s with obj := upd s.obj i (some bs) }

/-- bitset.hpp:55 implicit destructor -/
def dtor (i : Nat) : BM Unit := do
  let _ ← getObj i
  fun s => .ok () { s with obj := upd s.obj i none }

/-- bitset.hpp:135-139 `operator[] const` -/
def index (i k : Nat) : BM Bool := do
  if n = 0 then pure false
  else
    let b ← rd i (k / 8)
    pure ((b &&& (1#8 <<< (k % 8))) != 0)

/-- bitset.hpp:142-146 `at() const` -/
def atConst (i k : Nat) : BM Bool := do
  if k ≥ n then M.throw .outOfRange
  else index n i k

/-- bitset.hpp:153-154 `test` -/
def test (i k : Nat) : BM Bool := atConst n i k

/-- bitset.hpp:300-308 `reset(index)` -/
def resetAt (i k : Nat) : BM Unit := do
  if n = 0 then M.throw .outOfRange
  else if k ≥ n then M.throw .outOfRange
  else
    let b ← rd i (k / 8)
    wr i (k / 8) (b &&& ~~~(1#8 <<< (k % 8)))

/-- bitset.hpp:284-293 `set(index, value)` -/
def setAt (i k : Nat) (v : Bool) : BM Unit := do
  if n = 0 then M.throw .outOfRange
  else if k ≥ n then M.throw .outOfRange
  else if v then
    let b ← rd i (k / 8)
    wr i (k / 8) (b ||| (1#8 <<< (k % 8)))
  else resetAt n i k

/-- bitset.hpp:318-326 `flip(index)` -/
def flipAt (i k : Nat) : BM Unit := do
  if n = 0 then M.throw .outOfRange
  else if k ≥ n then M.throw .outOfRange
  else
    let b ← rd i (k / 8)
    wr i (k / 8) (b ^^^ (1#8 <<< (k % 8)))

/-- bitset.hpp:276-283 `set()` -/
def setAll (i : Nat) : BM Unit := do
  if n ≠ 0 then
    fillN i 255 0 (bytes n)
    clearTrailing n i

/-- bitset.hpp:295-299 `reset()` -/
def resetAll (i : Nat) : BM Unit := do
  if n ≠ 0 then fillN i 0 0 (bytes n)

/-- bitset.hpp:310-317 `flip()` -/
def flipAll (i : Nat) : BM Unit := do
  if n ≠ 0 then
    transform1 (fun b => ~~~b) i 0 (bytes n)
    clearTrailing n i

/-- bitset.hpp:130-132 the loop of the constructor: `m` iterations from `k` -/
def ctorLoop (i : Nat) (v : BitVec 64) : Nat → Nat → BM Unit
  | _, 0 => pure ()
  | k, m + 1 => do
    if (v &&& (1#64 <<< k)) != 0 then setAt n i k true
    ctorLoop i v (k + 1) m

/-- bitset.hpp:126-133 `bitset(size_type)`; `size_type` has 64 bits -/
def ctorValue (i : Nat) (v : BitVec 64) : BM Unit := M.noexcept do
  ctorDefault n i
  ctorLoop n i v 0 (min 64 n)

/-- bitset.hpp:192-196 `operator&=` -/
def andAssign (i j : Nat) : BM Unit := do
  if n ≠ 0 then transform2 (fun x y => x &&& y) i j 0 (bytes n)
/-- bitset.hpp:204-208 `operator|=` -/
def orAssign (i j : Nat) : BM Unit := do
  if n ≠ 0 then transform2 (fun x y => x ||| y) i j 0 (bytes n)
/-- bitset.hpp:216-220 `operator^=` -/
def xorAssign (i j : Nat) : BM Unit := do
  if n ≠ 0 then transform2 (fun x y => x ^^^ y) i j 0 (bytes n)

/-- bitset.hpp:239-242 inner loop of `operator<<=`, `j` counting down to 1 -/
def shlInner (i : Nat) : Nat → BM Unit
  | 0 => pure ()
  | j + 1 => do
    let x ← rd i (j + 1)
    wr i (j + 1) (x <<< 1)
    let x ← rd i (j + 1)
    let y ← rd i j
    wr i (j + 1) (x ||| (y >>> 7))
    shlInner i j

/-- bitset.hpp:238-245 outer loop of `operator<<=` -/
def shlLoop (i : Nat) : Nat → BM Unit
  | 0 => pure ()
  | c + 1 => do
    shlInner i (bytes n - 1)
    let x ← rd i 0
    wr i 0 (x <<< 1)
    clearTrailing n i
    shlLoop i c

/-- bitset.hpp:235-248 `operator<<=` -/
def shlAssign (i c : Nat) : BM Unit := do
  if n ≠ 0 then shlLoop n i c

/-- bitset.hpp:261-264 inner loop of `operator>>=`: `m` iterations from `j` -/
def shrInner (i : Nat) : Nat → Nat → BM Unit
  | _, 0 => pure ()
  | j, m + 1 => do
    let x ← rd i (j - 1)
    let y ← rd i j
    wr i (j - 1) (x ||| (y <<< 7))
    let y ← rd i j
    wr i j (y >>> 1)
    shrInner i (j + 1) m

/-- bitset.hpp:259-265 outer loop of `operator>>=` -/
def shrLoop (i : Nat) : Nat → BM Unit
  | 0 => pure ()
  | c + 1 => do
    let x ← rd i 0
    wr i 0 (x >>> 1)
    shrInner i 1 (bytes n - 1)
    shrLoop i c

/-- bitset.hpp:256-268 `operator>>=` -/
def shrAssign (i c : Nat) : BM Unit := do
  if n ≠ 0 then shrLoop n i c

/-! Binary operators copy the left operand into the by-value parameter, modify it and return it.  The parameter and
the object initialised with the result are one object `i` in the model (copying the bytes of a trivially copyable
object once more changes nothing). -/

/-- bitset.hpp:197-202 `operator&` -/
def opAnd (i j k : Nat) : BM Unit := do
  ctorCopy i j
  andAssign n i k
/-- bitset.hpp:209-214 `operator|` -/
def opOr (i j k : Nat) : BM Unit := do
  ctorCopy i j
  orAssign n i k
/-- bitset.hpp:221-226 `operator^` -/
def opXor (i j k : Nat) : BM Unit := do
  ctorCopy i j
  xorAssign n i k
/-- bitset.hpp:228-233 `operator~` -/
def opNot (i j : Nat) : BM Unit := do
  ctorCopy i j
  flipAll n i
/-- bitset.hpp:249-254 `operator<<(bitset, size_type)` -/
def opShl (i j c : Nat) : BM Unit := do
  ctorCopy i j
  shlAssign n i c
/-- bitset.hpp:269-274 `operator>>(bitset, size_type)` -/
def opShr (i j c : Nat) : BM Unit := do
  ctorCopy i j
  shrAssign n i c

/-- bitset.hpp:360-366 `swap` -/
def swap (i j : Nat) : BM Unit := do
  if n ≠ 0 then swapRanges i j 0 (bytes n)

/-! ### queries (`values` is a list of `sizeof(values)` bytes, so `[values, values + sizeof(values))` is the list) -/

/-- bitset.hpp:156-163 `all` -/
def allSet (i : Nat) : BM Bool := do
  if n = 0 then pure true
  else
    let bs ← getObj i
    let it ← rd i (bytes n - 1)
    pure ((bs.take (bytes n - 1)).all (fun b => b == 255) && it == trailingMask n)

/-- bitset.hpp:164-168 `any` -/
def anySet (i : Nat) : BM Bool := do
  if n = 0 then pure false
  else
    let bs ← getObj i
    pure (bs.any fun b => b != 0)

/-- bitset.hpp:169-170 `none` -/
def noneSet (i : Nat) : BM Bool := do
  let b ← anySet n i
  pure (!b)

/-- bitset.hpp:328-331 `explicit operator bool` (only for tags that enable it) -/
def toBool (i : Nat) : BM Bool := anySet n i

/-- bitset.hpp:176 -/
def nibbleCount (k : Nat) : Nat := ([0, 1, 1, 2, 1, 2, 2, 3, 1, 2, 2, 3, 2, 3, 3, 4] : List Nat).getD k 0

/-- bitset.hpp:172-179 `count` (the sum is computed in `size_type`; it is at most `Size`, so it cannot wrap) -/
def count (i : Nat) : BM Nat := do
  if n = 0 then pure 0
  else
    let bs ← getObj i
    pure (bs.foldl (fun (sum : Nat) (val : Byte) => sum + (nibbleCount (val >>> 4).toNat + nibbleCount (val &&& 15).toNat)) 0)

/-- bitset.hpp:181-190 `size`, `max_size` -/
def size : Nat := n
/-- bitset.hpp:184-187 `empty` -/
def empty : Bool := size n == 0

/-- bitset.hpp:368-373 `operator==` (`std::equal` with three iterators; both arrays have `sizeof(values)` elements) -/
def opEq (i j : Nat) : BM Bool := do
  if n = 0 then pure true
  else
    let xs ← getObj i
    let ys ← getObj j
    pure (equalLoop (fun a b => a == b) xs ys)

/-- bitset.hpp:374-376 `operator!=` -/
def opNe (i j : Nat) : BM Bool := do
  let b ← opEq n i j
  pure (!b)

/-- bitset.hpp:383-410 `std::hash<bitset>`: FNV-1a on 64 bits -/
def hash (i : Nat) : BM (BitVec 64) := do
  if n = 0 then pure 0
  else
    let bs ← getObj i
    pure (bs.foldl (fun (h : BitVec 64) (v : Byte) => (h ^^^ v.zeroExtend 64) * 1099511628211#64) 14695981039346656037#64)

/-- bitset.hpp:66-72 `get<Index>` -/
def get (i k : Nat) : BM Bool := index n i k

/-! ### `bitset::reference` -/

/-- bitset.hpp:76-83: a reference to bit `idx` of object `self` -/
structure Ref where
  self : Nat
  idx : Nat
  deriving DecidableEq, Repr

/-- bitset.hpp:140-141 `operator[]` on a non-const bitset -/
def indexRef (i k : Nat) : BM Ref := do
  let _ ← getObj i
  pure ⟨i, k⟩

/-- bitset.hpp:147-151 `at()` on a non-const bitset -/
def atRef (i k : Nat) : BM Ref := do
  if k ≥ n then M.throw .outOfRange
  else indexRef i k

/-- bitset.hpp:97-98 `operator bool() const { return self[index]; }`.  `self` is a `bitset &`, so overload resolution
selects the non-const `operator[]` (line 141); its result, a `reference`, is converted to the return type `bool` by this
same function.  `fuel` bounds the depth of the recursion; when it runs out the call has not returned. -/
def refToBool : Nat → Ref → BM Bool
  | 0, _ => M.ub .noReturn
  | fuel + 1, r => do
    let r' ← indexRef r.self r.idx
    refToBool fuel r'

/-- bitset.hpp:91-95 `operator=(bool)` -/
def refAssign (r : Ref) (v : Bool) : BM Unit := M.noexcept (setAt n r.self r.idx v)

/-- bitset.hpp:88-89 `operator=(const reference &)`; `read` is the conversion to `bool` -/
def refAssignRef (read : Ref → BM Bool) (r r' : Ref) : BM Unit := do
  let v ← read r'
  refAssign n r v

/-- bitset.hpp:99-100 `operator~` -/
def refNot (read : Ref → BM Bool) (r : Ref) : BM Bool := do
  let v ← read r
  pure (!v)

/-- bitset.hpp:102-106 `flip` -/
def refFlip (r : Ref) : BM Unit := M.noexcept (flipAt n r.self r.idx)

/-- bitset.hpp:108-119 `swap`; `read` is the conversion to `bool` -/
def refSwap (read : Ref → BM Bool) (r r' : Ref) : BM Unit := do
  if r.idx = r'.idx then pure ()
  else
    let lhs ← read r
    let rhs ← read r'
    if lhs = rhs then pure ()
    else
      refAssign n r rhs
      refAssign n r' lhs

/-! ### streams -/

/-- the input stream -/
def getIs : BM IStream := fun s => .ok s.is s
def setIs (is : IStream) : BM Unit := fun s => .ok () { s with is := is }
def getOs : BM OStream := fun s => .ok s.os s
def setOs (os : OStream) : BM Unit := fun s => .ok () { s with os := os }

/-- `good()` -/
def IStream.good (is : IStream) : Bool := !is.eof && !is.fail && !is.bad

/-- discard leading whitespace -/
def IStream.skip (is : IStream) : List UInt8 → List UInt8 → IStream
  | past, [] => { is with past := past, rest := [] }
  | past, c :: cs => if is.isspace c then IStream.skip is (c :: past) cs else { is with past := past, rest := c :: cs }

/-- `std::istream::sentry` (C++17 [istream::sentry]): the stream afterwards and whether it is usable -/
def IStream.sentry (is : IStream) (noskipws : Bool) : IStream × Bool :=
  if !is.good then ({ is with fail := true }, false)
  else if !noskipws && is.skipws then
    let is' := is.skip is.past is.rest
    if is'.rest.isEmpty then ({ is' with eof := true, fail := true }, false) else (is', true)
  else (is, true)

/-- `is.get()`: the character, or `none` for `traits::eof()` -/
def IStream.get (is : IStream) : IStream × Option UInt8 :=
  match is.sentry true with
  | (is, false) => (is, none)
  | (is, true) => match is.rest with
    | [] => ({ is with eof := true, fail := true }, none)
    | c :: cs => ({ is with past := c :: is.past, rest := cs }, some c)

/-- `is.unget()`: clears `eofbit`, then puts the last character back if the stream is good -/
def IStream.unget (is : IStream) : IStream :=
  match ({ is with eof := false }).sentry true with
  | (is, false) => is
  | (is, true) => match is.past with
    | [] => { is with bad := true }
    | c :: cs => { is with past := cs, rest := c :: is.rest }

/-- bitset.hpp:342-355 the loop of `operator>>`: `m` iterations left -/
def extractLoop (i : Nat) : Nat → Bool → BM Unit
  | 0, _ => pure ()
  | m + 1, extracted => do
    let is ← getIs
    let (is, c) := is.get
    setIs is
    if c = some 48 ∨ c = some 49 then
      if !extracted then resetAll n i
      shlAssign n i 1
      if c = some 49 then setAt n i 0 true
      extractLoop i m true
    else
      setIs is.unget
      if !extracted then
        let is ← getIs
        setIs { is with fail := true }

/-- bitset.hpp:338-358 `operator>>(std::istream &, bitset &)` -/
def extract (i : Nat) : BM Unit := do
  let is ← getIs
  let (is, ok) := is.sentry false
  setIs is
  if ok then extractLoop n i n false

/-- `os << c` for a character: padded to the field width, which is then reset -/
def OStream.put (os : OStream) (c : UInt8) : OStream :=
  let pad := List.replicate (os.width - 1) os.fill
  { os with out := os.out ++ (if os.left then c :: pad else pad ++ [c]), width := 0 }

/-- bitset.hpp:333-337 `operator<<(std::ostream &, const bitset &)`: the loop, `i` counting down from `Size` -/
def insertLoop (i : Nat) : Nat → BM Unit
  | 0 => pure ()
  | k + 1 => do
    let b ← test n i k
    let os ← getOs
    setOs (os.put (if b then 49 else 48))
    insertLoop i k

/-- bitset.hpp:333-337 `operator<<(std::ostream &, const bitset &)` -/
def insert (i : Nat) : BM Unit := insertLoop n i n

end Ptl.Bitset

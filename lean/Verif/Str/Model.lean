import Verif.Heap
import Verif.Bytes

/-!
# Model of `ptl::string` (inc/ptl/string.hpp)

Every definition cites the lines it models.  Bytes (`char`) are `UInt8`; a slot `none` is an indeterminate byte, and
reading one is undefined.  `const_iterator`/`iterator`/raw pointers are all `Ptr`s.  `sizeof(void*) = 8`.
-/

namespace Ptl.Str

/-- a region of memory that bytes can live in: a block from `new char[]`, or the member `sso.buf` of the string object
`i` (which exists only while `sso` is the active member of the union) -/
inductive Base where
  | heap (b : Nat)
  | sso (i : Id)
  deriving DecidableEq, Repr

/-- pointer to byte `off` of a region (`none` = null pointer) -/
structure Ptr where
  base : Option Base
  off : Nat
  deriving DecidableEq, Repr

/-- pointer arithmetic `p + n` -/
def Ptr.add (p : Ptr) (n : Nat) : Ptr := { p with off := p.off + n }

/-- string.hpp:25-35 the union; the constructor is the active member.  The bytes `sso.buf` are in memory region
`Base.sso i`. -/
inductive U where
  | sso (siz : Nat)
  | heap (ptr cap siz : Nat)
  deriving DecidableEq, Repr

/-- string.hpp:24-35 data members of `storage_t`.  `dealloc` is null or was stored by line 57, which runs once per
allocated block; each module has its own copy of that function.  A stored function is named by the number of the block it
was stored for (see `Vector.Storage`). -/
structure Obj where
  dealloc : Option Nat
  u : U
  deriving DecidableEq, Repr

/-- Program state: memory regions, string objects, failure oracle as in `Verif/Heap.lean`, and a ghost counter of the
bytes copied by reallocation in `reserve`. -/
structure St where
  mem : Base → Option (List (Option UInt8))
  nblk : Nat
  obj : Id → Option Obj
  ntmp : Nat
  orc : Nat → Bool
  tick : Nat
  moves : Nat

/-- computations over the string heap -/
abbrev SM (β : Type) := M St β

/-! ### primitives -/

/-- consult the failure oracle -/
def fallible (e : Exc) : SM Unit := fun s =>
  if s.orc s.tick then .exc e { s with tick := s.tick + 1 } else .ok () { s with tick := s.tick + 1 }

/-- access an object within its lifetime -/
def getObj (i : Id) : SM Obj := fun s =>
  match s.obj i with
  | some o => .ok o s
  | none => .ub .deadObject

/-- update an object within its lifetime -/
def setObj (i : Id) (o : Obj) : SM Unit := fun s =>
  match s.obj i with
  | some _ => .ok () { s with obj := upd s.obj i (some o) }
  | none => .ub .deadObject

/-- what kind of invalid access it is when a region does not exist -/
def Base.fault : Base → Fault
  | .heap _ => .useAfterFree
  | .sso _ => .inactiveMember

/-- read `n` bytes from `p` on (0 bytes may be read anywhere) -/
def readN (p : Ptr) (n : Nat) : SM (List UInt8) := fun s =>
  if n = 0 then .ok [] s else
  match p.base with
  | none => .ub .nullDeref
  | some b => match s.mem b with
    | none => .ub b.fault
    | some l =>
      if l.length < p.off + n then .ub .outOfBounds
      else if ((l.drop p.off).take n).all Option.isSome then .ok (((l.drop p.off).take n).filterMap id) s
      else .ub .readRaw

/-- write the bytes `bs` to `p` on (0 bytes may be written anywhere) -/
def writeN (p : Ptr) (bs : List UInt8) : SM Unit := fun s =>
  if bs = [] then .ok () s else
  match p.base with
  | none => .ub .nullDeref
  | some b => match s.mem b with
    | none => .ub b.fault
    | some l =>
      if l.length < p.off + bs.length then .ub .outOfBounds
      else .ok () { s with mem := upd s.mem b (some (l.take p.off ++ bs.map some ++ l.drop (p.off + bs.length))) }

/-- read the byte at `p` -/
def readAt (p : Ptr) : SM UInt8 := fun s =>
  match p.base with
  | none => .ub .nullDeref
  | some b => match s.mem b with
    | none => .ub b.fault
    | some l => match l[p.off]? with
      | none => .ub .outOfBounds
      | some none => .ub .readRaw
      | some (some v) => .ok v s

/-- write the byte at `p` -/
def writeAt (p : Ptr) (v : UInt8) : SM Unit := writeN p [v]

/-- ghost: `n` bytes are being copied because of a reallocation -/
def countMoves (n : Nat) : SM Unit := fun s => .ok () { s with moves := s.moves + n }

/-- `new char[n]`: too large a request throws, otherwise the oracle decides -/
def newChar (n : Nat) : SM Nat := fun s =>
  if n > ptrdiffMax then .exc .badAlloc s
  else if s.orc s.tick then .exc .badAlloc { s with tick := s.tick + 1 }
  else .ok s.nblk { s with mem := upd s.mem (.heap s.nblk) (some (List.replicate n none)),
                           nblk := s.nblk + 1, tick := s.tick + 1 }

/-- the number of the block that `newChar` allocates next, naming the function that line 57 stores for it -/
def nextBlk : SM Nat := fun s => .ok s.nblk s

/-- `dealloc(ptr)` with the function `d`, i.e. the `delete[]` (string.hpp:57) of the module that allocated block `d` -/
def deleteChar (d b : Nat) : SM Unit := fun s =>
  match s.mem (.heap b) with
  | none => .ub .useAfterFree
  | some _ => if d ≠ b then .ub .wrongDealloc else .ok () { s with mem := upd s.mem (.heap b) none }

/-! ### standard algorithms on `char *` -/

/-- `std::copy`/`copy_n`/`move`/`copy_backward`/`memcpy` of `n` bytes between `char *` ranges (overlap in the direction
the algorithm permits is a `memmove`; `std::copy` onto itself, string.hpp:462 with `first == last`, is taken to be
harmless although the standard excludes it) -/
def memmove (dst src : Ptr) (n : Nat) : SM Unit := do
  let bs ← readN src n
  writeN dst bs

/-- `std::fill`/`fill_n` -/
def fill (dst : Ptr) (n : Nat) (ch : UInt8) : SM Unit := writeN dst (List.replicate n ch)

/-- number of bytes in `[first, last)`; pointers into different regions or a reversed range are undefined -/
def distance (first last : Ptr) : SM Nat :=
  if first.base = last.base ∧ first.off ≤ last.off then pure (last.off - first.off) else M.ub .badRange

/-- `std::rotate(f, m, l)` -/
def rotate (f m l : Ptr) : SM Unit := do
  let a ← distance f m
  let b ← distance m l
  let x ← readN f a
  let y ← readN m b
  writeN f (y ++ x)

/-- what dereferencing an iterator of a source range does: yield a byte, yield a byte unless the oracle lets it throw,
or read the byte at a pointer -/
inductive Arg where
  | val (v : UInt8)
  | thr (v : UInt8)
  | at (p : Ptr)

/-- `*it` -/
def Arg.deref : Arg → SM UInt8
  | .val v => pure v
  | .thr v => do
    fallible .user
    pure v
  | .at p => readAt p

/-- `std::copy(first, last, dst)`/`copy_n` from an arbitrary iterator range -/
def copyRange : List Arg → Ptr → SM Unit
  | [], _ => pure ()
  | a :: as, dst => do
    let v ← a.deref
    writeAt dst v
    copyRange as (dst.add 1)

/-! ### `storage_t` -/

/-- string.hpp:20-22 `sso_size` -/
def ssoSize : Nat := 22
/-- string.hpp:30 `sizeof(sso)` -/
def ssoBytes : Nat := 24

/-- assignment to `sso.siz` (makes `sso` the active member if it is not) -/
def setSsoSiz (i : Id) (n : Nat) : SM Unit := fun s =>
  match s.obj i with
  | none => .ub .deadObject
  | some o => match o.u with
    | .sso _ => .ok () { s with obj := upd s.obj i (some { o with u := .sso n }) }
    | .heap _ _ _ => .ok () { s with obj := upd s.obj i (some { o with u := .sso n }),
                                     mem := upd s.mem (.sso i) (some (List.replicate (ssoSize + 1) none)) }

/-- assignment to `heap` as a whole (makes `heap` the active member; `sso.buf` ceases to exist) -/
def setHeap (i : Id) (ptr cap siz : Nat) : SM Unit := fun s =>
  match s.obj i with
  | none => .ub .deadObject
  | some o => .ok () { s with obj := upd s.obj i (some { o with u := .heap ptr cap siz }),
                              mem := upd s.mem (.sso i) none }

/-- assignment to `dealloc` -/
def setDealloc (i : Id) (d : Option Nat) : SM Unit := do
  let o ← getObj i
  setObj i { o with dealloc := d }

/-- value of `sso.siz` converted to `std::size_t`: the `char` is sign-extended -/
def charToSize (n : Nat) : Nat := if n < 128 then n else szMod - (256 - n)

/-- read `sso.siz` -/
def ssoSiz (i : Id) : SM Nat := do
  let o ← getObj i
  match o.u with
  | .sso n => pure n
  | .heap _ _ _ => M.ub .inactiveMember

/-- read `heap` -/
def heapOf (i : Id) : SM (Nat × Nat × Nat) := do
  let o ← getObj i
  match o.u with
  | .sso _ => M.ub .inactiveMember
  | .heap p c n => pure (p, c, n)

/-- the address of `sso.buf` of object `i` -/
def bufPtr (i : Id) : Ptr := ⟨some (.sso i), 0⟩
/-- the address held by a `heap.ptr` -/
def heapPtr (b : Nat) : Ptr := ⟨some (.heap b), 0⟩

/-- start the lifetime of a `storage_t` object at `i` (its union has no particular value; we let `sso` be the active
member with indeterminate bytes, string.hpp:53 and 55 initialise it before it is read) -/
def newObj (i : Id) : SM Unit := fun s =>
  match s.obj i with
  | some _ => .ub .constructLive
  | none => .ok () { s with obj := upd s.obj i (some ⟨none, .sso 0⟩),
                            mem := upd s.mem (.sso i) (some (List.replicate (ssoSize + 1) none)) }

/-- end the lifetime of the object -/
def killObj (i : Id) : SM Unit := fun s =>
  match s.obj i with
  | none => .ub .deadObject
  | some _ => .ok () { s with obj := upd s.obj i none, mem := upd s.mem (.sso i) none }

/-- string.hpp:37-41 `clear_to_sso` -/
def clearToSso (i : Id) : SM Unit := do
  setDealloc i none
  setSsoSiz i 0
  writeAt (bufPtr i) 0

/-- string.hpp:43-46 `copy_sso` -/
def copySso (i other : Id) : SM Unit := do
  let n ← ssoSiz other
  setSsoSiz i n
  memmove (bufPtr i) (bufPtr other) (n + 1)

/-- string.hpp:48-51 `move_heap` -/
def moveHeap (i other : Id) : SM Unit := do
  let (p, c, n) ← heapOf other
  setHeap i p c n
  clearToSso other

/-- string.hpp:53 `storage_t()` -/
def Storage.ctor (i : Id) : SM Unit := do
  newObj i
  clearToSso i

/-- string.hpp:60 the heap capacity for a request (wraps) -/
def heapCap (required : Nat) : Nat := szMul (max 2 (szSub (szAdd required ssoBytes) 1 / ssoBytes)) ssoBytes

/-- string.hpp:55-64 `storage_t(std::size_t required)`; if `new` throws, no object comes into existence -/
def Storage.ctorCap (i : Id) (required : Nat) : SM Unit := do
  newObj i
  if required > ssoSize then
    M.onExc (do
      setDealloc i (some (← nextBlk))
      let cap := heapCap required
      let p ← newChar (szAdd cap 1)
      setHeap i p cap 0
      writeAt (heapPtr p) 0) (killObj i)
  else clearToSso i

/-- string.hpp:66-69 `storage_t(storage_t &&)` -/
def Storage.ctorMove (i other : Id) : SM Unit := do
  newObj i
  let o ← getObj other
  setDealloc i o.dealloc
  if o.dealloc.isSome then moveHeap i other else copySso i other

/-- `if(dealloc) dealloc(heap.ptr);` (string.hpp:72, 80) -/
def Storage.release (i : Id) : SM Unit := do
  let o ← getObj i
  match o.dealloc with
  | some d => do
    let (p, _, _) ← heapOf i
    deleteChar d p
  | none => pure ()

/-- string.hpp:70-78 `operator=(storage_t &&)` -/
def Storage.moveAssign (this other : Id) : SM Unit :=
  if this ≠ other then do
    Storage.release this
    let o ← getObj other
    setDealloc this o.dealloc
    if o.dealloc.isSome then moveHeap this other else copySso this other
  else pure ()

/-- string.hpp:80 `~storage_t()` -/
def Storage.dtor (i : Id) : SM Unit := do
  Storage.release i
  killObj i

/-- string.hpp:82-83, 379-381, 555-556 `data()`, `c_str()`, `begin()` -/
def data (i : Id) : SM Ptr := do
  let o ← getObj i
  if o.dealloc.isSome then do
    let (p, _, _) ← heapOf i
    pure (heapPtr p)
  else do
    let _ ← ssoSiz i
    pure (bufPtr i)

/-- string.hpp:85, 388 `capacity()` -/
def capacity (i : Id) : SM Nat := do
  let o ← getObj i
  if o.dealloc.isSome then do
    let (_, c, _) ← heapOf i
    pure c
  else pure ssoSize

/-- string.hpp:96, 385 `size()` -/
def size (i : Id) : SM Nat := do
  let o ← getObj i
  if o.dealloc.isSome then do
    let (_, _, n) ← heapOf i
    pure n
  else do
    let n ← ssoSiz i
    pure (charToSize n)

/-- string.hpp:87-95 `set_size` -/
def setSize (i : Id) (val : Nat) : SM Unit := do
  let o ← getObj i
  if o.dealloc.isSome then do
    let (p, c, _) ← heapOf i
    setHeap i p c val
    writeAt ((heapPtr p).add val) 0
  else do
    setSsoSiz i (val % 256)
    writeAt ((bufPtr i).add val) 0

/-- string.hpp:98-109, 414 `shrink_to_fit` (`noexcept`) -/
def shrinkToFit (i : Id) : SM Unit := M.noexcept do
  let o ← getObj i
  match o.dealloc with
  | none => pure ()
  | some d => do
    let (ptr, _, siz) ← heapOf i
    if siz > ssoSize then pure ()
    else do
      setSsoSiz i (siz % 256)
      memmove (bufPtr i) (heapPtr ptr) (siz + 1)
      deleteChar d ptr
      setDealloc i none

/-- string.hpp:111-137, 568-570 `swap` (`noexcept`).  The local array `tmp` of line 119 is the list `t`. -/
def swap (this other : Id) : SM Unit := M.noexcept (
  if this = other then pure ()
  else do
    let a ← getObj this
    let b ← getObj other
    if a.dealloc.isSome && b.dealloc.isSome then do
      let (p, c, n) ← heapOf this
      let (p', c', n') ← heapOf other
      setHeap this p' c' n'
      setHeap other p c n
      setDealloc this b.dealloc
      setDealloc other a.dealloc
    else if a.dealloc.isNone && b.dealloc.isNone then do
      let n ← ssoSiz this
      let n' ← ssoSiz other
      let t ← readN (bufPtr this) (n + 1)
      memmove (bufPtr this) (bufPtr other) (n' + 1)
      writeN (bufPtr other) t
      setSsoSiz this n'
      setSsoSiz other n
    else do
      let onHeap := if a.dealloc.isSome then this else other
      let onSso := if a.dealloc.isSome then other else this
      let (p, c, n) ← heapOf onHeap
      let m ← ssoSiz onSso
      setSsoSiz onHeap m
      memmove (bufPtr onHeap) (bufPtr onSso) (m + 1)
      setHeap onSso p c n
      setDealloc this b.dealloc
      setDealloc other a.dealloc)

/-- a local `storage_t tmp{n};` in scope `body` -/
def withStorage {β : Type} (n : Nat) (body : Id → SM β) : SM β := fun s =>
  let t := Id.tmp s.ntmp
  (do
    Storage.ctorCap t n
    M.withDtor (body t) (Storage.dtor t) : SM β) { s with ntmp := s.ntmp + 1 }

/-! ### basic members -/

/-- string.hpp:384 `empty()` -/
def empty (i : Id) : SM Bool := do
  let n ← size i
  pure (n == 0)
/-- string.hpp:386-387 `max_size()` -/
def maxSize : Nat := ptrdiffMax - 1

/-- string.hpp:397-404 `reserve` -/
def reserve (i : Id) (newCapacity : Nat) : SM Unit := do
  let cap ← capacity i
  if newCapacity ≤ cap then pure ()
  else if newCapacity > maxSize then M.throw .lengthError
  else withStorage newCapacity fun tmp => do
    let sz ← size i
    setSize tmp sz
    let e ← empty i
    (if !e then do
      let d ← data i
      let t ← data tmp
      countMoves (sz + 1)
      memmove t d (sz + 1)
     else pure ())
    Storage.moveAssign i tmp

/-- string.hpp:407-412 `resize(count, ch)`; line 406 is `ch = 0` -/
def resize (i : Id) (count : Nat) (ch : UInt8) : SM Unit := do
  let old ← size i
  reserve i count
  setSize i count
  let sz ← size i
  if old < sz then do
    let d ← data i
    fill (d.add old) (sz - old) ch
  else pure ()

/-- string.hpp:363-364 `operator[]`: the address of the byte -/
def index (i : Id) (k : Nat) : SM Ptr := do
  let d ← data i
  pure (d.add k)
/-- string.hpp:365-372 `at` -/
def at_ (i : Id) (k : Nat) : SM Ptr := do
  let sz ← size i
  if k ≥ sz then M.throw .outOfRange
  else index i k
/-- string.hpp:374-375 `front()` -/
def front (i : Id) : SM Ptr := index i 0
/-- string.hpp:376-377 `back()` -/
def back (i : Id) : SM Ptr := do
  let sz ← size i
  index i (szSub sz 1)

/-- string.hpp:390-394 `push_back`; returns the address of the new byte -/
def pushBack (i : Id) (ch : UInt8) : SM Ptr := do
  let sz ← size i
  let cap ← capacity i
  (if sz = cap then reserve i (szAdd sz 1) else pure ())
  let sz ← size i
  resize i (szAdd sz 1) ch
  back i
/-- string.hpp:395 `pop_back` (`noexcept`) -/
def popBack (i : Id) : SM Unit := M.noexcept do
  let sz ← size i
  setSize i (szSub sz 1)
/-- string.hpp:416-419 `clear` (`noexcept`) -/
def clear (i : Id) : SM Unit := M.noexcept do
  let e ← empty i
  if e then pure () else setSize i 0

/-- string.hpp:461-465 `erase(first, last)` (`noexcept`) -/
def erase (i : Id) (first last : Ptr) : SM Ptr := M.noexcept do
  let d ← data i
  let sz ← size i
  let n ← distance last (d.add sz)
  memmove first last n
  let sz ← size i
  let k ← distance first last
  setSize i (szSub sz k)
  pure first
/-- string.hpp:460 `erase(pos)` -/
def eraseOne (i : Id) (pos : Ptr) : SM Ptr := erase i pos (pos.add 1)

/-! ### the `*_no_aliasing` helpers: `fill` gets the offset at which to write -/

/-- string.hpp:247-252 -/
def appendNoAliasing (i : Id) (additional : Nat) (fill : Nat → SM Unit) : SM Unit := do
  let old ← size i
  resize i (szAdd old additional) 0
  fill old

/-- string.hpp:254-258 -/
def assignNoAliasing (i : Id) (required : Nat) (fill : SM Unit) : SM Unit := do
  resize i required 0
  fill

/-- string.hpp:260-268; the callers compute the same `offset` for `fill` before the call -/
def insertNoAliasing (i : Id) (pos : Ptr) (additional : Nat) (fill : Nat → SM Unit) : SM Ptr := do
  let old ← size i
  let d ← data i
  let offset ← distance d pos
  resize i (szAdd old additional) 0
  let d ← data i
  let sz ← size i
  let n ← distance (d.add offset) (d.add old)
  memmove (d.add (sz - n)) (d.add offset) n
  fill offset
  let d ← data i
  pure (d.add offset)

/-- string.hpp:270-282 -/
def replaceNoAliasing (i : Id) (first last : Ptr) (required : Nat) (fill : Nat → SM Unit) : SM Unit := do
  let d ← data i
  let offset ← distance d first
  let count ← distance first last
  if count < required then do
    let old ← size i
    resize i (szAdd old (required - count)) 0
    let d ← data i
    let sz ← size i
    let n ← distance (d.add (offset + count)) (d.add old)
    memmove (d.add (sz - n)) (d.add (offset + count)) n
    fill offset
  else do
    fill offset
    let _ ← erase i (first.add required) (first.add count)
    pure ()

/-- writes `bs` at `data() + offset` (the lambdas of lines 441, 457, 491, 523: initializer lists) -/
def putAt (i : Id) (offset : Nat) (bs : List UInt8) : SM Unit := do
  let d ← data i
  writeN (d.add offset) bs

/-- the lambdas of lines 442, 458, 493, 527: `fill_n(data() + offset, count, ch)` -/
def fillAt (i : Id) (offset count : Nat) (ch : UInt8) : SM Unit := do
  let d ← data i
  fill (d.add offset) count ch

/-- the lambdas of lines 424, 470, 498: `copy_n(tmp.data(), tmp.size(), data() + offset)` -/
def copyFrom (i tmp : Id) (offset : Nat) : SM Unit := do
  let t ← data tmp
  let n ← size tmp
  let d ← data i
  memmove (d.add offset) t n

/-! ### constructors -/

/-- a constructor whose body runs after `storage` was default-initialised; if the body throws, `storage` is destroyed -/
def construct (i : Id) (body : SM Unit) : SM Unit := do
  Storage.ctor i
  M.onExc body (Storage.dtor i)

/-- `storage = n;`: an implicit temporary `storage_t(n)` is move-assigned and destroyed (string.hpp:241, 313, 320) -/
def storageAssign (i : Id) (n : Nat) : SM Unit := withStorage n fun tmp => Storage.moveAssign i tmp

/-- string.hpp:297 -/
def ctorDefault (i : Id) : SM Unit := Storage.ctor i
/-- `std::copy(first, last, std::back_inserter(*this))` -/
def pushAll (i : Id) : List Arg → SM Unit
  | [] => pure ()
  | a :: as => do
    let v ← a.deref
    let _ ← pushBack i v
    pushAll i as
/-- string.hpp:309 constructor from input iterators -/
def ctorInput (i : Id) (src : List Arg) : SM Unit := construct i (pushAll i src)
/-- string.hpp:311-316 constructor from forward iterators (also 299 copy constructor, 318 string_view, 324
initializer_list, 531 and 536 `substr() const &`) -/
def ctorRange (i : Id) (src : List Arg) : SM Unit := construct i do
  storageAssign i src.length
  setSize i src.length
  let d ← data i
  copyRange src d
/-- string.hpp:319-323 `string(count, ch)` -/
def ctorFill (i : Id) (count : Nat) (ch : UInt8) : SM Unit := construct i do
  storageAssign i count
  setSize i count
  let d ← data i
  fill d count ch
/-- string.hpp:237-245 `concat`, for all `operator+` (339-361); the result object is `i` (copy elision) -/
def concat (i : Id) (lhs rhs : List Arg) : SM Unit := construct i do
  let count := szAdd lhs.length rhs.length
  storageAssign i count
  setSize i count
  let d ← data i
  copyRange lhs d
  copyRange rhs (d.add lhs.length)
/-- string.hpp:306 destructor -/
def dtor (i : Id) : SM Unit := Storage.dtor i

/-- the bytes `[p, p + n)` as a source range -/
def ptrRange (p : Ptr) (n : Nat) : List Arg := (List.range n).map fun k => .at (p.add k)

/-- string.hpp:550-553 conversion to `std::string_view` -/
def view (i : Id) : SM (Ptr × Nat) := do
  let e ← empty i
  if e then pure (⟨none, 0⟩, 0)
  else do
    let d ← data i
    let n ← size i
    pure (d, n)

/-- string.hpp:299 copy constructor -/
def ctorCopy (i other : Id) : SM Unit := do
  let (p, n) ← view other
  ctorRange i (ptrRange p n)
/-- string.hpp:300 move constructor -/
def ctorMove (i other : Id) : SM Unit := M.noexcept (Storage.ctorMove i other)

/-- a local `const string tmp(first, last)` in scope `body` (input or forward range: the two constructors) -/
def withString {β : Type} (ctor : Id → SM Unit) (body : Id → SM β) : SM β := fun s =>
  let t := Id.tmp s.ntmp
  (do
    ctor t
    M.withDtor (body t) (Storage.dtor t) : SM β) { s with ntmp := s.ntmp + 1 }

/-- string.hpp:305 move assignment -/
def assignMove (this other : Id) : SM Unit := M.noexcept (Storage.moveAssign this other)

/-! ### append (string.hpp:421-442) -/

/-- string.hpp:422-425 -/
def appendInput (i : Id) (src : List Arg) : SM Unit :=
  withString (fun t => ctorInput t src) fun tmp => do
    let n ← size tmp
    appendNoAliasing i n fun offset => copyFrom i tmp offset
/-- string.hpp:427-440 (also 335-338, 356-359 `operator+=`) -/
def appendRange (i : Id) (src : List Arg) : SM Unit := do
  let dist := src.length
  let sz ← size i
  let cap ← capacity i
  if szAdd dist sz ≤ cap then do
    let d ← data i
    copyRange src (d.add sz)
    let sz ← size i
    setSize i (szAdd sz dist)
  else
    withStorage (szAdd sz dist) fun tmp => do
      let t ← data tmp
      copyRange src (t.add sz)
      let d ← data i
      memmove t d sz
      setSize tmp (szAdd sz dist)
      Storage.moveAssign i tmp
/-- string.hpp:441 (also 343-346) -/
def appendIlist (i : Id) (bs : List UInt8) : SM Unit :=
  appendNoAliasing i bs.length fun offset => putAt i offset bs
/-- string.hpp:442 (also 347-350 with `count = 1`) -/
def appendFill (i : Id) (count : Nat) (ch : UInt8) : SM Unit :=
  appendNoAliasing i count fun offset => fillAt i offset count ch

/-! ### assign (string.hpp:444-458) -/

/-- string.hpp:445 -/
def assignInput (i : Id) (src : List Arg) : SM Unit :=
  withString (fun t => ctorInput t src) fun tmp => assignMove i tmp
/-- string.hpp:447-456 (also 326-329) -/
def assignRange (i : Id) (src : List Arg) : SM Unit := do
  let dist := src.length
  let sz ← size i
  let cap ← capacity i
  if szAdd dist sz ≤ cap then do
    let d ← data i
    copyRange src (d.add sz)
    rotate d (d.add sz) (d.add (sz + dist))
    setSize i dist
  else withString (fun t => ctorRange t src) fun tmp => assignMove i tmp
/-- string.hpp:457 (also 330-333) -/
def assignIlist (i : Id) (bs : List UInt8) : SM Unit := assignNoAliasing i bs.length (putAt i 0 bs)
/-- string.hpp:458 -/
def assignFill (i : Id) (count : Nat) (ch : UInt8) : SM Unit := assignNoAliasing i count (fillAt i 0 count ch)
/-- string.hpp:301-304 copy assignment -/
def assignCopy (this other : Id) : SM Unit :=
  if this ≠ other then do
    let (p, n) ← view other
    assignRange this (ptrRange p n)
  else pure ()

/-! ### insert (string.hpp:467-493) -/

/-- string.hpp:468-471 -/
def insertInput (i : Id) (pos : Ptr) (src : List Arg) : SM Ptr :=
  withString (fun t => ctorInput t src) fun tmp => do
    let n ← size tmp
    insertNoAliasing i pos n fun offset => copyFrom i tmp offset
/-- string.hpp:473-490 -/
def insertRange (i : Id) (pos : Ptr) (src : List Arg) : SM Ptr := do
  let dist := src.length
  let d ← data i
  let offset ← distance d pos
  let sz ← size i
  let cap ← capacity i
  (if szAdd dist sz ≤ cap then do
    copyRange src (d.add sz)
    rotate pos (d.add sz) (d.add (sz + dist))
    let sz ← size i
    setSize i (szAdd sz dist)
  else
    withStorage (szAdd sz dist) fun tmp => do
      let t ← data tmp
      copyRange src (t.add offset)
      let d ← data i
      memmove t d offset
      let n ← distance (d.add offset) (d.add sz)
      memmove (t.add (offset + dist)) (d.add offset) n
      setSize tmp (szAdd sz dist)
      Storage.moveAssign i tmp)
  let d ← data i
  pure (d.add offset)
/-- string.hpp:491 -/
def insertIlist (i : Id) (pos : Ptr) (bs : List UInt8) : SM Ptr :=
  insertNoAliasing i pos bs.length fun offset => putAt i offset bs
/-- string.hpp:493 (also 492 with `count = 1`) -/
def insertFill (i : Id) (pos : Ptr) (count : Nat) (ch : UInt8) : SM Ptr :=
  insertNoAliasing i pos count fun offset => fillAt i offset count ch

/-! ### replace (string.hpp:495-529) -/

/-- string.hpp:496-500 -/
def replaceInput (i : Id) (first last : Ptr) (src : List Arg) : SM Unit :=
  withString (fun t => ctorInput t src) fun tmp => do
    let n ← size tmp
    replaceNoAliasing i first last n fun offset => copyFrom i tmp offset
/-- string.hpp:502-521 -/
def replaceRange (i : Id) (first last : Ptr) (src : List Arg) : SM Unit := do
  let dist := src.length
  let sz ← size i
  let cap ← capacity i
  if szAdd dist sz ≤ cap then do
    let d ← data i
    copyRange src (d.add sz)
    let offsetFirst ← distance d first
    let k ← distance first last
    let offsetMid := szSub sz k
    setSize i (szAdd sz dist)
    let _ ← erase i first last
    let d ← data i
    let sz ← size i
    rotate (d.add offsetFirst) (d.add offsetMid) (d.add sz)
  else do
    let k ← distance first last
    withStorage (szAdd (szSub sz k) dist) fun tmp => do
      let t ← data tmp
      let d ← data i
      let offsetFirst ← distance d first
      copyRange src (t.add offsetFirst)
      memmove t d offsetFirst
      let n ← distance last (d.add sz)
      memmove (t.add (offsetFirst + dist)) last n
      setSize tmp (szAdd (szSub sz k) dist)
      Storage.moveAssign i tmp
/-- string.hpp:522-525 -/
def replaceIlist (i : Id) (first last : Ptr) (bs : List UInt8) : SM Unit :=
  replaceNoAliasing i first last bs.length fun offset => putAt i offset bs
/-- string.hpp:526-529 -/
def replaceFill (i : Id) (first last : Ptr) (count : Nat) (ch : UInt8) : SM Unit :=
  replaceNoAliasing i first last count fun offset => fillAt i offset count ch

/-! ### substr (string.hpp:531-541); the result is constructed in the object `r` -/

/-- string.hpp:531 `substr(offset) const &` -/
def substr (r i : Id) (offset : Nat) : SM Unit := do
  let d ← data i
  let sz ← size i
  let n ← distance (d.add offset) (d.add sz)
  ctorRange r (ptrRange (d.add offset) n)
/-- string.hpp:536 `substr(offset, count) const &` -/
def substrN (r i : Id) (offset count : Nat) : SM Unit := do
  let d ← data i
  ctorRange r (ptrRange (d.add offset) count)
/-- string.hpp:532-535 `substr(offset) &&` (`noexcept`) -/
def substrMove (r i : Id) (offset : Nat) : SM Unit := M.noexcept do
  let d ← data i
  let _ ← erase i d (d.add offset)
  ctorMove r i
/-- string.hpp:537-541 `substr(offset, count) &&` (`noexcept`) -/
def substrNMove (r i : Id) (offset count : Nat) : SM Unit := M.noexcept do
  let d ← data i
  let sz ← size i
  let _ ← erase i (d.add (offset + count)) (d.add sz)
  let d ← data i
  let _ ← erase i d (d.add offset)
  ctorMove r i

/-! ### literals (string.hpp:621-624) -/

/-- `std::string_view(const char *)`: the length is found by `strlen`; `lit` are the characters of the literal without
the terminating null character that the compiler appends -/
def strlen (lit : List UInt8) : Nat := (lit.takeWhile (· ≠ 0)).length

/-- string.hpp:623 `operator""_s` (`noexcept`); its second parameter, the length, is ignored -/
def literal (i : Id) (lit : List UInt8) (_len : Nat) : SM Unit :=
  M.noexcept (ctorRange i ((lit.take (strlen lit)).map .val))

/-! ### comparison and hashing (string.hpp:572-613, 627-632) -/

/-- a `std::string_view`: bytes outside all strings, or the `n` bytes from `p` on -/
inductive View where
  | ext (bs : List UInt8)
  | mem (p : Ptr) (n : Nat)

/-- `std::string_view::size` -/
def View.size : View → Nat
  | .ext bs => bs.length
  | .mem _ n => n

/-- read the first `n` characters of a view -/
def View.read : View → Nat → SM (List UInt8)
  | .ext bs, n => pure (bs.take n)
  | .mem p _, n => readN p n

/-- `std::string_view::compare`: the common prefix as by `memcmp`, then the sizes -/
def View.compare (a b : View) : SM Ordering := do
  let n := min a.size b.size
  let x ← a.read n
  let y ← b.read n
  pure (match memcmp n x y with
    | .eq => Ord.compare a.size b.size
    | o => o)

/-- `==` of `std::string_view`: sizes first -/
def View.equal (a b : View) : SM Bool :=
  if a.size = b.size then do
    let o ← a.compare b
    pure (o == .eq)
  else pure false

/-- the operators of `std::string_view` -/
def View.cmp (c : Cmp) (a b : View) : SM Bool :=
  match c with
  | .eq => a.equal b
  | .ne => do
    let e ← a.equal b
    pure (!e)
  | .lt => do
    let o ← a.compare b
    pure (o == .lt)
  | .le => do
    let o ← a.compare b
    pure (o != .gt)
  | .ge => do
    let o ← a.compare b
    pure (o != .lt)
  | .gt => do
    let o ← a.compare b
    pure (o == .gt)

/-- string.hpp:550-553 the view of a string -/
def viewOf (i : Id) : SM View := do
  let (p, n) ← view i
  pure (.mem p n)

/-- string.hpp:600-611 `string` against `string_view` -/
def cmpStrView (c : Cmp) (l : Id) (r : View) : SM Bool := do
  let a ← viewOf l
  View.cmp c a r
/-- string.hpp:587-598 `string_view` against `string` -/
def cmpViewStr (c : Cmp) (l : View) (r : Id) : SM Bool := do
  let b ← viewOf r
  View.cmp c l b
/-- string.hpp:573-584 `string` against `string` -/
def cmpStrStr (c : Cmp) (l r : Id) : SM Bool := do
  let b ← viewOf r
  cmpStrView c l b

/-- string.hpp:628-631 `std::hash<string>`; `h` is `std::hash<std::string_view>`, some function of the characters -/
def hash (h : List UInt8 → Nat) (i : Id) : SM Nat := do
  let a ← viewOf i
  let bs ← a.read a.size
  pure (h bs)

end Ptl.Str

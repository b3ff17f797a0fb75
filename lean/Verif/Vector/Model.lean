import Verif.Heap

/-!
# Model of `ptl::vector` (inc/ptl/vector.hpp)

Every definition cites the lines it models.  `const_iterator`/`iterator`/raw pointers are all `Ptr`s.
-/

namespace Ptl.Vector

/-- What the model needs to know about the element type `Type`: arbitrary behaviour of moved-from and
self-moved objects, the value of `Type{}`, and `sizeof(Type)`.
Models the `static_assert`s vector.hpp:20-27 (nothrow move/destroy/swap are built into the primitives below)
and vector.hpp:33 (`min_capacity < max_capacity`). -/
structure Elem (α : Type) where
  /-- value left in an object after it was moved from -/
  moved : α → α
  /-- value of an object after `x = std::move(x)` -/
  selfMove : α → α
  /-- `Type{}` -/
  dflt : α
  /-- `sizeof(Type)` -/
  size : Nat
  size_pos : 0 < size
  size_max : 10 < ptrdiffMax / size

/-- vector.hpp:29-32 `min_capacity` -/
def minCapacity : Nat := 10
/-- vector.hpp:32, 295 `max_capacity` = `max_size()` -/
def Elem.maxCapacity {α : Type} (T : Elem α) : Nat := ptrdiffMax / T.size

/-- vector.hpp:35-39 data members of `storage_t`.  `dealloc` (a function pointer) is null or was stored by line 47, which
runs once per allocated block.  Each module (executable, shared library) has its own copy of that function, calling its
own `std::free`.  A stored function is therefore named by the block it was stored for; which module that was does not
matter, the function must never be handed any other block. -/
structure Storage where
  dealloc : Option Nat := none
  ptr : Option Nat := none
  cap : Nat := 0
  siz : Nat := 0
  deriving DecidableEq, Repr

/-- computations over the vector heap -/
abbrev VM (α β : Type) := M (St α Storage) β

/-- How an element is initialised: from a fresh value (constructor arguments / external object), by copying the
object at `p`, or by moving from the object at `p`. -/
inductive Arg (α : Type) where
  | val (v : α)
  | copy (p : Ptr)
  | move (p : Ptr)

variable {α : Type} (T : Elem α)

/-! ### element primitives -/

/-- read a live object -/
def readAt (p : Ptr) : VM α α := do
  match ← slotAt p with
  | some v => pure v
  | none => M.ub .readRaw

/-- begin the lifetime of an object with value `v` in raw storage -/
def initAt (p : Ptr) (v : α) : VM α Unit := do
  match ← slotAt p with
  | some _ => M.ub .constructLive
  | none => setSlot p (some v)

/-- placement new with the given initialiser (vector.hpp:361 and the standard's `uninitialized_*`):
copying or constructing may throw, moving is `noexcept` (vector.hpp:23) -/
def constructAt (p : Ptr) : Arg α → VM α Unit
  | .val v => do fallible .user; initAt p v
  | .copy q => do
      let v ← readAt q
      fallible .user
      initAt p v
  | .move q => do
      let v ← readAt q
      initAt p v
      setSlot q (some (T.moved v))

/-- `std::destroy_at`; `noexcept` (vector.hpp:26) -/
def destroyAt (p : Ptr) : VM α Unit := do
  match ← slotAt p with
  | some _ => setSlot p none
  | none => M.ub .destroyRaw

/-- move-assignment `*dst = std::move(*src)`; `noexcept` (vector.hpp:25) -/
def moveAssignAt (dst src : Ptr) : VM α Unit := do
  let v ← readAt src
  let _ ← readAt dst
  if dst = src then setSlot dst (some (T.selfMove v))
  else do
    setSlot dst (some v)
    setSlot src (some (T.moved v))

/-! ### standard algorithms used by vector.hpp -/

/-- `std::destroy_n(p, n)` -/
def destroyN (p : Ptr) : Nat → VM α Unit
  | 0 => pure ()
  | n + 1 => do
    destroyAt p
    destroyN (p.add 1) n

/-- common loop of `std::uninitialized_copy`, `uninitialized_fill_n`, `uninitialized_value_construct_n`: construct
one element per initialiser at `cur`; if a construction throws, destroy `[first, cur)` and rethrow -/
def uninitLoop (first cur : Ptr) : List (Arg α) → VM α Unit
  | [] => pure ()
  | a :: as => do
    M.onExc (constructAt T cur a) (destroyN first (cur.off - first.off))
    uninitLoop first (cur.add 1) as

/-- `std::uninitialized_copy(range, p)` where `args` says what dereferencing the range yields -/
def uninitializedCopy (args : List (Arg α)) (p : Ptr) : VM α Unit := uninitLoop T p p args
/-- `std::uninitialized_fill_n(p, n, value)` -/
def uninitializedFillN (p : Ptr) (n : Nat) (a : Arg α) : VM α Unit := uninitLoop T p p (List.replicate n a)
/-- `std::uninitialized_value_construct_n(p, n)` -/
def uninitializedValueConstructN (p : Ptr) (n : Nat) : VM α Unit :=
  uninitLoop T p p (List.replicate n (.val T.dflt))

/-- `std::uninitialized_move_n(src, n, dst)` (moves are `noexcept`); the ghost counter counts relocations -/
def uninitializedMoveN (src : Ptr) : Nat → Ptr → VM α Unit
  | 0, _ => pure ()
  | n + 1, dst => do
    constructAt T dst (.move src)
    countMove
    uninitializedMoveN (src.add 1) n (dst.add 1)

/-- `std::move(first, last, d)` (algorithm): element-wise move-assignment, front to back, `n = last - first` -/
def moveN (src : Ptr) : Nat → Ptr → VM α Unit
  | 0, _ => pure ()
  | n + 1, dst => do
    moveAssignAt T dst src
    moveN (src.add 1) n (dst.add 1)

/-- number of elements in the pointer range `[first, last)`; pointers into different blocks or a reversed range
are undefined -/
def distance (first last : Ptr) : VM α Nat :=
  if first.blk = last.blk ∧ first.off ≤ last.off then pure (last.off - first.off) else M.ub .badRange

/-- `std::rotate(f, m, l)` on live elements: `[f,m) ++ [m,l)` becomes `[m,l) ++ [f,m)`; `noexcept` since
swapping/moving is -/
def rotate (f m l : Ptr) : VM α Unit := fun s =>
  if f.blk = m.blk ∧ m.blk = l.blk ∧ f.off ≤ m.off ∧ m.off ≤ l.off then
    if f.off = l.off then .ok () s
    else match f.blk with
      | none => .ub .nullDeref
      | some b => match s.blk b with
        | none => .ub .useAfterFree
        | some c =>
          if c.length < l.off then .ub .outOfBounds
          else if ((c.drop f.off).take (l.off - f.off)).all Option.isSome then
            .ok () { s with blk := upd s.blk b (some (c.take f.off ++
              ((c.drop m.off).take (l.off - m.off) ++ (c.drop f.off).take (m.off - f.off)) ++ c.drop l.off)) }
          else .ub .readRaw
  else .ub .badRange

/-! ### `storage_t` -/

/-- `dealloc(ptr)` with the function `d`, i.e. the `std::free` (vector.hpp:47) of the module that allocated block `d`: the
block must be allocated, by that module, and we insist that no live element is left in it -/
def free (d : Nat) : Option Nat → VM α Unit
  | none => pure ()
  | some b => fun s => match s.blk b with
    | none => .ub .useAfterFree
    | some c => if d ≠ b then .ub .wrongDealloc else if c.all Option.isNone then .ok () { s with blk := upd s.blk b none } else .ub .leak

/-- vector.hpp:43-52 `storage_t(std::size_t capacity)`, creating the object `i` -/
def Storage.ctorCap (i : Id) (capacity : Nat) : VM α Unit :=
  if capacity = 0 then newObj i {}
  else if capacity > T.maxCapacity then M.throw .lengthError
  else do
    let capacity := max minCapacity capacity
    let p ← alloc capacity
    newObj i { dealloc := some p, ptr := some p, cap := capacity, siz := 0 }

/-- vector.hpp:58-61 and 71-73: `if(dealloc) { std::destroy_n(ptr, siz); dealloc(ptr); }` -/
def Storage.release (o : Storage) : VM α Unit :=
  match o.dealloc with
  | some d => do
    destroyN ⟨o.ptr, 0⟩ o.siz
    free d o.ptr
  | none => pure ()

/-- vector.hpp:70-74 `~storage_t()` (ends the lifetime of the object) -/
def Storage.dtor (i : Id) : VM α Unit := do
  let o ← getObj i
  o.release
  killObj i

/-- vector.hpp:54 `storage_t(storage_t &&)` -/
def Storage.ctorMove (i other : Id) : VM α Unit := do
  let o ← getObj other
  newObj i o
  setObj other {}

/-- vector.hpp:56-68 `operator=(storage_t &&)` -/
def Storage.moveAssign (this other : Id) : VM α Unit :=
  if this ≠ other then do
    let t ← getObj this
    t.release
    let o ← getObj other
    setObj this o
    setObj other {}
  else pure ()

/-- vector.hpp:76-77, 288-289 `data()` -/
def data (i : Id) : VM α Ptr := do
  let o ← getObj i
  pure ⟨o.ptr, 0⟩
/-- vector.hpp:79, 293 `size()` -/
def size (i : Id) : VM α Nat := do
  let o ← getObj i
  pure o.siz
/-- vector.hpp:80, 296 `capacity()` -/
def capacity (i : Id) : VM α Nat := do
  let o ← getObj i
  pure o.cap
/-- vector.hpp:82 `set_size` -/
def setSize (i : Id) (val : Nat) : VM α Unit := do
  let o ← getObj i
  setObj i { o with siz := val }
/-- vector.hpp:292 `empty()` -/
def empty (i : Id) : VM α Bool := do
  let n ← size i
  pure (n == 0)
/-- vector.hpp:84-89, 376 `swap` -/
def swap (this other : Id) : VM α Unit := do
  let a ← getObj this
  let b ← getObj other
  setObj this b
  setObj other a

/-- a local `storage_t tmp{n};` in scope `body` -/
def withStorage {β : Type} (n : Nat) (body : Id → VM α β) : VM α β := fun s =>
  let t := Id.tmp s.ntmp
  (do
    Storage.ctorCap T t n
    M.withDtor (body t) (Storage.dtor t) : VM α β) { s with ntmp := s.ntmp + 1 }

/-! ### the `*_impl` functions -/

/-- vector.hpp:189-202 `assign_impl` -/
def assignImpl (this : Id) (required : Nat) (func : Ptr → VM α Unit) : VM α Unit := do
  let sz ← size this
  let cap ← capacity this
  if szAdd sz required ≤ cap then do
    let d ← data this
    func (d.add sz)
    rotate d (d.add sz) (d.add (sz + required))
    destroyN (d.add required) sz
    setSize this required
  else
    withStorage T required fun tmp => do
      let d ← data tmp
      func d
      setSize tmp required
      Storage.moveAssign this tmp

/-- vector.hpp:204-220 `insert_impl`; returns the iterator `begin() + offset` -/
def insertImpl (this : Id) (pos : Ptr) (required : Nat) (func : Ptr → VM α Unit) : VM α Ptr := do
  let d ← data this
  let offset ← distance d pos
  let sz ← size this
  let cap ← capacity this
  (if szAdd sz required ≤ cap then do
    func (d.add sz)
    rotate pos (d.add sz) (d.add (sz + required))
    setSize this (szAdd sz required)
  else
    withStorage T (szAdd sz (max sz required)) fun tmp => do
      let t ← data tmp
      func (t.add offset)
      uninitializedMoveN T d offset t
      let n ← distance (d.add offset) (d.add sz)
      uninitializedMoveN T (d.add offset) n (t.add (offset + required))
      setSize tmp (szAdd sz required)
      Storage.moveAssign this tmp)
  let d' ← data this
  pure (d'.add offset)

/-- vector.hpp:341-347 `erase(first, last)` (`noexcept`) -/
def erase (this : Id) (first last : Ptr) : VM α Ptr := M.noexcept do
  let count ← distance first last
  let d ← data this
  let sz ← size this
  let n ← distance last (d.add sz)
  moveN T last n first
  let k := szSub sz count
  let m ← distance (d.add k) (d.add sz)
  destroyN (d.add k) m
  setSize this (szSub sz count)
  pure first

/-- vector.hpp:340 `erase(pos)` -/
def eraseOne (this : Id) (pos : Ptr) : VM α Ptr := erase T this pos (pos.add 1)

/-- vector.hpp:222-233 `resize_impl` -/
def resizeImpl (this : Id) (newSize : Nat) (func : Ptr → Nat → VM α Unit) : VM α Unit := do
  let sz ← size this
  if newSize = sz then pure ()
  else if newSize < sz then do
    let d ← data this
    let _ ← erase T this (d.add newSize) (d.add sz)
    pure ()
  else
    withStorage T newSize fun tmp => do
      let t ← data tmp
      func (t.add sz) (newSize - sz)
      let d ← data this
      uninitializedMoveN T d sz t
      setSize tmp newSize
      Storage.moveAssign this tmp

/-! ### public members -/

/-- vector.hpp:316 `resize(count)` -/
def resize (this : Id) (count : Nat) : VM α Unit :=
  resizeImpl T this count (fun pos n => uninitializedValueConstructN T pos n)
/-- vector.hpp:317 `resize(count, value)` -/
def resizeFill (this : Id) (count : Nat) (value : Arg α) : VM α Unit :=
  resizeImpl T this count (fun pos n => uninitializedFillN T pos n value)

/-- vector.hpp:361 `emplace`; the single initialiser stands for `Type{args...}` -/
def emplace (this : Id) (pos : Ptr) (a : Arg α) : VM α Ptr :=
  insertImpl T this pos 1 (fun p => constructAt T p a)
/-- vector.hpp:366-367 `end()` -/
def end_ (i : Id) : VM α Ptr := do
  let d ← data i
  let n ← size i
  pure (d.add n)
/-- vector.hpp:298-301 `push_back`/`emplace_back`; returns the address of the new element -/
def pushBack (this : Id) (a : Arg α) : VM α Ptr := do
  let e ← end_ this
  emplace T this e a
/-- vector.hpp:303-306 `pop_back` (`noexcept`) -/
def popBack (this : Id) : VM α Unit := M.noexcept do
  let sz ← size this
  setSize this (szSub sz 1)
  let d ← data this
  let sz' ← size this
  destroyAt (d.add sz')
/-- vector.hpp:308-314 `reserve` -/
def reserve (this : Id) (newCapacity : Nat) : VM α Unit := do
  let cap ← capacity this
  if newCapacity ≤ cap then pure ()
  else withStorage T newCapacity fun tmp => do
    let e ← empty this
    let sz ← size this
    (if !e then do
      let d ← data this
      let t ← data tmp
      uninitializedMoveN T d sz t
     else pure ())
    setSize tmp sz
    Storage.moveAssign this tmp
/-- vector.hpp:319-326 `shrink_to_fit` (`noexcept`, although it allocates) -/
def shrinkToFit (this : Id) : VM α Unit := M.noexcept do
  let sz ← size this
  let cap ← capacity this
  if szMul sz 2 ≥ cap then pure ()
  else withStorage T sz fun tmp => do
    let d ← data this
    let t ← data tmp
    uninitializedMoveN T d sz t
    setSize tmp sz
    Storage.moveAssign this tmp
/-- vector.hpp:328-331 `clear` (`noexcept`) -/
def clear (this : Id) : VM α Unit := M.noexcept do
  let d ← data this
  let sz ← size this
  destroyN d sz
  setSize this 0

/-- the forward range `[p, p + n)` read through pointers/iterators -/
def ptrRange (p : Ptr) (n : Nat) : List (Arg α) := (List.range n).map fun k => .copy (p.add k)
/-- the range `[make_move_iterator(p), make_move_iterator(p + n))` -/
def moveRange (p : Ptr) (n : Nat) : List (Arg α) := (List.range n).map fun k => .move (p.add k)

/-- vector.hpp:336 `assign(ForwardIterator, ForwardIterator)`; vector.hpp:337 `assign(initializer_list)` calls it -/
def assignRange (this : Id) (args : List (Arg α)) : VM α Unit :=
  assignImpl T this args.length (fun p => uninitializedCopy T args p)
/-- vector.hpp:338 `assign(count, value)` -/
def assignFill (this : Id) (count : Nat) (value : Arg α) : VM α Unit :=
  assignImpl T this count (fun p => uninitializedFillN T p count value)
/-- vector.hpp:355 `insert(pos, ForwardIterator, ForwardIterator)`; vector.hpp:356 `insert(pos, initializer_list)` calls it -/
def insertRange (this : Id) (pos : Ptr) (args : List (Arg α)) : VM α Ptr :=
  insertImpl T this pos args.length (fun p => uninitializedCopy T args p)
/-- vector.hpp:359 `insert(pos, count, value)`; vector.hpp:357 `insert(pos, const Type &)` is `count = 1` -/
def insertFill (this : Id) (pos : Ptr) (count : Nat) (value : Arg α) : VM α Ptr :=
  insertImpl T this pos count (fun p => uninitializedFillN T p count value)

/-- a constructor of the object `i` with body `body`: `storage` is default-initialised first (vector.hpp:41,
247) and destroyed again if the body throws -/
def construct (i : Id) (body : VM α Unit) : VM α Unit := do
  newObj i {}
  M.onExc body (Storage.dtor i)

/-- `std::copy(first, last, std::back_inserter(*this))` over a single-pass range yielding `vs` -/
def pushAll (this : Id) : List α → VM α Unit
  | [] => pure ()
  | v :: vs => do
    let _ ← pushBack T this (.val v)
    pushAll this vs

/-- vector.hpp:247 default constructor -/
def ctorDefault (i : Id) : VM α Unit := newObj i {}
/-- vector.hpp:258 constructor from input iterators -/
def ctorInput (i : Id) (vs : List α) : VM α Unit := construct i (pushAll T i vs)
/-- vector.hpp:260 constructor from forward iterators (also 265 initializer_list) -/
def ctorRange (i : Id) (args : List (Arg α)) : VM α Unit := construct i (assignRange T i args)
/-- vector.hpp:248 copy constructor -/
def ctorCopy (i other : Id) : VM α Unit := do
  let p ← data other
  let n ← size other
  ctorRange T i (ptrRange p n)
/-- vector.hpp:249 move constructor -/
def ctorMove (i other : Id) : VM α Unit := Storage.ctorMove i other
/-- vector.hpp:262 `vector(count)` -/
def ctorCount (i : Id) (count : Nat) : VM α Unit := construct i (resize T i count)
/-- vector.hpp:263 `vector(count, value)` -/
def ctorFill (i : Id) (count : Nat) (value : Arg α) : VM α Unit := construct i (resizeFill T i count value)
/-- vector.hpp:255 destructor -/
def dtor (i : Id) : VM α Unit := Storage.dtor i

/-- a local `vector tmp(first, last)` from input iterators, in scope `body` -/
def withVector {β : Type} (vs : List α) (body : Id → VM α β) : VM α β := fun s =>
  let t := Id.tmp s.ntmp
  (do
    ctorInput T t vs
    M.withDtor (body t) (Storage.dtor t) : VM α β) { s with ntmp := s.ntmp + 1 }

/-- vector.hpp:250-253 copy assignment -/
def assignCopy (this other : Id) : VM α Unit :=
  if this ≠ other then do
    let p ← data other
    let n ← size other
    assignRange T this (ptrRange p n)
  else pure ()
/-- vector.hpp:254 move assignment -/
def assignMove (this other : Id) : VM α Unit := Storage.moveAssign this other
/-- vector.hpp:334 `assign(InputIterator, InputIterator)` -/
def assignInput (this : Id) (vs : List α) : VM α Unit :=
  withVector T vs fun tmp => Storage.moveAssign this tmp
/-- vector.hpp:350-353 `insert(pos, InputIterator, InputIterator)` -/
def insertInput (this : Id) (pos : Ptr) (vs : List α) : VM α Ptr :=
  withVector T vs fun tmp => do
    let p ← data tmp
    let n ← size tmp
    insertRange T this pos (moveRange p n)

/-- vector.hpp:272-273 `operator[]` (and 283-286 `front`/`back` through it): the address of the element -/
def index (this : Id) (k : Nat) : VM α Ptr := do
  let d ← data this
  pure (d.add k)
/-- vector.hpp:274-281 `at` -/
def at_ (this : Id) (k : Nat) : VM α Ptr := do
  let sz ← size this
  if k ≥ sz then M.throw .outOfRange
  else index this k
/-- vector.hpp:283-284 `front()` -/
def front (this : Id) : VM α Ptr := index this 0
/-- vector.hpp:285-286 `back()` -/
def back (this : Id) : VM α Ptr := do
  let sz ← size this
  index this (szSub sz 1)
/-- assignment through an element reference by client code, `ref = v` (may throw) -/
def writeAt (p : Ptr) (v : α) : VM α Unit := do
  let _ ← readAt p
  fallible .user
  setSlot p (some v)
/-- move-assignment to an element by client code from an object outside the vectors, `ref = std::move(x)`; `noexcept`
(vector.hpp:25).  A standard algorithm working on the elements in place is made of these, of reading and of comparing. -/
def putAt (p : Ptr) (v : α) : VM α Unit := do
  let _ ← readAt p
  setSlot p (some v)

/-! ### comparison; element `operator<`/`operator==` are arbitrary functions that do not throw -/

/-- `std::lexicographical_compare(p, p + n, q, q + m)` -/
def lexLoop (lt : α → α → Bool) (p : Ptr) : Nat → Ptr → Nat → VM α Bool
  | 0, _, m => pure (m != 0)
  | _ + 1, _, 0 => pure false
  | n + 1, q, m + 1 => do
    let x ← readAt p
    let y ← readAt q
    if lt x y then pure true
    else if lt y x then pure false
    else lexLoop lt (p.add 1) n (q.add 1) m

/-- `std::equal(p, p + n, q)` -/
def eqLoop (eq : α → α → Bool) (p : Ptr) : Nat → Ptr → VM α Bool
  | 0, _ => pure true
  | n + 1, q => do
    let x ← readAt p
    let y ← readAt q
    if eq x y then eqLoop eq (p.add 1) n (q.add 1) else pure false

/-- vector.hpp:381-382 `operator<` -/
def opLt (lt : α → α → Bool) (i j : Id) : VM α Bool := do
  let p ← data i
  let n ← size i
  let q ← data j
  let m ← size j
  lexLoop lt p n q m
/-- vector.hpp:383-384 `operator>` -/
def opGt (lt : α → α → Bool) (i j : Id) : VM α Bool := opLt lt j i
/-- vector.hpp:385-386 `operator<=` -/
def opLe (lt : α → α → Bool) (i j : Id) : VM α Bool := do
  let b ← opGt lt i j
  pure (!b)
/-- vector.hpp:387-388 `operator>=` -/
def opGe (lt : α → α → Bool) (i j : Id) : VM α Bool := do
  let b ← opLt lt i j
  pure (!b)
/-- vector.hpp:389-390 `operator==`: 4-iterator `std::equal`, which compares the lengths first -/
def opEq (eq : α → α → Bool) (i j : Id) : VM α Bool := do
  let p ← data i
  let n ← size i
  let q ← data j
  let m ← size j
  if n ≠ m then pure false else eqLoop eq p n q
/-- vector.hpp:391-392 `operator!=` -/
def opNe (eq : α → α → Bool) (i j : Id) : VM α Bool := do
  let b ← opEq eq i j
  pure (!b)

end Ptl.Vector

import Verif.Nested.Closure

/-!
# C104: vectors of objects of any class

The special member functions and `swap` of `vector` once more (cf. `Verif/Vector/Model.lean`), with elements that are objects of a class of which nothing is known but
its functions.
-/

namespace Ptl.Nested.Vec

open Ptl.Nested

/-- vector.hpp:35-39 data members of `storage_t`; `dealloc` is null exactly if `ptr` is -/
structure Storage where
  block : Option Nat
  cap : Nat
  siz : Nat

/-- the vectors that are alive, the allocated blocks and their capacities, the number of the next block, and which of the coming allocations fail -/
structure Heap where
  objs : Nat → Option Storage
  blk : Nat → Option Nat
  next : Nat
  fails : Nat → Bool

/-- `max_capacity`, at most `PTRDIFF_MAX` and more than `min_capacity` (vector.hpp:29-33) -/
structure Limit where
  max : Nat
  min : 10 < max
  le : max ≤ ptrdiffMax

/-- How `std::rotate` exchanges elements: the positions of the elements it swaps, given the numbers of elements before and from the middle.  (Implementations
that move elements through a temporary instead are not modelled.) -/
structure Rotation where
  swaps : Nat → Nat → List (Nat × Nat)

section
variable {σ : Type} (C : Class σ) (L : Limit) (R : Rotation)

/-- state of a program with vectors -/
abbrev St (σ : Type) := With Heap σ

/-- element `k` of block `b` -/
def cell (b k : Nat) : Nat := b * (L.max + 1) + k

/-- an address -/
def address (b : Option Nat) (k : Nat) : M (St σ) Nat := fun s =>
  match b with
  | none => .ub .nullDeref
  | some b => match s.own.blk b with
    | none => .ub .useAfterFree
    | some c => if k < c then .ok (cell L b k) s else .ub .outOfBounds

/-- a live vector's `storage` -/
def obj (i : Nat) : M (St σ) Storage := fun s => match s.own.objs i with | some o => .ok o s | none => .ub .deadObject

/-- assignment to the members of a `storage_t`, its construction and the end of its lifetime -/
def setObj (i : Nat) (o : Option Storage) : M (St σ) Unit := fun s => .ok () { s with own := { s.own with objs := upd s.own.objs i o } }

/-- vector.hpp:48 `std::calloc` -/
def calloc (capacity : Nat) : M (St σ) Nat := fun s =>
  if s.own.fails 0 then .exc .badAlloc { s with own := { s.own with fails := fun n => s.own.fails (n + 1) } }
  else .ok s.own.next { s with own := { s.own with
    fails := fun n => s.own.fails (n + 1), blk := upd s.own.blk s.own.next (some capacity), next := s.own.next + 1 } }

/-- vector.hpp:47 `dealloc` -/
def free (b : Nat) : M (St σ) Unit := fun s =>
  match s.own.blk b with
  | none => .ub .useAfterFree
  | some _ => .ok () { s with own := { s.own with blk := upd s.own.blk b none } }

/-- vector.hpp:43-53 `storage_t(std::size_t)` -/
def newStorage (i capacity : Nat) : M (St σ) Unit := do
  if capacity = 0 then setObj i (some ⟨none, 0, 0⟩)
  else
    if L.max < capacity then M.throw .lengthError
    else
      let capacity := Nat.max 10 capacity
      let b ← calloc capacity
      setObj i (some ⟨some b, capacity, 0⟩)

/-- `std::destroy_n(b + first, count)` -/
def destroyN (b : Option Nat) : (first count : Nat) → M (St σ) Unit
  | _, 0 => pure ()
  | first, count + 1 => do
    let p ← address L b first
    inner (C.dtor p)
    destroyN b (first + 1) count

/-- vector.hpp:58-61, 71-73: destroys the elements and releases the block, if there is one -/
def release (o : Storage) : M (St σ) Unit :=
  match o.block with
  | none => pure ()
  | some b => do
    destroyN C L (some b) 0 o.siz
    free b

/-- vector.hpp:70-74 `~storage_t` -/
def dtorStorage (i : Nat) : M (St σ) Unit := M.noexcept do
  let o ← obj i
  release C L o
  setObj i none

/-- vector.hpp:54 `storage_t(storage_t &&)` -/
def moveStorage (i j : Nat) : M (St σ) Unit := M.noexcept do
  let o ← obj j
  setObj j (some ⟨none, 0, 0⟩)
  setObj i (some o)

/-- vector.hpp:56-68 `operator=(storage_t &&)` -/
def moveAssignStorage (i j : Nat) : M (St σ) Unit := M.noexcept do
  if i ≠ j then
    let o ← obj i
    release C L o
    let o' ← obj j
    setObj j (some ⟨none, 0, 0⟩)
    setObj i (some o')

/-- vector.hpp:82 `set_size` -/
def setSize (i n : Nat) : M (St σ) Unit := do
  let o ← obj i
  setObj i (some { o with siz := n })

/-- `std::uninitialized_copy(b' + from, b' + from + count, b + to)`; elements constructed before an exception are destroyed -/
def copyN (b b' : Option Nat) : (to «from» count : Nat) → M (St σ) Unit
  | _, _, 0 => pure ()
  | to, «from», count + 1 => do
    let p ← address L b to
    let p' ← address L b' «from»
    inner (C.copy p p')
    M.onExc (copyN b b' (to + 1) («from» + 1) count) (do let p ← address L b to; inner (C.dtor p))

/-- swaps of elements of a block -/
def swapAll (b : Option Nat) : List (Nat × Nat) → M (St σ) Unit
  | [] => pure ()
  | (k, k') :: l => do
    let p ← address L b k
    let p' ← address L b k'
    inner (C.swap p p')
    swapAll b l

/-- vector.hpp:189-202 `assign_impl`, for the elements of vector `j`; storage 0 is the local variable `tmp` -/
def assignImpl (i j : Nat) : M (St σ) Unit := do
  let o ← obj i
  let o' ← obj j
  if szAdd o.siz o'.siz ≤ o.cap then
    copyN C L o.block o'.block o.siz 0 o'.siz
    swapAll C L o.block (R.swaps o.siz o'.siz)
    destroyN C L o.block o'.siz o.siz
    setSize i o'.siz
  else
    newStorage L 0 o'.siz
    M.withDtor (do
      let t ← obj 0
      copyN C L t.block o'.block 0 0 o'.siz
      setSize 0 o'.siz
      moveAssignStorage C L i 0) (dtorStorage C L 0)

/-- vector.hpp:248, 259-260, 336: an empty `storage`, then `assign`; if that throws `storage` is destroyed -/
def copyVector (i j : Nat) : M (St σ) Unit := do
  setObj i (some ⟨none, 0, 0⟩)
  M.onExc (assignImpl C L R i j) (dtorStorage C L i)

/-- vector.hpp:250-253 -/
def assignVector (i j : Nat) : M (St σ) Unit := do
  if i ≠ j then assignImpl C L R i j

/-- vector.hpp:84-89, 376-378 `swap` -/
def swapVector (i j : Nat) : M (St σ) Unit := M.noexcept do
  let o ← obj i
  let o' ← obj j
  setObj i (some o')
  setObj j (some o)

/-- the class; storage 0 is for local variables.  Move constructor and assignment are defaulted (vector.hpp:249, 254). -/
def vector : Class (St σ) where
  copy i j := copyVector C L R (i + 1) (j + 1)
  move i j := moveStorage (i + 1) (j + 1)
  assign i j := assignVector C L R (i + 1) (j + 1)
  moveAssign i j := moveAssignStorage C L (i + 1) (j + 1)
  swap i j := swapVector (i + 1) (j + 1)
  dtor i := dtorStorage C L (i + 1)

end

/-! ### what `std::rotate` does -/

/-- two elements of a list exchanged -/
def swapAt {α : Type} (xs : List α) (k k' : Nat) : List α :=
  match xs[k]?, xs[k']? with
  | some x, some y => (xs.set k y).set k' x
  | _, _ => xs

/-- it exchanges the parts, and stays within them -/
def Rotation.Correct (R : Rotation) : Prop :=
  (∀ (α : Type) (xs ys : List α), (R.swaps xs.length ys.length).foldl (fun zs p => swapAt zs p.1 p.2) (xs ++ ys) = ys ++ xs) ∧
  ∀ m n, ∀ p ∈ R.swaps m n, p.1 < m + n ∧ p.2 < m + n

end Ptl.Nested.Vec

import Verif.Iter.Model
import Verif.Order

/-!
# Model of `ptl::array<Type, Size>` (inc/ptl/array.hpp)

Every definition cites the lines it models.  `Size` is `N`; the objects of this type have numbers, and the elements of object
`i` are the array `i` in memory (so pointers and iterators into it are those of `Verif/View/Mem.lean` and `Verif/Iter`).
-/

namespace Ptl.Arr

open View (Ptr Loc Mem)
open Iter (It)

/-- the element type.  Moves, swaps and destruction cannot throw (array.hpp:28-36). -/
structure Elem (α : Type) where
  /-- value of a moved-from object -/
  moved : α → α
  /-- value after `x = std::move(x)` -/
  selfMove : α → α
  /-- value of an object `x` after an assignment `x = y` that threw -/
  torn : α → α → α
  /-- `Type{}` -/
  dflt : α

/-- program state: the arrays; the failure oracle, consulted by each operation of an element that may throw -/
structure St (α : Type) where
  mem : Mem α
  orc : Nat → Bool
  tick : Nat

/-- computations over that state -/
abbrev AM (α β : Type) := M (St α) β

variable {α β : Type} (E : Elem α) (N : Nat)

/-! ### primitives -/

/-- run a pointer operation -/
def onMem (f : Mem α → Except Fault β) : AM α β := fun s =>
  match f s.mem with
  | .ok b => .ok b s
  | .error e => .ub e

/-- a step that may throw -/
def fallible : AM α Unit := fun s =>
  if s.orc s.tick then .exc .user { s with tick := s.tick + 1 } else .ok () { s with tick := s.tick + 1 }

/-- the elements of a live object -/
def alive (i : Nat) : AM α (List α) := fun s =>
  match s.mem i with
  | some xs => .ok xs s
  | none => .ub .deadObject

/-- value of an element -/
def readLoc (l : Loc) : AM α α := onMem l.read

/-- change an element -/
def writeLoc (l : Loc) (v : α) : AM α Unit := fun s =>
  match l.write s.mem v with
  | .ok m => .ok () { s with mem := m }
  | .error e => .ub e

/-- an object comes into existence -/
def newObj (i : Nat) (xs : List α) : AM α Unit := fun s =>
  match s.mem i with
  | some _ => .ub .constructLive
  | none => .ok () { s with mem := upd s.mem i (some xs) }

/-- what an argument refers to: some other object with value `v`; element `k` of array `j`; the same as an rvalue -/
inductive Arg (α : Type) where
  | val (v : α)
  | elem (j k : Nat)
  | mv (j k : Nat)

/-- read through the reference (copy or move construction of an element; moves cannot throw) -/
def Arg.take : Arg α → AM α α
  | .val v => do
    fallible
    pure v
  | .elem j k => do
    fallible
    readLoc ⟨j, k⟩
  | .mv j k => do
    let v ← readLoc ⟨j, k⟩
    writeLoc ⟨j, k⟩ (E.moved v)
    pure v

/-- value of the object a `const Type &` refers to -/
def Arg.read : Arg α → AM α α
  | .val v => pure v
  | .elem j k => readLoc ⟨j, k⟩
  | .mv j k => readLoc ⟨j, k⟩

/-- `element = value`, copy assignment: may throw -/
def copyAssign (l : Loc) (a : Arg α) : AM α Unit := fun s =>
  match (readLoc l >>= fun x => a.read >>= fun v => pure (x, v) : AM α (α × α)) s with
  | .ok (x, v) s =>
    if s.orc s.tick then
      match writeLoc l (E.torn x v) s with
      | .ok _ s => .exc .user { s with tick := s.tick + 1 }
      | .exc e s => .exc e s
      | .ub f => .ub f
      | .term => .term
    else
      match writeLoc l v s with
      | .ok _ s => .ok () { s with tick := s.tick + 1 }
      | .exc e s => .exc e s
      | .ub f => .ub f
      | .term => .term
  | .exc e s => .exc e s
  | .ub f => .ub f
  | .term => .term

/-- `element = std::move(element)` -/
def moveAssign (l src : Loc) : AM α Unit := do
  let v ← readLoc src
  if l = src then writeLoc l (E.selfMove v)
  else do
    writeLoc l v
    writeLoc src (E.moved v)

/-- `swap(element, element)` -/
def swapElem (l l' : Loc) : AM α Unit := do
  let x ← readLoc l
  let y ← readLoc l'
  writeLoc l y
  writeLoc l' x

/-! ### construction, destruction, implicit members -/

/-- array.hpp:177-179 `values{args...}`: the elements are initialised in order; those without argument are `Type{}`.  If one
throws, the ones before are destroyed (the object never existed). -/
def takeAll : List (Arg α) → AM α (List α)
  | [] => pure []
  | a :: as => do
    let v ← a.take E
    let vs ← takeAll as
    pure (v :: vs)

/-- `n` value-initialised elements -/
def takeDefaults : Nat → AM α (List α)
  | 0 => pure []
  | n + 1 => do
    fallible
    let vs ← takeDefaults n
    pure (E.dflt :: vs)

/-- array.hpp:175-179 constructor; more than `Size` arguments do not compile.  For `Size` 0 `values` is a null pointer (16-17). -/
def ctor (i : Nat) (args : List (Arg α)) : AM α Unit :=
  if args.length ≤ N then do
    let vs ← takeAll E args
    let ds ← takeDefaults E (N - args.length)
    newObj i (vs ++ ds)
  else M.ub .precondition

/-- the implicit copy constructor: `values` element by element -/
def ctorCopy (i j : Nat) : AM α Unit := do
  let _ ← alive j
  let vs ← takeAll E ((List.range N).map fun k => .elem j k)
  newObj i vs

/-- the implicit move constructor -/
def ctorMove (i j : Nat) : AM α Unit := do
  let _ ← alive j
  let vs ← takeAll E ((List.range N).map fun k => .mv j k)
  newObj i vs

/-- the implicit destructor -/
def dtor (i : Nat) : AM α Unit := do
  let _ ← alive i
  fun s => .ok () { s with mem := upd s.mem i none }

/-- element by element, from `k` on -/
def copyLoop (i j : Nat) : (n k : Nat) → AM α Unit
  | 0, _ => pure ()
  | n + 1, k => do
    copyAssign E ⟨i, k⟩ (.elem j k)
    copyLoop i j n (k + 1)

/-- the implicit copy assignment -/
def assignCopy (i j : Nat) : AM α Unit := do
  let _ ← alive j
  let _ ← alive i
  copyLoop E i j N 0

/-- element by element, from `k` on -/
def moveLoop (i j : Nat) : (n k : Nat) → AM α Unit
  | 0, _ => pure ()
  | n + 1, k => do
    moveAssign E ⟨i, k⟩ ⟨j, k⟩
    moveLoop i j n (k + 1)

/-- the implicit move assignment -/
def assignMove (i j : Nat) : AM α Unit := do
  let _ ← alive j
  let _ ← alive i
  moveLoop E i j N 0

/-! ### access -/

/-- array.hpp:181-184 `data`: the array decays to a pointer; for `Size` 0 it is the (null) pointer itself -/
def data (i : Nat) : AM α Ptr := do
  let _ ← alive i
  pure (if N = 0 then .null else .at i 0)

/-- array.hpp:185-187 `size` -/
def size : Nat := N

/-- array.hpp:188-191 `empty` -/
def empty : Bool := size N == 0

/-- array.hpp:204-207 `operator[]` -/
def index (i k : Nat) : AM α Loc := do
  let p ← data N i
  let q ← onMem (p.add · k)
  onMem q.deref

/-- array.hpp:196-198 `front` -/
def front (i : Nat) : AM α Loc := index N i 0

/-- array.hpp:199-202 `back` -/
def back (i : Nat) : AM α Loc := index N i (szSub (size N) 1)

/-- array.hpp:208-217 `at` -/
def at_ (i k : Nat) : AM α Loc :=
  if k ≥ size N then M.throw .outOfRange else index N i k

/-- array.hpp:40-69 `get<Index>`: `Index ≥ Size` does not compile -/
def get (i k : Nat) : AM α Loc :=
  if k < N then index N i k else M.ub .precondition

/-- array.hpp:223-228 `begin` -/
def begin_ (i : Nat) : AM α It := do
  let p ← data N i
  pure (Iter.begin_ p)

/-- array.hpp:229-234 `end` -/
def end_ (i : Nat) : AM α It := do
  let p ← data N i
  onMem (Iter.end_ · p (size N))

/-! ### fill, swap -/

/-- `std::fill`: `for(; first != last; ++first) *first = value;` (`fuel` bounds the number of rounds) -/
def fillLoop (last : It) (a : Arg α) : (fuel : Nat) → It → AM α Unit
  | 0, _ => M.ub .noReturn
  | fuel + 1, first =>
    if Iter.ne first last then do
      let l ← onMem (Iter.deref · first)
      copyAssign E l a
      let first ← onMem (Iter.inc · first)
      fillLoop last a fuel first
    else pure ()

/-- array.hpp:219-220 `fill` -/
def fill (i : Nat) (a : Arg α) : AM α Unit := do
  let b ← begin_ N i
  let e ← end_ N i
  fillLoop E e a (N + 1) b

/-- `std::swap_ranges`: `for(; first1 != last1; ++first1, ++first2) swap(*first1, *first2);`.  (The standard asks for ranges
that do not overlap; a swap of an array with itself is modelled by the same loop.) -/
def swapLoop (last1 : It) : (fuel : Nat) → It → It → AM α Unit
  | 0, _, _ => M.ub .noReturn
  | fuel + 1, first1, first2 =>
    if Iter.ne first1 last1 then do
      let l1 ← onMem (Iter.deref · first1)
      let l2 ← onMem (Iter.deref · first2)
      swapElem l1 l2
      let first1 ← onMem (Iter.inc · first1)
      let first2 ← onMem (Iter.inc · first2)
      swapLoop last1 fuel first1 first2
    else pure ()

/-- array.hpp:248-252 `swap` (member and non-member) -/
def swap (i j : Nat) : AM α Unit := M.noexcept do
  let b ← begin_ N i
  let e ← end_ N i
  let b' ← begin_ N j
  swapLoop e (N + 1) b b'

/-! ### comparison -/

/-- the loop of `std::equal` -/
def eqLoop (eq : α → α → Bool) (last1 : It) : (fuel : Nat) → It → It → AM α Bool
  | 0, _, _ => M.ub .noReturn
  | fuel + 1, first1, first2 =>
    if Iter.ne first1 last1 then do
      let l1 ← onMem (Iter.deref · first1)
      let x ← readLoc l1
      let l2 ← onMem (Iter.deref · first2)
      let y ← readLoc l2
      if !eq x y then pure false
      else do
        let first1 ← onMem (Iter.inc · first1)
        let first2 ← onMem (Iter.inc · first2)
        eqLoop eq last1 fuel first1 first2
    else pure true

/-- array.hpp:254-256 `==`: 4-iterator `std::equal`, which compares the distances first -/
def opEq (eq : α → α → Bool) (i j : Nat) : AM α Bool := do
  let b ← begin_ N i
  let e ← end_ N i
  let b' ← begin_ N j
  let e' ← end_ N j
  let d ← onMem (Iter.diff · e b)
  let d' ← onMem (Iter.diff · e' b')
  if d ≠ d' then pure false else eqLoop eq e (N + 1) b b'

/-- array.hpp:257-259 `!=` -/
def opNe (eq : α → α → Bool) (i j : Nat) : AM α Bool := do
  let b ← opEq N eq i j
  pure (!b)

/-- `std::lexicographical_compare` -/
def lexLoop (lt : α → α → Bool) (last1 last2 : It) : (fuel : Nat) → It → It → AM α Bool
  | 0, _, _ => M.ub .noReturn
  | fuel + 1, first1, first2 =>
    if Iter.ne first1 last1 && Iter.ne first2 last2 then do
      let l1 ← onMem (Iter.deref · first1)
      let x ← readLoc l1
      let l2 ← onMem (Iter.deref · first2)
      let y ← readLoc l2
      if lt x y then pure true
      else if lt y x then pure false
      else do
        let first1 ← onMem (Iter.inc · first1)
        let first2 ← onMem (Iter.inc · first2)
        lexLoop lt last1 last2 fuel first1 first2
    else pure (Iter.eq first1 last1 && Iter.ne first2 last2)

/-- array.hpp:261-263 `<` -/
def opLt (lt : α → α → Bool) (i j : Nat) : AM α Bool := do
  let b ← begin_ N i
  let e ← end_ N i
  let b' ← begin_ N j
  let e' ← end_ N j
  lexLoop lt e e' (N + 1) b b'

/-- array.hpp:264-266 `>` -/
def opGt (lt : α → α → Bool) (i j : Nat) : AM α Bool := opLt N lt j i

/-- array.hpp:267-269 `<=` -/
def opLe (lt : α → α → Bool) (i j : Nat) : AM α Bool := do
  let b ← opGt N lt i j
  pure (!b)

/-- array.hpp:270-272 `>=` -/
def opGe (lt : α → α → Bool) (i j : Nat) : AM α Bool := do
  let b ← opLt N lt i j
  pure (!b)

end Ptl.Arr

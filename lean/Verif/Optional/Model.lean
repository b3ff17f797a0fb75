import Verif.Basic
import Verif.Bytes

/-!
# Model of `ptl::optional<Type>` (inc/ptl/optional.hpp)

Every definition cites the lines it models.  `α` are the values of `Type`.  Optional objects are named by numbers; the
value inside optional object `i` is the only object of type `Type` an optional can be asked to read besides objects
outside of all optionals (given by their value).
-/

namespace Ptl.Optional

/-- What the library assumes of `Type`. -/
structure Elem (α : Type) where
  /-- value of `Type{x}` and `Type{std::move(x)}` for an `x` of type `Type` (braces: a constructor from
  `std::initializer_list` wins) -/
  braced : α → α
  /-- can `Type{std::move(x)}` throw?  (`std::is_nothrow_move_constructible`, line 20, speaks about `Type(std::move(x))`) -/
  moveThrows : Bool
  /-- value left behind by a move construction -/
  moved : α → α
  /-- value left behind by a move assignment (from another object) -/
  movedAssign : α → α
  /-- value after a self-move-assignment -/
  selfMove : α → α
  /-- `torn old new`: value after a copy assignment of `new` to `old` that threw -/
  torn : α → α → α
  /-- the comparison operators -/
  cmp : Cmp → α → α → Bool

/-- optional.hpp:26-29 data members: the union, and the flag (`unsigned char`, only ever 0 or 1) -/
structure Obj (α : Type) where
  val : Option α
  initialized : Bool

/-- program state: optional objects, how many objects have come into existence inside each so far (nothing depends on that, it is
bookkeeping for C114), the failure oracle -/
structure St (α : Type) where
  obj : Nat → Option (Obj α)
  born : Nat → Nat
  orc : Nat → Bool
  tick : Nat

/-- computations over that state -/
abbrev OM (α β : Type) := M (St α) β

variable {α : Type}

/-! ### primitives -/

/-- consult the failure oracle -/
def fallible : OM α Unit := fun s =>
  if s.orc s.tick then .exc .user { s with tick := s.tick + 1 } else .ok () { s with tick := s.tick + 1 }

/-- the flag of an optional within its lifetime -/
def flag (i : Nat) : OM α Bool := fun s =>
  match s.obj i with
  | some o => .ok o.initialized s
  | none => .ub .deadObject

/-- set the flag -/
def setFlag (i : Nat) (b : Bool) : OM α Unit := fun s =>
  match s.obj i with
  | some o => .ok () { s with obj := upd s.obj i (some { o with initialized := b }) }
  | none => .ub .deadObject

/-- begin the lifetime of an optional object; the union has no active member -/
def newObj (i : Nat) (b : Bool) : OM α Unit := fun s =>
  match s.obj i with
  | some _ => .ub .constructLive
  | none => .ok () { s with obj := upd s.obj i (some ⟨none, b⟩) }

/-- end the lifetime of an optional object; a live value in it would never be destroyed -/
def killObj (i : Nat) : OM α Unit := fun s =>
  match s.obj i with
  | none => .ub .deadObject
  | some o => match o.val with
    | some _ => .ub .leak
    | none => .ok () { s with obj := upd s.obj i none }

/-- read the value inside `i` -/
def readVal (i : Nat) : OM α α := fun s =>
  match s.obj i with
  | none => .ub .deadObject
  | some o => match o.val with
    | none => .ub .readRaw
    | some v => .ok v s

/-- modify the value inside `i` -/
def writeVal (i : Nat) (v : α) : OM α Unit := fun s =>
  match s.obj i with
  | none => .ub .deadObject
  | some o => match o.val with
    | none => .ub .readRaw
    | some _ => .ok () { s with obj := upd s.obj i (some { o with val := some v }) }

/-- an object with value `v` comes into existence inside `i` -/
def placeVal (i : Nat) (v : α) : OM α Unit := fun s =>
  match s.obj i with
  | none => .ub .deadObject
  | some o => match o.val with
    | some _ => .ub .constructLive
    | none => .ok () { s with obj := upd s.obj i (some { o with val := some v }), born := upd s.born i (s.born i + 1) }

/-- `std::destroy_at(std::addressof(val))` -/
def destroyVal (i : Nat) : OM α Unit := fun s =>
  match s.obj i with
  | none => .ub .deadObject
  | some o => match o.val with
    | none => .ub .destroyRaw
    | some _ => .ok () { s with obj := upd s.obj i (some { o with val := none }) }

/-- an object of type `Type`: outside of all optionals (given by its value), or the value inside optional `j` -/
inductive Src (α : Type) where
  | ext (v : α)
  | own (j : Nat)

/-- its value -/
def Src.read : Src α → OM α α
  | .ext v => pure v
  | .own j => readVal j

/-- leave `f` of its value behind (what is left of outside objects is of no interest here) -/
def Src.leave (f : α → α) : Src α → OM α Unit
  | .ext _ => pure ()
  | .own j => do
    let v ← readVal j
    writeVal j (f v)

/-- arguments of a constructor of `Type`: it yields `v` (potentially throwing or not), or it gets a reference to the value
inside optional `j`, yields `f` of that and leaves `g` of it behind (an exception leaves it alone) -/
inductive Args (α : Type) where
  | val (v : α)
  | thr (v : α)
  | ref (j : Nat) (f g : α → α) (nothrow : Bool)

/-- evaluate `Type{args...}` -/
def Args.eval : Args α → OM α α
  | .val v => pure v
  | .thr v => do
    fallible
    pure v
  | .ref j f g nt => do
    let v ← readVal j
    (if nt then pure () else fallible)
    writeVal j (g v)
    pure (f v)

variable (E : Elem α)

/-- `new(std::addressof(val)) Type{x}` with `x` a const lvalue -/
def copyInto (i : Nat) (x : Src α) : OM α Unit := do
  let v ← x.read
  fallible
  placeVal i (E.braced v)

/-- `new(std::addressof(val)) Type{std::move(x)}` -/
def moveInto (i : Nat) (x : Src α) : OM α Unit := do
  let v ← x.read
  (if E.moveThrows then fallible else pure ())
  x.leave E.moved
  placeVal i (E.braced v)

/-- `val = x` with `x` a const lvalue: copy assignment, which also copes with `x` being `val` -/
def copyOver (i : Nat) (x : Src α) : OM α Unit := do
  let old ← readVal i
  let v ← x.read
  M.onExc fallible (writeVal i (E.torn old v))
  writeVal i v

/-- `val = std::move(x)`: move assignment, which does not throw (line 22) -/
def moveOver (i : Nat) (x : Src α) : OM α Unit := do
  let _ ← readVal i
  let v ← x.read
  match x with
  | .ext _ => writeVal i v
  | .own j =>
    if j = i then writeVal i (E.selfMove v)
    else do
      x.leave E.movedAssign
      writeVal i v

/-! ### constructors, destructor -/

/-- a constructor: `initialized` gets `b`, then the body runs; if it throws, there is no object -/
def construct (i : Nat) (b : Bool) (body : OM α Unit) : OM α Unit := do
  newObj i b
  M.onExc body (killObj i)

/-- optional.hpp:31-34 `optional()`, `optional(nullopt)` -/
def ctorNull (i : Nat) : OM α Unit := construct i false (pure ())

/-- optional.hpp:36-37 copy constructor -/
def ctorCopy (i other : Nat) : OM α Unit := do
  let b ← flag other
  construct i b (do
    let c ← flag other
    if c then copyInto E i (.own other) else pure ())

/-- optional.hpp:38-39 move constructor (`noexcept`) -/
def ctorMove (i other : Nat) : OM α Unit := M.noexcept do
  let b ← flag other
  construct i b (do
    let c ← flag other
    if c then moveInto E i (.own other) else pure ())

/-- optional.hpp:41-42 `optional(const Type &)` -/
def ctorFrom (i : Nat) (x : Src α) : OM α Unit := construct i true (copyInto E i x)

/-- optional.hpp:43-44 `optional(Type &&)` (`noexcept`) -/
def ctorFromMove (i : Nat) (x : Src α) : OM α Unit := M.noexcept (construct i true (moveInto E i x))

/-- optional.hpp:46-49 `optional(in_place, args...)` -/
def ctorInPlace (i : Nat) (a : Args α) : OM α Unit :=
  construct i true (do
    let v ← a.eval
    placeVal i v)

/-- optional.hpp:149-155 `reset` (`noexcept`) -/
def reset (i : Nat) : OM α Unit := M.noexcept do
  let b ← flag i
  if b then do
    destroyVal i
    setFlag i false
  else pure ()

/-- optional.hpp:93-94 destructor (`noexcept`) -/
def dtor (i : Nat) : OM α Unit := M.noexcept do
  reset i
  killObj i

/-! ### assignment -/

/-- optional.hpp:51-55 `operator=(nullopt)` (`noexcept`) -/
def assignNull (i : Nat) : OM α Unit := M.noexcept (reset i)

/-- optional.hpp:74-82 `operator=(const Type &)` -/
def assignFrom (i : Nat) (x : Src α) : OM α Unit := do
  let b ← flag i
  if b then copyOver E i x
  else do
    copyInto E i x
    setFlag i true

/-- optional.hpp:83-91 `operator=(Type &&)` (`noexcept`) -/
def assignFromMove (i : Nat) (x : Src α) : OM α Unit := M.noexcept do
  let b ← flag i
  if b then moveOver E i x
  else do
    moveInto E i x
    setFlag i true

/-- optional.hpp:57-64 copy assignment -/
def assignCopy (i other : Nat) : OM α Unit :=
  if i ≠ other then do
    let b ← flag other
    if b then assignFrom E i (.own other) else reset i
  else pure ()

/-- optional.hpp:65-72 move assignment (`noexcept`) -/
def assignMove (i other : Nat) : OM α Unit := M.noexcept (
  if i ≠ other then do
    let b ← flag other
    if b then assignFromMove E i (.own other) else reset i
  else pure ())

/-- optional.hpp:157-166 `emplace`; the temporary on line 160 is an object outside of all optionals -/
def emplace (i : Nat) (a : Args α) : OM α Nat := do
  let b ← flag i
  (if b then do
    let v ← a.eval
    moveOver E i (.ext v)
  else do
    let v ← a.eval
    placeVal i v
    setFlag i true)
  pure i

/-- optional.hpp:168-189 `swap` (`noexcept`; the `swap` of the values exchanges them, line 24) -/
def swap (i other : Nat) : OM α Unit := M.noexcept (
  if i = other then pure ()
  else do
    let b ← flag i
    let c ← flag other
    if !b && !c then pure ()
    else if b && !c then do
      moveInto E other (.own i)
      setFlag other true
      destroyVal i
      setFlag i false
    else if !b && c then do
      moveInto E i (.own other)
      setFlag i true
      destroyVal other
      setFlag other false
    else do
      let x ← readVal i
      let y ← readVal other
      writeVal i y
      writeVal other x)

/-! ### access -/

/-- optional.hpp:110-115 `operator bool`, `has_value` -/
def hasValue (i : Nat) : OM α Bool := flag i

/-- optional.hpp:96-108 `operator*`, `operator->`: a reference to the value (reading through it is `readVal`) -/
def deref (i : Nat) : OM α Nat := pure i

/-- optional.hpp:117-136 `value`: a reference to the value -/
def value (i : Nat) : OM α Nat := do
  let b ← flag i
  if b then deref i else M.throw .badOptionalAccess

/-- optional.hpp:138-140 `value_or` on an lvalue: a copy, constructed with parentheses (conversion of the conditional
expression's operand) -/
def valueOr (i : Nat) (dflt : Args α) : OM α α := do
  let b ← flag i
  if b then do
    let v ← readVal i
    fallible
    pure v
  else dflt.eval

/-- optional.hpp:141-143 `value_or` on an rvalue -/
def valueOrMove (i : Nat) (dflt : Args α) : OM α α := do
  let b ← flag i
  if b then do
    let v ← readVal i
    writeVal i (E.moved v)
    pure v
  else dflt.eval

/-! ### comparison (all `noexcept`; the operators of `Type` are taken not to throw) -/

/-- optional.hpp:191-233 two optionals -/
def compare (c : Cmp) (l r : Nat) : OM α Bool := M.noexcept do
  let a ← flag l
  let b ← flag r
  let vals : OM α Bool := do
    let x ← readVal l
    let y ← readVal r
    pure (E.cmp c x y)
  match c with
  | .eq => if a != b then pure false else if a == false then pure true else vals
  | .ne => if a != b then pure true else if a == false then pure false else vals
  | .lt => if b == false then pure false else if a == false then pure true else vals
  | .le => if a == false then pure true else if b == false then pure false else vals
  | .gt => if a == false then pure false else if b == false then pure true else vals
  | .ge => if b == false then pure true else if a == false then pure false else vals

/-- optional.hpp:235-253 an optional and `nullopt` -/
def compareNull (c : Cmp) (i : Nat) : OM α Bool := M.noexcept do
  let a ← flag i
  pure (match c with
    | .eq => !a
    | .ne => a
    | .lt => false
    | .le => !a
    | .gt => a
    | .ge => true)

/-- optional.hpp:255-273 `nullopt` and an optional -/
def nullCompare (c : Cmp) (i : Nat) : OM α Bool := M.noexcept do
  let a ← flag i
  pure (match c with
    | .eq => !a
    | .ne => a
    | .lt => a
    | .le => true
    | .gt => false
    | .ge => !a)

/-- optional.hpp:275-293 an optional and a value -/
def compareValue (c : Cmp) (i : Nat) (v : Src α) : OM α Bool := M.noexcept do
  let a ← flag i
  if a then do
    let x ← readVal i
    let y ← v.read
    pure (E.cmp c x y)
  else pure (match c with
    | .eq => false
    | .ne => true
    | .lt => true
    | .le => true
    | .gt => false
    | .ge => false)

/-- optional.hpp:295-313 a value and an optional -/
def valueCompare (c : Cmp) (v : Src α) (i : Nat) : OM α Bool := M.noexcept do
  let a ← flag i
  if a then do
    let y ← v.read
    let x ← readVal i
    pure (E.cmp c y x)
  else pure (match c with
    | .eq => false
    | .ne => true
    | .lt => false
    | .le => false
    | .gt => true
    | .ge => true)

end Ptl.Optional

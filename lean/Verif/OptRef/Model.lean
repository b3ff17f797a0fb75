import Verif.Optional.Model

/-!
# Model of `ptl::optional_ref<Type>` (inc/ptl/optional_ref.hpp)

Every definition cites the lines it models.  The objects of type `Type` are those inside `ptl::optional`s (modelled in
`Verif/Optional`) and plain ones.  A pointer `Type *` is a `Loc`; it denotes whatever object of that type lives there.
(`Type` may be const; then the client cannot write through the reference.)
-/

namespace Ptl.OptRef

/-- where an object of type `Type` can be: a plain object, or inside optional `i` -/
inductive Loc where
  | plain (k : Nat)
  | inOpt (i : Nat)
  deriving DecidableEq, Repr

/-- program state: the optionals, the plain objects, the `optional_ref` objects (optional_ref.hpp:17: one pointer) -/
structure St (α : Type) where
  opt : Optional.St α
  obj : Nat → Option α
  ref : Nat → Option (Option Loc)

/-- computations over that state -/
abbrev RM (α β : Type) := M (St α) β

variable {α β : Type}

/-- a computation that concerns the optionals only -/
def onOpt (m : Optional.OM α β) : RM α β := fun s =>
  match m s.opt with
  | .ok r o => .ok r { s with opt := o }
  | .exc e o => .exc e { s with opt := o }
  | .ub f => .ub f
  | .term => .term

/-! ### primitives -/

/-- read an object -/
def readLoc : Loc → RM α α
  | .inOpt i => onOpt (Optional.readVal i)
  | .plain k => fun s =>
    match s.obj k with
    | some v => .ok v s
    | none => .ub .deadObject

/-- modify an object -/
def writeLoc : Loc → α → RM α Unit
  | .inOpt i, v => onOpt (Optional.writeVal i v)
  | .plain k, v => fun s =>
    match s.obj k with
    | some _ => .ok () { s with obj := upd s.obj k (some v) }
    | none => .ub .deadObject

/-- the pointer of a live `optional_ref` -/
def ptr (r : Nat) : RM α (Option Loc) := fun s =>
  match s.ref r with
  | some p => .ok p s
  | none => .ub .deadObject

/-- begin the lifetime of an `optional_ref` -/
def newRef (r : Nat) (p : Option Loc) : RM α Unit := fun s =>
  match s.ref r with
  | some _ => .ub .constructLive
  | none => .ok () { s with ref := upd s.ref r (some p) }

/-! ### access -/

/-- optional_ref.hpp:90-95 `operator bool`, `has_value` -/
def hasValue (r : Nat) : RM α Bool := do
  let p ← ptr r
  pure p.isSome

/-- optional_ref.hpp:85-88 `operator*`, `operator->`: a reference to the object; `*ptr` with a null pointer is undefined -/
def deref (r : Nat) : RM α Loc := do
  let p ← ptr r
  match p with
  | some l => pure l
  | none => M.ub .nullDeref

/-- optional_ref.hpp:97-101 `value` -/
def value (r : Nat) : RM α Loc := do
  let b ← hasValue r
  if b then deref r else M.throw .badOptionalAccess

/-- consult the failure oracle (of the optionals' state: there is one for the program) -/
def fallible : RM α Unit := onOpt Optional.fallible

/-- optional_ref.hpp:103-105 `value_or`: a copy of the object, or the converted default -/
def valueOr (r : Nat) (dflt : Optional.Args α) : RM α α := do
  let b ← hasValue r
  if b then do
    let l ← deref r
    let v ← readLoc l
    fallible
    pure v
  else onOpt dflt.eval

/-! ### construction, assignment -/

/-- something that can be tested and dereferenced (optional_ref.hpp:19-66): a `ptl::optional`, another `optional_ref`, a
pointer -/
inductive Src where
  | opt (i : Nat)
  | ref (q : Nat)
  | ptr (p : Option Loc)

/-- `op` used as a condition: optional.hpp:112, optional_ref.hpp:92 -/
def Src.test : Src → RM α Bool
  | .opt i => onOpt (Optional.hasValue i)
  | .ref q => hasValue q
  | .ptr p => pure p.isSome

/-- `std::addressof(*op)`: optional.hpp:102-104, optional_ref.hpp:88 -/
def Src.addr : Src → RM α Loc
  | .opt i => do
    let j ← onOpt (Optional.deref i)
    pure (.inOpt j)
  | .ref q => deref q
  | .ptr (some l) => pure l
  | .ptr none => M.ub .nullDeref

/-- optional_ref.hpp:73-76 default constructor, construction from `nullopt` -/
def ctorNull (r : Nat) : RM α Unit := newRef r none

/-- optional_ref.hpp:78-79 construction from an object -/
def ctorObj (r : Nat) (l : Loc) : RM α Unit := newRef r (some l)

/-- optional_ref.hpp:81-83 construction from something optional; for a non-const `optional_ref` of the same type this
constructor is used instead of the (implicit) copy constructor -/
def ctorFrom (r : Nat) (op : Src) : RM α Unit := do
  let b ← op.test
  let p ← (if b then do
    let l ← op.addr
    pure (some l)
  else pure none)
  newRef r p

/-- the implicit copy constructor (optional_ref.hpp:17: copies the pointer) -/
def ctorCopy (r q : Nat) : RM α Unit := do
  let p ← ptr q
  newRef r p

/-- the implicit copy assignment (copies the pointer) -/
def assign (r q : Nat) : RM α Unit := do
  let p ← ptr q
  let _ ← ptr r
  fun s => .ok () { s with ref := upd s.ref r (some p) }

/-- the implicit destructor -/
def dtor (r : Nat) : RM α Unit := do
  let _ ← ptr r
  fun s => .ok () { s with ref := upd s.ref r none }

/-! ### plain objects (not part of the library) -/

/-- a plain object comes into existence -/
def newObj (k : Nat) (v : α) : RM α Unit := fun s =>
  match s.obj k with
  | some _ => .ub .constructLive
  | none => .ok () { s with obj := upd s.obj k (some v) }

/-- … and is destroyed -/
def killObj (k : Nat) : RM α Unit := fun s =>
  match s.obj k with
  | some _ => .ok () { s with obj := upd s.obj k none }
  | none => .ub .destroyRaw

end Ptl.OptRef

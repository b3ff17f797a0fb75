import Verif.Basic

/-!
# Model of `ptl::variant_ref<Head, Tail...>` (inc/ptl/variant_ref.hpp)

Every definition cites the lines it models.  An alternative is a type with or without `const`.  All members of the nested
unions are pointers at the same address, so the storage of a `variant_ref` is one slot: which of the pointers was set, and
the object it points to.  The lifetime of the nested `storage_t` subobjects, which is never begun (variant_ref.hpp:37), is
the subject of C69 and not modelled here.
-/

namespace Ptl.VarRef

/-- a type without reference: `base` or `const base` -/
structure CT (τ : Type) where
  base : τ
  const : Bool
  deriving DecidableEq, Repr

/-- the type and value category of an expression -/
structure Expr (τ : Type) where
  base : τ
  const : Bool
  lval : Bool
  deriving DecidableEq, Repr

/-- an object a `variant_ref` can refer to: its type (with or without `const`), its value, whether it is within its
lifetime -/
structure Ob (τ ν : Type) where
  ty : CT τ
  val : ν
  alive : Bool

/-- variant_ref.hpp:104-105 data members: the storage (position of the pointer that is set, object) and the index of the
alternative; `none` is indeterminate -/
structure Ref where
  slot : Option (Nat × Nat)
  type : Option Nat

/-- program state -/
structure St (τ ν : Type) where
  obj : Nat → Option (Ob τ ν)
  ref : Nat → Option Ref

/-- computations over that state -/
abbrev RM (τ ν β : Type) := M (St τ ν) β

variable {τ ν β : Type} [DecidableEq τ]

/-! ### compile-time functions -/

/-- variant_ref.hpp:42-48 `determine_index` (the list is never empty) -/
def determineIndex (T : CT τ) : List (CT τ) → Int → Int
  | [], _ => -1
  | head :: tail, index =>
    if T = head then index
    else if tail.length ≠ 0 then determineIndex T tail (index + 1)
    else -1

/-- variant_ref.hpp:50-56 `validate_unique` (the list is never empty) -/
def validateUnique : List (CT τ) → Bool
  | [] => true
  | head :: tail =>
    if tail.length = 0 then true
    else if determineIndex head tail 0 ≠ -1 then false
    else validateUnique tail

/-- variant_ref.hpp:94, 97: at least one alternative, no duplicates.  (Line 96 – fewer than 2^63 of them – is not an
obstacle.) -/
def wellFormed (ts : List (CT τ)) : Bool := decide (ts ≠ []) && validateUnique ts

/-- variant_ref.hpp:107-110 `can_store` -/
def canStore (ts : List (CT τ)) (T : CT τ) : Bool := determineIndex T ts 0 != -1

/-- variant_ref.hpp:112 the condition under which the converting constructor exists.  `T` is deduced as a reference for an
lvalue, as a non-reference for an rvalue. -/
def accepts (ts : List (CT τ)) (e : Expr τ) : Bool :=
  (e.lval && canStore ts ⟨e.base, e.const⟩) || canStore ts ⟨e.base, true⟩

/-! ### primitives -/

/-- a `variant_ref` within its lifetime -/
def getRef (r : Nat) : RM τ ν Ref := fun s =>
  match s.ref r with
  | some x => .ok x s
  | none => .ub .deadObject

/-- begin the lifetime of a `variant_ref`: its members are indeterminate (variant_ref.hpp:104-105) -/
def newRef (r : Nat) : RM τ ν Unit := fun s =>
  match s.ref r with
  | some _ => .ub .constructLive
  | none => .ok () { s with ref := upd s.ref r (some ⟨none, none⟩) }

/-- `type = …` -/
def setType (r : Nat) (t : Nat) : RM τ ν Unit := fun s =>
  match s.ref r with
  | some x => .ok () { s with ref := upd s.ref r (some { x with type := some t }) }
  | none => .ub .deadObject

/-- reading `type` -/
def getType (r : Nat) : RM τ ν Nat := do
  let x ← getRef r
  match x.type with
  | some t => pure t
  | none => M.ub .readRaw

/-- `*p`: names the object; it has to exist -/
def lvalue (p : Nat) : RM τ ν Unit := fun s =>
  match s.obj p with
  | some b => if b.alive then .ok () s else .ub .deadObject
  | none => .ub .deadObject

/-- reading through a pointer to `T` -/
def readPtr (T : CT τ) (p : Nat) : RM τ ν ν := fun s =>
  match s.obj p with
  | none => .ub .deadObject
  | some b =>
    if !b.alive then .ub .deadObject
    else if b.ty.base ≠ T.base then .ub .precondition
    else .ok b.val s

/-- writing through a pointer to `T`: does not compile if `T` is const, undefined if the object is const -/
def writePtr (T : CT τ) (p : Nat) (v : ν) : RM τ ν Unit := fun s =>
  match s.obj p with
  | none => .ub .deadObject
  | some b =>
    if !b.alive then .ub .deadObject
    else if b.ty.base ≠ T.base ∨ T.const ∨ b.ty.const then .ub .precondition
    else .ok () { s with obj := upd s.obj p (some { b with val := v }) }

/-! ### storage -/

/-- variant_ref.hpp:27-32 `storage_t::get`: the pointer at position `I` (in absolute terms `d + I`), with its type -/
def Storage.get (r : Nat) : (I d : Nat) → List (CT τ) → RM τ ν (CT τ × Nat)
  | 0, d, head :: _ => do
    let x ← getRef r
    match x.slot with
    | none => M.ub .readRaw
    | some (k, p) => if k = d then pure (head, p) else M.ub .inactiveMember
  | I + 1, d, _ :: tail => Storage.get r I (d + 1) tail
  | _, _, [] => M.ub .outOfBounds

/-- variant_ref.hpp:34-39 `storage_t::set` from an lvalue of type `U` naming object `p`.  The conversion of the pointer
compiles if it adds `const` at most. -/
def Storage.set (r : Nat) (U : CT τ) (p : Nat) : (I d : Nat) → List (CT τ) → RM τ ν Unit
  | 0, d, head :: _ =>
    if U.base = head.base ∧ (U.const → head.const) then do
      let x ← getRef r
      fun s => .ok () { s with ref := upd s.ref r (some { x with slot := some (d, p) }) }
    else M.ub .precondition
  | I + 1, d, _ :: tail => Storage.set r U p I (d + 1) tail
  | _, _, [] => M.ub .outOfBounds

/-- `dispatch[type](…)`: the table has one entry per alternative -/
def dispatch (ts : List (CT τ)) (type : Nat) (f : Nat → RM τ ν β) : RM τ ν β :=
  if type < ts.length then f type else M.ub .outOfBounds

/-- variant_ref.hpp:58-64 `assign` -/
def assignImpl (ts : List (CT τ)) (type : Nat) (lhs rhs : Nat) : RM τ ν Unit :=
  dispatch ts type fun I => do
    let (T, p) ← Storage.get rhs I 0 ts
    lvalue p
    Storage.set lhs T p I 0 ts

/-- variant_ref.hpp:66-75 `get` -/
def getImpl (ts : List (CT τ)) (T : CT τ) (type : Nat) (r : Nat) : RM τ ν Nat :=
  dispatch ts type fun I => do
    let (U, p) ← Storage.get r I 0 ts
    if U = T then pure p else fun _ => .term

/-- variant_ref.hpp:77-85 `visit`; `conv U H` is the implicit conversion of the visitor's result type for `U` to that for
`H`: the dispatch functions have the result type for the first alternative (80-83) -/
def visitImpl (ts : List (CT τ)) (conv : CT τ → CT τ → β → β) (type : Nat) (r : Nat) (vis : CT τ → Nat → RM τ ν β) :
    RM τ ν β :=
  dispatch ts type fun I => do
    let (U, p) ← Storage.get r I 0 ts
    lvalue p
    let b ← vis U p
    pure (match ts with
      | [] => b
      | head :: _ => conv U head b)

/-! ### members -/

/-- variant_ref.hpp:112-125 constructor from an expression naming object `p` -/
def ctor (ts : List (CT τ)) (r : Nat) (e : Expr τ) (p : Nat) : RM τ ν Unit := do
  newRef r
  let id := determineIndex ⟨e.base, e.const⟩ ts 0
  if e.lval ∧ id ≠ -1 then do
    setType r id.toNat
    Storage.set r ⟨e.base, e.const⟩ p id.toNat 0 ts
  else do
    let id := determineIndex ⟨e.base, true⟩ ts 0
    setType r id.toNat
    Storage.set r ⟨e.base, e.const⟩ p id.toNat 0 ts

/-- variant_ref.hpp:127-128 copy constructor -/
def ctorCopy (ts : List (CT τ)) (r q : Nat) : RM τ ν Unit := do
  newRef r
  let t ← getType q
  setType r t
  assignImpl ts t r q

/-- variant_ref.hpp:129-133 copy assignment -/
def assign (ts : List (CT τ)) (r q : Nat) : RM τ ν Unit := do
  let t ← getType q
  setType r t
  assignImpl ts t r q

/-- variant_ref.hpp:134 destructor -/
def dtor (r : Nat) : RM τ ν Unit := do
  let _ ← getRef r
  fun s => .ok () { s with ref := upd s.ref r none }

/-- variant_ref.hpp:136-145 `visit` (several visitors are combined into one) -/
def visit (ts : List (CT τ)) (conv : CT τ → CT τ → β → β) (r : Nat) (vis : CT τ → Nat → RM τ ν β) : RM τ ν β := do
  let t ← getType r
  visitImpl ts conv t r vis

/-- variant_ref.hpp:147-149 `holds`; the index is converted to `std::size_t` -/
def holds (ts : List (CT τ)) (T : CT τ) (r : Nat) : RM τ ν Bool := do
  let t ← getType r
  pure (decide ((t : Int) = determineIndex T ts 0))

/-- variant_ref.hpp:151-156 `get_if` -/
def getIf (ts : List (CT τ)) (T : CT τ) (r : Nat) : RM τ ν (Option Nat) := do
  let b ← holds ts T r
  if !b then pure none
  else do
    let t ← getType r
    let p ← getImpl ts T t r
    pure (some p)

/-- variant_ref.hpp:158-163 `get` -/
def get (ts : List (CT τ)) (T : CT τ) (r : Nat) : RM τ ν Nat := do
  let p ← getIf ts T r
  match p with
  | some p => pure p
  | none => M.throw .badVariantAccess

/-! ### objects (not part of the library) -/

/-- an object comes into existence -/
def newObj (k : Nat) (T : CT τ) (v : ν) : RM τ ν Unit := fun s =>
  match s.obj k with
  | some _ => .ub .constructLive
  | none => .ok () { s with obj := upd s.obj k (some ⟨T, v, true⟩) }

/-- … and is destroyed -/
def killObj (k : Nat) : RM τ ν Unit := fun s =>
  match s.obj k with
  | some b => if b.alive then .ok () { s with obj := upd s.obj k (some { b with alive := false }) } else .ub .destroyRaw
  | none => .ub .destroyRaw

end Ptl.VarRef

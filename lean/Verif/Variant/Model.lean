import Verif.Heap
import Verif.Bytes

/-!
# Model of `ptl::variant<Head, Tail...>` (inc/ptl/variant.hpp)

Every definition cites the lines it models.  `τ` are (names of) types, `ts` is the list `Head, Tail...`, `ν` is the
union of the values of all alternatives.  All members of the nested unions have the same address, so the storage of a
variant object is one slot, holding nothing or one live object together with its position in `ts`.  The lifetime of the
nested `storage_t` subobjects, which are never explicitly begun (variant.hpp:28, 47), is not modelled.
-/

namespace Ptl.Variant

/-- What the library assumes of the alternatives. -/
structure Elem (τ ν : Type) where
  /-- value of `T{}` -/
  dflt : τ → ν
  /-- value of `T{x}` and `T{std::move(x)}` for an `x` of type `T` (variant.hpp:48 uses braces, so a constructor from
  `std::initializer_list` wins over the copy and move constructor) -/
  braced : τ → ν → ν
  /-- can `T{std::move(x)}` throw?  (`std::is_nothrow_move_constructible`, line 184, speaks about `T(std::move(x))`) -/
  moveThrows : τ → Bool
  /-- value left behind by a move construction -/
  moved : τ → ν → ν
  /-- the comparison operators of the alternative -/
  cmp : Cmp → τ → ν → ν → Bool

/-- pointer to (where) the alternative at position `alt`, of type `ty`, of the storage of variant object `obj` (is or
would be) -/
structure Ptr (τ : Type) where
  obj : Id
  alt : Nat
  ty : τ

/-- variant.hpp:195-196 data members: the storage and the index of the active alternative -/
structure Obj (ν : Type) where
  slot : Option (Nat × ν)
  type : Nat

/-- Program state: variant objects; which variant objects are parts of the value held by a variant object (they are
destroyed with it); the failure oracle. -/
structure St (ν : Type) where
  obj : Id → Option (Obj ν)
  part : Id → List Id
  ntmp : Nat
  orc : Nat → Bool
  tick : Nat

/-- computations over that state -/
abbrev VM (ν β : Type) := M (St ν) β

variable {τ ν : Type} [DecidableEq τ]

/-! ### compile-time functions on type lists -/

/-- variant.hpp:59-61 -/
def notFound : BitVec 8 := 255

/-- variant.hpp:63-69 `determine_index`; `index + 1` is converted to `unsigned char`.  (The list is never empty.) -/
def determineIndex (T : τ) : List τ → BitVec 8 → BitVec 8
  | [], _ => notFound
  | head :: tail, index =>
    if T = head then index
    else if tail.length ≠ 0 then determineIndex T tail (index + 1)
    else notFound

/-- variant.hpp:71-77 `validate_unique`.  (The list is never empty.) -/
def validateUnique : List τ → Bool
  | [] => true
  | head :: tail =>
    if tail.length = 0 then true
    else if determineIndex head tail 0 ≠ notFound then false
    else validateUnique tail

/-- variant.hpp:92-98 `determine_type` (`none` = does not compile) -/
def determineType : Nat → List τ → Option τ
  | _, [] => none
  | 0, head :: _ => some head
  | index + 1, _ :: tail => determineType index tail

/-- variant.hpp:180, 188: the static assertions on the list of alternatives -/
def wellFormed (ts : List τ) : Bool := decide (ts.length - 1 < 254) && decide (ts ≠ []) && validateUnique ts

/-- variant.hpp:198-201 `can_store` for a type without `const` and reference -/
def canStore (ts : List τ) (T : τ) : Bool := determineIndex T ts 0 != notFound

/-- `determine_index<T, Head, Tail...>()` as a `std::size_t` -/
def idx (ts : List τ) (T : τ) : Nat := (determineIndex T ts 0).toNat

/-! ### primitives -/

/-- consult the failure oracle -/
def fallible : VM ν Unit := fun s =>
  if s.orc s.tick then .exc .user { s with tick := s.tick + 1 } else .ok () { s with tick := s.tick + 1 }

/-- access an object within its lifetime -/
def getObj (i : Id) : VM ν (Obj ν) := fun s =>
  match s.obj i with
  | some o => .ok o s
  | none => .ub .deadObject

/-- begin the lifetime of a variant object: the storage is empty (variant.hpp:28) -/
def newObj (i : Id) (type : Nat) : VM ν Unit := fun s =>
  match s.obj i with
  | some _ => .ub .constructLive
  | none => .ok () { s with obj := upd s.obj i (some ⟨none, type⟩) }

/-- end the lifetime of a variant object; a live alternative in it would never be destroyed (variant.hpp:29) -/
def killObj (i : Id) : VM ν Unit := fun s =>
  match s.obj i with
  | none => .ub .deadObject
  | some o => match o.slot with
    | some _ => .ub .leak
    | none => .ok () { s with obj := upd s.obj i none }

/-- assignment to the member `type`: conversion to `unsigned char` -/
def setType (i : Id) (t : Nat) : VM ν Unit := fun s =>
  match s.obj i with
  | none => .ub .deadObject
  | some o => .ok () { s with obj := upd s.obj i (some { o with type := t % 256 }) }

/-- the value `*p` -/
def readAt (p : Ptr τ) : VM ν ν := fun s =>
  match s.obj p.obj with
  | none => .ub .deadObject
  | some o => match o.slot with
    | none => .ub .readRaw
    | some (k, v) => if k = p.alt then .ok v s else .ub .inactiveMember

/-- modify `*p` -/
def writeAt (p : Ptr τ) (v : ν) : VM ν Unit := fun s =>
  match s.obj p.obj with
  | none => .ub .deadObject
  | some o => match o.slot with
    | none => .ub .readRaw
    | some (k, _) =>
      if k = p.alt then .ok () { s with obj := upd s.obj p.obj (some { o with slot := some (k, v) }) }
      else .ub .inactiveMember

/-- an object with value `v` comes into existence at `p` -/
def placeAt (p : Ptr τ) (v : ν) : VM ν Unit := fun s =>
  match s.obj p.obj with
  | none => .ub .deadObject
  | some o => match o.slot with
    | some _ => .ub .constructLive
    | none => .ok () { s with obj := upd s.obj p.obj (some { o with slot := some (p.alt, v) }) }

/-- `std::destroy_at(p)`; the parts of the value go with it -/
def destroyAt (p : Ptr τ) : VM ν Unit := fun s =>
  match s.obj p.obj with
  | none => .ub .deadObject
  | some o => match o.slot with
    | none => .ub .destroyRaw
    | some (k, _) =>
      if k = p.alt then
        .ok () { s with obj := fun j => if j ∈ s.part p.obj then none else
                                 upd s.obj p.obj (some { o with slot := none }) j }
      else .ub .inactiveMember

/-- the arguments of a constructor of an alternative, and the effect of the constructor: it yields the value `v`
(potentially throwing or not), or it reads an object to which it got a reference, yields `f` of its value and leaves
`g` of its value behind.  `trait` is the value of `std::is_nothrow_constructible_v<T, Args...>`: it speaks about
`T(args...)`, while objects are constructed by `T{args...}` (variant.hpp:48), which can be another constructor. -/
inductive Arg (τ ν : Type) where
  | val (v : ν)
  | thr (v : ν) (trait : Bool)
  | ref (p : Ptr τ) (f g : ν → ν) (nothrow : Bool)

/-- `std::is_nothrow_constructible_v<T, Args...>` -/
def Arg.nothrow : Arg τ ν → Bool
  | .val _ => true
  | .thr _ trait => trait
  | .ref _ _ _ nt => nt

/-- run the constructor (an exception leaves the referenced object alone) -/
def Arg.eval : Arg τ ν → VM ν ν
  | .val v => pure v
  | .thr v _ => do
    fallible
    pure v
  | .ref p f g nt => do
    let v ← readAt p
    (if nt then pure () else fallible)
    writeAt p (g v)
    pure (f v)

/-- `new(p) T{args...}` (variant.hpp:48) -/
def construct (p : Ptr τ) (a : Arg τ ν) : VM ν Unit := do
  let v ← a.eval
  placeAt p v

variable (E : Elem τ ν) (ts : List τ)

/-- the argument `*p`, a const lvalue -/
def Arg.copy (p : Ptr τ) : Arg τ ν := .ref p (E.braced p.ty) id false
/-- the argument `std::move(*p)` -/
def Arg.move (p : Ptr τ) : Arg τ ν := .ref p (E.braced p.ty) (E.moved p.ty) (!E.moveThrows p.ty)

/-! ### `storage_t` -/

/-- variant.hpp:31-42 `storage_t::get<I>`, for the storage nested `d` levels deep in object `i` -/
def Storage.get (i : Id) : Nat → Nat → List τ → VM ν (Ptr τ)
  | _, _, [] => M.ub .precondition
  | 0, d, head :: _ => pure ⟨i, d, head⟩
  | I + 1, d, _ :: tail => Storage.get i I (d + 1) tail

/-- variant.hpp:44-49 `storage_t::set<I>` -/
def Storage.set (i : Id) : Nat → Nat → List τ → Arg τ ν → VM ν Unit
  | _, _, [], _ => M.ub .precondition
  | 0, d, head :: _, a => construct ⟨i, d, head⟩ a
  | I + 1, d, _ :: tail, a => Storage.set i I (d + 1) tail a

/-- variant.hpp:51-56 `storage_t::destroy<I>` (`noexcept`) -/
def Storage.destroy (i : Id) : Nat → Nat → List τ → VM ν Unit
  | _, _, [] => M.ub .precondition
  | 0, d, head :: _ => M.noexcept (destroyAt ⟨i, d, head⟩)
  | I + 1, d, _ :: tail => Storage.destroy i I (d + 1) tail

/-! ### dispatch tables -/

/-- `dispatch[type](…)`: the table has one entry per alternative (variant.hpp:113, 128, 141, 149, 157, 168) -/
def dispatch {β : Type} (type : Nat) (f : Nat → VM ν β) : VM ν β :=
  if type < ts.length then f type else M.ub .outOfBounds

/-- variant.hpp:100-114 `visit`.  `vis` is the visitor; `conv T H` is the implicit conversion from the result type of the
visitor for `T` to its result type for `H`: the dispatch functions return the result type for the first alternative
(lines 103-108).  Several visitors (116-121) are combined into one.  `Move` only affects the value category. -/
def visitImpl {β : Type} (conv : τ → τ → β → β) (type : Nat) (i : Id) (vis : Ptr τ → VM ν β) : VM ν β :=
  dispatch ts type fun I => do
    let p ← Storage.get i I 0 ts
    let r ← vis p
    pure (match ts with
      | [] => r
      | head :: _ => conv p.ty head r)

/-- variant.hpp:123-129 `emplace` -/
def emplaceImpl (type : Nat) (i : Id) (a : Arg τ ν) : VM ν Unit :=
  dispatch ts type fun I => Storage.set i I 0 ts a

/-- variant.hpp:131-142 `assign<false>` -/
def assignCopyImpl (type : Nat) (lhs rhs : Id) : VM ν Unit :=
  dispatch ts type fun I => do
    let ptr ← Storage.get rhs I 0 ts
    Storage.set lhs I 0 ts (Arg.copy E ptr)

/-- variant.hpp:131-142 `assign<true>` (`noexcept`) -/
def assignMoveImpl (type : Nat) (lhs rhs : Id) : VM ν Unit := M.noexcept (
  dispatch ts type fun I => do
    let ptr ← Storage.get rhs I 0 ts
    Storage.set lhs I 0 ts (Arg.move E ptr))

/-- variant.hpp:144-150 `destroy` -/
def destroyImpl (type : Nat) (i : Id) : VM ν Unit :=
  dispatch ts type fun I => Storage.destroy i I 0 ts

/-- variant.hpp:152-158 `compare` (`noexcept`; the comparison operators of the alternatives are taken not to throw) -/
def compareImpl (c : Cmp) (type : Nat) (lhs rhs : Id) : VM ν Bool := M.noexcept (
  dispatch ts type fun I => do
    let p ← Storage.get lhs I 0 ts
    let q ← Storage.get rhs I 0 ts
    let x ← readAt p
    let y ← readAt q
    pure (E.cmp c p.ty x y))

/-- variant.hpp:160-169 `swap` (`noexcept`; the `swap` of an alternative exchanges the two values) -/
def swapImpl (type : Nat) (lhs rhs : Id) : VM ν Unit := M.noexcept (
  dispatch ts type fun I => do
    let p ← Storage.get (τ := τ) lhs I 0 ts
    let q ← Storage.get (τ := τ) rhs I 0 ts
    let x ← readAt p
    let y ← readAt q
    writeAt p y
    writeAt q x)

/-! ### constructors and destructor -/

/-- a constructor: `storage` is empty, `type` is initialised, then the body runs; if it throws, there is no object -/
def construct' (i : Id) (type : Nat) (body : VM ν Unit) : VM ν Unit := do
  newObj i type
  M.onExc body (killObj i)

/-- variant.hpp:203-205 default constructor: `Head{}`, which may throw -/
def ctorDefault (i : Id) : VM ν Unit :=
  match ts with
  | [] => M.ub .precondition
  | head :: _ => construct' i 0 (Storage.set i 0 0 ts (.thr (E.dflt head) false))

/-- variant.hpp:207 copy constructor -/
def ctorCopy (i other : Id) : VM ν Unit := do
  let o ← getObj other
  construct' i o.type (assignCopyImpl E ts o.type i other)

/-- variant.hpp:208 move constructor (`noexcept`) -/
def ctorMove (i other : Id) : VM ν Unit := M.noexcept do
  let o ← getObj other
  construct' i o.type (assignMoveImpl E ts o.type i other)

/-- variant.hpp:214-217 constructor with `std::in_place_index` -/
def ctorIndex (i : Id) (index : Nat) (a : Arg τ ν) : VM ν Unit :=
  construct' i index (Storage.set i index 0 ts a)

/-- variant.hpp:210-212 converting constructor (`T` is the decayed type), and 218-221 constructor with
`std::in_place_type` -/
def ctorValue (i : Id) (T : τ) (a : Arg τ ν) : VM ν Unit := ctorIndex ts i (idx ts T) a

/-- variant.hpp:248 destructor (`noexcept`) -/
def dtor (i : Id) : VM ν Unit := M.noexcept do
  let o ← getObj i
  destroyImpl ts o.type i
  killObj i

/-- a local `variant tmp{…};` in scope `body` -/
def withTmp {β : Type} (ctor : Id → VM ν Unit) (body : Id → VM ν β) : VM ν β := fun s =>
  let t := Id.tmp s.ntmp
  (do
    ctor t
    M.withDtor (body t) (dtor ts t) : VM ν β) { s with ntmp := s.ntmp + 1 }

/-! ### assignment, emplace, swap -/

/-- variant.hpp:223-231 copy assignment -/
def assignCopy (this other : Id) : VM ν Unit :=
  if this ≠ other then
    withTmp ts (fun t => ctorCopy E ts t other) fun tmp => do
      let o ← getObj this
      destroyImpl ts o.type this
      let t ← getObj tmp
      assignMoveImpl E ts t.type this tmp
      let o ← getObj other
      setType this o.type
  else pure ()

/-- variant.hpp:232-239 move assignment (`noexcept`) -/
def assignMove (this other : Id) : VM ν Unit := M.noexcept (
  if this ≠ other then do
    let o ← getObj this
    destroyImpl ts o.type this
    let o ← getObj other
    assignMoveImpl E ts o.type this other
    let o ← getObj other
    setType this o.type
  else pure ())

/-- variant.hpp:241-246 converting assignment (`T` is the decayed type) -/
def assignValue (this : Id) (T : τ) (a : Arg τ ν) : VM ν Unit :=
  withTmp ts (fun t => ctorValue ts t T a) fun tmp => assignMove E ts this tmp

/-- variant.hpp:281 `holds` -/
def holds (i : Id) (T : τ) : VM ν Bool := do
  let o ← getObj i
  pure (o.type == idx ts T)

/-- variant.hpp:283-294 `get_if` -/
def getIf (i : Id) (T : τ) : VM ν (Option (Ptr τ)) := do
  let b ← holds ts i T
  if !b then pure none
  else do
    let p ← Storage.get i (idx ts T) 0 ts
    pure (some p)

/-- variant.hpp:296-313 `get` -/
def get (i : Id) (T : τ) : VM ν (Ptr τ) := do
  let r ← getIf ts i T
  match r with
  | some p => pure p
  | none => M.throw .badVariantAccess

/-- variant.hpp:252-264 `emplace<T>` -/
def emplace (this : Id) (T : τ) (a : Arg τ ν) : VM ν (Ptr τ) := do
  (if a.nothrow then do
    let o ← getObj this
    destroyImpl ts o.type this
    emplaceImpl ts (idx ts T) this a
    setType this (idx ts T)
  else
    withTmp ts (fun t => ctorValue ts t T a) fun tmp => assignMove E ts this tmp)
  get ts this T

/-- variant.hpp:250-251 `emplace<Index>` -/
def emplaceIndex (this : Id) (index : Nat) (a : Arg τ ν) : VM ν (Ptr τ) :=
  match determineType index ts with
  | some T => emplace E ts this T a
  | none => M.ub .precondition

/-- variant.hpp:315-321 `swap` (`noexcept`); line 318 is `std::swap`: a move construction and two move assignments -/
def swap (this other : Id) : VM ν Unit := M.noexcept (
  if this = other then pure ()
  else do
    let a ← getObj this
    let b ← getObj other
    if a.type = b.type then swapImpl ts a.type this other
    else
      withTmp ts (fun t => ctorMove E ts t this) fun tmp => do
        assignMove E ts this other
        assignMove E ts other tmp)

/-! ### visiting and comparing -/

/-- variant.hpp:266-277 `visit` -/
def visit {β : Type} (conv : τ → τ → β → β) (i : Id) (vis : Ptr τ → VM ν β) : VM ν β := do
  let o ← getObj i
  visitImpl ts conv o.type i vis

/-- variant.hpp:323-363 the six comparison operators (`noexcept`) -/
def compare (c : Cmp) (lhs rhs : Id) : VM ν Bool := M.noexcept do
  let l ← getObj lhs
  let r ← getObj rhs
  match c with
  | .eq => if l.type ≠ r.type then pure false else compareImpl E ts .eq l.type lhs rhs
  | .ne => if l.type ≠ r.type then pure true else compareImpl E ts .ne l.type lhs rhs
  | .lt => if l.type < r.type then pure true else if l.type > r.type then pure false else compareImpl E ts .lt l.type lhs rhs
  | .le => if l.type < r.type then pure true else if l.type > r.type then pure false else compareImpl E ts .le l.type lhs rhs
  | .gt => if l.type > r.type then pure true else if l.type < r.type then pure false else compareImpl E ts .gt l.type lhs rhs
  | .ge => if l.type > r.type then pure true else if l.type < r.type then pure false else compareImpl E ts .ge l.type lhs rhs

end Ptl.Variant

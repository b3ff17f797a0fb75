import Verif.Basic

/-!
# Memory shared by the `vector` and `string` models

Heap blocks are lists of slots, `none` = raw storage / indeterminate byte, `some v` = live object /
initialised byte.  C++ objects (the `storage_t` inside a vector or string) live in an object table, indexed
by `Id`: named variables of the client program, and temporaries created by library code.
-/

namespace Ptl

/-- identity (address) of a C++ object: a variable of the client or a temporary -/
inductive Id where
  | var (n : Nat)
  | tmp (n : Nat)
  deriving DecidableEq, Repr

/-- Program state.  `orc`/`tick`: failure oracle, consulted at every operation that may fail;
`moves`: ghost counter of relocated elements/bytes (only used for cost statements). -/
structure St (α ω : Type) where
  /-- heap blocks; `none` = not allocated -/
  blk : Nat → Option (List (Option α))
  /-- next block number to hand out -/
  nblk : Nat
  /-- live C++ objects -/
  obj : Id → Option ω
  /-- next temporary to hand out -/
  ntmp : Nat
  /-- does the n-th fallible step fail? -/
  orc : Nat → Bool
  /-- number of fallible steps taken so far -/
  tick : Nat
  /-- ghost: number of elements relocated by reallocation so far -/
  moves : Nat

/-- A pointer to element `off` of block `blk` (`none` = null pointer). -/
structure Ptr where
  blk : Option Nat
  off : Nat
  deriving DecidableEq, Repr

/-- pointer arithmetic `p + n` -/
def Ptr.add (p : Ptr) (n : Nat) : Ptr := { p with off := p.off + n }

@[simp] theorem Ptr.add_blk (p : Ptr) (n : Nat) : (p.add n).blk = p.blk := rfl
@[simp] theorem Ptr.add_off (p : Ptr) (n : Nat) : (p.add n).off = p.off + n := rfl

section prims
variable {α ω : Type}

/-- consult the failure oracle -/
def fallible (e : Exc) : M (St α ω) Unit := fun s =>
  if s.orc s.tick then .exc e { s with tick := s.tick + 1 }
  else .ok () { s with tick := s.tick + 1 }

/-- access an object within its lifetime -/
def getObj (i : Id) : M (St α ω) ω := fun s =>
  match s.obj i with
  | some o => .ok o s
  | none => .ub .deadObject

/-- update an object within its lifetime -/
def setObj (i : Id) (o : ω) : M (St α ω) Unit := fun s =>
  match s.obj i with
  | some _ => .ok () { s with obj := upd s.obj i (some o) }
  | none => .ub .deadObject

/-- begin the lifetime of an object at `i` (which must not be alive) -/
def newObj (i : Id) (o : ω) : M (St α ω) Unit := fun s =>
  match s.obj i with
  | some _ => .ub .constructLive
  | none => .ok () { s with obj := upd s.obj i (some o) }

/-- a fresh temporary -/
def newTmp (o : ω) : M (St α ω) Id := fun s =>
  .ok (.tmp s.ntmp) { s with obj := upd s.obj (.tmp s.ntmp) (some o), ntmp := s.ntmp + 1 }

/-- end the lifetime of an object -/
def killObj (i : Id) : M (St α ω) Unit := fun s =>
  match s.obj i with
  | some _ => .ok () { s with obj := upd s.obj i none }
  | none => .ub .deadObject

/-- `std::calloc` / `new[]`: a fresh block of `n` raw slots, or `bad_alloc` when the oracle says so -/
def alloc (n : Nat) : M (St α ω) Nat := fun s =>
  if s.orc s.tick then .exc .badAlloc { s with tick := s.tick + 1 }
  else .ok s.nblk { s with blk := upd s.blk s.nblk (some (List.replicate n none)),
                           nblk := s.nblk + 1, tick := s.tick + 1 }

/-- read slot `p` (which may be raw) -/
def slotAt (p : Ptr) : M (St α ω) (Option α) := fun s =>
  match p.blk with
  | none => .ub .nullDeref
  | some b => match s.blk b with
    | none => .ub .useAfterFree
    | some l => match l[p.off]? with
      | none => .ub .outOfBounds
      | some x => .ok x s

/-- overwrite slot `p` -/
def setSlot (p : Ptr) (x : Option α) : M (St α ω) Unit := fun s =>
  match p.blk with
  | none => .ub .nullDeref
  | some b => match s.blk b with
    | none => .ub .useAfterFree
    | some l => if p.off < l.length then .ok () { s with blk := upd s.blk b (some (l.set p.off x)) }
                else .ub .outOfBounds

/-- ghost: count one relocated element -/
def countMove : M (St α ω) Unit := fun s => .ok () { s with moves := s.moves + 1 }

/-! ### equations -/

theorem getObj_ok {s : St α ω} {i : Id} {o : ω} (h : s.obj i = some o) :
    getObj i s = .ok o s := by simp [getObj, h]
theorem setObj_ok {s : St α ω} {i : Id} {o o' : ω} (h : s.obj i = some o) :
    setObj i o' s = .ok () { s with obj := upd s.obj i (some o') } := by simp [setObj, h]
theorem newObj_ok {s : St α ω} {i : Id} {o : ω} (h : s.obj i = none) :
    newObj i o s = .ok () { s with obj := upd s.obj i (some o) } := by simp [newObj, h]
theorem killObj_ok {s : St α ω} {i : Id} {o : ω} (h : s.obj i = some o) :
    killObj i s = .ok () { s with obj := upd s.obj i none } := by simp [killObj, h]
theorem fallible_ok {s : St α ω} {e : Exc} (h : s.orc s.tick = false) :
    fallible e s = .ok () { s with tick := s.tick + 1 } := by simp [fallible, h]
theorem fallible_exc {s : St α ω} {e : Exc} (h : s.orc s.tick = true) :
    fallible e s = .exc e { s with tick := s.tick + 1 } := by simp [fallible, h]
theorem alloc_ok {s : St α ω} {n : Nat} (h : s.orc s.tick = false) :
    alloc n s = .ok s.nblk { s with
      blk := upd s.blk s.nblk (some (List.replicate n none)), nblk := s.nblk + 1, tick := s.tick + 1 } := by
  simp [alloc, h]
theorem alloc_exc {s : St α ω} {n : Nat} (h : s.orc s.tick = true) :
    alloc n s = .exc .badAlloc { s with tick := s.tick + 1 } := by simp [alloc, h]
theorem slotAt_ok {s : St α ω} {b k : Nat} {l : List (Option α)} {x : Option α}
    (hb : s.blk b = some l) (hk : l[k]? = some x) :
    slotAt ⟨some b, k⟩ s = .ok x s := by simp [slotAt, hb, hk]
theorem setSlot_ok {s : St α ω} {b k : Nat} {l : List (Option α)} {x : Option α}
    (hb : s.blk b = some l) (hk : k < l.length) :
    setSlot ⟨some b, k⟩ x s = .ok () { s with blk := upd s.blk b (some (l.set k x)) } := by
  simp [setSlot, hb, hk]

theorem countMove_ok {s : St α ω} : countMove s = .ok () { s with moves := s.moves + 1 } := rfl

end prims
end Ptl

import Verif.Basic

/-!
# Arrays in memory and pointers into them

The memory that `array_ref`, `string_ref` and the iterators point into: arrays of any size, pointers to their elements and
past their ends, with the rules of the language for pointer arithmetic ([expr.add], [expr.rel]).
-/

namespace Ptl.View

/-- a pointer: null, or to position `off` of array `blk` (`off` = its size: past the end) -/
inductive Ptr where
  | null
  | at (blk : Nat) (off : Int)
  deriving DecidableEq, Repr

/-- an element: position `idx` of array `blk` -/
structure Loc where
  blk : Nat
  idx : Nat
  deriving DecidableEq, Repr

/-- the arrays that exist -/
abbrev Mem (α : Type) := Nat → Option (List α)

variable {σ α : Type}

/-- `p + n`: the result must be within the array or one past its end; `null + 0` is `null` -/
def Ptr.add (m : Mem α) (p : Ptr) (n : Int) : Except Fault Ptr :=
  match p with
  | .null => if n = 0 then .ok .null else .error .nullDeref
  | .at b o =>
    match m b with
    | none => .error .useAfterFree
    | some xs => if 0 ≤ o + n ∧ o + n ≤ xs.length then .ok (.at b (o + n)) else .error .outOfBounds

/-- `p - q`: both into (or past the end of) the same array, or both null -/
def Ptr.sub (m : Mem α) (p q : Ptr) : Except Fault Int :=
  match p, q with
  | .null, .null => .ok 0
  | .at b o, .at b' o' =>
    match m b with
    | none => .error .useAfterFree
    | some _ => if b = b' then .ok (o - o') else .error .badRange
  | _, _ => .error .badRange

/-- `p < q`: specified within the same array (and for equal pointers) -/
def Ptr.less (p q : Ptr) : Except Fault Bool :=
  match p, q with
  | .null, .null => .ok false
  | .at b o, .at b' o' => if b = b' then .ok (o < o') else .error .badRange
  | _, _ => .error .badRange

/-- `*p`: the element -/
def Ptr.deref (m : Mem α) (p : Ptr) : Except Fault Loc :=
  match p with
  | .null => .error .nullDeref
  | .at b o =>
    match m b with
    | none => .error .useAfterFree
    | some xs => if 0 ≤ o ∧ o < xs.length then .ok ⟨b, o.toNat⟩ else .error .outOfBounds

/-- value of an element -/
def Loc.read (m : Mem α) (l : Loc) : Except Fault α :=
  match m l.blk with
  | none => .error .useAfterFree
  | some xs =>
    match xs[l.idx]? with
    | some x => .ok x
    | none => .error .outOfBounds

/-- change an element -/
def Loc.write (m : Mem α) (l : Loc) (v : α) : Except Fault (Mem α) :=
  match m l.blk with
  | none => .error .useAfterFree
  | some xs => if l.idx < xs.length then .ok (upd m l.blk (some (xs.set l.idx v))) else .error .outOfBounds

/-! ### rules -/

variable {m : Mem α} {b : Nat} {xs : List α} {o n : Int}

theorem Ptr.add_at (h : m b = some xs) (h0 : 0 ≤ o + n) (h1 : o + n ≤ xs.length) :
    (Ptr.at b o).add m n = .ok (.at b (o + n)) := by simp [Ptr.add, h, h0, h1]
theorem Ptr.sub_at {o' : Int} (h : m b = some xs) : (Ptr.at b o).sub m (.at b o') = .ok (o - o') := by simp [Ptr.sub, h]
theorem Ptr.deref_at {k : Nat} (h : m b = some xs) (hk : k < xs.length) (ho : o = k) :
    (Ptr.at b o).deref m = .ok ⟨b, k⟩ := by
  subst ho
  have : (0 : Int) ≤ k := Int.natCast_nonneg k
  simp [Ptr.deref, h, hk]

end Ptl.View

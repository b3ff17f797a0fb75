import Verif.View.Model

/-!
# Client programs over arrays and references to parts of them

The calls, how they run in the model, and – independently of the model – what they mean.
-/

namespace Ptl.View

variable {α : Type}

/-- what the client does.  `poke b i v`: assignment to element `i` of array `b` (by its name).  The next group defines (or
assigns) reference `r`: default; from a whole array; from two pointers; from a pointer and a size; from another reference; from
a sub-range of another reference (`first q n`, …); `set r i v`: `r[i] = v`, and so on. -/
inductive Op (α : Type) where
  | alloc (b : Nat) (xs : List α)
  | free (b : Nat)
  | poke (b i : Nat) (v : α)
  | null (r : Nat)
  | range (r b : Nat)
  | ptrs (r b i j : Nat)
  | sized (r b i n : Nat)
  | copy (r q : Nat)
  | first (r q n : Nat)
  | last (r q n : Nat)
  | from_ (r q o : Nat)
  | sub (r q o n : Nat)
  | removePrefix (r n : Nat)
  | removeSuffix (r n : Nat)
  | dtor (r : Nat)
  | set (r i : Nat) (v : α)
  | setAt (r i : Nat) (v : α)
  | setFront (r : Nat) (v : α)
  | setBack (r : Nat) (v : α)

/-- assignment to an element -/
def assign (l : Loc) (v : α) : RM α Unit := fun s =>
  match l.write s.mem v with
  | .ok m => .ok () { s with mem := m }
  | .error e => .ub e

/-- an array comes into existence -/
def alloc (b : Nat) (xs : List α) : RM α Unit := fun s =>
  match s.mem b with
  | some _ => .ub .constructLive
  | none => .ok () { s with mem := upd s.mem b (some xs) }

/-- … and ceases to exist -/
def free (b : Nat) : RM α Unit := fun s =>
  match s.mem b with
  | some _ => .ok () { s with mem := upd s.mem b none }
  | none => .ub .useAfterFree

/-- `std::size` of an array -/
def sizeOf_ (b : Nat) : RM α Nat := fun s =>
  match s.mem b with
  | some xs => .ok xs.length s
  | none => .ub .useAfterFree

/-- the call -/
def Op.run : Op α → RM α Unit
  | .alloc b xs => View.alloc b xs
  | .free b => View.free b
  | .poke b i v => assign ⟨b, i⟩ v
  | .null r => mkNull >>= store r
  | .range r b => do
    let n ← sizeOf_ b
    let x ← mkRange (.at b 0) n
    store r x
  | .ptrs r b i j => mkPtrs (.at b i) (.at b j) >>= store r
  | .sized r b i n => mkSized (.at b i) n >>= store r
  | .copy r q => load q >>= store r
  | .first r q n => do
    let x ← load q
    let y ← View.first x n
    store r y
  | .last r q n => do
    let x ← load q
    let y ← View.last x n
    store r y
  | .from_ r q o => do
    let x ← load q
    let y ← subrangeFrom x o
    store r y
  | .sub r q o n => do
    let x ← load q
    let y ← subrange x o n
    store r y
  | .removePrefix r n => do
    let x ← load r
    let y ← View.removePrefix x n
    store r y
  | .removeSuffix r n => do
    let x ← load r
    let y ← View.removeSuffix x n
    store r y
  | .dtor r => do
    let _ ← load r
    fun s => .ok () { s with ref := upd s.ref r none }
  | .set r i v => do
    let x ← load r
    let l ← index x i
    assign l v
  | .setAt r i v => do
    let x ← load r
    let l ← at_ x i
    assign l v
  | .setFront r v => do
    let x ← load r
    let l ← front x
    assign l v
  | .setBack r v => do
    let x ← load r
    let l ← back x
    assign l v

/-! ### what the calls mean (no reference to the model's functions) -/

/-- what a reference denotes: nothing (a default-constructed one), or `len` elements of array `blk`, from `off` on -/
inductive Seg where
  | nil
  | of (blk off len : Nat)
  deriving DecidableEq, Repr

/-- number of elements -/
def Seg.len : Seg → Nat
  | .nil => 0
  | .of _ _ n => n

/-- `n` elements from offset `o` -/
def Seg.slice : Seg → Nat → Nat → Seg
  | .nil, _, _ => .nil
  | .of b off _, o, n => .of b (off + o) n

/-- what the client knows: the arrays, and what the references denote -/
structure Know (α : Type) where
  M : Nat → Option (List α)
  R : Nat → Option Seg

/-- the part of the array exists -/
def Know.Has (w : Know α) : Seg → Prop
  | .nil => True
  | .of b off n => ∃ xs, w.M b = some xs ∧ off + n ≤ xs.length

/-- the elements a reference denotes -/
def Know.text (w : Know α) : Seg → List α
  | .nil => []
  | .of b off n => match w.M b with
    | some xs => (xs.drop off).take n
    | none => []

/-- `r` denotes `g` from now on -/
def Know.bind (w : Know α) (r : Nat) (g : Seg) : Know α := { w with R := upd w.R r (some g) }

/-- the `i`-th element of what is denoted by `g` gets the value `v` -/
def Know.put (w : Know α) (g : Seg) (i : Nat) (v : α) : Know α :=
  match g with
  | .nil => w
  | .of b off _ => match w.M b with
    | some xs => { w with M := upd w.M b (some (xs.set (off + i) v)) }
    | none => w

/-- `Spec op w x w'`: the call is within its preconditions when `w` is so; it returns (`x = none`) or throws `x`; then `w'`
is so -/
inductive Spec : Op α → Know α → Option Exc → Know α → Prop
  -- an array has at most PTRDIFF_MAX elements
  | alloc {b xs w} : w.M b = none → xs.length ≤ ptrdiffMax → Spec (.alloc b xs) w none { w with M := upd w.M b (some xs) }
  | free {b xs w} : w.M b = some xs → Spec (.free b) w none { w with M := upd w.M b none }
  | poke {b i v xs w} : w.M b = some xs → i < xs.length → Spec (.poke b i v) w none { w with M := upd w.M b (some (xs.set i v)) }
  | null {r w} : Spec (.null r) w none (w.bind r .nil)
  | range {r b xs w} : w.M b = some xs → Spec (.range r b) w none (w.bind r (.of b 0 xs.length))
  | ptrs {r b i j xs w} : w.M b = some xs → i ≤ j → j ≤ xs.length → Spec (.ptrs r b i j) w none (w.bind r (.of b i (j - i)))
  | sized {r b i n xs w} : w.M b = some xs → i + n ≤ xs.length → Spec (.sized r b i n) w none (w.bind r (.of b i n))
  | copy {r q g w} : w.R q = some g → Spec (.copy r q) w none (w.bind r g)
  | first {r q n g w} : w.R q = some g → w.Has g → n ≤ g.len → Spec (.first r q n) w none (w.bind r (g.slice 0 n))
  | last {r q n g w} : w.R q = some g → w.Has g → n ≤ g.len → Spec (.last r q n) w none (w.bind r (g.slice (g.len - n) n))
  | from_ {r q o g w} : w.R q = some g → w.Has g → o ≤ g.len → Spec (.from_ r q o) w none (w.bind r (g.slice o (g.len - o)))
  | sub {r q o n g w} : w.R q = some g → w.Has g → o + n ≤ g.len → Spec (.sub r q o n) w none (w.bind r (g.slice o n))
  | removePrefix {r n g w} : w.R r = some g → w.Has g → n ≤ g.len →
      Spec (.removePrefix r n) w none (w.bind r (g.slice n (g.len - n)))
  | removeSuffix {r n g w} : w.R r = some g → w.Has g → n ≤ g.len →
      Spec (.removeSuffix r n) w none (w.bind r (g.slice 0 (g.len - n)))
  | dtor {r g w} : w.R r = some g → Spec (.dtor r) w none { w with R := upd w.R r none }
  | set {r i v g w} : w.R r = some g → w.Has g → i < g.len → Spec (.set r i v) w none (w.put g i v)
  | setAt {r i v g w} : w.R r = some g → w.Has g → i < g.len → Spec (.setAt r i v) w none (w.put g i v)
  | setAtThrows {r i v g w} : w.R r = some g → w.Has g → g.len ≤ i → Spec (.setAt r i v) w (some .outOfRange) w
  | setFront {r v g w} : w.R r = some g → w.Has g → 0 < g.len → Spec (.setFront r v) w none (w.put g 0 v)
  | setBack {r v g w} : w.R r = some g → w.Has g → 0 < g.len → Spec (.setBack r v) w none (w.put g (g.len - 1) v)

/-- the state at program start -/
def start (α : Type) : St α := ⟨fun _ => none, fun _ => none⟩

/-- `s` is reached from program start by calls within their preconditions; `w` is what is so according to the specification -/
inductive Reach : St α → Know α → Prop
  | start : Reach (start α) ⟨fun _ => none, fun _ => none⟩
  | ok {s s' w w' x op} : Reach s w → Spec op w x w' → op.run s = .ok () s' → Reach s' w'
  | thrown {s s' w w' x e op} : Reach s w → Spec op w x w' → op.run s = .exc e s' → Reach s' w'

/-- the `i`-th element of what is denoted by `g` -/
def Seg.loc : Seg → Nat → Option Loc
  | .nil, _ => none
  | .of b off n, i => if i < n then some ⟨b, off + i⟩ else none

/-- what the client sees of reference `r`: the size; for each index the very element of the array; exceptions beyond; the
characters -/
structure Shows (s : St α) (r : Nat) (g : Seg) (xs : List α) : Prop where
  obj : ∃ x, load r s = .ok x s ∧ size x s = .ok g.len s ∧ empty x s = .ok (decide (g.len = 0)) s ∧
    (∀ i l, g.loc i = some l → index x i s = .ok l s ∧ at_ x i s = .ok l s) ∧
    (∀ l, g.loc 0 = some l → front x s = .ok l s) ∧
    (∀ l, g.loc (g.len - 1) = some l → back x s = .ok l s) ∧
    (∀ i, g.len ≤ i → at_ x i s = .exc .outOfRange s) ∧
    view x s = .ok xs s
  elems : ∀ i l, g.loc i = some l → ∃ v, l.read s.mem = .ok v ∧ xs[i]? = some v
  length : xs.length = g.len

end Ptl.View

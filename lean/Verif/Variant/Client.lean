import Verif.Variant.Model

/-!
# Client programs over variants

The calls a client can make on its variables `0, 1, 2, …`, how each call runs in the model, and – independently of
the model – what it means on tagged values.
-/

namespace Ptl.Variant

variable {τ ν : Type} [DecidableEq τ]

/-- The arguments from which a client constructs an alternative: a value (from a constructor that cannot or can throw),
or a reference to the value of type `T` that variable `j` holds; the constructor yields `f` of it and leaves `g` of it
behind (`f = g = id`: a copy), and throws never (`nt`) or possibly. -/
inductive Src (τ ν : Type) where
  | val (v : ν)
  | thr (v : ν)
  | ref (j : Nat) (T : τ) (f g : ν → ν) (nt : Bool)

/-- Public operations that construct or modify variants. -/
inductive Op (τ ν : Type) where
  | ctorDefault (i : Nat)
  | ctorCopy (i j : Nat)
  | ctorMove (i j : Nat)
  | ctorIndex (i k : Nat) (x : Src τ ν)
  | ctorValue (i : Nat) (T : τ) (x : Src τ ν)
  | dtor (i : Nat)
  | assignCopy (i j : Nat)
  | assignMove (i j : Nat)
  | assignValue (i : Nat) (T : τ) (x : Src τ ν)
  | emplace (i : Nat) (T : τ) (x : Src τ ν)
  | emplaceIndex (i k : Nat) (x : Src τ ν)
  | swap (i j : Nat)
  | write (i : Nat) (T : τ) (v : ν)
  | visit (i : Nat) (f : τ → ν → ν)

/-! ### running a call in the model -/

/-- the arguments the client forms -/
def Src.resolve (ts : List τ) : Src τ ν → VM ν (Arg τ ν)
  | .val v => pure (.val v)
  | .thr v => pure (.thr v false)
  | .ref j T f g nt => do
    let p ← get ts (.var j) T
    pure (.ref p f g nt)

/-- the call, as the client writes it -/
def Op.run (E : Elem τ ν) (ts : List τ) : Op τ ν → VM ν Unit
  | .ctorDefault i => Variant.ctorDefault E ts (.var i)
  | .ctorCopy i j => Variant.ctorCopy E ts (.var i) (.var j)
  | .ctorMove i j => Variant.ctorMove E ts (.var i) (.var j)
  | .ctorIndex i k x => do
    let a ← x.resolve ts
    Variant.ctorIndex ts (.var i) k a
  | .ctorValue i T x => do
    let a ← x.resolve ts
    Variant.ctorValue ts (.var i) T a
  | .dtor i => Variant.dtor ts (.var i)
  | .assignCopy i j => Variant.assignCopy E ts (.var i) (.var j)
  | .assignMove i j => Variant.assignMove E ts (.var i) (.var j)
  | .assignValue i T x => do
    let a ← x.resolve ts
    Variant.assignValue E ts (.var i) T a
  | .emplace i T x => do
    let a ← x.resolve ts
    let _ ← Variant.emplace E ts (.var i) T a
    pure ()
  | .emplaceIndex i k x => do
    let a ← x.resolve ts
    let _ ← Variant.emplaceIndex E ts (.var i) k a
    pure ()
  | .swap i j => Variant.swap E ts (.var i) (.var j)
  | .write i T v => do
    let p ← get ts (.var i) T
    writeAt p v
  | .visit i f => Variant.visit ts (fun _ _ r => r) (.var i) fun p => do
    let v ← readAt p
    writeAt p (f p.ty v)

/-! ### what the calls mean (no reference to the model) -/

/-- the client's variables: `none` = not alive, `some (T, x)` = a variant holding the value `x` of type `T` -/
abbrev Vars (τ ν : Type) := Nat → Option (τ × ν)

/-- `x` delivers the value `v`; taking it turns `V` into `V'` -/
inductive Src.Takes (V : Vars τ ν) : Src τ ν → ν → Vars τ ν → Prop
  | val (v : ν) : Src.Takes V (.val v) v V
  | thr (v : ν) : Src.Takes V (.thr v) v V
  | ref {j : Nat} {T : τ} {x : ν} {f g : ν → ν} {nt : Bool} : V j = some (T, x) →
      Src.Takes V (.ref j T f g nt) (f x) (upd V j (some (T, g x)))

/-- the argument of a non-throwing construction is a reference to the value of variable `i` -/
def Src.Overlaps : Src τ ν → Nat → Prop
  | .ref j _ _ _ nt, i => nt = true ∧ j = i
  | _, _ => False

/-- `Spec E ts op V V'`: the call `op` is within its preconditions when the variables are `V`; on normal return the
variables are `V'`. -/
inductive Spec (E : Elem τ ν) (ts : List τ) : Op τ ν → Vars τ ν → Vars τ ν → Prop
  | ctorDefault {i T rest V} : V i = none → ts = T :: rest → Spec E ts (.ctorDefault i) V (upd V i (some (T, E.dflt T)))
  | ctorCopy {i j T x V} : V i = none → V j = some (T, x) → Spec E ts (.ctorCopy i j) V (upd V i (some (T, x)))
  | ctorMove {i j T x V} : V i = none → V j = some (T, x) →
      Spec E ts (.ctorMove i j) V (upd (upd V i (some (T, x))) j (some (T, E.moved T x)))
  | ctorIndex {i k T x v V V1} : V i = none → ts[k]? = some T → x.Takes V v V1 →
      Spec E ts (.ctorIndex i k x) V (upd V1 i (some (T, v)))
  | ctorValue {i T x v V V1} : V i = none → T ∈ ts → x.Takes V v V1 →
      Spec E ts (.ctorValue i T x) V (upd V1 i (some (T, v)))
  | dtor {i T x V} : V i = some (T, x) → Spec E ts (.dtor i) V (upd V i none)
  | assignCopy {i j T T' x y V} : V i = some (T, x) → V j = some (T', y) →
      Spec E ts (.assignCopy i j) V (upd V i (some (T', y)))
  | assignMove {i j T T' x y V} : V i = some (T, x) → V j = some (T', y) → i ≠ j →
      Spec E ts (.assignMove i j) V (upd (upd V i (some (T', y))) j (some (T', E.moved T' y)))
  | assignMoveSelf {i T x V} : V i = some (T, x) → Spec E ts (.assignMove i i) V V
  | assignValue {i T T' x y v V V1} : V i = some (T', y) → T ∈ ts → x.Takes V v V1 →
      Spec E ts (.assignValue i T x) V (upd V1 i (some (T, v)))
  | emplace {i T T' x y v V V1} : V i = some (T', y) → T ∈ ts → x.Takes V v V1 → ¬ x.Overlaps i →
      Spec E ts (.emplace i T x) V (upd V1 i (some (T, v)))
  | emplaceIndex {i k T T' x y v V V1} : V i = some (T', y) → ts[k]? = some T → x.Takes V v V1 → ¬ x.Overlaps i →
      Spec E ts (.emplaceIndex i k x) V (upd V1 i (some (T, v)))
  | swap {i j T T' x y V} : V i = some (T, x) → V j = some (T', y) →
      Spec E ts (.swap i j) V (upd (upd V i (some (T', y))) j (some (T, x)))
  | write {i T x v V} : V i = some (T, x) → Spec E ts (.write i T v) V (upd V i (some (T, v)))
  | visit {i T x f V} : V i = some (T, x) → Spec E ts (.visit i f) V (upd V i (some (T, f T x)))

/-- what `variant` demands of its list of alternatives: not empty, at most 254, no duplicates -/
structure Alts (ts : List τ) : Prop where
  nonempty : ts ≠ []
  short : ts.length ≤ 254
  nodup : ts.Nodup

/-- for every alternative, `T{x}` is a copy of (or moves) an `x` of type `T`, and moving does not throw -/
structure Elem.Plain (E : Elem τ ν) : Prop where
  braced : ∀ T x, E.braced T x = x
  nothrow : ∀ T, E.moveThrows T = false

/-! ### histories -/

/-- the state at program start; `orc` decides which fallible constructions will throw -/
def start (ν : Type) (orc : Nat → Bool) : St ν :=
  { obj := fun _ => none, part := fun _ => [], ntmp := 0, orc := orc, tick := 0 }

/-- `s` is reached from program start by calls within their preconditions, and `V` is what the specification says the
variables are.  A call may return normally or throw; a client that catches the exception carries on. -/
inductive Reach (E : Elem τ ν) (ts : List τ) : St ν → Vars τ ν → Prop
  | start (orc : Nat → Bool) : Reach E ts (start ν orc) (fun _ => none)
  | ok {s s' : St ν} {V V' : Vars τ ν} {op : Op τ ν} :
      Reach E ts s V → Spec E ts op V V' → op.run E ts s = .ok () s' → Reach E ts s' V'
  | thrown {s s' : St ν} {V V' : Vars τ ν} {op : Op τ ν} {e : Exc} :
      Reach E ts s V → Spec E ts op V V' → op.run E ts s = .exc e s' → Reach E ts s' V

/-- what the client sees of variable `i`: the alternative `T` and only it is held, `get<T>()` is an object with value
`x`, and visiting calls the visitor on that object -/
structure Shows (ts : List τ) (s : St ν) (i : Nat) (T : τ) (x : ν) : Prop where
  holds : ∀ T' ∈ ts, Variant.holds ts (.var i) T' s = .ok (decide (T' = T)) s
  get : ∃ p, Variant.get ts (.var i) T s = .ok p s ∧ readAt p s = .ok x s ∧
    ∀ (β : Type) (vis : Ptr τ → VM ν β), Variant.visit ts (fun _ _ r => r) (.var i) vis s = vis p s

end Ptl.Variant

import Verif.Optional.Model

/-!
# Client programs over optionals

The calls a client can make on its optionals `0, 1, 2, …`, how each call runs in the model, and – independently of the
model – what it means on values of type `Option α`.
-/

namespace Ptl.Optional

variable {α : Type}

/-- Public operations that construct or modify optionals.  An argument of type `const Type &` or `Type &&` is an outside
object or the value inside an optional. -/
inductive Op (α : Type) where
  | ctorNull (i : Nat)
  | ctorCopy (i j : Nat)
  | ctorMove (i j : Nat)
  | ctorFrom (i : Nat) (x : Src α)
  | ctorFromMove (i : Nat) (x : Src α)
  | ctorInPlace (i : Nat) (a : Args α)
  | dtor (i : Nat)
  | assignNull (i : Nat)
  | assignCopy (i j : Nat)
  | assignMove (i j : Nat)
  | assignFrom (i : Nat) (x : Src α)
  | assignFromMove (i : Nat) (x : Src α)
  | reset (i : Nat)
  | emplace (i : Nat) (a : Args α)
  | swap (i j : Nat)
  | write (i : Nat) (v : α)
  | writeValue (i : Nat) (v : α)
  | takeValueOr (i : Nat) (a : Args α)
  | getValueOr (i : Nat) (a : Args α)

/-- the call, as the client writes it; `write`: `*o = v` where the client knows that there is a value; `writeValue`:
`o.value() = v`; `takeValueOr`, `getValueOr`: `std::move(o).value_or(a)`, `o.value_or(a)` with the result ignored -/
def Op.run (E : Elem α) : Op α → OM α Unit
  | .ctorNull i => Optional.ctorNull i
  | .ctorCopy i j => Optional.ctorCopy E i j
  | .ctorMove i j => Optional.ctorMove E i j
  | .ctorFrom i x => Optional.ctorFrom E i x
  | .ctorFromMove i x => Optional.ctorFromMove E i x
  | .ctorInPlace i a => Optional.ctorInPlace i a
  | .dtor i => Optional.dtor i
  | .assignNull i => Optional.assignNull i
  | .assignCopy i j => Optional.assignCopy E i j
  | .assignMove i j => Optional.assignMove E i j
  | .assignFrom i x => Optional.assignFrom E i x
  | .assignFromMove i x => Optional.assignFromMove E i x
  | .reset i => Optional.reset i
  | .emplace i a => do
    let _ ← Optional.emplace E i a
    pure ()
  | .swap i j => Optional.swap E i j
  | .write i v => do
    let p ← deref i
    writeVal p v
  | .writeValue i v => do
    let p ← value i
    writeVal p v
  | .takeValueOr i a => do
    let _ ← valueOrMove E i a
    pure ()
  | .getValueOr i a => do
    let _ ← valueOr i a
    pure ()

/-! ### what the calls mean (no reference to the model) -/

/-- the client's optionals: `none` = not alive, `some none` = empty, `some (some x)` = holding `x` -/
abbrev Vars (α : Type) := Nat → Option (Option α)

/-- the argument `x` has the value `v` -/
def Src.Has (V : Vars α) : Src α → α → Prop
  | .ext w, v => w = v
  | .own j, v => V j = some (some v)

/-- `x` after a function that leaves `f` of its value behind -/
def Src.left (V : Vars α) (f : α → α) : Src α → Vars α
  | .ext _ => V
  | .own j => upd V j ((V j).map (Option.map f))

/-- the constructor called with `a` delivers `v`, turning `V` into `V'` -/
inductive Args.Gives (V : Vars α) : Args α → α → Vars α → Prop
  | val (v : α) : Args.Gives V (.val v) v V
  | thr (v : α) : Args.Gives V (.thr v) v V
  | ref {j : Nat} {x : α} {f g : α → α} {nt : Bool} : V j = some (some x) →
      Args.Gives V (.ref j f g nt) (f x) (upd V j (some (some (g x))))

/-- the value that assigning `std::move(x)` to the value `old` inside optional `i` results in; `own i` is a self-assignment -/
def Src.overwrites (E : Elem α) (i : Nat) (v : α) : Src α → α
  | .ext _ => v
  | .own j => if j = i then E.selfMove v else v

/-- `Spec E op V V'`: the call `op` is within its preconditions when the optionals are `V`; on normal return they are `V'` -/
inductive Spec (E : Elem α) : Op α → Vars α → Vars α → Prop
  | ctorNull {i V} : V i = none → Spec E (.ctorNull i) V (upd V i (some none))
  | ctorCopy {i j o V} : V i = none → V j = some o → Spec E (.ctorCopy i j) V (upd V i (some o))
  | ctorMove {i j o V} : V i = none → V j = some o →
      Spec E (.ctorMove i j) V (upd (upd V j (some (o.map E.moved))) i (some o))
  | ctorFrom {i x v V} : V i = none → x.Has V v → Spec E (.ctorFrom i x) V (upd V i (some (some v)))
  | ctorFromMove {i x v V} : V i = none → x.Has V v →
      Spec E (.ctorFromMove i x) V (upd (x.left V E.moved) i (some (some v)))
  | ctorInPlace {i a v V V1} : V i = none → a.Gives V v V1 → Spec E (.ctorInPlace i a) V (upd V1 i (some (some v)))
  | dtor {i o V} : V i = some o → Spec E (.dtor i) V (upd V i none)
  | assignNull {i o V} : V i = some o → Spec E (.assignNull i) V (upd V i (some none))
  | assignCopy {i j o o' V} : V i = some o → V j = some o' → Spec E (.assignCopy i j) V (upd V i (some o'))
  | assignMoveSelf {i o V} : V i = some o → Spec E (.assignMove i i) V V
  | assignMove {i j o o' V} : i ≠ j → V i = some o → V j = some o' →
      Spec E (.assignMove i j) V
        (upd (upd V j (some (o'.map (if o.isSome then E.movedAssign else E.moved)))) i (some o'))
  | assignFrom {i x o v V} : V i = some o → x.Has V v → Spec E (.assignFrom i x) V (upd V i (some (some v)))
  | assignFromMove {i x o v V} : V i = some o → x.Has V v →
      Spec E (.assignFromMove i x) V
        (upd (x.left V (if o.isSome then E.movedAssign else E.moved)) i (some (some (x.overwrites E i v))))
  | reset {i o V} : V i = some o → Spec E (.reset i) V (upd V i (some none))
  | emplace {i a o v V V1} : V i = some o → a.Gives V v V1 → Spec E (.emplace i a) V (upd V1 i (some (some v)))
  | swap {i j o o' V} : V i = some o → V j = some o' → Spec E (.swap i j) V (upd (upd V i (some o')) j (some o))
  | write {i x v V} : V i = some (some x) → Spec E (.write i v) V (upd V i (some (some v)))
  | writeValue {i x v V} : V i = some (some x) → Spec E (.writeValue i v) V (upd V i (some (some v)))
  | takeValueOr {i a x V} : V i = some (some x) → Spec E (.takeValueOr i a) V (upd V i (some (some (E.moved x))))
  | takeDefault {i a v V V1} : V i = some none → a.Gives V v V1 → Spec E (.takeValueOr i a) V V1
  | getValueOr {i a x V} : V i = some (some x) → Spec E (.getValueOr i a) V V
  | getDefault {i a v V V1} : V i = some none → a.Gives V v V1 → Spec E (.getValueOr i a) V V1

/-- `Torn E op V V'`: what the optionals are if the call throws.  Everything is as before, except if the copy assignment
operator of `Type` throws: then the optional still has a value, the one that operator left. -/
inductive Torn (E : Elem α) : Op α → Vars α → Vars α → Prop
  | same {op V} : (∀ i j, op ≠ .assignCopy i j) → (∀ i x, op ≠ .assignFrom i x) → Torn E op V V
  | copyEmpty {i j V} : V i = some none → Torn E (.assignCopy i j) V V
  | copyFull {i j x y V} : V i = some (some x) → V j = some (some y) →
      Torn E (.assignCopy i j) V (upd V i (some (some (E.torn x y))))
  | fromEmpty {i x V} : V i = some none → Torn E (.assignFrom i x) V V
  | fromFull {i x v w V} : V i = some (some v) → x.Has V w →
      Torn E (.assignFrom i x) V (upd V i (some (some (E.torn v w))))

/-- `Type{x}` is a copy of (or moves) an `x` of type `Type`, and moving does not throw -/
structure Elem.Plain (E : Elem α) : Prop where
  braced : ∀ x, E.braced x = x
  nothrow : E.moveThrows = false

/-! ### histories -/

/-- the state at program start; `orc` decides which fallible operations on values will throw -/
def start (α : Type) (orc : Nat → Bool) : St α := { obj := fun _ => none, born := fun _ => 0, orc := orc, tick := 0 }

/-- `s` is reached from program start by calls within their preconditions, and `V` is what the specification says the
optionals are.  A client that catches an exception carries on. -/
inductive Reach (E : Elem α) : St α → Vars α → Prop
  | start (orc : Nat → Bool) : Reach E (start α orc) (fun _ => none)
  | ok {s s' : St α} {V V' : Vars α} {op : Op α} :
      Reach E s V → Spec E op V V' → op.run E s = .ok () s' → Reach E s' V'
  | thrown {s s' : St α} {V V' V'' : Vars α} {op : Op α} {e : Exc} :
      Reach E s V → Spec E op V V' → op.run E s = .exc e s' → Torn E op V V'' → Reach E s' V''

/-- what the client sees of optional `i` -/
inductive Shows (s : St α) (i : Nat) : Option α → Prop
  | empty : hasValue i s = .ok false s → value i s = .exc .badOptionalAccess s → Shows s i none
  | full {x : α} {p : Nat} : hasValue i s = .ok true s → value i s = .ok p s → deref i s = .ok p s →
      readVal p s = .ok x s → Shows s i (some x)

end Ptl.Optional

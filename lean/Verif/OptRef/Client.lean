import Verif.OptRef.Model
import Verif.Optional.Hist

/-!
# Client programs over optionals, plain objects and references to them

The calls, how they run in the model, and – independently of the model – what they mean.
-/

namespace Ptl.OptRef

variable {α : Type}

/-- what the client does; `opt` is any operation on optionals -/
inductive Op (α : Type) where
  | opt (op : Optional.Op α)
  | newObj (k : Nat) (v : α)
  | setObj (k : Nat) (v : α)
  | killObj (k : Nat)
  | ctorNull (r : Nat)
  | ctorObj (r : Nat) (l : Loc)
  | ctorFrom (r : Nat) (op : Src)
  | ctorCopy (r q : Nat)
  | assign (r q : Nat)
  | dtor (r : Nat)
  | write (r : Nat) (v : α)
  | writeValue (r : Nat) (v : α)
  | valueOr (r : Nat) (a : Optional.Args α)

/-- the call; `setObj`: an assignment to a plain object; `write`: `*r = v`; `writeValue`: `r.value() = v`; `valueOr`: with
the result ignored -/
def Op.run (E : Optional.Elem α) : Op α → RM α Unit
  | .opt op => onOpt (op.run E)
  | .newObj k v => OptRef.newObj k v
  | .setObj k v => writeLoc (.plain k) v
  | .killObj k => OptRef.killObj k
  | .ctorNull r => OptRef.ctorNull r
  | .ctorObj r l => OptRef.ctorObj r l
  | .ctorFrom r op => OptRef.ctorFrom r op
  | .ctorCopy r q => OptRef.ctorCopy r q
  | .assign r q => OptRef.assign r q
  | .dtor r => OptRef.dtor r
  | .write r v => do
    let l ← deref r
    writeLoc l v
  | .writeValue r v => do
    let l ← value r
    writeLoc l v
  | .valueOr r a => do
    let _ ← OptRef.valueOr r a
    pure ()

/-! ### what the calls mean (no reference to the model's functions) -/

/-- what the client knows: the optionals, the plain objects, and which object (if any) each reference refers to -/
structure View (α : Type) where
  V : Optional.Vars α
  P : Nat → Option α
  R : Nat → Option (Option Loc)

/-- the value of the object at a location -/
def View.at (w : View α) : Loc → Option α
  | .plain k => w.P k
  | .inOpt i => (w.V i).bind id

/-- … changed -/
def View.put (w : View α) : Loc → α → View α
  | .plain k, v => { w with P := upd w.P k (some v) }
  | .inOpt i, v => { w with V := upd w.V i (some (some v)) }

/-- the object that something optional has, if it has one -/
inductive Src.Means (w : View α) : Src → Option Loc → Prop
  | full {i x} : w.V i = some (some x) → Means w (.opt i) (some (.inOpt i))
  | empty {i} : w.V i = some none → Means w (.opt i) none
  | ref {q p} : w.R q = some p → Means w (.ref q) p
  | ptr (p) : Means w (.ptr p) p

/-- `Spec E op w w'`: the call is within its preconditions when the client's view is `w`; afterwards it is `w'` -/
inductive Spec (E : Optional.Elem α) : Op α → View α → View α → Prop
  | opt {op V' w} : Optional.Spec E op w.V V' → Spec E (.opt op) w { w with V := V' }
  | newObj {k v w} : w.P k = none → Spec E (.newObj k v) w { w with P := upd w.P k (some v) }
  | setObj {k v x w} : w.P k = some x → Spec E (.setObj k v) w { w with P := upd w.P k (some v) }
  | killObj {k x w} : w.P k = some x → Spec E (.killObj k) w { w with P := upd w.P k none }
  | ctorNull {r w} : w.R r = none → Spec E (.ctorNull r) w { w with R := upd w.R r (some none) }
  | ctorObj {r l x w} : w.R r = none → w.at l = some x → Spec E (.ctorObj r l) w { w with R := upd w.R r (some (some l)) }
  | ctorFrom {r op p w} : w.R r = none → op.Means w p → Spec E (.ctorFrom r op) w { w with R := upd w.R r (some p) }
  | ctorCopy {r q p w} : w.R r = none → w.R q = some p → Spec E (.ctorCopy r q) w { w with R := upd w.R r (some p) }
  | assign {r q p p' w} : w.R r = some p' → w.R q = some p → Spec E (.assign r q) w { w with R := upd w.R r (some p) }
  | dtor {r p w} : w.R r = some p → Spec E (.dtor r) w { w with R := upd w.R r none }
  | write {r l v x w} : w.R r = some (some l) → w.at l = some x → Spec E (.write r v) w (w.put l v)
  | writeValue {r l v x w} : w.R r = some (some l) → w.at l = some x → Spec E (.writeValue r v) w (w.put l v)
  | valueOr {r l a x w} : w.R r = some (some l) → w.at l = some x → Spec E (.valueOr r a) w w
  | valueOrDefault {r a v V' w} : w.R r = some none → a.Gives w.V v V' → Spec E (.valueOr r a) w { w with V := V' }

/-- what the client's view is if the call throws -/
inductive Torn (E : Optional.Elem α) : Op α → View α → View α → Prop
  | opt {op V' w} : Optional.Torn E op w.V V' → Torn E (.opt op) w { w with V := V' }
  | same {op w} : (∀ o, op ≠ .opt o) → Torn E op w w

/-- the state at program start -/
def start (α : Type) (orc : Nat → Bool) : St α := { opt := Optional.start α orc, obj := fun _ => none, ref := fun _ => none }

/-- `s` is reached from program start by calls within their preconditions; `w` is what is so according to the specification -/
inductive Reach (E : Optional.Elem α) : St α → View α → Prop
  | start (orc : Nat → Bool) : Reach E (start α orc) ⟨fun _ => none, fun _ => none, fun _ => none⟩
  | ok {s s' w w' op} : Reach E s w → Spec E op w w' → op.run E s = .ok () s' → Reach E s' w'
  | thrown {s s' w w' w'' op e} : Reach E s w → Spec E op w w' → op.run E s = .exc e s' → Torn E op w w'' → Reach E s' w''

/-- what the client sees of reference `r`: that it refers to nothing, or the object it refers to -/
inductive Shows (s : St α) (r : Nat) : Option Loc → Prop
  | empty : hasValue r s = .ok false s → value r s = .exc .badOptionalAccess s → Shows s r none
  | full {l} : hasValue r s = .ok true s → value r s = .ok l s → deref r s = .ok l s → Shows s r (some l)

end Ptl.OptRef

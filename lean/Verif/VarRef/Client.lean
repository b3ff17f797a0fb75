import Verif.VarRef.Model

/-!
# Client programs over objects and references to them

The calls, how they run in the model, and – independently of the model – what they mean.
-/

namespace Ptl.VarRef

variable {τ ν : Type} [DecidableEq τ]

/-- what the client does.  `ctor r e p`: `variant_ref r{expr};` with an expression (with type and value category `e`) that
names object `p`; `write`: `r.get<T>() = v`; `writeIf`: `if(auto p = r.get_if<T>()) *p = v;` `visitWrite`: visit with a
visitor that assigns `f U` of the old value to the object, if `U` is not const -/
inductive Op (τ ν : Type) where
  | newObj (k : Nat) (T : CT τ) (v : ν)
  | setObj (k : Nat) (v : ν)
  | killObj (k : Nat)
  | ctor (r : Nat) (e : Expr τ) (p : Nat)
  | ctorCopy (r q : Nat)
  | assign (r q : Nat)
  | dtor (r : Nat)
  | write (r : Nat) (T : CT τ) (v : ν)
  | writeIf (r : Nat) (T : CT τ) (v : ν)
  | visitWrite (r : Nat) (f : τ → ν → ν)

/-- assignment to an object by its name -/
def setObj (k : Nat) (v : ν) : RM τ ν Unit := fun s =>
  match s.obj k with
  | some b => writePtr b.ty k v s
  | none => .ub .deadObject

/-- the call -/
def Op.run (ts : List (CT τ)) : Op τ ν → RM τ ν Unit
  | .newObj k T v => VarRef.newObj k T v
  | .setObj k v => VarRef.setObj k v
  | .killObj k => VarRef.killObj k
  | .ctor r e p => VarRef.ctor ts r e p
  | .ctorCopy r q => VarRef.ctorCopy ts r q
  | .assign r q => VarRef.assign ts r q
  | .dtor r => VarRef.dtor r
  | .write r T v => do
    let p ← get ts T r
    writePtr T p v
  | .writeIf r T v => do
    let p ← getIf ts T r
    match p with
    | some p => writePtr T p v
    | none => pure ()
  | .visitWrite r f => visit ts (fun _ _ b => b) r fun U p =>
      if U.const then pure () else do
        let v ← readPtr U p
        writePtr U p (f U.base v)

/-! ### what the calls mean (no reference to the model's functions) -/

/-- the alternatives: at least one, no two the same -/
structure Alts (ts : List (CT τ)) : Prop where
  nonempty : ts ≠ []
  nodup : ts.Nodup

/-- which alternative an expression binds to: an lvalue to the alternative of exactly its type if there is one; otherwise,
and for all rvalues, to the const alternative -/
inductive Binds (ts : List (CT τ)) (e : Expr τ) : CT τ → Prop
  | exact : e.lval = true → ⟨e.base, e.const⟩ ∈ ts → Binds ts e ⟨e.base, e.const⟩
  | toConst : (e.lval = false ∨ ⟨e.base, e.const⟩ ∉ ts) → ⟨e.base, true⟩ ∈ ts → Binds ts e ⟨e.base, true⟩

/-- what the client knows: the objects, and for each reference the alternative and the object it refers to -/
structure View (τ ν : Type) where
  P : Nat → Option (Ob τ ν)
  R : Nat → Option (CT τ × Nat)

/-- the view after object `k` got the value `v` -/
def View.put (w : View τ ν) (k : Nat) (b : Ob τ ν) (v : ν) : View τ ν :=
  { w with P := upd w.P k (some { b with val := v }) }

/-- `Spec ts op w e w'`: the call is within its preconditions when the client's view is `w`; it returns (`e = none`) or
throws `e`; afterwards the view is `w'` -/
inductive Spec (ts : List (CT τ)) : Op τ ν → View τ ν → Option Exc → View τ ν → Prop
  | newObj {k T v w} : w.P k = none → Spec ts (.newObj k T v) w none { w with P := upd w.P k (some ⟨T, v, true⟩) }
  | setObj {k v b w} : w.P k = some b → b.alive = true → b.ty.const = false → Spec ts (.setObj k v) w none (w.put k b v)
  | killObj {k b w} : w.P k = some b → b.alive = true →
      Spec ts (.killObj k) w none { w with P := upd w.P k (some { b with alive := false }) }
  -- a const object can only be named by a const expression
  | ctor {r e p b T w} : w.R r = none → w.P p = some b → b.alive = true → b.ty.base = e.base →
      (b.ty.const = true → e.const = true) → Binds ts e T → Spec ts (.ctor r e p) w none { w with R := upd w.R r (some (T, p)) }
  -- references to destroyed objects cannot be copied
  | ctorCopy {r q T p b w} : w.R r = none → w.R q = some (T, p) → w.P p = some b → b.alive = true →
      Spec ts (.ctorCopy r q) w none { w with R := upd w.R r (some (T, p)) }
  | assign {r q T T' p p' b w} : w.R r = some (T', p') → w.R q = some (T, p) → w.P p = some b → b.alive = true →
      Spec ts (.assign r q) w none { w with R := upd w.R r (some (T, p)) }
  | dtor {r x w} : w.R r = some x → Spec ts (.dtor r) w none { w with R := upd w.R r none }
  | write {r T p b v w} : w.R r = some (T, p) → T.const = false → w.P p = some b → b.alive = true →
      Spec ts (.write r T v) w none (w.put p b v)
  | writeOther {r T T' p v w} : w.R r = some (T', p) → T ∈ ts → T ≠ T' →
      Spec ts (.write r T v) w (some .badVariantAccess) w
  | writeIf {r T p b v w} : w.R r = some (T, p) → T.const = false → w.P p = some b → b.alive = true →
      Spec ts (.writeIf r T v) w none (w.put p b v)
  | writeIfOther {r T T' p v w} : w.R r = some (T', p) → T ∈ ts → T ≠ T' → Spec ts (.writeIf r T v) w none w
  | visitWrite {r T p b f w} : w.R r = some (T, p) → T.const = false → w.P p = some b → b.alive = true →
      Spec ts (.visitWrite r f) w none (w.put p b (f T.base b.val))
  | visitConst {r T p b f w} : w.R r = some (T, p) → T.const = true → w.P p = some b → b.alive = true →
      Spec ts (.visitWrite r f) w none w

/-- the state at program start -/
def start (τ ν : Type) : St τ ν := ⟨fun _ => none, fun _ => none⟩

/-- `s` is reached from program start by calls within their preconditions; `w` is what is so according to the specification -/
inductive Reach (ts : List (CT τ)) : St τ ν → View τ ν → Prop
  | start : Reach ts (start τ ν) ⟨fun _ => none, fun _ => none⟩
  | ok {s s' w w' e op} : Reach ts s w → Spec ts op w e w' → op.run ts s = .ok () s' → Reach ts s' w'
  | thrown {s s' w w' e x op} : Reach ts s w → Spec ts op w e w' → op.run ts s = .exc x s' → Reach ts s' w'

/-- what the client sees of reference `r`: which alternative it is, and the object; for every alternative -/
structure Shows (ts : List (CT τ)) (s : St τ ν) (r : Nat) (T : CT τ) (p : Nat) : Prop where
  holds : holds ts T r s = .ok true s
  getIf : getIf ts T r s = .ok (some p) s
  get : get ts T r s = .ok p s
  other : ∀ T' ∈ ts, T' ≠ T → VarRef.holds ts T' r s = .ok false s ∧ VarRef.getIf ts T' r s = .ok none s ∧
    VarRef.get ts T' r s = .exc .badVariantAccess s

end Ptl.VarRef

import Verif.Tuple.Model

/-!
# Client programs over tuples

The calls, how they run in the model, and – independently of the model – what they mean.
-/

namespace Ptl.Tuple

open View (Loc)
open Arr (St AM readLoc writeLoc)

variable {ν : Type} (ts : List (Elem ν))

/-- what the client does; `set i k v`: `get<k>(i) = v` -/
inductive Op (ν : Type) where
  | ctor (i : Nat) (args : List (Arg ν))
  | ctorCopy (i j : Nat)
  | ctorMove (i j : Nat)
  | dtor (i : Nat)
  | assignCopy (i j : Nat)
  | assignMove (i j : Nat)
  | swap (i j : Nat)
  | set (i k : Nat) (v : ν)

/-- the call -/
def Op.run : Op ν → AM ν Unit
  | .ctor i args => Tuple.ctor ts i args
  | .ctorCopy i j => Tuple.ctorCopy ts i j
  | .ctorMove i j => Tuple.ctorMove ts i j
  | .dtor i => Tuple.dtor i
  | .assignCopy i j => Tuple.assignCopy ts i j
  | .assignMove i j => Tuple.assignMove ts i j
  | .swap i j => Tuple.swap ts i j
  | .set i k v => do
    let l ← get ts i k
    writeLoc l v

/-! ### what the calls mean (no reference to the model's functions) -/

/-- the tuples that exist, and their elements -/
abbrev Vars (ν : Type) := Nat → Option (List ν)

/-- constructing an element of type `T` from an argument gives the value `v` and turns `V` into `V'` (rvalues are moved from) -/
inductive Takes1 (T : Elem ν) : Arg ν → Vars ν → ν → Vars ν → Prop
  | val {v V} : Takes1 T (.val v) V (T.init v) V
  | elem {j k v ys V} : V j = some ys → ys[k]? = some v → Takes1 T (.elem j k) V (T.init v) V
  | mv {j k v ys V} : V j = some ys → ys[k]? = some v →
      Takes1 T (.mv j k) V (T.init v) (upd V j (some (ys.set k (T.moved v))))

/-- constructing the elements, the last one first -/
inductive Takes : List (Elem ν) → List (Arg ν) → Vars ν → List ν → Vars ν → Prop
  | nil {V} : Takes [] [] V [] V
  | cons {T ts a as V v vs V' V''} : Takes ts as V vs V' → Takes1 T a V' v V'' → Takes (T :: ts) (a :: as) V (v :: vs) V''

/-- `Spec op V x V'`: the call is within its preconditions when the tuples are `V`; it returns (`x = none`) or throws `x`; then
the tuples are `V'` -/
inductive Spec : Op ν → Vars ν → Option Exc → Vars ν → Prop
  | ctor {i args V vs V'} : V i = none → Takes ts args V vs V' → Spec (.ctor i args) V none (upd V' i (some vs))
  /-- the construction of element `n - 1` threw: there is no tuple; the rvalues behind may have been moved from -/
  | ctorThrows {i args n V vs V' vs' V''} : V i = none → Takes ts args V vs V' → Takes (ts.drop n) (args.drop n) V vs' V'' →
      Spec (.ctor i args) V (some .user) V''
  | ctorCopy {i j ys V} : V i = none → V j = some ys → Spec (.ctorCopy i j) V none (upd V i (some ys))
  | ctorCopyThrows {i j ys V} : V i = none → V j = some ys → Spec (.ctorCopy i j) V (some .user) V
  | ctorMove {i j ys V} : V i = none → V j = some ys →
      Spec (.ctorMove i j) V none (upd (upd V j (some (List.zipWith (fun T y => T.moved y) ts ys))) i (some ys))
  | dtor {i xs V} : V i = some xs → Spec (.dtor i) V none (upd V i none)
  | assignCopy {i j xs ys V} : V i = some xs → V j = some ys → Spec (.assignCopy i j) V none (upd V i (some ys))
  /-- the assignment of element `k` threw: those behind have been assigned, those before not -/
  | assignCopyThrows {i j k T x y xs ys V} : V i = some xs → V j = some ys → ts[k]? = some T → xs[k]? = some x → ys[k]? = some y →
      Spec (.assignCopy i j) V (some .user) (upd V i (some (xs.take k ++ T.torn x y :: ys.drop (k + 1))))
  | assignMove {i j xs ys V} : i ≠ j → V i = some xs → V j = some ys →
      Spec (.assignMove i j) V none (upd (upd V i (some ys)) j (some (List.zipWith (fun T y => T.moved y) ts ys)))
  | assignMoveSelf {i xs V} : V i = some xs →
      Spec (.assignMove i i) V none (upd V i (some (List.zipWith (fun T x => T.selfMove x) ts xs)))
  | swap {i j xs ys V} : V i = some xs → V j = some ys → Spec (.swap i j) V none (upd (upd V i (some ys)) j (some xs))
  | set {i k v xs V} : V i = some xs → k < ts.length → Spec (.set i k v) V none (upd V i (some (xs.set k v)))

/-- the call is within its preconditions -/
def Pre (op : Op ν) (V : Vars ν) : Prop := ∃ x V', Spec ts op V x V'

/-- the state at program start -/
def start (orc : Nat → Bool) : St ν := ⟨fun _ => none, orc, 0⟩

/-- `s` is reached from program start by calls within their preconditions; `V` is what the tuples are according to the
specification -/
inductive Reach : St ν → Vars ν → Prop
  | start (orc) : Reach (start orc) (fun _ => none)
  | ok {s s' V V' op} : Reach s V → Spec ts op V none V' → op.run ts s = .ok () s' → Reach s' V'
  | thrown {s s' V V' e op} : Reach s V → Spec ts op V (some e) V' → op.run ts s = .exc e s' → s'.mem = V' → Reach s' V'

/-- what the client sees of tuple `i` -/
structure Shows (s : St ν) (i : Nat) (xs : List ν) : Prop where
  length : xs.length = tupleSize ts
  get : ∀ k, k < xs.length → Tuple.get ts i k s = .ok ⟨i, k⟩ s
  value : ∀ k v, xs[k]? = some v → readLoc ⟨i, k⟩ s = .ok v s

/-- `xs` is before `ys`: `xs` has the smaller element at some position, and the elements before are equivalent -/
def Before (xs ys : List ν) : Prop :=
  ∃ k T x y, ts[k]? = some T ∧ xs[k]? = some x ∧ ys[k]? = some y ∧ T.lt x y = true ∧
    ∀ (k' : Nat) (T : Elem ν) (x y : ν), k' < k → ts[k']? = some T → xs[k']? = some x → ys[k']? = some y →
      T.lt x y = false ∧ T.lt y x = false

end Ptl.Tuple

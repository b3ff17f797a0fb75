import Verif.Arr.Model

/-!
# Client programs over arrays

The calls, how they run in the model, and – independently of the model – what they mean.
-/

namespace Ptl.Arr

open View (Loc)

variable {α : Type} (E : Elem α) (N : Nat)

/-- what the client does.  `set… i … v`: assignment of a value to an element, found in one of the ways there are. -/
inductive Op (α : Type) where
  | ctor (i : Nat) (args : List (Arg α))
  | ctorCopy (i j : Nat)
  | ctorMove (i j : Nat)
  | dtor (i : Nat)
  | assignCopy (i j : Nat)
  | assignMove (i j : Nat)
  | fill (i : Nat) (a : Arg α)
  | swap (i j : Nat)
  | setIndex (i k : Nat) (v : α)
  | setAt (i k : Nat) (v : α)
  | setGet (i k : Nat) (v : α)
  | setFront (i : Nat) (v : α)
  | setBack (i : Nat) (v : α)
  | setIter (i : Nat) (k : Int) (v : α)

/-- `begin()[k]` -/
def iterAt (i : Nat) (k : Int) : AM α Loc := do
  let b ← begin_ N i
  onMem (Iter.index · b k)

/-- the call -/
def Op.run : Op α → AM α Unit
  | .ctor i args => Arr.ctor E N i args
  | .ctorCopy i j => Arr.ctorCopy E N i j
  | .ctorMove i j => Arr.ctorMove E N i j
  | .dtor i => Arr.dtor i
  | .assignCopy i j => Arr.assignCopy E N i j
  | .assignMove i j => Arr.assignMove E N i j
  | .fill i a => Arr.fill E N i a
  | .swap i j => Arr.swap N i j
  | .setIndex i k v => do
    let l ← index N i k
    writeLoc l v
  | .setAt i k v => do
    let l ← at_ N i k
    writeLoc l v
  | .setGet i k v => do
    let l ← get N i k
    writeLoc l v
  | .setFront i v => do
    let l ← front N i
    writeLoc l v
  | .setBack i v => do
    let l ← back N i
    writeLoc l v
  | .setIter i k v => do
    let l ← iterAt N i k
    writeLoc l v

/-! ### what the calls mean (no reference to the model's functions) -/

/-- the arrays that exist, and their elements -/
abbrev Vars (α : Type) := Nat → Option (List α)

/-- `a` refers to an object with value `v` -/
inductive Arg.Is (V : Vars α) : Arg α → α → Prop
  | val {v} : Arg.Is V (.val v) v
  | elem {j k v ys} : V j = some ys → ys[k]? = some v → Arg.Is V (.elem j k) v
  | mv {j k v ys} : V j = some ys → ys[k]? = some v → Arg.Is V (.mv j k) v

/-- constructing one element from each of the arguments gives the values `vs`, and turns `V` into `V'` (rvalues are moved from) -/
inductive Takes : List (Arg α) → Vars α → List α → Vars α → Prop
  | nil {V} : Takes [] V [] V
  | val {v as V vs V'} : Takes as V vs V' → Takes (.val v :: as) V (v :: vs) V'
  | elem {j k v ys as V vs V'} : V j = some ys → ys[k]? = some v → Takes as V vs V' → Takes (.elem j k :: as) V (v :: vs) V'
  | mv {j k v ys as V vs V'} : V j = some ys → ys[k]? = some v → Takes as (upd V j (some (ys.set k (E.moved v)))) vs V' →
      Takes (.mv j k :: as) V (v :: vs) V'

/-- `Spec op V x V'`: the call is within its preconditions when the arrays are `V`; it returns (`x = none`) or throws `x`; then
the arrays are `V'` -/
inductive Spec : Op α → Vars α → Option Exc → Vars α → Prop
  /-- elements without argument are `Type{}` -/
  | ctor {i args V vs V'} : V i = none → args.length ≤ N → Takes E args V vs V' →
      Spec (.ctor i args) V none (upd V' i (some (vs ++ List.replicate (N - args.length) E.dflt)))
  /-- the construction of some element threw: there is no object; the rvalues before may have been moved from -/
  | ctorThrows {i args n V vs V' vs' V''} : V i = none → args.length ≤ N → Takes E args V vs V' → Takes E (args.take n) V vs' V'' →
      Spec (.ctor i args) V (some .user) V''
  | ctorCopy {i j ys V} : V i = none → V j = some ys → Spec (.ctorCopy i j) V none (upd V i (some ys))
  | ctorCopyThrows {i j ys V} : V i = none → V j = some ys → Spec (.ctorCopy i j) V (some .user) V
  | ctorMove {i j ys V} : V i = none → V j = some ys →
      Spec (.ctorMove i j) V none (upd (upd V j (some (ys.map E.moved))) i (some ys))
  | dtor {i xs V} : V i = some xs → Spec (.dtor i) V none (upd V i none)
  | assignCopy {i j xs ys V} : V i = some xs → V j = some ys → Spec (.assignCopy i j) V none (upd V i (some ys))
  /-- the assignment of element `k` threw: those before have been assigned, those after not -/
  | assignCopyThrows {i j k x y xs ys V} : V i = some xs → V j = some ys → xs[k]? = some x → ys[k]? = some y →
      Spec (.assignCopy i j) V (some .user) (upd V i (some (ys.take k ++ E.torn x y :: xs.drop (k + 1))))
  | assignMove {i j xs ys V} : i ≠ j → V i = some xs → V j = some ys →
      Spec (.assignMove i j) V none (upd (upd V i (some ys)) j (some (ys.map E.moved)))
  | assignMoveSelf {i xs V} : V i = some xs → Spec (.assignMove i i) V none (upd V i (some (xs.map E.selfMove)))
  | fill {i a v xs V} : V i = some xs → a.Is V v → Spec (.fill i a) V none (upd V i (some (List.replicate N v)))
  /-- the assignment to element `k` threw: those before have been assigned, those after not -/
  | fillThrows {i k a v x xs V} : V i = some xs → a.Is V v → xs[k]? = some x →
      Spec (.fill i a) V (some .user) (upd V i (some (List.replicate k v ++ E.torn x v :: xs.drop (k + 1))))
  | swap {i j xs ys V} : V i = some xs → V j = some ys → Spec (.swap i j) V none (upd (upd V i (some ys)) j (some xs))
  | setIndex {i k v xs V} : V i = some xs → k < N → Spec (.setIndex i k v) V none (upd V i (some (xs.set k v)))
  | setAt {i k v xs V} : V i = some xs → k < N → Spec (.setAt i k v) V none (upd V i (some (xs.set k v)))
  | setAtThrows {i k v xs V} : V i = some xs → N ≤ k → Spec (.setAt i k v) V (some .outOfRange) V
  | setGet {i k v xs V} : V i = some xs → k < N → Spec (.setGet i k v) V none (upd V i (some (xs.set k v)))
  | setFront {i v xs V} : V i = some xs → 0 < N → Spec (.setFront i v) V none (upd V i (some (xs.set 0 v)))
  | setBack {i v xs V} : V i = some xs → 0 < N → Spec (.setBack i v) V none (upd V i (some (xs.set (N - 1) v)))
  | setIter {i v k xs V} : V i = some xs → k < N → Spec (.setIter i (k : Nat) v) V none (upd V i (some (xs.set k v)))

/-- the call is within its preconditions -/
def Pre (op : Op α) (V : Vars α) : Prop := ∃ x V', Spec E N op V x V'

/-- the state at program start -/
def start (orc : Nat → Bool) : St α := ⟨fun _ => none, orc, 0⟩

/-- `s` is reached from program start by calls within their preconditions; `V` is what the arrays are according to the
specification -/
inductive Reach : St α → Vars α → Prop
  | start (orc) : Reach (start orc) (fun _ => none)
  | ok {s s' V V' op} : Reach s V → Spec E N op V none V' → op.run E N s = .ok () s' → Reach s' V'
  | thrown {s s' V V' e op} : Reach s V → Spec E N op V (some e) V' → op.run E N s = .exc e s' → s'.mem = V' → Reach s' V'

/-- what the client sees of array `i`: every way of access leads to the very element; its value; exceptions beyond -/
structure Shows (s : St α) (i : Nat) (xs : List α) : Prop where
  length : xs.length = size N
  empty : Arr.empty N = decide (xs = [])
  index : ∀ k, k < xs.length → Arr.index N i k s = .ok ⟨i, k⟩ s
  at_ : ∀ k, k < xs.length → Arr.at_ N i k s = .ok ⟨i, k⟩ s
  beyond : ∀ k, xs.length ≤ k → Arr.at_ N i k s = .exc .outOfRange s
  get : ∀ k, k < xs.length → Arr.get N i k s = .ok ⟨i, k⟩ s
  front : xs ≠ [] → Arr.front N i s = .ok ⟨i, 0⟩ s
  back : xs ≠ [] → Arr.back N i s = .ok ⟨i, xs.length - 1⟩ s
  iter : ∀ k : Nat, k < xs.length → iterAt N i k s = .ok ⟨i, k⟩ s
  value : ∀ k v, xs[k]? = some v → readLoc ⟨i, k⟩ s = .ok v s

end Ptl.Arr

import Verif.Vector.Model

/-!
# Client programs over vectors

The calls a client can make on its variables `0, 1, 2, …`, how each call runs in the model, and – independently of
the model – what it means on finite lists.
-/

namespace Ptl.Vector

variable {α : Type}

/-- A value passed by const reference: an object outside all vectors, or element `k` of variable `j`. -/
inductive Src (α : Type) where
  | val (v : α)
  | elem (j k : Nat)

/-- A value passed to push_back/emplace/insert: by const reference, or by rvalue reference to an element. -/
inductive Src1 (α : Type) where
  | ref (s : Src α)
  | mv (j k : Nat)

/-- A forward range: an arbitrary sequence of objects, or `m` move iterators starting at element `k` of `j`. -/
inductive Rng (α : Type) where
  | refs (l : List (Src α))
  | mvs (j k m : Nat)

/-- Public operations; positions are offsets from `begin()`. -/
inductive Op (α : Type) where
  | ctorDefault (i : Nat)
  | ctorCount (i n : Nat)
  | ctorFill (i n : Nat) (x : Src α)
  | ctorRange (i : Nat) (r : Rng α)
  | ctorInput (i : Nat) (vs : List α)
  | ctorCopy (i j : Nat)
  | ctorMove (i j : Nat)
  | dtor (i : Nat)
  | assignCopy (i j : Nat)
  | assignMove (i j : Nat)
  | assignRange (i : Nat) (r : Rng α)
  | assignInput (i : Nat) (vs : List α)
  | assignFill (i n : Nat) (x : Src α)
  | swap (i j : Nat)
  | pushBack (i : Nat) (x : Src1 α)
  | emplace (i pos : Nat) (x : Src1 α)
  | insertFill (i pos n : Nat) (x : Src α)
  | insertRange (i pos : Nat) (r : Rng α)
  | insertInput (i pos : Nat) (vs : List α)
  | erase (i f l : Nat)
  | eraseOne (i pos : Nat)
  | popBack (i : Nat)
  | clear (i : Nat)
  | reserve (i n : Nat)
  | shrinkToFit (i : Nat)
  | resize (i n : Nat)
  | resizeFill (i n : Nat) (x : Src α)
  | write (i k : Nat) (v : α)
  | put (i k : Nat) (v : α)

/-- the variables whose storage (`data()`, `size()`, `capacity()`) the call may change -/
def Op.Targets : Op α → Nat → Prop
  | .ctorMove i k, j | .assignMove i k, j | .swap i k, j => j = i ∨ j = k
  | .ctorDefault i, j | .ctorCount i _, j | .ctorFill i _ _, j | .ctorRange i _, j | .ctorInput i _, j
  | .ctorCopy i _, j | .dtor i, j | .assignCopy i _, j | .assignRange i _, j | .assignInput i _, j
  | .assignFill i _ _, j | .pushBack i _, j | .emplace i _ _, j | .insertFill i _ _ _, j | .insertRange i _ _, j
  | .insertInput i _ _, j | .erase i _ _, j | .eraseOne i _, j | .popBack i, j | .clear i, j | .reserve i _, j
  | .shrinkToFit i, j | .resize i _, j | .resizeFill i _ _, j | .write i _ _, j | .put i _ _, j => j = i

/-! ### running a call in the model -/

/-- the reference the client forms: `std::as_const(v)[k]` -/
def Src.resolve : Src α → VM α (Arg α)
  | .val v => pure (.val v)
  | .elem j k => do
    let d ← data (.var j)
    pure (.copy (d.add k))

/-- `x` or `std::move(v[k])` -/
def Src1.resolve : Src1 α → VM α (Arg α)
  | .ref x => x.resolve
  | .mv j k => do
    let d ← data (.var j)
    pure (.move (d.add k))

/-- the objects a range refers to -/
def Src.resolveAll : List (Src α) → VM α (List (Arg α))
  | [] => pure []
  | x :: xs => do
    let a ← x.resolve
    let as ← Src.resolveAll xs
    pure (a :: as)

/-- the iterators the client forms -/
def Rng.resolve : Rng α → VM α (List (Arg α))
  | .refs l => Src.resolveAll l
  | .mvs j k m => do
    let d ← data (.var j)
    pure (moveRange (d.add k) m)

/-- `v.begin() + k` -/
def pos (i k : Nat) : VM α Ptr := do
  let d ← data (.var i)
  pure (d.add k)

/-- `it - v.begin()` for a returned iterator (or the address of a returned reference) -/
def offset (i : Nat) (it : Ptr) : VM α (Option Nat) := do
  let d ← data (.var i)
  let n ← distance d it
  pure (some n)

/-- a call that returns nothing -/
def noRet (m : VM α Unit) : VM α (Option Nat) := do
  m
  pure none

/-- the call, as the client writes it; returns the offset of the returned iterator/reference, if any -/
def Op.run (T : Elem α) : Op α → VM α (Option Nat)
  | .ctorDefault i => noRet (Vector.ctorDefault (.var i))
  | .ctorCount i n => noRet (Vector.ctorCount T (.var i) n)
  | .ctorFill i n x => do
    let a ← x.resolve
    noRet (Vector.ctorFill T (.var i) n a)
  | .ctorRange i r => do
    let as ← r.resolve
    noRet (Vector.ctorRange T (.var i) as)
  | .ctorInput i vs => noRet (Vector.ctorInput T (.var i) vs)
  | .ctorCopy i j => noRet (Vector.ctorCopy T (.var i) (.var j))
  | .ctorMove i j => noRet (Vector.ctorMove (.var i) (.var j))
  | .dtor i => noRet (Vector.dtor (.var i))
  | .assignCopy i j => noRet (Vector.assignCopy T (.var i) (.var j))
  | .assignMove i j => noRet (Vector.assignMove (.var i) (.var j))
  | .assignRange i r => do
    let as ← r.resolve
    noRet (Vector.assignRange T (.var i) as)
  | .assignInput i vs => noRet (Vector.assignInput T (.var i) vs)
  | .assignFill i n x => do
    let a ← x.resolve
    noRet (Vector.assignFill T (.var i) n a)
  | .swap i j => noRet (Vector.swap (.var i) (.var j))
  | .pushBack i x => do
    let a ← x.resolve
    let it ← Vector.pushBack T (.var i) a
    offset i it
  | .emplace i p x => do
    let a ← x.resolve
    let p ← pos i p
    let it ← Vector.emplace T (.var i) p a
    offset i it
  | .insertFill i p n x => do
    let a ← x.resolve
    let p ← pos i p
    let it ← Vector.insertFill T (.var i) p n a
    offset i it
  | .insertRange i p r => do
    let as ← r.resolve
    let p ← pos i p
    let it ← Vector.insertRange T (.var i) p as
    offset i it
  | .insertInput i p vs => do
    let p ← pos i p
    let it ← Vector.insertInput T (.var i) p vs
    offset i it
  | .erase i f l => do
    let p ← pos i f
    let q ← pos i l
    let it ← Vector.erase T (.var i) p q
    offset i it
  | .eraseOne i p => do
    let p ← pos i p
    let it ← Vector.eraseOne T (.var i) p
    offset i it
  | .popBack i => noRet (Vector.popBack (.var i))
  | .clear i => noRet (Vector.clear (.var i))
  | .reserve i n => noRet (Vector.reserve T (.var i) n)
  | .shrinkToFit i => noRet (Vector.shrinkToFit T (.var i))
  | .resize i n => noRet (Vector.resize T (.var i) n)
  | .resizeFill i n x => do
    let a ← x.resolve
    noRet (Vector.resizeFill T (.var i) n a)
  | .write i k v => do
    let p ← index (.var i) k
    noRet (writeAt p v)
  | .put i k v => do
    let p ← index (.var i) k
    noRet (putAt p v)

/-! ### what the calls mean (no reference to the model) -/

/-- the client's variables: `none` = not alive, `some xs` = a vector with elements `xs` -/
abbrev Vars (α : Type) := Nat → Option (List α)

/-- `x` denotes the value `v` -/
inductive Src.Is (V : Vars α) : Src α → α → Prop
  | val (v : α) : Src.Is V (.val v) v
  | elem {j k : Nat} {ys : List α} {v : α} : V j = some ys → ys[k]? = some v → Src.Is V (.elem j k) v

/-- `x` delivers the value `v`; taking it turns `V` into `V'` (a moved-from element is left behind) -/
inductive Src1.Takes (moved : α → α) (V : Vars α) : Src1 α → α → Vars α → Prop
  | ref {x : Src α} {v : α} : x.Is V v → Src1.Takes moved V (.ref x) v V
  | mv {j k : Nat} {ys : List α} {v : α} : V j = some ys → ys[k]? = some v →
      Src1.Takes moved V (.mv j k) v (upd V j (some (ys.set k (moved v))))

/-- the sequence of objects denotes `vs` -/
inductive Src.AreAll (V : Vars α) : List (Src α) → List α → Prop
  | nil : Src.AreAll V [] []
  | cons {x : Src α} {v : α} {l : List (Src α)} {vs : List α} : x.Is V v → Src.AreAll V l vs →
      Src.AreAll V (x :: l) (v :: vs)

/-- the range delivers the values `vs`; taking them turns `V` into `V'` -/
inductive Rng.Takes (moved : α → α) (V : Vars α) : Rng α → List α → Vars α → Prop
  | refs {l : List (Src α)} {vs : List α} : Src.AreAll V l vs → Rng.Takes moved V (.refs l) vs V
  | mvs {j : Nat} {pre vs post : List α} : V j = some (pre ++ vs ++ post) →
      Rng.Takes moved V (.mvs j pre.length vs.length) vs (upd V j (some (pre ++ vs.map moved ++ post)))

/-- `n` more elements keep the total count representable in `size_type` -/
@[reducible] def Fits (xs : List α) (n : Nat) : Prop := xs.length + n < 2 ^ 64

/-- `Spec T op V V' r`: the call `op` is within its preconditions when the variables are `V`; on normal return the
variables are `V'` and the returned iterator/reference (if any) is at offset `r`. -/
inductive Spec (T : Elem α) : Op α → Vars α → Vars α → Option Nat → Prop
  | ctorDefault {i V} : V i = none → Spec T (.ctorDefault i) V (upd V i (some [])) none
  | ctorCount {i n V} : V i = none → n < 2 ^ 64 →
      Spec T (.ctorCount i n) V (upd V i (some (List.replicate n T.dflt))) none
  | ctorFill {i n x v V} : V i = none → n < 2 ^ 64 → x.Is V v →
      Spec T (.ctorFill i n x) V (upd V i (some (List.replicate n v))) none
  | ctorRange {i r vs V V1} : V i = none → r.Takes T.moved V vs V1 → Fits vs 0 →
      Spec T (.ctorRange i r) V (upd V1 i (some vs)) none
  | ctorInput {i vs V} : V i = none → Spec T (.ctorInput i vs) V (upd V i (some vs)) none
  | ctorCopy {i j ys V} : V i = none → V j = some ys → Spec T (.ctorCopy i j) V (upd V i (some ys)) none
  | ctorMove {i j ys V} : V i = none → V j = some ys →
      Spec T (.ctorMove i j) V (upd (upd V i (some ys)) j (some [])) none
  | dtor {i xs V} : V i = some xs → Spec T (.dtor i) V (upd V i none) none
  | assignCopy {i j xs ys V} : V i = some xs → V j = some ys →
      Spec T (.assignCopy i j) V (upd V i (some ys)) none
  | assignMove {i j xs ys V} : V i = some xs → V j = some ys → i ≠ j →
      Spec T (.assignMove i j) V (upd (upd V i (some ys)) j (some [])) none
  | assignMoveSelf {i xs V} : V i = some xs → Spec T (.assignMove i i) V V none
  | assignRange {i r xs vs V V1} : V i = some xs → r.Takes T.moved V vs V1 → Fits xs vs.length →
      Spec T (.assignRange i r) V (upd V1 i (some vs)) none
  | assignInput {i xs vs V} : V i = some xs → Spec T (.assignInput i vs) V (upd V i (some vs)) none
  | assignFill {i n x v xs V} : V i = some xs → x.Is V v → Fits xs n →
      Spec T (.assignFill i n x) V (upd V i (some (List.replicate n v))) none
  | swap {i j xs ys V} : V i = some xs → V j = some ys →
      Spec T (.swap i j) V (upd (upd V i (some ys)) j (some xs)) none
  | pushBack {i x v xs V V1} : x.Takes T.moved V v V1 → V1 i = some xs →
      Spec T (.pushBack i x) V (upd V1 i (some (xs ++ [v]))) (some xs.length)
  | emplace {i x v pre post V V1} : x.Takes T.moved V v V1 → V1 i = some (pre ++ post) →
      Spec T (.emplace i pre.length x) V (upd V1 i (some (pre ++ [v] ++ post))) (some pre.length)
  | insertFill {i n x v pre post V} : x.Is V v → V i = some (pre ++ post) → Fits (pre ++ post) n →
      Spec T (.insertFill i pre.length n x) V (upd V i (some (pre ++ List.replicate n v ++ post))) (some pre.length)
  | insertRange {i r vs pre post V V1} : r.Takes T.moved V vs V1 → V1 i = some (pre ++ post) →
      Fits (pre ++ post) vs.length →
      Spec T (.insertRange i pre.length r) V (upd V1 i (some (pre ++ vs ++ post))) (some pre.length)
  | insertInput {i vs pre post V} : V i = some (pre ++ post) → Fits (pre ++ post) vs.length →
      Spec T (.insertInput i pre.length vs) V (upd V i (some (pre ++ vs ++ post))) (some pre.length)
  | erase {i pre mid post V} : V i = some (pre ++ mid ++ post) → (mid ≠ [] ∨ ∀ x ∈ post, T.selfMove x = x) →
      Spec T (.erase i pre.length (pre.length + mid.length)) V (upd V i (some (pre ++ post))) (some pre.length)
  | eraseOne {i pre x post V} : V i = some (pre ++ [x] ++ post) →
      Spec T (.eraseOne i pre.length) V (upd V i (some (pre ++ post))) (some pre.length)
  | popBack {i xs x V} : V i = some (xs ++ [x]) → Spec T (.popBack i) V (upd V i (some xs)) none
  | clear {i xs V} : V i = some xs → Spec T (.clear i) V (upd V i (some [])) none
  | reserve {i n xs V} : V i = some xs → n < 2 ^ 64 → Spec T (.reserve i n) V V none
  | shrinkToFit {i xs V} : V i = some xs → Spec T (.shrinkToFit i) V V none
  | resizeShrink {i xs ys V} : V i = some (xs ++ ys) → Spec T (.resize i xs.length) V (upd V i (some xs)) none
  | resizeGrow {i xs n V} : V i = some xs → xs.length + n < 2 ^ 64 →
      Spec T (.resize i (xs.length + n)) V (upd V i (some (xs ++ List.replicate n T.dflt))) none
  | resizeFillShrink {i xs ys x v V} : V i = some (xs ++ ys) → x.Is V v →
      Spec T (.resizeFill i xs.length x) V (upd V i (some xs)) none
  | resizeFillGrow {i xs n x v V} : V i = some xs → x.Is V v → xs.length + n < 2 ^ 64 →
      Spec T (.resizeFill i (xs.length + n) x) V (upd V i (some (xs ++ List.replicate n v))) none
  | write {i k v xs V} : V i = some xs → k < xs.length →
      Spec T (.write i k v) V (upd V i (some (xs.set k v))) none
  | put {i k v xs V} : V i = some xs → k < xs.length →
      Spec T (.put i k v) V (upd V i (some (xs.set k v))) none

/-- how much room a call may ask for when its target ends up with `n` elements: insertions double the size, the other calls ask for what
they need, and what remains asks for nothing (`reserve` is treated separately) -/
def Op.room : Op α → Nat → Nat
  | .pushBack _ _, n | .emplace _ _ _, n | .insertFill _ _ _ _, n | .insertRange _ _ _, n | .insertInput _ _ _, n
  | .ctorInput _ _, n | .assignInput _ _, n => 2 * n
  | .ctorCount _ _, n | .ctorFill _ _ _, n | .ctorRange _ _, n | .ctorCopy _ _, n | .assignCopy _ _, n | .assignRange _ _, n
  | .assignFill _ _ _, n | .resize _ _, n | .resizeFill _ _ _, n => n
  | .ctorDefault _, _ | .ctorMove _ _, _ | .dtor _, _ | .assignMove _ _, _ | .swap _ _, _ | .erase _ _ _, _ | .eraseOne _ _, _
  | .popBack _, _ | .clear _, _ | .reserve _ _, _ | .shrinkToFit _, _ | .write _ _ _, _ | .put _ _ _, _ => 0

/-- `std::length_error` may only be thrown when the call asks for more than `max_size()`: the resulting vector would be longer than that
(for insertions: twice as long, because growth at least doubles), or more than that is reserved -/
def TooLong (T : Elem α) (op : Op α) (V' : Vars α) : Prop :=
  (∃ i xs, op.Targets i ∧ V' i = some xs ∧ T.maxCapacity < op.room xs.length) ∨ ∃ i n, op = .reserve i n ∧ T.maxCapacity < n

/-! ### histories -/

/-- the state at program start: no vectors, nothing allocated; `orc` decides which fallible steps will fail -/
def start (α : Type) (orc : Nat → Bool) : St α Storage :=
  { blk := fun _ => none, nblk := 0, obj := fun _ => none, ntmp := 0, orc := orc, tick := 0, moves := 0 }

/-- `s` is reached from program start by calls within their preconditions, and `V` is what the list semantics says
the variables are.  A call may return normally or throw; a client that catches the exception carries on. -/
inductive Reach (T : Elem α) : St α Storage → Vars α → Prop
  | start (orc : Nat → Bool) : Reach T (start α orc) (fun _ => none)
  | ok {s s' : St α Storage} {V V' : Vars α} {op : Op α} {r r' : Option Nat} :
      Reach T s V → Spec T op V V' r → op.run T s = .ok r' s' → Reach T s' V'
  | thrown {s s' : St α Storage} {V V' : Vars α} {op : Op α} {r : Option Nat} {e : Exc} :
      Reach T s V → Spec T op V V' r → op.run T s = .exc e s' → Reach T s' V

/-- what a client reads back: `size()` and then every element `v[0], v[1], …` -/
def readFrom (i : Nat) : Nat → Nat → VM α (List α)
  | _, 0 => pure []
  | k, n + 1 => do
    let p ← index (.var i) k
    let v ← readAt p
    let vs ← readFrom i (k + 1) n
    pure (v :: vs)

/-- the elements of variable `i` as the client sees them -/
def readBack (i : Nat) : VM α (List α) := do
  let n ← size (.var i)
  readFrom i 0 n

/-- everything the client can see of variable `i`: `data()`, `capacity()`, and `size()` with all elements -/
structure Shows (s : St α Storage) (i : Nat) (d : Ptr) (c : Nat) (xs : List α) : Prop where
  data : Vector.data (.var i) s = .ok d s
  size : Vector.size (.var i) s = .ok xs.length s
  capacity : Vector.capacity (.var i) s = .ok c s
  elems : readBack i s = .ok xs s

/-- number of elements of a range -/
def Rng.len : Rng α → Nat
  | .refs l => l.length
  | .mvs _ _ m => m

/-- the call inserts `n` elements into variable `i` (from values or forward ranges) -/
inductive Op.Inserts : Op α → Nat → Nat → Prop
  | pushBack {i x} : Op.Inserts (.pushBack i x) i 1
  | emplace {i p x} : Op.Inserts (.emplace i p x) i 1
  | insertFill {i p n x} : Op.Inserts (.insertFill i p n x) i n
  | insertRange {i p r} : Op.Inserts (.insertRange i p r) i r.len

/-- the call can only remove elements from variable `i` that holds `xs` -/
inductive Op.Shrinks (xs : List α) : Op α → Nat → Prop
  | erase {i f l} : Op.Shrinks xs (.erase i f l) i
  | eraseOne {i p} : Op.Shrinks xs (.eraseOne i p) i
  | popBack {i} : Op.Shrinks xs (.popBack i) i
  | clear {i} : Op.Shrinks xs (.clear i) i
  | resize {i n} : n ≤ xs.length → Op.Shrinks xs (.resize i n) i
  | resizeFill {i n x} : n ≤ xs.length → Op.Shrinks xs (.resizeFill i n x) i

end Ptl.Vector

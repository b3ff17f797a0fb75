import Verif.Str.Model

/-!
# Client programs over strings

The calls a client can make on its variables `0, 1, 2, …`, how each call runs in the model, and – independently of
the model – what it means on lists of bytes.
-/

namespace Ptl.Str

/-- What an iterator of a source range refers to: a byte outside all strings, byte `k` of variable `j` (so a view into
a string, possibly the one being modified, is a list of these), or a byte of an iterator whose dereference may throw. -/
inductive Src where
  | val (v : UInt8)
  | elem (j k : Nat)
  | thr (v : UInt8)

/-- Public operations; positions are offsets from `begin()`. -/
inductive Op where
  | ctorDefault (i : Nat)
  | ctorInput (i : Nat) (l : List Src)
  | ctorRange (i : Nat) (l : List Src)
  | ctorFill (i n : Nat) (ch : UInt8)
  | ctorCopy (i j : Nat)
  | ctorMove (i j : Nat)
  | concat (i : Nat) (l r : List Src)
  | literal (i : Nat) (lit : List UInt8)
  | substr (i j off : Nat)
  | substrN (i j off n : Nat)
  | substrMove (i j off : Nat)
  | substrNMove (i j off n : Nat)
  | dtor (i : Nat)
  | assignCopy (i j : Nat)
  | assignMove (i j : Nat)
  | assignInput (i : Nat) (l : List Src)
  | assignRange (i : Nat) (l : List Src)
  | assignIlist (i : Nat) (bs : List UInt8)
  | assignFill (i n : Nat) (ch : UInt8)
  | appendInput (i : Nat) (l : List Src)
  | appendRange (i : Nat) (l : List Src)
  | appendIlist (i : Nat) (bs : List UInt8)
  | appendFill (i n : Nat) (ch : UInt8)
  | insertInput (i p : Nat) (l : List Src)
  | insertRange (i p : Nat) (l : List Src)
  | insertIlist (i p : Nat) (bs : List UInt8)
  | insertFill (i p n : Nat) (ch : UInt8)
  | replaceInput (i f l : Nat) (src : List Src)
  | replaceRange (i f l : Nat) (src : List Src)
  | replaceIlist (i f l : Nat) (bs : List UInt8)
  | replaceFill (i f l n : Nat) (ch : UInt8)
  | swap (i j : Nat)
  | pushBack (i : Nat) (ch : UInt8)
  | popBack (i : Nat)
  | clear (i : Nat)
  | reserve (i n : Nat)
  | shrinkToFit (i : Nat)
  | resize (i n : Nat) (ch : UInt8)
  | erase (i f l : Nat)
  | eraseOne (i p : Nat)
  | write (i k : Nat) (ch : UInt8)

/-- the variables the call may change in any way -/
def Op.Targets : Op → Nat → Prop
  | .ctorMove i k, j | .assignMove i k, j | .swap i k, j | .substrMove i k _, j | .substrNMove i k _ _, j => j = i ∨ j = k
  | .ctorDefault i, j | .ctorInput i _, j | .ctorRange i _, j | .ctorFill i _ _, j | .ctorCopy i _, j | .concat i _ _, j
  | .literal i _, j | .substr i _ _, j | .substrN i _ _ _, j | .dtor i, j | .assignCopy i _, j | .assignInput i _, j
  | .assignRange i _, j | .assignIlist i _, j | .assignFill i _ _, j | .appendInput i _, j | .appendRange i _, j
  | .appendIlist i _, j | .appendFill i _ _, j | .insertInput i _ _, j | .insertRange i _ _, j | .insertIlist i _ _, j
  | .insertFill i _ _ _, j | .replaceInput i _ _ _, j | .replaceRange i _ _ _, j | .replaceIlist i _ _ _, j
  | .replaceFill i _ _ _ _, j | .pushBack i _, j | .popBack i, j | .clear i, j | .reserve i _, j | .shrinkToFit i, j
  | .resize i _ _, j | .erase i _ _, j | .eraseOne i _, j | .write i _ _, j => j = i

/-- append, assign, insert or replace with a range of forward iterators -/
inductive Op.Forward : Op → Prop
  | append {i l} : Op.Forward (.appendRange i l)
  | assign {i l} : Op.Forward (.assignRange i l)
  | insert {i p l} : Op.Forward (.insertRange i p l)
  | replace {i f l src} : Op.Forward (.replaceRange i f l src)

/-- the iterators passed to the call -/
def Op.sources : Op → List Src
  | .ctorInput _ l | .ctorRange _ l | .assignInput _ l | .assignRange _ l | .appendInput _ l | .appendRange _ l
  | .insertInput _ _ l | .insertRange _ _ l | .replaceInput _ _ _ l | .replaceRange _ _ _ l => l
  | .concat _ l r => l ++ r
  | _ => []

/-! ### running a call in the model -/

/-- the iterator the client forms -/
def Src.resolve : Src → SM Arg
  | .val v => pure (.val v)
  | .thr v => pure (.thr v)
  | .elem j k => do
    let d ← data (.var j)
    pure (.at (d.add k))

/-- the iterators of a range -/
def Src.resolveAll : List Src → SM (List Arg)
  | [] => pure []
  | x :: xs => do
    let a ← x.resolve
    let as ← Src.resolveAll xs
    pure (a :: as)

/-- `s.begin() + k` -/
def pos (i k : Nat) : SM Ptr := do
  let d ← data (.var i)
  pure (d.add k)

/-- `it - s.begin()` for a returned iterator (or the address of a returned reference) -/
def offset (i : Nat) (it : Ptr) : SM (Option Nat) := do
  let d ← data (.var i)
  let n ← distance d it
  pure (some n)

/-- a call that returns nothing -/
def noRet (m : SM Unit) : SM (Option Nat) := do
  m
  pure none

/-- the call, as the client writes it; returns the offset of the returned iterator/reference, if any -/
def Op.run : Op → SM (Option Nat)
  | .ctorDefault i => noRet (Str.ctorDefault (.var i))
  | .ctorInput i l => do
    let as ← Src.resolveAll l
    noRet (Str.ctorInput (.var i) as)
  | .ctorRange i l => do
    let as ← Src.resolveAll l
    noRet (Str.ctorRange (.var i) as)
  | .ctorFill i n ch => noRet (Str.ctorFill (.var i) n ch)
  | .ctorCopy i j => noRet (Str.ctorCopy (.var i) (.var j))
  | .ctorMove i j => noRet (Str.ctorMove (.var i) (.var j))
  | .concat i l r => do
    let as ← Src.resolveAll l
    let bs ← Src.resolveAll r
    noRet (Str.concat (.var i) as bs)
  | .literal i lit => noRet (Str.literal (.var i) lit lit.length)
  | .substr i j off => noRet (Str.substr (.var i) (.var j) off)
  | .substrN i j off n => noRet (Str.substrN (.var i) (.var j) off n)
  | .substrMove i j off => noRet (Str.substrMove (.var i) (.var j) off)
  | .substrNMove i j off n => noRet (Str.substrNMove (.var i) (.var j) off n)
  | .dtor i => noRet (Str.dtor (.var i))
  | .assignCopy i j => noRet (Str.assignCopy (.var i) (.var j))
  | .assignMove i j => noRet (Str.assignMove (.var i) (.var j))
  | .assignInput i l => do
    let as ← Src.resolveAll l
    noRet (Str.assignInput (.var i) as)
  | .assignRange i l => do
    let as ← Src.resolveAll l
    noRet (Str.assignRange (.var i) as)
  | .assignIlist i bs => noRet (Str.assignIlist (.var i) bs)
  | .assignFill i n ch => noRet (Str.assignFill (.var i) n ch)
  | .appendInput i l => do
    let as ← Src.resolveAll l
    noRet (Str.appendInput (.var i) as)
  | .appendRange i l => do
    let as ← Src.resolveAll l
    noRet (Str.appendRange (.var i) as)
  | .appendIlist i bs => noRet (Str.appendIlist (.var i) bs)
  | .appendFill i n ch => noRet (Str.appendFill (.var i) n ch)
  | .insertInput i p l => do
    let as ← Src.resolveAll l
    let p ← pos i p
    let it ← Str.insertInput (.var i) p as
    offset i it
  | .insertRange i p l => do
    let as ← Src.resolveAll l
    let p ← pos i p
    let it ← Str.insertRange (.var i) p as
    offset i it
  | .insertIlist i p bs => do
    let p ← pos i p
    let it ← Str.insertIlist (.var i) p bs
    offset i it
  | .insertFill i p n ch => do
    let p ← pos i p
    let it ← Str.insertFill (.var i) p n ch
    offset i it
  | .replaceInput i f l src => do
    let as ← Src.resolveAll src
    let p ← pos i f
    let q ← pos i l
    noRet (Str.replaceInput (.var i) p q as)
  | .replaceRange i f l src => do
    let as ← Src.resolveAll src
    let p ← pos i f
    let q ← pos i l
    noRet (Str.replaceRange (.var i) p q as)
  | .replaceIlist i f l bs => do
    let p ← pos i f
    let q ← pos i l
    noRet (Str.replaceIlist (.var i) p q bs)
  | .replaceFill i f l n ch => do
    let p ← pos i f
    let q ← pos i l
    noRet (Str.replaceFill (.var i) p q n ch)
  | .swap i j => noRet (Str.swap (.var i) (.var j))
  | .pushBack i ch => do
    let it ← Str.pushBack (.var i) ch
    offset i it
  | .popBack i => noRet (Str.popBack (.var i))
  | .clear i => noRet (Str.clear (.var i))
  | .reserve i n => noRet (Str.reserve (.var i) n)
  | .shrinkToFit i => noRet (Str.shrinkToFit (.var i))
  | .resize i n ch => noRet (Str.resize (.var i) n ch)
  | .erase i f l => do
    let p ← pos i f
    let q ← pos i l
    let it ← Str.erase (.var i) p q
    offset i it
  | .eraseOne i p => do
    let p ← pos i p
    let it ← Str.eraseOne (.var i) p
    offset i it
  | .write i k ch => do
    let p ← index (.var i) k
    noRet (writeAt p ch)

/-! ### what the calls mean (no reference to the model) -/

/-- the client's variables: `none` = not alive, `some xs` = a string with contents `xs` -/
abbrev Vars := Nat → Option (List UInt8)

/-- the iterator yields the byte `b` -/
inductive Src.Is (V : Vars) : Src → UInt8 → Prop
  | val (b : UInt8) : Src.Is V (.val b) b
  | thr (b : UInt8) : Src.Is V (.thr b) b
  | elem {j k : Nat} {ys : List UInt8} {b : UInt8} : V j = some ys → ys[k]? = some b → Src.Is V (.elem j k) b

/-- the range yields the bytes `bs` -/
inductive Src.AreAll (V : Vars) : List Src → List UInt8 → Prop
  | nil : Src.AreAll V [] []
  | cons {x : Src} {b : UInt8} {l : List Src} {bs : List UInt8} : x.Is V b → Src.AreAll V l bs →
      Src.AreAll V (x :: l) (b :: bs)

/-- the bytes before the first null character -/
def cString (lit : List UInt8) : List UInt8 := lit.takeWhile (· ≠ 0)

/-- `n` bytes, rounded up to a heap capacity, can be represented in `size_type` -/
@[reducible] def Room (n : Nat) : Prop := n + 23 < 2 ^ 64

/-- `Spec big op V V' r`: the call `op` is within its preconditions when the variables are `V`; on normal return the
variables are `V'` and the returned iterator/reference (if any) is at offset `r`.  `big j` says that `capacity()` of
variable `j` is more than 22; only what remains in a moved-from string depends on it. -/
inductive Spec (big : Nat → Prop) : Op → Vars → Vars → Option Nat → Prop
  | ctorDefault {i V} : V i = none → Spec big (.ctorDefault i) V (upd V i (some [])) none
  | ctorInput {i l bs V} : V i = none → Src.AreAll V l bs → Spec big (.ctorInput i l) V (upd V i (some bs)) none
  | ctorRange {i l bs V} : V i = none → Src.AreAll V l bs → Room bs.length →
      Spec big (.ctorRange i l) V (upd V i (some bs)) none
  | ctorFill {i n ch V} : V i = none → Room n →
      Spec big (.ctorFill i n ch) V (upd V i (some (List.replicate n ch))) none
  | ctorCopy {i j ys V} : V i = none → V j = some ys → Spec big (.ctorCopy i j) V (upd V i (some ys)) none
  | ctorMoveBig {i j ys V} : V i = none → V j = some ys → big j →
      Spec big (.ctorMove i j) V (upd (upd V i (some ys)) j (some [])) none
  | ctorMoveSmall {i j ys V} : V i = none → V j = some ys → ¬ big j →
      Spec big (.ctorMove i j) V (upd V i (some ys)) none
  | concat {i l r as bs V} : V i = none → Src.AreAll V l as → Src.AreAll V r bs → Room (as.length + bs.length) →
      Spec big (.concat i l r) V (upd V i (some (as ++ bs))) none
  | literal {i lit V} : V i = none → Room lit.length →
      Spec big (.literal i lit) V (upd V i (some (cString lit))) none
  | substr {i j pre ys V} : V i = none → V j = some (pre ++ ys) →
      Spec big (.substr i j pre.length) V (upd V i (some ys)) none
  | substrN {i j pre ys post V} : V i = none → V j = some (pre ++ ys ++ post) →
      Spec big (.substrN i j pre.length ys.length) V (upd V i (some ys)) none
  | substrMoveBig {i j pre ys V} : V i = none → V j = some (pre ++ ys) → big j →
      Spec big (.substrMove i j pre.length) V (upd (upd V i (some ys)) j (some [])) none
  | substrMoveSmall {i j pre ys V} : V i = none → V j = some (pre ++ ys) → ¬ big j →
      Spec big (.substrMove i j pre.length) V (upd (upd V i (some ys)) j (some ys)) none
  | substrNMoveBig {i j pre ys post V} : V i = none → V j = some (pre ++ ys ++ post) → big j →
      Spec big (.substrNMove i j pre.length ys.length) V (upd (upd V i (some ys)) j (some [])) none
  | substrNMoveSmall {i j pre ys post V} : V i = none → V j = some (pre ++ ys ++ post) → ¬ big j →
      Spec big (.substrNMove i j pre.length ys.length) V (upd (upd V i (some ys)) j (some ys)) none
  | dtor {i xs V} : V i = some xs → Spec big (.dtor i) V (upd V i none) none
  | assignCopy {i j xs ys V} : V i = some xs → V j = some ys → Spec big (.assignCopy i j) V (upd V i (some ys)) none
  | assignMoveBig {i j xs ys V} : V i = some xs → V j = some ys → i ≠ j → big j →
      Spec big (.assignMove i j) V (upd (upd V i (some ys)) j (some [])) none
  | assignMoveSmall {i j xs ys V} : V i = some xs → V j = some ys → i ≠ j → ¬ big j →
      Spec big (.assignMove i j) V (upd V i (some ys)) none
  | assignMoveSelf {i xs V} : V i = some xs → Spec big (.assignMove i i) V V none
  | assignInput {i l xs bs V} : V i = some xs → Src.AreAll V l bs →
      Spec big (.assignInput i l) V (upd V i (some bs)) none
  | assignRange {i l xs bs V} : V i = some xs → Src.AreAll V l bs → Room (xs.length + bs.length) →
      Spec big (.assignRange i l) V (upd V i (some bs)) none
  | assignIlist {i xs bs V} : V i = some xs → Spec big (.assignIlist i bs) V (upd V i (some bs)) none
  | assignFill {i n ch xs V} : V i = some xs →
      Spec big (.assignFill i n ch) V (upd V i (some (List.replicate n ch))) none
  | appendInput {i l xs bs V} : V i = some xs → Src.AreAll V l bs → xs.length + bs.length < 2 ^ 64 →
      Spec big (.appendInput i l) V (upd V i (some (xs ++ bs))) none
  | appendRange {i l xs bs V} : V i = some xs → Src.AreAll V l bs → Room (xs.length + bs.length) →
      Spec big (.appendRange i l) V (upd V i (some (xs ++ bs))) none
  | appendIlist {i xs bs V} : V i = some xs → xs.length + bs.length < 2 ^ 64 →
      Spec big (.appendIlist i bs) V (upd V i (some (xs ++ bs))) none
  | appendFill {i n ch xs V} : V i = some xs → xs.length + n < 2 ^ 64 →
      Spec big (.appendFill i n ch) V (upd V i (some (xs ++ List.replicate n ch))) none
  | insertInput {i l pre post bs V} : V i = some (pre ++ post) → Src.AreAll V l bs →
      (pre ++ post).length + bs.length < 2 ^ 64 →
      Spec big (.insertInput i pre.length l) V (upd V i (some (pre ++ bs ++ post))) (some pre.length)
  | insertRange {i l pre post bs V} : V i = some (pre ++ post) → Src.AreAll V l bs →
      Room ((pre ++ post).length + bs.length) →
      Spec big (.insertRange i pre.length l) V (upd V i (some (pre ++ bs ++ post))) (some pre.length)
  | insertIlist {i pre post bs V} : V i = some (pre ++ post) → (pre ++ post).length + bs.length < 2 ^ 64 →
      Spec big (.insertIlist i pre.length bs) V (upd V i (some (pre ++ bs ++ post))) (some pre.length)
  | insertFill {i n ch pre post V} : V i = some (pre ++ post) → (pre ++ post).length + n < 2 ^ 64 →
      Spec big (.insertFill i pre.length n ch) V (upd V i (some (pre ++ List.replicate n ch ++ post))) (some pre.length)
  | replaceInput {i l pre mid post bs V} : V i = some (pre ++ mid ++ post) → Src.AreAll V l bs →
      (pre ++ mid ++ post).length + bs.length < 2 ^ 64 →
      Spec big (.replaceInput i pre.length (pre.length + mid.length) l) V (upd V i (some (pre ++ bs ++ post))) none
  | replaceRange {i l pre mid post bs V} : V i = some (pre ++ mid ++ post) → Src.AreAll V l bs →
      Room ((pre ++ mid ++ post).length + bs.length) →
      Spec big (.replaceRange i pre.length (pre.length + mid.length) l) V (upd V i (some (pre ++ bs ++ post))) none
  | replaceIlist {i pre mid post bs V} : V i = some (pre ++ mid ++ post) →
      (pre ++ post).length + bs.length < 2 ^ 64 →
      Spec big (.replaceIlist i pre.length (pre.length + mid.length) bs) V (upd V i (some (pre ++ bs ++ post))) none
  | replaceFill {i n ch pre mid post V} : V i = some (pre ++ mid ++ post) → (pre ++ post).length + n < 2 ^ 64 →
      Spec big (.replaceFill i pre.length (pre.length + mid.length) n ch) V
        (upd V i (some (pre ++ List.replicate n ch ++ post))) none
  | swap {i j xs ys V} : V i = some xs → V j = some ys →
      Spec big (.swap i j) V (upd (upd V i (some ys)) j (some xs)) none
  | pushBack {i ch xs V} : V i = some xs →
      Spec big (.pushBack i ch) V (upd V i (some (xs ++ [ch]))) (some xs.length)
  | popBack {i xs ch V} : V i = some (xs ++ [ch]) → Spec big (.popBack i) V (upd V i (some xs)) none
  | clear {i xs V} : V i = some xs → Spec big (.clear i) V (upd V i (some [])) none
  | reserve {i n xs V} : V i = some xs → Spec big (.reserve i n) V V none
  | shrinkToFit {i xs V} : V i = some xs → Spec big (.shrinkToFit i) V V none
  | resizeShrink {i xs ys ch V} : V i = some (xs ++ ys) → Spec big (.resize i xs.length ch) V (upd V i (some xs)) none
  | resizeGrow {i xs n ch V} : V i = some xs →
      Spec big (.resize i (xs.length + n) ch) V (upd V i (some (xs ++ List.replicate n ch))) none
  | erase {i pre mid post V} : V i = some (pre ++ mid ++ post) →
      Spec big (.erase i pre.length (pre.length + mid.length)) V (upd V i (some (pre ++ post))) (some pre.length)
  | eraseOne {i pre ch post V} : V i = some (pre ++ [ch] ++ post) →
      Spec big (.eraseOne i pre.length) V (upd V i (some (pre ++ post))) (some pre.length)
  | write {i k ch xs V} : V i = some xs → k < xs.length →
      Spec big (.write i k ch) V (upd V i (some (xs.set k ch))) none

/-- the number of bytes the call asks for: the longest string afterwards, or the argument of `reserve` -/
def Asks (op : Op) (V' : Vars) (n : Nat) : Prop :=
  (∃ i xs, op.Targets i ∧ V' i = some xs ∧ n = xs.length) ∨ ∃ i, op = .reserve i n

/-! ### histories -/

/-- the state at program start: no strings, nothing allocated; `orc` decides which fallible steps will fail -/
def start (orc : Nat → Bool) : St :=
  { mem := fun _ => none, nblk := 0, obj := fun _ => none, ntmp := 0, orc := orc, tick := 0, moves := 0 }

/-- `capacity()` of variable `j` is more than 22 -/
def Big (s : St) (j : Nat) : Prop := ∃ c, capacity (.var j) s = .ok c s ∧ 22 < c

/-- `s` is reached from program start by calls within their preconditions, and `V` is what the list semantics says
the variables are.  A call may return normally or throw; a client that catches the exception carries on. -/
inductive Reach : St → Vars → Prop
  | start (orc : Nat → Bool) : Reach (start orc) (fun _ => none)
  | ok {s s' : St} {V V' : Vars} {op : Op} {r r' : Option Nat} :
      Reach s V → Spec (Big s) op V V' r → op.run s = .ok r' s' → Reach s' V'
  | thrown {s s' : St} {V V' : Vars} {op : Op} {r : Option Nat} {e : Exc} :
      Reach s V → Spec (Big s) op V V' r → op.run s = .exc e s' → Reach s' V

/-- as `Reach`, for histories in which no exception thrown by a forward iterator leaves append, assign, insert or
replace (length errors, failed allocations, and exceptions from constructors or input iterators are all allowed) -/
inductive Clean : St → Vars → Prop
  | start (orc : Nat → Bool) : Clean (start orc) (fun _ => none)
  | ok {s s' : St} {V V' : Vars} {op : Op} {r r' : Option Nat} :
      Clean s V → Spec (Big s) op V V' r → op.run s = .ok r' s' → Clean s' V'
  | thrown {s s' : St} {V V' : Vars} {op : Op} {r : Option Nat} {e : Exc} :
      Clean s V → Spec (Big s) op V V' r → op.run s = .exc e s' → (op.Forward → e ≠ .user) → Clean s' V

theorem Clean.reach {s : St} {V : Vars} (h : Clean s V) : Reach s V := by
  induction h with
  | start orc => exact .start orc
  | ok _ hs hr ih => exact ih.ok hs hr
  | thrown _ hs hr _ ih => exact ih.thrown hs hr

/-- what a client reads back: `s[k], s[k+1], …` -/
def readFrom (i : Nat) : Nat → Nat → SM (List UInt8)
  | _, 0 => pure []
  | k, n + 1 => do
    let p ← index (.var i) k
    let v ← readAt p
    let vs ← readFrom i (k + 1) n
    pure (v :: vs)

/-- the contents of variable `i` as the client sees them -/
def readBack (i : Nat) : SM (List UInt8) := do
  let n ← size (.var i)
  readFrom i 0 n

/-- everything the client can see of variable `i`: `data()`, `capacity()`, `size()` with all bytes, and the byte at
`data()[size()]` -/
structure Shows (s : St) (i : Nat) (d : Ptr) (c : Nat) (xs : List UInt8) (t : UInt8) : Prop where
  data : Str.data (.var i) s = .ok d s
  size : Str.size (.var i) s = .ok xs.length s
  capacity : Str.capacity (.var i) s = .ok c s
  bytes : readBack i s = .ok xs s
  term : readAt (d.add xs.length) s = .ok t s

end Ptl.Str

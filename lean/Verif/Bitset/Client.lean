import Verif.Bitset.Model

/-!
# Calls a client can make on bitsets, and what they are specified to do

The specification speaks of bits only: a bitset variable holds a function `Fin n → Bool`.  It does not mention bytes,
masks or loops, and uses none of the model's operations.
-/

namespace Ptl.Bitset

/-- calls; the first number is the variable that is constructed or modified -/
inductive Op where
  | ctor (i : Nat) | ctorVal (i : Nat) (v : BitVec 64) | copy (i j : Nat) | assign (i j : Nat) | dtor (i : Nat)
  | andA (i j : Nat) | orA (i j : Nat) | xorA (i j : Nat) | shlA (i c : Nat) | shrA (i c : Nat)
  | opAnd (i j k : Nat) | opOr (i j k : Nat) | opXor (i j k : Nat) | opNot (i j : Nat) | opShl (i j c : Nat) | opShr (i j c : Nat)
  | setAll (i : Nat) | resetAll (i : Nat) | flipAll (i : Nat)
  | setAt (i k : Nat) (v : Bool) | resetAt (i k : Nat) | flipAt (i k : Nat)
  | swap (i j : Nat)
  | refSet (i k : Nat) (v : Bool) | refFlip (i k : Nat) | atSet (i k : Nat) (v : Bool) | atFlip (i k : Nat)
  | index (i k : Nat) | atConst (i k : Nat) | test (i k : Nat)
  | allSet (i : Nat) | anySet (i : Nat) | noneSet (i : Nat) | count (i : Nat)
  | opEq (i j : Nat) | opNe (i j : Nat)
  | insert (i : Nat) | extract (i : Nat)
  | openIn (is : IStream) | openOut (os : OStream)

/-- results -/
inductive Res where
  | unit | bool (b : Bool) | nat (k : Nat)
  deriving DecidableEq, Repr

/-- what a call does in the model; `b[k] = v` is `operator[]` followed by the member of the returned reference -/
def Op.run (n : Nat) : Op → BM Res
  | .ctor i => do ctorDefault n i; pure .unit
  | .ctorVal i v => do ctorValue n i v; pure .unit
  | .copy i j => do ctorCopy i j; pure .unit
  | .assign i j => do assignCopy i j; pure .unit
  | .dtor i => do Bitset.dtor i; pure .unit
  | .andA i j => do andAssign n i j; pure .unit
  | .orA i j => do orAssign n i j; pure .unit
  | .xorA i j => do xorAssign n i j; pure .unit
  | .shlA i c => do shlAssign n i c; pure .unit
  | .shrA i c => do shrAssign n i c; pure .unit
  | .opAnd i j k => do Bitset.opAnd n i j k; pure .unit
  | .opOr i j k => do Bitset.opOr n i j k; pure .unit
  | .opXor i j k => do Bitset.opXor n i j k; pure .unit
  | .opNot i j => do Bitset.opNot n i j; pure .unit
  | .opShl i j c => do Bitset.opShl n i j c; pure .unit
  | .opShr i j c => do Bitset.opShr n i j c; pure .unit
  | .setAll i => do Bitset.setAll n i; pure .unit
  | .resetAll i => do Bitset.resetAll n i; pure .unit
  | .flipAll i => do Bitset.flipAll n i; pure .unit
  | .setAt i k v => do Bitset.setAt n i k v; pure .unit
  | .resetAt i k => do Bitset.resetAt n i k; pure .unit
  | .flipAt i k => do Bitset.flipAt n i k; pure .unit
  | .swap i j => do Bitset.swap n i j; pure .unit
  | .refSet i k v => do let r ← indexRef i k; refAssign n r v; pure .unit
  | .refFlip i k => do let r ← indexRef i k; Bitset.refFlip n r; pure .unit
  | .atSet i k v => do let r ← atRef n i k; refAssign n r v; pure .unit
  | .atFlip i k => do let r ← atRef n i k; Bitset.refFlip n r; pure .unit
  | .index i k => do let b ← Bitset.index n i k; pure (.bool b)
  | .atConst i k => do let b ← Bitset.atConst n i k; pure (.bool b)
  | .test i k => do let b ← Bitset.test n i k; pure (.bool b)
  | .allSet i => do let b ← Bitset.allSet n i; pure (.bool b)
  | .anySet i => do let b ← Bitset.anySet n i; pure (.bool b)
  | .noneSet i => do let b ← Bitset.noneSet n i; pure (.bool b)
  | .count i => do let c ← Bitset.count n i; pure (.nat c)
  | .opEq i j => do let b ← Bitset.opEq n i j; pure (.bool b)
  | .opNe i j => do let b ← Bitset.opNe n i j; pure (.bool b)
  | .insert i => do Bitset.insert n i; pure .unit
  | .extract i => do Bitset.extract n i; pure .unit
  | .openIn is => do setIs is; pure .unit
  | .openOut os => do setOs os; pure .unit

/-! ### specification -/

/-- contents of a bitset -/
abbrev Bits (n : Nat) := Fin n → Bool

/-- what a client knows of the program state -/
structure View (n : Nat) where
  var : Nat → Option (Bits n)
  is : IStream
  os : OStream

variable {n : Nat}

/-- bit `k` is the old bit `k - c` -/
def shiftUp (f : Bits n) (c : Nat) : Bits n := fun k => if c ≤ k.1 then f ⟨k.1 - c, by omega⟩ else false

/-- bit `k` is the old bit `k + c` -/
def shiftDown (f : Bits n) (c : Nat) : Bits n := fun k => if h : k.1 + c < n then f ⟨k.1 + c, h⟩ else false

/-- bit `k` replaced by `v` -/
def setBit (f : Bits n) (k : Nat) (v : Bool) : Bits n := fun l => if l.1 = k then v else f l

/-- bit `k`, if there is one -/
def bitAt (f : Bits n) (k : Nat) : Bool := if h : k < n then f ⟨k, h⟩ else false

/-- number of set bits below `m` -/
def countTo (f : Bits n) : Nat → Nat
  | 0 => 0
  | m + 1 => countTo f m + (if bitAt f m then 1 else 0)

/-- the character for a bit -/
def digit (b : Bool) : UInt8 := if b then 49 else 48

/-- the textual form of the lowest `m` bits, most significant first -/
def textTo (f : Bits n) : Nat → List UInt8
  | 0 => []
  | m + 1 => digit (bitAt f m) :: textTo f m

/-- the textual form of a bitset: `n` digits, most significant first -/
def text (f : Bits n) : List UInt8 := textTo f n

/-- what `os << b` appends: the field width applies to the first digit alone -/
def inserted (f : Bits n) (os : OStream) : OStream :=
  match text f with
  | [] => os
  | c :: cs =>
    let pad := List.replicate (os.width - 1) os.fill
    { os with out := os.out ++ ((if os.left then c :: pad else pad ++ [c]) ++ cs), width := 0 }

/-- `'0'` or `'1'` -/
def isDigit (c : UInt8) : Bool := c == 48 || c == 49

/-- the value of a row of digits, the last one being bit 0 -/
def ofText (d : List UInt8) : Bits n := fun k => d.reverse[k.1]? == some 49

/-- the whitespace extraction skips -/
def blanks (is : IStream) : List UInt8 := if is.skipws then is.rest.takeWhile is.isspace else []

/-- what follows that whitespace -/
def afterBlanks (is : IStream) : List UInt8 := is.rest.drop (blanks is).length

/-- the digits extraction consumes -/
def digits (n : Nat) (is : IStream) : List UInt8 := ((afterBlanks is).take n).takeWhile isDigit

/-- what `is >> b` does to the bitset and to the stream -/
def extracted (f : Bits n) (is : IStream) : Bits n × IStream :=
  if is.eof || is.fail || is.bad then (f, { is with fail := true })
  else
    let past := (blanks is).reverse ++ is.past
    if is.skipws && (afterBlanks is).isEmpty then (f, { is with past := past, rest := [], eof := true, fail := true })
    else if n ≠ 0 ∧ digits n is = [] then (f, { is with past := past, rest := afterBlanks is, fail := true })
    else (ofText (digits n is), { is with
      past := (digits n is).reverse ++ past
      rest := (afterBlanks is).drop (digits n is).length
      fail := decide ((digits n is).length < n ∧ afterBlanks is = digits n is) })

/-- variable `i` replaced -/
def View.put (V : View n) (i : Nat) (f : Bits n) : View n := { V with var := upd V.var i (some f) }

/-- construct variable `i` with contents `f` -/
def View.create (V : View n) (i : Nat) (f : Bits n) : Option (Except Exc Res × View n) :=
  match V.var i with
  | some _ => none
  | none => some (.ok .unit, V.put i f)

/-- a call on variable `i` that needs its contents -/
def View.use (V : View n) (i : Nat) (k : Bits n → Option (Except Exc Res × View n)) : Option (Except Exc Res × View n) :=
  (V.var i).bind k

/-- modify variable `i` -/
def View.modify (V : View n) (i : Nat) (k : Bits n → Bits n) : Option (Except Exc Res × View n) :=
  V.use i fun f => some (.ok .unit, V.put i (k f))

/-- modify variable `i` if `k` is an index, otherwise report `out_of_range` and change nothing -/
def View.checked (V : View n) (i k : Nat) (g : Bits n → Bits n) : Option (Except Exc Res × View n) :=
  V.use i fun f => some (if k < n then (.ok .unit, V.put i (g f)) else (.error .outOfRange, V))

/-- modify variable `i`; `k` has to be an index -/
def View.unchecked (V : View n) (i k : Nat) (g : Bits n → Bits n) : Option (Except Exc Res × View n) :=
  V.use i fun f => if k < n then some (.ok .unit, V.put i (g f)) else none

/-- what the call returns or throws and the state it leaves behind; `none` if the client has no business making the call
(objects that do not exist or already exist, `b[k]` with `k` out of range) -/
def Op.spec (op : Op) (V : View n) : Option (Except Exc Res × View n) :=
  match op with
  | .ctor i => V.create i fun _ => false
  | .ctorVal i v => V.create i fun k => v.getLsbD k.1
  | .copy i j => V.use j fun g => V.create i g
  | .assign i j => V.use j fun g => V.modify i fun _ => g
  | .dtor i => V.use i fun _ => some (.ok .unit, { V with var := upd V.var i none })
  | .andA i j => V.use j fun g => V.modify i fun f k => f k && g k
  | .orA i j => V.use j fun g => V.modify i fun f k => f k || g k
  | .xorA i j => V.use j fun g => V.modify i fun f k => f k != g k
  | .shlA i c => V.modify i fun f => shiftUp f c
  | .shrA i c => V.modify i fun f => shiftDown f c
  | .opAnd i j k => V.use j fun f => V.use k fun g => V.create i fun l => f l && g l
  | .opOr i j k => V.use j fun f => V.use k fun g => V.create i fun l => f l || g l
  | .opXor i j k => V.use j fun f => V.use k fun g => V.create i fun l => f l != g l
  | .opNot i j => V.use j fun f => V.create i fun l => !f l
  | .opShl i j c => V.use j fun f => V.create i (shiftUp f c)
  | .opShr i j c => V.use j fun f => V.create i (shiftDown f c)
  | .setAll i => V.modify i fun _ _ => true
  | .resetAll i => V.modify i fun _ _ => false
  | .flipAll i => V.modify i fun f k => !f k
  | .setAt i k v => V.checked i k fun f => setBit f k v
  | .resetAt i k => V.checked i k fun f => setBit f k false
  | .flipAt i k => V.checked i k fun f => setBit f k (!bitAt f k)
  | .swap i j => V.use i fun f => V.use j fun g => some (.ok .unit, (V.put i g).put j f)
  | .refSet i k v => V.unchecked i k fun f => setBit f k v
  | .refFlip i k => V.unchecked i k fun f => setBit f k (!bitAt f k)
  | .atSet i k v => V.checked i k fun f => setBit f k v
  | .atFlip i k => V.checked i k fun f => setBit f k (!bitAt f k)
  | .index i k => V.use i fun f => if k < n then some (.ok (.bool (bitAt f k)), V) else none
  | .atConst i k | .test i k => V.use i fun f => some (if k < n then (.ok (.bool (bitAt f k)), V) else (.error .outOfRange, V))
  | .allSet i => V.use i fun f => some (.ok (.bool (decide (∀ k, f k = true))), V)
  | .anySet i => V.use i fun f => some (.ok (.bool (decide (∃ k, f k = true))), V)
  | .noneSet i => V.use i fun f => some (.ok (.bool (decide (∀ k, f k = false))), V)
  | .count i => V.use i fun f => some (.ok (.nat (countTo f n)), V)
  | .opEq i j => V.use i fun f => V.use j fun g => some (.ok (.bool (decide (∀ k, f k = g k))), V)
  | .opNe i j => V.use i fun f => V.use j fun g => some (.ok (.bool (decide (∃ k, f k ≠ g k))), V)
  | .insert i => V.use i fun f => some (.ok .unit, { V with os := inserted f V.os })
  | .extract i => V.use i fun f => some (.ok .unit, { (V.put i (extracted f V.is).1) with is := (extracted f V.is).2 })
  | .openIn is => some (.ok .unit, { V with is := is })
  | .openOut os => some (.ok .unit, { V with os := os })

/-- the initial state: no bitsets, empty streams -/
def start (sp : UInt8 → Bool) : St := ⟨fun _ => none, { past := [], rest := [], isspace := sp }, { out := [] }⟩

/-- the states a program can get into, with what the client knows about them -/
inductive Reach (n : Nat) : St → View n → Prop
  | start (sp : UInt8 → Bool) : Reach n (start sp) ⟨fun _ => none, { past := [], rest := [], isspace := sp }, { out := [] }⟩
  | ok {s s' : St} {V V' : View n} {op : Op} {r r' : Res} :
    Reach n s V → op.spec V = some (.ok r, V') → op.run n s = .ok r' s' → Reach n s' V'
  | thrown {s s' : St} {V V' : View n} {op : Op} {e e' : Exc} :
    Reach n s V → op.spec V = some (.error e, V') → op.run n s = .exc e' s' → Reach n s' V'

end Ptl.Bitset

import Verif.Overload.Best
import Verif.Str.Props.Values
import Verif.Str.Props.Access
import Verif.View.Props

/-!
# C84: strings of different kinds in one expression

Comparison, concatenation and assignment with operands of type `ptl::string`, `ptl::string_ref`, `std::string_view`,
`const char *` and `std::string`: which function overload resolution chooses (inc/ptl/string.hpp, inc/ptl/string_ref.hpp and the
operators of the standard library), and what it computes.
-/

namespace Ptl.Text

open Overload (Seq Cand Choice choose)

/-- the types of operands; `char` for concatenation and assignment only -/
inductive Kind where
  | string | ref | view | cstr | std | char
  deriving DecidableEq, Repr

/-- implicit conversions between them (the parameters are values or references to const):
0: string.hpp:550-553 `string` to `string_view`; 1: string_ref.hpp:216-218 `string_ref` to `string_view`;
2, 3: a `string_view` from `const char *` and from `std::string`; 4: string_ref.hpp:124-125 from `const char *`;
5: string_ref.hpp:136-137 from `string_view`; 6: a `std::string` from `const char *`.
The constructor string.hpp:317-318 is explicit.  At most one of two conversions in a row may be user-defined. -/
def conv : Kind → Kind → Option Seq
  | .string, .view => some { via := some 0 }
  | .ref, .view => some { via := some 1 }
  | .cstr, .view => some { via := some 2 }
  | .std, .view => some { via := some 3 }
  | .cstr, .ref => some { via := some 4 }
  | .view, .ref => some { via := some 5 }
  | .cstr, .std => some { via := some 6 }
  | a, b => if a = b then some {} else none

/-- a parameter: of a given type, or one from which the template argument is deduced (no conversion then) -/
inductive Param where
  | plain (k : Kind)
  | deduced (k : Kind)
  deriving DecidableEq, Repr

/-- conversion of an argument -/
def Param.seq : Param → Kind → Option Seq
  | .plain k, a => conv a k
  | .deduced k, a => if a = k then some {} else none

/-! ### comparison -/

/-- the functions for each of the six comparisons -/
inductive CmpFn where
  /-- string.hpp:573-584 -/
  | stringString
  /-- string.hpp:586-597 -/
  | viewString
  /-- string.hpp:599-610 -/
  | stringView
  /-- string_ref.hpp:193-211 -/
  | refRef
  /-- [string.view.comparison]: both parameters deduced, and one of them -/
  | stdView | stdViewLeft | stdViewRight
  /-- [string.cmp] -/
  | stdStd | stdCStr | cstrStd
  deriving DecidableEq, Repr

/-- all of them -/
def CmpFn.all : List CmpFn :=
  [.stringString, .viewString, .stringView, .refRef, .stdView, .stdViewLeft, .stdViewRight, .stdStd, .stdCStr, .cstrStd]

/-- their parameters -/
def CmpFn.params : CmpFn → Param × Param
  | .stringString => (.plain .string, .plain .string)
  | .viewString => (.plain .view, .plain .string)
  | .stringView => (.plain .string, .plain .view)
  | .refRef => (.plain .ref, .plain .ref)
  | .stdView => (.deduced .view, .deduced .view)
  | .stdViewLeft => (.deduced .view, .plain .view)
  | .stdViewRight => (.plain .view, .deduced .view)
  | .stdStd => (.deduced .std, .deduced .std)
  | .stdCStr => (.deduced .std, .deduced .cstr)
  | .cstrStd => (.deduced .cstr, .deduced .std)

/-- friends defined in a class are found only if an operand is of that class ([basic.lookup.argdep]) -/
def CmpFn.found (f : CmpFn) (a b : Kind) : Bool :=
  match f with
  | .stringString | .viewString | .stringView => a == .string || b == .string
  | .refRef => a == .ref || b == .ref
  | _ => true

/-- is it a template of the standard library? -/
def CmpFn.template : CmpFn → Bool
  | .stringString | .viewString | .stringView | .refRef => false
  | _ => true

/-- the comparison function that is called for operands of types `a` and `b` -/
def cmpFn (a b : Kind) : Choice CmpFn :=
  choose (CmpFn.all.filter fun f => f.found a b) fun f => { args := [f.params.1.seq a, f.params.2.seq b], template := f.template }

/-- the operand kinds of comparisons -/
def Kind.text : Kind → Bool
  | .char => false
  | _ => true

/-- one of the operands is of a type of this library -/
def ours (a b : Kind) : Prop := a = .string ∨ a = .ref ∨ b = .string ∨ b = .ref

/-- which comparisons have no unique best function: `string_ref` with `std::string_view` and with `std::string` -/
def Excluded (a b : Kind) : Prop :=
  (a = .ref ∧ (b = .view ∨ b = .std)) ∨ (b = .ref ∧ (a = .view ∨ a = .std))

instance (a b : Kind) : Decidable (ours a b) := by unfold ours; infer_instance
instance (a b : Kind) : Decidable (Excluded a b) := by unfold Excluded; infer_instance

section string

open Str

/-- an operand where one of the two is a `ptl::string`: variable `i`, or something else that the client forms as a view -/
inductive Operand where
  | var (i : Nat)
  | other (k : Kind) (b : CView)

/-- its type -/
def Operand.kind : Operand → Kind
  | .var _ => .string
  | .other k _ => k

/-- it denotes the bytes `xs`; a client has `string_view`s, `string_ref`s, C strings and `std::string`s as others -/
def Operand.Is (V : Vars) (xs : List UInt8) : Operand → Prop
  | .var i => V i = some xs
  | .other k b => k ≠ .string ∧ k ≠ .char ∧ b.Is V xs

/-- the comparison `l c r`; `none`: it does not compile.  A parameter of type `string_view` is the view `b` of the operand
(the conversions of the other types to `string_view` are those of the standard library, and string_ref.hpp:216-218). -/
def compare (c : Cmp) (l r : Operand) : Option (SM Bool) :=
  match cmpFn l.kind r.kind, l, r with
  | .best .stringString, .var i, .var j => some (cmpStrStr c (.var i) (.var j))
  | .best .stringView, .var i, .other _ b => some (b.form >>= cmpStrView c (.var i))
  | .best .viewString, .other _ a, .var j => some (a.form >>= fun a => cmpViewStr c a (.var j))
  | _, _, _ => none

/-- **C84**: a `ptl::string` can be compared with every kind of string, on either side, by all six operators; the result is
that of comparing the bytes. -/
theorem C84_string (c : Cmp) {s : Str.St} {V : Str.Vars} (h : Str.Reach s V) {l r : Operand} {xs ys : List UInt8} (hl : l.Is V xs) (hr : r.Is V ys)
    (hs : l.kind = .string ∨ r.kind = .string) :
    ∃ p b, compare c l r = some p ∧ p s = .ok b s ∧ (b = true ↔ c.Means xs ys) := by
  cases l with
  | var i =>
    cases r with
    | var j =>
      obtain ⟨b, h1, h2⟩ := C25_string_string h c hl hr
      exact ⟨_, b, rfl, h1, h2⟩
    | other k b =>
      obtain ⟨k1, k2, hb⟩ := hr
      obtain ⟨v, h1, h2⟩ := C25_string_view h c hl hb
      refine ⟨_, v, ?_, h1, h2⟩
      cases k <;> first | exact absurd rfl k1 | exact absurd rfl k2 | rfl
  | other k a =>
    obtain ⟨k1, k2, ha⟩ := hl
    cases r with
    | var j =>
      obtain ⟨v, h1, h2⟩ := C25_view_string h c ha hr
      refine ⟨_, v, ?_, h1, h2⟩
      cases k <;> first | exact absurd rfl k1 | exact absurd rfl k2 | rfl
    | other k' b =>
      obtain ⟨k1', _, _⟩ := hr
      rcases hs with hs | hs
      · exact absurd hs k1
      · exact absurd hs k1'

end string

section ref

open View

/-- an operand where one of the two is a `string_ref`: reference object `r`; a C string at offset `o` of array `b`; a
`string_view` of `n` bytes there; a `std::string` -/
inductive RefOperand where
  | ref (r : Nat)
  | cstr (b o : Nat)
  | view (b o n : Nat)
  | std (xs : List UInt8)

/-- its type -/
def RefOperand.kind : RefOperand → Kind
  | .ref _ => .ref
  | .cstr _ _ => .cstr
  | .view _ _ _ => .view
  | .std _ => .std

/-- it denotes the bytes `xs` -/
def RefOperand.Is (w : Know UInt8) (xs : List UInt8) : RefOperand → Prop
  | .ref r => ∃ g, w.R r = some g ∧ w.Has g ∧ w.text g = xs
  | .cstr b o => ∃ ys, w.M b = some ys ∧ o ≤ ys.length ∧ 0 ∈ ys.drop o ∧ (ys.drop o).takeWhile (· != 0) = xs
  | .view b o n => w.Has (.of b o n) ∧ w.text (.of b o n) = xs
  | .std ys => ys = xs

/-- the operand as parameter `const string_ref &`: itself, or a temporary (string_ref.hpp:124-125, 136-137) -/
def RefOperand.form : RefOperand → RM UInt8 Ref
  | .ref r => load r
  | .cstr b o => mkCStr (.at b o)
  | .view b o n => mkRange (.at b o) n
  | .std _ => M.ub .badRange

/-- the comparison `l c r`; `none`: it does not compile -/
def compareRef (c : Cmp) (l r : RefOperand) : Option (RM UInt8 Bool) :=
  match cmpFn l.kind r.kind with
  | .best .refRef => some do
    let x ← l.form
    let y ← r.form
    View.compare c x y
  | _ => none

theorem form_ok {s : View.St UInt8} {w : Know UInt8} (h : View.Reach s w) {l : RefOperand} {xs : List UInt8} (hl : l.Is w xs) (hk : l.kind ≠ .std) :
    ∃ g, l.form s = .ok (rep g) s ∧ w.Has g ∧ w.text g = xs := by
  cases l with
  | ref r =>
    obtain ⟨g, h1, h2, h3⟩ := hl
    exact ⟨g, load_ok (h.inv.at h1), h2, h3⟩
  | cstr b o =>
    obtain ⟨ys, h1, h2, h3, h4⟩ := hl
    have hle := takeWhile_length_le (ys.drop o)
    refine ⟨_, mkCStr_ok h.inv h1 h2 h3, ⟨ys, h1, by rw [List.length_drop] at hle; omega⟩, ?_⟩
    rw [← h4]
    simp only [Know.text, h1]
    rw [← List.prefix_iff_eq_take.mp (List.takeWhile_prefix _)]
  | view b o n =>
    obtain ⟨h1, h2⟩ := hl
    exact ⟨.of b o n, mkSized_ok h.inv h1, h1, h2⟩
  | std ys => exact absurd rfl hk

/-- `string_ref` comparisons compile and give the result for the bytes -/
def RefCompares (l r : Kind) : Prop :=
  ∀ (c : Cmp) (s : View.St UInt8) (w : Know UInt8) (x y : RefOperand) (xs ys : List UInt8), View.Reach s w → x.kind = l → y.kind = r →
    x.Is w xs → y.Is w ys → ∃ p b, compareRef c x y = some p ∧ p s = .ok b s ∧ (b = true ↔ c.Means xs ys)

/-- **C84**: a `string_ref` can be compared with a `string_ref` and with a C string, on either side.
Missing: comparisons with `std::string_view` and `std::string`, see `C84_ref_refuted`. -/
theorem C84_ref_partial {l r : Kind} (hk : l = .ref ∧ (r = .ref ∨ r = .cstr) ∨ l = .cstr ∧ r = .ref) : RefCompares l r := by
  intro c s w x y xs ys h hl hr hx hy
  have hb : cmpFn x.kind y.kind = .best .refRef := by
    rw [hl, hr]
    rcases hk with ⟨rfl, rfl | rfl⟩ | ⟨rfl, rfl⟩ <;> decide
  obtain ⟨g, h1, h2, h3⟩ := form_ok h hx (by rw [hl]; rcases hk with ⟨rfl, _⟩ | ⟨rfl, _⟩ <;> decide)
  obtain ⟨g', h1', h2', h3'⟩ := form_ok h hy (by rw [hr]; rcases hk with ⟨_, rfl | rfl⟩ | ⟨_, rfl⟩ <;> decide)
  have key : ∃ b, View.compare c (rep g) (rep g') s = .ok b s ∧ (b = true ↔ c.Means xs ys) := by
    subst h3 h3'
    obtain ⟨v, hv, hiff⟩ := compare_ok h c h2 h2'
    exact ⟨v, hv, hiff⟩
  obtain ⟨v, hv, hiff⟩ := key
  refine ⟨_, v, by unfold compareRef; rw [hb], ?_, hiff⟩
  rw [M.bind_ok h1, M.bind_ok h1', hv]

/-- **C84** is false for `string_ref` with `std::string_view`, where two functions are equally good, and with `std::string`, where
there is none, in either order. -/
theorem C84_ref_refuted : cmpFn .ref .view = .ambiguous ∧ cmpFn .view .ref = .ambiguous ∧ cmpFn .ref .std = .noMatch ∧
    cmpFn .std .ref = .noMatch ∧ ∀ (c : Cmp) (l r : RefOperand), Excluded l.kind r.kind → compareRef c l r = none := by
  refine ⟨by decide, by decide, by decide, by decide, ?_⟩
  intro c l r h
  unfold compareRef
  cases l <;> cases r <;> first | rfl | (simp [RefOperand.kind, Excluded] at h)

end ref

/-- **C84**, exactly: which comparisons with operands of this library compile -/
theorem C84_exact (a b : Kind) (ha : a.text = true) (hb : b.text = true) (ho : ours a b) :
    (∃ f, cmpFn a b = .best f) ↔ ¬ Excluded a b := by
  constructor
  · rintro ⟨f, hf⟩ h
    revert hf
    cases a <;> cases b <;> first | exact absurd h (by decide) | (intro hf; cases hf)
  · intro h
    cases a <;> cases b <;> first
      | exact absurd ho (by decide) | exact absurd h (by decide) | exact absurd ha (by decide) | exact absurd hb (by decide)
      | exact ⟨_, rfl⟩

/-! ### concatenation and assignment -/

/-- the functions for `lhs + rhs` -/
inductive PlusFn where
  /-- string.hpp:339-340 -/
  | viewString
  /-- string.hpp:341-342 -/
  | stringView
  /-- string.hpp:351-352 -/
  | charString
  /-- string.hpp:353-354 -/
  | stringChar
  /-- string.hpp:360-361 -/
  | stringString
  /-- [string.op.plus] -/
  | stdStd | cstrStd | charStd | stdCStr | stdChar
  deriving DecidableEq, Repr

/-- all of them -/
def PlusFn.all : List PlusFn :=
  [.viewString, .stringView, .charString, .stringChar, .stringString, .stdStd, .cstrStd, .charStd, .stdCStr, .stdChar]

/-- their parameters -/
def PlusFn.params : PlusFn → Param × Param
  | .viewString => (.plain .view, .plain .string)
  | .stringView => (.plain .string, .plain .view)
  | .charString => (.plain .char, .plain .string)
  | .stringChar => (.plain .string, .plain .char)
  | .stringString => (.plain .string, .plain .string)
  | .stdStd => (.deduced .std, .deduced .std)
  | .cstrStd => (.deduced .cstr, .deduced .std)
  | .charStd => (.deduced .char, .deduced .std)
  | .stdCStr => (.deduced .std, .deduced .cstr)
  | .stdChar => (.deduced .std, .deduced .char)

/-- is it a friend of `ptl::string`? -/
def PlusFn.ours : PlusFn → Bool
  | .viewString | .stringView | .charString | .stringChar | .stringString => true
  | _ => false

/-- the function that is called for `lhs + rhs` -/
def plusFn (a b : Kind) : Choice PlusFn :=
  choose (PlusFn.all.filter fun f => !f.ours || a == .string || b == .string) fun f =>
    { args := [f.params.1.seq a, f.params.2.seq b], template := !f.ours }

/-- the functions for `lhs += rhs` (members of `ptl::string`): string.hpp:335-338, 343-346, 347-350, 356-359 -/
inductive AppendFn where
  | view | ilist | char | string
  deriving DecidableEq, Repr

/-- the member that is called for `lhs += rhs`; only a braced list can initialise a `std::initializer_list` -/
def appendFn (a : Kind) : Choice AppendFn :=
  choose [.view, .ilist, .char, .string] fun f =>
    { args := [match f with
      | .view => conv a .view
      | .ilist => none
      | .char => conv a .char
      | .string => conv a .string] }

/-- the assignment operators of `ptl::string`: string.hpp:301-304, 305, 326-329, 330-333 -/
inductive AssignFn where
  | copy | move | view | ilist
  deriving DecidableEq, Repr

/-- the assignment operator that is called for an operand of type `a`, an rvalue or not -/
def assignFn (a : Kind) (rvalue : Bool) : Choice AssignFn :=
  choose [.copy, .move, .view, .ilist] fun f =>
    { args := [match f with
      | .copy => conv a .string
      | .move => if rvalue then (conv a .string).map fun q => { q with rref := true } else none
      | .view => conv a .view
      | .ilist => none] }

section values

open Str

/-- an operand of `+`, `+=` or `=`: string variable `j`; any other string, as the range of its characters; a character -/
inductive Piece where
  | var (j : Nat)
  | other (k : Kind) (l : List Src)
  | char (ch : UInt8)

/-- its type -/
def Piece.kind : Piece → Kind
  | .var _ => .string
  | .other k _ => k
  | .char _ => .char

/-- it denotes the bytes `xs` -/
def Piece.Is (V : Vars) (xs : List UInt8) : Piece → Prop
  | .var j => V j = some xs
  | .other k l => k ≠ .string ∧ k ≠ .char ∧ Src.AreAll V l xs ∧ ∀ b, .thr b ∉ l
  | .char ch => xs = [ch]

/-- its characters, as those of a `string_view`: the conversion string.hpp:550-553 for a string, string.hpp:352, 354 for a
character -/
def Piece.view (V : Vars) : Piece → List Src
  | .var j => slice j 0 ((V j).getD []).length
  | .other _ l => l
  | .char ch => [.val ch]

theorem Piece.view_is {V : Vars} {xs : List UInt8} {p : Piece} (h : p.Is V xs) :
    Src.AreAll V (p.view V) xs ∧ ∀ b, .thr b ∉ p.view V := by
  cases p with
  | var j =>
    have h' : V j = some xs := h
    simp only [Piece.view, h', Option.getD_some]
    exact ⟨AreAll.slice (pre := []) (post := []) (by simpa using h'), slice_no_thr _ _ _⟩
  | other k l => exact h.2.2
  | char ch => cases h; exact ⟨.cons (.val ch) .nil, by simp [Piece.view]⟩

/-- the call made for `string i = l + r` (all five friends call `concat`, string.hpp:238-245, with views of the operands) -/
def plus (V : Vars) (i : Nat) (l r : Piece) : Option Op :=
  match plusFn l.kind r.kind with
  | .best f => if f.ours then some (.concat i (l.view V) (r.view V)) else none
  | _ => none

/-- the call made for `i += r` -/
def append (V : Vars) (i : Nat) (r : Piece) : Option Op :=
  match appendFn r.kind, r with
  | .best .char, .char ch => some (.appendFill i 1 ch)
  | .best .view, r | .best .string, r => some (.appendRange i (r.view V))
  | _, _ => none

/-- the call made for `i = r` -/
def assign (V : Vars) (i : Nat) (r : Piece) : Option Op :=
  match assignFn r.kind false, r with
  | .best .copy, .var j => some (.assignCopy i j)
  | .best .view, r => some (.assignRange i (r.view V))
  | _, _ => none

variable {s : Str.St} {V : Str.Vars}

/-- **C84**: `+` accepts a `ptl::string` and any kind of string or character, on either side, and makes a string of the bytes
of both. -/
theorem C84_concat (h : Str.Reach s V) {i : Nat} {l r : Piece} {xs ys : List UInt8} (hi : V i = none) (hl : l.Is V xs)
    (hr : r.Is V ys) (hs : l.kind = .string ∨ r.kind = .string) (hn : xs.length + ys.length + 23 < 2 ^ 64) :
    ∃ op, plus V i l r = some op ∧ Does s op i (xs ++ ys) none := by
  have hp : plus V i l r = some (.concat i (l.view V) (r.view V)) := by
    unfold plus
    cases l with
    | var j =>
      cases r with
      | var _ | char _ => rfl
      | other k b => obtain ⟨h1, h2, _⟩ := hr; cases k <;> first | exact absurd rfl h1 | exact absurd rfl h2 | rfl
    | char ch =>
      cases r with
      | var _ => rfl
      | char _ => rcases hs with hs | hs <;> cases hs
      | other k b => obtain ⟨h1, _⟩ := hr; rcases hs with hs | hs; · cases hs
                     · exact absurd hs h1
    | other k b =>
      obtain ⟨h1, h2, _⟩ := hl
      have hs : r.kind = .string := hs.resolve_left h1
      rw [hs]
      cases k <;> first | exact absurd rfl h1 | exact absurd rfl h2 | rfl
  obtain ⟨a1, a2⟩ := Piece.view_is hl
  obtain ⟨b1, b2⟩ := Piece.view_is hr
  refine ⟨_, hp, C28_concat h hi a1 b1 hn ?_⟩
  intro b hb
  rcases List.mem_append.1 hb with hb | hb
  · exact a2 b hb
  · exact b2 b hb

/-- **C84**: `+=` accepts any kind of string or character and appends its bytes, also those of the string itself. -/
theorem C84_append (h : Str.Reach s V) {i : Nat} {r : Piece} {xs ys : List UInt8} (hi : V i = some xs) (hr : r.Is V ys)
    (hn : xs.length + ys.length + 23 < 2 ^ 64) : ∃ op, append V i r = some op ∧ Does s op i (xs ++ ys) none := by
  obtain ⟨b1, b2⟩ := Piece.view_is hr
  have range : Does s (.appendRange i (r.view V)) i (xs ++ ys) none :=
    does h (.appendRange hi b1 hn) (fun _ h => h) (by intro _ _ h; cases h) (by intro _ _ h; cases h) b2
  cases r with
  | var j => exact ⟨_, rfl, range⟩
  | char ch =>
    cases hr
    exact ⟨_, rfl, does h (.appendFill (n := 1) hi (by simp at hn ⊢; omega)) (fun _ h => h) (by intro _ _ h; cases h)
      (by intro _ _ h; cases h) (by intro b h; cases h)⟩
  | other k l =>
    obtain ⟨h1, h2, _⟩ := hr
    refine ⟨_, ?_, range⟩
    cases k <;> first | exact absurd rfl h1 | exact absurd rfl h2 | rfl

/-- **C84**: `=` accepts any kind of string (not a character) and copies its bytes, also those of (a part of) the string itself. -/
theorem C84_assign (h : Str.Reach s V) {i : Nat} {r : Piece} {xs ys : List UInt8} (hi : V i = some xs) (hr : r.Is V ys)
    (hc : r.kind ≠ .char) (hn : xs.length + ys.length + 23 < 2 ^ 64) :
    ∃ op, assign V i r = some op ∧ Does s op i ys none := by
  obtain ⟨b1, b2⟩ := Piece.view_is hr
  cases r with
  | var j => exact ⟨_, rfl, C21_copy_assignment h hi hr⟩
  | char ch => exact absurd rfl hc
  | other k l =>
    obtain ⟨h1, h2, _⟩ := hr
    refine ⟨.assignRange i l, ?_, does h (.assignRange hi b1 hn) (fun _ h => h) (by intro _ _ h; cases h)
      (by intro _ _ h; cases h) b2⟩
    cases k <;> first | exact absurd rfl h1 | exact absurd rfl h2 | rfl

end values

/-- **C84**: an rvalue string is moved, every other operand copied. -/
theorem C84_assign_moves (a : Kind) (rvalue : Bool) : assignFn a rvalue = .best .move ↔ a = .string ∧ rvalue = true := by
  cases a <;> cases rvalue <;> decide

-- "abc" > a `string_ref` to "ab" in it; 'x' + s; s += s
example : ∃ (s : Str.St) (V : Str.Vars), Str.Reach s V ∧ V 0 = some Str.abc ∧
    (∃ p, compare .gt (.var 0) (.other .ref (.sub 0 0 2)) = some p ∧ p s = .ok true s) ∧
    (∃ op, plus V 2 (.char 120) (.var 0) = some op ∧ Str.Does s op 2 (120 :: Str.abc) none) ∧
    (∃ op, append V 0 (.var 0) = some op ∧ Str.Does s op 0 (Str.abc ++ Str.abc) none) ∧
    (∃ op, assign V 0 (.other .std (Str.slice 0 1 2)) = some op ∧ Str.Does s op 0 [98, 99] none) := by
  obtain ⟨s, h, _⟩ := Str.demo
  refine ⟨s, _, h.reach, rfl, ?_, ?_, ?_, ?_⟩
  · obtain ⟨p, b, h1, h2, h3⟩ := C84_string .gt h.reach (l := .var 0) (r := .other .ref (.sub 0 0 2)) (xs := Str.abc)
      (ys := [97, 98]) rfl ⟨by decide, by decide, .sub 0 [] [97, 98] [99] rfl⟩ (.inl rfl)
    rw [← Cmp.result_iff, show Cmp.gt.result Str.abc [97, 98] = true from by decide] at h3
    exact ⟨p, h1, by rw [h2, h3.2 rfl]⟩
  · exact C84_concat h.reach (l := .char 120) (r := .var 0) (xs := [120]) (ys := Str.abc) rfl rfl rfl (.inr rfl) (by decide)
  · exact C84_append h.reach (r := .var 0) (xs := Str.abc) (ys := Str.abc) rfl rfl (by decide)
  · exact C84_assign h.reach (xs := Str.abc) (ys := [98, 99]) rfl
      ⟨by decide, by decide, Str.AreAll.slice (pre := [97]) (bs := [98, 99]) (post := []) rfl, Str.slice_no_thr _ _ _⟩ (by decide) (by decide)

end Ptl.Text

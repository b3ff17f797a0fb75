/-!
# C105: const objects give const elements

The member functions of all classes through which a program gets at elements, as they are declared (const- and ref-qualifiers, return types), overload resolution
between them, and every way in which access to an element can be had from them by further calls: iterators, pointers, references, the reference classes, elements
that are containers themselves.

`const_cast` and the like are not part of the model, nor are elements that are pointers or reference objects themselves (they are elements like any others; what
they point to is not an element).
-/

namespace Ptl.Access

/-- the classes -/
inductive Cls where
  | vector | string | array | optional | variant | tuple | bitset
  | arrayRef | stringRef | optionalRef | variantRef
deriving DecidableEq, Repr

/-- the classes whose objects contain their elements -/
def Cls.owning : Cls → Bool
  | .vector | .string | .array | .optional | .variant | .tuple | .bitset => true
  | .arrayRef | .stringRef | .optionalRef | .variantRef => false

/-- names of the functions that give access to elements -/
inductive Name where
  | index | at | front | back | data | cStr
  | begin | end | cbegin | cend | rbegin | rend | crbegin | crend
  | arrow | star | value | get | getIf | visit
  | first | last | subrange | substr | stringView
deriving DecidableEq, Repr

/-- ref-qualifiers -/
inductive Qual where
  | none | lvalue | rvalue
deriving DecidableEq, Repr

/-- Declared return types.  `element` and `moved` are those declared as `decltype(auto)`: the member of the object, and the result of `std::move` on it. -/
inductive Ret where
  | ref | constRef | rref | constRref | ptr | constPtr | iter | constIter | rev | constRev | element | moved | self | view | bitRef | value
deriving DecidableEq, Repr

/-- a declaration -/
structure Decl where
  name : Name
  const : Bool
  qual : Qual
  ret : Ret
deriving DecidableEq, Repr

/-- `auto n() const -> rc; auto n() -> r;` -/
def both (n : Name) (rc r : Ret) : List Decl := [⟨n, true, .none, rc⟩, ⟨n, false, .none, r⟩]

/-- `auto n() const -> r;` -/
def only (n : Name) (r : Ret) : List Decl := [⟨n, true, .none, r⟩]

/-- `auto n() const & -> rc; auto n() & -> r; auto n() const && -> rcm; auto n() && -> rm;` -/
def four (n : Name) (rc r rcm rm : Ret) : List Decl := [⟨n, true, .lvalue, rc⟩, ⟨n, false, .lvalue, r⟩, ⟨n, true, .rvalue, rcm⟩, ⟨n, false, .rvalue, rm⟩]

/-- vector.hpp:363-374, string.hpp:555-566, array.hpp:222-246, array_ref.hpp:223-246 -/
def iterators : List Decl :=
  both .begin .constIter .iter ++ only .cbegin .constIter ++ both .end .constIter .iter ++ only .cend .constIter ++
  both .rbegin .constRev .rev ++ only .crbegin .constRev ++ both .rend .constRev .rev ++ only .crend .constRev

/-- the declarations -/
def decls : Cls → List Decl
  /- vector.hpp:272-289, 363-374 -/
  | .vector =>
    both .index .constRef .ref ++ both .at .constRef .ref ++ both .front .constRef .ref ++ both .back .constRef .ref ++ both .data .constPtr .ptr ++ iterators
  /- string.hpp:362-382, 550-553, 555-566 -/
  | .string =>
    both .index .constRef .ref ++ both .at .constRef .ref ++ both .front .constRef .ref ++ both .back .constRef .ref ++ both .data .constPtr .ptr ++
    only .cStr .constPtr ++ only .stringView .view ++ iterators
  /- array.hpp:42-69 (friends), 181-246 -/
  | .array =>
    both .data .constPtr .ptr ++ both .front .constRef .ref ++ both .back .constRef .ref ++ both .index .constRef .ref ++ both .at .constRef .ref ++ iterators ++
    four .get .constRef .ref .constRref .rref
  /- optional.hpp:96-136 -/
  | .optional => both .arrow .constPtr .ptr ++ four .star .constRef .ref .constRref .rref ++ four .value .constRef .ref .constRref .rref
  /- variant.hpp:266-315; `visit` 98-112: what the visitor is called with -/
  | .variant =>
    four .visit .element .element .moved .moved ++ both .getIf .constPtr .ptr ++ four .get .constRef .ref .constRref .rref
  /- tuple.hpp:49-59, 94-106 -/
  | .tuple => four .get .element .element .moved .moved
  /- bitset.hpp:121, 135-152 -/
  | .bitset => both .index .value .bitRef ++ both .at .value .bitRef
  /- array_ref.hpp:194-246 -/
  | .arrayRef =>
    only .data .ptr ++ only .front .ref ++ only .back .ref ++ only .index .ref ++ only .at .ref ++ only .first .self ++ only .last .self ++ only .subrange .self ++
    iterators
  /- string_ref.hpp:145-193, 221; `iterator`, `const_iterator` 26, 115 and the reverse iterators 116-117 are the same -/
  | .stringRef =>
    only .data .constPtr ++ only .front .constRef ++ only .back .constRef ++ only .index .constRef ++ only .at .constRef ++ only .substr .self ++
    only .begin .iter ++ only .cbegin .iter ++ only .end .iter ++ only .cend .iter ++ only .rbegin .rev ++ only .crbegin .rev ++ only .rend .rev ++
    only .crend .rev ++ only .stringView .self
  /- optional_ref.hpp:86-100 -/
  | .optionalRef => only .arrow .ptr ++ only .star .ref ++ only .value .ref
  /- variant_ref.hpp:136-165 -/
  | .variantRef => only .visit .ref ++ only .getIf .ptr ++ only .get .ref

/-! ### overload resolution for the object of a call -/

/-- a function can be called for an object -/
def viable (const rvalue : Bool) (d : Decl) : Bool :=
  (!const || d.const) && match d.qual with
    | .none => true
    | .lvalue => !rvalue || d.const
    | .rvalue => rvalue

/-- one viable function is better than another: it has `&&` and the other `&`, or it has the same ref-qualifier and less `const` -/
def better (d d' : Decl) : Bool :=
  (d.qual == .rvalue && d'.qual == .lvalue) || (d.qual == d'.qual && !d.const && d'.const)

/-- the function called: the viable one that is better than all other viable ones -/
def chosen (k : Cls) (n : Name) (const rvalue : Bool) : Option Decl :=
  let candidates := (decls k).filter fun d => d.name == n && viable const rvalue d
  candidates.find? fun d => candidates.all fun d' => d' == d || better d d'

/-! ### types of expressions -/

/-- Types and value categories of expressions.  `e` says whether the class was given `const T` for its element type; `c` whether an object or element is const.
Iterators are `contiguous_iterator<i>` of the class. -/
inductive Ty where
  | obj (k : Cls) (e c rvalue : Bool)
  | elem (c rvalue : Bool)
  | ptr (c : Bool)
  | iter (k : Cls) (i e : Bool)
  | rev (k : Cls) (i e : Bool)
  | bitRef
  | value
deriving DecidableEq, Repr

/-- the type of a call of a function of an object of class `k`; aliases vector.hpp:238-245, string.hpp:288-295, array.hpp:168-175, array_ref.hpp:161-168,
string_ref.hpp:22-25, 115-117 -/
def result (k : Cls) (e c : Bool) : Ret → Ty
  | .ref => .elem e false
  | .constRef => .elem true false
  | .rref => .elem e true
  | .constRref => .elem true true
  | .ptr => .ptr e
  | .constPtr => .ptr true
  | .iter => .iter k false e
  | .constIter => .iter k true e
  | .rev => .rev k false e
  | .constRev => .rev k true e
  | .element => .elem (e || c) false
  | .moved => .elem (e || c) true
  | .self => .obj k e false true
  | .view => .obj .stringRef true false true
  | .bitRef => .bitRef
  | .value => .value

/-- the type of a call, if it compiles -/
def call (k : Cls) (n : Name) (e c rvalue : Bool) : Option Ty := (chosen k n c rvalue).map fun d => result k e c d.ret

/-- constness of what an iterator refers to; vector.hpp:98-99, string.hpp:146-147, array.hpp:77-78, array_ref.hpp:69-70, string_ref.hpp:31-32 -/
def iterConst (k : Cls) (i e : Bool) : Bool :=
  match k with
  | .stringRef => true
  | _ => i || e

/-- a conversion function of iterators: to `contiguous_iterator<toConst>`, and whether it is public -/
structure Conv where
  toConst : Bool
  isPublic : Bool
deriving DecidableEq, Repr

/-- vector.hpp:156, 184; string.hpp:204, 232; array.hpp:134-135; array_ref.hpp:126-127 -/
def convs : Cls → List Conv
  | .vector | .string => [⟨true, true⟩, ⟨false, false⟩]
  | .array | .arrayRef => [⟨true, true⟩]
  | _ => []

/-- Access gained from an expression by one further expression -/
inductive Step : Ty → Ty → Prop
  /- calls, and what can be done with any object: adding `const`, `std::move`, naming an rvalue -/
  | call {k n e c r t} : call k n e c r = some t → Step (.obj k e c r) t
  | asConst {k e c r} : Step (.obj k e c r) (.obj k e true r)
  | move {k e c} : Step (.obj k e c false) (.obj k e c true)
  | name {k e c} : Step (.obj k e c true) (.obj k e c false)
  /- copies of objects of the reference classes refer to the same elements -/
  | copy {k e c r} : k.owning = false → Step (.obj k e c r) (.obj k e false false)
  /- an element that is itself an object of a class that contains its elements -/
  | inner {k e c r} : k.owning = true → Step (.elem c r) (.obj k e c r)
  /- elements and pointers -/
  | elemConst {c r} : Step (.elem c r) (.elem true r)
  | elemMove {c} : Step (.elem c false) (.elem c true)
  | elemName {c} : Step (.elem c true) (.elem c false)
  | address {c} : Step (.elem c false) (.ptr c)
  | deref {c} : Step (.ptr c) (.elem c false)
  | ptrConst {c} : Step (.ptr c) (.ptr true)
  /- iterators: `*` and `[]`, `->` vector.hpp:122-128, string.hpp:170-176, array.hpp:101-107, array_ref.hpp:93-99, string_ref.hpp:55-61 -/
  | iterDeref {k i e} : Step (.iter k i e) (.elem (iterConst k i e) false)
  | iterArrow {k i e} : Step (.iter k i e) (.ptr (iterConst k i e))
  | iterConv {k i e to} : ⟨to, true⟩ ∈ convs k → Step (.iter k i e) (.iter k to e)
  /- `std::reverse_iterator` -/
  | reverse {k i e} : Step (.iter k i e) (.rev k i e)
  | base {k i e} : Step (.rev k i e) (.iter k i e)
  | revDeref {k i e} : Step (.rev k i e) (.elem (iterConst k i e) false)
  | revArrow {k i e} : Step (.rev k i e) (.ptr (iterConst k i e))
  | revConv {k i e to} : ⟨to, true⟩ ∈ convs k → Step (.rev k i e) (.rev k to e)
  /- array_ref.hpp:39-50, 177-192: from pointers, and from ranges; `std::data` of an rvalue is that of a const object -/
  | arrayRefPtr {p e} : (p = true → e = true) → Step (.ptr p) (.obj .arrayRef e false true)
  | arrayRefRange {k e c r p e'} : Access.call k .data e (c || r) false = some (.ptr p) → (p = true → e' = true) → Step (.obj k e c r) (.obj .arrayRef e' false true)
  /- string_ref.hpp:122-137 -/
  | stringRefPtr {p} : Step (.ptr p) (.obj .stringRef true false true)
  /- optional_ref.hpp:78, 80-82 -/
  | optionalRefElem {c r e} : (c = true ∨ r = true → e = true) → Step (.elem c r) (.obj .optionalRef e false true)
  | optionalRefOptional {k e c p e'} : Access.call k .star e c false = some (.elem p false) → (p = true → e' = true) →
      Step (.obj k e c false) (.obj .optionalRef e' false true)
  /- variant_ref.hpp:111-124: from an lvalue of an alternative, or anything of which the const type is an alternative -/
  | variantRefElem {c r e} : (r = false ∧ e = c) ∨ e = true → Step (.elem c r) (.obj .variantRef e false true)

/-- any number of them -/
inductive Reach : Ty → Ty → Prop
  | refl {t} : Reach t t
  | step {t u v} : Step t u → Reach u v → Reach t v

/-- an expression an element can be changed with: a non-const one for an element, or for a bit -/
def Writable : Ty → Prop
  | .elem false _ | .bitRef => True
  | _ => False

/-! ### const objects -/

/-- expressions that do not give write access (bits have no type that could be const) -/
def sealed : Ty → Bool
  | .obj k e c _ =>
    match k with
    | .bitset => c
    | .stringRef => true
    | .arrayRef | .optionalRef | .variantRef => e
    | _ => e || c
  | .elem c _ => c
  | .ptr c => c
  | .iter k i e => iterConst k i e
  | .rev k i e => iterConst k i e
  | .bitRef => false
  | .value => true

/-- what all functions return that can be called for an object from which no element can be changed -/
def returnsSealed (k : Cls) : Bool :=
  (decls k).all fun d => [true, false].all fun e => [true, false].all fun c =>
    !(sealed (.obj k e c false) && (!c || d.const)) || sealed (result k e c d.ret)

theorem returnsSealed_all (k : Cls) : returnsSealed k = true := by cases k <;> decide

theorem chosen_mem {k : Cls} {n : Name} {c r : Bool} {d : Decl} (h : chosen k n c r = some d) : d ∈ decls k ∧ d.name = n ∧ viable c r d = true := by
  have := List.mem_of_find?_eq_some h
  simpa using this

theorem call_sealed {k : Cls} {n : Name} {e c r r' : Bool} {t : Ty} (h : call k n e c r = some t) (hs : sealed (.obj k e c r') = true) : sealed t = true := by
  unfold call at h
  cases hc : chosen k n c r with
  | none => rw [hc] at h; cases h
  | some d =>
    rw [hc] at h
    obtain rfl := Option.some.inj h
    obtain ⟨hm, _, hv⟩ := chosen_mem hc
    have hall := List.all_eq_true.mp (returnsSealed_all k) d hm
    have h1 := List.all_eq_true.mp hall e (by cases e <;> simp)
    have h2 := List.all_eq_true.mp h1 c (by cases c <;> simp)
    have hv' : (!c || d.const) = true := (Bool.and_eq_true_iff.mp hv).1
    have hs' : sealed (.obj k e c false) = true := hs
    simpa [hs', hv'] using h2

/-- more `const` seals more -/
theorem sealed_const {k : Cls} {e c c' r r' : Bool} (hs : sealed (.obj k e c r) = true) (h : c = true → c' = true) : sealed (.obj k e c' r') = true := by
  cases k <;> cases e <;> cases c <;> cases c' <;> simp_all [sealed]

theorem step_sealed {t u : Ty} (h : Step t u) (hs : sealed t = true) : sealed u = true := by
  cases h with
  | call h => exact call_sealed h hs
  | asConst => exact sealed_const hs fun _ => rfl
  | move => exact hs
  | name => exact hs
  | @copy k e c r hk => cases k <;> first | exact hs | cases hk
  | @inner k e c r hk =>
    have hc : c = true := hs
    subst hc
    cases k <;> first | (simp [sealed]; done) | cases hk
  | elemConst => rfl
  | elemMove => exact hs
  | elemName => exact hs
  | address => exact hs
  | deref => exact hs
  | ptrConst => rfl
  | iterDeref => exact hs
  | iterArrow => exact hs
  | @iterConv k i e to h =>
    cases k <;> simp_all [convs, sealed, iterConst]
  | reverse => exact hs
  | base => exact hs
  | revDeref => exact hs
  | revArrow => exact hs
  | @revConv k i e to h =>
    cases k <;> simp_all [convs, sealed, iterConst]
  | arrayRefPtr h => exact h hs
  | arrayRefRange hc h =>
    exact h (call_sealed hc (sealed_const (r' := false) hs fun hc => by rw [hc]; rfl))
  | stringRefPtr => rfl
  | optionalRefElem h => exact h (Or.inl hs)
  | optionalRefOptional hc h => exact h (call_sealed hc hs)
  | variantRefElem h =>
    rcases h with ⟨_, rfl⟩ | h
    · exact hs
    · exact h

theorem reach_sealed {t u : Ty} (h : Reach t u) (hs : sealed t = true) : sealed u = true := by
  induction h with
  | refl => exact hs
  | step hst _ ih => exact ih (step_sealed hst hs)

/-- No chain of calls, however long, through iterators, pointers, the reference classes and elements that contain elements, leads from a const object of a class that
contains its elements to an expression that can be used to change one. -/
theorem C105_const {k : Cls} {e r : Bool} {t : Ty} (hk : k.owning = true) (h : Reach (.obj k e true r) t) : ¬ Writable t := by
  have hs : sealed t = true := reach_sealed h (by cases k <;> first | (simp [sealed]; done) | cases hk)
  intro hw
  cases t with
  | elem c r => cases c <;> first | (exact hw.elim) | cases hs
  | bitRef => cases hs
  | _ => cases hw

/-- The same for the reference classes when they are given a const type. -/
theorem C105_const_element {k : Cls} {c r : Bool} {t : Ty} (hk : k.owning = false) (h : Reach (.obj k true c r) t) : ¬ Writable t := by
  have hs : sealed t = true := reach_sealed h (by cases k <;> first | (simp [sealed]; done) | cases hk)
  intro hw
  cases t with
  | elem c r => cases c <;> first | (exact hw.elim) | cases hs
  | bitRef => cases hs
  | _ => cases hw

/-! ### non-const objects -/

/-- functions that are to give const access only -/
def Name.constOnly : Name → Bool
  | .cbegin | .cend | .crbegin | .crend | .cStr | .stringView => true
  | _ => false

/-- functions that give access to the element of an rvalue as an rvalue -/
def Name.forwards : Name → Bool
  | .star | .value | .get | .visit => true
  | _ => false

/-- what the functions are to be, for the constness `c` and value category of the object -/
def Wanted (k : Cls) (n : Name) (c r : Bool) : Ty → Prop
  | .elem c' r' => c' = c ∧ r' = (r && n.forwards)
  | .ptr c' => c' = (c || n.constOnly)
  | .iter k' i e => k' = k ∧ i = (c || n.constOnly) ∧ e = false
  | .rev k' i e => k' = k ∧ i = (c || n.constOnly) ∧ e = false
  | .bitRef => c = false
  | .value => c = true
  | .obj k' _ _ _ => k' = .stringRef ∧ n = .stringView

instance (k : Cls) (n : Name) (c r : Bool) (t : Ty) : Decidable (Wanted k n c r t) := by
  cases t <;> unfold Wanted <;> infer_instance

/-- what a call of every function of a class is to be -/
def wantedAll (k : Cls) : Bool :=
  (decls k).all fun d => [true, false].all fun c => [true, false].all fun r =>
    match call k d.name false c r with
    | some t => decide (Wanted k d.name c r t)
    | none => false

theorem wantedAll_all {k : Cls} (hk : k.owning = true) : wantedAll k = true := by cases k <;> first | (simp [Cls.owning] at hk; done) | decide

theorem mem_two {b : Bool} : b ∈ [true, false] := by cases b <;> simp

/-- Every function that gives access to elements can be called for const and non-const lvalues and rvalues (overload resolution is never ambiguous), and what it gives
is const exactly if the object is or the function is one for const access, and an rvalue exactly if the object is and the function is one that forwards. -/
theorem C105_mutable {k : Cls} {d : Decl} {c r : Bool} (hk : k.owning = true) (hd : d ∈ decls k) : ∃ t, call k d.name false c r = some t ∧ Wanted k d.name c r t := by
  have h := List.all_eq_true.mp (List.all_eq_true.mp (List.all_eq_true.mp (wantedAll_all hk) d hd) c mem_two) r mem_two
  cases hc : call k d.name false c r with
  | none => simp [hc] at h
  | some t => exact ⟨t, rfl, by simpa [hc] using h⟩

/-! ### the reference classes -/

/-- functions of `array_ref` for which the constness of the `array_ref` decides -/
def Name.iterates : Name → Bool
  | .begin | .end | .rbegin | .rend => true
  | _ => false

/-- what functions of a reference are to give: access to the elements as they are declared, whatever the constness of the reference -/
def WantedRef (k : Cls) (n : Name) (e : Bool) : Ty → Prop
  | .elem c r => c = (e || k == .stringRef) ∧ r = false
  | .ptr c => c = (e || k == .stringRef)
  | .iter k' i e' => k' = k ∧ iterConst k' i e' = (e || n.constOnly || k == .stringRef)
  | .rev k' i e' => k' = k ∧ iterConst k' i e' = (e || n.constOnly || k == .stringRef)
  | .obj k' e' _ _ => k' = k ∧ e' = e
  | .bitRef | .value => False

instance (k : Cls) (n : Name) (e : Bool) (t : Ty) : Decidable (WantedRef k n e t) := by
  cases t <;> unfold WantedRef <;> infer_instance

/-- what a call of every function of a reference class is to be -/
def wantedRefAll (k : Cls) : Bool :=
  (decls k).all fun d => [true, false].all fun e => [true, false].all fun c => [true, false].all fun r =>
    (k == .arrayRef && d.name.iterates && c && !e) ||
    match call k d.name e c r with
    | some t => decide (WantedRef k d.name e t)
    | none => false

theorem wantedRefAll_all {k : Cls} (hk : k.owning = false) : wantedRefAll k = true := by cases k <;> first | (simp [Cls.owning] at hk; done) | decide

/-- What a reference gives access to does not depend on its own constness, except for the iterators of `array_ref`. -/
theorem C105_refs_partial {k : Cls} {d : Decl} {e c r : Bool} (hk : k.owning = false) (hd : d ∈ decls k)
    (hx : k = .arrayRef → d.name.iterates = true → c = true → e = true) : ∃ t, call k d.name e c r = some t ∧ WantedRef k d.name e t := by
  have h := List.all_eq_true.mp (List.all_eq_true.mp (List.all_eq_true.mp (List.all_eq_true.mp (wantedRefAll_all hk) d hd) e mem_two) c mem_two) r mem_two
  have hn : (k == .arrayRef && d.name.iterates && c && !e) = false := by
    cases hka : (k == Cls.arrayRef) <;> cases hi : d.name.iterates <;> cases c <;> cases e <;> simp
    have := hx (by simpa using hka) hi rfl
    cases this
  rw [hn, Bool.false_or] at h
  cases hc : call k d.name e c r with
  | none => simp [hc] at h
  | some t => exact ⟨t, rfl, by simpa [hc] using h⟩

/-- `begin`, `end`, `rbegin` and `rend` of a const `array_ref<T>` give iterators for const elements, although `front`, `back`, `data`, `[]`, `at` and a copy of the
`array_ref` give non-const ones. -/
theorem C105_refs_refuted {r : Bool} :
    call .arrayRef .begin false true r = some (.iter .arrayRef true false) ∧ call .arrayRef .end false true r = some (.iter .arrayRef true false) ∧
    call .arrayRef .rbegin false true r = some (.rev .arrayRef true false) ∧ call .arrayRef .rend false true r = some (.rev .arrayRef true false) ∧
    call .arrayRef .index false true r = some (.elem false false) ∧
    (∃ t, Reach (.obj .arrayRef false true r) t ∧ Step t (.iter .arrayRef false false)) := by
  refine ⟨by cases r <;> decide, by cases r <;> decide, by cases r <;> decide, by cases r <;> decide, by cases r <;> decide, .obj .arrayRef false false false, ?_, ?_⟩
  · exact .step (.copy rfl) .refl
  · exact .call (n := .begin) (by decide)

/-! ### non-vacuity -/

/-- an element of an element of a non-const vector of optionals can be changed through an iterator; -/
example : Reach (.obj .vector false false false) (.elem false false) :=
  .step (.call (n := .begin) (by decide : _ = some (.iter .vector false false))) (.step .iterDeref (.step (.inner (k := .optional) (e := false) rfl)
    (.step (.call (n := .star) (by decide : _ = some (.elem false false))) .refl)))

/-- of a const one it can be read -/
example : Reach (.obj .vector false true false) (.elem true false) :=
  .step (.call (n := .begin) (by decide : _ = some (.iter .vector true false))) (.step .iterDeref (.step (.inner (k := .optional) (e := false) rfl)
    (.step (.call (n := .star) (by decide : _ = some (.elem true false))) .refl)))

example : Writable (.elem false false) := trivial
example : call .tuple .get false true true = some (.elem true true) := by decide
example : call .bitset .index false false false = some .bitRef := by decide

end Ptl.Access

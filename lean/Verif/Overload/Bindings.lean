import Verif.Overload.Props
import Verif.Tuple.Model

/-!
# C103: structured bindings

`auto [a, b] = t;` and the like, for tuples (inc/ptl/tuple.hpp:46-60, 89-105, 138-147) and arrays (inc/ptl/array.hpp:37-69, 177-179, 279-285).  Every definition cites the lines it
models, or is a language rule ([dcl.struct.bind]).
-/

namespace Ptl.Bindings

open Overload (Cat Kind binds better Ctor Conv tupleSelect arraySelect)

/-! ### language rules -/

/-- how the names are declared: `auto [..]`, `const auto [..]`, `auto & [..]`, `const auto & [..]`, `auto && [..]` -/
inductive Decl where
  | copy
  | constCopy
  | ref
  | constRef
  | fwd
  deriving DecidableEq, Repr

/-- the initialiser, an expression of the type of the tuple or array.  A call of a function that returns an object is a prvalue. -/
structure Init where
  kind : Kind
  prvalue : Bool
  /-- prvalues are rvalues -/
  ok : prvalue = true → kind.cat = .rvalue

/-- the object that has the elements -/
inductive Obj where
  /-- the one the initialiser denotes or (as prvalue) makes -/
  | source
  /-- a copy of it -/
  | copied
  /-- an object moved from it -/
  | moved
  /-- an object whose only element is made from the source -/
  | wrapped
  deriving DecidableEq, Repr

/-- the hidden variable or reference: its object, whether it is const, whether it is an lvalue reference -/
structure Entity where
  obj : Obj
  const : Bool
  lref : Bool
  deriving DecidableEq, Repr

/-- The object made by a declaration without `&`; `none`: does not compile.  Prvalues make the object itself ([dcl.init]/17.6.1).  `select` is the constructor chosen
for one argument, `nested` tells whether the element can be constructed from the whole. -/
def construct (select : Kind → Option Ctor) (nested : Bool) (e : Init) : Option Obj :=
  if e.prvalue then some .source
  else match select e.kind with
    | some .copy => some .copied
    | some .move => some .moved
    | some .forward => if nested then some .wrapped else none
    | none => none

/-- what the declaration introduces; a reference declared by `auto &` does not bind to non-const rvalues -/
def entity (select : Kind → Option Ctor) (nested : Bool) (e : Init) : Decl → Option Entity
  | .copy => (construct select nested e).map fun o => ⟨o, false, false⟩
  | .constCopy => (construct select nested e).map fun o => ⟨o, true, false⟩
  | .ref => if binds ⟨e.kind.const, .lvalue⟩ e.kind then some ⟨.source, e.kind.const, true⟩ else none
  | .constRef => some ⟨.source, true, true⟩
  | .fwd => some ⟨.source, e.kind.const, decide (e.kind.cat = .lvalue)⟩

/-- the expression whose elements are asked for: an lvalue if the entity is an lvalue reference, otherwise an xvalue -/
def Entity.kind (e : Entity) : Kind := ⟨e.const, if e.lref then .lvalue else .rvalue⟩

/-- an element type, maybe const -/
structure Elem where
  ty : Nat
  const : Bool
  deriving DecidableEq, Repr

/-- a reference to an element, the result of `get` -/
structure Ref where
  index : Nat
  elem : Elem
  cat : Cat
  deriving DecidableEq, Repr

/-- `const T` -/
def Elem.addConst (c : Bool) (t : Elem) : Elem := ⟨t.ty, t.const || c⟩

/-- overload resolution between four overloads that differ in the kind of object they are for -/
def chosen (arg : Kind) : Option Kind :=
  let viable := [(⟨true, .lvalue⟩ : Kind), ⟨false, .lvalue⟩, ⟨true, .rvalue⟩, ⟨false, .rvalue⟩].filter fun p => binds p arg
  viable.find? fun p => viable.all fun q => decide (q = p) || better p q arg

/-- A name: element `index` of the object, which the name treats as one of type `elem` -/
structure Name where
  obj : Obj
  index : Nat
  elem : Elem
  deriving DecidableEq, Repr

/-- The reference `vᵢ` is of type `std::tuple_element<i, E>::type`, an lvalue or rvalue reference like the result of `get`; it binds if the types
agree up to added const -/
def bindName (obj : Obj) (element : Option Elem) (got : Option Ref) : Option Name :=
  match element, got with
  | some t, some r => if t.ty = r.elem.ty ∧ (r.elem.const = true → t.const = true) then some ⟨obj, r.index, t⟩ else none
  | _, _ => none

/-- the declaration of `count` names, at least one: their number must be `std::tuple_size` -/
def bindAll (size count : Nat) (element : Bool → Nat → Option Elem) (get : Kind → Nat → Option Ref) (e : Option Entity) : Option (List Name) :=
  match e with
  | none => none
  | some e => if count = size ∧ 0 < count then (List.range count).mapM fun i => bindName e.obj (element e.const i) (get e.kind i) else none

/-! ### tuples -/

/-- tuple.hpp:49-60 `storage_t::get<Index>`, on a (const) storage `d` levels deep: `(value)` or the base class's -/
def storageGet (const : Bool) : (index d : Nat) → List Elem → Option Ref
  | _, _, [] => none
  | 0, d, head :: _ => some ⟨d, head.addConst const, .lvalue⟩
  | index + 1, d, _ :: tail => storageGet const index (d + 1) tail

/-- `std::move` -/
def Ref.move (r : Ref) : Ref := { r with cat := .rvalue }

/-- tuple.hpp:93-105 `get<Index>`: `*this` is an lvalue in the overloads for rvalues, too -/
def tupleGet (ts : List Elem) (self : Kind) (i : Nat) : Option Ref :=
  match chosen self with
  | some ⟨c, .lvalue⟩ => storageGet c i 0 ts
  | some ⟨c, .rvalue⟩ =>
    match chosen ⟨c, .lvalue⟩ with
    | some ⟨c', .lvalue⟩ => (storageGet c' i 0 ts).map Ref.move
    | _ => none
  | none => none

/-- tuple.hpp:138-147; `std::tuple_element` of a const type adds const -/
def tupleElement (ts : List Elem) (const : Bool) (i : Nat) : Option Elem := (Tuple.tupleElement i ts).map (Elem.addConst const)

/-- names for the elements of a tuple.  Its member template `get` is used.  `nested`: the first element can be constructed from the tuple. -/
def tupleNames (ts : List Elem) (nested : Bool) (d : Decl) (e : Init) (count : Nat) : Option (List Name) :=
  bindAll ts.length count (tupleElement ts) (tupleGet ts) (entity (tupleSelect ts.length) nested e d)

/-! ### arrays -/

/-- array.hpp:38-69 `get<Index>`: found by argument-dependent lookup, as the class has no member of that name -/
def arrayGet (T size : Nat) (self : Kind) (i : Nat) : Option Ref :=
  match chosen self with
  | some ⟨c, cat⟩ => if i < size then some ⟨i, ⟨T, c⟩, cat⟩ else none
  | none => none

/-- array.hpp:283-284 (for every index) -/
def arrayElement (T : Nat) (const : Bool) (_ : Nat) : Option Elem := some ⟨T, const⟩

/-- names for the elements of an array (of a type named `self`) of `T`s -/
def arrayNames (C : Conv) (self T size : Nat) (nested : Bool) (d : Decl) (e : Init) (count : Nat) : Option (List Name) :=
  bindAll size count (arrayElement T) (arrayGet T size) (entity (arraySelect C self T) nested e d)

/-! ### what is asked for -/

/-- the declaration is one that is allowed for built-in arrays -/
def Allowed (d : Decl) (e : Init) : Prop := d = .ref → e.kind.cat = .rvalue → e.kind.const = true

/-- whose elements the names are for -/
def wantedObj (d : Decl) (e : Init) : Obj :=
  if d = .copy ∨ d = .constCopy then
    if e.prvalue then .source else if e.kind.cat = .rvalue ∧ e.kind.const = false then .moved else .copied
  else .source

/-- are they const? -/
def wantedConst (d : Decl) (e : Init) : Bool :=
  match d with
  | .copy => false
  | .constCopy | .constRef => true
  | .ref | .fwd => e.kind.const

/-- name `i` is for element `i` and has its type, const if the element, the declaration, or the object referred to is -/
def Right (ts : List Elem) (d : Decl) (e : Init) (ns : List Name) : Prop :=
  ns.length = ts.length ∧ ∀ (i : Nat) (t : Elem), ts[i]? = some t → ns[i]? = some ⟨wantedObj d e, i, ⟨t.ty, t.const || wantedConst d e⟩⟩

/-! ### proofs -/

theorem chosen_self : ∀ k : Kind, chosen k = some k
  | ⟨false, .lvalue⟩ => by decide
  | ⟨true, .lvalue⟩ => by decide
  | ⟨false, .rvalue⟩ => by decide
  | ⟨true, .rvalue⟩ => by decide

theorem storageGet_eq {c : Bool} : ∀ {ts : List Elem} {i d : Nat}, storageGet c i d ts = (ts[i]?).map fun t => ⟨d + i, t.addConst c, .lvalue⟩
  | [], _, _ => by simp [storageGet]
  | t :: ts, 0, d => by simp [storageGet]
  | t :: ts, i + 1, d => by
    rw [storageGet, storageGet_eq, List.getElem?_cons_succ]
    simp only [Nat.add_assoc, Nat.add_comm 1 i]

theorem tupleGet_eq {ts : List Elem} {k : Kind} {i : Nat} : tupleGet ts k i = (ts[i]?).map fun t => ⟨i, t.addConst k.const, k.cat⟩ := by
  rcases k with ⟨c, _ | _⟩
  · simp only [tupleGet, chosen_self, storageGet_eq, Nat.zero_add]
  · simp only [tupleGet, chosen_self, storageGet_eq, Nat.zero_add, Option.map_map]
    rfl

theorem tupleElement_eq {ts : List Elem} {c : Bool} : ∀ {i : Nat}, tupleElement ts c i = (ts[i]?).map (Elem.addConst c) := by
  suffices h : ∀ {i : Nat} {ts : List Elem}, Tuple.tupleElement i ts = ts[i]? by intro i; rw [tupleElement, h]
  intro i
  induction i with
  | zero => intro ts; cases ts <;> rfl
  | succ i ih =>
    intro ts
    cases ts with
    | nil => rfl
    | cons t ts => rw [Tuple.tupleElement, ih, List.getElem?_cons_succ]

theorem arrayGet_eq {T size : Nat} {k : Kind} {i : Nat} : arrayGet T size k i = ((List.replicate size (⟨T, false⟩ : Elem))[i]?).map fun t => ⟨i, t.addConst k.const, k.cat⟩ := by
  rcases k with ⟨c, cat⟩
  rw [arrayGet, chosen_self, List.getElem?_replicate]
  simp only
  split <;> simp [Elem.addConst]

theorem mapM_some {α β : Type} {f : α → Option β} {g : α → β} : ∀ {l : List α}, (∀ a ∈ l, f a = some (g a)) → l.mapM f = some (l.map g)
  | [], _ => rfl
  | a :: l, h => by
    rw [List.mapM_cons, h a List.mem_cons_self, mapM_some fun b hb => h b (List.mem_cons_of_mem _ hb)]
    rfl

/-- if `get` and `tuple_element` are right, so are the names -/
theorem bindAll_some {ts : List Elem} {element : Bool → Nat → Option Elem} {get : Kind → Nat → Option Ref} {count : Nat} {e : Entity}
    (h1 : ∀ i, i < ts.length → element e.const i = (ts[i]?).map (Elem.addConst e.const))
    (h2 : ∀ i, get e.kind i = (ts[i]?).map fun t => ⟨i, t.addConst e.const, e.kind.cat⟩) :
    bindAll ts.length count element get (some e) =
      if count = ts.length ∧ 0 < count then some ((List.range count).map fun i => ⟨e.obj, i, ((ts[i]?).map (Elem.addConst e.const)).getD ⟨0, false⟩⟩) else none := by
  unfold bindAll
  simp only
  split
  · next hc =>
    apply mapM_some
    intro i hi
    have hi' : i < ts.length := hc.1 ▸ List.mem_range.1 hi
    rw [h1 i hi', h2 i, List.getElem?_eq_getElem hi']
    simp [bindName]
  · rfl

theorem right_some {ts : List Elem} {d : Decl} {e : Init} {o : Obj} {c : Bool} (ho : o = wantedObj d e) (hc : c = wantedConst d e) :
    Right ts d e ((List.range ts.length).map fun i => ⟨o, i, ((ts[i]?).map (Elem.addConst c)).getD ⟨0, false⟩⟩) := by
  subst ho hc
  refine ⟨by simp, fun i t ht => ?_⟩
  have hi := (List.getElem?_eq_some_iff.1 ht).1
  rw [List.getElem?_map, List.getElem?_range hi]
  simp [ht, Elem.addConst]

theorem right_obj {ts : List Elem} {d : Decl} {e : Init} {o : Obj} {c : Bool} (hn : 0 < ts.length)
    (h : Right ts d e ((List.range ts.length).map fun i => ⟨o, i, ((ts[i]?).map (Elem.addConst c)).getD ⟨0, false⟩⟩)) : o = wantedObj d e := by
  have := h.2 0 ts[0] (List.getElem?_eq_getElem hn)
  rw [List.getElem?_map, List.getElem?_range hn] at this
  simp at this
  exact this.1

/-- the entity is as asked for -/
def Good (select : Kind → Option Ctor) (d : Decl) (e : Init) : Prop :=
  d = .ref ∨ d = .constRef ∨ d = .fwd ∨ e.prvalue = true ∨ select e.kind = some (Overload.wanted e.kind)

theorem entity_good {select : Kind → Option Ctor} {nested : Bool} {d : Decl} {e : Init} (hg : Good select d e) (ha : Allowed d e) :
    ∃ r, entity select nested e d = some r ∧ r.obj = wantedObj d e ∧ r.const = wantedConst d e := by
  have hcon : (d = .copy ∨ d = .constCopy) → construct select nested e = some (wantedObj d e) := by
    intro hd
    rw [wantedObj, if_pos hd, construct]
    split
    · rfl
    · next hp =>
      have hs : select e.kind = some (Overload.wanted e.kind) := by
        rcases hg with h | h | h | h | h
        · subst h; rcases hd with h | h <;> cases h
        · subst h; rcases hd with h | h <;> cases h
        · subst h; rcases hd with h | h <;> cases h
        · exact (hp h).elim
        · exact h
      rw [hs, Overload.wanted]
      by_cases hc : e.kind.cat = .rvalue ∧ e.kind.const = false
      · rw [if_pos hc, if_pos hc]
      · rw [if_neg hc, if_neg hc]
  cases d with
  | copy => exact ⟨_, by rw [entity, hcon (.inl rfl)]; rfl, rfl, rfl⟩
  | constCopy => exact ⟨_, by rw [entity, hcon (.inr rfl)]; rfl, rfl, rfl⟩
  | ref =>
    refine ⟨⟨.source, e.kind.const, true⟩, ?_, rfl, rfl⟩
    have hb : binds ⟨e.kind.const, .lvalue⟩ e.kind = true := by
      have := ha rfl
      rcases e with ⟨⟨_ | _, _ | _⟩, _, _⟩ <;> simp_all [binds]
    rw [entity, if_pos hb]
  | constRef => exact ⟨_, rfl, rfl, rfl⟩
  | fwd => exact ⟨_, rfl, rfl, rfl⟩

theorem entity_bad {select : Kind → Option Ctor} {nested : Bool} {d : Decl} {e : Init} {r : Entity} (hg : ¬ Good select d e) (hr : entity select nested e d = some r) :
    r.obj ≠ wantedObj d e := by
  unfold Good at hg
  have hd : d = .copy ∨ d = .constCopy := by cases d <;> simp_all
  have hp : e.prvalue = false := by cases h : e.prvalue <;> simp_all
  have hs : select e.kind ≠ some (Overload.wanted e.kind) := fun h => hg (.inr (.inr (.inr (.inr h))))
  have hcon : construct select nested e ≠ some (wantedObj d e) := by
    rw [wantedObj, if_pos hd, construct, hp]
    simp only [Bool.false_eq_true, if_false]
    unfold Overload.wanted at hs
    split at hs
    · next hc =>
      rw [if_pos hc]
      cases h : select e.kind with
      | none => simp
      | some c => cases c <;> cases nested <;> simp_all
    · next hc =>
      rw [if_neg hc]
      cases h : select e.kind with
      | none => simp
      | some c => cases c <;> cases nested <;> simp_all
  intro ho
  rcases hd with rfl | rfl
  all_goals
    simp only [entity, Option.map_eq_some_iff] at hr
    obtain ⟨o, h1, rfl⟩ := hr
    exact hcon (h1.trans (congrArg some ho))

theorem not_allowed {select : Kind → Option Ctor} {nested : Bool} {d : Decl} {e : Init} (ha : ¬ Allowed d e) : entity select nested e d = none := by
  have hd : d = .ref := Classical.byContradiction fun h => ha fun h' => (h h').elim
  subst hd
  have : binds ⟨e.kind.const, .lvalue⟩ e.kind = false := by
    unfold Allowed at ha
    rcases e with ⟨⟨_ | _, _ | _⟩, _, _⟩ <;> simp_all [binds]
  rw [entity, this]
  rfl

theorem names_iff {ts : List Elem} {element : Bool → Nat → Option Elem} {get : Kind → Nat → Option Ref} {count : Nat} {select : Kind → Option Ctor} {nested : Bool}
    {d : Decl} {e : Init} (h1 : ∀ c i, i < ts.length → element c i = (ts[i]?).map (Elem.addConst c))
    (h2 : ∀ k i, get k i = (ts[i]?).map fun t => ⟨i, t.addConst k.const, k.cat⟩) :
    (∃ ns, bindAll ts.length count element get (entity select nested e d) = some ns ∧ Right ts d e ns) ↔
      count = ts.length ∧ 0 < count ∧ Allowed d e ∧ Good select d e := by
  constructor
  · rintro ⟨ns, hb, hr⟩
    cases he : entity select nested e d with
    | none => rw [he] at hb; cases hb
    | some r =>
      rw [he, bindAll_some (h1 r.const) (h2 r.kind)] at hb
      split at hb
      · next hc =>
        cases hb
        have ha : Allowed d e := Classical.byContradiction fun h => by rw [not_allowed h] at he; cases he
        refine ⟨hc.1, hc.2, ha, Classical.byContradiction fun h => entity_bad h he ?_⟩
        rw [hc.1] at hr
        exact right_obj (hc.1 ▸ hc.2) hr
      · cases hb
  · rintro ⟨hc, hp, ha, hg⟩
    obtain ⟨r, he, ho, hk⟩ := entity_good (nested := nested) hg ha
    rw [he, bindAll_some (h1 r.const) (h2 r.kind), if_pos ⟨hc, hp⟩]
    subst hc
    exact ⟨_, rfl, right_some ho hk⟩

/-! ## C103 -/

/-- **C103**, tuples: exactly when structured bindings compile and are right.  Copies of one-element tuples are, from prvalues, const lvalues and non-const rvalues. -/
theorem C103_tuple_exact {ts : List Elem} {nested : Bool} {d : Decl} {e : Init} {count : Nat} :
    (∃ ns, tupleNames ts nested d e count = some ns ∧ Right ts d e ns) ↔
      count = ts.length ∧ 0 < count ∧ Allowed d e ∧
      (d = .ref ∨ d = .constRef ∨ d = .fwd ∨ e.prvalue = true ∨ count ≠ 1 ∨ e.kind = ⟨true, .lvalue⟩ ∨ e.kind = ⟨false, .rvalue⟩) := by
  rw [tupleNames, names_iff (fun _ _ _ => tupleElement_eq) (fun _ _ => tupleGet_eq)]
  constructor
  · rintro ⟨hc, hp, ha, hg⟩
    refine ⟨hc, hp, ha, ?_⟩
    rcases hg with h | h | h | h | h
    · exact .inl h
    · exact .inr (.inl h)
    · exact .inr (.inr (.inl h))
    · exact .inr (.inr (.inr (.inl h)))
    · by_cases h1 : count = 1
      · rw [← hc, h1] at h
        rcases e with ⟨⟨_ | _, _ | _⟩, p, hp⟩
        · exact absurd h (show tupleSelect 1 ⟨false, .lvalue⟩ ≠ some (Overload.wanted ⟨false, .lvalue⟩) by decide)
        · exact .inr (.inr (.inr (.inr (.inr (.inr rfl)))))
        · exact .inr (.inr (.inr (.inr (.inr (.inl rfl)))))
        · exact absurd h (show tupleSelect 1 ⟨true, .rvalue⟩ ≠ some (Overload.wanted ⟨true, .rvalue⟩) by decide)
      · exact .inr (.inr (.inr (.inr (.inl h1))))
  · rintro ⟨hc, hp, ha, hg⟩
    refine ⟨hc, hp, ha, ?_⟩
    rcases hg with h | h | h | h | h | h
    · exact .inl h
    · exact .inr (.inl h)
    · exact .inr (.inr (.inl h))
    · exact .inr (.inr (.inr (.inl h)))
    · exact .inr (.inr (.inr (.inr (Overload.C74_tuple_partial _ (hc ▸ h) _))))
    · by_cases h1 : ts.length = 1
      · rw [Good, h1]
        exact .inr (.inr (.inr (.inr (Overload.C74_tuple_one_partial _ h))))
      · exact .inr (.inr (.inr (.inr (Overload.C74_tuple_partial _ h1 _))))

/-- **C103** for tuples of several elements.  Missing: those of one, see `C103_tuple_refuted`. -/
theorem C103_tuple_partial {ts : List Elem} {nested : Bool} {d : Decl} {e : Init} (hn : 1 < ts.length) (ha : Allowed d e) :
    ∃ ns, tupleNames ts nested d e ts.length = some ns ∧ Right ts d e ns :=
  C103_tuple_exact.2 ⟨rfl, by omega, ha, .inr (.inr (.inr (.inr (.inl (by omega)))))⟩

/-- **C103** is false for copies of one-element tuples: `auto [a] = t` does not compile unless the element can be constructed from the tuple; then `a` is
not its element but one made from the tuple -/
theorem C103_tuple_refuted (t : Elem) (nested : Bool) :
    tupleNames [t] nested .copy ⟨⟨false, .lvalue⟩, false, (fun h => nomatch h)⟩ 1 = if nested then some [⟨.wrapped, 0, t⟩] else none := by
  cases nested <;> simp [tupleNames, entity, construct, Overload.C74_tuple_refuted, bindAll, bindName, tupleElement_eq, tupleGet_eq, Elem.addConst, Entity.kind, List.range_succ]

/-- **C103**, arrays: exactly when structured bindings compile and are right: not for copies of const xvalues.  (The element type converts to the array, through the
forwarding constructor.) -/
theorem C103_array_exact {C : Conv} {self T size : Nat} {nested : Bool} {d : Decl} {e : Init} {count : Nat} (hself : C.conv T self = true) :
    (∃ ns, arrayNames C self T size nested d e count = some ns ∧ Right (List.replicate size ⟨T, false⟩) d e ns) ↔
      count = size ∧ 0 < count ∧ Allowed d e ∧
      (d = .ref ∨ d = .constRef ∨ d = .fwd ∨ e.prvalue = true ∨ e.kind ≠ ⟨true, .rvalue⟩) := by
  have hl : size = (List.replicate size (⟨T, false⟩ : Elem)).length := List.length_replicate.symm
  have hn := names_iff (ts := List.replicate size ⟨T, false⟩) (element := arrayElement T) (get := arrayGet T size) (count := count) (nested := nested)
    (select := arraySelect C self T) (d := d) (e := e)
    (fun c i hi => by rw [List.length_replicate] at hi; simp [arrayElement, hi, Elem.addConst]) (fun _ _ => arrayGet_eq)
  rw [← hl] at hn
  rw [arrayNames, hn]
  have hs : arraySelect C self T e.kind = some (Overload.wanted e.kind) ↔ e.kind ≠ ⟨true, .rvalue⟩ := by
    constructor
    · intro h hk
      rw [hk, Overload.C74_array_refuted C self T hself] at h
      exact absurd h (by decide)
    · exact Overload.C74_array_partial C self T e.kind
  unfold Good
  rw [hs]

/-- **C103** for arrays.  Missing: copies of const xvalues, see `C103_array_refuted`. -/
theorem C103_array_partial {C : Conv} {self T size : Nat} {nested : Bool} {d : Decl} {e : Init} (hn : 0 < size) (ha : Allowed d e)
    (he : e.kind ≠ ⟨true, .rvalue⟩) :
    ∃ ns, arrayNames C self T size nested d e size = some ns ∧ Right (List.replicate size ⟨T, false⟩) d e ns := by
  have hl : size = (List.replicate size (⟨T, false⟩ : Elem)).length := List.length_replicate.symm
  have hn' := names_iff (ts := List.replicate size ⟨T, false⟩) (element := arrayElement T) (get := arrayGet T size) (count := size) (nested := nested)
    (select := arraySelect C self T) (d := d) (e := e)
    (fun c i hi => by rw [List.length_replicate] at hi; simp [arrayElement, hi, Elem.addConst]) (fun _ _ => arrayGet_eq)
  rw [← hl] at hn'
  exact hn'.2 ⟨rfl, hn, ha, .inr (.inr (.inr (.inr (Overload.C74_array_partial C self T e.kind he))))⟩

/-- **C103** is false for copies of const xvalues: `auto [a, b] = std::move(constArray)` does not compile -/
theorem C103_array_refuted {C : Conv} {self T size : Nat} (hself : C.conv T self = true) (count : Nat) :
    arrayNames C self T size false .copy ⟨⟨true, .rvalue⟩, false, (fun h => nomatch h)⟩ count = none := by
  simp [arrayNames, entity, construct, Overload.C74_array_refuted C self T hself, bindAll]

/-- names for different elements are names for different objects, and every element has a name -/
theorem C103_distinct {ts : List Elem} {nested : Bool} {d : Decl} {e : Init} {count : Nat} {ns : List Name} (h : tupleNames ts nested d e count = some ns) :
    ns.map (·.index) = List.range ts.length := by
  unfold tupleNames at h
  cases he : entity (tupleSelect ts.length) nested e d with
  | none => rw [he] at h; cases h
  | some r =>
    rw [he, bindAll_some (fun _ _ => tupleElement_eq) (fun _ => tupleGet_eq)] at h
    split at h
    · next hc =>
      cases h
      rw [List.map_map, hc.1]
      exact List.map_id' _
    · cases h

/-! ### concrete cases -/

/-- `tuple<int, const double> t; auto & [i, d] = t;`: `i` can be changed, `d` cannot -/
example : tupleNames [⟨0, false⟩, ⟨1, true⟩] false .ref ⟨⟨false, .lvalue⟩, false, (fun h => nomatch h)⟩ 2 = some [⟨.source, 0, ⟨0, false⟩⟩, ⟨.source, 1, ⟨1, true⟩⟩] := by decide
/-- `const auto [a, b] = std::move(t);` -/
example : tupleNames [⟨0, false⟩, ⟨1, false⟩] false .constCopy ⟨⟨false, .rvalue⟩, false, (fun h => nomatch h)⟩ 2 = some [⟨.moved, 0, ⟨0, true⟩⟩, ⟨.moved, 1, ⟨1, true⟩⟩] := by decide
/-- too few names -/
example : tupleNames [⟨0, false⟩, ⟨1, false⟩] false .copy ⟨⟨false, .lvalue⟩, false, (fun h => nomatch h)⟩ 1 = none := by decide
/-- `auto [a] = f();` with a one-element tuple -/
example : tupleNames [⟨0, false⟩] false .copy ⟨⟨false, .rvalue⟩, true, fun _ => rfl⟩ 1 = some [⟨.source, 0, ⟨0, false⟩⟩] := by decide

end Ptl.Bindings

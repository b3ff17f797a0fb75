import Verif.Nested.VecProps
import Verif.Nested.Rotate
import Verif.Nested.Leaves
import Verif.Str.Demo

/-!
# C104: containers of containers

`Ty`: the types that can be built from numbers, strings, bitsets and classes of the client with `vector`, `array`, `optional`, `tuple` and `variant`, to any depth.  For each, its
values, and the special member functions and `swap`, with those of the parts called as the headers do.
-/

namespace Ptl.Nested

/-- nested types.  Arrays have `n + 1` elements, tuples `n + 1` components and variants `n + 1` alternatives. -/
inductive Ty : Type 1
  /-- trivially copyable types: numbers, pointers, `string_ref`, `array_ref` -/
  | scalar (ν : Type)
  | string
  | bitset (n : Nat)
  /-- any class of the client that keeps the same rules -/
  | client (σ ν : Type) (C : Class σ) (Rep : σ → (Nat → Option ν) → Prop) (Clean : σ → Prop) (regular : Regular C Rep Clean)
  /-- `L`: the limit on sizes (`max_size()`); `R`: how `std::rotate` swaps -/
  | vector (T : Ty) (L : Vec.Limit) (R : Vec.Rotation) (correct : R.Correct)
  | array (T : Ty) (n : Nat)
  | optional (T : Ty)
  | tuple (n : Nat) (T : Fin (n + 1) → Ty)
  | variant (n : Nat) (T : Fin (n + 1) → Ty)

namespace Ty

/-- **Spec.**  The values of a type -/
def Val : Ty → Type
  | scalar ν => ν
  | string => List UInt8
  | bitset n => Fin n → Bool
  | client _ ν _ _ _ _ => ν
  | vector T _ _ _ => List T.Val
  | array T n => Fin (n + 1) → T.Val
  | optional T => Option T.Val
  | tuple _ T => ∀ k, (T k).Val
  | variant _ T => Σ k, (T k).Val

/-- the part of the program state objects of this type live in -/
def State : Ty → Type
  | scalar ν => Nat → Option ν
  | string => Str.St
  | bitset _ => Bitset.St
  | client σ _ _ _ _ _ => σ
  | vector T _ _ _ => Vec.St T.State
  | array T _ => T.State
  | optional T => With Flags T.State
  | tuple _ T => ∀ k, (T k).State
  | variant n T => With (Types (Fin (n + 1))) (∀ k, (T k).State)

/-- the functions of a type -/
def cls : (T : Ty) → Class T.State
  | scalar ν => Nested.scalar ν
  | string => strClass
  | bitset n => bitClass n
  | client _ _ C _ _ _ => C
  | vector T L R _ => Vec.vector T.cls L R
  | array T n => Nested.array T.cls n
  | optional T => Nested.optional T.cls
  | tuple _ T => Nested.tuple fun k => (T k).cls
  | variant _ T => Nested.variant fun k => (T k).cls.nth k

/-- in a state, these objects of the type are alive and have these values -/
def Rep : (T : Ty) → T.State → (Nat → Option T.Val) → Prop
  | scalar _ => fun s V => s = V
  | string => Str.Reach
  | bitset n => BitRep n
  | client _ _ _ Rep _ _ => Rep
  | vector T L _ _ => Vec.VecRep L T.Rep
  | array T _ => fun s V => T.Rep s (flat (members V))
  | optional T => OptRep T.Rep
  | tuple _ T => fun s V => ∀ k, (T k).Rep (s k) (members V k)
  | variant _ T => VarRep fun s W => ∀ k, (T k).Rep (s k) (W k)

/-- nothing is left over: no objects, no elements or members of any, no memory -/
def Clean : (T : Ty) → T.State → Prop
  | scalar _ => fun s => ∀ i, s i = none
  | string => fun s => (∀ p, s.mem p = none) ∧ ∀ i, s.obj (.var i) = none
  | bitset _ => fun s => ∀ i, s.obj i = none
  | client _ _ _ _ Clean _ => Clean
  | vector T _ _ _ => fun s => T.Clean s.mem ∧ (∀ b, s.own.blk b = none) ∧ ∀ i, s.own.objs i = none
  | array T _ => T.Clean
  | optional T => fun s => T.Clean s.mem ∧ ∀ i, s.own i = none
  | tuple _ T => fun s => ∀ k, (T k).Clean (s k)
  | variant _ T => fun s => (∀ k, (T k).Clean (s.mem k)) ∧ ∀ i, s.own i = none

/-- all types keep the rules -/
theorem regular : (T : Ty) → Regular T.cls T.Rep T.Clean
  | scalar ν => scalar_regular ν
  | string => str_regular
  | bitset n => bit_regular n
  | client _ _ _ _ _ h => h
  | vector T _ _ hR => Vec.vector_regular T.regular hR
  | array T n => array_regular T.regular n
  | optional T => optional_regular T.regular
  | tuple _ T => tuple_regular fun k => (T k).regular
  | variant _ T => variant_regular (nth_family fun k => (T k).regular)

end Ty

/-! ### calls -/

/-- calls of a client -/
inductive Op
  | copy (i j : Nat) | move (i j : Nat) | assign (i j : Nat) | moveAssign (i j : Nat) | swap (i j : Nat) | dtor (i : Nat)

/-- … of a class -/
def Op.run {σ : Type} (C : Class σ) : Op → M σ Unit
  | copy i j => C.copy i j
  | move i j => C.move i j
  | assign i j => C.assign i j
  | moveAssign i j => C.moveAssign i j
  | swap i j => C.swap i j
  | dtor i => C.dtor i

/-- **Spec.**  Constructors make new objects; everything else needs them alive -/
def Op.Allowed {ν : Type} (V : Nat → Option ν) : Op → Prop
  | copy i j | move i j => V i = none ∧ V j ≠ none
  | assign i j | moveAssign i j | swap i j => V i ≠ none ∧ V j ≠ none
  | dtor i => V i ≠ none

/-- **Spec.**  What a call that returns does with the values.  The source of a move has some value afterwards. -/
def Op.Does {ν : Type} (V V' : Nat → Option ν) : Op → Prop
  | copy i j => V' = upd V i (V j)
  | move i j => ∃ y, V' = upd (upd V j (some y)) i (V j)
  | assign i j => V' = upd V i (V j)
  | moveAssign i j => ∃ y, V' = if i = j then upd V j (some y) else upd (upd V j (some y)) i (V j)
  | swap i j => V' = upd (upd V i (V j)) j (V i)
  | dtor i => V' = upd V i none

/-- **Spec.**  What a call that throws does with the values: only copies may throw.  A failed construction leaves everything as it was; after a failed assignment the target has some value. -/
def Op.Fails {ν : Type} (V V' : Nat → Option ν) : Op → Prop
  | copy _ _ => V' = V
  | assign i _ => ∃ x, V' = upd V i (some x)
  | _ => False

/-- **C104** for every nested type: a call on objects that are alive returns having done what is specified, or throws what it may throw with the specified effect.  It is never
undefined, and never ends the program. -/
theorem C104_call (T : Ty) {s : T.State} {V : Nat → Option T.Val} (h : T.Rep s V) {op : Op} (ha : op.Allowed V) :
    (∃ s' V', op.run T.cls s = .ok () s' ∧ T.Rep s' V' ∧ op.Does V V') ∨ ∃ e s' V', op.run T.cls s = .exc e s' ∧ T.Rep s' V' ∧ op.Fails V V' := by
  have R := T.regular
  cases op with
  | copy i j =>
    obtain ⟨hi, hj⟩ := ha
    obtain ⟨y, hj⟩ := Option.ne_none_iff_exists'.1 hj
    rcases R.copy h hi hj with ⟨s', h1, h2⟩ | ⟨e, s', h1, h2⟩
    · exact .inl ⟨s', _, h1, h2, by rw [← hj]; rfl⟩
    · exact .inr ⟨e, s', _, h1, h2, rfl⟩
  | move i j =>
    obtain ⟨hi, hj⟩ := ha
    obtain ⟨y, hj⟩ := Option.ne_none_iff_exists'.1 hj
    obtain ⟨s', y', h1, h2⟩ := R.move h hi hj
    exact .inl ⟨s', _, h1, h2, y', by rw [← hj]⟩
  | assign i j =>
    obtain ⟨hi, hj⟩ := ha
    obtain ⟨x, hi⟩ := Option.ne_none_iff_exists'.1 hi
    obtain ⟨y, hj⟩ := Option.ne_none_iff_exists'.1 hj
    by_cases hij : i = j
    · subst hij
      rcases R.assignSelf h hi with ⟨s', h1, h2⟩ | ⟨e, s', h1, x', h2⟩
      · exact .inl ⟨s', _, h1, h2, (upd_self V i).symm⟩
      · exact .inr ⟨e, s', _, h1, h2, x', rfl⟩
    · rcases R.assign h hij hi hj with ⟨s', h1, h2⟩ | ⟨e, s', h1, x', h2⟩
      · exact .inl ⟨s', _, h1, h2, by rw [← hj]; rfl⟩
      · exact .inr ⟨e, s', _, h1, h2, x', rfl⟩
  | moveAssign i j =>
    obtain ⟨hi, hj⟩ := ha
    obtain ⟨x, hi⟩ := Option.ne_none_iff_exists'.1 hi
    obtain ⟨y, hj⟩ := Option.ne_none_iff_exists'.1 hj
    by_cases hij : i = j
    · subst hij
      obtain ⟨s', x', h1, h2⟩ := R.moveAssignSelf h hi
      exact .inl ⟨s', _, h1, h2, x', by rw [if_pos rfl]⟩
    · obtain ⟨s', y', h1, h2⟩ := R.moveAssign h hij hi hj
      exact .inl ⟨s', _, h1, h2, y', by rw [if_neg hij, ← hj]⟩
  | swap i j =>
    obtain ⟨hi, hj⟩ := ha
    obtain ⟨x, hi⟩ := Option.ne_none_iff_exists'.1 hi
    obtain ⟨y, hj⟩ := Option.ne_none_iff_exists'.1 hj
    obtain ⟨s', h1, h2⟩ := R.swap h hi hj
    exact .inl ⟨s', _, h1, h2, by rw [← hi, ← hj]; rfl⟩
  | dtor i =>
    obtain ⟨x, hi⟩ := Option.ne_none_iff_exists'.1 ha
    obtain ⟨s', h1, h2⟩ := R.dtor h hi
    exact .inl ⟨s', _, h1, h2, rfl⟩

/-- **C104** moves, swaps and destructors never throw, at any depth -/
theorem C104_nothrow (T : Ty) {s : T.State} {V : Nat → Option T.Val} (h : T.Rep s V) {op : Op} (ha : op.Allowed V) (hc : ∀ i j, op ≠ .copy i j ∧ op ≠ .assign i j) :
    ∃ s' V', op.run T.cls s = .ok () s' ∧ T.Rep s' V' ∧ op.Does V V' := by
  rcases C104_call T h ha with h | ⟨e, s', V', _, _, hf⟩
  · exact h
  · cases op with
    | copy i j => exact absurd rfl (hc i j).1
    | assign i j => exact absurd rfl (hc i j).2
    | _ => exact hf.elim

/-- **C104** the state determines which objects are alive, and their values -/
theorem C104_values (T : Ty) {s : T.State} {V V' : Nat → Option T.Val} (h : T.Rep s V) (h' : T.Rep s V') : V = V' := T.regular.determ h h'

/-- **C104** once all objects of the outer type are destroyed, all their members and elements are too, at every depth, and all memory is released -/
theorem C104_no_leak (T : Ty) {s : T.State} (h : T.Rep s (fun _ => none)) : T.Clean s := T.regular.clean h

/-! ### an example: a `vector<optional<string>>` with a short and a long string -/

/-- `max_size()` of vectors of 32-byte elements -/
def limit : Vec.Limit := ⟨288230376151711743, by decide, by decide⟩

/-- the type -/
def demoTy : Ty := .vector (.optional .string) limit Vec.bubbling Vec.bubbling_correct

/-- a state in which vector 0 has the two strings -/
theorem demo_rep : ∃ s : Vec.St (With Flags Str.St), Vec.VecRep limit (OptRep Str.Reach) s (upd (fun _ => none) 0 (some [some Str.abc, some Str.thirty])) := by
  obtain ⟨t, ht, _⟩ := Str.demo
  have ht := ht.reach
  let h0 : Vec.Heap := ⟨fun _ => none, fun _ => none, 0, fun _ => false⟩
  have hI : Vec.Inv limit h0 (fun _ => none) (fun _ => ([] : List (Option (List UInt8)))) := by
    constructor
    · intro _ _; rfl
    · intro _ _ h; cases h
    · intro _ _ _ _ _ h; cases h
    · intro _ _ h; cases h
    · intro _ _; rfl
    · intro _ _; rfl
  have hA := hI.alloc (i := 1) (c := 10) (by intro _ h; cases h) (Nat.le_of_lt limit.min) h0.fails
  have hB := hA.resize (i := 1) (b := 0) (o := ⟨some 0, 10, 0⟩) (ys := [some Str.abc, some Str.thirty]) (upd_same h0.objs 1 _) rfl (by decide)
  generalize ({ objs := _, blk := _, next := _, fails := _ } : Vec.Heap) = h2 at hB
  refine ⟨⟨h2, ⟨fun p => if p < 2 then some true else none, t⟩⟩, ?_⟩
  show Vec.RawRep limit (OptRep Str.Reach) _ (outer _)
  have ho : outer (fun _ => none : Nat → Option (List (Option (List UInt8)))) = fun _ => none := by funext p; cases p <;> rfl
  rw [outer_upd, ho]
  rw [upd_upd] at hB
  refine ⟨_, hB, ?_⟩
  have hc : Vec.cells limit (upd (fun _ => []) 0 [some Str.abc, some Str.thirty]) = fun p => (Str.demoV p).map some := by
    funext p
    show (upd (fun _ => []) 0 [some Str.abc, some Str.thirty] (p / (limit.max + 1)))[p % (limit.max + 1)]? = _
    by_cases hp : p < limit.max + 1
    · rw [Nat.div_eq_of_lt hp, Nat.mod_eq_of_lt hp, upd_same]
      rcases p with _ | _ | p
      · rfl
      · rfl
      · simp [Str.demoV, upd]
    · have : p / (limit.max + 1) ≠ 0 := fun h0 => hp (Nat.lt_of_div_eq_zero (Nat.succ_pos _) h0)
      have h2 : 1 < p := by have := limit.min; omega
      rw [upd_ne _ _ this]
      simp [Str.demoV, upd, show p ≠ 1 by omega, show p ≠ 0 by omega]
  rw [hc]
  refine ⟨?_, ?_⟩
  · show Str.Reach t fun p => ((Str.demoV p).map some).join
    have : (fun p => ((Str.demoV p).map some).join) = Str.demoV := by funext p; cases Str.demoV p <;> rfl
    rw [this]
    exact ht
  · funext p
    rcases p with _ | _ | p
    · rfl
    · rfl
    · simp [Str.demoV, upd]

theorem demo : ∃ s, demoTy.Rep s (upd (fun _ => none) 0 (some [some Str.abc, some Str.thirty])) := demo_rep

/-- copying it gives an equal vector, or throws and nothing has changed; moving and swapping it never fail -/
example : ∃ s V, demoTy.Rep s V ∧ V 0 = some [some Str.abc, some Str.thirty] ∧ (Op.copy 1 0).Allowed V ∧ (Op.move 1 0).Allowed V := by
  obtain ⟨s, h⟩ := demo
  exact ⟨s, _, h, rfl, ⟨rfl, by intro h; cases h⟩, ⟨rfl, by intro h; cases h⟩⟩

end Ptl.Nested

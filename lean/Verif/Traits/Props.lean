import Verif.Traits.Model
import Verif.Layout.Props

/-!
# C94, C95: which of the library's classes can be element types of which
-/

namespace Ptl.Traits

/-! ### specification -/

/-- an element type as the documentation has it: a value that can be made from nothing, copied, moved and swapped without failure -/
structure Regular (t : Traits) : Prop where
  std : t.std = true
  dflt : t.dflt ≠ none
  copyC : t.copyC ≠ none
  moveC : t.moveC = some true
  copyA : t.copyA ≠ none
  moveA : t.moveA = some true
  dtor : t.dtor = some true
  swap : t.swap = some true

/-- … without the first -/
structure Value (t : Traits) : Prop where
  std : t.std = true
  copyC : t.copyC ≠ none
  moveC : t.moveC = some true
  copyA : t.copyA ≠ none
  moveA : t.moveA = some true
  dtor : t.dtor = some true
  swap : t.swap = some true

/-- … and without assignment -/
structure Movable (t : Traits) : Prop where
  std : t.std = true
  copyC : t.copyC ≠ none
  moveC : t.moveC = some true
  dtor : t.dtor = some true
  swap : t.swap = some true

mutual
/-- types that say they are default constructible: a variant if its first alternative does -/
def SaysDefault : Ty → Prop
  | .other _ t => t.dflt ≠ none ∧ t.dtor ≠ none
  | .const T => SaysDefault T
  | .variant Ts => FirstSaysDefault Ts
  | .variantRef _ => False
  | .functionRef _ => False
  | _ => True

def FirstSaysDefault : List Ty → Prop
  | [] => False
  | T :: _ => SaysDefault T
end

mutual
/-- types that are copied without failure -/
def CopiesSafely : Ty → Prop
  | .other _ t => t.copyC = some true
  | .const T => CopiesSafely T
  | .array T n => n = 0 ∨ CopiesSafely T
  | .tuple Ts => AllCopySafely Ts
  | .bitset _ | .arrayRef _ | .stringRef | .optionalRef _ | .functionRef _ => True
  | .vector _ | .string | .optional _ | .variant _ | .variantRef _ => False

def AllCopySafely : List Ty → Prop
  | [] => True
  | T :: Ts => CopiesSafely T ∧ AllCopySafely Ts
end

/-- a tuple of at most one component, which is not `const` -/
def SmallTuple : List Ty → Prop
  | [] => True
  | [T] => T.isConst = false
  | _ => False

/-- what goes into a vector, an array or a tuple -/
def FitsVector : Ty → Prop
  | .other _ t => Regular t
  | .const _ => False
  | .variant Ts => FirstSaysDefault Ts
  | .tuple Ts => SmallTuple Ts
  | .variantRef _ => False
  | .functionRef _ => False
  | _ => True

/-- what goes into an optional -/
def FitsOptional : Ty → Prop
  | .other _ t => Value t
  | .const _ => False
  | .tuple Ts => SmallTuple Ts
  | .variantRef _ => False
  | _ => True

/-- a tuple of at most one component, which, if `const`, is copied without failure -/
def MovableTuple : List Ty → Prop
  | [] => True
  | [T] => T.isConst = true → CopiesSafely T
  | _ => False

/-- what goes into a variant -/
def FitsVariant : Ty → Prop
  | .other _ t => Movable t
  | .const _ => False
  | .tuple Ts => MovableTuple Ts
  | .variantRef _ => False
  | _ => True

/-! ### what the declarations amount to -/

theorem traitsAll_eq (P : Nat) (Ts : List Ty) : traitsAll P Ts = Ts.map (traits P) := by
  induction Ts with
  | nil => rfl
  | cons T Ts ih => simp [traitsAll, ih]

theorem optional_traits (t : Traits) : (optionalClass t).traits =
    ⟨t.std, true, some true, some false, some true, some false, some true, some true, some true, Layout.optional t.lay⟩ := by
  cases h : t.std <;>
  simp [optionalClass, Class.traits, Class.stdOf, Class.own, Class.dfltOf, Class.copyCOf, Class.moveCOf, Class.copyAOf, Class.moveAOf,
    Class.dtorOf, Class.swapOf, Class.special, scalar, h]

theorem variantStorage_std (ts : List Traits) : (variantStorage ts).traits.std = ts.all (·.std) := by
  induction ts with
  | nil => rfl
  | cons t ts ih =>
    simp only [variantStorage, List.all_cons, ← ih]
    generalize (variantStorage ts).traits = u
    cases h : t.std <;> cases h' : u.std <;> simp [Class.traits, Class.stdOf, Class.own, h, h']

theorem variant_traits (t : Traits) (ts : List Traits) : (variantClass (t :: ts)).traits =
    ⟨t.std && ts.all (·.std), true, if t.isDefault then some false else none, some false, some true, some false, some true, some true,
      some true, Layout.variant (t.lay :: ts.map (·.lay))⟩ := by
  have e := variantStorage_std (t :: ts)
  simp only [List.all_cons] at e
  have : (variantClass (t :: ts)).stdOf = (t.std && ts.all (·.std)) := by
    rw [← e]
    simp only [variantClass]
    generalize (variantStorage (t :: ts)).traits = u
    cases h : u.std <;> simp [Class.stdOf, Class.own, h, scalar]
  cases h : t.isDefault <;>
  simp [Class.traits, this] <;>
  simp [variantClass, Class.own, Class.dfltOf, Class.copyCOf, Class.moveCOf, Class.copyAOf, Class.moveAOf,
    Class.dtorOf, Class.swapOf, Class.special, h]

theorem array_traits (P : Nat) (t : Traits) (n : Nat) : (arrayClass P t (n + 1)).traits =
    ⟨t.std, true, some false, t.copyC, t.moveC.or t.copyC, t.copyA, t.moveA.or t.copyA, t.dtor, some true,
      ⟨(n + 1) * t.lay.size, t.lay.align⟩⟩ := by
  obtain ⟨s, d, a1, a2, a3, a4, a5, a6, a7, l⟩ := t
  cases s <;> cases a2 <;> cases a3 <;> cases a4 <;> cases a5 <;> cases a6 <;>
  simp [arrayClass, arrayOf, Class.traits, Class.stdOf, Class.own, Class.dfltOf, Class.copyCOf, Class.moveCOf, Class.copyAOf,
    Class.moveAOf, Class.dtorOf, Class.swapOf, Class.special, Class.subs, memberwise, Decl.given]

theorem array_traits_zero (P : Nat) (t : Traits) : (arrayClass P t 0).traits =
    ⟨true, true, some false, some true, some true, some true, some true, some true, some true, ⟨P, P⟩⟩ := rfl

/-- a tuple of one component -/
theorem tuple_traits_one (t : Traits) : (tupleClass [t]).traits =
    ⟨t.std, true, some false, t.copyC, t.moveC.or t.copyC, t.copyA, t.moveA.or t.copyA, t.dtor, some true,
      ⟨t.lay.size, 1⟩⟩ := by
  obtain ⟨s, d, a1, a2, a3, a4, a5, a6, a7, l⟩ := t
  cases s <;> cases a2 <;> cases a3 <;> cases a4 <;> cases a5 <;> cases a6 <;>
  simp [tupleClass, tupleStorage, Class.traits, Class.stdOf, Class.own, Class.dfltOf, Class.copyCOf, Class.moveCOf, Class.copyAOf,
    Class.moveAOf, Class.dtorOf, Class.swapOf, Class.special, Class.subs, memberwise, Decl.given, Layout.tuple, Layout.tupleBase]

/-- a tuple of more does not have standard layout -/
theorem tuple_std (t u : Traits) (ts : List Traits) : (tupleClass (t :: u :: ts)).traits.std = false := by
  have h : (tupleStorage (t :: u :: ts)).traits.std = false := by
    have hd : (tupleStorage (u :: ts)).traits.data = true := by simp [tupleStorage, Class.traits, Class.own]
    rw [tupleStorage]
    generalize (tupleStorage (u :: ts)).traits = w at hd
    simp [Class.traits, Class.stdOf, Class.own, hd]
  simp only [tupleClass]
  generalize (tupleStorage (t :: u :: ts)).traits = w at h
  simp [Class.traits, Class.stdOf, Class.own, h]

theorem memberwise_two (f : Traits → Option Bool) (a b : Traits) :
    memberwise f [a, b] = some true ↔ f a = some true ∧ f b = some true := by
  simp only [memberwise]
  cases f a <;> cases f b <;> simp

theorem memberwise_one (f : Traits → Option Bool) (a : Traits) : memberwise f [a] = f a := by
  simp only [memberwise]
  cases f a <;> simp

theorem tuple_dtor (ts : List Traits) : (tupleClass ts).traits.dtor = some true ↔ ∀ t ∈ ts, t.dtor = some true := by
  have e : (tupleClass ts).traits.dtor = (tupleStorage ts).traits.dtor := memberwise_one _ _
  rw [e]; clear e
  induction ts with
  | nil => simp [tupleStorage, Class.traits, Class.dtorOf, Class.special, Class.subs, memberwise]
  | cons t ts ih =>
    exact (memberwise_two (·.dtor) _ _).trans
      ⟨fun h => List.forall_mem_cons.2 ⟨h.2, ih.1 h.1⟩, fun h => ⟨ih.2 (List.forall_mem_cons.1 h).2, (List.forall_mem_cons.1 h).1⟩⟩

theorem tuple_copyC (ts : List Traits) : (tupleClass ts).traits.copyC = some true ↔ ∀ t ∈ ts, t.copyC = some true := by
  have e : (tupleClass ts).traits.copyC = (tupleStorage ts).traits.copyC := memberwise_one _ _
  rw [e]; clear e
  induction ts with
  | nil => simp [tupleStorage, Class.traits, Class.copyCOf, Class.special, Class.subs, memberwise, Decl.given]
  | cons t ts ih =>
    exact (memberwise_two (·.copyC) _ _).trans
      ⟨fun h => List.forall_mem_cons.2 ⟨h.2, ih.1 h.1⟩, fun h => ⟨ih.2 (List.forall_mem_cons.1 h).2, (List.forall_mem_cons.1 h).1⟩⟩

/-! ### the static assertions say what the documentation has -/

theorem vectorReq_iff : vectorReq t = true ↔ Regular t := by
  simp only [vectorReq, Traits.isDefault, Traits.isCopy, Traits.isMove, Traits.isCopyAssign, Traits.isMoveAssign, Traits.isDtor,
    Traits.isSwap, Bool.and_eq_true, beq_iff_eq, Option.isSome_iff_ne_none]
  constructor
  · rintro ⟨⟨⟨⟨⟨⟨⟨h1, h2, h3⟩, h4, h5⟩, h6, h7⟩, h8⟩, h9⟩, h10⟩, h11⟩
    exact ⟨h1, h2, h4, h6, h8, h9, h10, h11⟩
  · rintro ⟨h1, h2, h3, h4, h5, h6, h7, h8⟩
    simp [*]

theorem arrayReq_iff : arrayReq t = true ↔ Regular t := vectorReq_iff

theorem tupleReq_iff : tupleReq t = true ↔ Regular t := vectorReq_iff

theorem optionalReq_iff : optionalReq t = true ↔ Value t := by
  simp only [optionalReq, Traits.isCopy, Traits.isMove, Traits.isCopyAssign, Traits.isMoveAssign, Traits.isDtor,
    Traits.isSwap, Bool.and_eq_true, beq_iff_eq, Option.isSome_iff_ne_none]
  constructor
  · rintro ⟨⟨⟨⟨⟨⟨h1, h4, h5⟩, h6, h7⟩, h8⟩, h9⟩, h10⟩, h11⟩
    exact ⟨h1, h4, h6, h8, h9, h10, h11⟩
  · rintro ⟨h1, h3, h4, h5, h6, h7, h8⟩
    simp [*]

theorem variantReq_iff : variantReq t = true ↔ Movable t := by
  simp only [variantReq, Traits.isCopy, Traits.isMove, Traits.isDtor,
    Traits.isSwap, Bool.and_eq_true, beq_iff_eq, Option.isSome_iff_ne_none]
  constructor
  · rintro ⟨⟨⟨⟨h1, h4, h5⟩, h6, h7⟩, h10⟩, h11⟩
    exact ⟨h1, h4, h6, h10, h11⟩
  · rintro ⟨h1, h3, h4, h7, h8⟩
    simp [*]

theorem Regular.value (h : Regular t) : Value t := ⟨h.std, h.copyC, h.moveC, h.copyA, h.moveA, h.dtor, h.swap⟩

theorem Value.movable (h : Value t) : Movable t := ⟨h.std, h.copyC, h.moveC, h.dtor, h.swap⟩

/-! ### what compiles has a destructor that does not fail, unless it is another type -/

variable {P : Nat} {T : Ty} {Ts : List Ty}

theorem bare_dtor (T : Ty) : (traits P T.bare).dtor = (traits P T).dtor := by cases T <;> simp [Ty.bare, traits, constOf]

theorem bare_copyC (T : Ty) : (traits P T.bare).copyC = (traits P T).copyC := by cases T <;> simp [Ty.bare, traits, constOf]

theorem array_dtor (h : (traits P T).dtor = some true) : (traits P (.array T n)).dtor = some true := by
  rw [traits]
  cases n with
  | zero => rw [array_traits_zero]
  | succ n => rw [array_traits]; exact h

/-- `is_default_constructible_v` is as specified -/
theorem says (h : Compiles P T) : (traits P T).isDefault = true ↔ SaysDefault T := by
  induction h with
  | other => simp [traits, SaysDefault, Traits.isDefault, Option.isSome_iff_ne_none]
  | const _ _ ih => simpa [traits, SaysDefault, constOf, Traits.isDefault] using ih
  | vector => exact ⟨fun _ => trivial, fun _ => rfl⟩
  | string => exact ⟨fun _ => trivial, fun _ => rfl⟩
  | optional => simp [traits, SaysDefault, optional_traits, Traits.isDefault]
  | @variant Ts hne hc hr hl hn ha ih =>
    cases Ts with
    | nil => exact absurd rfl hne
    | cons T Ts =>
      have := ih T (by simp)
      rw [SaysDefault, FirstSaysDefault, ← this, traits, traitsAll, variant_traits]
      cases (traits P T).isDefault <;> simp [Traits.isDefault]
  | @array T n hc hk hr ih =>
    have := array_dtor (n := n) ((arrayReq_iff.1 hr).dtor)
    have hd : (traits P (.array T n)).dflt = some false := rfl
    simp [SaysDefault, Traits.isDefault, this, hd]
  | @tuple Ts hc hr ih =>
    have : (traits P (.tuple Ts)).dtor = some true := by
      rw [traits, tuple_dtor, traitsAll_eq]
      intro t ht
      obtain ⟨T, hT, rfl⟩ := List.mem_map.1 ht
      rw [← bare_dtor]
      exact (tupleReq_iff.1 (hr T hT)).dtor
    have hd : (traits P (.tuple Ts)).dflt = some false := rfl
    simp [SaysDefault, Traits.isDefault, this, hd]
  | bitset => exact ⟨fun _ => trivial, fun _ => rfl⟩
  | arrayRef => exact ⟨fun _ => trivial, fun _ => rfl⟩
  | stringRef => exact ⟨fun _ => trivial, fun _ => rfl⟩
  | optionalRef => exact ⟨fun _ => trivial, fun _ => rfl⟩
  | variantRef => exact ⟨fun h => (nomatch h), fun h => h.elim⟩
  | functionRef => exact ⟨fun h => (nomatch h), fun h => h.elim⟩

theorem allCopySafely (Ts : List Ty) : AllCopySafely Ts ↔ ∀ T ∈ Ts, CopiesSafely T := by
  induction Ts with
  | nil => simp [AllCopySafely]
  | cons T Ts ih => simp [AllCopySafely, ih]

/-- copying is `noexcept` exactly as specified -/
theorem copies (h : Compiles P T) : (traits P T).copyC = some true ↔ CopiesSafely T := by
  induction h with
  | other => simp [traits, CopiesSafely]
  | const _ _ ih => simpa [traits, CopiesSafely, constOf] using ih
  | vector => exact ⟨fun h => (nomatch h), fun h => h.elim⟩
  | string => exact ⟨fun h => (nomatch h), fun h => h.elim⟩
  | optional => simp [traits, CopiesSafely, optional_traits]
  | @variant Ts hne => 
    cases Ts with
    | nil => exact absurd rfl hne
    | cons T Ts => simp [traits, traitsAll, CopiesSafely, variant_traits]
  | @array T n hc hk hr ih =>
    cases n with
    | zero => simp [traits, array_traits_zero, CopiesSafely]
    | succ n => simpa [traits, array_traits, CopiesSafely] using ih
  | @tuple Ts hc hr ih =>
    rw [traits, tuple_copyC, traitsAll_eq, CopiesSafely, allCopySafely, List.forall_mem_map]
    exact ⟨fun h T hT => (ih T hT).1 (h T hT), fun h T hT => (ih T hT).2 (h T hT)⟩
  | bitset => exact ⟨fun _ => trivial, fun _ => rfl⟩
  | arrayRef => exact ⟨fun _ => trivial, fun _ => rfl⟩
  | stringRef => exact ⟨fun _ => trivial, fun _ => rfl⟩
  | optionalRef => exact ⟨fun _ => trivial, fun _ => rfl⟩
  | variantRef => exact ⟨fun h => (nomatch h), fun h => h.elim⟩
  | functionRef => exact ⟨fun _ => trivial, fun _ => rfl⟩

/-! ## C94 -/

theorem regular_library {std data : Bool} {d c a : Bool} {l : Layout.Ty} (h : std = true) :
    Regular ⟨std, data, some d, some c, some true, some a, some true, some true, some true, l⟩ :=
  ⟨h, by simp, by simp, rfl, by simp, rfl, rfl, rfl⟩

theorem bare_eq (h : T.isConst = false) : T.bare = T := by
  cases T <;> first | rfl | exact nomatch h

theorem const_eq (h : T.isConst = true) : ∃ U, T = .const U := by
  cases T <;> first | exact ⟨_, rfl⟩ | exact nomatch h

theorem value_tuple_iff (hr : ∀ T ∈ Ts, Regular (traits P T.bare)) : Value (traits P (.tuple Ts)) ↔ SmallTuple Ts := by
  match Ts with
  | [] => exact ⟨fun _ => trivial, fun _ => (regular_library rfl).value⟩
  | [T] =>
    have r := hr T (by simp)
    simp only [traits, traitsAll, tuple_traits_one, SmallTuple]
    cases hk : T.isConst with
    | true =>
      obtain ⟨U, rfl⟩ := const_eq hk
      exact ⟨fun h => absurd rfl h.copyA, fun h => nomatch h⟩
    | false =>
      rw [bare_eq hk] at r
      refine ⟨fun _ => rfl, fun _ => ⟨r.std, r.copyC, ?_, r.copyA, ?_, r.dtor, rfl⟩⟩
      · dsimp only; rw [r.moveC]; rfl
      · dsimp only; rw [r.moveA]; rfl
  | T :: U :: Ts =>
    simp only [SmallTuple, iff_false]
    intro h
    have := h.std
    rw [traits, traitsAll, traitsAll, tuple_std] at this
    cases this

theorem movable_tuple_iff (hc : ∀ T ∈ Ts, Compiles P T) (hr : ∀ T ∈ Ts, Regular (traits P T.bare)) :
    Movable (traits P (.tuple Ts)) ↔ MovableTuple Ts := by
  match Ts with
  | [] => exact ⟨fun _ => trivial, fun _ => (regular_library rfl).value.movable⟩
  | [T] =>
    have r := hr T (by simp)
    have c := copies (hc T (by simp))
    simp only [traits, traitsAll, tuple_traits_one, MovableTuple]
    cases hk : T.isConst with
    | true =>
      obtain ⟨U, rfl⟩ := const_eq hk
      have e : (traits P (.const U)).moveC = (traits P (.const U)).copyC := rfl
      simp only [← c, forall_const]
      constructor
      · intro h
        have := h.moveC
        dsimp only at this
        rw [e] at this
        cases h' : (traits P (.const U)).copyC with
        | none => rw [h'] at this; cases this
        | some b => rw [h'] at this; simpa using this
      · intro h
        refine ⟨r.std, r.copyC, ?_, r.dtor, rfl⟩
        dsimp only; rw [e, h]; rfl
    | false =>
      rw [bare_eq hk] at r
      refine ⟨fun _ => (fun h => nomatch h), fun _ => ⟨r.std, r.copyC, ?_, r.dtor, rfl⟩⟩
      dsimp only; rw [r.moveC]; rfl
  | T :: U :: Ts =>
    simp only [MovableTuple, iff_false]
    intro h
    have := h.std
    rw [traits, traitsAll, traitsAll, tuple_std] at this
    cases this

theorem array_regular (h : Regular (traits P T)) : Regular (traits P (.array T n)) := by
  rw [traits]
  cases n with
  | zero => rw [array_traits_zero]; exact regular_library rfl
  | succ n =>
    rw [array_traits]
    exact ⟨h.std, by simp, h.copyC, by rw [h.moveC]; rfl, h.copyA, by rw [h.moveA]; rfl, h.dtor, rfl⟩

theorem variant_value (hne : Ts ≠ []) (hr : ∀ T ∈ Ts, Movable (traits P T)) : Value (traits P (.variant Ts)) := by
  cases Ts with
  | nil => exact absurd rfl hne
  | cons T Ts =>
    rw [traits, traitsAll, variant_traits, traitsAll_eq]
    refine ⟨?_, by simp, rfl, by simp, rfl, rfl, rfl⟩
    simp only [Bool.and_eq_true, List.all_eq_true, List.mem_map, forall_exists_index, and_imp]
    refine ⟨(hr T (by simp)).std, ?_⟩
    rintro _ U hU rfl
    exact (hr U (by simp [hU])).std

/-- what a type that compiles fits into, by what the traits say of it -/
theorem value_iff (h : Compiles P T) : Value (traits P T) ↔ FitsOptional T := by
  cases h with
  | other => exact Iff.rfl
  | const => exact ⟨fun h => absurd rfl h.copyA, fun h => h.elim⟩
  | vector => exact ⟨fun _ => trivial, fun _ => (regular_library rfl).value⟩
  | string => exact ⟨fun _ => trivial, fun _ => (regular_library rfl).value⟩
  | optional hc hr =>
    refine ⟨fun _ => trivial, fun _ => ?_⟩
    rw [traits, optional_traits]
    exact (regular_library (optionalReq_iff.1 hr).std).value
  | variant hne hc hr => exact ⟨fun _ => trivial, fun _ => variant_value hne fun T hT => variantReq_iff.1 (hr T hT)⟩
  | array hc hk hr => exact ⟨fun _ => trivial, fun _ => (array_regular (arrayReq_iff.1 hr)).value⟩
  | tuple hc hr => exact value_tuple_iff fun T hT => tupleReq_iff.1 (hr T hT)
  | bitset => exact ⟨fun _ => trivial, fun _ => (regular_library rfl).value⟩
  | arrayRef => exact ⟨fun _ => trivial, fun _ => (regular_library rfl).value⟩
  | stringRef => exact ⟨fun _ => trivial, fun _ => (regular_library rfl).value⟩
  | optionalRef => exact ⟨fun _ => trivial, fun _ => (regular_library rfl).value⟩
  | variantRef => exact ⟨fun h => (nomatch h.moveC), fun h => h.elim⟩
  | functionRef => exact ⟨fun _ => trivial, fun _ => ⟨rfl, nofun, rfl, nofun, rfl, rfl, rfl⟩⟩

theorem regular_iff (h : Compiles P T) : Regular (traits P T) ↔ FitsVector T := by
  have key : Regular (traits P T) ↔ (traits P T).isDefault = true ∧ Value (traits P T) := by
    constructor
    · intro r
      exact ⟨by simp [Traits.isDefault, Option.isSome_iff_ne_none, r.dflt, r.dtor], r.value⟩
    · rintro ⟨d, v⟩
      exact ⟨v.std, fun h => by simp [Traits.isDefault, h] at d, v.copyC, v.moveC, v.copyA, v.moveA, v.dtor, v.swap⟩
  rw [key, says h, value_iff h]
  cases T <;> simp only [SaysDefault, FitsOptional, FitsVector, and_true, true_and, and_false]
  rename_i i t
  exact ⟨fun h => ⟨h.2.std, h.1.1, h.2.copyC, h.2.moveC, h.2.copyA, h.2.moveA, h.2.dtor, h.2.swap⟩,
    fun h => ⟨⟨h.dflt, by rw [h.dtor]; nofun⟩, h.value⟩⟩

theorem movable_iff (h : Compiles P T) : Movable (traits P T) ↔ FitsVariant T := by
  by_cases ht : ∃ Ts, T = .tuple Ts
  · obtain ⟨Ts, rfl⟩ := ht
    cases h with
    | tuple hc hr => exact movable_tuple_iff hc fun T hT => tupleReq_iff.1 (hr T hT)
  have v := value_iff h
  cases T with
  | other => exact Iff.rfl
  | const => exact ⟨fun h => (nomatch h.swap), fun h => h.elim⟩
  | tuple Ts => exact absurd ⟨Ts, rfl⟩ ht
  | variantRef => exact ⟨fun h => (nomatch h.moveC), fun h => h.elim⟩
  | _ => exact ⟨fun _ => trivial, fun _ => (v.2 trivial).movable⟩

/-- C94, exactly: which types a `vector` takes -/
theorem C94_vector_exact :
    Compiles P (.vector T) ↔ Compiles P T ∧ FitsVector T ∧ 10 < maxCapacity P (traits P T).lay.size := by
  constructor
  · intro h
    cases h with
    | vector hc hr hm => exact ⟨hc, (regular_iff hc).1 (vectorReq_iff.1 hr), hm⟩
  · rintro ⟨hc, hr, hm⟩
    exact .vector hc (vectorReq_iff.2 ((regular_iff hc).2 hr)) hm

/-- … an `array` -/
theorem C94_array_exact : Compiles P (.array T n) ↔ Compiles P T ∧ FitsVector T := by
  constructor
  · intro h
    cases h with
    | array hc hk hr => exact ⟨hc, (regular_iff hc).1 (arrayReq_iff.1 hr)⟩
  · rintro ⟨hc, hr⟩
    refine .array hc ?_ (arrayReq_iff.2 ((regular_iff hc).2 hr))
    cases T <;> first | rfl | exact hr.elim

theorem compiles_bare (h : Compiles P T) : Compiles P T.bare := by
  cases h with
  | const h => exact h
  | _ => simp only [Ty.bare]; constructor <;> assumption

/-- … a `tuple` -/
theorem C94_tuple_exact : Compiles P (.tuple Ts) ↔ ∀ T ∈ Ts, Compiles P T ∧ FitsVector T.bare := by
  constructor
  · intro h
    cases h with
    | tuple hc hr => exact fun T hT => ⟨hc T hT, (regular_iff (compiles_bare (hc T hT))).1 (tupleReq_iff.1 (hr T hT))⟩
  · intro h
    exact .tuple (fun T hT => (h T hT).1) fun T hT => tupleReq_iff.2 ((regular_iff (compiles_bare (h T hT).1)).2 (h T hT).2)

/-- … an `optional` -/
theorem C94_optional_exact : Compiles P (.optional T) ↔ Compiles P T ∧ FitsOptional T := by
  constructor
  · intro h
    cases h with
    | optional hc hr => exact ⟨hc, (value_iff hc).1 (optionalReq_iff.1 hr)⟩
  · rintro ⟨hc, hr⟩
    exact .optional hc (optionalReq_iff.2 ((value_iff hc).2 hr))

/-- … a `variant` -/
theorem C94_variant_exact :
    Compiles P (.variant Ts) ↔ Ts ≠ [] ∧ (∀ T ∈ Ts, Compiles P T ∧ FitsVariant T) ∧ Ts.length ≤ 254 ∧ Ts.Nodup ∧
      Layout.variantAssert (Ts.map fun T => (traits P T).lay) = true := by
  have e : (traitsAll P Ts).map (·.lay) = Ts.map fun T => (traits P T).lay := by rw [traitsAll_eq, List.map_map]; rfl
  constructor
  · intro h
    cases h with
    | variant hne hc hr hl hn ha =>
      exact ⟨hne, fun T hT => ⟨hc T hT, (movable_iff (hc T hT)).1 (variantReq_iff.1 (hr T hT))⟩, by omega, hn, e ▸ ha⟩
  · rintro ⟨hne, hr, hl, hn, ha⟩
    exact .variant hne (fun T hT => (hr T hT).1) (fun T hT => variantReq_iff.2 ((movable_iff (hr T hT).1).2 (hr T hT).2)) (by omega) hn
      (e ▸ ha)

/-- types built, to any depth, from regular types with all of the library's classes except `variant_ref`, `function_ref` and tuples of
several components -/
inductive Nested (P : Nat) : Ty → Prop
  | other {id : Nat} : Regular t → Nested P (.other id t)
  | vector {T : Ty} : Nested P T → 10 < maxCapacity P (traits P T).lay.size → Nested P (.vector T)
  | string : Nested P .string
  | optional {T : Ty} : Nested P T → Nested P (.optional T)
  | variant {Ts : List Ty} : Ts ≠ [] → (∀ T ∈ Ts, Nested P T) → Ts.length ≤ 254 → Ts.Nodup →
      Layout.variantAssert (Ts.map fun T => (traits P T).lay) = true → Nested P (.variant Ts)
  | array {T : Ty} {n : Nat} : Nested P T → Nested P (.array T n)
  | tuple {T : Ty} : Nested P T → Nested P (.tuple [T])
  | bitset {n : Nat} : Nested P (.bitset n)
  | arrayRef {T : Ty} : Nested P (.arrayRef T)
  | stringRef : Nested P .stringRef
  | optionalRef {T : Ty} : Nested P (.optionalRef T)

/-- C94: such a type compiles, and fits into a vector, an array, a tuple, an optional and a variant (whose own conditions — the number
and the sizes of its alternatives — are part of the claim).  Missing: tuples of several components, `variant_ref` and `function_ref`, see
the refutations below. -/
theorem C94_partial (h : Nested P T) :
    Compiles P T ∧ FitsVector T ∧ FitsOptional T ∧ FitsVariant T ∧ T.isConst = false := by
  suffices h : Compiles P T ∧ FitsVector T by
    have r := (regular_iff h.1).2 h.2
    refine ⟨h.1, h.2, (value_iff h.1).1 r.value, (movable_iff h.1).1 r.value.movable, ?_⟩
    cases T <;> first | rfl | exact h.2.elim
  induction h with
  | other h => exact ⟨.other, h⟩
  | vector _ hm ih => exact ⟨C94_vector_exact.2 ⟨ih.1, ih.2, hm⟩, trivial⟩
  | string => exact ⟨.string, trivial⟩
  | optional _ ih => exact ⟨C94_optional_exact.2 ⟨ih.1, (value_iff ih.1).1 ((regular_iff ih.1).2 ih.2).value⟩, trivial⟩
  | @variant Ts hne _ hl hn ha ih =>
    refine ⟨C94_variant_exact.2 ⟨hne, fun T hT => ⟨(ih T hT).1, ?_⟩, hl, hn, ha⟩, ?_⟩
    · exact (movable_iff (ih T hT).1).1 ((regular_iff (ih T hT).1).2 (ih T hT).2).value.movable
    · cases Ts with
      | nil => exact absurd rfl hne
      | cons T Ts =>
        have h := ih T (by simp)
        refine (says h.1).1 ?_
        have r := (regular_iff h.1).2 h.2
        simp [Traits.isDefault, Option.isSome_iff_ne_none, r.dflt, r.dtor]
  | array _ ih => exact ⟨C94_array_exact.2 ih, trivial⟩
  | @tuple T _ ih =>
    have hk : T.isConst = false := by cases T <;> first | rfl | exact ih.2.elim
    exact ⟨C94_tuple_exact.2 (by simpa [bare_eq hk] using ih), hk⟩
  | bitset => exact ⟨.bitset, trivial⟩
  | arrayRef => exact ⟨.arrayRef, trivial⟩
  | stringRef => exact ⟨.stringRef, trivial⟩
  | optionalRef => exact ⟨.optionalRef, trivial⟩

/-- nothing takes the type as its element -/
def Nowhere (P : Nat) (T : Ty) : Prop :=
  ¬ Compiles P (.vector T) ∧ (∀ n, ¬ Compiles P (.array T n)) ∧ ¬ Compiles P (.optional T) ∧
  ∀ Ts, T ∈ Ts → ¬ Compiles P (.variant Ts) ∧ ¬ Compiles P (.tuple Ts)

/-- C94 fails: a tuple of several components goes nowhere -/
theorem C94_tuple_refuted (T U : Ty) (Ts : List Ty) : Nowhere P (.tuple (T :: U :: Ts)) :=
  ⟨fun h => (C94_vector_exact.1 h).2.1, fun _ h => (C94_array_exact.1 h).2, fun h => (C94_optional_exact.1 h).2,
    fun _ hT => ⟨fun h => ((C94_variant_exact.1 h).2.1 _ hT).2, fun h => (C94_tuple_exact.1 h _ hT).2⟩⟩

/-- … nor does a `variant_ref` -/
theorem C94_variant_ref_refuted (Ts : List Ty) : Nowhere P (.variantRef Ts) :=
  ⟨fun h => (C94_vector_exact.1 h).2.1, fun _ h => (C94_array_exact.1 h).2, fun h => (C94_optional_exact.1 h).2,
    fun _ hT => ⟨fun h => ((C94_variant_exact.1 h).2.1 _ hT).2, fun h => (C94_tuple_exact.1 h _ hT).2⟩⟩

/-- … and a `function_ref` goes into an optional, but not into a vector, an array or a tuple -/
theorem C94_function_ref_refuted (id : Nat) : Compiles P (.optional (.functionRef id)) ∧ ¬ Compiles P (.vector (.functionRef id)) ∧
    (∀ n, ¬ Compiles P (.array (.functionRef id) n)) ∧ ∀ Ts, .functionRef id ∈ Ts → ¬ Compiles P (.tuple Ts) :=
  ⟨C94_optional_exact.2 ⟨.functionRef, trivial⟩, fun h => (C94_vector_exact.1 h).2.1, fun _ h => (C94_array_exact.1 h).2,
    fun _ hT h => (C94_tuple_exact.1 h _ hT).2⟩

/-- … and a variant never has both a type with alignment requirements and an optional of that type as its only alternatives -/
theorem C94_variant_refuted (hw : (traits P T).lay.Wf) (ha : 1 < (traits P T).lay.align) :
    ¬ Compiles P (.variant [T, .optional T]) ∧ ¬ Compiles P (.variant [.optional T, T]) := by
  have ho : (traits P (.optional T)).lay = ⟨(traits P T).lay.size + 1, 1⟩ := by rw [traits, optional_traits]; rfl
  have wo : (traits P (.optional T)).lay.Wf := by rw [ho]; exact ⟨Nat.succ_pos _, Nat.one_dvd _, 0, rfl⟩
  have hd : ¬ (traits P T).lay.align ∣ (traits P T).lay.size + 1 := fun h =>
    absurd (Nat.le_of_dvd Nat.one_pos ((Nat.dvd_add_right hw.2.1).1 h)) (by omega)
  have hs := hw.1
  constructor
  · intro h
    have := (Layout.C71_exact (by simp) (by simpa using ⟨hw, wo⟩)).1 (C94_variant_exact.1 h).2.2.2.2
    simp only [Layout.maxAlign, Layout.maxSize, List.map_cons, List.map_nil, List.foldr_cons, List.foldr_nil, ho] at this
    rw [show max (traits P T).lay.align (max 1 1) = (traits P T).lay.align by omega,
      show max (traits P T).lay.size (max ((traits P T).lay.size + 1) 1) = (traits P T).lay.size + 1 by omega] at this
    exact hd this
  · intro h
    have := (Layout.C71_exact (by simp) (by simpa using ⟨wo, hw⟩)).1 (C94_variant_exact.1 h).2.2.2.2
    simp only [Layout.maxAlign, Layout.maxSize, List.map_cons, List.map_nil, List.foldr_cons, List.foldr_nil, ho] at this
    rw [show max 1 (max (traits P T).lay.align 1) = (traits P T).lay.align by omega,
      show max ((traits P T).lay.size + 1) (max (traits P T).lay.size 1) = (traits P T).lay.size + 1 by omega] at this
    exact hd this

/-! ## C95: a class that says it is default constructible is -/

mutual
/-- to construct it from nothing, a tuple with components would have to be constructed from nothing -/
def NeedsTuple : Ty → Prop
  | .const T => NeedsTuple T
  | .array T n => n ≠ 0 ∧ NeedsTuple T
  | .tuple Ts => Ts ≠ []
  | .variant Ts => FirstNeedsTuple Ts
  | _ => False

def FirstNeedsTuple : List Ty → Prop
  | [] => False
  | T :: _ => NeedsTuple T
end

/-- C95, exactly: a type can be constructed from nothing if it says so and no tuple is constructed on the way -/
theorem C95_exact (h : Compiles P T) : builds T = true ↔ (traits P T).isDefault = true ∧ ¬ NeedsTuple T := by
  rw [says h]
  induction h with
  | other => simp [builds, SaysDefault, NeedsTuple, Option.isSome_iff_ne_none]
  | const _ _ ih => simpa [builds, SaysDefault, NeedsTuple] using ih
  | @array T n hc hk hr ih =>
    have hs : SaysDefault T := (says hc).1 (by
      have r := arrayReq_iff.1 hr
      simp [Traits.isDefault, Option.isSome_iff_ne_none, r.dflt, r.dtor])
    simp only [hs, true_and] at ih
    simp only [builds, SaysDefault, NeedsTuple, true_and, Bool.or_eq_true, beq_iff_eq, ih]
    by_cases hn : n = 0 <;> simp [hn]
  | tuple => simp [builds, SaysDefault, NeedsTuple]
  | @variant Ts hne hc hr hl hn ha ih =>
    cases Ts with
    | nil => exact absurd rfl hne
    | cons T Ts =>
      simp only [builds, firstBuilds, SaysDefault, FirstSaysDefault, NeedsTuple, FirstNeedsTuple]
      exact ih T (by simp)
  | _ => simp [builds, SaysDefault, NeedsTuple]

/-- C95 for types in which no tuple has to be constructed; every element of a vector can then be constructed from nothing.  Missing:
tuples, see `C95_refuted`. -/
theorem C95_partial (h : Compiles P (.vector T)) (ht : ¬ NeedsTuple T) : resizes T = true := by
  cases h with
  | vector hc hr hm =>
    have r := vectorReq_iff.1 hr
    exact (C95_exact hc).2 ⟨by simp [Traits.isDefault, Option.isSome_iff_ne_none, r.dflt, r.dtor], ht⟩

/-- C95 fails: every tuple says that it is default constructible, so a vector of tuples of one component compiles — but tuples with
components cannot be constructed from nothing, and such a vector cannot be resized -/
theorem C95_refuted (hc : Compiles P T) (hf : FitsVector T) (hp : 10 < maxCapacity P (traits P (.tuple [T])).lay.size) :
    (traits P (.tuple [T])).isDefault = true ∧ builds (.tuple [T]) = false ∧
    Compiles P (.vector (.tuple [T])) ∧ resizes (.tuple [T]) = false := by
  have hk : T.isConst = false := by cases T <;> first | rfl | exact hf.elim
  have hc : Compiles P (.tuple [T]) := C94_tuple_exact.2 (by simpa [bare_eq hk] using ⟨hc, hf⟩)
  exact ⟨(says hc).2 trivial, rfl, C94_vector_exact.2 ⟨hc, hk, hp⟩, rfl⟩

/-! ### concrete cases (sizes as on x86-64) -/

def int : Ty := .other 0 (scalar ⟨4, 4⟩)
def dbl : Ty := .other 1 (scalar ⟨8, 8⟩)

theorem int_regular : Regular (scalar l) := regular_library rfl

/-- `vector<optional<variant<string, vector<array<int, 3>>>>>` -/
example : Nested 8 (.vector (.optional (.variant [.string, .vector (.array int 3)]))) := by
  refine .vector (.optional (.variant (by simp) ?_ (by simp) (by simp) (by decide))) (by decide +kernel)
  intro T hT
  simp only [List.mem_cons, List.not_mem_nil, or_false] at hT
  rcases hT with rfl | rfl
  · exact .string
  · exact .vector (.array (.other int_regular)) (by decide +kernel)

/-- `tuple<int, double>` compiles, `vector<tuple<int, double>>` does not -/
example : Compiles 8 (.tuple [int, dbl]) ∧ ¬ Compiles 8 (.vector (.tuple [int, dbl])) := by
  refine ⟨C94_tuple_exact.2 ?_, (C94_tuple_refuted _ _ _).1⟩
  simp only [List.mem_cons, List.not_mem_nil, or_false]
  rintro T (rfl | rfl)
  · exact ⟨.other, int_regular⟩
  · exact ⟨.other, int_regular⟩

/-- `variant_ref<int, double>` compiles, `optional<variant_ref<int, double>>` does not -/
example : Compiles 8 (.variantRef [int, dbl]) ∧ ¬ Compiles 8 (.optional (.variantRef [int, dbl])) :=
  ⟨.variantRef (by simp) (by decide) (by simp [int, dbl]), (C94_variant_ref_refuted _).2.2.1⟩

/-- `variant<int, optional<int>>` does not compile: the sizes are 4 and 5, the alignments 4 and 1, and a union of the two has size 8;
`variant<double, optional<int>>` does -/
example : ¬ Compiles 8 (.variant [int, .optional int]) ∧ Compiles 8 (.variant [dbl, .optional int]) := by
  refine ⟨fun h => absurd (C94_variant_exact.1 h).2.2.2.2 (by decide),
    C94_variant_exact.2 ⟨by simp, ?_, by simp, by simp [dbl], by decide⟩⟩
  simp only [List.mem_cons, List.not_mem_nil, or_false]
  rintro T (rfl | rfl)
  · exact ⟨.other, int_regular.value.movable⟩
  · exact ⟨C94_optional_exact.2 ⟨.other, int_regular.value⟩, trivial⟩

/-- `vector<tuple<int>>` compiles, but cannot be resized -/
example : Compiles 8 (.vector (.tuple [int])) ∧ resizes (.tuple [int]) = false :=
  (C95_refuted .other int_regular (by decide +kernel)).2.2

/-- `array<variant<tuple<int>>, 3>` says that it is default constructible, and is not -/
example : NeedsTuple (.array (.variant [.tuple [int]]) 3) := by simp [NeedsTuple, FirstNeedsTuple]

end Ptl.Traits

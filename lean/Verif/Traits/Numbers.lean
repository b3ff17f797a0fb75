import Verif.Vector.Props.Values

/-!
# C102: numbers in place of objects

What happens if a number (`std::size_t`) is passed, assigned to or compared with an object of one of the classes: the constructors that are not
explicit convert it.

Simplifications: all requirements on arguments (C71, C94) are assumed to be met; copies inside the constructors are assumed to be equal
to their source (C63, C76); other arithmetic types differ in narrowing conversions only, which do not compile.
-/

namespace Ptl.Numbers

/-- types; `tuples` are those without components or with several, `num` is `std::size_t` -/
inductive Ty where
  | num
  | string
  | bitset (n : Nat)
  | vector (T : Ty)
  | array (T : Ty) (n : Nat)
  | optional (T : Ty)
  | variant (head : Ty) (tail : List Ty)
  | tuple (T : Ty)
  | tuples (Ts : List Ty)

/-- their values -/
inductive Val where
  | num (n : Nat)
  | bits (n : Nat)
  | seq (vs : List Val)
  | null
  | full (v : Val)
  | alt (v : Val)

/-- is it `std::size_t`? -/
def isNum : Ty → Bool
  | .num => true
  | _ => false

/-- The value of `T{}`; `none` if it does not compile.  vector.hpp:247, string.hpp:297, bitset.hpp:123-124, array.hpp:177-179
(aggregate initialisation with `{}`), optional.hpp:31-32, variant.hpp:203-205 (the first alternative), tuple.hpp:89-91 (with components it
does not compile, C95) -/
def dflt : Ty → Option Val
  | .num => some (.num 0)
  | .string => some (.seq [])
  | .bitset _ => some (.bits 0)
  | .vector _ => some (.seq [])
  | .array T n => (dflt T).map fun d => .seq (List.replicate n d)
  | .optional _ => some .null
  | .variant head _ => (dflt head).map .alt
  | .tuple _ => none
  | .tuples [] => some (.seq [])
  | .tuples (_ :: _) => none

/-- Is there an implicit conversion from a number, as far as declarations tell?  vector.hpp:262; string.hpp:316-318 and
bitset.hpp:125-128 are explicit; array.hpp:177-179: if the elements are convertible to `std::size_t`, none of the classes is;
optional.hpp:41-44: within a conversion, the parameter takes no other conversion of a class; variant.hpp:210-212: one of the alternatives is
that type; tuple.hpp:89-91: everything is taken if the number of arguments fits -/
def viable : Ty → Bool
  | .num => true
  | .string => false
  | .bitset _ => false
  | .vector _ => true
  | .array T _ => isNum T
  | .optional T => isNum T
  | .variant head tail => isNum head || tail.any isNum
  | .tuple _ => true
  | .tuples _ => false

mutual
/-- what a number is converted to (`T x = n`, passing `n` for a parameter); `none` if it does not compile.
* vector.hpp:262: `n` elements `Type{}`
* array.hpp:177-179, 40, 14-24: `values{n}`: the first element, the others are `{}`; there is none in an array of size 0
* optional.hpp:43-44, variant.hpp:210-212: the value
* tuple.hpp:89-91, 46-47: `value{n}` -/
def conv (n : Nat) : Ty → Option Val
  | .num => some (.num n)
  | .string => none
  | .bitset _ => none
  | .vector T => (dflt T).map fun d => .seq (List.replicate n d)
  | .array T k => if isNum T ∧ 0 < k then some (.seq (.num n :: List.replicate (k - 1) (.num 0))) else none
  | .optional T => if isNum T then some (.full (.num n)) else none
  | .variant head tail => if isNum head || tail.any isNum then some (.alt (.num n)) else none
  | .tuple T => (brace n T).map fun v => .seq [v]
  | .tuples _ => none

/-- the value of `T{n}`; `none` if it does not compile.
* string.hpp:324: chosen, but narrowing from `std::size_t` to `char`
* bitset.hpp:125-128: as many bits as there are
* vector.hpp:265: chosen if the number is convertible to `Type`, otherwise 262
* optional.hpp:43-44: the number is converted to `Type` -/
def brace (n : Nat) : Ty → Option Val
  | .num => some (.num n)
  | .string => none
  | .bitset _ => some (.bits n)
  | .vector T => if viable T then (conv n T).map fun v => .seq [v] else (dflt T).map fun d => .seq (List.replicate n d)
  | .array T k => if isNum T ∧ 0 < k then some (.seq (.num n :: List.replicate (k - 1) (.num 0))) else none
  | .optional T => if viable T then (conv n T).map .full else none
  | .variant head tail => if isNum head || tail.any isNum then some (.alt (.num n)) else none
  | .tuple T => (brace n T).map fun v => .seq [v]
  | .tuples _ => none
end

/-! ## specification -/

/-- the object has the number as its only value: directly, in a bitset, as the only element or component, or as the value of an
optional or variant -/
inductive Has (n : Nat) : Ty → Val → Prop
  | num : Has n .num (.num n)
  | bitset {k : Nat} : Has n (.bitset k) (.bits n)
  | vector {T : Ty} {v : Val} : Has n T v → Has n (.vector T) (.seq [v])
  | array {T : Ty} {v : Val} : Has n T v → Has n (.array T 1) (.seq [v])
  | optional {T : Ty} {v : Val} : Has n T v → Has n (.optional T) (.full v)
  | variant {T head : Ty} {tail : List Ty} {v : Val} : T ∈ head :: tail → Has n T v → Has n (.variant head tail) (.alt v)
  | tuple {T : Ty} {v : Val} : Has n T v → Has n (.tuple T) (.seq [v])

/-- a number can stand for an object of the type -/
inductive Takes : Ty → Prop
  | num : Takes .num
  | vector {T : Ty} : Takes (.vector T)
  | array {n : Nat} : Takes (.array .num n)
  | optional : Takes (.optional .num)
  | variant {head : Ty} {tail : List Ty} : .num ∈ head :: tail → Takes (.variant head tail)
  | tuple {T : Ty} : Takes (.tuple T)

/-- In an object of the type that is made from a number (with braces if `b`), the number is lost, or not the only value -/
inductive Lost : (b : Bool) → Ty → Prop
  /-- the number of elements -/
  | vector {T : Ty} : Lost false (.vector T)
  | vectorB {T : Ty} : ¬ Takes T → Lost true (.vector T)
  /-- one of several elements -/
  | array {b : Bool} {n : Nat} : 1 < n → Lost b (.array .num n)
  /-- already in the only element, the value or the component -/
  | element {T : Ty} : Takes T → Lost false T → Lost true (.vector T)
  | optional {T : Ty} : Lost false T → Lost true (.optional T)
  | tuple {b : Bool} {T : Ty} : Lost true T → Lost b (.tuple T)

/-- an object of the type can be made without arguments -/
inductive Default : Ty → Prop
  | num : Default .num
  | string : Default .string
  | bitset {n : Nat} : Default (.bitset n)
  | vector {T : Ty} : Default (.vector T)
  | array {T : Ty} {n : Nat} : Default T → Default (.array T n)
  | optional {T : Ty} : Default (.optional T)
  | variant {head : Ty} {tail : List Ty} : Default head → Default (.variant head tail)
  | tuples : Default (.tuples [])

/-- an object of the type can be made from a number (with braces if `b`) -/
inductive Compiles : (b : Bool) → Ty → Prop
  | num {b : Bool} : Compiles b .num
  | bitset {n : Nat} : Compiles true (.bitset n)
  | vector {T : Ty} : Default T → Compiles false (.vector T)
  | vectorB {T : Ty} : ¬ Takes T → Default T → Compiles true (.vector T)
  | element {T : Ty} : Takes T → Compiles false T → Compiles true (.vector T)
  | array {b : Bool} {n : Nat} : 0 < n → Compiles b (.array .num n)
  | optional : Compiles false (.optional .num)
  | optionalB {T : Ty} : Takes T → Compiles false T → Compiles true (.optional T)
  | variant {b : Bool} {head : Ty} {tail : List Ty} : .num ∈ head :: tail → Compiles b (.variant head tail)
  | tuple {b : Bool} {T : Ty} : Compiles true T → Compiles b (.tuple T)

/-! ## proofs -/

theorem isNum_iff {T : Ty} : isNum T = true ↔ T = .num := by cases T <;> simp [isNum]

theorem anyNum_iff {head : Ty} {tail : List Ty} : (isNum head || tail.any isNum) = true ↔ .num ∈ head :: tail := by
  simp only [Bool.or_eq_true, List.any_eq_true, isNum_iff, List.mem_cons]
  constructor
  · rintro (h | ⟨T, h1, rfl⟩)
    · exact .inl h.symm
    · exact .inr h1
  · rintro (h | h)
    · exact .inl h.symm
    · exact .inr ⟨_, h, rfl⟩

theorem viable_iff {T : Ty} : viable T = true ↔ Takes T := by
  cases T with
  | num => exact ⟨fun _ => .num, fun _ => rfl⟩
  | string => exact ⟨(fun h => nomatch h), (fun h => nomatch h)⟩
  | bitset => exact ⟨(fun h => nomatch h), (fun h => nomatch h)⟩
  | vector => exact ⟨fun _ => .vector, fun _ => rfl⟩
  | array T n =>
    rw [viable, isNum_iff]
    exact ⟨fun h => by subst h; exact .array, fun h => by cases h; rfl⟩
  | optional T =>
    rw [viable, isNum_iff]
    exact ⟨fun h => by subst h; exact .optional, fun h => by cases h; rfl⟩
  | variant head tail =>
    rw [viable, anyNum_iff]
    exact ⟨.variant, fun h => by cases h; assumption⟩
  | tuple => exact ⟨fun _ => .tuple, fun _ => rfl⟩
  | tuples => exact ⟨(fun h => nomatch h), (fun h => nomatch h)⟩

/-- the number in a value -/
inductive Leaf (n : Nat) : Val → Prop
  | num : Leaf n (.num n)
  | bits : Leaf n (.bits n)
  | seq {v : Val} : Leaf n v → Leaf n (.seq [v])
  | full {v : Val} : Leaf n v → Leaf n (.full v)
  | alt {v : Val} : Leaf n v → Leaf n (.alt v)

theorem Has.leaf {n : Nat} {T : Ty} {v : Val} (h : Has n T v) : Leaf n v := by
  induction h with
  | num => exact .num
  | bitset => exact .bits
  | vector _ ih => exact .seq ih
  | array _ ih => exact .seq ih
  | optional _ ih => exact .full ih
  | variant _ _ ih => exact .alt ih
  | tuple _ ih => exact .seq ih

/-- a default-constructed object has no number but 0 -/
theorem dflt_leaf {n : Nat} : ∀ {T : Ty} {v : Val}, dflt T = some v → Leaf n v → n = 0
  | .num, _, h, hh => by cases h; cases hh; rfl
  | .bitset _, _, h, hh => by cases h; cases hh; rfl
  | .string, _, h, hh => by cases h; cases hh
  | .vector _, _, h, hh => by cases h; cases hh
  | .optional _, _, h, hh => by cases h; cases hh
  | .tuple _, _, h, _ => by cases h
  | .tuples [], _, h, hh => by cases h; cases hh
  | .tuples (_ :: _), _, h, _ => by cases h
  | .array T k, v, h, hh => by
    cases hd : dflt T with
    | none => simp [dflt, hd] at h
    | some d =>
      simp only [dflt, hd, Option.map_some, Option.some.injEq] at h
      subst h
      generalize hr : List.replicate k d = l at hh
      cases hh with
      | seq h' =>
        have := (List.eq_replicate_iff.1 hr.symm).2 _ (List.mem_singleton.2 rfl)
        subst this
        exact dflt_leaf hd h'
  | .variant head tail, v, h, hh => by
    cases hd : dflt head with
    | none => simp [dflt, hd] at h
    | some d =>
      simp only [dflt, hd, Option.map_some, Option.some.injEq] at h
      subst h
      cases hh with
      | alt h' => exact dflt_leaf hd h'

/-- `n` default-constructed objects do not have the number `n` as their only value -/
theorem count_not {n : Nat} {T : Ty} {d : Val} (hd : dflt T = some d) : ¬ Leaf n (.seq (List.replicate n d)) := by
  intro h
  generalize hr : List.replicate n d = l at h
  cases h with
  | seq h' =>
    obtain ⟨rfl, h2⟩ := List.eq_replicate_iff.1 hr.symm
    have := h2 _ (List.mem_singleton.2 rfl)
    subst this
    have := dflt_leaf hd h'
    simp at this

theorem array_iff {n k : Nat} {T : Ty} {v : Val} {b : Bool}
    (h : (if isNum T = true ∧ 0 < k then some (Val.seq (.num n :: List.replicate (k - 1) (.num 0))) else none) = some v) :
    Has n (.array T k) v ↔ ¬ Lost b (.array T k) := by
  split at h
  · next hc =>
    obtain ⟨hT, hk⟩ := hc
    rw [isNum_iff] at hT
    subst hT
    cases h
    by_cases h1 : k = 1
    · subst h1
      exact ⟨fun _ h => (by cases h; omega), fun _ => .array .num⟩
    · refine ⟨fun h => ?_, fun h => (h (.array (by omega))).elim⟩
      cases h
      exact (h1 rfl).elim
  · cases h

theorem variant_iff {n : Nat} {head : Ty} {tail : List Ty} {v : Val} {b : Bool}
    (h : (if (isNum head || tail.any isNum) = true then some (Val.alt (.num n)) else none) = some v) :
    Has n (.variant head tail) v ↔ ¬ Lost b (.variant head tail) := by
  split at h
  · next hc =>
    cases h
    exact ⟨(fun _ h => nomatch h), fun _ => .variant (anyNum_iff.1 hc) .num⟩
  · cases h

mutual
theorem conv_iff {n : Nat} : ∀ {T : Ty} {v : Val}, conv n T = some v → (Has n T v ↔ ¬ Lost false T)
  | .num, _, h => by cases h; exact ⟨(fun _ h => nomatch h), fun _ => .num⟩
  | .string, _, h => by cases h
  | .bitset _, _, h => by cases h
  | .vector T, v, h => by
    rw [conv] at h
    cases hd : dflt T with
    | none => simp [hd] at h
    | some d =>
      simp only [hd, Option.map_some, Option.some.injEq] at h
      subst h
      exact ⟨fun h => (count_not hd h.leaf).elim, fun h => (h .vector).elim⟩
  | .array T k, v, h => array_iff h
  | .optional T, v, h => by
    rw [conv] at h
    split at h
    · next hc =>
      rw [isNum_iff] at hc
      subst hc
      cases h
      exact ⟨(fun _ h => nomatch h), fun _ => .optional .num⟩
    · cases h
  | .variant head tail, v, h => variant_iff h
  | .tuple T, v, h => by
    rw [conv] at h
    cases hd : brace n T with
    | none => simp [hd] at h
    | some d =>
      simp only [hd, Option.map_some, Option.some.injEq] at h
      subst h
      have ih := brace_iff hd
      exact ⟨fun h g => by cases h with | tuple h => cases g with | tuple g => exact ih.1 h g, fun h => .tuple (ih.2 fun g => h (.tuple g))⟩
  | .tuples _, _, h => by cases h

theorem brace_iff {n : Nat} : ∀ {T : Ty} {v : Val}, brace n T = some v → (Has n T v ↔ ¬ Lost true T)
  | .num, _, h => by cases h; exact ⟨(fun _ h => nomatch h), fun _ => .num⟩
  | .string, _, h => by cases h
  | .bitset _, _, h => by cases h; exact ⟨(fun _ h => nomatch h), fun _ => .bitset⟩
  | .vector T, v, h => by
    rw [brace] at h
    split at h
    · next hc =>
      rw [viable_iff] at hc
      cases hd : conv n T with
      | none => simp [hd] at h
      | some d =>
        simp only [hd, Option.map_some, Option.some.injEq] at h
        subst h
        have ih := conv_iff hd
        refine ⟨fun h g => ?_, fun h => .vector (ih.2 fun g => h (.element hc g))⟩
        cases h with
        | vector h =>
          cases g with
          | vectorB g => exact g hc
          | element _ g => exact ih.1 h g
    · next hc =>
      rw [viable_iff] at hc
      cases hd : dflt T with
      | none => simp [hd] at h
      | some d =>
        simp only [hd, Option.map_some, Option.some.injEq] at h
        subst h
        exact ⟨fun h => (count_not hd h.leaf).elim, fun h => (h (.vectorB hc)).elim⟩
  | .array T k, v, h => array_iff h
  | .optional T, v, h => by
    rw [brace] at h
    split at h
    · cases hd : conv n T with
      | none => simp [hd] at h
      | some d =>
        simp only [hd, Option.map_some, Option.some.injEq] at h
        subst h
        have ih := conv_iff hd
        exact ⟨fun h g => by cases h with | optional h => cases g with | optional g => exact ih.1 h g, fun h => .optional (ih.2 fun g => h (.optional g))⟩
    · cases h
  | .variant head tail, v, h => variant_iff h
  | .tuple T, v, h => by
    rw [brace] at h
    cases hd : brace n T with
    | none => simp [hd] at h
    | some d =>
      simp only [hd, Option.map_some, Option.some.injEq] at h
      subst h
      have ih := brace_iff hd
      exact ⟨fun h g => by cases h with | tuple h => cases g with | tuple g => exact ih.1 h g, fun h => .tuple (ih.2 fun g => h (.tuple g))⟩
  | .tuples _, _, h => by cases h
end

theorem dflt_some : ∀ {T : Ty}, (dflt T).isSome = true ↔ Default T
  | .num => ⟨fun _ => .num, fun _ => rfl⟩
  | .string => ⟨fun _ => .string, fun _ => rfl⟩
  | .bitset _ => ⟨fun _ => .bitset, fun _ => rfl⟩
  | .vector _ => ⟨fun _ => .vector, fun _ => rfl⟩
  | .optional _ => ⟨fun _ => .optional, fun _ => rfl⟩
  | .tuple _ => ⟨(fun h => nomatch h), (fun h => nomatch h)⟩
  | .tuples [] => ⟨fun _ => .tuples, fun _ => rfl⟩
  | .tuples (_ :: _) => ⟨(fun h => nomatch h), (fun h => nomatch h)⟩
  | .array T n => by
    rw [dflt, Option.isSome_map, dflt_some]
    exact ⟨.array, fun h => by cases h; assumption⟩
  | .variant head tail => by
    rw [dflt, Option.isSome_map, dflt_some]
    exact ⟨.variant, fun h => by cases h; assumption⟩

theorem isSome_ite {p : Prop} [Decidable p] {x : Val} : (if p then some x else none).isSome = true ↔ p := by
  split <;> simp [*]

theorem array_some {T : Ty} {k : Nat} {b : Bool} {x : Val} :
    (if isNum T = true ∧ 0 < k then some x else none).isSome = true ↔ Compiles b (.array T k) := by
  rw [isSome_ite, isNum_iff]
  exact ⟨fun ⟨h1, h2⟩ => by subst h1; exact .array h2, fun h => by cases h; exact ⟨rfl, ‹_›⟩⟩

theorem variant_some {head : Ty} {tail : List Ty} {b : Bool} {x : Val} :
    (if (isNum head || tail.any isNum) = true then some x else none).isSome = true ↔ Compiles b (.variant head tail) := by
  rw [isSome_ite, anyNum_iff]
  exact ⟨.variant, fun h => by cases h; assumption⟩

mutual
theorem conv_some {n : Nat} : ∀ {T : Ty}, (conv n T).isSome = true ↔ Compiles false T
  | .num => ⟨fun _ => .num, fun _ => rfl⟩
  | .string => ⟨(fun h => nomatch h), (fun h => nomatch h)⟩
  | .bitset _ => ⟨(fun h => nomatch h), (fun h => nomatch h)⟩
  | .vector T => by
    rw [conv, Option.isSome_map, dflt_some]
    exact ⟨.vector, fun h => by cases h; assumption⟩
  | .array T k => array_some
  | .optional T => by
    rw [conv, isSome_ite, isNum_iff]
    exact ⟨fun h => by subst h; exact .optional, fun h => by cases h; rfl⟩
  | .variant head tail => variant_some
  | .tuple T => by
    rw [conv, Option.isSome_map, brace_some]
    exact ⟨.tuple, fun h => by cases h; assumption⟩
  | .tuples _ => ⟨(fun h => nomatch h), (fun h => nomatch h)⟩

theorem brace_some {n : Nat} : ∀ {T : Ty}, (brace n T).isSome = true ↔ Compiles true T
  | .num => ⟨fun _ => .num, fun _ => rfl⟩
  | .string => ⟨(fun h => nomatch h), (fun h => nomatch h)⟩
  | .bitset _ => ⟨fun _ => .bitset, fun _ => rfl⟩
  | .vector T => by
    rw [brace]
    split
    · next hc =>
      rw [viable_iff] at hc
      rw [Option.isSome_map, conv_some]
      exact ⟨.element hc, fun h => by cases h with | vectorB h => exact (h hc).elim | element _ h => exact h⟩
    · next hc =>
      rw [viable_iff] at hc
      rw [Option.isSome_map, dflt_some]
      exact ⟨.vectorB hc, fun h => by cases h with | vectorB _ h => exact h | element h => exact (hc h).elim⟩
  | .array T k => array_some
  | .optional T => by
    rw [brace]
    split
    · next hc =>
      rw [viable_iff] at hc
      rw [Option.isSome_map, conv_some]
      exact ⟨.optionalB hc, fun h => by cases h; assumption⟩
    · next hc =>
      rw [viable_iff] at hc
      exact ⟨(fun h => nomatch h), fun h => by cases h; exact (hc ‹_›).elim⟩
  | .variant head tail => variant_some
  | .tuple T => by
    rw [brace, Option.isSome_map, brace_some]
    exact ⟨.tuple, fun h => by cases h; assumption⟩
  | .tuples _ => ⟨(fun h => nomatch h), (fun h => nomatch h)⟩
end

/-! ## C102 -/

/-- no vector takes part, and no array of several elements -/
inductive Plain : Ty → Prop
  | num : Plain .num
  | string : Plain .string
  | bitset {n : Nat} : Plain (.bitset n)
  | array {T : Ty} : Plain T → Plain (.array T 1)
  | optional {T : Ty} : Plain T → Plain (.optional T)
  | variant {head : Ty} {tail : List Ty} : Plain (.variant head tail)
  | tuple {T : Ty} : Plain T → Plain (.tuple T)
  | tuples {Ts : List Ty} : Plain (.tuples Ts)

/-- **C102**, exactly: in the object made from a number, the number is the only value unless the type is one of `Lost` -/
theorem C102_exact {n : Nat} {T : Ty} {v : Val} (h : conv n T = some v) : Has n T v ↔ ¬ Lost false T := conv_iff h

/-- **C102**: exactly where a number is accepted -/
theorem C102_accepted {n : Nat} {T : Ty} : (∃ v, conv n T = some v) ↔ Compiles false T := by
  rw [← Option.isSome_iff_exists, conv_some]

/-- **C102** for types without vectors and arrays of several elements: where a number is taken, it is the object's value.  Missing: see
`C102_vector_refuted`, `C102_array_refuted`. -/
theorem C102_partial {n : Nat} {T : Ty} {v : Val} (hT : Plain T) (h : conv n T = some v) : Has n T v := by
  have key : ∀ b, ¬ Lost b T := by
    clear h
    induction hT with
    | num => intro b h; cases h
    | string => intro b h; cases h
    | bitset => intro b h; cases h
    | array => intro b h; cases h; omega
    | optional _ ih => intro b h; cases h; exact ih _ ‹_›
    | variant => intro b h; cases h
    | tuple _ ih => intro b h; cases h; exact ih _ ‹_›
    | tuples => intro b h; cases h
  exact (C102_exact h).2 (key _)

/-- **C102** for strings and bitsets: their constructors do not take a number without being asked to -/
theorem C102_explicit (n k : Nat) (Ts : List Ty) : conv n .string = none ∧ conv n (.bitset k) = none ∧ conv n (.tuples Ts) = none := by
  simp [conv]

/-- **C102** is false for every vector: any number stands for that many default-constructed elements -/
theorem C102_vector_refuted (n : Nat) {T : Ty} {d : Val} (hd : dflt T = some d) :
    ∃ v, conv n (.vector T) = some v ∧ v = .seq (List.replicate n d) ∧ ¬ Has n (.vector T) v :=
  ⟨.seq (List.replicate n d), by simp [conv, hd], rfl, fun h => count_not hd h.leaf⟩

/-- **C102** is false for every array of several numbers: one number is taken for the first element, the others are 0 -/
theorem C102_array_refuted (n k : Nat) : ∃ v, conv n (.array .num (k + 2)) = some v ∧
    v = .seq (.num n :: List.replicate (k + 1) (.num 0)) ∧ ¬ Has n (.array .num (k + 2)) v :=
  ⟨.seq (.num n :: List.replicate (k + 1) (.num 0)), by simp [conv, isNum], rfl, fun h => nomatch h⟩

/-- an optional or a variant with a vector does not take a number, but a tuple does -/
theorem C102_nested (n : Nat) (T : Ty) : conv n (.optional (.vector T)) = none ∧ conv n (.variant (.vector T) []) = none ∧
    ∀ d, dflt T = some d → conv n (.tuple (.vector (.vector T))) = some (.seq [.seq [.seq (List.replicate n d)]]) := by
  refine ⟨by simp [conv, isNum], by simp [conv, isNum], fun d hd => ?_⟩
  simp [conv, brace, viable, hd]

example : conv 5 (.vector .num) = some (.seq [.num 0, .num 0, .num 0, .num 0, .num 0]) := by simp [conv, dflt, List.replicate]
example : conv 5 (.array .num 3) = some (.seq [.num 5, .num 0, .num 0]) := by simp [conv, isNum, List.replicate]
example : conv 5 (.optional .num) = some (.full (.num 5)) ∧ conv 5 (.variant .string [.num]) = some (.alt (.num 5)) := by simp [conv, isNum]
example : conv 2 (.tuple (.vector .string)) = some (.seq [.seq [.seq [], .seq []]]) := by simp [conv, brace, dflt, viable, List.replicate]
example : conv 2 (.tuple (.vector .num)) = some (.seq [.seq [.num 2]]) := by simp [conv, brace, viable]

/-! ### what follows for assignments -/

open Ptl.Vector

/-- `v = n;` where `t` is the temporary: vector.hpp:262, 254, 255 -/
def assignNumber {α : Type} (T : Elem α) (v t n : Nat) : M (St α Storage) Unit := do
  let _ ← (Op.ctorCount t n).run T
  let _ ← (Op.assignMove v t).run T
  let _ ← (Op.dtor t).run T
  pure ()

/-- **C102** is false for every assignment of a number to a vector: if it does not throw, the elements are gone and there are `n`
default-constructed ones -/
theorem C102_assign_refuted {α : Type} {T : Elem α} {s : St α Storage} {V : Vars α} (h : Reach T s V) {v t n : Nat} {xs : List α}
    (hv : V v = some xs) (ht : V t = none) (hn : n < 2 ^ 64) :
    (∃ s', assignNumber T v t n s = .ok () s' ∧ Reach T s' (upd V v (some (List.replicate n T.dflt)))) ∨
    ∃ e s', assignNumber T v t n s = .exc e s' ∧ Reach T s' V := by
  have hvt : v ≠ t := by rintro rfl; rw [hv] at ht; cases ht
  have c1 := C01_call h (Spec.ctorCount (T := T) ht hn)
  cases r1 : (Op.ctorCount t n).run T s with
  | ub f => rw [r1] at c1; exact c1.elim
  | term => rw [r1] at c1; obtain ⟨⟨i, hi⟩, _⟩ := c1; cases hi
  | exc e s1 => rw [r1] at c1; exact .inr ⟨e, s1, M.bind_exc r1, c1.1⟩
  | ok x s1 =>
    rw [r1] at c1
    obtain ⟨_, h1, _⟩ := c1
    have hv1 : upd V t (some (List.replicate n T.dflt)) v = some xs := by rw [upd_ne _ _ hvt]; exact hv
    obtain ⟨d, c, hsh⟩ := h1.shows (upd_same _ _ _)
    obtain ⟨s2, r2, _⟩ := C12_move_assign h1 hvt hv1 hsh
    have h2 := h1.ok (.assignMove hv1 (upd_same _ _ _) hvt) r2
    obtain ⟨hinv, hV⟩ := h2.inv
    have ht2 : vars s2 t = some [] := by rw [hV, upd_same]
    obtain ⟨o, ho⟩ := vars_some ht2
    obtain ⟨s3, r3', _⟩ := dtor_spec hinv.wf ho
    have r3 : (Op.dtor t).run T s2 = .ok none s3 := M.bind_ok r3'
    have h3 := h2.ok (.dtor (upd_same _ _ _)) r3
    refine .inl ⟨s3, (M.bind_ok r1).trans ((M.bind_ok r2).trans (M.bind_ok r3)), ?_⟩
    have e : upd (upd (upd (upd V t (some (List.replicate n T.dflt))) v (some (List.replicate n T.dflt))) t (some [])) t none =
        upd V v (some (List.replicate n T.dflt)) := by
      funext k
      by_cases hk : k = t
      · subst hk; rw [upd_same, upd_ne _ _ (Ne.symm hvt), ht]
      · rw [upd_ne _ _ hk, upd_ne _ _ hk]
        by_cases hk' : k = v
        · subst hk'; rw [upd_same, upd_same]
        · rw [upd_ne _ _ hk', upd_ne _ _ hk', upd_ne _ _ hk]
    rw [e] at h3
    exact h3

example : ∃ s V, Reach natElem s V ∧ V 0 = some [1, 2, 3] ∧ V 2 = none := by
  obtain ⟨s, h, _⟩ := demo
  exact ⟨s, _, h, rfl, rfl⟩

end Ptl.Numbers

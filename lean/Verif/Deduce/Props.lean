import Verif.Deduce.Model

/-!
# C106: a class deduced from its arguments holds their values
-/

namespace Ptl.Deduce

open Overload (Kind Cat)

/-! ### what is asked for -/

/-- is the object copied, or moved from, to make another of its class? -/
def Made.ofKind (k : Kind) : Made := if k.cat = .rvalue ∧ k.const = false then .moved else .copied

/-- the arguments are not a single object of a class of the template -/
def Values (c : Cls) (args : List Arg) : Prop := ∀ a, args = [a] → c.own a.ty = false

/-- what the declaration `c x{args…}` should declare: a single object of a class of the template is copied or moved from; otherwise the element types are
those of the arguments, passed by value -/
inductive Wanted : Cls → List Arg → Ty → Made → Prop where
  | same {c : Cls} {a : Arg} (hc : c ≠ .functionRef) (h : c.own a.ty = true) : Wanted c [a] a.ty (.ofKind a.kind)
  | functionRef {a : Arg} {n : Nat} (h : a.ty = .functionRef (.fn n)) : Wanted .functionRef [a] a.ty .copied
  | optional {a : Arg} (h : Values .optional [a]) : Wanted .optional [a] (.optional a.decay) .elements
  | array {args : List Arg} {T : Ty} (h : Values .array args) (hn : args ≠ []) (hT : ∀ a ∈ args, a.decay = T) :
      Wanted .array args (.array T args.length) .elements
  | tuple {args : List Arg} (h : Values .tuple args) : Wanted .tuple args (.tuple (args.map Arg.decay)) .elements
  | vector {args : List Arg} {T : Ty} (h : Values .vector args) (hn : args ≠ []) (hT : ∀ a ∈ args, a.decay = T) :
      Wanted .vector args (.vector T) .elements
  | function {a : Arg} {n : Nat} (h : a.decay = .ptr false (.fn n)) : Wanted .functionRef [a] (.functionRef (.fn n)) .elements

/-- C106 for a template and arguments: if the element types are allowed, the wanted class is deduced, the declaration compiles, and the arguments are used as
wanted -/
def Deduces (L : Lang) (c : Cls) (args : List Arg) : Prop :=
  ∀ T m, Wanted c args T m → (∀ U ∈ T.elems, L.storable U = true) → declare L c args = some (T, m)

/-- neither an array nor a function -/
def Arg.Object (a : Arg) : Prop := (∀ T n, a.ty ≠ .arr T n) ∧ ∀ n, a.ty ≠ .fn n

/-! ### lemmas -/

theorem decay_object {a : Arg} (h : a.Object) : a.decay = a.ty := by
  unfold Arg.decay
  split
  · next T n e => exact absurd e (h.1 T n)
  · next n e => exact absurd e (h.2 n)
  · rfl

theorem decay_isObject (a : Arg) : a.decay.isObject = true := by
  rcases a with ⟨ty, k⟩
  cases ty <;> rfl

theorem same_self (L : Lang) (T : Ty) : L.same T T = true := (L.same_iff T T).2 rfl

theorem same_ne (L : Lang) {T U : Ty} (h : T ≠ U) : L.same T U = false := by
  cases e : L.same T U
  · rfl
  · exact absurd ((L.same_iff T U).1 e) h

theorem elems_all {L : Lang} {T : Ty} (h : ∀ U ∈ T.elems, L.storable U = true) : T.elems.all L.storable = true := List.all_eq_true.2 h

/-- the argument itself beats what a value would give -/
theorem deduce_own (T U V : Ty) (a : Arg) : deduce (ownGuides T ++ [⟨U, [.ref ⟨true, .lvalue⟩], 1, false, false⟩,
    ⟨V, [.ref ⟨a.kind.const, .rvalue⟩], 1, false, false⟩]) [a] = some T := by
  rcases a with ⟨ty, ⟨_ | _, _ | _⟩⟩ <;> rfl

theorem deduce_own_only (T : Ty) (a : Arg) : deduce (ownGuides T) [a] = some T := by
  rcases a with ⟨ty, ⟨_ | _, _ | _⟩⟩ <;> rfl

theorem deduce_own_pack (T U : Ty) (a : Arg) : deduce (ownGuides T ++ [⟨U, [.value], 2, true, false⟩]) [a] = some T := by
  rcases a with ⟨ty, ⟨_ | _, _ | _⟩⟩ <;> rfl

theorem values_viable (args : List Arg) (T : Ty) (g : Nat) (w c : Bool) :
    Guide.viable ⟨T, args.map fun _ => .value, g, w, c⟩ args = true := by
  unfold Guide.viable
  simp only [List.length_map, beq_self_eq_true, Bool.true_and]
  rw [List.all_eq_true]
  intro x hx
  have : x.1 ∈ args.map fun _ => Param.value := (List.of_mem_zip (a := x.1) (b := x.2) hx).1
  obtain ⟨_, _, e⟩ := List.mem_map.1 this
  rw [← e]; rfl

theorem deduce_one (g : Guide) (args : List Arg) (h : g.viable args = true) : deduce [g] args = some g.result := by
  unfold deduce
  simp [h]

theorem ownIf_values {c : Cls} {args : List Arg} (h : Values c args) : ownIf c args = [] := by
  unfold ownIf
  split
  · next a => simp [h a rfl]
  · rfl

theorem single_values (L : Lang) {c : Cls} {T : Ty} {args : List Arg} (hT : c.own T = true) (h : Values c args) : single L T args = none := by
  unfold single
  split
  · next a =>
    have : a.ty ≠ T := by
      intro e
      have := h a rfl
      rw [e, hT] at this
      cases this
    simp [same_ne L this]
  · rfl

/-- the tuple that is deduced from values -/
theorem deduced_tuple (L : Lang) {args : List Arg} (h : Values .tuple args) : deduced L .tuple args = some (.tuple (args.map Arg.decay)) := by
  show deduce (ownIf .tuple args ++ tupleGuides args) args = _
  rw [ownIf_values h, List.nil_append]
  cases args with
  | nil => rfl
  | cons a as =>
    have : Overload.tupleAccepts 0 (a :: as).length = false := rfl
    rw [tupleGuides, this]
    exact deduce_one _ _ (values_viable (a :: as) _ _ _ _)

/-- the array that is deduced from values -/
theorem deduced_array (L : Lang) {a : Arg} {as : List Arg} (h : Values .array (a :: as)) :
    deduced L .array (a :: as) = some (.array a.decay (a :: as).length) := by
  show deduce (ownIf .array (a :: as) ++ arrayGuides (a :: as)) (a :: as) = _
  rw [ownIf_values h, List.nil_append, List.length_cons, Nat.add_comm]
  exact deduce_one _ _ (values_viable (a :: as) _ _ _ _)

/-! ## optional -/

/-- C106 for optionals made from objects that are not const rvalues, and from any optional.  Missing: const rvalues, arrays and functions, see
`C106_optional_const_rvalue_refuted`, `C106_optional_array_refuted` and `C106_optional_function_refuted`. -/
theorem C106_optional_partial (L : Lang) (a : Arg) (ho : a.Object) (hk : a.kind ≠ ⟨true, .rvalue⟩ ∨ Cls.optional.own a.ty = true) :
    Deduces L .optional [a] := by
  intro T m hw hs
  cases hw with
  | same hc h =>
    have hd : deduced L .optional [a] = some a.ty := by
      show deduce (ownIf .optional [a] ++ optionalGuides [a]) [a] = _
      rw [ownIf, h]
      exact deduce_own a.ty _ _ a
    unfold declare
    rw [hd]
    simp only [elems_all hs, if_true]
    rcases a with ⟨ty, k⟩
    cases ty with
    | optional U =>
      unfold init
      simp only [single, same_self, if_true]
      rcases k with ⟨_ | _, _ | _⟩ <;> rfl
    | _ => exact absurd h (by simp [Cls.own])
  | optional h =>
    have hk' : a.kind ≠ ⟨true, .rvalue⟩ := by
      rcases hk with hk | hk
      · exact hk
      · rw [h a rfl] at hk; cases hk
    have hd : deduced L .optional [a] = some (.optional a.decay) := by
      show deduce (ownIf .optional [a] ++ optionalGuides [a]) [a] = _
      rw [ownIf_values h, decay_object ho]
      rcases a with ⟨ty, ⟨_ | _, _ | _⟩⟩
      · rfl
      · rfl
      · rfl
      · exact absurd rfl hk'
    unfold declare
    rw [hd]
    simp only [elems_all hs, if_true]
    unfold init
    simp only [single_values L (c := .optional) (T := .optional a.decay) rfl h, Option.map_some]

/-- C106 fails for optionals made from const rvalues (a function returning `const X`, `std::move` of a const object): `Type` is deduced to be const, which the
static assertions reject -/
theorem C106_optional_const_rvalue_refuted (L : Lang) (a : Arg) (hk : a.kind = ⟨true, .rvalue⟩) (h : Cls.optional.own a.ty = false) :
    declare L .optional [a] = none := by
  have hd : deduced L .optional [a] = some (.optional (.const a.ty)) := by
    show deduce (ownIf .optional [a] ++ optionalGuides [a]) [a] = _
    rcases a with ⟨ty, k⟩
    cases hk
    rw [ownIf_values (c := .optional) (by intro b e; cases e; exact h)]
    rfl
  unfold declare
  rw [hd]
  simp [Ty.elems, L.storable_const]

/-- … from arrays (`optional o{"abc"}`): `Type` is deduced to be an array -/
theorem C106_optional_array_refuted (L : Lang) (U : Ty) (n : Nat) (k : Kind) : declare L .optional [⟨.arr U n, k⟩] = none := by
  rcases k with ⟨_ | _, _ | _⟩
  all_goals
    unfold declare
    first
      | rw [show deduced L .optional _ = some (.optional (.arr U n)) from rfl]; simp [Ty.elems, L.storable_arr]
      | rw [show deduced L .optional _ = some (.optional (.const (.arr U n))) from rfl]; simp [Ty.elems, L.storable_const]

/-- … and from functions -/
theorem C106_optional_function_refuted (L : Lang) (n : Nat) : declare L .optional [⟨.fn n, ⟨false, .lvalue⟩⟩] = none := by
  unfold declare
  rw [show deduced L .optional _ = some (.optional (.fn n)) from rfl]
  simp [Ty.elems, L.storable_fn]

/-! ## tuple -/

/-- C106 for tuples, except those made from a one-element tuple that is a non-const lvalue or a const rvalue.  Missing: those, see
`C106_tuple_refuted`. -/
theorem C106_tuple_partial (L : Lang) (args : List Arg)
    (h1 : ∀ a U, args = [a] → a.ty = .tuple [U] → a.kind = ⟨true, .lvalue⟩ ∨ a.kind = ⟨false, .rvalue⟩) : Deduces L .tuple args := by
  intro T m hw hs
  cases hw with
  | @same _ a hc h =>
    rcases a with ⟨ty, k⟩
    cases ty with
    | tuple Ts =>
      have hd : deduced L .tuple [⟨.tuple Ts, k⟩] = some (.tuple Ts) := deduce_own_pack (.tuple Ts) _ ⟨.tuple Ts, k⟩
      unfold declare
      rw [hd]
      simp only [elems_all hs, if_true]
      unfold init
      simp only [single, same_self, if_true]
      have hsel : Overload.tupleSelect Ts.length k = some (Overload.wanted k) := by
        by_cases hl : Ts.length = 1
        · obtain ⟨U, rfl⟩ := List.length_eq_one_iff.1 hl
          exact Overload.C74_tuple_one_partial k (h1 _ U rfl rfl)
        · exact Overload.C74_tuple_partial _ hl k
      rw [hsel]
      rcases k with ⟨_ | _, _ | _⟩ <;> rfl
    | _ => exact absurd h (by simp [Cls.own])
  | tuple h =>
    unfold declare
    rw [deduced_tuple L h]
    simp only [elems_all hs, if_true]
    unfold init
    simp only [single_values L (c := .tuple) (T := .tuple (args.map Arg.decay)) rfl h]
    have : Overload.tupleAccepts (args.map Arg.decay).length args.length = true := by simp [Overload.tupleAccepts]
    simp only [this, if_true, Option.map_some]

/-- C106 fails for a one-element tuple made from another that is not const: the class is deduced, but its forwarding constructor is chosen -/
theorem C106_tuple_refuted (L : Lang) (U : Ty) (k : Kind) (hk : k = ⟨false, .lvalue⟩ ∨ k = ⟨true, .rvalue⟩) :
    deduced L .tuple [⟨.tuple [U], k⟩] = some (.tuple [U]) ∧ declare L .tuple [⟨.tuple [U], k⟩] = none := by
  have hd : deduced L .tuple [⟨.tuple [U], k⟩] = some (.tuple [U]) := deduce_own_pack (.tuple [U]) _ ⟨.tuple [U], k⟩
  refine ⟨hd, ?_⟩
  unfold declare
  rw [hd]
  have : init L (.tuple [U]) [⟨.tuple [U], k⟩] = none := by
    unfold init
    simp only [single, same_self, if_true]
    rcases hk with rfl | rfl <;> rfl
  simp [this]

/-! ## array -/

/-- C106 for arrays made from objects that are rvalues or const lvalues, and from an array that is not a const rvalue.  Missing: non-const lvalues, arrays and
functions as elements, and const rvalues of arrays, see `C106_array_lvalue_refuted`, `C106_array_array_refuted`, `C106_array_function_refuted` and
`C106_array_const_rvalue_refuted`. -/
theorem C106_array_partial (L : Lang) (args : List Arg) (ho : ∀ a ∈ args, a.Object)
    (hk : Values .array args → ∀ a ∈ args, a.kind ≠ ⟨false, .lvalue⟩) (h1 : ∀ a, args = [a] → Cls.array.own a.ty = true → a.kind ≠ ⟨true, .rvalue⟩) :
    Deduces L .array args := by
  intro T m hw hs
  cases hw with
  | @same _ a hc h =>
    rcases a with ⟨ty, k⟩
    cases ty with
    | array U n =>
      have hd : deduced L .array [⟨.array U n, k⟩] = some (.array U n) := deduce_own_pack (.array U n) _ ⟨.array U n, k⟩
      unfold declare
      rw [hd]
      simp only [elems_all hs, if_true]
      unfold init
      simp only [single, same_self, if_true]
      rw [Overload.C74_array_partial L.conv _ _ k (h1 _ rfl rfl)]
      rcases k with ⟨_ | _, _ | _⟩ <;> rfl
    | _ => exact absurd h (by simp [Cls.own])
  | @array _ T h hn hT =>
    cases args with
    | nil => exact absurd rfl hn
    | cons a as =>
      have ha : a.decay = T := hT a (List.mem_cons_self ..)
      unfold declare
      rw [deduced_array L h, ha]
      simp only [elems_all hs, if_true]
      unfold init
      simp only [single_values L (c := .array) (T := .array T (a :: as).length) rfl h]
      have h2 : Overload.arrayAccepts L.conv (L.name T) ((a :: as).map fun a => ⟨L.name a.ty, a.kind⟩) = true := by
        rw [Overload.C75_exact]
        intro b hb
        obtain ⟨x, hx, rfl⟩ := List.mem_map.1 hb
        have e : x.ty = T := by rw [← decay_object (ho x hx)]; exact hT x hx
        exact ⟨hk h x hx, by rw [e]; exact L.conv.refl _⟩
      have h3 : (a :: as).all (fun a => L.conv.conv (L.name a.decay) (L.name T)) = true := by
        rw [List.all_eq_true]
        intro x hx
        rw [hT x hx]
        exact L.conv.refl _
      rw [h2, h3]
      rfl

theorem declare_array_none (L : Lang) {args : List Arg} (h : Values .array args)
    (hn : ∀ T, T.isObject = true → Overload.arrayAccepts L.conv (L.name T) (args.map fun a => ⟨L.name a.ty, a.kind⟩) = false) : declare L .array args = none := by
  cases args with
  | nil => exact absurd (hn (.named 0) rfl) (by simp [Overload.arrayAccepts])
  | cons a as =>
    unfold declare
    rw [deduced_array L h]
    have : init L (.array a.decay (a :: as).length) (a :: as) = none := by
      unfold init
      simp only [single_values L (c := .array) (T := .array a.decay (a :: as).length) rfl h]
      rw [hn a.decay (decay_isObject a)]
      rfl
    simp only [this, Option.map_none, ite_self]

/-- C106 fails for arrays made from variables (`int x; array a{x};`) -/
theorem C106_array_lvalue_refuted (L : Lang) (args : List Arg) (h : Values .array args) (b : Arg) (hb : b ∈ args) (hk : b.kind = ⟨false, .lvalue⟩) :
    declare L .array args = none := by
  apply declare_array_none L h
  intro T hT
  cases e : Overload.arrayAccepts L.conv (L.name T) (args.map fun a => ⟨L.name a.ty, a.kind⟩)
  · rfl
  · exact absurd hk ((Overload.C75_exact _ _ _).1 e _ (List.mem_map.2 ⟨b, hb, rfl⟩)).1

/-- … from string literals and other arrays (`array a{"abc", "de"}`): the pointer that is deduced does not convert to an array -/
theorem C106_array_array_refuted (L : Lang) (args : List Arg) (h : Values .array args) (b : Arg) (hb : b ∈ args) (U : Ty) (n : Nat) (ht : b.ty = .arr U n) :
    declare L .array args = none := by
  apply declare_array_none L h
  intro T hT
  cases e : Overload.arrayAccepts L.conv (L.name T) (args.map fun a => ⟨L.name a.ty, a.kind⟩)
  · rfl
  · have := ((Overload.C75_exact _ _ _).1 e _ (List.mem_map.2 ⟨b, hb, rfl⟩)).2
    simp only [ht, L.conv_arr T U n hT] at this
    cases this

/-- … from functions -/
theorem C106_array_function_refuted (L : Lang) (args : List Arg) (h : Values .array args) (b : Arg) (hb : b ∈ args) (n : Nat) (ht : b.ty = .fn n) :
    declare L .array args = none := by
  apply declare_array_none L h
  intro T hT
  cases e : Overload.arrayAccepts L.conv (L.name T) (args.map fun a => ⟨L.name a.ty, a.kind⟩)
  · rfl
  · have := ((Overload.C75_exact _ _ _).1 e _ (List.mem_map.2 ⟨b, hb, rfl⟩)).2
    simp only [ht, L.conv_fn T n hT] at this
    cases this

/-- … and from a const rvalue of an array (whose element type converts to it, through the forwarding constructor) -/
theorem C106_array_const_rvalue_refuted (L : Lang) (U : Ty) (n : Nat) (hc : L.conv.conv (L.name U) (L.name (.array U n)) = true) :
    declare L .array [⟨.array U n, ⟨true, .rvalue⟩⟩] = none := by
  have hd : deduced L .array [⟨.array U n, ⟨true, .rvalue⟩⟩] = some (.array U n) := deduce_own_pack (.array U n) (.array (.array U n) 1) ⟨.array U n, ⟨true, .rvalue⟩⟩
  unfold declare
  rw [hd]
  have : init L (.array U n) [⟨.array U n, ⟨true, .rvalue⟩⟩] = none := by
    unfold init
    simp only [single, same_self, if_true]
    rw [Overload.C74_array_refuted L.conv _ _ hc]
  simp [this]

/-! ## vector -/

theorem listElem_same (L : Lang) {args : List Arg} {T : Ty} (hn : args ≠ []) (hT : ∀ a ∈ args, a.decay = T) : listElem L args = some T := by
  cases args with
  | nil => exact absurd rfl hn
  | cons a as =>
    have ha : a.decay = T := hT a (List.mem_cons_self ..)
    have : as.all (fun b => L.same b.decay a.decay) = true := by
      rw [List.all_eq_true]
      intro b hb
      rw [ha, hT b (List.mem_cons_of_mem _ hb)]
      exact same_self L T
    rw [ha] at this
    simp only [listElem, ha, this, if_true]

/-- C106 for vectors, except those made from a vector that converts to its own element type.  Missing: those, see `C106_vector_refuted`. -/
theorem C106_vector_partial (L : Lang) (args : List Arg)
    (h1 : ∀ a U, args = [a] → a.ty = .vector U → L.conv.conv (L.name (.vector U)) (L.name U) = false) : Deduces L .vector args := by
  intro T m hw hs
  cases hw with
  | @same _ a hc h =>
    rcases a with ⟨ty, k⟩
    cases ty with
    | vector U =>
      have hd : deduced L .vector [⟨.vector U, k⟩] = some (.vector U) := deduce_own_only (.vector U) ⟨.vector U, k⟩
      unfold declare
      rw [hd]
      simp only [elems_all hs, if_true]
      unfold init
      simp only [single, same_self, if_true, h1 _ U rfl rfl]
      rcases k with ⟨_ | _, _ | _⟩ <;> rfl
    | _ => exact absurd h (by simp [Cls.own])
  | @vector _ T h hn hT =>
    have hd : deduced L .vector args = some (.vector T) := by
      show deduceVector L args = _
      unfold deduceVector
      have hl := listElem_same L hn hT
      split
      · next x => simp only [h x rfl, hl]; rfl
      · simp only [hl]
    unfold declare
    rw [hd]
    simp only [elems_all hs, if_true]
    unfold init
    simp only [single_values L (c := .vector) (T := .vector T) rfl h, Option.map_some]

/-- C106 fails for a vector that converts to its own element type, such as one of objects like `std::any`: it becomes the only element of the new vector.  (That
is the language's rule for constructors with `std::initializer_list`, so the same holds for `std::vector`.) -/
theorem C106_vector_refuted (L : Lang) (U : Ty) (k : Kind) (hs : L.storable U = true) (hc : L.conv.conv (L.name (.vector U)) (L.name U) = true) :
    declare L .vector [⟨.vector U, k⟩] = some (.vector U, .elements) := by
  have hd : deduced L .vector [⟨.vector U, k⟩] = some (.vector U) := deduce_own_only (.vector U) ⟨.vector U, k⟩
  unfold declare
  rw [hd]
  simp [Ty.elems, hs, init, single, same_self, hc]

/-! ## function_ref -/

/-- C106 for function_refs made from functions, pointers to functions, and other function_refs -/
theorem C106_function_ref (L : Lang) (args : List Arg) : Deduces L .functionRef args := by
  intro T m hw hs
  cases hw with
  | same hc h => exact absurd rfl hc
  | @functionRef a n h =>
    rcases a with ⟨ty, k⟩
    simp only at h
    subst h
    have hd : deduced L .functionRef [⟨.functionRef (.fn n), k⟩] = some (.functionRef (.fn n)) :=
      deduce_own_only (.functionRef (.fn n)) ⟨.functionRef (.fn n), k⟩
    unfold declare
    rw [hd]
    simp [Ty.elems, init, single, same_self]
  | @function a n h =>
    have ho : Cls.functionRef.own a.ty = false := by
      rcases a with ⟨ty, k⟩
      cases ty <;> simp_all [Arg.decay, Cls.own]
    have hv : Values .functionRef [a] := by intro b e; cases e; exact ho
    have hd : deduced L .functionRef [a] = some (.functionRef (.fn n)) := by
      show deduce (ownIf .functionRef [a] ++ functionRefGuides [a]) [a] = _
      rw [ownIf_values hv, functionRefGuides, h]
      rfl
    unfold declare
    rw [hd]
    simp only [elems_all hs, if_true]
    unfold init
    simp only [single_values L (c := .functionRef) (T := .functionRef (.fn n)) rfl hv, Option.map_some]

/-- … and not from other values, for which the signature would have to be written -/
theorem C106_function_ref_other (L : Lang) (a : Arg) (ho : Cls.functionRef.own a.ty = false) (h : ∀ n, a.decay ≠ .ptr false (.fn n)) :
    declare L .functionRef [a] = none := by
  have hv : Values .functionRef [a] := by intro b e; cases e; exact ho
  have hd : deduced L .functionRef [a] = none ∨ ∃ U, deduced L .functionRef [a] = some (.functionRef U) ∧ ∀ n, U ≠ .fn n := by
    show deduce (ownIf .functionRef [a] ++ functionRefGuides [a]) [a] = none ∨ ∃ U, deduce (ownIf .functionRef [a] ++ functionRefGuides [a]) [a] = _ ∧ _
    rw [ownIf_values hv, functionRefGuides]
    split
    · next U e => exact .inr ⟨U, rfl, fun n en => h n (by rw [e, en])⟩
    · next U e => exact .inr ⟨.const U, rfl, by intro _ h; cases h⟩
    · exact .inl rfl
  unfold declare
  rcases hd with hd | ⟨U, hd, hU⟩
  · rw [hd]
  · rw [hd]
    cases U with
    | fn n => exact absurd rfl (hU n)
    | _ => rfl

/-! ### cases -/

/-- there are such rules: say all objects convert to each other -/
noncomputable def someLang : Lang where
  same T U := @decide (T = U) (Classical.propDecidable _)
  same_iff T U := @decide_eq_true_iff (T = U) (Classical.propDecidable _)
  storable := fun | .arr _ _ | .fn _ | .const _ => false | _ => true
  storable_arr _ _ := rfl
  storable_fn _ := rfl
  storable_const _ := rfl
  conv := ⟨fun j k => decide (j = k), by simp⟩
  name := fun | .arr _ _ => 1 | .fn _ => 2 | _ => 0
  conv_arr U T n h := by cases U <;> simp_all [Ty.isObject]
  conv_fn U n h := by cases U <;> simp_all [Ty.isObject]

/-- C106 fails altogether: `int x; array a{x};` -/
theorem C106_refuted : ¬ ∀ L c args, Deduces L c args := by
  intro h
  have := h someLang .array [⟨.named 0, ⟨false, .lvalue⟩⟩] (.array (.named 0) 1) .elements
    (.array (by intro a e; cases e; rfl) (by simp) (by simp [Arg.decay])) (by simp [Ty.elems, someLang])
  rw [C106_array_lvalue_refuted someLang _ (by intro a e; cases e; rfl) _ (List.mem_singleton.2 rfl) rfl] at this
  cases this

/-- `int`, `double`, `char` -/
abbrev int : Ty := .named 0
/-- … -/
abbrev double : Ty := .named 1
/-- … -/
abbrev char : Ty := .named 2

/-- what temporaries, variables, constants and string literals are -/
def temp (T : Ty) : Arg := ⟨T, ⟨false, .rvalue⟩⟩
/-- … -/
def var (T : Ty) : Arg := ⟨T, ⟨false, .lvalue⟩⟩
/-- … -/
def constant (T : Ty) : Arg := ⟨T, ⟨true, .lvalue⟩⟩
/-- … -/
def text (n : Nat) : Arg := ⟨.arr char (n + 1), ⟨true, .lvalue⟩⟩

/-- `array a{1, 2, 3}` -/
theorem case_array (L : Lang) (h : L.storable int = true) : declare L .array [temp int, temp int, temp int] = some (.array int 3, .elements) :=
  C106_array_partial L _ (by simp [temp, Arg.Object]) (by simp [temp]) (by simp) _ _
    (.array (by simp [Values]) (by simp) (by simp [temp, Arg.decay])) (by simpa [Ty.elems] using h)

/-- `tuple t{x, "abc"}` -/
theorem case_tuple (L : Lang) (h : L.storable int = true) (hp : L.storable (.ptr true char) = true) :
    declare L .tuple [var int, text 3] = some (.tuple [int, .ptr true char], .elements) :=
  C106_tuple_partial L _ (by simp) _ _ (.tuple (by simp [Values])) (by simp [Ty.elems, h, hp])

/-- `vector v{"a", "bcd"}` -/
theorem case_vector (L : Lang) (hp : L.storable (.ptr true char) = true) :
    declare L .vector [text 1, text 3] = some (.vector (.ptr true char), .elements) :=
  C106_vector_partial L _ (by simp) _ _ (.vector (by simp [Values]) (by simp) (by simp [text, Arg.decay])) (by simpa [Ty.elems] using hp)

/-- `optional o{x}` and then `optional p{o}` -/
theorem case_optional (L : Lang) (h : L.storable int = true) :
    declare L .optional [var int] = some (.optional int, .elements) ∧ declare L .optional [var (.optional int)] = some (.optional int, .copied) :=
  ⟨C106_optional_partial L _ (by simp [var, Arg.Object]) (.inl (by simp [var])) _ _ (.optional (by intro a e; cases e; rfl)) (by simpa [Ty.elems] using h),
   C106_optional_partial L _ (by simp [var, Arg.Object]) (.inl (by simp [var])) _ _ (.same (by simp) rfl) (by simpa [Ty.elems] using h)⟩

end Ptl.Deduce

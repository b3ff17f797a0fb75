import Verif.Overload.Props

/-!
# C79: visiting with several visitors

What `visit` of variant (inc/ptl/variant.hpp:100-121, 266-277) and variant_ref (inc/ptl/variant_ref.hpp:77-85, 136-145) passes to which visitor, and
when the call compiles.  Every definition cites the lines it models, or is a language rule.
-/

namespace Ptl.Overload

/-! ### language rules -/

/-- a visitor: an expression of kind `kind` and a type named `ty`, which may be a class (`final` or not) or, say, a pointer to a function.
`call a` is how well its parameter suits argument `a` (0 is best), `none` if it cannot be called. -/
structure Visitor where
  ty : Nat
  kind : Kind
  isClass : Bool
  final : Bool
  call : Arg → Option Nat

/-- overload resolution: the position of the one that suits best (`none`: there is none, or more than one) -/
def resolve (ranks : List (Option Nat)) : Option Nat :=
  (List.range ranks.length).find? fun k =>
    match ranks[k]? with
    | some (some r) => (List.range ranks.length).all fun j =>
      match ranks[j]? with
      | some (some q) => decide (j = k) || decide (r < q)
      | _ => true
    | _ => false

/-- a class with these base classes compiles: `Visitors` is deduced without reference only for rvalues, and only non-final classes can be base
classes, each only once -/
def basesOk (vs : List Visitor) : Bool :=
  vs.all (fun v => decide (v.kind.cat = .rvalue) && v.isClass && !v.final) && decide ((vs.map (·.ty)).Nodup)

/-! ### visit -/

/-- variant.hpp:266-277: the overload chosen for a variant of this kind, as (`Move`, is `storage` const) -/
def overload (v : Kind) : Bool × Bool :=
  match v.cat, v.const with
  | .lvalue, true => (false, true)
  | .lvalue, false => (false, false)
  | .rvalue, true => (true, true)
  | .rvalue, false => (true, false)

/-- variant.hpp:108-112: what is passed to the visitor for an alternative of type `ty`: `std::move(*ptr)` or `*ptr` -/
def passed (o : Bool × Bool) (ty : Nat) : Arg := ⟨ty, ⟨o.2, if o.1 then .rvalue else .lvalue⟩⟩

/-- variant_ref.hpp:83: `*storage.get<Indices>()`; alternatives of a variant_ref may be const -/
def passedRef (ty : Nat) (const : Bool) : Arg := ⟨ty, ⟨const, .lvalue⟩⟩

/-- variant.hpp:100-121, variant_ref.hpp:138-144: the visitor that is called for each of the arguments in `args` (one per alternative), if the call compiles.  One visitor is
called itself.  Several visitors are the base classes of `combined_visitor`, whose overloads are theirs.  (The result types are in C67.) -/
def visitors (vs : List Visitor) (args : List Arg) : Option (List Nat) :=
  match vs with
  | [] => none
  | [v] => if args.all fun a => (v.call a).isSome then some (args.map fun _ => 0) else none
  | vs => if basesOk vs then args.mapM fun a => resolve (vs.map fun v => v.call a) else none

/-- `v.visit(visitors...)` for a variant of kind `v` with alternatives `ts`: the visitor called for each alternative -/
def visitVariant (ts : List Nat) (v : Kind) (vs : List Visitor) : Option (List Nat) := visitors vs (ts.map (passed (overload v)))

/-- `r.visit(visitors...)` for a variant_ref -/
def visitRef (ts : List (Nat × Bool)) (vs : List Visitor) : Option (List Nat) := visitors vs (ts.map fun t => passedRef t.1 t.2)

/-! ### what is asked for -/

/-- visitor `k` can be called with `a`, and suits `a` better than all others -/
def Best (vs : List Visitor) (a : Arg) (k : Nat) : Prop :=
  ∃ v r, vs[k]? = some v ∧ v.call a = some r ∧ ∀ (j : Nat) (w : Visitor) (q : Nat), j ≠ k → vs[j]? = some w → w.call a = some q → r < q

/-- what a visitor of a variant must be called with: the held value, const if the variant is, an rvalue if the variant is -/
def held (v : Kind) (ty : Nat) : Arg := ⟨ty, v⟩

/-- the visitors can be combined -/
def Combinable (vs : List Visitor) : Prop :=
  (∀ v ∈ vs, v.kind.cat = .rvalue ∧ v.isClass = true ∧ v.final = false) ∧ (vs.map (·.ty)).Nodup

/-- C79, full statement for variants: if for every alternative one of the visitors is best, the call compiles and calls that one -/
def CallsBest : Prop :=
  ∀ (ts : List Nat) (v : Kind) (vs : List Visitor), vs ≠ [] → (∀ T ∈ ts, ∃ k, Best vs (held v T) k) →
    ∃ ks, visitVariant ts v vs = some ks ∧ ks.length = ts.length ∧
      ∀ (i T k : Nat), ts[i]? = some T → ks[i]? = some k → Best vs (held v T) k

/-! ### proofs -/

theorem basesOk_iff (vs : List Visitor) : basesOk vs = true ↔ Combinable vs := by
  simp [basesOk, Combinable, and_assoc]

theorem passed_overload (v : Kind) (ty : Nat) : passed (overload v) ty = held v ty := by
  rcases v with ⟨_ | _, _ | _⟩ <;> rfl

theorem resolve_iff (vs : List Visitor) (a : Arg) (k : Nat) : resolve (vs.map fun v => v.call a) = some k ↔ Best vs a k := by
  have main : ∀ k, k < vs.length → ((match (vs.map fun v => v.call a)[k]? with
      | some (some r) => (List.range (vs.map fun v => v.call a).length).all fun j =>
        match (vs.map fun v => v.call a)[j]? with
        | some (some q) => decide (j = k) || decide (r < q)
        | _ => true
      | _ => false) = true ↔ Best vs a k) := by
    intro k hk
    rw [List.getElem?_map, List.getElem?_eq_getElem hk, Option.map_some]
    cases hr : vs[k].call a with
    | none =>
      simp only [Bool.false_eq_true, false_iff]
      rintro ⟨v, r, hv, hr', _⟩
      rw [List.getElem?_eq_getElem hk] at hv
      cases hv
      rw [hr] at hr'; cases hr'
    | some r =>
      simp only [List.all_eq_true, List.mem_range, List.length_map]
      constructor
      · intro h
        refine ⟨vs[k], r, List.getElem?_eq_getElem hk, hr, fun j w q hj hw hq => ?_⟩
        have hjl : j < vs.length := by
          rcases Nat.lt_or_ge j vs.length with h | h
          · exact h
          · rw [List.getElem?_eq_none h] at hw; cases hw
        have := h j hjl
        rw [List.getElem?_map, hw, Option.map_some, hq] at this
        simpa [hj] using this
      · rintro ⟨v, r', hv, hr', h⟩ j hj
        rw [List.getElem?_eq_getElem hk] at hv
        cases hv
        rw [hr] at hr'; cases hr'
        rw [List.getElem?_map, List.getElem?_eq_getElem hj, Option.map_some]
        cases hq : vs[j].call a with
        | none => rfl
        | some q =>
          by_cases e : j = k
          · simp [e]
          · have := h j vs[j] q e (List.getElem?_eq_getElem hj) hq
            simp [this]
  have uniq : ∀ k k', Best vs a k → Best vs a k' → k = k' := by
    rintro k k' ⟨v, r, hv, hr, h⟩ ⟨v', r', hv', hr', h'⟩
    by_cases e : k = k'
    · exact e
    · have h1 := h k' v' r' (Ne.symm e) hv' hr'
      have h2 := h' k v r e hv hr
      omega
  unfold resolve
  constructor
  · intro h
    have hk := List.mem_of_find?_eq_some h
    have hp := List.find?_some h
    exact (main k (by simpa using hk)).1 hp
  · intro hb
    have hk : k < vs.length := by
      obtain ⟨v, r, hv, _⟩ := hb
      rcases Nat.lt_or_ge k vs.length with h | h
      · exact h
      · rw [List.getElem?_eq_none h] at hv; cases hv
    cases hf : (List.range (vs.map fun v => v.call a).length).find? fun k =>
        match (vs.map fun v => v.call a)[k]? with
        | some (some r) => (List.range (vs.map fun v => v.call a).length).all fun j =>
          match (vs.map fun v => v.call a)[j]? with
          | some (some q) => decide (j = k) || decide (r < q)
          | _ => true
        | _ => false with
    | none =>
      have := List.find?_eq_none.1 hf k (by simpa using hk)
      exact absurd ((main k hk).2 hb) this
    | some k' =>
      have hk' := List.mem_of_find?_eq_some hf
      have hp := List.find?_some hf
      rw [uniq k k' hb ((main k' (by simpa using hk')).1 hp)]

theorem mapM_some_iff {α β : Type} (f : α → Option β) (l : List α) (ks : List β) :
    l.mapM f = some ks ↔ ks.length = l.length ∧ ∀ (i : Nat) (a : α), l[i]? = some a → ∃ k, ks[i]? = some k ∧ f a = some k := by
  induction l generalizing ks with
  | nil =>
    simp only [List.mapM_nil]
    constructor
    · intro h; cases h; exact ⟨rfl, fun i a h => by cases h⟩
    · rintro ⟨h, _⟩
      rw [List.length_nil, List.length_eq_zero_iff] at h
      rw [h]; rfl
  | cons x l ih =>
    rw [List.mapM_cons]
    constructor
    · intro h
      cases hx : f x with
      | none => rw [hx] at h; cases h
      | some y =>
        cases hl : l.mapM f with
        | none => rw [hx, hl] at h; cases h
        | some ys =>
          rw [hx, hl] at h; cases h
          obtain ⟨h1, h2⟩ := (ih ys).1 hl
          refine ⟨by simp [h1], fun i a ha => ?_⟩
          cases i with
          | zero => cases ha; exact ⟨y, rfl, hx⟩
          | succ i => exact h2 i a ha
    · rintro ⟨h1, h2⟩
      cases ks with
      | nil => cases h1
      | cons y ys =>
        obtain ⟨k, hk, hx⟩ := h2 0 x rfl
        cases hk
        rw [hx, (ih ys).2 ⟨by simpa using h1, fun i a ha => h2 (i + 1) a ha⟩]
        rfl

/-- what `visitors` does -/
theorem visitors_iff (vs : List Visitor) (args : List Arg) (ks : List Nat) :
    visitors vs args = some ks ↔ vs ≠ [] ∧ (2 ≤ vs.length → Combinable vs) ∧ ks.length = args.length ∧
      ∀ (i : Nat) (a : Arg), args[i]? = some a → ∃ k, ks[i]? = some k ∧ Best vs a k := by
  match vs with
  | [] => simp [visitors]
  | [v] =>
    have one : ∀ a k, Best [v] a k ↔ k = 0 ∧ (v.call a).isSome = true := by
      intro a k
      constructor
      · rintro ⟨w, r, hw, hr, _⟩
        cases k with
        | zero => cases hw; exact ⟨rfl, by rw [hr]; rfl⟩
        | succ k => simp at hw
      · rintro ⟨rfl, h⟩
        obtain ⟨r, hr⟩ := Option.isSome_iff_exists.1 h
        refine ⟨v, r, rfl, hr, fun j w q hj hw _ => ?_⟩
        cases j with
        | zero => exact absurd rfl hj
        | succ j => simp at hw
    simp only [visitors]
    constructor
    · intro h
      split at h
      · rename_i ha
        cases h
        refine ⟨by simp, by simp, by simp, fun i a hi => ⟨0, ?_, (one a 0).2 ⟨rfl, ?_⟩⟩⟩
        · rw [List.getElem?_map, hi]; rfl
        · exact List.all_eq_true.1 ha a (List.mem_of_getElem? hi)
      · cases h
    · rintro ⟨_, _, hl, h⟩
      have ha : args.all (fun a => (v.call a).isSome) = true := by
        rw [List.all_eq_true]
        intro a ha
        obtain ⟨i, hi, e⟩ := List.mem_iff_getElem.1 ha
        obtain ⟨k, _, hb⟩ := h i a (by rw [List.getElem?_eq_getElem hi, e])
        exact ((one a k).1 hb).2
      rw [if_pos ha]
      congr 1
      apply List.ext_getElem?
      intro i
      rw [List.getElem?_map]
      cases hi : args[i]? with
      | none =>
        rw [Option.map_none]
        rw [List.getElem?_eq_none_iff] at hi
        exact (List.getElem?_eq_none (by omega)).symm
      | some a =>
        obtain ⟨k, hk, hb⟩ := h i a hi
        rw [hk, ((one a k).1 hb).1]; rfl
  | v :: w :: vs =>
    have e : visitors (v :: w :: vs) args =
        if basesOk (v :: w :: vs) then args.mapM fun a => resolve ((v :: w :: vs).map fun v => v.call a) else none := rfl
    rw [e]
    constructor
    · intro h
      split at h
      · rename_i hb
        obtain ⟨h1, h2⟩ := (mapM_some_iff _ _ _).1 h
        refine ⟨by simp, fun _ => (basesOk_iff _).1 hb, h1, fun i a hi => ?_⟩
        obtain ⟨k, hk, hr⟩ := h2 i a hi
        exact ⟨k, hk, (resolve_iff _ _ _).1 hr⟩
      · cases h
    · rintro ⟨_, hc, hl, h⟩
      rw [if_pos ((basesOk_iff _).2 (hc (by simp)))]
      refine (mapM_some_iff _ _ _).2 ⟨hl, fun i a hi => ?_⟩
      obtain ⟨k, hk, hb⟩ := h i a hi
      exact ⟨k, hk, (resolve_iff _ _ _).2 hb⟩

/-- if every argument has a best visitor, those visitors can be listed -/
theorem exists_list (vs : List Visitor) (args : List Arg) (h : ∀ a ∈ args, ∃ k, Best vs a k) :
    ∃ ks : List Nat, ks.length = args.length ∧ ∀ (i : Nat) (a : Arg), args[i]? = some a → ∃ k, ks[i]? = some k ∧ Best vs a k := by
  induction args with
  | nil => exact ⟨[], rfl, fun i a h => by cases h⟩
  | cons a args ih =>
    obtain ⟨k, hk⟩ := h a List.mem_cons_self
    obtain ⟨ks, h1, h2⟩ := ih fun b hb => h b (List.mem_cons_of_mem _ hb)
    refine ⟨k :: ks, by simp [h1], fun i b hi => ?_⟩
    cases i with
    | zero => cases hi; exact ⟨k, rfl, hk⟩
    | succ i => exact h2 i b hi

/-! ## C79 -/

/-- C79: whenever a visit of a variant compiles, the visitor called is the best one for the held value with the variant's constness and value
category -/
theorem C79_called {ts : List Nat} {v : Kind} {vs : List Visitor} {ks : List Nat} (h : visitVariant ts v vs = some ks) :
    ks.length = ts.length ∧ ∀ (i T k : Nat), ts[i]? = some T → ks[i]? = some k → Best vs (held v T) k := by
  obtain ⟨_, _, hl, hb⟩ := (visitors_iff _ _ _).1 h
  refine ⟨by simpa using hl, fun i T k hT hk => ?_⟩
  obtain ⟨k', hk', hbest⟩ := hb i (passed (overload v) T) (by rw [List.getElem?_map, hT]; rfl)
  rw [hk] at hk'; cases hk'
  rw [← passed_overload]; exact hbest

/-- C79: the same for a variant_ref: the visitor is called with an lvalue, const if the alternative is -/
theorem C79_called_ref {ts : List (Nat × Bool)} {vs : List Visitor} {ks : List Nat} (h : visitRef ts vs = some ks) :
    ks.length = ts.length ∧ ∀ (i k : Nat) (T : Nat × Bool), ts[i]? = some T → ks[i]? = some k → Best vs ⟨T.1, ⟨T.2, .lvalue⟩⟩ k := by
  obtain ⟨_, _, hl, hb⟩ := (visitors_iff _ _ _).1 h
  refine ⟨by simpa using hl, fun i k T hT hk => ?_⟩
  obtain ⟨k', hk', hbest⟩ := hb i (passedRef T.1 T.2) (by rw [List.getElem?_map, hT]; rfl)
  rw [hk] at hk'; cases hk'
  exact hbest

/-- C79 (part): one visitor, or several visitors that are rvalues of different non-final classes.  Missing: other combinations of visitors, see
`C79_lvalue_refuted`, `C79_function_refuted`. -/
theorem C79_partial (ts : List Nat) (v : Kind) (vs : List Visitor) (hne : vs ≠ []) (hc : 2 ≤ vs.length → Combinable vs)
    (h : ∀ T ∈ ts, ∃ k, Best vs (held v T) k) : ∃ ks, visitVariant ts v vs = some ks := by
  obtain ⟨ks, h1, h2⟩ := exists_list vs (ts.map (passed (overload v))) (by
    intro a ha
    obtain ⟨T, hT, rfl⟩ := List.mem_map.1 ha
    rw [passed_overload]; exact h T hT)
  exact ⟨ks, (visitors_iff _ _ _).2 ⟨hne, hc, h1, h2⟩⟩

/-- C79 (part) for variant_refs -/
theorem C79_ref_partial (ts : List (Nat × Bool)) (vs : List Visitor) (hne : vs ≠ []) (hc : 2 ≤ vs.length → Combinable vs)
    (h : ∀ T ∈ ts, ∃ k, Best vs ⟨T.1, ⟨T.2, .lvalue⟩⟩ k) : ∃ ks, visitRef ts vs = some ks := by
  obtain ⟨ks, h1, h2⟩ := exists_list vs (ts.map fun t => passedRef t.1 t.2) (by
    intro a ha
    obtain ⟨T, hT, rfl⟩ := List.mem_map.1 ha
    exact h T hT)
  exact ⟨ks, (visitors_iff _ _ _).2 ⟨hne, hc, h1, h2⟩⟩

/-- C79 is false: as soon as there are two visitors and one of them is an lvalue, no visit compiles -/
theorem C79_lvalue_refuted (vs : List Visitor) (h2 : 2 ≤ vs.length) (w : Visitor) (hw : w ∈ vs) (hl : w.kind.cat = .lvalue) :
    (∀ ts v, visitVariant ts v vs = none) ∧ ∀ ts, visitRef ts vs = none := by
  have key : ∀ args, visitors vs args = none := by
    intro args
    cases h : visitors vs args with
    | none => rfl
    | some ks =>
      obtain ⟨_, hc, _⟩ := (visitors_iff _ _ _).1 h
      have := ((hc h2).1 w hw).1
      rw [hl] at this; cases this
  exact ⟨fun ts v => key _, fun ts => key _⟩

/-- C79 is false: nor if one of them is a pointer to a function -/
theorem C79_function_refuted (vs : List Visitor) (h2 : 2 ≤ vs.length) (w : Visitor) (hw : w ∈ vs) (hl : w.isClass = false) :
    (∀ ts v, visitVariant ts v vs = none) ∧ ∀ ts, visitRef ts vs = none := by
  have key : ∀ args, visitors vs args = none := by
    intro args
    cases h : visitors vs args with
    | none => rfl
    | some ks =>
      obtain ⟨_, hc, _⟩ := (visitors_iff _ _ _).1 h
      have := ((hc h2).1 w hw).2.1
      rw [hl] at this; cases this
  exact ⟨fun ts v => key _, fun ts => key _⟩

/-! ### concrete cases -/

/-- how well a reference parameter suits an argument of the same type -/
def refRank (p arg : Kind) : Option Nat :=
  if binds p arg then some ((if p.cat = arg.cat then 0 else 2) + (if p.const = arg.const then 0 else 1)) else none

/-- the ranks are those of the rules for reference binding -/
theorem refRank_better (p q arg : Kind) (r s : Nat) (hp : refRank p arg = some r) (hq : refRank q arg = some s) : r < s ↔ better p q arg = true := by
  rcases p with ⟨_ | _, _ | _⟩ <;> rcases q with ⟨_ | _, _ | _⟩ <;> rcases arg with ⟨_ | _, _ | _⟩ <;>
    simp_all [refRank, binds, better] <;> omega

/-- a lambda expression with parameter type `T &`, `const T &`, … for the type `T` named `ty` -/
def lambda (name ty : Nat) (p : Kind) : Visitor :=
  ⟨name, ⟨false, .rvalue⟩, true, false, fun a => if a.ty = ty then refRank p a.kind else none⟩

/-- `[](int &) {…}, [](double &) {…}, [](const int &) {…}, …` -/
def eight : List Visitor :=
  [lambda 0 0 ⟨false, .lvalue⟩, lambda 1 1 ⟨false, .lvalue⟩, lambda 2 0 ⟨true, .lvalue⟩, lambda 3 1 ⟨true, .lvalue⟩,
   lambda 4 0 ⟨false, .rvalue⟩, lambda 5 1 ⟨false, .rvalue⟩, lambda 6 0 ⟨true, .rvalue⟩, lambda 7 1 ⟨true, .rvalue⟩]

-- a `variant<int, double>` in all kinds
example : visitVariant [0, 1] ⟨false, .lvalue⟩ eight = some [0, 1] ∧ visitVariant [0, 1] ⟨true, .lvalue⟩ eight = some [2, 3] ∧
    visitVariant [0, 1] ⟨false, .rvalue⟩ eight = some [4, 5] ∧ visitVariant [0, 1] ⟨true, .rvalue⟩ eight = some [6, 7] := by decide
-- a `variant_ref<int, const double>`
example : visitRef [(0, false), (1, true)] eight = some [0, 3] := by decide
-- no visitor for one alternative, or two equally good ones: does not compile
example : visitVariant [0, 1] ⟨true, .lvalue⟩ [lambda 0 0 ⟨true, .lvalue⟩, lambda 1 0 ⟨false, .lvalue⟩] = none ∧
    visitVariant [0] ⟨true, .lvalue⟩ [lambda 0 0 ⟨true, .lvalue⟩, lambda 1 0 ⟨true, .lvalue⟩] = none := by decide

/-- `auto f = [](const int &) {…};` -/
def named : Visitor := { lambda 0 0 ⟨true, .lvalue⟩ with kind := ⟨false, .lvalue⟩ }

-- `v.visit(f)` compiles, `v.visit(f, [](const double &) {…})` does not
example : visitVariant [0] ⟨true, .lvalue⟩ [named] = some [0] ∧ visitVariant [0, 1] ⟨true, .lvalue⟩ [named, lambda 1 1 ⟨true, .lvalue⟩] = none := by decide

/-- C79 is false -/
theorem C79_refuted : ¬ CallsBest := by
  intro h
  obtain ⟨ks, hk, _⟩ := h [0] ⟨true, .lvalue⟩ [named, lambda 1 1 ⟨true, .lvalue⟩] (by simp) (by
    intro T hT
    have : T = 0 := by simpa using hT
    subst this
    exact ⟨0, (resolve_iff _ _ _).1 (by decide)⟩)
  rw [(C79_lvalue_refuted _ (by simp) named (by simp) rfl).1] at hk
  cases hk

end Ptl.Overload

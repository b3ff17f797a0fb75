import Verif.Vector.Props.History
import Verif.Tuple.Props

/-!
# C76: containers store the values they are given

`vector::emplace` (inc/ptl/vector.hpp:361), and with it `push_back` and `insert(pos, Type &&)`, constructs elements with braces;
so does `tuple` (inc/ptl/tuple.hpp:47).  For a class with a constructor from `std::initializer_list` of something that the class itself converts
to (JSON values, lists of `std::any`) `Type{x}` is not a copy of `x`.
-/

set_option linter.unusedSectionVars false

namespace Ptl.Vector

variable {α : Type} (T : Elem α)

/-! ### model -/

/-- what `Type{x}` is for an `x` of type `Type`: `none`: a copy of `x` (or `x` is moved from); `some f`: the initializer_list constructor is chosen
and makes `f x` of it -/
abbrev Greedy (α : Type) := Option (α → α)

/-- vector.hpp:361 `new(pos) Type{std::forward<Args>(args)...}` for one argument of type `Type`.  The initializer_list constructor gets a list that
contains a copy of the argument (or was moved from it), and it may throw. -/
def constructBraced (g : Greedy α) (p : Ptr) (a : Arg α) : VM α Unit :=
  match g with
  | none => constructAt T p a
  | some f => match a with
    | .val v => do
      fallible .user
      initAt p (f v)
    | .copy q => do
      let v ← readAt q
      fallible .user
      initAt p (f v)
    | .move q => do
      let v ← readAt q
      setSlot q (some (T.moved v))
      fallible .user
      initAt p (f v)

/-- vector.hpp:361 `emplace`, and vector.hpp:358 `insert(pos, Type &&)` -/
def emplaceBraced (g : Greedy α) (this : Id) (pos : Ptr) (a : Arg α) : VM α Ptr :=
  insertImpl T this pos 1 (fun p => constructBraced T g p a)

/-- vector.hpp:298-301 `push_back` -/
def pushBackBraced (g : Greedy α) (this : Id) (a : Arg α) : VM α Ptr := do
  let e ← end_ this
  emplaceBraced T g this e a

/-- the client's `v.push_back(x)`, and where the new element is -/
def runPushBack (g : Greedy α) (i : Nat) (x : Src1 α) : VM α (Option Nat) := do
  let a ← x.resolve
  let it ← pushBackBraced T g (.var i) a
  offset i it

/-- the client's `v.insert(v.begin() + k, std::move(x))` -/
def runInsertMove (g : Greedy α) (i k : Nat) (x : Src1 α) : VM α (Option Nat) := do
  let a ← x.resolve
  let p ← pos i k
  let it ← emplaceBraced T g (.var i) p a
  offset i it

variable {T} {s s' : St α Storage} {V V' : Vars α} {r : Option Nat} {i : Nat} {xs pre post : List α} {v : α}

/-! ### relation to the calls of `Verif/Vector/Client.lean` -/

theorem emplaceBraced_none : emplaceBraced T none = emplace T := by
  funext this p a
  unfold emplaceBraced emplace constructBraced
  rfl

theorem emplaceBraced_val (f : α → α) (this : Id) (p : Ptr) (v : α) :
    emplaceBraced T (some f) this p (.val v) = emplace T this p (.val (f v)) := by
  unfold emplaceBraced emplace
  congr 1

theorem pushBackBraced_none : pushBackBraced T none = pushBack T := by
  funext this a
  unfold pushBackBraced pushBack
  rw [emplaceBraced_none]

theorem pushBackBraced_val (f : α → α) (this : Id) (v : α) : pushBackBraced T (some f) this (.val v) = pushBack T this (.val (f v)) := by
  unfold pushBackBraced pushBack
  simp only [emplaceBraced_val]

theorem runPushBack_none (i : Nat) (x : Src1 α) : runPushBack T none i x = (Op.pushBack i x).run T := by
  unfold runPushBack Op.run
  rw [pushBackBraced_none]

theorem runInsertMove_none (i k : Nat) (x : Src1 α) : runInsertMove T none i k x = (Op.emplace i k x).run T := by
  unfold runInsertMove Op.run
  rw [emplaceBraced_none]

theorem runPushBack_val (f : α → α) (i : Nat) (v : α) :
    runPushBack T (some f) i (.ref (.val v)) = (Op.pushBack i (.ref (.val (f v)))).run T := by
  unfold runPushBack Op.run
  funext s
  dsimp only
  rw [M.bind_ok (show Src1.resolve (.ref (.val v)) s = .ok (.val v) s from rfl),
    M.bind_ok (show Src1.resolve (.ref (.val (f v))) s = .ok (.val (f v)) s from rfl), pushBackBraced_val]

theorem runInsertMove_val (f : α → α) (i k : Nat) (v : α) :
    runInsertMove T (some f) i k (.ref (.val v)) = (Op.emplace i k (.ref (.val (f v)))).run T := by
  unfold runInsertMove Op.run
  funext s
  dsimp only
  rw [M.bind_ok (show Src1.resolve (.ref (.val v)) s = .ok (.val v) s from rfl),
    M.bind_ok (show Src1.resolve (.ref (.val (f v))) s = .ok (.val (f v)) s from rfl)]
  simp only [emplaceBraced_val]

/-! ### C76 for vectors -/

/-- C76 (part): for element types whose `Type{x}` copies or moves, `push_back` stores the value it is given, from outside or from a vector, by copy or by move.
Missing: other element types, see `C76_push_back_refuted`. -/
theorem C76_push_back_partial {x : Src1 α} (h : Reach T s V) (hx : x.Takes T.moved V v V') (hi : V' i = some xs)
    (hr : runPushBack T none i x s = .ok r s') : r = some xs.length ∧ ∃ d c, Shows s' i d c (xs ++ [v]) := by
  have := Reach.call h (Spec.pushBack (T := T) hx hi)
  rw [← runPushBack_none, hr] at this
  exact ⟨this.1, this.2.shows (upd_same _ _ _)⟩

/-- C76 (part): likewise `insert(pos, Type &&)` -/
theorem C76_insert_move_partial {x : Src1 α} (h : Reach T s V) (hx : x.Takes T.moved V v V') (hi : V' i = some (pre ++ post))
    (hr : runInsertMove T none i pre.length x s = .ok r s') :
    r = some pre.length ∧ ∃ d c, Shows s' i d c (pre ++ [v] ++ post) := by
  have := Reach.call h (Spec.emplace (T := T) hx hi)
  rw [← runInsertMove_none, hr] at this
  exact ⟨this.1, this.2.shows (upd_same _ _ _)⟩

/-- C76: `insert(pos, const Type &)` stores the value it is given, for all element types (it does not use braces) -/
theorem C76_insert_copy {x : Src α} (h : Reach T s V) (hx : x.Is V v) (hi : V i = some (pre ++ post)) (hn : (pre ++ post).length + 1 < 2 ^ 64)
    (hr : (Op.insertFill i pre.length 1 x).run T s = .ok r s') :
    r = some pre.length ∧ ∃ d c, Shows s' i d c (pre ++ [v] ++ post) := by
  have := Reach.call h (Spec.insertFill (T := T) hx hi hn)
  rw [hr] at this
  exact ⟨this.1, this.2.shows (upd_same _ _ _)⟩

/-- C76 is false, in all states and for all classes whose `Type{x}` is `f x`: `push_back(x)` stores `f x` -/
theorem C76_push_back_exact {f : α → α} (h : Reach T s V) (hi : V i = some xs)
    (hr : runPushBack T (some f) i (.ref (.val v)) s = .ok r s') : r = some xs.length ∧ ∃ d c, Shows s' i d c (xs ++ [f v]) := by
  have := Reach.call h (Spec.pushBack (T := T) (.ref (.val (f v))) hi)
  rw [← runPushBack_val, hr] at this
  exact ⟨this.1, this.2.shows (upd_same _ _ _)⟩

/-- the same for `insert(pos, Type &&)` -/
theorem C76_insert_move_exact {f : α → α} (h : Reach T s V) (hi : V i = some (pre ++ post))
    (hr : runInsertMove T (some f) i pre.length (.ref (.val v)) s = .ok r s') :
    r = some pre.length ∧ ∃ d c, Shows s' i d c (pre ++ [f v] ++ post) := by
  have := Reach.call h (Spec.emplace (T := T) (.ref (.val (f v))) hi)
  rw [← runInsertMove_val, hr] at this
  exact ⟨this.1, this.2.shows (upd_same _ _ _)⟩

/-- C76, full statement for vectors: after `v.push_back(x)` the last element is `x`, for every element type -/
def PushBackStores : Prop :=
  ∀ (g : Greedy Nat) (s s' : St Nat Storage) (V : Vars Nat) (i v : Nat) (xs : List Nat) (r : Option Nat), Reach natElem s V → V i = some xs →
    runPushBack natElem g i (.ref (.val v)) s = .ok r s' → ∃ d c, Shows s' i d c (xs ++ [v])

/-- a class whose values are nested lists, described by the depth of nesting: `Type{x}` is the list that contains `x` -/
def nest : Greedy Nat := some (· + 1)

/-- C76 is false: `v.push_back(x)` appends the list that contains `x`, while `v.insert(v.end(), x)` appends `x` -/
theorem C76_push_back_refuted : ¬ PushBackStores ∧ ∃ (s s1 s2 : St Nat Storage) (r1 r2 : Option Nat), Reach natElem s demoV ∧
    runPushBack natElem nest 0 (.ref (.val 5)) s = .ok r1 s1 ∧ (∃ d c, Shows s1 0 d c [1, 2, 3, 6]) ∧
    (Op.insertFill 0 3 1 (.val 5)).run natElem s = .ok r2 s2 ∧ ∃ d c, Shows s2 0 d c [1, 2, 3, 5] := by
  obtain ⟨s, h, ho⟩ := demo
  have hlen : ∀ x, ∀ i (xs : List Nat), upd demoV 0 (some ([1, 2, 3] ++ [x])) i = some xs → xs.length ≤ 1000 := by
    intro x i xs h; simp only [upd] at h; split at h
    · cases h; simp
    · exact demoV_len _ _ h
  obtain ⟨s1, hr1, _, _⟩ := h.next (Spec.pushBack (i := 0) (xs := [1, 2, 3]) (.ref (.val ((· + 1) 5))) rfl) ho
    (demo_short (hlen _) (by intro i n h; cases h))
  obtain ⟨s2, hr2, _, _⟩ := h.next (Spec.insertFill (i := 0) (n := 1) (pre := [1, 2, 3]) (post := []) (.val 5) rfl (by decide)) ho
    (demo_short (hlen 5) (by intro i n h; cases h))
  have hr1' : runPushBack natElem nest 0 (.ref (.val 5)) s = .ok (some 3) s1 := by
    rw [nest, runPushBack_val]; exact hr1
  have e1 := (C76_push_back_exact h (i := 0) (xs := [1, 2, 3]) rfl hr1').2
  refine ⟨fun hh => ?_, s, s1, s2, _, _, h, hr1', e1, hr2, (C76_insert_copy h (.val 5) rfl (by decide) hr2).2⟩
  obtain ⟨d, c, hs⟩ := hh nest s s1 demoV 0 5 [1, 2, 3] _ h rfl hr1'
  obtain ⟨d', c', hs'⟩ := e1
  have := (hs.unique hs').2.2
  cases this

/-- C76 is false: if the construction throws, the value passed by `push_back(std::move(x))` is lost: `x` was moved into the list
already (the strong guarantee C03 does not extend to it) -/
theorem C76_lost_refuted : ∃ (s s' : St Nat Storage) (V : Vars Nat), Reach natElem s V ∧ V 0 = some [4] ∧
    runPushBack natElem nest 0 (.mv 0 0) s = .exc .user s' ∧ ∃ s'', readBack 0 s' = .ok [0] s'' := by
  let op : Op Nat := .ctorRange 0 (.refs ([4].map .val))
  have hs : Spec natElem op (fun _ => none) _ _ := .ctorRange (i := 0) (r := .refs ([4].map .val)) rfl (.refs (AreAll.vals _)) (by decide)
  have hr : (match op.run natElem (start Nat fun k => k == 2) with
      | .ok _ s1 => (match runPushBack natElem nest 0 (.mv 0 0) s1 with
        | .exc .user s2 => (match readBack 0 s2 with
          | .ok l _ => l == [0]
          | _ => false)
        | _ => false)
      | _ => false) = true := by decide +kernel
  cases h1 : op.run natElem (start Nat fun k => k == 2) with
  | ok r s1 =>
    rw [h1] at hr
    cases h2 : runPushBack natElem nest 0 (.mv 0 0) s1 with
    | exc e s2 =>
      simp only [h2] at hr
      cases e <;> simp only [Bool.false_eq_true] at hr
      cases h3 : readBack 0 s2 with
      | ok l s3 =>
        simp only [h3, beq_iff_eq] at hr
        subst hr
        exact ⟨s1, s2, _, .ok (.start _) hs h1, upd_same _ _ _, h2, s3, h3⟩
      | exc | ub | term => simp [h3] at hr
    | ok | ub | term => simp [h2] at hr
  | exc | ub | term => rw [h1] at hr; cases hr

end Ptl.Vector

namespace Ptl.Tuple

variable {ν : Type} {ts : List (Elem ν)} {s s' : Arr.St ν} {V : Vars ν} {i : Nat} {vs : List ν}

/-- C76 (part) for tuples: elements whose `Type{x}` copies or moves are stored as given.  Missing: other types, see `C76_tuple_refuted`. -/
theorem C76_tuple_partial (h : Reach ts s V) (h0 : V i = none) (hv : vs.length = ts.length) (hplain : ∀ T ∈ ts, ∀ x, T.init x = x)
    (hr : (Op.ctor i (vs.map .val)).run ts s = .ok () s') : Shows ts s' i vs := by
  have := (C57_construct h h0 hv hr).1
  have e : ∀ (ts : List (Elem ν)) (vs : List ν), vs.length = ts.length → (∀ T ∈ ts, ∀ x, T.init x = x) →
      List.zipWith (fun T v => T.init v) ts vs = vs := by
    intro ts
    induction ts with
    | nil => intro vs hv _; cases vs with
      | nil => rfl
      | cons => cases hv
    | cons T ts ih => intro vs hv hp; cases vs with
      | nil => cases hv
      | cons v vs =>
        rw [List.zipWith_cons_cons, hp T (by simp), ih vs (by simpa using hv) (fun T hT => hp T (by simp [hT]))]
  rw [e ts vs hv hplain] at this
  exact this

/-- C76 is false for tuples: `tuple<list>{x}` holds the list that contains `x` -/
theorem C76_tuple_refuted : ∃ (T : Elem Nat) (s s' : Arr.St Nat) (V : Vars Nat), Reach [T] s V ∧ V 0 = none ∧
    (Op.ctor 0 ([5].map .val)).run [T] s = .ok () s' ∧ Shows [T] s' 0 [6] ∧ ¬ Shows [T] s' 0 [5] := by
  let T : Elem Nat := { up with init := (· + 1) }
  have h0 : Reach [T] _ _ := .start fun _ => false
  have hr : (Op.ctor 0 ([5].map Arg.val)).run [T] (start fun _ => false) = .ok () _ := rfl
  have hs := (C57_construct h0 (i := 0) (vs := [5]) rfl rfl hr).1
  refine ⟨T, _, _, _, h0, rfl, hr, hs, fun hs' => ?_⟩
  have := (hs.value 0 6 rfl).symm.trans (hs'.value 0 5 rfl)
  cases this

end Ptl.Tuple

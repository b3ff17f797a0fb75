import Verif.Compare.Model

/-!
# C77: exceptions thrown by element comparisons

What the operators need to know, stated by positions, and what they do.
-/

set_option linter.unusedSectionVars false

namespace Ptl.Compare

variable {α : Type}

/-! ### what the answer depends on -/

/-- neither `x < y` nor `y < x`, and neither throws -/
def Same (lt : Ask α) (x y : α) : Prop := lt x y = some false ∧ lt y x = some false

/-- `lt k` is the operator for position `k`: the first `k` elements are equivalent -/
def SameUpTo (lt : Nat → Ask α) (k : Nat) (xs ys : List α) : Prop :=
  k ≤ xs.length ∧ k ≤ ys.length ∧ ∀ (j : Nat) (x y : α), j < k → xs[j]? = some x → ys[j]? = some y → Same (lt j) x y

/-- `xs < ys` cannot be decided without the answer of a comparison that throws: the first one after a stretch of equivalent elements -/
def LexThrows (lt : Nat → Ask α) (xs ys : List α) : Prop :=
  ∃ k x y, SameUpTo lt k xs ys ∧ xs[k]? = some x ∧ ys[k]? = some y ∧ (lt k x y = none ∨ (lt k x y = some false ∧ lt k y x = none))

/-- `xs` is before `ys` in the lexicographic order -/
def LexLess (lt : Nat → Ask α) (xs ys : List α) : Prop :=
  ∃ k, SameUpTo lt k xs ys ∧ ((xs.length = k ∧ k < ys.length) ∨ ∃ x y, xs[k]? = some x ∧ ys[k]? = some y ∧ lt k x y = some true)

/-- the elements at the first `k` positions are equal -/
def EqualUpTo (eq : Nat → Ask α) (k : Nat) (xs ys : List α) : Prop :=
  ∀ (j : Nat) (x y : α), j < k → xs[j]? = some x → ys[j]? = some y → eq j x y = some true

/-- sequences of the same length: `xs == ys` cannot be decided without the answer of a comparison that throws -/
def EqThrows (eq : Nat → Ask α) (xs ys : List α) : Prop :=
  ∃ k x y, EqualUpTo eq k xs ys ∧ xs[k]? = some x ∧ ys[k]? = some y ∧ eq k x y = none

/-! ### recursion -/

theorem SameUpTo.zero (lt : Nat → Ask α) (xs ys : List α) : SameUpTo lt 0 xs ys :=
  ⟨Nat.zero_le _, Nat.zero_le _, fun j _ _ h => absurd h (Nat.not_lt_zero j)⟩

theorem sameUpTo_succ {lt : Nat → Ask α} {k : Nat} {x y : α} {xs ys : List α} :
    SameUpTo lt (k + 1) (x :: xs) (y :: ys) ↔ Same (lt 0) x y ∧ SameUpTo (fun n => lt (n + 1)) k xs ys := by
  constructor
  · intro ⟨h1, h2, h3⟩
    exact ⟨h3 0 x y (by omega) rfl rfl, by simpa using h1, by simpa using h2, fun j a b hj ha hb => h3 (j + 1) a b (by omega) ha hb⟩
  · intro ⟨h0, h1, h2, h3⟩
    refine ⟨by simpa using h1, by simpa using h2, fun j a b hj ha hb => ?_⟩
    cases j with
    | zero => cases ha; cases hb; exact h0
    | succ j => exact h3 j a b (by omega) ha hb

theorem lexThrows_cons {lt : Nat → Ask α} {x y : α} {xs ys : List α} :
    LexThrows lt (x :: xs) (y :: ys) ↔
      lt 0 x y = none ∨ (lt 0 x y = some false ∧ lt 0 y x = none) ∨ (Same (lt 0) x y ∧ LexThrows (fun n => lt (n + 1)) xs ys) := by
  constructor
  · rintro ⟨k, a, b, hs, ha, hb, h⟩
    cases k with
    | zero => cases ha; cases hb; rcases h with h | h
              · exact .inl h
              · exact .inr (.inl h)
    | succ k => have := sameUpTo_succ.1 hs; exact .inr (.inr ⟨this.1, k, a, b, this.2, ha, hb, h⟩)
  · rintro (h | h | ⟨h0, k, a, b, hs, ha, hb, h⟩)
    · exact ⟨0, x, y, .zero _ _ _, rfl, rfl, .inl h⟩
    · exact ⟨0, x, y, .zero _ _ _, rfl, rfl, .inr h⟩
    · exact ⟨k + 1, a, b, sameUpTo_succ.2 ⟨h0, hs⟩, ha, hb, h⟩

theorem lexLess_cons {lt : Nat → Ask α} {x y : α} {xs ys : List α} :
    LexLess lt (x :: xs) (y :: ys) ↔ lt 0 x y = some true ∨ (Same (lt 0) x y ∧ LexLess (fun n => lt (n + 1)) xs ys) := by
  constructor
  · rintro ⟨k, hs, h⟩
    cases k with
    | zero =>
      rcases h with h | ⟨a, b, ha, hb, h⟩
      · simp at h
      · cases ha; cases hb; exact .inl h
    | succ k =>
      have := sameUpTo_succ.1 hs
      refine .inr ⟨this.1, k, this.2, ?_⟩
      simpa using h
  · rintro (h | ⟨h0, k, hs, h⟩)
    · exact ⟨0, .zero _ _ _, .inr ⟨x, y, rfl, rfl, h⟩⟩
    · exact ⟨k + 1, sameUpTo_succ.2 ⟨h0, hs⟩, by simpa using h⟩

theorem not_lexThrows_nil {lt : Nat → Ask α} {xs ys : List α} (h : xs = [] ∨ ys = []) : ¬ LexThrows lt xs ys := by
  rintro ⟨k, x, y, _, hx, hy, _⟩
  rcases h with rfl | rfl
  · cases hx
  · cases hy

theorem equalUpTo_succ {eq : Nat → Ask α} {k : Nat} {x y : α} {xs ys : List α} :
    EqualUpTo eq (k + 1) (x :: xs) (y :: ys) ↔ eq 0 x y = some true ∧ EqualUpTo (fun n => eq (n + 1)) k xs ys := by
  constructor
  · intro h
    exact ⟨h 0 x y (by omega) rfl rfl, fun j a b hj ha hb => h (j + 1) a b (by omega) ha hb⟩
  · intro ⟨h0, h⟩ j a b hj ha hb
    cases j with
    | zero => cases ha; cases hb; exact h0
    | succ j => exact h j a b (by omega) ha hb

theorem eqThrows_cons {eq : Nat → Ask α} {x y : α} {xs ys : List α} :
    EqThrows eq (x :: xs) (y :: ys) ↔ eq 0 x y = none ∨ (eq 0 x y = some true ∧ EqThrows (fun n => eq (n + 1)) xs ys) := by
  constructor
  · rintro ⟨k, a, b, hs, ha, hb, h⟩
    cases k with
    | zero => cases ha; cases hb; exact .inl h
    | succ k => have := equalUpTo_succ.1 hs; exact .inr ⟨this.1, k, a, b, this.2, ha, hb, h⟩
  · rintro (h | ⟨h0, k, a, b, hs, ha, hb, h⟩)
    · exact ⟨0, x, y, fun j _ _ hj => absurd hj (Nat.not_lt_zero j), rfl, rfl, h⟩
    · exact ⟨k + 1, a, b, equalUpTo_succ.2 ⟨h0, hs⟩, ha, hb, h⟩

/-! ### the loops -/

theorem ask_some {b : Bool} {r : Option Bool} (h : r = some b) : ask r () = .ok b () := by subst h; rfl
theorem ask_none {r : Option Bool} (h : r = none) : ask r () = .exc .user () := by subst h; rfl

/-- the loop throws iff it needs an answer that is an exception, and otherwise answers as it should -/
theorem lexLoop_spec (lt : Ask α) (xs ys : List α) :
    (LexThrows (fun _ => lt) xs ys ∧ lexLoop lt xs ys () = .exc .user ()) ∨
    (¬ LexThrows (fun _ => lt) xs ys ∧ ∃ b, lexLoop lt xs ys () = .ok b () ∧ (b = true ↔ LexLess (fun _ => lt) xs ys)) := by
  induction xs generalizing ys with
  | nil =>
    refine .inr ⟨not_lexThrows_nil (.inl rfl), ?_⟩
    cases ys with
    | nil =>
      refine ⟨false, rfl, by simp, ?_⟩
      rintro ⟨k, _, ⟨_, h⟩ | ⟨x, y, h, _⟩⟩
      · simp at h
      · simp at h
    | cons y ys => exact ⟨true, rfl, fun _ => ⟨0, .zero _ _ _, .inl ⟨rfl, by simp⟩⟩, fun _ => rfl⟩
  | cons x xs ih =>
    cases ys with
    | nil =>
      refine .inr ⟨not_lexThrows_nil (.inr rfl), false, rfl, by simp, ?_⟩
      rintro ⟨k, _, ⟨_, h⟩ | ⟨x, y, _, h, _⟩⟩
      · simp at h
      · simp at h
    | cons y ys =>
      rw [lexThrows_cons, lexLess_cons]
      unfold lexLoop
      cases h1 : lt x y with
      | none => exact .inl ⟨.inl rfl, M.bind_exc (ask_none rfl)⟩
      | some a =>
        cases a with
        | true =>
          refine .inr ⟨by simp [Same, h1], true, ?_, by simp⟩
          rw [M.bind_ok (ask_some rfl)]; rfl
        | false =>
          cases h2 : lt y x with
          | none =>
            refine .inl ⟨.inr (.inl ⟨rfl, rfl⟩), ?_⟩
            rw [M.bind_ok (ask_some rfl)]; exact M.bind_exc (ask_none rfl)
          | some b =>
            cases b with
            | true =>
              refine .inr ⟨by simp [Same, h2], false, ?_, by simp [Same, h2]⟩
              rw [M.bind_ok (ask_some rfl)]
              show (ask _ >>= _) () = _
              rw [M.bind_ok (ask_some rfl)]; rfl
            | false =>
              have e : ∀ f : Bool → CM Bool, (ask (some false) >>= f) () = f false () := fun f => M.bind_ok (ask_some rfl)
              rcases ih ys with ⟨ht, hr⟩ | ⟨ht, b, hr, hb⟩
              · refine .inl ⟨.inr (.inr ⟨⟨h1, h2⟩, ht⟩), ?_⟩
                rw [e]; show (ask _ >>= _) () = _
                rw [e]; exact hr
              · refine .inr ⟨by simp [Same, h1, h2]; exact ht, b, ?_, by simp [Same, h1, h2, hb]⟩
                rw [e]; show (ask _ >>= _) () = _
                rw [e]; exact hr

theorem eqLoop_spec (eq : Ask α) (xs ys : List α) (hl : xs.length = ys.length) :
    (EqThrows (fun _ => eq) xs ys ∧ eqLoop eq xs ys () = .exc .user ()) ∨
    (¬ EqThrows (fun _ => eq) xs ys ∧ ∃ b, eqLoop eq xs ys () = .ok b () ∧ (b = true ↔ EqualUpTo (fun _ => eq) xs.length xs ys)) := by
  induction xs generalizing ys with
  | nil =>
    refine .inr ⟨(by rintro ⟨k, x, y, _, h, _⟩; cases h), true, ?_, fun _ j x y hj => absurd hj (Nat.not_lt_zero j), fun _ => rfl⟩
    cases ys <;> rfl
  | cons x xs ih =>
    cases ys with
    | nil => cases hl
    | cons y ys =>
      rw [eqThrows_cons, List.length_cons, equalUpTo_succ]
      unfold eqLoop
      cases h1 : eq x y with
      | none => exact .inl ⟨.inl rfl, M.bind_exc (ask_none rfl)⟩
      | some a =>
        cases a with
        | false =>
          refine .inr ⟨by simp, false, ?_, by simp⟩
          rw [M.bind_ok (ask_some rfl)]; rfl
        | true =>
          rcases ih ys (by simpa using hl) with ⟨ht, hr⟩ | ⟨ht, b, hr, hb⟩
          · refine .inl ⟨.inr ⟨rfl, ht⟩, ?_⟩
            rw [M.bind_ok (ask_some rfl)]; exact hr
          · refine .inr ⟨by simp; exact ht, b, ?_, by simp [hb]⟩
            rw [M.bind_ok (ask_some rfl)]; exact hr

/-! ## C77: vector and array -/

/-- C77 (part), vectors and arrays: if no element comparison that is needed throws, all operators answer.  Missing: if one throws, see
`C77_range_refuted`. -/
theorem C77_range_partial (lt eq : Ask α) (xs ys : List α) :
    (¬ LexThrows (fun _ => lt) xs ys → ∃ b, rangeLt lt xs ys () = .ok b () ∧ (b = true ↔ LexLess (fun _ => lt) xs ys) ∧ rangeGe lt xs ys () = .ok (!b) ()) ∧
    (¬ LexThrows (fun _ => lt) ys xs → ∃ b, rangeGt lt xs ys () = .ok b () ∧ (b = true ↔ LexLess (fun _ => lt) ys xs) ∧ rangeLe lt xs ys () = .ok (!b) ()) ∧
    (xs.length ≠ ys.length ∨ ¬ EqThrows (fun _ => eq) xs ys → ∃ b, rangeEq eq xs ys () = .ok b () ∧
      (b = true ↔ xs.length = ys.length ∧ EqualUpTo (fun _ => eq) xs.length xs ys) ∧ rangeNe eq xs ys () = .ok (!b) ()) := by
  have key : ∀ xs ys : List α, ¬ LexThrows (fun _ => lt) xs ys → ∃ b, rangeLt lt xs ys () = .ok b () ∧ (b = true ↔ LexLess (fun _ => lt) xs ys) := by
    intro xs ys h
    rcases lexLoop_spec lt xs ys with ⟨ht, _⟩ | ⟨_, b, hr, hb⟩
    · exact absurd ht h
    · exact ⟨b, M.noexcept_ok hr, hb⟩
  refine ⟨fun h => ?_, fun h => ?_, fun h => ?_⟩
  · obtain ⟨b, hr, hb⟩ := key xs ys h
    exact ⟨b, hr, hb, M.noexcept_ok (by rw [M.bind_ok hr]; rfl)⟩
  · obtain ⟨b, hr, hb⟩ := key ys xs h
    have hg : rangeGt lt xs ys () = .ok b () := M.noexcept_ok hr
    exact ⟨b, hg, hb, M.noexcept_ok (by rw [M.bind_ok hg]; rfl)⟩
  · have : ∃ b, rangeEq eq xs ys () = .ok b () ∧ (b = true ↔ xs.length = ys.length ∧ EqualUpTo (fun _ => eq) xs.length xs ys) := by
      by_cases hl : xs.length = ys.length
      · rcases eqLoop_spec eq xs ys hl with ⟨ht, _⟩ | ⟨_, b, hr, hb⟩
        · rcases h with h | h
          · exact absurd hl h
          · exact absurd ht h
        · refine ⟨b, M.noexcept_ok ?_, by simp [hl, hb]⟩
          rw [if_neg (by simp [hl])]; exact hr
      · refine ⟨false, M.noexcept_ok ?_, by simp [hl]⟩
        rw [if_pos hl]; rfl
    obtain ⟨b, hr, hb⟩ := this
    exact ⟨b, hr, hb, M.noexcept_ok (by rw [M.bind_ok hr]; rfl)⟩

/-- C77 is false for vectors and arrays: whenever the answer depends on an element comparison that throws, the program is terminated -/
theorem C77_range_refuted (lt eq : Ask α) (xs ys : List α) :
    (LexThrows (fun _ => lt) xs ys → rangeLt lt xs ys () = .term ∧ rangeGe lt xs ys () = .term ∧ rangeGt lt ys xs () = .term ∧ rangeLe lt ys xs () = .term) ∧
    (xs.length = ys.length → EqThrows (fun _ => eq) xs ys → rangeEq eq xs ys () = .term ∧ rangeNe eq xs ys () = .term) := by
  have nt : ∀ m : CM Bool, m () = .term → M.noexcept m () = .term := by intro m h; simp [M.noexcept, h]
  refine ⟨fun h => ?_, fun hl h => ?_⟩
  · rcases lexLoop_spec lt xs ys with ⟨_, hr⟩ | ⟨ht, _⟩
    · have h1 : rangeLt lt xs ys () = .term := M.noexcept_exc hr
      have h2 : rangeGt lt ys xs () = .term := nt _ h1
      exact ⟨h1, nt _ (M.bind_term h1), h2, nt _ (M.bind_term h2)⟩
    · exact absurd h ht
  · rcases eqLoop_spec eq xs ys hl with ⟨_, hr⟩ | ⟨ht, _⟩
    · have h1 : rangeEq eq xs ys () = .term := M.noexcept_exc (by rw [if_neg (by simp [hl])]; exact hr)
      exact ⟨h1, nt _ (M.bind_term h1)⟩
    · exact absurd h ht

/-- an element type with a value (0, say NaN or a closed file) that refuses to be compared -/
def picky : Ask Nat := fun x y => if x = 0 ∨ y = 0 then none else some (decide (x < y))

-- `{1, 2} < {1, 0}` needs the comparison that throws
example : LexThrows (fun _ => picky) [1, 2] [1, 0] ∧ rangeLt picky [1, 2] [1, 0] () = .term :=
  have h : LexThrows (fun _ => picky) [1, 2] [1, 0] :=
    ⟨1, 2, 0, sameUpTo_succ.2 ⟨⟨rfl, rfl⟩, .zero _ _ _⟩, rfl, rfl, .inl rfl⟩
  ⟨h, ((C77_range_refuted picky picky _ _).1 h).1⟩
-- `{1, 0} < {2, 0}` does not
example : ¬ LexThrows (fun _ => picky) [1, 0] [2, 0] ∧ rangeLt picky [1, 0] [2, 0] () = .ok true () := by
  refine ⟨fun h => ?_, rfl⟩
  have := ((C77_range_refuted picky picky _ _).1 h).1
  cases this
-- vectors of different lengths are compared without looking at the elements
example : rangeEq picky [0] [0, 0] () = .ok false () := rfl

/-! ## C77: tuple -/

theorem tupleLess_spec : ∀ (lts : List (Ask α)) (xs ys : List α), xs.length = lts.length → ys.length = lts.length → ∀ lt : Nat → Ask α,
    (∀ (k : Nat) (f : Ask α), lts[k]? = some f → lt k = f) →
    (LexThrows lt xs ys ∧ tupleLess lts xs ys () = .term) ∨
    (¬ LexThrows lt xs ys ∧ ∃ b, tupleLess lts xs ys () = .ok b () ∧ (b = true ↔ LexLess lt xs ys)) := by
  intro lts
  induction lts with
  | nil =>
    intro xs ys hx hy lt _
    rw [List.length_nil, List.length_eq_zero_iff] at hx hy
    subst hx; subst hy
    refine .inr ⟨not_lexThrows_nil (.inl rfl), false, rfl, by simp, ?_⟩
    rintro ⟨k, _, ⟨_, h⟩ | ⟨x, y, h, _⟩⟩
    · simp at h
    · simp at h
  | cons f lts ih =>
    intro xs ys hx hy lt hlt
    cases xs with
    | nil => cases hx
    | cons x xs => cases ys with
      | nil => cases hy
      | cons y ys =>
        have h0 := hlt 0 f rfl
        rw [lexThrows_cons, lexLess_cons, h0]
        unfold tupleLess
        have ih' := ih xs ys (by simpa using hx) (by simpa using hy) (fun n => lt (n + 1)) (fun k g hg => hlt (k + 1) g (by simpa using hg))
        have nt : ∀ m : CM Bool, m () = .term → M.noexcept m () = .term := by intro m h; simp [M.noexcept, h]
        cases h1 : f x y with
        | none => exact .inl ⟨.inl rfl, M.noexcept_exc (M.bind_exc (ask_none rfl))⟩
        | some a =>
          cases a with
          | true =>
            refine .inr ⟨by simp [Same, h1], true, M.noexcept_ok ?_, by simp⟩
            rw [M.bind_ok (ask_some rfl)]; rfl
          | false =>
            cases h2 : f y x with
            | none =>
              refine .inl ⟨.inr (.inl ⟨rfl, rfl⟩), M.noexcept_exc (s' := ()) (e := .user) ?_⟩
              rw [M.bind_ok (ask_some rfl)]; exact M.bind_exc (ask_none rfl)
            | some b =>
              cases b with
              | true =>
                refine .inr ⟨by simp [Same, h2], false, M.noexcept_ok ?_, by simp [Same, h2]⟩
                rw [M.bind_ok (ask_some rfl)]
                show (ask _ >>= _) () = _
                rw [M.bind_ok (ask_some rfl)]; rfl
              | false =>
                have e : ∀ f : Bool → CM Bool, (ask (some false) >>= f) () = f false () := fun f => M.bind_ok (ask_some rfl)
                rcases ih' with ⟨ht, hr⟩ | ⟨ht, b, hr, hb⟩
                · refine .inl ⟨.inr (.inr ⟨⟨h1, h2⟩, ht⟩), nt _ ?_⟩
                  rw [e]; show (ask _ >>= _) () = _
                  rw [e]; exact hr
                · refine .inr ⟨by simp [Same, h1, h2]; exact ht, b, M.noexcept_ok ?_, by simp [Same, h1, h2, hb]⟩
                  rw [e]; show (ask _ >>= _) () = _
                  rw [e]; exact hr

theorem tupleEqual_spec : ∀ (eqs : List (Ask α)) (xs ys : List α), xs.length = eqs.length → ys.length = eqs.length → ∀ eq : Nat → Ask α,
    (∀ (k : Nat) (f : Ask α), eqs[k]? = some f → eq k = f) →
    (EqThrows eq xs ys ∧ tupleEqual eqs xs ys () = .term) ∨
    (¬ EqThrows eq xs ys ∧ ∃ b, tupleEqual eqs xs ys () = .ok b () ∧ (b = true ↔ EqualUpTo eq xs.length xs ys)) := by
  intro eqs
  induction eqs with
  | nil =>
    intro xs ys hx hy eq _
    rw [List.length_nil, List.length_eq_zero_iff] at hx hy
    subst hx; subst hy
    exact .inr ⟨(by rintro ⟨k, x, y, _, h, _⟩; cases h), true, rfl, fun _ j x y hj => absurd hj (Nat.not_lt_zero j), fun _ => rfl⟩
  | cons f eqs ih =>
    intro xs ys hx hy eq heq
    cases xs with
    | nil => cases hx
    | cons x xs => cases ys with
      | nil => cases hy
      | cons y ys =>
        have h0 := heq 0 f rfl
        rw [eqThrows_cons, List.length_cons, equalUpTo_succ, h0]
        unfold tupleEqual
        have nt : ∀ m : CM Bool, m () = .term → M.noexcept m () = .term := by intro m h; simp [M.noexcept, h]
        have ih' := ih xs ys (by simpa using hx) (by simpa using hy) (fun n => eq (n + 1)) (fun k g hg => heq (k + 1) g (by simpa using hg))
        cases h1 : f x y with
        | none => exact .inl ⟨.inl rfl, M.noexcept_exc (M.bind_exc (ask_none rfl))⟩
        | some a =>
          cases a with
          | false =>
            refine .inr ⟨by simp, false, M.noexcept_ok ?_, by simp⟩
            rw [M.bind_ok (ask_some rfl)]; rfl
          | true =>
            rcases ih' with ⟨ht, hr⟩ | ⟨ht, b, hr, hb⟩
            · refine .inl ⟨.inr ⟨rfl, ht⟩, nt _ ?_⟩
              rw [M.bind_ok (ask_some rfl)]; exact hr
            · refine .inr ⟨by simp; exact ht, b, M.noexcept_ok ?_, by simp [hb]⟩
              rw [M.bind_ok (ask_some rfl)]; exact hr

/-- C77 (part), tuples: if no element comparison that is needed throws, all operators answer.  Missing: if one throws, see `C77_tuple_refuted`. -/
theorem C77_tuple_partial (lts eqs : List (Ask α)) (xs ys : List α) (lt eq : Nat → Ask α)
    (hlt : ∀ (k : Nat) (f : Ask α), lts[k]? = some f → lt k = f) (heq : ∀ (k : Nat) (f : Ask α), eqs[k]? = some f → eq k = f)
    (hl : lts.length = eqs.length) (hx : xs.length = eqs.length) (hy : ys.length = eqs.length) :
    (¬ LexThrows lt xs ys → ∃ b, tupleLt lts xs ys () = .ok b () ∧ (b = true ↔ LexLess lt xs ys) ∧ tupleGe lts xs ys () = .ok (!b) ()) ∧
    (¬ LexThrows lt ys xs → ∃ b, tupleGt lts xs ys () = .ok b () ∧ (b = true ↔ LexLess lt ys xs) ∧ tupleLe lts xs ys () = .ok (!b) ()) ∧
    (¬ EqThrows eq xs ys → ∃ b, tupleEq eqs xs ys () = .ok b () ∧ (b = true ↔ EqualUpTo eq xs.length xs ys) ∧ tupleNe eqs xs ys () = .ok (!b) ()) := by
  have key : ∀ xs ys : List α, xs.length = eqs.length → ys.length = eqs.length → ¬ LexThrows lt xs ys →
      ∃ b, tupleLt lts xs ys () = .ok b () ∧ (b = true ↔ LexLess lt xs ys) := by
    intro xs ys hx hy h
    rcases tupleLess_spec lts xs ys (hx.trans hl.symm) (hy.trans hl.symm) lt hlt with ⟨ht, _⟩ | ⟨_, b, hr, hb⟩
    · exact absurd ht h
    · exact ⟨b, M.noexcept_ok hr, hb⟩
  refine ⟨fun h => ?_, fun h => ?_, fun h => ?_⟩
  · obtain ⟨b, hr, hb⟩ := key xs ys hx hy h
    exact ⟨b, hr, hb, M.noexcept_ok (by rw [M.bind_ok hr]; rfl)⟩
  · obtain ⟨b, hr, hb⟩ := key ys xs hy hx h
    have hg : tupleGt lts xs ys () = .ok b () := M.noexcept_ok hr
    exact ⟨b, hg, hb, M.noexcept_ok (by rw [M.bind_ok hg]; rfl)⟩
  · rcases tupleEqual_spec eqs xs ys hx hy eq heq with ⟨ht, _⟩ | ⟨_, b, hr, hb⟩
    · exact absurd ht h
    · have hr : tupleEq eqs xs ys () = .ok b () := M.noexcept_ok hr
      exact ⟨b, hr, hb, M.noexcept_ok (by rw [M.bind_ok hr]; rfl)⟩

/-- C77 is false for tuples: whenever the answer depends on an element comparison that throws, the program is terminated -/
theorem C77_tuple_refuted (lts eqs : List (Ask α)) (xs ys : List α) (lt eq : Nat → Ask α)
    (hlt : ∀ (k : Nat) (f : Ask α), lts[k]? = some f → lt k = f) (heq : ∀ (k : Nat) (f : Ask α), eqs[k]? = some f → eq k = f)
    (hl : lts.length = eqs.length) (hx : xs.length = eqs.length) (hy : ys.length = eqs.length) :
    (LexThrows lt xs ys → tupleLt lts xs ys () = .term ∧ tupleGe lts xs ys () = .term ∧ tupleGt lts ys xs () = .term ∧ tupleLe lts ys xs () = .term) ∧
    (EqThrows eq xs ys → tupleEq eqs xs ys () = .term ∧ tupleNe eqs xs ys () = .term) := by
  have nt : ∀ m : CM Bool, m () = .term → M.noexcept m () = .term := by intro m h; simp [M.noexcept, h]
  refine ⟨fun h => ?_, fun h => ?_⟩
  · rcases tupleLess_spec lts xs ys (hx.trans hl.symm) (hy.trans hl.symm) lt hlt with ⟨_, hr⟩ | ⟨ht, _⟩
    · have h1 : tupleLt lts xs ys () = .term := nt _ hr
      have h2 : tupleGt lts ys xs () = .term := nt _ h1
      exact ⟨h1, nt _ (M.bind_term h1), h2, nt _ (M.bind_term h2)⟩
    · exact absurd h ht
  · rcases tupleEqual_spec eqs xs ys hx hy eq heq with ⟨_, hr⟩ | ⟨ht, _⟩
    · have h1 : tupleEq eqs xs ys () = .term := nt _ hr
      exact ⟨h1, nt _ (M.bind_term h1)⟩
    · exact absurd h ht

-- a tuple whose second element refuses to be compared
example : tupleLt [fun x y => some (decide (x < y)), picky] [0, 3] [0, 0] () = .term ∧
    tupleLt [fun x y => some (decide (x < y)), picky] [0, 0] [1, 0] () = .ok true () := ⟨rfl, rfl⟩

/-! ## C77: optional and variant -/

/-- what the comparison `c` of optionals answers when at most one of them has a value (an empty optional comes first) -/
def emptyAnswer (c : Cmp) (x y : Bool) : Bool :=
  match c with
  | .eq => x == y
  | .ne => x != y
  | .lt => !x && y
  | .le => !x || y
  | .gt => x && !y
  | .ge => x || !y

/-- C77 (part), optionals: unless both have values whose comparison throws, all operators answer.  Missing: if it throws, see
`C77_optional_refuted`. -/
theorem C77_optional_partial (ops : Asks α) (c : Cmp) (x y : Option α) :
    (x = none ∨ y = none → optionalCmp ops c x y () = .ok (emptyAnswer c x.isSome y.isSome) ()) ∧
    (∀ a b r, x = some a → y = some b → ops c a b = some r → optionalCmp ops c x y () = .ok r ()) := by
  refine ⟨fun h => ?_, fun a b r hx hy hr => ?_⟩
  · rcases h with rfl | rfl
    · cases c <;> cases y <;> rfl
    · cases c <;> cases x <;> rfl
  · subst hx; subst hy
    cases c <;> exact M.noexcept_ok (ask_some hr)

/-- C77 is false for optionals: if the comparison of the values throws, the program is terminated -/
theorem C77_optional_refuted (ops : Asks α) (c : Cmp) (a b : α) (h : ops c a b = none) : optionalCmp ops c (some a) (some b) () = .term := by
  cases c <;> exact M.noexcept_exc (ask_none h)

example : (fun _ => picky : Asks Nat) .lt 1 0 = none ∧ optionalCmp (fun _ => picky) .lt (some 1) (some 0) () = .term := ⟨rfl, rfl⟩

/-- what the comparison `c` of variants with different alternatives answers: by the order of the alternatives -/
def indexAnswer (c : Cmp) (i j : Nat) : Bool :=
  match c with
  | .eq => false
  | .ne => true
  | .lt | .le => decide (i < j)
  | .gt | .ge => decide (j < i)

/-- C77 (part), variants: unless both hold the same alternative and the comparison of the values throws, all operators answer.  Missing: if it
throws, see `C77_variant_refuted`. -/
theorem C77_variant_partial (alts : List (Asks α)) (c : Cmp) (x y : Nat × α) :
    (x.1 ≠ y.1 → variantCmp alts c x y () = .ok (indexAnswer c x.1 y.1) ()) ∧
    (∀ ops r, x.1 = y.1 → alts[x.1]? = some ops → ops c x.2 y.2 = some r → variantCmp alts c x y () = .ok r ()) := by
  obtain ⟨i, a⟩ := x
  obtain ⟨j, b⟩ := y
  refine ⟨fun h => ?_, fun ops r h ho hr => ?_⟩
  · simp only at h
    have hij : i < j ∨ j < i := by omega
    rcases hij with hij | hij
    · have : ¬ j < i := by omega
      cases c <;> simp [variantCmp, M.noexcept, indexAnswer, h, hij, this]
    · have : ¬ i < j := by omega
      cases c <;> simp [variantCmp, M.noexcept, indexAnswer, h, hij, this]
  · simp only at h ho hr
    subst h
    have hc : variantCompare alts i c a b () = .ok r () := M.noexcept_ok (by rw [ho]; exact ask_some hr)
    cases c <;> simp [variantCmp, M.noexcept, hc]

/-- C77 is false for variants: if the comparison of the values throws, the program is terminated -/
theorem C77_variant_refuted (alts : List (Asks α)) (c : Cmp) (i : Nat) (a b : α) (ops : Asks α) (ho : alts[i]? = some ops)
    (h : ops c a b = none) : variantCmp alts c (i, a) (i, b) () = .term := by
  have hc : variantCompare alts i c a b () = .term := M.noexcept_exc (s' := ()) (e := .user) (by rw [ho]; exact ask_none h)
  cases c <;> simp [variantCmp, M.noexcept, hc]

example : variantCmp [fun _ => picky] .ge (0, 1) (0, 0) () = .term ∧ variantCmp [fun _ => picky, fun _ => picky] .ge (0, 0) (1, 0) () = .ok false () := ⟨rfl, rfl⟩

/-! ## C77: the full statement -/

/-- C77, full statement for one operator: an exception of an element comparison on which the answer depends reaches the caller -/
def Propagates (op : Ask Nat → List Nat → List Nat → CM Bool) : Prop :=
  ∀ (lt : Ask Nat) (xs ys : List Nat), LexThrows (fun _ => lt) xs ys → op lt xs ys () = .exc .user ()

/-- C77 is false -/
theorem C77_refuted : ¬ Propagates rangeLt := by
  intro h
  have ht : LexThrows (fun _ => picky) [0] [0] := ⟨0, 0, 0, .zero _ _ _, rfl, rfl, .inl rfl⟩
  have := h picky [0] [0] ht
  rw [((C77_range_refuted picky picky _ _).1 ht).1] at this
  cases this

/-- it would be true without `noexcept` -/
theorem C77_without_noexcept : Propagates lexLoop := by
  intro lt xs ys h
  rcases lexLoop_spec lt xs ys with ⟨_, hr⟩ | ⟨ht, _⟩
  · exact hr
  · exact absurd h ht

end Ptl.Compare

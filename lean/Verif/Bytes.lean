import Verif.Order

/-! # `std::string_view` comparison on byte sequences (used by `string` and `string_ref`) -/

namespace Ptl

/-- `std::char_traits<char>::compare` on the first `n` bytes: `memcmp`, i.e. bytes compare as `unsigned char` -/
def memcmp : Nat → List UInt8 → List UInt8 → Ordering
  | n + 1, x :: xs, y :: ys => if x < y then .lt else if y < x then .gt else memcmp n xs ys
  | _, _, _ => .eq

/-- `std::string_view::compare`: `memcmp` on the common length, then the lengths -/
def svCompare (xs ys : List UInt8) : Ordering :=
  match memcmp (min xs.length ys.length) xs ys with
  | .eq => compare xs.length ys.length
  | o => o

theorem svCompare_cons (x y : UInt8) (xs ys : List UInt8) :
    svCompare (x :: xs) (y :: ys) = if x < y then .lt else if y < x then .gt else svCompare xs ys := by
  unfold svCompare
  have : min (x :: xs).length (y :: ys).length = min xs.length ys.length + 1 := by simp [Nat.add_min_add_right]
  rw [this]
  simp only [memcmp]
  by_cases h1 : x < y
  · simp [h1]
  · by_cases h2 : y < x
    · simp [h1, h2]
    · simp only [h1, h2, if_false, List.length_cons]
      cases h : memcmp (min xs.length ys.length) xs ys
      · rfl
      · simp only [Nat.compare_eq_ite_lt, Nat.add_lt_add_iff_right]
      · rfl

/-- order of bytes -/
abbrev byteLt (a b : UInt8) : Bool := decide (a < b)

theorem svCompare_eq_lex (xs ys : List UInt8) :
    svCompare xs ys = if lexCompare byteLt xs ys then .lt else if lexCompare byteLt ys xs then .gt else .eq := by
  induction xs generalizing ys with
  | nil =>
    cases ys with
    | nil => rfl
    | cons y ys => simp [svCompare, memcmp, lexCompare, Nat.compare_eq_ite_lt]
  | cons x xs ih =>
    cases ys with
    | nil => simp [svCompare, memcmp, lexCompare, Nat.compare_eq_ite_lt]
    | cons y ys =>
      rw [svCompare_cons, ih]
      simp only [lexCompare, decide_eq_true_eq]
      by_cases h1 : x < y
      · simp [h1]
      · by_cases h2 : y < x <;> simp [h1, h2]

theorem byteLt_total : StrictTotal byteLt := by
  refine ⟨⟨?_, ?_, ?_⟩, ?_⟩
  · intro a; simp [UInt8.lt_irrefl]
  · intro a b c h1 h2
    simp only [decide_eq_true_eq] at *
    exact UInt8.lt_trans h1 h2
  · intro a b c h1 h2 h3 h4
    simp only [decide_eq_false_iff_not, UInt8.not_lt] at *
    have e1 := UInt8.le_antisymm h2 h1
    have e2 := UInt8.le_antisymm h4 h3
    subst e1 e2
    exact ⟨h1, h1⟩
  · intro a b h1 h2
    simp only [decide_eq_false_iff_not, UInt8.not_lt] at *
    exact UInt8.le_antisymm h2 h1

/-! ### the comparison operators and what they mean -/

/-- the six comparison operators -/
inductive Cmp where
  | lt | le | ge | gt | eq | ne
  deriving DecidableEq, Repr

/-- what the operators mean on byte sequences: lexicographic order of unsigned bytes -/
def Cmp.Means : Cmp → List UInt8 → List UInt8 → Prop
  | .lt, xs, ys => LexBefore (fun a b : UInt8 => a < b) xs ys
  | .gt, xs, ys => LexBefore (fun a b : UInt8 => a < b) ys xs
  | .le, xs, ys => LexBefore (fun a b : UInt8 => a < b) xs ys ∨ xs = ys
  | .ge, xs, ys => LexBefore (fun a b : UInt8 => a < b) ys xs ∨ xs = ys
  | .eq, xs, ys => xs = ys
  | .ne, xs, ys => xs ≠ ys

/-- the result of `std::string_view`'s operators -/
def Cmp.result (c : Cmp) (xs ys : List UInt8) : Bool :=
  match c with
  | .lt => svCompare xs ys == .lt
  | .le => svCompare xs ys != .gt
  | .ge => svCompare xs ys != .lt
  | .gt => svCompare xs ys == .gt
  | .eq => if xs.length = ys.length then svCompare xs ys == .eq else false
  | .ne => !(if xs.length = ys.length then svCompare xs ys == .eq else false)

theorem lexBefore_iff (xs ys : List UInt8) :
    LexBefore (fun a b : UInt8 => a < b) xs ys ↔ lexCompare byteLt xs ys = true := by
  have e : (fun a b : UInt8 => byteLt a b = true) = fun a b => a < b := by funext a b; simp
  rw [lexCompare_iff, e]

theorem lexTotal : StrictTotal (lexCompare byteLt) := lexCompare_strictTotal byteLt_total

theorem svCompare_lt (xs ys : List UInt8) : svCompare xs ys = .lt ↔ LexBefore (fun a b : UInt8 => a < b) xs ys := by
  rw [svCompare_eq_lex, lexBefore_iff]
  split
  · simp [*]
  · split <;> simp [*]

theorem svCompare_gt (xs ys : List UInt8) : svCompare xs ys = .gt ↔ LexBefore (fun a b : UInt8 => a < b) ys xs := by
  rw [svCompare_eq_lex, lexBefore_iff]
  split
  · have := lexTotal.toStrictWeak.asymm ‹_›
    simp [this]
  · split <;> simp [*]

theorem svCompare_eq (xs ys : List UInt8) : svCompare xs ys = .eq ↔ xs = ys := by
  rw [svCompare_eq_lex]
  constructor
  · intro h
    split at h
    · cases h
    · split at h
      · cases h
      · exact lexTotal.tri xs ys (by simpa using ‹¬ lexCompare byteLt xs ys = true›) (by simpa using ‹¬ lexCompare byteLt ys xs = true›)
  · rintro rfl
    rw [lexTotal.irrefl]; rfl

theorem Cmp.result_iff (c : Cmp) (xs ys : List UInt8) : c.result xs ys = true ↔ c.Means xs ys := by
  have h1 := svCompare_lt xs ys
  have h2 := svCompare_gt xs ys
  have h3 := svCompare_eq xs ys
  have tri : svCompare xs ys = .lt ∨ svCompare xs ys = .eq ∨ svCompare xs ys = .gt := by cases svCompare xs ys <;> simp
  have hlen : xs = ys → xs.length = ys.length := by rintro rfl; rfl
  cases c with
  | lt => simp [Cmp.result, Cmp.Means, h1]
  | gt => simp [Cmp.result, Cmp.Means, h2]
  | le =>
    simp only [Cmp.result, Cmp.Means, ← h1, ← h3]
    cases svCompare xs ys <;> simp
  | ge =>
    simp only [Cmp.result, Cmp.Means, ← h2, ← h3]
    cases svCompare xs ys <;> simp
  | eq =>
    simp only [Cmp.result, Cmp.Means]
    split
    · simp [h3]
    · simp; intro h; exact absurd (hlen h) ‹_›
  | ne =>
    simp only [Cmp.result, Cmp.Means]
    split
    · simp [← h3]
    · simp; intro h; exact absurd (hlen h) ‹_›

theorem memcmp_take (n : Nat) (xs ys : List UInt8) : memcmp n (xs.take n) (ys.take n) = memcmp n xs ys := by
  induction n generalizing xs ys with
  | zero => cases xs <;> cases ys <;> rfl
  | succ n ih => cases xs <;> cases ys <;> simp [memcmp, ih]

/-- the meaning of `<` is a strict total order consistent with `==` -/
theorem Cmp.total : (∀ xs, ¬ Cmp.lt.Means xs xs) ∧ (∀ xs ys zs, Cmp.lt.Means xs ys → Cmp.lt.Means ys zs → Cmp.lt.Means xs zs) ∧
    (∀ xs ys, Cmp.lt.Means xs ys ∨ xs = ys ∨ Cmp.lt.Means ys xs) := by
  refine ⟨?_, ?_, ?_⟩
  · intro xs
    show ¬ LexBefore _ _ _
    rw [lexBefore_iff, lexTotal.irrefl]; simp
  · intro xs ys zs
    show LexBefore _ _ _ → LexBefore _ _ _ → LexBefore _ _ _
    rw [lexBefore_iff, lexBefore_iff, lexBefore_iff]
    exact lexTotal.trans xs ys zs
  · intro xs ys
    show LexBefore _ _ _ ∨ _ ∨ LexBefore _ _ _
    rw [lexBefore_iff, lexBefore_iff]
    cases h1 : lexCompare byteLt xs ys with
    | true => exact .inl rfl
    | false =>
      cases h2 : lexCompare byteLt ys xs with
      | true => exact .inr (.inr rfl)
      | false => exact .inr (.inl (lexTotal.tri xs ys h1 h2))

end Ptl

/-!
# `std::lexicographical_compare` and `std::equal` on sequences

The loops the standard prescribes, an independent description of lexicographic order, and the order laws.
-/

namespace Ptl

variable {α : Type}

/-- `std::lexicographical_compare(first1, last1, first2, last2)` with `operator<` = `lt` -/
def lexCompare (lt : α → α → Bool) : List α → List α → Bool
  | [], [] => false
  | [], _ :: _ => true
  | _ :: _, [] => false
  | x :: xs, y :: ys => if lt x y then true else if lt y x then false else lexCompare lt xs ys

/-- element-wise loop of `std::equal(first1, last1, first2)` -/
def equalLoop (eq : α → α → Bool) : List α → List α → Bool
  | [], _ => true
  | _ :: _, [] => true
  | x :: xs, y :: ys => if eq x y then equalLoop eq xs ys else false

/-- `std::equal(first1, last1, first2, last2)`: for random access iterators the lengths are compared first -/
def equalRange (eq : α → α → Bool) (xs ys : List α) : Bool :=
  if xs.length ≠ ys.length then false else equalLoop eq xs ys

/-! ### specification -/

/-- `xs` comes before `ys` in lexicographic order: after a (possibly empty) common stretch of equivalent elements,
`xs` has the smaller element, or `xs` ends while `ys` goes on -/
def LexBefore (lt : α → α → Prop) (xs ys : List α) : Prop :=
  ∃ p q x' y', xs = p ++ x' ∧ ys = q ++ y' ∧ p.length = q.length ∧
    (∀ (k : Nat) (a b : α), p[k]? = some a → q[k]? = some b → ¬ lt a b ∧ ¬ lt b a) ∧
    ((x' = [] ∧ y' ≠ []) ∨ ∃ a b x'' y'', x' = a :: x'' ∧ y' = b :: y'' ∧ lt a b)

/-- strict weak order -/
structure StrictWeak (lt : α → α → Bool) : Prop where
  irrefl : ∀ a, lt a a = false
  trans : ∀ a b c, lt a b = true → lt b c = true → lt a c = true
  incomp : ∀ a b c, lt a b = false → lt b a = false → lt b c = false → lt c b = false →
    lt a c = false ∧ lt c a = false

/-- strict total order -/
structure StrictTotal (lt : α → α → Bool) : Prop extends StrictWeak lt where
  tri : ∀ a b, lt a b = false → lt b a = false → a = b

theorem StrictWeak.asymm {lt : α → α → Bool} (h : StrictWeak lt) {a b : α} (hab : lt a b = true) : lt b a = false := by
  cases hba : lt b a with
  | false => rfl
  | true => have := h.trans a b a hab hba; rw [h.irrefl] at this; cases this

/-- an element related to `b` compares with everything as `b`'s equivalents do -/
theorem StrictWeak.trans_left {lt : α → α → Bool} (h : StrictWeak lt) {a b c : α}
    (h1 : lt a b = false) (h2 : lt b a = false) (h3 : lt b c = true) : lt a c = true := by
  cases hac : lt a c with
  | true => rfl
  | false =>
    cases hca : lt c a with
    | true => have := h.trans b c a h3 hca; rw [h2] at this; cases this
    | false =>
      have := h.incomp b a c h2 h1 hac hca
      rw [h3] at this; cases this.1

theorem StrictWeak.trans_right {lt : α → α → Bool} (h : StrictWeak lt) {a b c : α}
    (h1 : lt a b = true) (h2 : lt b c = false) (h3 : lt c b = false) : lt a c = true := by
  cases hac : lt a c with
  | true => rfl
  | false =>
    cases hca : lt c a with
    | true => have := h.trans c a b hca h1; rw [h3] at this; cases this
    | false =>
      have := h.incomp a c b hac hca h3 h2
      rw [h1] at this; cases this.1

/-- the loop computes lexicographic order (for any `lt` whatsoever) -/
theorem lexCompare_iff (lt : α → α → Bool) (xs ys : List α) :
    lexCompare lt xs ys = true ↔ LexBefore (fun a b => lt a b = true) xs ys := by
  constructor
  · intro h
    induction xs generalizing ys with
    | nil =>
      cases ys with
      | nil => cases h
      | cons y ys => exact ⟨[], [], [], y :: ys, rfl, rfl, rfl, by simp, .inl ⟨rfl, by simp⟩⟩
    | cons x xs ih =>
      cases ys with
      | nil => cases h
      | cons y ys =>
        unfold lexCompare at h
        split at h
        · rename_i hlt
          exact ⟨[], [], x :: xs, y :: ys, rfl, rfl, rfl, by simp, .inr ⟨x, y, xs, ys, rfl, rfl, hlt⟩⟩
        · split at h
          · cases h
          · rename_i h1 h2
            obtain ⟨p, q, x', y', rfl, rfl, hl, heq, hr⟩ := ih ys h
            refine ⟨x :: p, y :: q, x', y', rfl, rfl, by simp [hl], ?_, hr⟩
            intro k a b ha hb
            cases k with
            | zero => simp at ha hb; subst ha; subst hb; exact ⟨h1, h2⟩
            | succ k => exact heq k a b (by simpa using ha) (by simpa using hb)
  · rintro ⟨p, q, x', y', rfl, rfl, hl, heq, hr⟩
    induction p generalizing q with
    | nil =>
      have : q = [] := List.length_eq_zero_iff.1 hl.symm
      subst this
      rcases hr with ⟨rfl, hy⟩ | ⟨a, b, x'', y'', rfl, rfl, hlt⟩
      · cases y' with
        | nil => exact absurd rfl hy
        | cons y y' => rfl
      · simp [lexCompare, hlt]
    | cons a p ih =>
      cases q with
      | nil => cases hl
      | cons b q =>
        have h0 := heq 0 a b rfl rfl
        have := ih q (by simpa using hl) (fun k a' b' ha hb => heq (k + 1) a' b' (by simpa using ha) (by simpa using hb))
        simp only [List.cons_append, lexCompare]
        rw [if_neg h0.1, if_neg h0.2]
        exact this

theorem lexCompare_irrefl {lt : α → α → Bool} (h : ∀ a, lt a a = false) (xs : List α) :
    lexCompare lt xs xs = false := by
  induction xs with
  | nil => rfl
  | cons x xs ih => simp [lexCompare, h, ih]

theorem lexCompare_trans {lt : α → α → Bool} (h : StrictWeak lt) (xs ys zs : List α)
    (h1 : lexCompare lt xs ys = true) (h2 : lexCompare lt ys zs = true) : lexCompare lt xs zs = true := by
  induction xs generalizing ys zs with
  | nil =>
    cases ys with
    | nil => cases h1
    | cons y ys => cases zs with
      | nil => cases h2
      | cons z zs => rfl
  | cons x xs ih =>
    cases ys with
    | nil => cases h1
    | cons y ys =>
      cases zs with
      | nil => cases h2
      | cons z zs =>
        simp only [lexCompare] at h1 h2 ⊢
        cases hxy : lt x y with
        | true =>
          cases hyz : lt y z with
          | true => simp [h.trans x y z hxy hyz]
          | false =>
            cases hzy : lt z y with
            | true => simp [hyz, hzy] at h2
            | false => simp [h.trans_right hxy hyz hzy]
        | false =>
          cases hyx : lt y x with
          | true => simp [hxy, hyx] at h1
          | false =>
            simp [hxy, hyx] at h1
            cases hyz : lt y z with
            | true => simp [h.trans_left hxy hyx hyz]
            | false =>
              cases hzy : lt z y with
              | true => simp [hyz, hzy] at h2
              | false =>
                simp [hyz, hzy] at h2
                have := h.incomp x y z hxy hyx hyz hzy
                simp [this.1, this.2]
                exact ih ys zs h1 h2

/-- incomparable sequences are those of equal length with pairwise incomparable elements -/
theorem lexCompare_incomp {lt : α → α → Bool} (xs ys : List α) :
    (lexCompare lt xs ys = false ∧ lexCompare lt ys xs = false) ↔
      xs.length = ys.length ∧ ∀ (k : Nat) (a b : α), xs[k]? = some a → ys[k]? = some b → lt a b = false ∧ lt b a = false := by
  induction xs generalizing ys with
  | nil => cases ys <;> simp [lexCompare]
  | cons x xs ih =>
    cases ys with
    | nil => simp [lexCompare]
    | cons y ys =>
      constructor
      · rintro ⟨h1, h2⟩
        simp only [lexCompare] at h1 h2
        cases hxy : lt x y with
        | true => simp [hxy] at h1
        | false =>
          cases hyx : lt y x with
          | true => simp [hyx] at h2
          | false =>
            simp [hxy, hyx] at h1 h2
            obtain ⟨hl, hk⟩ := (ih ys).1 ⟨h1, h2⟩
            refine ⟨by simp [hl], ?_⟩
            intro k a b ha hb
            cases k with
            | zero => simp at ha hb; subst ha; subst hb; exact ⟨hxy, hyx⟩
            | succ k => exact hk k a b (by simpa using ha) (by simpa using hb)
      · rintro ⟨hl, hk⟩
        have h0 := hk 0 x y rfl rfl
        have := (ih ys).2 ⟨by simpa using hl, fun k a b ha hb => hk (k + 1) a b (by simpa using ha) (by simpa using hb)⟩
        simp [lexCompare, h0.1, h0.2, this.1, this.2]

/-- lexicographic comparison inherits "strict weak order" from the elements -/
theorem lexCompare_strictWeak {lt : α → α → Bool} (h : StrictWeak lt) : StrictWeak (lexCompare lt) := by
  refine ⟨lexCompare_irrefl h.irrefl, lexCompare_trans h, ?_⟩
  intro a b c h1 h2 h3 h4
  obtain ⟨l1, e1⟩ := (lexCompare_incomp a b).1 ⟨h1, h2⟩
  obtain ⟨l2, e2⟩ := (lexCompare_incomp b c).1 ⟨h3, h4⟩
  refine (lexCompare_incomp a c).2 ⟨l1.trans l2, ?_⟩
  intro k x z hx hz
  have hk : k < b.length := by
    rcases Nat.lt_or_ge k c.length with h | h
    · omega
    · rw [List.getElem?_eq_none h] at hz; cases hz
  have hb : b[k]? = some b[k] := List.getElem?_eq_getElem hk
  have := e1 k x b[k] hx hb
  have := e2 k b[k] z hb hz
  exact h.incomp x b[k] z (by simp_all) (by simp_all) (by simp_all) (by simp_all)

/-- lexicographic comparison inherits "strict total order" from the elements -/
theorem lexCompare_strictTotal {lt : α → α → Bool} (h : StrictTotal lt) : StrictTotal (lexCompare lt) := by
  refine ⟨lexCompare_strictWeak h.toStrictWeak, ?_⟩
  intro a b h1 h2
  obtain ⟨hl, hk⟩ := (lexCompare_incomp a b).1 ⟨h1, h2⟩
  refine List.ext_getElem hl fun k hka hkb => ?_
  have := hk k a[k] b[k] (List.getElem?_eq_getElem hka) (List.getElem?_eq_getElem hkb)
  exact h.tri _ _ this.1 this.2

/-- `std::equal` holds iff lengths agree and the elements are pairwise `==` (for any `==` whatsoever) -/
theorem equalRange_iff (eq : α → α → Bool) (xs ys : List α) :
    equalRange eq xs ys = true ↔
      xs.length = ys.length ∧ ∀ (k : Nat) (a b : α), xs[k]? = some a → ys[k]? = some b → eq a b = true := by
  have loop : ∀ xs ys : List α, xs.length = ys.length →
      (equalLoop eq xs ys = true ↔ ∀ (k : Nat) (a b : α), xs[k]? = some a → ys[k]? = some b → eq a b = true) := by
    intro xs
    induction xs with
    | nil => intro ys _; simp [equalLoop]
    | cons x xs ih =>
      intro ys hl
      cases ys with
      | nil => cases hl
      | cons y ys =>
        simp only [equalLoop]
        constructor
        · intro h k a b ha hb
          split at h
          · rename_i hxy
            cases k with
            | zero => simp at ha hb; subst ha; subst hb; exact hxy
            | succ k => exact (ih ys (by simpa using hl)).1 h k a b (by simpa using ha) (by simpa using hb)
          · cases h
        · intro h
          rw [if_pos (h 0 x y rfl rfl)]
          exact (ih ys (by simpa using hl)).2 fun k a b ha hb => h (k + 1) a b (by simpa using ha) (by simpa using hb)
  unfold equalRange
  split
  · rename_i hne
    constructor
    · intro h; cases h
    · intro h; exact absurd h.1 hne
  · rename_i he
    have he : xs.length = ys.length := Classical.not_not.1 he
    rw [loop xs ys he]
    exact ⟨fun h => ⟨he, h⟩, fun h => h.2⟩

/-- if element `==` is equality, sequence `==` is equality -/
theorem equalRange_eq {eq : α → α → Bool} (heq : ∀ a b, eq a b = true ↔ a = b) (xs ys : List α) :
    equalRange eq xs ys = true ↔ xs = ys := by
  rw [equalRange_iff]
  constructor
  · rintro ⟨hl, h⟩
    refine List.ext_getElem hl fun k hka hkb => ?_
    exact (heq _ _).1 (h k _ _ (List.getElem?_eq_getElem hka) (List.getElem?_eq_getElem hkb))
  · rintro rfl
    refine ⟨rfl, fun k a b ha hb => ?_⟩
    rw [ha] at hb; cases hb; exact (heq _ _).2 rfl

end Ptl

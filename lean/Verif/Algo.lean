/-!
# Algorithms that work on a sequence in place

An arbitrary algorithm of the kind of those in `<algorithm>`: it gets iterators and reads, moves and swaps elements through them.
`Algo` includes everything the algorithm decides by looking at elements and whatever it keeps in variables of its own.
`Algo.onList` says what it does to a list.  This file knows nothing of the model; C110 compares with it.
-/

namespace Ptl

variable {α β : Type}

/-- An algorithm that works in place on elements of type `α` and returns a `β`.  It reads the element at position `k` and goes on
depending on what it saw, or gives the element at position `k` the value `v` by move-assignment from a variable of its own.
An exception from a predicate of the client is a `ret`, too: the algorithm just stops. -/
inductive Algo (α β : Type) where
  | ret (b : β)
  | read (k : Nat) (next : α → Algo α β)
  | put (k : Nat) (v : α) (next : Algo α β)

/-- what the algorithm does to a list, and what it returns; nothing, if it leaves the range -/
def Algo.onList : Algo α β → List α → Option (β × List α)
  | .ret b, xs => some (b, xs)
  | .read k next, xs => match xs[k]? with
    | some v => (next v).onList xs
    | none => none
  | .put k v next, xs => if k < xs.length then next.onList (xs.set k v) else none

/-- `*(first + dst) = std::move(*(first + src))` for different positions; what a moved-from element looks like is up to its
class -/
def Algo.move (moved : α → α) (dst src : Nat) (next : Algo α β) : Algo α β :=
  .read src fun v => .put dst v (.put src (moved v) next)

/-- `std::iter_swap(first + k, first + l)`, `std::swap` of two elements: three moves by way of a variable -/
def Algo.swap (moved : α → α) (k l : Nat) (next : Algo α β) : Algo α β :=
  .read k fun a => .put k (moved a) (.read l fun b => .put k b (.put l (moved b) (.put l a next)))

/-- the loop of `std::remove_if`: `w` elements stay so far, `n` remain to be looked at from position `r` on -/
def removeLoop (moved : α → α) (p : α → Bool) (w r : Nat) : Nat → Algo α Nat
  | 0 => .ret w
  | n + 1 => .read r fun v =>
    if p v then removeLoop moved p w (r + 1) n
    else if w = r then removeLoop moved p (w + 1) (r + 1) n
    else Algo.move moved w r (removeLoop moved p (w + 1) (r + 1) n)

/-- `std::remove_if(first, first + n, p)`; returns how many elements stay -/
def removeIf (moved : α → α) (p : α → Bool) (n : Nat) : Algo α Nat := removeLoop moved p 0 0 n

/-- An algorithm that rearranges elements by swapping only: `std::reverse`, `std::sort`, `std::shuffle`, `std::partition`, the
heap algorithms can be written like this. -/
inductive Swapping (α β : Type) where
  | ret (b : β)
  | read (k : Nat) (next : α → Swapping α β)
  | swap (k l : Nat) (next : Swapping α β)

/-- each swap in terms of moves -/
def Swapping.algo (moved : α → α) : Swapping α β → Algo α β
  | .ret b => .ret b
  | .read k next => .read k fun v => (next v).algo moved
  | .swap k l next => .swap moved k l (next.algo moved)

/-! ### what happens to lists -/

theorem removeLoop_onList (moved : α → α) (p : α → Bool) (rest : List α) : ∀ (kept junk : List α),
    ∃ left, (removeLoop moved p kept.length (kept.length + junk.length) rest.length).onList (kept ++ junk ++ rest) =
      some ((kept ++ rest.filter (!p ·)).length, kept ++ rest.filter (!p ·) ++ left) := by
  induction rest with
  | nil => intro kept junk; exact ⟨junk, by simp [removeLoop, Algo.onList]⟩
  | cons v rest ih =>
    intro kept junk
    have hv : (kept ++ junk ++ v :: rest)[kept.length + junk.length]? = some v := by
      rw [← List.length_append, List.getElem?_append_right (Nat.le_refl _)]; simp
    simp only [List.length_cons, removeLoop, Algo.onList, hv]
    cases hp : p v with
    | true =>
      obtain ⟨left, h⟩ := ih kept (junk ++ [v])
      refine ⟨left, ?_⟩
      simp only [List.length_append, List.length_singleton, ← Nat.add_assoc, List.append_assoc, List.singleton_append] at h
      simp only [if_true, List.append_assoc, hp, List.filter_cons, Bool.not_true, Bool.false_eq_true, if_false,
        List.length_append]
      exact h
    | false =>
      simp only [Bool.false_eq_true, if_false, List.filter_cons, hp, Bool.not_false, if_true]
      cases junk with
      | nil =>
        obtain ⟨left, h⟩ := ih (kept ++ [v]) []
        refine ⟨left, ?_⟩
        simpa using h
      | cons j junk =>
        rw [if_neg (by simp)]
        obtain ⟨left, h⟩ := ih (kept ++ [v]) (junk ++ [moved v])
        refine ⟨left, ?_⟩
        have h1 : (kept ++ j :: junk ++ v :: rest).set kept.length v = kept ++ v :: junk ++ v :: rest := by
          rw [List.append_assoc, List.set_append_right _ _ (Nat.le_refl _)]; simp
        have h2 : (kept ++ v :: junk ++ v :: rest).set (kept.length + (j :: junk).length) (moved v) =
            kept ++ [v] ++ (junk ++ [moved v]) ++ rest := by
          have e : kept.length + (j :: junk).length = (kept ++ v :: junk).length := by simp
          rw [e, List.set_append_right _ _ (Nat.le_refl _)]; simp
        simp only [Algo.move, Algo.onList, hv]
        rw [if_pos (by simp), h1, if_pos (by simp), h2]
        have e : (kept ++ [v]).length + (junk ++ [moved v]).length = kept.length + (j :: junk).length + 1 := by
          simp; omega
        rw [e] at h
        simpa using h

/-- the length stays -/
theorem Algo.onList_length (a : Algo α β) : ∀ {xs ys : List α} {b : β}, a.onList xs = some (b, ys) → ys.length = xs.length := by
  induction a with
  | ret b => intro xs ys b' h; simp only [Algo.onList] at h; cases h; rfl
  | read k next ih =>
    intro xs ys b h
    simp only [Algo.onList] at h
    cases hk : xs[k]? with
    | none => rw [hk] at h; cases h
    | some v => rw [hk] at h; exact ih v h
  | put k v next ih =>
    intro xs ys b h
    simp only [Algo.onList] at h
    split at h
    · simpa using ih h
    · cases h

theorem removeIf_onList (moved : α → α) (p : α → Bool) (xs : List α) : ∃ left,
    (removeIf moved p xs.length).onList xs =
      some ((xs.filter (!p ·)).length, xs.filter (!p ·) ++ left) := by
  have := removeLoop_onList moved p xs [] []
  simpa [removeIf] using this

theorem swap_onList (moved : α → α) {k l : Nat} {next : Algo α β} {xs : List α} {r : β × List α}
    (h : (Algo.swap moved k l next).onList xs = some r) : ∃ ys, ys.Perm xs ∧ next.onList ys = some r := by
  unfold Algo.swap at h
  simp only [Algo.onList] at h
  cases hk : xs[k]? with
  | none => rw [hk] at h; cases h
  | some a =>
    rw [hk] at h
    obtain ⟨hk1, rfl⟩ := List.getElem?_eq_some_iff.1 hk
    simp only [hk1, if_true] at h
    cases hl : (xs.set k (moved xs[k]))[l]? with
    | none => rw [hl] at h; cases h
    | some b =>
      rw [hl] at h
      have hl1 : l < xs.length := by
        have := (List.getElem?_eq_some_iff.1 hl).1; simpa using this
      simp only [List.length_set, hk1, hl1, if_true, List.set_set] at h
      refine ⟨_, ?_, h⟩
      by_cases hkl : k = l
      · subst hkl
        rw [List.set_set, List.set_getElem_self]
      · rw [List.getElem?_set_ne hkl] at hl
        obtain ⟨_, rfl⟩ := List.getElem?_eq_some_iff.1 hl
        exact List.set_set_perm hk1 hl1

theorem swapping_perm (moved : α → α) (a : Swapping α β) : ∀ {xs ys : List α} {b : β},
    (a.algo moved).onList xs = some (b, ys) → ys.Perm xs := by
  induction a with
  | ret b => intro xs ys b' h; simp only [Swapping.algo, Algo.onList] at h; cases h; exact .refl _
  | read k next ih =>
    intro xs ys b h
    simp only [Swapping.algo, Algo.onList] at h
    cases hk : xs[k]? with
    | none => rw [hk] at h; cases h
    | some v => rw [hk] at h; exact ih v h
  | swap k l next ih =>
    intro xs ys b h
    obtain ⟨zs, h1, h2⟩ := swap_onList moved h
    exact (ih h2).trans h1

end Ptl

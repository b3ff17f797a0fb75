import Verif.Nested.Vec

/-! A rotation by exchanging neighbours; it shows that `Rotation.Correct` (Verif/Nested/Vec.lean) can be met. -/

namespace Ptl.Nested.Vec

/-- moves the element at `k + m` down to `k` -/
def bubble (k : Nat) : Nat → List (Nat × Nat)
  | 0 => []
  | m + 1 => (k + m, k + m + 1) :: bubble k m

/-- moves `n` elements down across `m`, beginning at `k` -/
def bubbles (m : Nat) : Nat → Nat → List (Nat × Nat)
  | _, 0 => []
  | k, n + 1 => bubble k m ++ bubbles m (k + 1) n

/-- one element of the second part after the other is moved to the front -/
def bubbling : Rotation := ⟨fun m n => bubbles m 0 n⟩

variable {α : Type}

theorem swapAt_neighbours (zs : List α) (x y : α) (ws : List α) {k : Nat} (hk : k = zs.length) : swapAt (zs ++ x :: y :: ws) k (k + 1) = zs ++ y :: x :: ws := by
  subst hk
  have h1 : (zs ++ x :: y :: ws)[zs.length]? = some x := by simp
  have h2 : (zs ++ x :: y :: ws)[zs.length + 1]? = some y := by simp
  simp only [swapAt, h1, h2]
  simp

theorem bubble_run (zs : List α) (y : α) : ∀ (m : Nat) (xs ws : List α), xs.length = m →
    (bubble zs.length m).foldl (fun zs p => swapAt zs p.1 p.2) (zs ++ (xs ++ y :: ws)) = zs ++ (y :: (xs ++ ws))
  | 0, xs, ws, h => by rw [List.eq_nil_of_length_eq_zero h]; rfl
  | m + 1, xs, ws, h => by
    have hne : xs ≠ [] := fun he => by simp [he] at h
    obtain ⟨us, u, rfl⟩ : ∃ us u, xs = us ++ [u] := ⟨_, _, (List.dropLast_concat_getLast hne).symm⟩
    have hu : us.length = m := by simpa using h
    show (bubble zs.length m).foldl _ (swapAt (zs ++ (us ++ [u] ++ y :: ws)) (zs.length + m) (zs.length + m + 1)) = _
    have : zs ++ (us ++ [u] ++ y :: ws) = (zs ++ us) ++ u :: y :: ws := by simp
    rw [this, swapAt_neighbours _ _ _ _ (by simp [hu]), List.append_assoc, bubble_run zs y m us (u :: ws) hu]
    simp

theorem bubbles_run (xs : List α) : ∀ (ys zs : List α),
    (bubbles xs.length zs.length ys.length).foldl (fun zs p => swapAt zs p.1 p.2) (zs ++ (xs ++ ys)) = zs ++ (ys ++ xs)
  | [], zs => by simp [bubbles]
  | y :: ys, zs => by
    show (bubble zs.length xs.length ++ bubbles xs.length (zs.length + 1) ys.length).foldl _ _ = _
    rw [List.foldl_append, bubble_run zs y _ xs ys rfl]
    have := bubbles_run xs ys (zs ++ [y])
    rw [List.length_append] at this
    simpa using this

theorem bubble_lt (k : Nat) : ∀ m, ∀ p ∈ bubble k m, p.1 < k + m + 1 ∧ p.2 < k + m + 1
  | 0, p, h => by cases h
  | m + 1, p, h => by
    rcases List.mem_cons.1 h with rfl | h
    · exact ⟨by show k + m < _; omega, by show k + m + 1 < _; omega⟩
    · have := bubble_lt k m p h
      omega

theorem bubbles_lt (m : Nat) : ∀ n k, ∀ p ∈ bubbles m k n, p.1 < m + (k + n) ∧ p.2 < m + (k + n)
  | 0, k, p, h => by cases h
  | n + 1, k, p, h => by
    rcases List.mem_append.1 h with h | h
    · have := bubble_lt k m p h
      omega
    · have := bubbles_lt m n (k + 1) p h
      omega

theorem bubbling_correct : bubbling.Correct :=
  ⟨fun _ xs ys => bubbles_run xs ys [], fun m n p hp => by have := bubbles_lt m n 0 p hp; omega⟩

end Ptl.Nested.Vec

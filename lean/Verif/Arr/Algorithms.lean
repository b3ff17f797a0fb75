import Verif.Arr.Props
import Verif.Algo

/-!
# C110 for `array`: standard algorithms on its elements

As `Verif/Vector/Props/Algorithms.lean`, but the algorithm gets the iterator that `begin()` returns and uses its operators.
-/

namespace Ptl.Arr

variable {α β : Type} {E : Elem α} {N : Nat} {s s' : St α} {V V' : Vars α} {i : Nat} {xs ys : List α}

/-- the algorithm, run on the elements from `first` on: `first[k]`, array.hpp:107 -/
def runAlgo (first : Iter.It) : Algo α β → AM α β
  | .ret b => pure b
  | .read k next => do
    let l ← onMem (Iter.index · first k)
    let v ← readLoc l
    runAlgo first (next v)
  | .put k v next => do
    let l ← onMem (Iter.index · first k)
    writeLoc l v
    runAlgo first next

/-- `algorithm(a.begin(), …)`, array.hpp:223-226 -/
def onArray (N i : Nat) (a : Algo α β) : AM α β := do
  let first ← begin_ N i
  runAlgo first a

theorem runAlgo_ok (hN : N ≤ ptrdiffMax) {a : Algo α β} {b : β} (h : Reach E N s V) (hi : V i = some xs)
    (ha : a.onList xs = some (b, ys)) :
    ∃ s', runAlgo ⟨ptrK N i 0⟩ a s = .ok b s' ∧ Reach E N s' (upd V i (some ys)) ∧ s'.tick = s.tick ∧ s'.orc = s.orc := by
  induction a generalizing s V xs with
  | ret b' =>
    simp only [Algo.onList] at ha; cases ha
    refine ⟨s, rfl, ?_, rfl, rfl⟩
    rw [upd_eq _ _ _ hi]; exact h
  | read k next ih =>
    simp only [Algo.onList] at ha
    cases hk : xs[k]? with
    | none => rw [hk] at ha; cases ha
    | some v =>
      rw [hk] at ha
      have hinv := h.inv hN
      have hl := hinv.len _ _ hi
      have hm : s.mem i = some xs := by rw [hinv.mem]; exact hi
      have hlt : k < N := by rw [← hl]; exact (List.getElem?_eq_some_iff.1 hk).1
      obtain ⟨s', h1, h2⟩ := ih v h hi ha
      have e : onMem (Iter.index · ⟨ptrK N i 0⟩ k) s = .ok ⟨i, k⟩ s := by
        have := iterAt_k hm hl hlt
        unfold iterAt at this
        rwa [M.bind_ok (begin_ok hm)] at this
      exact ⟨s', (M.bind_ok e).trans ((M.bind_ok (read_k hm hk)).trans h1), h2⟩
  | put k v next ih =>
    simp only [Algo.onList] at ha
    split at ha
    · rename_i hk
      have hinv := h.inv hN
      have hl := hinv.len _ _ hi
      have hm : s.mem i = some xs := by rw [hinv.mem]; exact hi
      have e := iterAt_k hm hl (hl ▸ hk)
      have e1 : (Op.setIter i k v).run E N s = .ok () _ := (M.bind_ok e).trans (write_k hm hk v)
      have e2 : onMem (Iter.index · ⟨ptrK N i 0⟩ k) s = .ok ⟨i, k⟩ s := by
        unfold iterAt at e
        rwa [M.bind_ok (begin_ok hm)] at e
      obtain ⟨s2, h3, h4, h5, h6⟩ := ih (h.ok (.setIter hi (hl ▸ hk)) e1) (upd_same _ _ _) ha
      refine ⟨s2, (M.bind_ok e2).trans ((M.bind_ok (write_k hm hk v)).trans h3), ?_, h5, h6⟩
      rwa [upd_upd] at h4
    · cases ha

/-- C110, array: every algorithm that stays within the range does to the array what it does to the list of its elements, and
returns the same.  It cannot fail; other arrays are as before; no element is copied. -/
theorem C110_array (hN : N ≤ ptrdiffMax) {a : Algo α β} {b : β} (h : Reach E N s V) (hi : V i = some xs)
    (ha : a.onList xs = some (b, ys)) :
    ∃ s', onArray N i a s = .ok b s' ∧ Reach E N s' (upd V i (some ys)) ∧ Shows N s' i ys ∧
      (∀ j zs, j ≠ i → V j = some zs → Shows N s' j zs) ∧ s'.tick = s.tick := by
  have hm : s.mem i = some xs := by rw [(h.inv hN).mem]; exact hi
  obtain ⟨s', h1, h2, h3, _⟩ := runAlgo_ok hN h hi ha
  exact ⟨s', (M.bind_ok (begin_ok hm)).trans h1, h2, C55_shows hN h2 (upd_same _ _ _),
    fun j zs hj hz => C55_shows hN h2 (by rw [upd_ne _ _ hj]; exact hz), h3⟩

/-- C110, array (swapping): an algorithm that only swaps elements leaves each of them in the array, as often as before. -/
theorem C110_array_permutes (hN : N ≤ ptrdiffMax) {a : Swapping α β} {b : β} (h : Reach E N s V) (hi : V i = some xs)
    (ha : (a.algo E.moved).onList xs = some (b, ys)) :
    ∃ s', onArray N i (a.algo E.moved) s = .ok b s' ∧ Shows N s' i ys ∧ ys.Perm xs := by
  obtain ⟨s', h1, _, h2, _⟩ := C110_array hN h hi ha
  exact ⟨s', h1, h2, swapping_perm E.moved a ha⟩

-- `std::reverse` of three elements; the other array is as before
example : ∃ s s', Reach natElem 3 s demoV ∧ onArray 3 0 ((Swapping.swap 0 2 (.ret ())).algo natElem.moved) s = .ok () s' ∧
    Shows 3 s' 0 [5, 2, 1] ∧ Shows 3 s' 1 [7, 7, 7] := by
  obtain ⟨s, h, _⟩ := demo
  obtain ⟨s', h1, _, h2, h3, _⟩ := C110_array (i := 0) (xs := [1, 2, 5]) (ys := [5, 2, 1]) (b := ()) (by decide) h rfl
    (a := (Swapping.swap 0 2 (.ret ())).algo natElem.moved) (by decide +kernel)
  exact ⟨s, s', h, h1, h2, h3 1 _ (by decide) rfl⟩

-- `std::remove_if` of the even ones: two stay
example : ∃ s s' left, Reach natElem 3 s demoV ∧ onArray 3 0 (removeIf natElem.moved (fun x => x % 2 == 0) 3) s = .ok 2 s' ∧
    Shows 3 s' 0 ([1, 5] ++ left) := by
  obtain ⟨s, h, _⟩ := demo
  obtain ⟨left, hl⟩ := removeIf_onList natElem.moved (fun x => x % 2 == 0) [1, 2, 5]
  obtain ⟨s', h1, _, h2, _⟩ := C110_array (i := 0) (by decide) h rfl hl
  exact ⟨s, s', left, h, h1, h2⟩

end Ptl.Arr

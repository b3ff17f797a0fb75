import Verif.Arr.Props
import Verif.Bitset.Props.Bits
import Verif.Str.Props.History
import Verif.Vector.Props.History
import Verif.View.Props

/-! # C101: what the classes tell about sizes -/

namespace Ptl

namespace Vector
variable {α : Type} {T : Elem α} {s : St α Storage} {V : Vars α}

/-- vector.hpp:294-295 `max_size()` -/
def maxSize (T : Elem α) : Nat := T.maxCapacity

/-- **C101** for vectors: `size()` is the number of elements, `empty()` tells whether there are none, `end()` is `size()` behind
`data()`, and there is no size beyond `capacity()`, nor a capacity beyond `max_size()` -/
theorem C101_vector (h : Reach T s V) {i : Nat} {xs : List α} (hi : V i = some xs) :
    ∃ d c, data (.var i) s = .ok d s ∧ end_ (.var i) s = .ok (d.add xs.length) s ∧
      size (.var i) s = .ok xs.length s ∧ capacity (.var i) s = .ok c s ∧ empty (.var i) s = .ok (decide (xs = [])) s ∧
      xs.length ≤ c ∧ c ≤ maxSize T := by
  obtain ⟨d, c, hsh⟩ := h.shows hi
  obtain ⟨h1, h2, _⟩ := C05_capacity h hsh
  obtain ⟨o, ho, rfl, rfl⟩ := h.inv.1.of_shows hsh
  obtain ⟨hobj, hg⟩ := h.inv.1.wf.get ho
  refine ⟨_, _, hsh.data, ?_, hsh.size, hsh.capacity, ?_, h1, h2⟩
  · rw [end_ok hobj, hg.siz]; simp [Ptr.add]
  · rw [empty_ok hobj, hg.siz]; cases xs <;> rfl

/-- the largest size has no more than `PTRDIFF_MAX` bytes, and one more element would be too many -/
theorem C101_vector_limit (T : Elem α) (h : 0 < T.size) (n : Nat) : n ≤ maxSize T ↔ n * T.size ≤ 2 ^ 63 - 1 := by
  unfold maxSize Elem.maxCapacity
  rw [Nat.le_div_iff_mul_le h]
  rfl

example : maxSize natElem = 2305843009213693951 ∧ ∃ s V d c, Reach natElem s V ∧ Shows s 0 d c [1, 2, 3] := by
  obtain ⟨s, h, _⟩ := demo
  obtain ⟨d, c, hsh⟩ := h.shows (i := 0) (xs := [1, 2, 3]) rfl
  exact ⟨natElem_max, s, _, d, c, h, hsh⟩

end Vector

namespace Str
variable {s : St} {V : Vars}

/-- **C101** for strings: as for vectors -/
theorem C101_string (h : Reach s V) {i : Nat} {xs : List UInt8} (hi : V i = some xs) :
    ∃ d c, data (.var i) s = .ok d s ∧ size (.var i) s = .ok xs.length s ∧ capacity (.var i) s = .ok c s ∧
      empty (.var i) s = .ok (decide (xs = [])) s ∧ xs.length ≤ c ∧ c ≤ maxSize ∧ 22 ≤ c := by
  obtain ⟨d, c, t, hsh⟩ := h.shows hi
  have hr : xs.length ≤ c ∧ c ≤ maxSize ∧ 22 ≤ c := by
    rcases C17_representation h hsh with ⟨_, rfl, h⟩ | ⟨b, _, h0, _, h1, h2⟩
    · exact ⟨h, by unfold maxSize ptrdiffMax; omega, Nat.le_refl _⟩
    · exact ⟨h1, h2, by omega⟩
  obtain ⟨v, hv, rfl, rfl, hh⟩ := h.inv.1.of_shows hsh
  refine ⟨_, _, hsh.data, hsh.size, hsh.capacity, ?_, hr⟩
  rw [empty_ok h.inv.1.wf hv, hh.1]; cases xs <;> rfl

/-- with the terminating zero, the largest string has `PTRDIFF_MAX` bytes -/
theorem C101_string_limit (n : Nat) : n ≤ maxSize ↔ n + 1 ≤ 2 ^ 63 - 1 := by
  unfold maxSize ptrdiffMax; omega

example : ∃ s V, Reach s V ∧ V 1 = some thirty := by
  obtain ⟨s, h, _⟩ := demo
  exact ⟨s, _, h.reach, rfl⟩

end Str

namespace Bitset
variable {n : Nat} {s : St} {V : View n}

/-- bitset.hpp:188-190 `max_size()` -/
def maxSize (n : Nat) : Nat := size n

/-- **C101** for bitsets: `size()` and `max_size()` are the number of bits: the first index that `test` and `at` do not take; `empty()`
tells whether there are none -/
theorem C101_bitset (h : Reach n s V) {i : Nat} {f : Bits n} (hi : V.var i = some f) :
    (∀ k, k < size n ↔ ∃ b, (Op.test i k).run n s = .ok (.bool b) s) ∧ maxSize n = size n ∧
      (empty n = true ↔ ∀ k, (Op.test i k).run n s = .exc .outOfRange s) := by
  have hin : ∀ k (hk : k < n), (Op.test i k).run n s = .ok (.bool (f ⟨k, hk⟩)) s := fun k hk => (C33_in_range h hi ⟨k, hk⟩).1
  have hout : ∀ k, n ≤ k → (Op.test i k).run n s = .exc .outOfRange s := fun k hk => C33_out_of_range hk (.inl rfl)
  refine ⟨fun k => ⟨fun hk => ⟨_, hin k hk⟩, fun ⟨b, hb⟩ => ?_⟩, rfl, ?_⟩
  · refine Classical.byContradiction fun hk => ?_
    rw [hout k (by unfold size at hk; omega)] at hb
    cases hb
  · unfold empty size
    rw [beq_iff_eq]
    constructor
    · rintro rfl k
      exact hout k (Nat.zero_le _)
    · intro h0
      refine Classical.byContradiction fun hn => ?_
      have := h0 0
      rw [hin 0 (by omega)] at this
      cases this

example : size 11 = 11 ∧ empty 11 = false ∧ empty 0 = true ∧ ∃ (s : St) (V : View 11), Reach 11 s V ∧ V.var 0 ≠ none := by
  obtain ⟨s, V, h, h0, _⟩ := demo 11 (fun _ => false)
  exact ⟨rfl, rfl, rfl, s, V, h, by rw [h0]; simp⟩

end Bitset

namespace Arr
variable {α : Type} {E : Elem α} {N : Nat} {s : St α} {V : Vars α}

/-- array.hpp:192-194 `max_size()` -/
def maxSize (N : Nat) : Nat := N

/-- **C101** for arrays: `size()` and `max_size()` are the number of elements, `empty()` tells whether there are none -/
theorem C101_array (hN : N ≤ ptrdiffMax) (h : Reach E N s V) {i : Nat} {xs : List α} (hi : V i = some xs) :
    size N = xs.length ∧ maxSize N = xs.length ∧ empty N = decide (xs = []) := by
  have hs := C55_shows hN h hi
  exact ⟨hs.length.symm, hs.length.symm, hs.empty⟩

end Arr

namespace View

/-- string_ref.hpp:150-152 `max_size()` -/
def maxSize : Nat := ptrdiffMax

/-- **C101** for `array_ref` and `string_ref` that refer to living objects: `size()` is the number of elements, `empty()` tells whether
there are none, and no size is beyond `max_size()` -/
theorem C101_ref {α : Type} {s : St α} {w : Know α} (h : Reach s w) {r : Nat} {g : Seg} (hr : w.R r = some g) (hg : w.Has g) :
    ∃ x, load r s = .ok x s ∧ size x s = .ok (w.text g).length s ∧ empty x s = .ok (decide (w.text g = [])) s ∧
      (w.text g).length ≤ maxSize := by
  have hs := C53_shows h hr hg
  obtain ⟨x, h1, h2, h3, _⟩ := hs.obj
  refine ⟨x, h1, by rw [hs.length]; exact h2, ?_, ?_⟩
  · rw [h3, ← hs.length]; congr 1; simp
  · rw [hs.length]
    cases g with
    | nil => exact Nat.zero_le _
    | of b off n =>
      obtain ⟨xs, h4, h5⟩ := hg
      have := h.inv.bound b xs h4
      show n ≤ ptrdiffMax
      omega

end View

end Ptl

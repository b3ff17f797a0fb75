import Verif.Layout.Props
import Verif.Vector.Props.History

/-!
# C81: elements of vectors are properly placed

Where the elements of vectors are in memory: the buffers come from `std::calloc` (inc/ptl/vector.hpp:48), elements are addressed by pointer
arithmetic.
-/

set_option linter.unusedSectionVars false

namespace Ptl.Vector

open Layout (Ty Aligned Apart)

variable {α : Type} {T : Elem α} {s : St α Storage} {V : Vars α}

/-! ### model -/

/-- `alignof(std::max_align_t)` (64-bit platforms): what `std::calloc` guarantees -/
def maxAlign : Nat := 16

/-- vector.hpp:48 `std::calloc(capacity, sizeof(Type))`: where the blocks are.  Every block is suitably aligned for `max_align_t`, not more, and
apart from all other blocks. -/
structure Placed (T : Elem α) (s : St α Storage) (addr : Nat → Nat) : Prop where
  aligned : ∀ b l, s.blk b = some l → maxAlign ∣ addr b
  apart : ∀ b c l m, b ≠ c → s.blk b = some l → s.blk c = some m → addr b + l.length * T.size ≤ addr c ∨ addr c + m.length * T.size ≤ addr b

/-- the address of the object a pointer points to: pointer arithmetic counts in units of `sizeof(Type)` -/
def address (T : Elem α) (addr : Nat → Nat) (p : Ptr) : Option Nat := p.blk.map fun b => addr b + p.off * T.size

/-- the element type for the language implementation -/
def Elem.ty (T : Elem α) (align : Nat) : Ty := ⟨T.size, align⟩

/-! ### C81 -/

/-- element `k` of vector `i` is at address `a` -/
def Resides (T : Elem α) (s : St α Storage) (addr : Nat → Nat) (i k a : Nat) : Prop :=
  ∃ d c xs, Shows s i d c xs ∧ k < xs.length ∧ address T addr (d.add k) = some a

theorem Shows.block (h : Reach T s V) {i : Nat} {d : Ptr} {c : Nat} {xs : List α} (hsh : Shows s i d c xs) (hx : xs ≠ []) :
    ∃ b l, d = ⟨some b, 0⟩ ∧ s.blk b = some l ∧ l.length = c ∧ xs.length ≤ c := by
  have hinv := h.inv.1
  obtain ⟨o, ho, rfl, rfl⟩ := hinv.of_shows hsh
  obtain ⟨hobj, hg⟩ := hinv.wf.get ho
  cases hp : o.ptr with
  | none => exact absurd (hg.null hp).2 hx
  | some b =>
    obtain ⟨_, hs, hle, _, _, hb⟩ := hg.own hp
    exact ⟨b, _, rfl, hb, by simp [lv, raw]; omega, by omega⟩

/-- every element has an address, and the elements are adjacent: element `k` is `k * sizeof(Type)` bytes behind element 0 -/
theorem C81_contiguous (h : Reach T s V) (addr : Nat → Nat) {i : Nat} {xs : List α} (hi : V i = some xs) (hx : xs ≠ []) :
    ∃ a, ∀ k, k < xs.length → Resides T s addr i k (a + k * T.size) := by
  obtain ⟨d, c, hsh⟩ := h.shows hi
  obtain ⟨b, l, rfl, hb, _, _⟩ := hsh.block h hx
  exact ⟨addr b, fun k hk => ⟨_, c, xs, hsh, hk, by simp [address, Ptr.add]⟩⟩

/-- C81: different elements, of the same or of different vectors, do not overlap -/
theorem C81_apart (h : Reach T s V) {addr : Nat → Nat} (hp : Placed T s addr) {i j k m a b : Nat} (h1 : Resides T s addr i k a)
    (h2 : Resides T s addr j m b) (hne : (i, k) ≠ (j, m)) (align : Nat) : Apart a (T.ty align) b (T.ty align) := by
  obtain ⟨d, c, xs, hs1, hk, ha⟩ := h1
  obtain ⟨d', c', ys, hs2, hm, hb⟩ := h2
  obtain ⟨p, l, rfl, hl, hc, hle⟩ := hs1.block h (by intro h; rw [h] at hk; cases hk)
  obtain ⟨q, l', rfl, hl', hc', hle'⟩ := hs2.block h (by intro h; rw [h] at hm; cases hm)
  simp only [address, Ptr.add, Option.map_some, Option.some.injEq, Nat.zero_add] at ha hb
  subst ha hb
  have mono : ∀ {x y : Nat}, x < y → x * T.size + T.size ≤ y * T.size := fun {x y} h => by
    have := Nat.mul_le_mul_right T.size h
    rwa [Nat.succ_mul] at this
  show _ + T.size ≤ _ ∨ _ + T.size ≤ _
  by_cases hpq : p = q
  · subst hpq
    obtain ⟨i', _, hu⟩ := C02_every_buffer_is_owned h hl
    have e1 := hu _ _ _ hs1
    have e2 := hu _ _ _ hs2
    subst e1 e2
    have hkm : k ≠ m := fun e => hne (by rw [e])
    rcases Nat.lt_or_gt_of_ne hkm with hlt | hlt
    · left; have := mono hlt; omega
    · right; have := mono hlt; omega
  · rcases hp.apart p q l l' hpq hl hl' with h | h
    · left; have := mono (x := k) (y := l.length) (by omega); omega
    · right; have := mono (x := m) (y := l'.length) (by omega); omega

/-- C81: a buffer is at most `PTRDIFF_MAX` bytes long, so the difference of any two iterators of a vector is representable -/
theorem C81_extent (h : Reach T s V) {i : Nat} {d : Ptr} {c : Nat} {xs : List α} (hsh : Shows s i d c xs) : c * T.size ≤ ptrdiffMax := by
  have hinv := h.inv.1
  obtain ⟨o, ho, rfl, rfl⟩ := hinv.of_shows hsh
  obtain ⟨hobj, hg⟩ := hinv.wf.get ho
  have : o.cap ≤ T.maxCapacity := by
    rcases hg with ⟨rfl, _⟩ | ⟨b, _, _, h1, h2, _, h3, _⟩
    · exact Nat.zero_le _
    · omega
  exact (Nat.le_div_iff_mul_le T.size_pos).1 this

/-- C81 (part): if the alignment of the element type is at most that of `max_align_t`, all elements are aligned.  Missing: over-aligned types, see
`C81_refuted`. -/
theorem C81_partial (h : Reach T s V) {addr : Nat → Nat} (hp : Placed T s addr) {align : Nat} (hwf : (T.ty align).Wf) (ha : align ≤ maxAlign)
    {i k a : Nat} (hat : Resides T s addr i k a) : Aligned a (T.ty align) := by
  obtain ⟨d, c, xs, hs1, hk, ha'⟩ := hat
  obtain ⟨p, l, rfl, hl, hc, hle⟩ := hs1.block h (by intro h; rw [h] at hk; cases hk)
  simp only [address, Ptr.add, Option.map_some, Option.some.injEq, Nat.zero_add] at ha'
  subst ha'
  have h16 : align ∣ maxAlign := Layout.pow_dvd hwf.2.2 ⟨4, rfl⟩ ha
  exact Nat.dvd_add (Nat.dvd_trans h16 (hp.aligned _ _ hl)) (Nat.dvd_trans hwf.2.1 (Nat.dvd_mul_left _ _))

/-- where blocks can be: the blocks of the (finitely many) allocations one after the other, all of them `shift` bytes behind a multiple of `unit` -/
def spread (T : Elem α) (s : St α Storage) (unit shift : Nat) : Nat → Nat
  | 0 => shift
  | b + 1 => spread T s unit shift b + ((s.blk b).getD []).length * T.size * unit + unit

theorem spread_mod (T : Elem α) (s : St α Storage) {unit shift : Nat} (b : Nat) : spread T s unit shift b % unit = shift % unit := by
  induction b with
  | zero => rfl
  | succ b ih => simp [spread, Nat.add_mod, ih]

theorem spread_apart (T : Elem α) (s : St α Storage) {unit shift : Nat} (hu : 0 < unit) {b c : Nat} (h : b < c) :
    spread T s unit shift b + ((s.blk b).getD []).length * T.size ≤ spread T s unit shift c := by
  induction c with
  | zero => cases h
  | succ c ih =>
    have hle : ((s.blk b).getD []).length * T.size ≤ ((s.blk b).getD []).length * T.size * unit := Nat.le_mul_of_pos_right _ hu
    rcases Nat.lt_or_eq_of_le (Nat.lt_succ_iff.1 h) with h | rfl
    · have := ih h; simp only [spread]; omega
    · simp only [spread]; omega

theorem spread_placed (T : Elem α) (s : St α Storage) {unit shift : Nat} (hu : 0 < unit) (h1 : maxAlign ∣ unit) (h2 : maxAlign ∣ shift) :
    Placed T s (spread T s unit shift) := by
  refine ⟨fun b _ _ => ?_, fun b c l m hne hb hc => ?_⟩
  · have := spread_mod T s (unit := unit) (shift := shift) b
    have e1 := Nat.div_add_mod (spread T s unit shift b) unit
    rw [← e1, this]
    exact Nat.dvd_add (Nat.dvd_trans h1 (Nat.dvd_mul_right _ _)) ((Nat.dvd_mod_iff h1).2 h2)
  · rcases Nat.lt_or_gt_of_ne hne with h | h
    · left; have := spread_apart T s (shift := shift) hu h; rw [hb] at this; exact this
    · right; have := spread_apart T s (shift := shift) hu h; rw [hc] at this; exact this

/-- C81 fails for every over-aligned element type and every reachable state: `calloc` may return memory such that no element of any vector is
aligned. -/
theorem C81_refuted (h : Reach T s V) {align : Nat} (hwf : (T.ty align).Wf) (ha : maxAlign < align) :
    ∃ addr, Placed T s addr ∧ ∀ i k a, Resides T s addr i k a → ¬ Aligned a (T.ty align) := by
  have hpow : maxAlign ∣ align := Layout.pow_dvd ⟨4, rfl⟩ hwf.2.2 (Nat.le_of_lt ha)
  refine ⟨spread T s align maxAlign, spread_placed T s (by omega) hpow (Nat.dvd_refl _), ?_⟩
  rintro i k a ⟨d, c, xs, hs1, hk, ha'⟩ hal
  obtain ⟨p, l, rfl, hl, hc, hle⟩ := hs1.block h (by intro h; rw [h] at hk; cases hk)
  simp only [address, Ptr.add, Option.map_some, Option.some.injEq, Nat.zero_add] at ha'
  subst ha'
  have hd : align ∣ spread T s align maxAlign p := (Nat.dvd_add_left (Nat.dvd_trans hwf.2.1 (Nat.dvd_mul_left _ _))).1 hal
  have hmod := spread_mod T s (unit := align) (shift := maxAlign) p
  rw [Nat.mod_eq_zero_of_dvd hd, Nat.mod_eq_of_lt ha] at hmod
  exact absurd hmod (by decide)

-- the demo vectors, with elements of size and alignment 4: the elements of vector 0 are adjacent and aligned
example : ∃ s addr a, Reach natElem s demoV ∧ Placed natElem s addr ∧ Resides natElem s addr 0 0 a ∧ Resides natElem s addr 0 2 (a + 8) ∧
    Aligned (a + 8) (natElem.ty 4) := by
  obtain ⟨s, h, _⟩ := demo
  obtain ⟨a, ha⟩ := C81_contiguous h (spread natElem s 16 0) (i := 0) (xs := [1, 2, 3]) rfl (by decide)
  have hp := spread_placed natElem s (unit := 16) (shift := 0) (by decide) (by decide) (by decide)
  exact ⟨s, spread natElem s 16 0, a, h, hp, ha 0 (by decide), ha 2 (by decide),
    C81_partial h hp ⟨by decide, by decide, 2, rfl⟩ (by decide) (ha 2 (by decide))⟩
-- … and an over-aligned type
example : ∃ T : Elem Nat, (T.ty 64).Wf ∧ ∃ s V, Reach T s V ∧ V 0 = some [5] := by
  refine ⟨{ natElem with size := 64, size_pos := by decide, size_max := by decide }, ⟨by decide, by decide, 6, rfl⟩, ?_⟩
  obtain ⟨s1, _, h1, o1⟩ := (Reach.start (T := { natElem with size := 64, size_pos := by decide, size_max := by decide }) fun _ => false).next
    (Spec.ctorFill (i := 0) (n := 1) (x := .val 5) rfl (by decide) (.val 5)) (fun _ => rfl) (by
      rintro (⟨i, xs, ht, hv, hl⟩ | ⟨i, n, hh, _⟩)
      · obtain rfl : i = 0 := ht
        rw [upd_same] at hv; cases hv
        exact absurd hl (by decide)
      · cases hh)
  exact ⟨s1, _, h1, upd_same _ _ _⟩

end Ptl.Vector

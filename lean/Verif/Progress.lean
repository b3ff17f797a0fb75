import Verif.Vector.Props.Capacity
import Verif.Vector.Props.History
import Verif.Vector.Props.Limits
import Verif.Str.Demo
import Verif.Str.Props.History
import Verif.Optional.Props.History
import Verif.Variant.Props.History
import Verif.Optional.Demo
import Verif.Variant.Demo
import Verif.Arr.Props
import Verif.Tuple.Props

/-!
# C80: a call whose result fits succeeds

If no allocation and no operation of the element type fails, a call within its preconditions returns normally unless its result is longer than
`max_size()` (or more than that is reserved).  Growth by doubling (inc/ptl/vector.hpp:204-220 `insert_impl`) and rounding up
(inc/ptl/string.hpp:55-64) break this near `max_size()`.
-/

set_option linter.unusedSectionVars false

namespace Ptl.Vector

variable {α : Type} {T : Elem α} {s s' : St α Storage} {V V' : Vars α} {op : Op α} {r : Option Nat}

/-- what the call is asked for fits: the vectors it produces are not longer than `max_size()`, and neither is what it reserves -/
def Fitting (T : Elem α) (op : Op α) (V' : Vars α) : Prop :=
  (∀ i xs, op.Targets i → V' i = some xs → xs.length ≤ T.maxCapacity) ∧ ∀ i n, op = .reserve i n → n ≤ T.maxCapacity

/-- the call inserts into its target, or reads a single-pass range: it grows by doubling -/
def Op.Grows : Op α → Prop
  | .pushBack _ _ | .emplace _ _ _ | .insertFill _ _ _ _ | .insertRange _ _ _ | .insertInput _ _ _ | .ctorInput _ _ | .assignInput _ _ => True
  | _ => False

/-- C80 for all calls other than insertions and those that read single-pass ranges: construction, copying, assignment, resize, reserve, … succeed
whenever the result fits. -/
theorem C80_other (h : Reach T s V) (hs : Spec T op V V' r) (hg : ¬ op.Grows) (hf : Fitting T op V') (horc : ∀ k, s.orc k = false) :
    ∃ s', op.run T s = .ok r s' ∧ Reach T s' V' ∧ Agrees s' V' := by
  obtain ⟨s', h1, h2, _⟩ := h.next hs horc (by
    rintro (⟨i, xs, ht, hv, hl⟩ | ⟨i, n, rfl, hl⟩)
    · have := hf.1 i xs ht hv
      have : op.room xs.length ≤ xs.length := by
        cases op <;> first | exact absurd trivial hg | exact Nat.le_refl _ | exact Nat.zero_le _
      omega
    · have := hf.2 i n rfl
      omega)
  exact ⟨s', h1, h2, h2.agrees⟩

/-- C80 (part): every call succeeds if twice the length of its result fits.  Missing: the insertions with a longer result that does fit, see
`C80_refuted`. -/
theorem C80_partial (h : Reach T s V) (hs : Spec T op V V' r) (hf : ∀ i xs, op.Targets i → V' i = some xs → 2 * xs.length ≤ T.maxCapacity)
    (hres : ∀ i n, op = .reserve i n → n ≤ T.maxCapacity) (horc : ∀ k, s.orc k = false) :
    ∃ s', op.run T s = .ok r s' ∧ Reach T s' V' ∧ Agrees s' V' := by
  obtain ⟨s', h1, h2, _⟩ := h.next hs horc (by
    rintro (⟨i, xs, ht, hv, hl⟩ | ⟨i, n, rfl, hl⟩)
    · have := hf i xs ht hv
      have := op.room_le xs.length
      omega
    · have := hres i n rfl
      omega)
  exact ⟨s', h1, h2, h2.agrees⟩

/-- which insertions succeed: exactly those that fit into the spare capacity, or for which the size doubled (or increased by the number of new
elements, if that is more) is at most `max_size()`.  The others throw `length_error`. -/
theorem C80_insert_exact (h : Reach T s V) (hs : Spec T op V V' r) {i n : Nat} (hop : op.Inserts i n) {d : Ptr} {c : Nat} {xs : List α}
    (hsh : Shows s i d c xs) (horc : ∀ k, s.orc k = false) :
    if xs.length + n ≤ c ∨ xs.length + max xs.length n ≤ T.maxCapacity then ∃ s', op.run T s = .ok r s' ∧ Reach T s' V' ∧ Agrees s' V'
    else ∃ s', op.run T s = .exc .lengthError s' ∧ s'.obj = s.obj ∧ s'.blk = s.blk := by
  have h0 := Reach.call h hs
  obtain ⟨hinv, rfl⟩ := h.inv
  obtain ⟨o, ho, rfl, rfl⟩ := hinv.of_shows hsh
  obtain ⟨hobj, hg⟩ := hinv.wf.get ho
  have hsz := hg.siz
  have hio := insert_out hinv hs hop hobj
  cases hr : op.run T s with
  | ok r' s' =>
    rw [hr] at hio h0
    obtain ⟨_, ys, _, _, hq⟩ := hio
    obtain ⟨rfl, h0⟩ := h0
    rw [if_pos]
    · exact ⟨s', rfl, h0, h0.agrees⟩
    · split at hq
      · left; omega
      · right; have := hq.1; rw [hsz] at this; omega
  | exc e s' =>
    rw [hr] at hio
    obtain ⟨hsame, _, ht⟩ := hio
    rcases ht with ⟨rfl, h1, h2⟩ | ⟨_, _, k, _, _, hk⟩ | ⟨_, k, _, _, hk⟩
    · rw [if_neg]
      · exact ⟨s', rfl, hsame.obj, hsame.blk⟩
      · rw [hsz] at h1 h2; omega
    · rw [horc] at hk; cases hk
    · rw [horc] at hk; cases hk
  | ub => rw [hr] at hio; exact hio.elim
  | term => rw [hr] at hio; exact hio.elim

/-- C80, full statement for vectors of `T` -/
def FitSucceeds (T : Elem α) : Prop :=
  ∀ (s : St α Storage) (V V' : Vars α) (op : Op α) (r : Option Nat), Reach T s V → Spec T op V V' r → Fitting T op V' → (∀ k, s.orc k = false) →
    ∃ s', op.run T s = .ok r s'

/-- more than half of `max_size()`, but less than `max_size()` -/
theorem half_max (T : Elem α) : ∃ n, 10 ≤ n ∧ T.maxCapacity < 2 * n ∧ n + 1 ≤ T.maxCapacity := by
  have := T.size_max
  refine ⟨max 10 (T.maxCapacity / 2 + 1), ?_, ?_, ?_⟩ <;> unfold Elem.maxCapacity <;> omega

/-- C80 fails, for every element type: `push_back` on a full vector with more than `max_size() / 2` elements throws `length_error`, although the
vector is allowed to have one more. -/
theorem C80_refuted (T : Elem α) : ¬ FitSucceeds T := by
  intro hall
  obtain ⟨n, h10, hhalf, hmax⟩ := half_max T
  have hb : T.maxCapacity ≤ ptrdiffMax := Nat.div_le_self _ _
  have hpm : ptrdiffMax = 9223372036854775807 := rfl
  obtain ⟨s1, _, h1, o1⟩ := (Reach.start (T := T) fun _ => false).next (Spec.ctorDefault (i := 0) rfl) (fun _ => rfl) (by
    rintro (⟨i, xs, _, _, hl⟩ | ⟨i, n, hh, _⟩)
    · exact absurd hl (Nat.not_lt_zero _)
    · cases hh)
  have hv1 : (upd (fun _ => none) 0 (some []) : Vars α) 0 = some [] := upd_same _ _ _
  obtain ⟨s2, hr2, h2, o2⟩ := h1.next (Spec.resizeGrow (i := 0) (n := n) (xs := []) hv1 (by simp; omega)) o1 (by
    rintro (⟨i, xs, ht, hv, hl⟩ | ⟨i, n, hh, _⟩)
    · obtain rfl : i = 0 := ht
      rw [upd_same] at hv; cases hv
      simp only [Op.room, List.nil_append, List.length_replicate] at hl; omega
    · cases hh)
  obtain ⟨d, c, hsh⟩ := h1.shows hv1
  obtain ⟨d', hsh', _⟩ := C10_resize_always_reallocates h1 hsh (n := n) (by omega) hr2
  have hc : max 10 (([] : List α).length + n) = n := by simp; omega
  rw [hc] at hsh'
  have hs3 := Spec.pushBack (T := T) (i := 0) (.ref (.val T.dflt)) (h2.of_shows hsh')
  have hex := C80_insert_exact h2 hs3 .pushBack hsh' o2
  rw [if_neg (by simp; omega)] at hex
  obtain ⟨s3, hr3, _⟩ := hex
  obtain ⟨s4, hr4⟩ := hall s2 _ _ _ _ h2 hs3 ⟨by
    intro i xs ht hv
    obtain rfl : i = 0 := ht
    rw [upd_same] at hv; cases hv
    simp; omega, by intro i n hh; cases hh⟩ o2
  rw [hr3] at hr4; cases hr4

-- the hypotheses of the theorems are met by the demo state: inserting, and assigning
example : ∃ s V V' r, Reach natElem s V ∧ Spec natElem (.insertFill 0 1 5 (.elem 0 0)) V V' r ∧ (∀ k, s.orc k = false) ∧
    ∃ d c, Shows s 0 d c [1, 2, 3] := by
  obtain ⟨s, h, ho⟩ := demo
  exact ⟨s, demoV, _, _, h, .insertFill (pre := [1]) (post := [2, 3]) (.elem (ys := [1, 2, 3]) rfl rfl) rfl (by decide), ho, h.shows rfl⟩
example : ∃ s V V' r, Reach natElem s V ∧ Spec natElem (.assignCopy 0 1) V V' r ∧ ¬ (Op.assignCopy 0 1 : Op Nat).Grows ∧
    Fitting natElem (.assignCopy 0 1) V' ∧ ∀ k, s.orc k = false := by
  obtain ⟨s, h, ho⟩ := demo
  refine ⟨s, demoV, _, _, h, .assignCopy rfl rfl, id, ⟨?_, by intro i n hh; cases hh⟩, ho⟩
  rintro i xs rfl hv
  rw [upd_same] at hv; cases hv
  rw [natElem_max]; decide

end Ptl.Vector

namespace Ptl.Str

variable {s s' : St} {V V' : Vars} {op : Op} {r : Option Nat}

/-- C80 (part), for strings: every call succeeds if what it asks for is at least 23 bytes below `max_size()`.  Missing: the last 23 bytes, see
`C80_string_refuted`. -/
theorem C80_string_partial (h : Reach s V) (hs : Spec (Big s) op V V' r) (ho : ∀ k, s.orc k = false)
    (hn : ∀ n, Asks op V' n → n + 23 ≤ maxSize) : ∃ s', op.run s = .ok r s' ∧ Reach s' V' ∧ Agrees s' V' := by
  obtain ⟨s', h1, h2, _⟩ := h.next hs ho hn
  exact ⟨s', h1, h2, h2.agrees⟩

/-- C80, full statement for strings -/
def FitSucceeds : Prop :=
  ∀ (s : St) (V V' : Vars) (op : Op) (r : Option Nat), Reach s V → Spec (Big s) op V V' r → (∀ k, s.orc k = false) →
    (∀ n, Asks op V' n → n ≤ maxSize) → ∃ s', op.run s = .ok r s'

/-- which requests `reserve` grants: what is there already, and what is at most `max_size()` after rounding up to a multiple of 24.  The others
throw and change nothing. -/
theorem C80_reserve_exact (h : Reach s V) (ho : ∀ k, s.orc k = false) {i n c : Nat} {d : Ptr} {xs : List UInt8} {t : UInt8}
    (hsh : Shows s i d c xs t) :
    if n ≤ c ∨ (n + 23) / 24 * 24 ≤ maxSize then ∃ s', (Op.reserve i n).run s = .ok none s' ∧ Reach s' V ∧ ∃ d' c' t', Shows s' i d' c' xs t' ∧ n ≤ c'
    else ∃ e s', (Op.reserve i n).run s = .exc e s' ∧ (e = .lengthError ∨ e = .badAlloc) ∧ Shows s' i d c xs t := by
  have hs := Spec.reserve (big := Big s) (n := n) (h.of_shows hsh)
  have hinv := h.inv.1
  obtain ⟨v, hv, rfl, rfl, hh⟩ := hinv.of_shows hsh
  have h22 : 22 ≤ v.cap := by rcases (hinv.wf.gd hv).shape with ⟨_, h⟩ | ⟨_, _, h, _⟩ <;> omega
  have hpm : ptrdiffMax = 9223372036854775807 := rfl
  have hm : maxSize = 9223372036854775806 := rfl
  have hcf : capFor n = max 2 ((n + 23) / 24) * 24 := rfl
  rcases reserve_run hinv.wf hv hh n with ⟨s', v', t', hr, st, hh', _, hc, _⟩ | ⟨s', e, hr, st, hy, hc, _⟩
  · have e : (Op.reserve i n).run s = .ok none s' := M.bind_ok hr
    rw [if_pos]
    · have h' := h.ok hs e
      have hv' : abs s' (.var i) = some v' := by rw [st.abs, upd_same]
      refine ⟨s', e, h', _, _, t', h'.inv.1.shows hv' hh', ?_⟩
      by_cases hle : n ≤ v.cap
      · rw [if_pos hle] at hc; omega
      · rw [if_neg hle] at hc; omega
    · by_cases hle : n ≤ v.cap
      · exact .inl hle
      · rw [if_neg hle] at hc
        have hv' : abs s' (.var i) = some v' := by rw [st.abs, upd_same]
        rcases (st.wf.gd hv').shape with ⟨_, h⟩ | ⟨_, _, _, _, h⟩ <;> omega
  · have er : (Op.reserve i n).run s = .exc e s' := M.bind_exc hr
    have h' := (h.thrown hs er).inv.1
    have hv' : abs s' (.var i) = some v := by rw [st.abs]; exact hv
    cases hy with
    | length hl =>
      rw [if_neg (by omega)]
      exact ⟨_, s', er, .inl rfl, h'.shows hv' hh⟩
    | mem hb hw =>
      rcases hw with hw | ⟨k, _, _, hk⟩
      · rw [if_neg (by omega)]
        exact ⟨_, s', er, .inr rfl, h'.shows hv' hh⟩
      · rw [ho] at hk; cases hk
    | user hb hw => cases hb

/-- C80 fails for every string: `reserve(max_size())` throws although no allocation fails -/
theorem C80_string_refuted (h : Reach s V) (ho : ∀ k, s.orc k = false) {i : Nat} {xs : List UInt8} (hi : V i = some xs) :
    ∃ e s', (Op.reserve i maxSize).run s = .exc e s' := by
  obtain ⟨d, c, t, hsh⟩ := h.shows hi
  have hex := C80_reserve_exact (n := maxSize) h ho hsh
  rw [if_neg] at hex
  · obtain ⟨e, s', hr, _⟩ := hex
    exact ⟨e, s', hr⟩
  · have hm : maxSize = 9223372036854775806 := rfl
    have hpm : ptrdiffMax = 9223372036854775807 := rfl
    have hinv := h.inv.1
    obtain ⟨v, hv, rfl, rfl, hh⟩ := hinv.of_shows hsh
    rcases (hinv.wf.gd hv).shape with ⟨_, h⟩ | ⟨_, _, _, h1, h2⟩ <;> omega

/-- C80 fails for strings -/
theorem C80_string_not_full : ¬ FitSucceeds := by
  intro hall
  obtain ⟨s, h, ho⟩ := demo
  obtain ⟨e, s1, h1⟩ := C80_string_refuted h.reach ho (i := 0) (xs := abc) rfl
  obtain ⟨s2, h2⟩ := hall s demoV demoV (.reserve 0 maxSize) none h.reach (.reserve rfl) ho (by
    rintro n (⟨i, xs, _, hv, rfl⟩ | ⟨i, hh⟩)
    · have := demoV_len i xs hv
      have hm : maxSize = 9223372036854775806 := rfl
      omega
    · cases hh; exact Nat.le_refl _)
  rw [h1] at h2; cases h2

-- the hypotheses are met by the demo state: appending 30 bytes to a short string
example : ∃ s V V' r, Reach s V ∧ Spec (Big s) (.appendFill 0 30 120) V V' r ∧ (∀ k, s.orc k = false) ∧
    (∀ n, Asks (.appendFill 0 30 120) V' n → n + 23 ≤ maxSize) := by
  obtain ⟨s, h, ho⟩ := demo
  refine ⟨s, demoV, _, _, h.reach, .appendFill (i := 0) (xs := abc) rfl (by decide), ho, ?_⟩
  exact demo_short (short_upd demoV_len (by intro xs h; cases h; decide)) (by intro i n h; cases h)

end Ptl.Str

namespace Ptl.Optional

/-- C80 for optionals: if no operation of the contained type fails, every call within its preconditions succeeds -/
theorem C80_optional {α : Type} {E : Elem α} {s : St α} {V V' : Vars α} {op : Op α} (hE : E.Plain) (h : Reach E s V) (hs : Spec E op V V')
    (ho : ∀ k, s.orc k = false) : ∃ s', op.run E s = .ok () s' ∧ Reach E s' V' ∧ Agrees s' V' := by
  obtain ⟨s', h1, h2, _⟩ := h.next hE hs ho
  exact ⟨s', h1, h2, h2.agrees hE⟩

end Ptl.Optional

namespace Ptl.Variant

/-- C80 for variants -/
theorem C80_variant {τ ν : Type} [DecidableEq τ] {E : Elem τ ν} {ts : List τ} {s : St ν} {V V' : Vars τ ν} {op : Op τ ν} (hE : E.Plain)
    (ha : Alts ts) (h : Reach E ts s V) (hs : Spec E ts op V V') (ho : ∀ k, s.orc k = false) :
    ∃ s', op.run E ts s = .ok () s' ∧ Reach E ts s' V' ∧ Agrees ts s' V' := by
  obtain ⟨s', h1, h2, _⟩ := h.next hE ha hs ho
  exact ⟨s', h1, h2, h2.agrees hE ha⟩

end Ptl.Variant

namespace Ptl.Arr

/-- C80 for arrays (`at` beyond the end is a call that is specified to throw) -/
theorem C80_array {ν : Type} {E : Elem ν} {N : Nat} {s : St ν} {V V' : Vars ν} {op : Op ν} (hN : N ≤ ptrdiffMax) (h : Reach E N s V)
    (hs : Spec E N op V none V') (ho : ∀ t, s.orc t = false) : ∃ s', op.run E N s = .ok () s' ∧ Reach E N s' V' ∧ Agrees N s' V' := by
  obtain ⟨s', h1, h2, _⟩ := h.next hN hs ho
  exact ⟨s', h1, h2, h2.agrees hN⟩

end Ptl.Arr

namespace Ptl.Tuple

/-- C80 for tuples -/
theorem C80_tuple {ν : Type} {ts : List (Elem ν)} {s : Arr.St ν} {V V' : Vars ν} {op : Op ν} (h : Reach ts s V) (hs : Spec ts op V none V')
    (ho : ∀ t, s.orc t = false) : ∃ s', op.run ts s = .ok () s' ∧ Reach ts s' V' ∧ Agrees ts s' V' := by
  obtain ⟨s', h1, h2, _⟩ := h.next hs ho
  exact ⟨s', h1, h2, h2.agrees⟩

end Ptl.Tuple

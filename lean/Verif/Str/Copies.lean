import Verif.Str.Ctors

/-! # Initializer-list and count overloads, copies, moves, substr and literals -/

namespace Ptl.Str

section simple
variable {s : St} (hw : WF s) {i : Id} {v : Vw} (hv : abs s i = some v) {xs : List UInt8} {t : UInt8} (hh : Holds v xs t)
include hw hv hh

theorem appendIlist_run {bs : List UInt8} (hn : xs.length + bs.length < szMod) :
    RunsS (appendIlist i bs) s i v [] (xs ++ bs) (xs.length + bs.length ≤ v.cap) (fun _ => ()) :=
  (appendNoAliasing_run hw hv hh (putAt_puts i bs _ none) (tmp_dead hw) (ne_tmp hw hv).symm hn).strong hv

theorem appendFill_run {n : Nat} (ch : UInt8) (hn : xs.length + n < szMod) :
    RunsS (appendFill i n ch) s i v [] (xs ++ List.replicate n ch) (xs.length + n ≤ v.cap) (fun _ => ()) := by
  have := (appendNoAliasing_run hw hv hh (fillAt_puts i n ch _ none) (tmp_dead hw) (ne_tmp hw hv).symm (by simpa using hn)).strong hv
  simp only [List.length_replicate] at this
  exact this

theorem assignIlist_run (bs : List UInt8) : RunsS (assignIlist i bs) s i v [] bs (bs.length ≤ v.cap) (fun _ => ()) :=
  (assignNoAliasing_run hw hv hh (putAt_puts i bs _ none) (tmp_dead hw) (ne_tmp hw hv).symm).strong hv

theorem assignFill_run (n : Nat) (ch : UInt8) :
    RunsS (assignFill i n ch) s i v [] (List.replicate n ch) (n ≤ v.cap) (fun _ => ()) := by
  have := (assignNoAliasing_run hw hv hh (fillAt_puts i n ch _ none) (tmp_dead hw) (ne_tmp hw hv).symm).strong hv
  simp only [List.length_replicate] at this
  exact this

theorem insertIlist_run {pre post bs : List UInt8} (he : xs = pre ++ post) (hn : xs.length + bs.length < szMod) :
    RunsS (insertIlist i ⟨some v.base, pre.length⟩ bs) s i v [] (pre ++ bs ++ post) (xs.length + bs.length ≤ v.cap)
      (fun v' => ⟨some v'.base, pre.length⟩) :=
  (insertNoAliasing_run hw hv hh (putAt_puts i bs _ none) (tmp_dead hw) (ne_tmp hw hv).symm he hn).strong hv

theorem insertFill_run {pre post : List UInt8} {n : Nat} (ch : UInt8) (he : xs = pre ++ post) (hn : xs.length + n < szMod) :
    RunsS (insertFill i ⟨some v.base, pre.length⟩ n ch) s i v [] (pre ++ List.replicate n ch ++ post) (xs.length + n ≤ v.cap)
      (fun v' => ⟨some v'.base, pre.length⟩) := by
  have := (insertNoAliasing_run hw hv hh (fillAt_puts i n ch _ none) (tmp_dead hw) (ne_tmp hw hv).symm he (by simpa using hn)).strong hv
  simp only [List.length_replicate] at this
  exact this

theorem replaceIlist_run {pre mid post bs : List UInt8} (he : xs = pre ++ mid ++ post) (hn : xs.length + bs.length < szMod + mid.length) :
    RunsS (replaceIlist i ⟨some v.base, pre.length⟩ ⟨some v.base, pre.length + mid.length⟩ bs) s i v [] (pre ++ bs ++ post)
      (pre.length + bs.length + post.length ≤ v.cap) (fun _ => ()) :=
  (replaceNoAliasing_run hw hv hh (putAt_puts i bs _ none) (tmp_dead hw) (ne_tmp hw hv).symm he hn).strong hv

theorem replaceFill_run {pre mid post : List UInt8} {n : Nat} (ch : UInt8) (he : xs = pre ++ mid ++ post)
    (hn : xs.length + n < szMod + mid.length) :
    RunsS (replaceFill i ⟨some v.base, pre.length⟩ ⟨some v.base, pre.length + mid.length⟩ n ch) s i v [] (pre ++ List.replicate n ch ++ post)
      (pre.length + n + post.length ≤ v.cap) (fun _ => ()) := by
  have := (replaceNoAliasing_run hw hv hh (fillAt_puts i n ch _ none) (tmp_dead hw) (ne_tmp hw hv).symm he (by simpa using hn)).strong hv
  simp only [List.length_replicate] at this
  exact this

/-! ### views -/

theorem view_ok : view i s = .ok (⟨if xs = [] then none else some v.base, 0⟩, xs.length) s := by
  unfold view
  mstep (empty_ok hw hv)
  by_cases h0 : xs = []
  · have : v.siz = 0 := by rw [hh.1, h0]; rfl
    simp [this, h0]
  · have : v.siz ≠ 0 := by rw [hh.1]; simpa using h0
    simp only [this, beq_iff_eq, if_false, h0]
    mstep (data_ok hw hv)
    mstep (size_ok hw hv)
    simp [hh.1]

end simple

theorem ptrRange_cons (p : Ptr) (n : Nat) : ptrRange p (n + 1) = .at p :: ptrRange (p.add 1) n := by
  unfold ptrRange
  rw [List.range_succ_eq_map]
  simp only [List.map_cons, List.map_map, Ptr.add, Nat.add_zero, List.cons.injEq, true_and]
  apply List.map_congr_left
  intro k _
  simp only [Function.comp_apply, Nat.succ_eq_add_one, Arg.at.injEq, Ptr.mk.injEq, true_and]
  omega

/-- bytes of a string as a source -/
theorem ptrRange_sees {f : Id → Option Vw} {i j : Id} {lo : Nat} {w : Vw} (hj : f j = some w) {u : UInt8} (hlo : j = i → w.siz ≤ lo) :
    ∀ {ys pre post : List UInt8}, Holds w (pre ++ ys ++ post) u →
    SeesAll f i lo (ptrRange ⟨some w.base, pre.length⟩ ys.length) ys := by
  intro ys
  induction ys with
  | nil => intro pre post _; exact .nil
  | cons y ys ih =>
    intro pre post hh
    rw [List.length_cons, ptrRange_cons]
    refine .cons (.ptr hj ?_ ?_) ?_
    · obtain ⟨_, rest, hr⟩ := hh
      rw [hr]; simp
    · intro h
      have h1 := hlo h
      rw [hh.1] at h1
      simp at h1; omega
    · have := ih (pre := pre ++ [y]) (post := post) (by simpa using hh)
      simpa [Ptr.add] using this

/-- the whole of a string, through `std::string_view` -/
theorem view_sees {f : Id → Option Vw} {i j : Id} {lo : Nat} {w : Vw} (hj : f j = some w) {u : UInt8} (hlo : j = i → w.siz ≤ lo)
    {ys : List UInt8} (hh : Holds w ys u) :
    SeesAll f i lo (ptrRange ⟨if ys = [] then none else some w.base, 0⟩ ys.length) ys := by
  by_cases h0 : ys = []
  · subst h0; exact .nil
  · rw [if_neg h0]
    exact ptrRange_sees hj hlo (ys := ys) (pre := []) (post := []) (by simpa using hh)

section copies
variable {s : St} (hw : WF s) {j : Id} {w : Vw} (hj : abs s j = some w) {ys : List UInt8} {u : UInt8} (hy : Holds w ys u)
include hw hj hy

theorem len_room : ys.length + 23 < szMod := by
  have := len_lt hw hj hy
  unfold ptrdiffMax at this; unfold szMod; omega

omit hw hj hy in
theorem ptrRange_no_thr (p : Ptr) (n : Nat) (b : UInt8) : .thr b ∉ ptrRange p n := by
  simp [ptrRange]

theorem ctorCopy_run {i : Id} (hd : abs s i = none) (hi : ∀ k, i = .tmp k → k < s.ntmp) : MakesP (· = fit ys.length) (ctorCopy i j) s i [] ys := by
  have h1 : ctorCopy i j s = ctorRange i (ptrRange ⟨if ys = [] then none else some w.base, 0⟩ ys.length) s := by
    unfold ctorCopy
    mstep (view_ok hw hj hy)
    rfl
  rcases ctorRange_run hw hd hi (view_sees hj (i := i) (lo := 0) (by rintro rfl; rw [hd] at hj; cases hj) hy) (len_room hw hj hy) with
    ⟨s', v, hr, h⟩ | ⟨s', e, hr, st, hw'⟩
  · exact .inl ⟨s', v, h1.trans hr, h⟩
  · refine .inr ⟨s', e, h1.trans hr, st, ?_⟩
    cases hw' with
    | length h => exact .length h
    | mem h k => exact .mem h k
    | user h k => exact absurd h (ptrRange_no_thr _ _ _)

theorem assignCopy_runs {i : Id} {v : Vw} (hv : abs s i = some v) {xs : List UInt8} {t : UInt8} (hh : Holds v xs t) (hij : i ≠ j) :
    Runs (assignCopy i j) s i v xs [] ys (xs.length + ys.length ≤ v.cap) (fun _ => ()) := by
  have h1 : assignCopy i j s = assignRange i (ptrRange ⟨if ys = [] then none else some w.base, 0⟩ ys.length) s := by
    unfold assignCopy
    rw [if_pos hij]
    mstep (view_ok hw hj hy)
    rfl
  have hl1 := len_lt hw hj hy
  have hl2 := len_lt hw hv hh
  have hr := assignRange_run hw hv hh (view_sees hj (i := i) (lo := xs.length) (fun h => absurd h.symm hij) hy) (fun _ => Nat.le_refl _)
    (by unfold ptrdiffMax at hl1 hl2; unfold szMod; omega) (len_room hw hj hy)
  rcases hr with ⟨s', v', hr, h⟩ | ⟨s', e, v', hr, st, hk, hw', hu⟩
  · exact .inl ⟨s', v', h1.trans hr, h⟩
  · refine .inr ⟨s', e, v', h1.trans hr, st, hk, ?_, hu⟩
    cases hw' with
    | length h => exact .length h
    | mem h k => exact .mem h k
    | user h k => exact absurd h (ptrRange_no_thr _ _ _)

theorem assignCopy_run {i : Id} {v : Vw} (hv : abs s i = some v) {xs : List UInt8} {t : UInt8} (hh : Holds v xs t) (hij : i ≠ j) :
    RunsS (assignCopy i j) s i v [] ys (xs.length + ys.length ≤ v.cap) (fun _ => ()) :=
  (assignCopy_runs hw hj hy hv hh hij).strong hv

theorem substr_run {i : Id} (hd : abs s i = none) (hi : ∀ k, i = .tmp k → k < s.ntmp) {pre zs : List UInt8} (he : ys = pre ++ zs) :
    MakesP (· = fit zs.length) (substr i j pre.length) s i [] zs := by
  have hroom := len_room hw hj hy
  have hlen : ys.length = pre.length + zs.length := by rw [he]; simp
  have h1 : substr i j pre.length s = ctorRange i (ptrRange ⟨some w.base, pre.length⟩ zs.length) s := by
    unfold substr
    mstep (data_ok hw hj)
    mstep (size_ok hw hj)
    simp only [Ptr.add, Nat.zero_add]
    mstep (distance_ok (by rw [hy.1, hlen]; omega))
    rw [hy.1, hlen, Nat.add_sub_cancel_left]
  have hs : SeesAll (abs s) i 0 (ptrRange ⟨some w.base, pre.length⟩ zs.length) zs :=
    ptrRange_sees hj (by rintro rfl; rw [hd] at hj; cases hj) (post := []) (u := u) (by rw [List.append_nil, ← he]; exact hy)
  rcases ctorRange_run hw hd hi hs (by omega) with ⟨s', v, hr, h⟩ | ⟨s', e, hr, st, hw'⟩
  · exact .inl ⟨s', v, h1.trans hr, h⟩
  · refine .inr ⟨s', e, h1.trans hr, st, ?_⟩
    cases hw' with
    | length h => exact .length h
    | mem h k => exact .mem h k
    | user h k => exact absurd h (ptrRange_no_thr _ _ _)

theorem substrN_run {i : Id} (hd : abs s i = none) (hi : ∀ k, i = .tmp k → k < s.ntmp) {pre zs post : List UInt8} (he : ys = pre ++ zs ++ post) :
    MakesP (· = fit zs.length) (substrN i j pre.length zs.length) s i [] zs := by
  have hroom := len_room hw hj hy
  have hlen : ys.length = pre.length + zs.length + post.length := by rw [he]; simp; omega
  have h1 : substrN i j pre.length zs.length s = ctorRange i (ptrRange ⟨some w.base, pre.length⟩ zs.length) s := by
    unfold substrN
    mstep (data_ok hw hj)
    simp only [Ptr.add, Nat.zero_add]
  have hs : SeesAll (abs s) i 0 (ptrRange ⟨some w.base, pre.length⟩ zs.length) zs :=
    ptrRange_sees hj (by rintro rfl; rw [hd] at hj; cases hj) (post := post) (u := u) (by rw [← he]; exact hy)
  rcases ctorRange_run hw hd hi hs (by omega) with ⟨s', v, hr, h⟩ | ⟨s', e, hr, st, hw'⟩
  · exact .inl ⟨s', v, h1.trans hr, h⟩
  · refine .inr ⟨s', e, h1.trans hr, st, ?_⟩
    cases hw' with
    | length h => exact .length h
    | mem h k => exact .mem h k
    | user h k => exact absurd h (ptrRange_no_thr _ _ _)

end copies

theorem takeWhile_length_le (lit : List UInt8) : lit.take (strlen lit) = lit.takeWhile (· ≠ 0) := by
  unfold strlen
  induction lit with
  | nil => rfl
  | cons a l ih =>
    simp only [List.takeWhile_cons]
    split
    · simpa using ih
    · rfl

theorem vals_sees {f : Id → Option Vw} {i : Id} {lo : Nat} (bs : List UInt8) : SeesAll f i lo (bs.map .val) bs := by
  induction bs with
  | nil => exact .nil
  | cons b bs ih => exact .cons (.val b) ih

theorem literal_run {s : St} (hw : WF s) {i : Id} (hd : abs s i = none) (hi : ∀ k, i = .tmp k → k < s.ntmp) {lit : List UInt8}
    (hn : lit.length + 23 < szMod) (n : Nat) :
    (∃ s' v, literal i lit n s = .ok () s' ∧ Step s s' (upd (abs s) i (some v)) ∧ Holds v (lit.takeWhile (· ≠ 0)) 0 ∧
      v.cap = fit (lit.takeWhile (· ≠ 0)).length) ∨
    (literal i lit n s = .term ∧ ∃ s' e, Why s s' [] (lit.takeWhile (· ≠ 0)).length e) := by
  have hle : (lit.takeWhile (· ≠ 0)).length ≤ lit.length := by
    have := takeWhile_length_le lit
    rw [← this]; simp; omega
  rcases ctorRange_run hw hd hi (vals_sees (f := abs s) (i := i) (lo := 0) (lit.takeWhile (· ≠ 0))) (by omega) with
    ⟨s', v, hr, h⟩ | ⟨s', e, hr, st, hw'⟩
  · left
    refine ⟨s', v, ?_, h.1, h.2.1, h.2.2⟩
    unfold literal
    rw [takeWhile_length_le]
    exact M.noexcept_ok hr
  · right
    refine ⟨?_, s', e, ?_⟩
    · unfold literal
      rw [takeWhile_length_le]
      exact M.noexcept_exc hr
    · cases hw' with
      | length h => exact .length h
      | mem h k => exact .mem h k
      | user h k => simp at h

end Ptl.Str

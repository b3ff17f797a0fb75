import Verif.Str.Access
import Verif.Str.Props.Values

/-! # C25, C26, C61: comparison, growth of `push_back`, element access -/

namespace Ptl.Str

variable {s s' : St} {V : Vars}

/-! ## C25 -/

/-- a `std::string_view` of the client: bytes outside all strings, or `n` bytes from offset `off` of variable `j` -/
inductive CView where
  | ext (bs : List UInt8)
  | sub (j off n : Nat)

/-- the view the client forms -/
def CView.form : CView → SM View
  | .ext bs => pure (.ext bs)
  | .sub j off n => do
    let d ← data (.var j)
    pure (.mem (d.add off) n)

/-- the view denotes the bytes `bs` -/
inductive CView.Is (V : Vars) : CView → List UInt8 → Prop
  | ext (bs : List UInt8) : CView.Is V (.ext bs) bs
  | sub (j : Nat) (pre bs post : List UInt8) : V j = some (pre ++ bs ++ post) →
      CView.Is V (.sub j pre.length bs.length) bs

theorem CView.form_ok (hinv : Inv s) {a : CView} {xs : List UInt8} (h : a.Is (vars s) xs) :
    ∃ v, a.form s = .ok v s ∧ View.Sees s v xs := by
  cases h with
  | ext => exact ⟨_, rfl, View.Sees.ext s xs⟩
  | sub j pre _ post hj =>
    obtain ⟨v, t, hv, hh⟩ := vars_some hinv hj
    refine ⟨_, ?_, View.Sees.sub hinv.wf hv hh⟩
    unfold CView.form
    mstep (data_ok hinv.wf hv)
    simp [Ptr.add]

/-- C25: all six operators between strings decide lexicographic order of the contents as unsigned bytes (`Cmp.Means`),
in any combination of representations, also for a string and itself; they change nothing. -/
theorem C25_string_string (h : Reach s V) (c : Cmp) {i j : Nat} {xs ys : List UInt8} (hi : V i = some xs) (hj : V j = some ys) :
    ∃ b, cmpStrStr c (.var i) (.var j) s = .ok b s ∧ (b = true ↔ c.Means xs ys) := by
  obtain ⟨hinv, rfl⟩ := h.inv
  obtain ⟨v, t, hv, hx⟩ := vars_some hinv hi
  obtain ⟨w, u, hw, hy⟩ := vars_some hinv hj
  exact ⟨_, cmpStrStr_ok c hinv.wf hv hw hx hy, c.result_iff xs ys⟩

/-- C25: `string` on the left, `string_view` on the right -/
theorem C25_string_view (h : Reach s V) (c : Cmp) {i : Nat} {b : CView} {xs ys : List UInt8} (hi : V i = some xs) (hb : b.Is V ys) :
    ∃ r, (b.form >>= cmpStrView c (.var i)) s = .ok r s ∧ (r = true ↔ c.Means xs ys) := by
  obtain ⟨hinv, rfl⟩ := h.inv
  obtain ⟨v, t, hv, hx⟩ := vars_some hinv hi
  obtain ⟨w, hr, hw⟩ := CView.form_ok hinv hb
  exact ⟨_, Eq.trans (M.bind_ok hr) (cmpStrView_ok c hinv.wf hv hx hw), c.result_iff xs ys⟩

/-- C25: `string_view` on the left, `string` on the right -/
theorem C25_view_string (h : Reach s V) (c : Cmp) {i : Nat} {a : CView} {xs ys : List UInt8} (ha : a.Is V xs) (hi : V i = some ys) :
    ∃ r, (a.form >>= fun a => cmpViewStr c a (.var i)) s = .ok r s ∧ (r = true ↔ c.Means xs ys) := by
  obtain ⟨hinv, rfl⟩ := h.inv
  obtain ⟨v, t, hv, hx⟩ := vars_some hinv hi
  obtain ⟨w, hr, hw⟩ := CView.form_ok hinv ha
  exact ⟨_, Eq.trans (M.bind_ok hr) (cmpViewStr_ok c hinv.wf hv hx hw), c.result_iff xs ys⟩

/-- C25: `<` on strings is a strict total order consistent with `==` -/
theorem C25_total_order (h : Reach s V) {i j k : Nat} {xs ys zs : List UInt8} (hi : V i = some xs) (hj : V j = some ys)
    (hk : V k = some zs) :
    cmpStrStr .lt (.var i) (.var i) s = .ok false s ∧
    (cmpStrStr .lt (.var i) (.var j) s = .ok true s → cmpStrStr .lt (.var j) (.var k) s = .ok true s →
      cmpStrStr .lt (.var i) (.var k) s = .ok true s) ∧
    (cmpStrStr .lt (.var i) (.var j) s = .ok true s ∨ cmpStrStr .eq (.var i) (.var j) s = .ok true s ∨
      cmpStrStr .lt (.var j) (.var i) s = .ok true s) ∧
    (cmpStrStr .lt (.var i) (.var j) s = .ok true s →
      cmpStrStr .eq (.var i) (.var j) s = .ok false s ∧ cmpStrStr .lt (.var j) (.var i) s = .ok false s) := by
  have get : ∀ {c : Cmp} {a b : Nat} {x y : List UInt8}, V a = some x → V b = some y →
      (cmpStrStr c (.var a) (.var b) s = .ok true s ↔ c.Means x y) ∧ (cmpStrStr c (.var a) (.var b) s = .ok false s ↔ ¬ c.Means x y) := by
    intro c a b x y ha hb
    obtain ⟨r, hr, hiff⟩ := C25_string_string h c ha hb
    rw [hr, ← hiff]
    cases r <;> simp
  obtain ⟨irr, trans, tri⟩ := Cmp.total
  refine ⟨(get hi hi).2.2 (irr xs), fun a b => (get hi hk).1.2 (trans xs ys zs ((get hi hj).1.1 a) ((get hj hk).1.1 b)), ?_, ?_⟩
  · rcases tri xs ys with h | h | h
    · exact .inl ((get hi hj).1.2 h)
    · exact .inr (.inl ((get hi hj).1.2 h))
    · exact .inr (.inr ((get hj hi).1.2 h))
  · intro a
    have a := (get hi hj).1.1 a
    refine ⟨(get hi hj).2.2 ?_, (get hj hi).2.2 ?_⟩
    · intro e
      have e : xs = ys := e
      subst e; exact irr _ a
    · intro b; exact irr _ (trans _ _ _ a b)

/-- C25: the hash is the hash of the contents, whatever function of the characters `std::hash<std::string_view>` is; so
strings that compare equal have equal hashes, irrespective of representation. -/
theorem C25_hash (h : Reach s V) (f : List UInt8 → Nat) {i : Nat} {xs : List UInt8} (hi : V i = some xs) :
    hash f (.var i) s = .ok (f xs) s ∧
    ∀ j, cmpStrStr .eq (.var i) (.var j) s = .ok true s → V j ≠ none → hash f (.var j) s = .ok (f xs) s := by
  have key : ∀ {i xs}, V i = some xs → hash f (.var i) s = .ok (f xs) s := by
    intro i xs hi
    obtain ⟨hinv, rfl⟩ := h.inv
    obtain ⟨v, t, hv, hx⟩ := vars_some hinv hi
    exact hash_ok f hinv.wf hv hx
  refine ⟨key hi, fun j hj hne => ?_⟩
  cases hV : V j with
  | none => exact absurd hV hne
  | some ys =>
    obtain ⟨b, hr, hb⟩ := C25_string_string h .eq hi hV
    rw [hr] at hj
    cases hj
    have : xs = ys := hb.1 rfl
    subst this
    exact key hV

-- "abc" against the long string and against a view of itself, in the demo state
example : ∃ s, cmpStrStr .gt (.var 0) (.var 1) s = .ok true s ∧
    (CView.form (.sub 0 0 2) >>= cmpStrView .gt (.var 0)) s = .ok true s := by
  obtain ⟨s, h, _⟩ := demo
  obtain ⟨b, h1, h2⟩ := C25_string_string h.reach .gt (i := 0) (j := 1) (xs := abc) (ys := thirty) rfl rfl
  obtain ⟨b', h1', h2'⟩ := C25_string_view h.reach .gt (i := 0) (b := .sub 0 0 2) (xs := abc) (ys := [97, 98]) rfl
    (.sub 0 [] [97, 98] [99] rfl)
  rw [← Cmp.result_iff, show Cmp.gt.result abc thirty = true from by decide] at h2
  rw [← Cmp.result_iff, show Cmp.gt.result abc [97, 98] = true from by decide] at h2'
  exact ⟨s, by rw [h1, h2.2 rfl], by rw [h1', h2'.2 rfl]⟩

/-! ## C26 -/

/-- C26, what holds: exactly how many bytes `n` calls of `push_back` on an empty string copy during reallocation: none
for up to 22 bytes, and 12K² - 11K - 3 beyond that, where 24K is the final capacity.  Missing: a linear bound, which is
false, see `C26_refuted`. -/
theorem C26_copied_partial (h : Reach s V) {i : Nat} (hi : V i = some []) (hc : capacity (.var i) s = .ok 22 s)
    (ho : ∀ k, s.orc k = false) (ch : UInt8) (n : Nat) (hn : n + 23 ≤ maxSize) :
    ∃ s' c, pushes i ch n s = .ok () s' ∧ capacity (.var i) s' = .ok c s' ∧ readBack i s' = .ok (List.replicate n ch) s' ∧
      (n ≤ 22 → c = 22 ∧ s'.moves = s.moves) ∧
      (22 < n → ∃ K, c = 24 * K ∧ 2 ≤ K ∧ n ≤ c ∧ c < n + 26 ∧ s'.moves + 11 * K + 3 = s.moves + 12 * (K * K)) := by
  obtain ⟨s', v', hr, st, ⟨t, hh⟩, hcap, hm⟩ := pushes_run h hi hc ho ch n hn
  have hinv' : Inv s' := h.inv.1.one st (by rintro _ ⟨⟩; exact ⟨_, _, hh⟩)
  have hsh := hinv'.shows st.at hh
  refine ⟨s', v'.cap, hr, hsh.capacity, hsh.bytes, ?_, ?_⟩
  · intro h22
    exact ⟨by rw [hcap, capAt, if_pos h22], by rw [hm, copied, if_pos h22]; omega⟩
  · intro h22
    refine ⟨max 2 ((n + 23) / 24), ?_, by omega, ?_, ?_, ?_⟩
    · rw [hcap, capAt, if_neg (by omega)]; unfold capFor; omega
    · rw [hcap, capAt, if_neg (by omega)]; unfold capFor; omega
    · rw [hcap, capAt, if_neg (by omega)]; unfold capFor; omega
    · rw [hm, copied, if_neg (by omega)]
      generalize hK : max 2 ((n + 23) / 24) = K
      have h3 : 2 * K ≤ K * K := Nat.mul_le_mul_right K (by omega)
      omega

/-- C26, what holds: a `push_back` within the capacity copies nothing and leaves the buffer where it is; in particular
none of `n` calls after `reserve` of enough room copies anything. -/
theorem C26_within_capacity (h : Reach s V) {i : Nat} {d : Ptr} {c : Nat} {xs : List UInt8} {t : UInt8} (hi : Shows s i d c xs t)
    (hlt : xs.length < c) (ch : UInt8) :
    ∃ s', (Op.pushBack i ch).run s = .ok (some xs.length) s' ∧ Shows s' i d c (xs ++ [ch]) 0 ∧ s'.moves = s.moves := by
  obtain ⟨hinv, rfl⟩ := h.inv
  obtain ⟨v, hv, rfl, rfl, hh⟩ := hinv.of_shows hi
  rcases pushBack_run hinv.wf hv hh ch with ⟨s2, v2, hr2, st2, hh2, hc2, hb2, hm2⟩ | ⟨s2, e, hr2, st2, hy, _⟩
  · rw [if_neg (by omega)] at hc2 hm2
    have hinv' : Inv s2 := hinv.one st2 (by rintro _ ⟨⟩; exact ⟨_, _, hh2⟩)
    have k := hinv'.shows st2.at hh2
    rw [hb2 (by omega), hc2] at k
    refine ⟨s2, ?_, k, by omega⟩
    show (do let it ← Str.pushBack (.var i) ch; offset i it) s = _
    mstep hr2
    unfold offset
    mstep (data_ok st2.wf st2.at)
    mstep (distance_ok (by omega))
    simp
  · omega

/-- C26 is violated: for every constant `C` (up to 10^17) there is a number of `push_back` calls on an empty string,
all of which return normally, that copy more than `C` bytes per call. -/
theorem C26_refuted (C : Nat) (hC : C ≤ 10 ^ 17) :
    ∃ (n : Nat) (s s' : St) (V : Vars), Reach s V ∧ V 0 = some [] ∧ pushes 0 120 n s = .ok () s' ∧ s.moves + C * n < s'.moves := by
  have hr : (Op.ctorDefault 0).run (start fun _ => false) = .ok none (after (.ctorDefault 0) (start fun _ => false)) :=
    run_after (by decide +kernel)
  have h := (Reach.start fun _ => false).ok (.ctorDefault (i := 0) rfl) hr
  have hc : capacity (.var 0) (after (.ctorDefault 0) (start fun _ => false)) = .ok 22 (after (.ctorDefault 0) (start fun _ => false)) := rfl
  obtain ⟨s', c, h1, h2, _, _, h4⟩ := C26_copied_partial h (i := 0) (upd_same _ _ _) hc (fun _ => rfl) 120 (24 * (2 * C + 2)) (by
    unfold maxSize ptrdiffMax; omega)
  obtain ⟨K, rfl, hK, hge, hlt, hm⟩ := h4 (by omega)
  refine ⟨_, _, s', _, h, upd_same _ _ _, h1, ?_⟩
  have e1 : (2 * C + 2) * K ≤ K * K := Nat.mul_le_mul_right K (by omega)
  have e2 : C * (2 * C + 2) ≤ C * K := Nat.mul_le_mul_left C (by omega)
  have e3 : (2 * C + 2) * K = 2 * (C * K) + 2 * K := by rw [Nat.add_mul, Nat.mul_assoc]
  have e4 : C * (24 * (2 * C + 2)) = 24 * (C * (2 * C + 2)) := Nat.mul_left_comm C 24 _
  omega

-- the hypotheses of the theorems above: a default-constructed string
example : ∃ s V, Reach s V ∧ V 0 = some [] ∧ capacity (.var 0) s = .ok 22 s ∧ ∀ k, s.orc k = false := by
  have hr : (Op.ctorDefault 0).run (start fun _ => false) = .ok none (after (.ctorDefault 0) (start fun _ => false)) :=
    run_after (by decide +kernel)
  exact ⟨_, _, (Reach.start fun _ => false).ok (.ctorDefault (i := 0) rfl) hr, upd_same _ _ _, rfl, fun _ => rfl⟩

/-! ## C61 -/

/-- C61: `at(k)` returns a reference to byte `k` if `k < size()`, and throws `out_of_range` otherwise -/
theorem C61_at (h : Reach s V) {i : Nat} {xs : List UInt8} (hi : V i = some xs) (k : Nat) :
    (∀ b, xs[k]? = some b → (at_ (.var i) k >>= readAt) s = .ok b s) ∧
    (xs.length ≤ k → at_ (.var i) k s = .exc .outOfRange s) := by
  obtain ⟨hinv, rfl⟩ := h.inv
  obtain ⟨v, t, hv, hsz, rest, hb⟩ := vars_some hinv hi
  have hs := size_ok hinv.wf hv
  rw [hsz] at hs
  constructor
  · intro b hk
    have hlt : k < xs.length := by
      rcases Nat.lt_or_ge k xs.length with h | h
      · exact h
      · rw [List.getElem?_eq_none h] at hk; cases hk
    refine Eq.trans (M.bind_ok (a := ⟨some v.base, k⟩) (s' := s) ?_) ?_
    · unfold at_
      mstep hs
      rw [if_neg (by omega)]
      exact index_ok hinv.wf hv k
    · refine readAt_mem (hinv.wf.mem hv) ?_
      rw [hb, List.getElem?_append_left (by simpa using hlt)]; simp [hk]
  · intro hk
    unfold at_
    mstep hs
    rw [if_pos hk]
    rfl

/-- C61: `operator[]`, `front()`, `back()`, `data()` and `begin()` refer to the same bytes as `at` -/
theorem C61_index (h : Reach s V) {i : Nat} {xs : List UInt8} (hi : V i = some xs) :
    (∀ k, k < xs.length → ∃ p, at_ (.var i) k s = .ok p s ∧ index (.var i) k s = .ok p s ∧ pos i k s = .ok p s) ∧
    (xs ≠ [] → ∃ p, at_ (.var i) 0 s = .ok p s ∧ front (.var i) s = .ok p s ∧ data (.var i) s = .ok p s) ∧
    (xs ≠ [] → ∃ p, at_ (.var i) (xs.length - 1) s = .ok p s ∧ back (.var i) s = .ok p s) := by
  have hmax : xs.length < 2 ^ 63 := by
    obtain ⟨d, c, t, hsh⟩ := h.shows hi
    rcases C17_representation h hsh with ⟨_, _, h⟩ | ⟨b, _, _, _, h1, h2⟩
    · omega
    · unfold maxSize ptrdiffMax at h2; omega
  obtain ⟨hinv, rfl⟩ := h.inv
  obtain ⟨v, t, hv, hsz, rest, hb⟩ := vars_some hinv hi
  have hs := size_ok hinv.wf hv
  rw [hsz] at hs
  have hat : ∀ k, k < xs.length → at_ (.var i) k s = .ok ⟨some v.base, k⟩ s := by
    intro k hk
    unfold at_
    mstep hs
    rw [if_neg (by omega)]
    exact index_ok hinv.wf hv k
  refine ⟨fun k hk => ⟨_, hat k hk, index_ok hinv.wf hv k, ?_⟩, fun hne => ?_, fun hne => ?_⟩
  · unfold pos
    mstep (data_ok hinv.wf hv)
    simp [Ptr.add]
  · have := List.length_pos_iff.2 hne
    exact ⟨_, hat 0 this, index_ok hinv.wf hv 0, data_ok hinv.wf hv⟩
  · have := List.length_pos_iff.2 hne
    refine ⟨_, hat _ (by omega), ?_⟩
    unfold back
    mstep hs
    rw [szSub_eq (by omega) (by unfold szMod; omega)]
    exact index_ok hinv.wf hv _

/-- C61: the conversion to `std::string_view` denotes exactly the contents -/
theorem C61_string_view (h : Reach s V) {i : Nat} {xs : List UInt8} (hi : V i = some xs) :
    ∃ a, viewOf (.var i) s = .ok a s ∧ a.size = xs.length ∧ a.read a.size s = .ok xs s := by
  obtain ⟨hinv, rfl⟩ := h.inv
  obtain ⟨v, t, hv, hh⟩ := vars_some hinv hi
  obtain ⟨a, hr, ha⟩ := viewOf_ok hinv.wf hv hh
  refine ⟨a, hr, ha.size, ?_⟩
  have := ha.read _ (Nat.le_of_eq ha.size)
  rw [ha.size, List.take_length] at this
  rw [ha.size]; exact this

/-- C61: writing one byte through a reference always succeeds; it changes that byte and nothing else -/
theorem C61_write (h : Reach s V) {i k : Nat} {d : Ptr} {c : Nat} {xs : List UInt8} {t : UInt8} (hi : Shows s i d c xs t)
    (hk : k < xs.length) (ch : UInt8) :
    ∃ s', (Op.write i k ch).run s = .ok none s' ∧ Shows s' i d c (xs.set k ch) t ∧
      ∀ j, j ≠ i → ∀ d c zs z, Shows s j d c zs z → Shows s' j d c zs z := by
  have hVi := h.of_shows hi
  have hspec : Spec (Big s) (.write i k ch) V _ none := .write hVi hk
  obtain ⟨hinv, rfl⟩ := h.inv
  obtain ⟨v, hv, rfl, rfl, hh⟩ := hinv.of_shows hi
  obtain ⟨hsz, rest, hb⟩ := hh
  obtain ⟨s', hr, q⟩ := writeN_ok hinv.wf hv (A := (xs.take k).map some) (X := [some xs[k]]) (bs := [ch])
    (B := (xs.drop (k + 1)).map some ++ some t :: rest) (off := k) (by
      rw [hb]
      have e : xs = xs.take k ++ [xs[k]] ++ xs.drop (k + 1) := by simp
      conv => lhs; rw [e]
      simp only [List.map_append, List.map_cons, List.map_nil, List.append_assoc]) (by simp; omega) rfl
  have hrun : (Op.write i k ch).run s = .ok none s' := by
    show (do let p ← index (.var i) k; noRet (writeAt p ch)) s = _
    mstep (index_ok hinv.wf hv k)
    unfold noRet writeAt
    mstep hr
    rfl
  have hh' : Holds { v with buf := (xs.take k).map some ++ [ch].map some ++ ((xs.drop (k + 1)).map some ++ some t :: rest) }
      (xs.set k ch) t := by
    refine ⟨by simp [hsz], rest, ?_⟩
    rw [List.set_eq_take_append_cons_drop, if_pos hk]
    simp
  have h' := h.ok hspec hrun
  refine ⟨s', hrun, ?_, fun j hj d c zs z hsh => C15_frame h hspec (.inl ⟨_, hrun⟩) (fun e => hj e) hsh⟩
  have := h'.inv.1.shows q.at hh'
  exact this

example : ∃ s, (at_ (.var 0) 2 >>= readAt) s = .ok 99 s ∧ at_ (.var 0) 3 s = .exc .outOfRange s := by
  obtain ⟨s, h, _⟩ := demo
  exact ⟨s, (C61_at h.reach (xs := abc) rfl 2).1 99 rfl, (C61_at h.reach (xs := abc) rfl 3).2 (by decide)⟩

end Ptl.Str

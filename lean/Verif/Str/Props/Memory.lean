import Verif.Str.Props.Buffer

/-!
# C117: how much memory a string holds on to

The capacity of a string is bounded by the greatest number of characters that a string has had so far, or that was reserved.
-/

namespace Ptl.Str

/-! ### what is claimed (no reference to the model) -/

/-- a history (as in `Reach`) in which no string ever had more than `N` characters, nor was asked to reserve room for more -/
inductive ReachUpTo (N : Nat) : St → Vars → Prop
  | start (orc : Nat → Bool) : ReachUpTo N (start orc) (fun _ => none)
  | ok {s s' : St} {V V' : Vars} {op : Op} {r r' : Option Nat} :
      ReachUpTo N s V → Spec (Big s) op V V' r → op.run s = .ok r' s' → (∀ i xs, V' i = some xs → xs.length ≤ N) →
      (∀ i n, op = .reserve i n → n ≤ N) → ReachUpTo N s' V'
  | thrown {s s' : St} {V V' : Vars} {op : Op} {r : Option Nat} {e : Exc} :
      ReachUpTo N s V → Spec (Big s) op V V' r → op.run s = .exc e s' → ReachUpTo N s' V

/-! ### each call keeps the capacities within the bound -/

variable {s s' : St} {V V' : Vars} {op : Op} {r : Option Nat} {N : Nat}

/-- no capacity exceeds what `N` characters call for -/
def Caps (N : Nat) (s : St) : Prop := ∀ i v, abs s (.var i) = some v → v.cap ≤ fit N

/-- if the call returns, no capacity exceeds what `N` characters call for -/
def Bnd (N : Nat) : Out St (Option Nat) → Prop
  | .ok _ s' => Caps N s'
  | _ => True

theorem fit_mono {m n : Nat} (h : m ≤ n) : fit m ≤ fit n := by unfold fit capFor; split <;> split <;> omega
theorem fit_22 (n : Nat) : 22 ≤ fit n := by unfold fit capFor; split <;> omega
/-- what `reserve` and `resize` ask for -/
theorem grown_le {n c d : Nat} (hn : n ≤ N) (hc : c ≤ fit N) (h22 : 22 ≤ c) (hd : d = if n ≤ c then c else capFor n) : d ≤ fit N := by
  rw [hd]
  split
  · exact hc
  · rw [← fit_big (by omega)]; exact fit_mono hn

section
variable (hc : Caps N s)
include hc

theorem Caps.one {i : Nat} {p : Option Vw} (st : Step s s' (upd (abs s) (.var i) p)) (h : ∀ v, p = some v → v.cap ≤ fit N) : Caps N s' := by
  intro j v hj
  by_cases e : j = i
  · subst e; rw [st.at] at hj; exact h v hj
  · rw [st.ne (by rintro ⟨⟩; exact e rfl)] at hj; exact hc j v hj

theorem Caps.two {i j : Nat} {v' w' : Vw} (st : Step s s' (upd (upd (abs s) (.var i) (some v')) (.var j) (some w')))
    (hv : v'.cap ≤ fit N) (hw : w'.cap ≤ fit N) : Caps N s' := by
  intro k v hk
  rw [st.abs] at hk
  simp only [upd] at hk
  split at hk
  · cases hk; exact hw
  · split at hk
    · cases hk; exact hv
    · exact hc k v hk

theorem Bnd.one {m : SM Unit} {i : Nat} {v' : Vw} (hm : m s = .ok () s') (st : Step s s' (upd (abs s) (.var i) (some v')))
    (h : v'.cap ≤ fit N) : Bnd N (noRet m s) := by
  rw [show noRet m s = _ from M.bind_ok hm]
  exact hc.one st (fun v e => by cases e; exact h)

theorem Bnd.two {m : SM Unit} {i j : Nat} {v' w' : Vw} (hm : m s = .ok () s')
    (st : Step s s' (upd (upd (abs s) (.var i) (some v')) (.var j) (some w'))) (hv : v'.cap ≤ fit N) (hw : w'.cap ≤ fit N) :
    Bnd N (noRet m s) := by
  rw [show noRet m s = _ from M.bind_ok hm]
  exact hc.two st hv hw

/-- what follows leaves the strings alone -/
theorem Bnd.then {β : Type} {m : SM β} {k : β → SM (Option Nat)} {i : Nat} {v' : Vw} {b : β} (hm : m s = .ok b s')
    (st : Step s s' (upd (abs s) (.var i) (some v'))) (h : v'.cap ≤ fit N) (hk : k b s' = .ok r s') : Bnd N ((m >>= k) s) := by
  rw [M.bind_ok hm, hk]
  exact hc.one st (fun v e => by cases e; exact h)

theorem Bnd.makes {P : Nat → Prop} {m : SM Unit} {i : Nat} {src : List Arg} {ys : List UInt8} (hr : MakesP P m s (.var i) src ys)
    (hP : ∀ c, P c → c ≤ fit N) : Bnd N (noRet m s) := by
  rcases hr with ⟨s', v', hm, st, _, h⟩ | ⟨s', e, hm, _⟩
  · exact .one hc hm st (hP _ h)
  · rw [show noRet m s = _ from M.bind_exc hm]; trivial

theorem Bnd.runsS {β : Type} {m : SM β} {k : β → SM (Option Nat)} {i : Nat} {v : Vw} {src : List Arg} {ys : List UInt8} {stay : Prop}
    {ret : Vw → β} (hr : RunsS m s (.var i) v src ys stay ret) (hv : abs s (.var i) = some v) (hy : ys.length ≤ N)
    (hk : ∀ s' v', WF s' → abs s' (.var i) = some v' → k (ret v') s' = .ok r s') : Bnd N ((m >>= k) s) := by
  rcases hr with ⟨s', v', hm, st, _, _, h⟩ | ⟨s', e, hm, _⟩
  · refine .then hc hm st (Nat.le_trans h ?_) (hk s' v' st.wf st.at)
    have := hc i v hv
    have := fit_mono hy
    omega
  · rw [M.bind_exc hm]; trivial

theorem Bnd.runs {β : Type} {m : SM β} {k : β → SM (Option Nat)} {i : Nat} {v : Vw} {xs : List UInt8} {src : List Arg} {ys : List UInt8}
    {stay : Prop} {ret : Vw → β} (hr : Runs m s (.var i) v xs src ys stay ret) (hv : abs s (.var i) = some v) (hy : ys.length ≤ N)
    (hk : ∀ s' v', WF s' → abs s' (.var i) = some v' → k (ret v') s' = .ok r s') : Bnd N ((m >>= k) s) := by
  rcases hr with ⟨s', v', hm, st, _, h1, h2⟩ | ⟨s', e, v', hm, _⟩
  · refine .then hc hm st ?_ (hk s' v' st.wf st.at)
    by_cases h : stay
    · rw [(h1 h).2]; exact hc i v hv
    · rw [h2 h]; exact fit_mono hy
  · rw [M.bind_exc hm]; trivial

end

theorem Bnd.of_eq {a b : Out St (Option Nat)} (h : a = b) (hb : Bnd N b) : Bnd N a := h ▸ hb

theorem caps_step (hinv : Inv s) (hc : Caps N s) (hs : Spec (Big s) op (vars s) V' r) (hN : ∀ i xs, V' i = some xs → xs.length ≤ N)
    (hR : ∀ i n, op = .reserve i n → n ≤ N) : Bnd N (op.run s) := by
  have hw := hinv.wf
  have h22 : ∀ {i v}, abs s i = some v → 22 ≤ v.cap := fun hv => by rcases (hw.gd hv).shape with ⟨_, h⟩ | ⟨_, _, h, _⟩ <;> omega
  have moved : ∀ {i j : Nat} {v' w w' : Vw}, abs s (.var j) = some w → v'.cap = w.cap → Moved (.var i) (.var j) v' w w' →
      v'.cap ≤ fit N ∧ w'.cap ≤ fit N := by
    intro i j v' w w' hj h hm
    refine ⟨h ▸ hc j w hj, ?_⟩
    rcases hm with ⟨_, _, _, rfl⟩ | ⟨_, _, _, rfl⟩
    · exact fit_22 N
    · exact hc j _ hj
  have swapped : ∀ {i j : Nat} {v' w : Vw}, abs s (.var j) = some w → Swapped (.var i) v' w → v'.cap ≤ fit N := by
    intro i j v' w hj hm
    rcases hm with ⟨_, _, rfl⟩ | ⟨_, _, h⟩
    · exact hc j _ hj
    · rw [h]; exact fit_22 N
  have new : ∀ {i : Nat} {ys : List UInt8} {V : Vars}, (∀ j xs, upd V i (some ys) j = some xs → xs.length ≤ N) → ys.length ≤ N :=
    fun h => h _ _ (upd_same _ _ _)
  have made : ∀ {i : Nat} {ys : List UInt8} {V : Vars}, (∀ j xs, upd V i (some ys) j = some xs → xs.length ≤ N) →
      ∀ c, c = fit ys.length → c ≤ fit N := fun h c e => e ▸ fit_mono (new h)
  cases hs with
  | ctorDefault hi =>
    obtain ⟨s', hr, q⟩ := ctorDefault_ok hw (vars_none hi) var_tmp
    exact .one hc hr q.step (fit_22 N)
  | ctorInput hi ha =>
    obtain ⟨as, hr, hse, ht⟩ := resolveAll_ok hinv (lo_none hinv hi) ha
    exact .of_eq (M.bind_ok hr) (.makes hc (ctorInput_run hw (vars_none hi) var_tmp hse) fun c h => Nat.le_trans h (fit_mono (new hN)))
  | ctorRange hi ha hn =>
    obtain ⟨as, hr, hse, ht⟩ := resolveAll_ok hinv (lo_none hinv hi) ha
    exact .of_eq (M.bind_ok hr) (.makes hc (ctorRange_run hw (vars_none hi) var_tmp hse hn) (made hN))
  | ctorFill hi hn => exact .makes hc (ctorFill_run hw (vars_none hi) var_tmp _ hn) (by simpa using made hN)
  | ctorCopy hi hj =>
    obtain ⟨w, u, hwj, hh⟩ := vars_some hinv hj
    exact .makes hc (ctorCopy_run hw hwj hh (vars_none hi) var_tmp) (made hN)
  | @ctorMoveBig i j ys _ hi hj hb | @ctorMoveSmall i j ys _ hi hj hb =>
    obtain ⟨w, u, hwj, hh⟩ := vars_some hinv hj
    have hij : i ≠ j := by rintro rfl; rw [hi] at hj; cases hj
    obtain ⟨s', v', w', hr, q, hh', h1, hm⟩ := ctorMove_ok hw (this := .var i) (other := .var j) (by rintro ⟨⟩; exact hij rfl) var_tmp (vars_none hi) hwj hh
    exact .two hc (M.noexcept_ok hr) q.step (moved hwj h1 hm).1 (moved hwj h1 hm).2
  | @concat i l r as bs _ hi hl hr hn =>
    obtain ⟨al, hrl, hsl, htl⟩ := resolveAll_ok hinv (lo_none hinv hi) hl
    obtain ⟨ar, hrr, hsr, htr⟩ := resolveAll_ok hinv (lo_none hinv hi) hr
    exact .of_eq ((M.bind_ok hrl).trans (M.bind_ok hrr)) (.makes hc (concat_run hw (vars_none hi) var_tmp hsl hsr hn) (made hN))
  | @literal i lit _ hi hn =>
    rcases literal_run hw (vars_none hi) var_tmp hn lit.length with ⟨s', v, hr, st, hh, h⟩ | ⟨hr, s', e, hy⟩
    · exact .one hc hr st (made hN _ h)
    · exact .of_eq (M.bind_term hr) trivial
  | substr hi hj =>
    obtain ⟨w, u, hwj, hh⟩ := vars_some hinv hj
    exact .makes hc (substr_run hw hwj hh (vars_none hi) var_tmp rfl) (made hN)
  | substrN hi hj =>
    obtain ⟨w, u, hwj, hh⟩ := vars_some hinv hj
    exact .makes hc (substrN_run hw hwj hh (vars_none hi) var_tmp rfl) (made hN)
  | @substrMoveBig i j _ _ _ hi hj hb | @substrMoveSmall i j _ _ _ hi hj hb =>
    obtain ⟨w, u, hwj, hh⟩ := vars_some hinv hj
    obtain ⟨s', v', w', hr, st, _, _, _, h1, h2⟩ := substrMove_ok hinv (vars_none hi) hwj hh
    have := hc j w hwj
    have := fit_22 N
    exact .two hc hr st (by omega) (by omega)
  | @substrNMoveBig i j _ _ _ _ hi hj hb | @substrNMoveSmall i j _ _ _ _ hi hj hb =>
    obtain ⟨w, u, hwj, hh⟩ := vars_some hinv hj
    obtain ⟨s', v', w', hr, st, _, _, _, h1, h2⟩ := substrNMove_ok hinv (vars_none hi) hwj hh
    have := hc j w hwj
    have := fit_22 N
    exact .two hc hr st (by omega) (by omega)
  | @dtor i xs _ hi =>
    obtain ⟨v, t, hv, hh⟩ := vars_some hinv hi
    obtain ⟨s', hr, q⟩ := dtor_ok hw hv
    exact .of_eq (M.bind_ok hr) (hc.one q.step (by simp))
  | @assignCopy i j xs ys _ hi hj =>
    obtain ⟨v, t, hv, hh⟩ := vars_some hinv hi
    obtain ⟨w, u, hwj, hy⟩ := vars_some hinv hj
    by_cases hij : i = j
    · subst hij
      have : Str.assignCopy (.var i) (.var i) s = .ok () s := by simp [Str.assignCopy]
      exact .of_eq (M.bind_ok this) hc
    · exact .runsS hc (assignCopy_run hw hwj hy hv hh (by rintro ⟨⟩; exact hij rfl)) hv (new hN) (fun _ _ _ _ => rfl)
  | @assignMoveBig i j xs ys _ hi hj hij hb | @assignMoveSmall i j xs ys _ hi hj hij hb =>
    obtain ⟨v, t, hv, hx⟩ := vars_some hinv hi
    obtain ⟨w, u, hwj, hh⟩ := vars_some hinv hj
    obtain ⟨s', v', w', hr, q, hh', h1, hm⟩ := moveAssign_ok hw (this := .var i) (other := .var j) (by rintro ⟨⟩; exact hij rfl) hv hwj hh
    exact .two hc (M.noexcept_ok hr) q.step (moved hwj h1 hm).1 (moved hwj h1 hm).2
  | @assignMoveSelf i xs _ hi =>
    have : Str.assignMove (.var i) (.var i) s = .ok () s := by simp [Str.assignMove, Storage.moveAssign, M.noexcept]
    exact .of_eq (M.bind_ok this) hc
  | assignInput hi ha =>
    obtain ⟨v, t, hv, hh⟩ := vars_some hinv hi
    obtain ⟨as, hr, hse, ht⟩ := resolveAll_ok hinv (lo_of hinv hi) ha
    exact .of_eq (M.bind_ok hr) (.runsS hc (assignInput_run hw hv hse) hv (new hN) (fun _ _ _ _ => rfl))
  | assignRange hi ha hn =>
    obtain ⟨v, t, hv, hh⟩ := vars_some hinv hi
    obtain ⟨as, hr, hse, ht⟩ := resolveAll_ok hinv (lo_of hinv hi) ha
    exact .of_eq (M.bind_ok hr) (.runs hc (assignRange_run hw hv hh hse (fun _ => Nat.le_refl _) (by rw [← pow64]; omega) (by rw [← pow64]; omega)) hv (new hN) (fun _ _ _ _ => rfl))
  | assignIlist hi =>
    obtain ⟨v, t, hv, hh⟩ := vars_some hinv hi
    exact .runsS hc (assignIlist_run hw hv hh _) hv (new hN) (fun _ _ _ _ => rfl)
  | assignFill hi =>
    obtain ⟨v, t, hv, hh⟩ := vars_some hinv hi
    exact .runsS hc (assignFill_run hw hv hh _ _) hv (new hN) (fun _ _ _ _ => rfl)
  | appendInput hi ha hn =>
    obtain ⟨v, t, hv, hh⟩ := vars_some hinv hi
    obtain ⟨as, hr, hse, ht⟩ := resolveAll_ok hinv (lo_of hinv hi) ha
    exact .of_eq (M.bind_ok hr) (.runsS hc (appendInput_run hw hv hh hse hn) hv (new hN) (fun _ _ _ _ => rfl))
  | appendRange hi ha hn =>
    obtain ⟨v, t, hv, hh⟩ := vars_some hinv hi
    obtain ⟨as, hr, hse, ht⟩ := resolveAll_ok hinv (lo_of hinv hi) ha
    exact .of_eq (M.bind_ok hr) (.runs hc (appendRange_run hw hv hh hse (fun _ => Nat.le_refl _) hn) hv (new hN) (fun _ _ _ _ => rfl))
  | appendIlist hi hn =>
    obtain ⟨v, t, hv, hh⟩ := vars_some hinv hi
    exact .runsS hc (appendIlist_run hw hv hh hn) hv (new hN) (fun _ _ _ _ => rfl)
  | appendFill hi hn =>
    obtain ⟨v, t, hv, hh⟩ := vars_some hinv hi
    exact .runsS hc (appendFill_run hw hv hh _ hn) hv (new hN) (fun _ _ _ _ => rfl)
  | insertInput hi ha hn =>
    obtain ⟨v, t, hv, hh⟩ := vars_some hinv hi
    obtain ⟨as, hr, hse, ht⟩ := resolveAll_ok hinv (lo_of hinv hi) ha
    exact .of_eq ((M.bind_ok hr).trans (M.bind_ok (pos_ok hw hv _)))
      (.runsS hc (insertInput_run hw hv hh rfl hse hn) hv (new hN) (fun _ _ hw' h => offset_ok hw' h))
  | insertRange hi ha hn =>
    obtain ⟨v, t, hv, hh⟩ := vars_some hinv hi
    obtain ⟨as, hr, hse, ht⟩ := resolveAll_ok hinv (lo_of hinv hi) ha
    exact .of_eq ((M.bind_ok hr).trans (M.bind_ok (pos_ok hw hv _)))
      (.runs hc (insertRange_run hw hv hh hse (fun _ => Nat.le_refl _) (by rw [← pow64]; simp at hn; omega)) hv (new hN) (fun _ _ hw' h => offset_ok hw' h))
  | insertIlist hi hn =>
    obtain ⟨v, t, hv, hh⟩ := vars_some hinv hi
    exact .of_eq (M.bind_ok (pos_ok hw hv _))
      (.runsS hc (insertIlist_run hw hv hh rfl hn) hv (new hN) (fun _ _ hw' h => offset_ok hw' h))
  | insertFill hi hn =>
    obtain ⟨v, t, hv, hh⟩ := vars_some hinv hi
    exact .of_eq (M.bind_ok (pos_ok hw hv _))
      (.runsS hc (insertFill_run hw hv hh _ rfl hn) hv (new hN) (fun _ _ hw' h => offset_ok hw' h))
  | replaceInput hi ha hn =>
    obtain ⟨v, t, hv, hh⟩ := vars_some hinv hi
    obtain ⟨as, hr, hse, ht⟩ := resolveAll_ok hinv (lo_of hinv hi) ha
    exact .of_eq ((M.bind_ok hr).trans ((M.bind_ok (pos_ok hw hv _)).trans (M.bind_ok (pos_ok hw hv _))))
      (.runsS hc (replaceInput_run hw hv hh rfl hse (Nat.lt_of_lt_of_le hn (Nat.le_add_right _ _))) hv (new hN) (fun _ _ _ _ => rfl))
  | replaceRange hi ha hn =>
    obtain ⟨v, t, hv, hh⟩ := vars_some hinv hi
    obtain ⟨as, hr, hse, ht⟩ := resolveAll_ok hinv (lo_of hinv hi) ha
    exact .of_eq ((M.bind_ok hr).trans ((M.bind_ok (pos_ok hw hv _)).trans (M.bind_ok (pos_ok hw hv _))))
      (.runs hc (replaceRange_run hw hv hh hse (fun _ => Nat.le_refl _) (by rw [← pow64]; simp at hn; omega)) hv (new hN) (fun _ _ _ _ => rfl))
  | replaceIlist hi hn =>
    obtain ⟨v, t, hv, hh⟩ := vars_some hinv hi
    exact .of_eq ((M.bind_ok (pos_ok hw hv _)).trans (M.bind_ok (pos_ok hw hv _)))
      (.runsS hc (replaceIlist_run hw hv hh rfl (by rw [← pow64]; simp at hn ⊢; omega)) hv (new hN) (fun _ _ _ _ => rfl))
  | replaceFill hi hn =>
    obtain ⟨v, t, hv, hh⟩ := vars_some hinv hi
    exact .of_eq ((M.bind_ok (pos_ok hw hv _)).trans (M.bind_ok (pos_ok hw hv _)))
      (.runsS hc (replaceFill_run hw hv hh _ rfl (by rw [← pow64]; simp at hn ⊢; omega)) hv (new hN) (fun _ _ _ _ => rfl))
  | @swap i j xs ys _ hi hj =>
    obtain ⟨v, t, hv, hx⟩ := vars_some hinv hi
    obtain ⟨w, u, hwj, hy⟩ := vars_some hinv hj
    by_cases hij : i = j
    · subst hij
      exact .of_eq (M.bind_ok (swap_self hw (i := .var i))) hc
    · obtain ⟨s', v', w', hr, q, _, _, h1, h2⟩ := swap_ok hw (i := .var i) (j := .var j) (by rintro ⟨⟩; exact hij rfl) hv hwj hx hy
      exact .two hc hr q.step (swapped hwj h1) (swapped hv h2)
  | @pushBack i ch xs _ hi =>
    obtain ⟨v, t, hv, hh⟩ := vars_some hinv hi
    have hl := hh.len (hw.gd hv)
    have hn := new hN
    have := h22 hv
    simp only [List.length_append, List.length_cons, List.length_nil] at hn
    rcases pushBack_run hw hv hh ch with ⟨s', v', hr, st, hh', h, _⟩ | ⟨s', e, hr, st, hy, _⟩
    · refine .then hc hr st ?_ (offset_ok st.wf st.at)
      rw [h]
      split
      · rw [← fit_big (by omega)]; exact fit_mono (by omega)
      · exact hc i v hv
    · exact .of_eq (M.bind_exc hr) trivial
  | popBack hi =>
    obtain ⟨v, t, hv, hh⟩ := vars_some hinv hi
    obtain ⟨s', v', hr, q, _, _, h⟩ := popBack_ok hw hv hh rfl
    exact .one hc hr q.step (h ▸ hc _ v hv)
  | @clear i xs _ hi =>
    obtain ⟨v, t, hv, hh⟩ := vars_some hinv hi
    obtain ⟨s', v', hr, q, _, _, h⟩ := clear_any hw hv hh
    exact .one hc hr q.step (h ▸ hc _ v hv)
  | @reserve i n xs _ hi =>
    obtain ⟨v, t, hv, hh⟩ := vars_some hinv hi
    rcases reserve_run hw hv hh n with ⟨s', v', t', hr, st, _, _, h, _⟩ | ⟨s', e, hr, st, hy, _⟩
    · exact .one hc hr st (grown_le (hR i n rfl) (hc i v hv) (h22 hv) h)
    · exact .of_eq (M.bind_exc hr) trivial
  | @shrinkToFit i xs _ hi =>
    obtain ⟨v, t, hv, hh⟩ := vars_some hinv hi
    obtain ⟨s', v', hr, q, _, h1, h2, _⟩ := shrinkToFit_ok hw hv hh
    refine .one hc hr q.step ?_
    by_cases h : xs.length ≤ 22
    · rw [(h1 h).2]; exact fit_22 N
    · rw [(h2 (by omega)).2]; exact hc i v hv
  | @resizeShrink i xs ys ch _ hi =>
    obtain ⟨v, t, hv, hh⟩ := vars_some hinv hi
    have hl : xs.length ≤ v.cap := by have := hh.len (hw.gd hv); simp at this; omega
    rcases resize_run hw hv hh xs.length ch with ⟨s', v', hr, st, hh', h, _⟩ | ⟨s', e, hr, st, hy, h⟩
    · exact .one hc hr st (grown_le (new hN) (hc i v hv) (h22 hv) h)
    · omega
  | @resizeGrow i xs n ch _ hi =>
    obtain ⟨v, t, hv, hh⟩ := vars_some hinv hi
    rcases resize_run hw hv hh (xs.length + n) ch with ⟨s', v', hr, st, hh', h, _⟩ | ⟨s', e, hr, st, hy, h⟩
    · exact .one hc hr st (grown_le (by simpa using new hN) (hc i v hv) (h22 hv) h)
    · exact .of_eq (M.bind_exc hr) trivial
  | erase hi =>
    obtain ⟨v, t, hv, hh⟩ := vars_some hinv hi
    obtain ⟨s', v', hr, q, hh', hb, h⟩ := erase_ok hw hv hh rfl
    exact .of_eq ((M.bind_ok (pos_ok hw hv _)).trans (M.bind_ok (pos_ok hw hv _)))
      (.then hc hr q.step (h ▸ hc _ v hv) (by rw [← hb]; exact offset_ok q.wf q.at))
  | eraseOne hi =>
    obtain ⟨v, t, hv, hh⟩ := vars_some hinv hi
    obtain ⟨s', v', hr, q, hh', hb, h⟩ := erase_ok hw hv hh rfl
    exact .of_eq (M.bind_ok (pos_ok hw hv _))
      (.then hc (by exact hr) q.step (h ▸ hc _ v hv) (by rw [← hb]; exact offset_ok q.wf q.at))
  | @write i k ch xs _ hi hk =>
    obtain ⟨v, t, hv, hh⟩ := vars_some hinv hi
    have hst := stays_step (op := .write i k ch) hinv (.write hi hk) rfl hv hh (upd_same _ _ _)
      (by have := hh.len (hw.gd hv); simp only [Op.Fits, List.length_set]; omega)
    have ho := step hinv (Spec.write (big := Big s) (ch := ch) hi hk)
    cases e : (Op.write i k ch).run s with
    | ok r' s' =>
      rw [e] at hst ho
      obtain ⟨t', hsh⟩ := hst
      obtain ⟨v', hv', _, h, _⟩ := ho.1.of_shows hsh
      intro j w hj
      by_cases hij : j = i
      · subst hij
        rw [hv'] at hj; cases hj
        rw [← h]; exact hc j v hv
      · exact hc j w (by rw [← ho.2.2.1 j (fun h => hij h)]; exact hj)
    | _ => trivial

theorem ReachUpTo.reach (h : ReachUpTo N s V) : Reach s V := by
  induction h with
  | start orc => exact .start orc
  | ok _ hs hr _ _ ih => exact ih.ok hs hr
  | thrown _ hs hr ih => exact ih.thrown hs hr

/-- C117: while no string has had more than `N` characters, and no more were reserved, no string holds on to memory for more than
`N + 23` characters (or 48, the least memory that is ever allocated); if `N` is 22 or less, every capacity is that of the buffer in the object -/
theorem C117_string (h : ReachUpTo N s V) {i : Nat} {d : Ptr} {c : Nat} {xs : List UInt8} {t : UInt8} (hsh : Shows s i d c xs t) :
    c ≤ max 48 (N + 23) ∧ (N ≤ 22 → c = 22) := by
  have key : Caps N s := by
    clear hsh
    induction h with
    | start orc => intro i v hv; cases hv
    | @ok s s' V V' op r r' h hs hr h1 h2 ih =>
      obtain ⟨hinv, rfl⟩ := h.reach.inv
      have := caps_step hinv ih hs h1 h2
      rw [hr] at this
      exact this
    | @thrown s s' V V' op r e h hs hr ih =>
      obtain ⟨hinv, rfl⟩ := h.reach.inv
      have ho := step hinv hs
      rw [hr] at ho
      obtain ⟨_, _, _, h1, h2, _⟩ := ho
      intro i v hv
      cases ha : abs s (.var i) with
      | none => rw [h2 i ha] at hv; cases hv
      | some w =>
        obtain ⟨xs, t, hh⟩ := hinv.holds i w ha
        obtain ⟨v', t', hv', _, _, hc⟩ := h1 i w xs t ha hh
        rw [hv'] at hv; cases hv
        rw [hc]; exact ih i w ha
  obtain ⟨hinv, rfl⟩ := h.reach.inv
  obtain ⟨v, hv, _, rfl, _⟩ := hinv.of_shows hsh
  have h1 := key i v hv
  have h2 : 22 ≤ v.cap := by rcases (hinv.wf.gd hv).shape with ⟨_, h⟩ | ⟨_, _, h, _⟩ <;> omega
  unfold fit capFor at h1
  split at h1 <;> omega

-- a string of thirty characters that was cleared still has room for thirty, and for 53 at most
example : ∃ (s : St) (V : Vars) (d : Ptr) (c : Nat) (t : UInt8), ReachUpTo 30 s V ∧ Shows s 1 d c [] t ∧ 30 ≤ c ∧ c ≤ 53 := by
  have hl : ∀ {k : Nat} (xs : List UInt8), xs.length ≤ k → ∀ {V : Vars}, (∀ i zs, V i = some zs → zs.length ≤ k) →
      ∀ i zs, upd V 1 (some xs) i = some zs → zs.length ≤ k := by
    intro k xs hx V hV i zs hz
    simp only [upd] at hz
    split at hz
    · cases hz; exact hx
    · exact hV i zs hz
  have e0 : ∀ {k : Nat} i (zs : List UInt8), (fun _ => none : Vars) i = some zs → zs.length ≤ k := by intro k i zs h; cases h
  have sp : Spec (Big (start fun _ => false)) (.ctorRange 1 (thirty.map .val)) (fun _ => none) (upd (fun _ => none) 1 (some thirty)) none :=
    .ctorRange rfl (AreAll.vals _) (by decide)
  have h0 : ReachUpTo 30 (start fun _ => false) fun _ => none := .start _
  obtain ⟨s1, r1, h1, o1⟩ := h0.reach.next sp (fun _ => rfl) (demo_short (hl _ (by decide) e0) (by intro i n h; cases h))
  have u1 := h0.ok sp r1 (hl _ (by decide) e0) (by intro i n h; cases h)
  obtain ⟨d, c, t, sh⟩ := h1.shows (i := 1) (xs := thirty) rfl
  obtain rfl : c = 48 := C90_new h0.reach sp .range r1 sh
  have sp2 : Spec (Big s1) (.clear 1) (upd (fun _ => none) 1 (some thirty)) (upd (upd (fun _ => none) 1 (some thirty)) 1 (some [])) none :=
    .clear (i := 1) (xs := thirty) rfl
  have k1 := C90_partial h1 sp2 rfl sh (upd_same _ _ _) (Nat.zero_le _)
  obtain ⟨s2, r2, h2, _⟩ := h1.next sp2 o1 (demo_short (hl _ (by decide) (hl _ (by decide) e0)) (by intro i n h; cases h))
  have u2 := u1.ok sp2 r2 (hl _ (by decide) (hl _ (by decide) e0)) (by intro i n h; cases h)
  rw [r2] at k1
  obtain ⟨t2, sh2⟩ := k1
  exact ⟨s2, _, d, 48, t2, u2, sh2, by decide, (C117_string u2 sh2).1⟩

end Ptl.Str

import Verif.Str.Props.History

/-! # C19, C21–C24, C27, C28: what individual string calls do -/

namespace Ptl.Str

variable {s s' : St} {V V' : Vars} {op : Op} {r : Option Nat}

/-- The call returns `r`, the client then sees `ys` in variable `i` and no change in any other variable; or the result
does not fit into the internal buffer, and the call throws `length_error` or `bad_alloc` and changes nothing. -/
def Does (s : St) (op : Op) (i : Nat) (ys : List UInt8) (r : Option Nat) : Prop :=
  (∃ s', op.run s = .ok r s' ∧ (∃ d c t, Shows s' i d c ys t) ∧
    ∀ j, j ≠ i → ∀ d c xs t, Shows s j d c xs t → Shows s' j d c xs t) ∨
  (∃ e s', op.run s = .exc e s' ∧ (e = .lengthError ∨ e = .badAlloc) ∧ 22 < ys.length ∧ s'.obj = s.obj ∧ s'.mem = s.mem)

/-- As `Does`; or an iterator passed to the call threw, and all strings have the same contents, address and capacity. -/
def DoesOrThrows (s : St) (op : Op) (i : Nat) (ys : List UInt8) (r : Option Nat) : Prop :=
  Does s op i ys r ∨
  (∃ s', op.run s = .exc .user s' ∧ (∃ b, .thr b ∈ op.sources) ∧
    ∀ j d c xs t, Shows s j d c xs t → ∃ t', Shows s' j d c xs t')

theorem does_or_throws {i : Nat} {ys : List UInt8} (h : Reach s V) (hs : Spec (Big s) op V (upd V i (some ys)) r)
    (ht : ∀ j, op.Targets j → j = i) (hl : ∀ j lit, op ≠ .literal j lit) (hres : ∀ j n, op ≠ .reserve j n) :
    DoesOrThrows s op i ys r := by
  have hc := Reach.call h hs
  have hask : ∀ n, Asks op (upd V i (some ys)) n → n = ys.length := by
    rintro n (⟨j, xs, h1, h2, rfl⟩ | ⟨j, rfl⟩)
    · cases ht j h1
      rw [upd_same] at h2; cases h2; rfl
    · exact absurd rfl (hres j n)
  cases hr : op.run s with
  | ok r' s' =>
    rw [hr] at hc
    obtain ⟨rfl, h'⟩ := hc
    refine .inl (.inl ⟨s', hr, h'.shows (upd_same _ _ _), ?_⟩)
    intro j hj d c xs t hsh
    exact C15_frame h hs (.inl ⟨_, hr⟩) (fun hT => hj (ht j hT)) hsh
  | exc e s' =>
    rcases C15_throws_only_for_a_reason h hs hr with ⟨rfl, n, ha, hn⟩ | ⟨rfl, n, ha, hn, _⟩ | ⟨rfl, hb, _⟩
    · refine .inl (.inr ⟨_, s', hr, .inl rfl, ?_, C18_strong_guarantee_partial h hs hr (fun _ h => by cases h)⟩)
      rw [← hask n ha]; unfold maxSize ptrdiffMax at hn; omega
    · refine .inl (.inr ⟨_, s', hr, .inr rfl, ?_, C18_strong_guarantee_partial h hs hr (fun _ h => by cases h)⟩)
      rw [← hask n ha]; exact hn
    · exact .inr ⟨s', hr, hb, fun j => (C18_iterators h hs hr (i := j)).1⟩
  | ub => rw [hr] at hc; exact hc.elim
  | term =>
    rw [hr] at hc
    obtain ⟨⟨j, lit, rfl⟩, _⟩ := hc
    exact absurd rfl (hl j lit)

theorem does {i : Nat} {ys : List UInt8} (h : Reach s V) (hs : Spec (Big s) op V (upd V i (some ys)) r)
    (ht : ∀ j, op.Targets j → j = i) (hl : ∀ j lit, op ≠ .literal j lit) (hres : ∀ j n, op ≠ .reserve j n)
    (hsrc : ∀ b, .thr b ∉ op.sources) : Does s op i ys r := by
  rcases does_or_throws h hs ht hl hres with h | ⟨_, _, ⟨b, hb⟩, _⟩
  · exact h
  · exact absurd hb (hsrc b)

theorem slice_no_thr (j off n : Nat) (b : UInt8) : .thr b ∉ slice j off n := by
  simp [slice]

/-! ## C19: views into the string itself -/

/-- C19: `append` with a view into the string itself -/
theorem C19_append (h : Reach s V) {i : Nat} {a bs b : List UInt8} (hi : V i = some (a ++ bs ++ b))
    (hn : (a ++ bs ++ b).length + bs.length + 23 < 2 ^ 64) :
    Does s (.appendRange i (slice i a.length bs.length)) i ((a ++ bs ++ b) ++ bs) none :=
  does h (.appendRange hi (AreAll.slice hi) hn) (fun _ h => h) (by intro _ _ h; cases h) (by intro _ _ h; cases h)
    (slice_no_thr _ _ _)

/-- C19: `assign` with a view into the string itself -/
theorem C19_assign (h : Reach s V) {i : Nat} {a bs b : List UInt8} (hi : V i = some (a ++ bs ++ b))
    (hn : (a ++ bs ++ b).length + bs.length + 23 < 2 ^ 64) :
    Does s (.assignRange i (slice i a.length bs.length)) i bs none :=
  does h (.assignRange hi (AreAll.slice hi) hn) (fun _ h => h) (by intro _ _ h; cases h) (by intro _ _ h; cases h)
    (slice_no_thr _ _ _)

/-- C19: `insert` with a view into the string itself, at any position relative to the view -/
theorem C19_insert (h : Reach s V) {i : Nat} {a bs b pre post : List UInt8} (hi : V i = some (a ++ bs ++ b))
    (hp : pre ++ post = a ++ bs ++ b) (hn : (a ++ bs ++ b).length + bs.length + 23 < 2 ^ 64) :
    Does s (.insertRange i pre.length (slice i a.length bs.length)) i (pre ++ bs ++ post) (some pre.length) :=
  does h (.insertRange (by rw [hp]; exact hi) (AreAll.slice hi) (by rw [hp]; exact hn)) (fun _ h => h)
    (by intro _ _ h; cases h) (by intro _ _ h; cases h) (slice_no_thr _ _ _)

/-- C19: `replace` with a view into the string itself, for any position of the view relative to the replaced part -/
theorem C19_replace (h : Reach s V) {i : Nat} {a bs b pre mid post : List UInt8} (hi : V i = some (a ++ bs ++ b))
    (hp : pre ++ mid ++ post = a ++ bs ++ b) (hn : (a ++ bs ++ b).length + bs.length + 23 < 2 ^ 64) :
    Does s (.replaceRange i pre.length (pre.length + mid.length) (slice i a.length bs.length)) i (pre ++ bs ++ post) none :=
  does h (.replaceRange (by rw [hp]; exact hi) (AreAll.slice hi) (by rw [hp]; exact hn)) (fun _ h => h)
    (by intro _ _ h; cases h) (by intro _ _ h; cases h) (slice_no_thr _ _ _)

/-- C19: the same for views traversed by input iterators (back_inserter path) -/
theorem C19_append_input (h : Reach s V) {i : Nat} {a bs b : List UInt8} (hi : V i = some (a ++ bs ++ b))
    (hn : (a ++ bs ++ b).length + bs.length < 2 ^ 64) :
    Does s (.appendInput i (slice i a.length bs.length)) i ((a ++ bs ++ b) ++ bs) none :=
  does h (.appendInput hi (AreAll.slice hi) hn) (fun _ h => h) (by intro _ _ h; cases h) (by intro _ _ h; cases h)
    (slice_no_thr _ _ _)

-- in the demo state, for the short and for the long string; the first call certainly returns
example : ∃ s, Does s (.replaceRange 0 0 1 (slice 0 1 2)) 0 [98, 99, 98, 99] none ∧
    Does s (.appendRange 1 (slice 1 0 30)) 1 (thirty ++ thirty) none := by
  obtain ⟨s, h, _⟩ := demo
  exact ⟨s, C19_replace h.reach (a := [97]) (bs := [98, 99]) (b := []) (pre := []) (mid := [97]) (post := [98, 99]) rfl rfl (by decide),
    C19_append h.reach (i := 1) (a := []) (bs := thirty) (b := []) rfl (by decide)⟩

/-! ## C21: copy, move, swap -/

/-- C21: copy construction: the new string has the value of the source, the source and all other strings are unchanged -/
theorem C21_copy_constructor (h : Reach s V) {i j : Nat} {ys : List UInt8} (hi : V i = none) (hj : V j = some ys) :
    Does s (.ctorCopy i j) i ys none :=
  does h (.ctorCopy hi hj) (fun _ h => h) (by intro _ _ h; cases h) (by intro _ _ h; cases h) (by intro b h; cases h)

/-- C21: copy assignment -/
theorem C21_copy_assignment (h : Reach s V) {i j : Nat} {xs ys : List UInt8} (hi : V i = some xs) (hj : V j = some ys) :
    Does s (.assignCopy i j) i ys none :=
  does h (.assignCopy hi hj) (fun _ h => h) (by intro _ _ h; cases h) (by intro _ _ h; cases h) (by intro b h; cases h)

/-- C21: different strings never share a buffer, so a later change of one (see `C15_frame`) never affects another -/
theorem C21_independent (h : Reach s V) {i j : Nat} (hij : i ≠ j) {d d' : Ptr} {c c' : Nat} {xs ys : List UInt8}
    {t u : UInt8} (h1 : Shows s i d c xs t) (h2 : Shows s j d' c' ys u) : d.base ≠ d'.base := by
  have hinv := h.inv.1
  obtain ⟨v, hv, rfl, _, _⟩ := hinv.of_shows h1
  obtain ⟨w, hw, rfl, _, _⟩ := hinv.of_shows h2
  intro e
  exact hinv.wf.base_ne hv hw (by rintro ⟨⟩; exact hij rfl) (Option.some.inj e)

/-- what the client sees after the value of variable `j` (which showed `d, c, ys, t`) was moved to variable `i`:
`i` has the value, with the same capacity, and in the same buffer if that is on the heap, and the source is empty; a
value in the internal buffer is copied, and the source keeps it. -/
def MovedTo (s' : St) (i j : Nat) (d : Ptr) (c : Nat) (ys : List UInt8) (t : UInt8) : Prop :=
  (22 < c ∧ Shows s' i d c ys t ∧ Shows s' j ⟨some (.sso (.var j)), 0⟩ 22 [] 0) ∨
  (c = 22 ∧ Shows s' i ⟨some (.sso (.var i)), 0⟩ 22 ys t ∧ Shows s' j d 22 ys t)

theorem movedTo_of {i j : Nat} {v' w w' : Vw} {ys : List UInt8} {t : UInt8} (hinv : Inv s) (hij : i ≠ j)
    (hw : abs s (.var j) = some w) (hy : Holds w ys t) (q : Quiet s s' (upd (upd (abs s) (.var i) (some v')) (.var j) (some w')))
    (hh : Holds v' ys t) (hm : Moved (.var i) (.var j) v' w w') :
    Inv s' ∧ MovedTo s' i j ⟨some w.base, 0⟩ w.cap ys t ∧
      ∀ k, k ≠ i → k ≠ j → ∀ d c xs u, Shows s k d c xs u → Shows s' k d c xs u := by
  have hne : Id.var i ≠ .var j := by rintro ⟨⟩; exact hij rfl
  have h2 : abs s' (.var j) = some w' := by rw [q.abs, upd_same]
  have h1 : abs s' (.var i) = some v' := by rw [q.abs, upd_ne _ _ hne, upd_same]
  have h3 : ∀ k, k ≠ .var i → k ≠ .var j → abs s' k = abs s k := by
    intro k hi hj; rw [q.abs, upd_ne _ _ hj, upd_ne _ _ hi]
  have hh' : ∃ zs u, Holds w' zs u := by
    rcases hm with ⟨b, _, _, rfl⟩ | ⟨_, _, _, rfl⟩
    · exact ⟨_, _, emptySso_holds _⟩
    · exact ⟨_, _, hy⟩
  have hinv' : Inv s' := by
    refine ⟨q.wf, fun k => ?_, fun k v hv => ?_⟩
    · rw [h3 _ (by simp) (by simp)]; exact hinv.tmp k
    · by_cases e1 : k = i
      · subst e1; rw [h1] at hv; cases hv; exact ⟨_, _, hh⟩
      · by_cases e2 : k = j
        · subst e2; rw [h2] at hv; cases hv; exact hh'
        · rw [h3 _ (by simpa using e1) (by simpa using e2)] at hv; exact hinv.holds k v hv
  refine ⟨hinv', ?_, ?_⟩
  · rcases hm with ⟨b, hb, rfl, rfl⟩ | ⟨hb, hb', hc', rfl⟩
    · have hc : 22 < v'.cap := by
        rcases (hinv.wf.gd hw).shape with ⟨h, _⟩ | ⟨_, _, h, _⟩
        · rw [hb] at h; cases h
        · omega
      exact .inl ⟨hc, hinv'.shows h1 hh, hinv'.shows h2 (emptySso_holds _)⟩
    · have hc : w'.cap = 22 := by
        rcases (hinv.wf.gd hw).shape with ⟨_, h⟩ | ⟨_, h, _⟩
        · exact h
        · rw [hb] at h; cases h
      have k1 := hinv'.shows h1 hh
      have k2 := hinv'.shows h2 hy
      rw [hb', hc'] at k1
      rw [hc] at k2
      exact .inr ⟨hc, k1, k2⟩
  · intro k e1 e2 d c xs u hsh
    obtain ⟨x, hx, rfl, rfl, hhx⟩ := hinv.of_shows hsh
    exact hinv'.shows (by rw [h3 _ (by simpa using e1) (by simpa using e2)]; exact hx) hhx

/-- C21: move construction always succeeds and transfers the value -/
theorem C21_move_constructor (h : Reach s V) {i j : Nat} (hi : V i = none) {d : Ptr} {c : Nat} {ys : List UInt8} {t : UInt8}
    (hj : Shows s j d c ys t) :
    ∃ s', (Op.ctorMove i j).run s = .ok none s' ∧ MovedTo s' i j d c ys t ∧
      ∀ k, k ≠ i → k ≠ j → ∀ d c xs u, Shows s k d c xs u → Shows s' k d c xs u := by
  have hVj := h.of_shows hj
  have hij : i ≠ j := by rintro rfl; rw [hi] at hVj; cases hVj
  obtain ⟨hinv, rfl⟩ := h.inv
  obtain ⟨w, hw, rfl, rfl, hh⟩ := hinv.of_shows hj
  obtain ⟨s', v', w', hr, q, hh', _, hm⟩ := ctorMove_ok hinv.wf (this := .var i) (other := .var j)
    (by rintro ⟨⟩; exact hij rfl) var_tmp (vars_none hi) hw hh
  refine ⟨s', ?_, (movedTo_of hinv hij hw hh q hh' hm).2⟩
  show noRet (Str.ctorMove (.var i) (.var j)) s = _
  unfold noRet Str.ctorMove
  mstep (M.noexcept_ok hr)
  rfl

/-- C21: move assignment between different strings always succeeds and transfers the value -/
theorem C21_move_assignment (h : Reach s V) {i j : Nat} (hij : i ≠ j) {xs : List UInt8} (hi : V i = some xs) {d : Ptr} {c : Nat}
    {ys : List UInt8} {t : UInt8} (hj : Shows s j d c ys t) :
    ∃ s', (Op.assignMove i j).run s = .ok none s' ∧ MovedTo s' i j d c ys t ∧
      ∀ k, k ≠ i → k ≠ j → ∀ d c xs u, Shows s k d c xs u → Shows s' k d c xs u := by
  obtain ⟨hinv, rfl⟩ := h.inv
  obtain ⟨v, u, hv, _⟩ := vars_some hinv hi
  obtain ⟨w, hw, rfl, rfl, hh⟩ := hinv.of_shows hj
  obtain ⟨s', v', w', hr, q, hh', _, hm⟩ := moveAssign_ok hinv.wf (this := .var i) (other := .var j)
    (by rintro ⟨⟩; exact hij rfl) hv hw hh
  refine ⟨s', ?_, (movedTo_of hinv hij hw hh q hh' hm).2⟩
  show noRet (Str.assignMove (.var i) (.var j)) s = _
  unfold noRet Str.assignMove
  mstep (M.noexcept_ok hr)
  rfl

/-- where the value of a string that showed address `d` and capacity `c` is after it was swapped into variable `i` -/
def swappedAddress (i : Nat) (d : Ptr) (c : Nat) : Ptr := if 22 < c then d else ⟨some (.sso (.var i)), 0⟩

/-- C21: swap of two different strings always succeeds and exchanges values, capacities and (heap) buffers, in all four
combinations of representations -/
theorem C21_swap (h : Reach s V) {i j : Nat} (hij : i ≠ j) {d d' : Ptr} {c c' : Nat} {xs ys : List UInt8} {t u : UInt8}
    (hi : Shows s i d c xs t) (hj : Shows s j d' c' ys u) :
    ∃ s', (Op.swap i j).run s = .ok none s' ∧ Shows s' i (swappedAddress i d' c') c' ys u ∧
      Shows s' j (swappedAddress j d c) c xs t ∧
      ∀ k, k ≠ i → k ≠ j → ∀ d c zs z, Shows s k d c zs z → Shows s' k d c zs z := by
  obtain ⟨hinv, rfl⟩ := h.inv
  obtain ⟨v, hv, rfl, rfl, hx⟩ := hinv.of_shows hi
  obtain ⟨w, hw, rfl, rfl, hy⟩ := hinv.of_shows hj
  have hne : Id.var i ≠ .var j := by rintro ⟨⟩; exact hij rfl
  obtain ⟨s', v', w', hr, q, hx', hy', hs1, hs2⟩ := swap_ok hinv.wf hne hv hw hx hy
  have h2 : abs s' (.var j) = some w' := by rw [q.abs, upd_same]
  have h1 : abs s' (.var i) = some v' := by rw [q.abs, upd_ne _ _ hne, upd_same]
  have h3 : ∀ k, k ≠ .var i → k ≠ .var j → abs s' k = abs s k := by
    intro k hi hj; rw [q.abs, upd_ne _ _ hj, upd_ne _ _ hi]
  have hinv' : Inv s' := by
    refine ⟨q.wf, fun k => ?_, fun k x hk => ?_⟩
    · rw [h3 _ (by simp) (by simp)]; exact hinv.tmp k
    · by_cases e1 : k = i
      · subst e1; rw [h1] at hk; cases hk; exact ⟨_, _, hx'⟩
      · by_cases e2 : k = j
        · subst e2; rw [h2] at hk; cases hk; exact ⟨_, _, hy'⟩
        · rw [h3 _ (by simpa using e1) (by simpa using e2)] at hk; exact hinv.holds k x hk
  have fin : ∀ (i j : Nat) (v' w : Vw), abs s (.var j) = some w → Swapped (.var i) v' w →
      (⟨some v'.base, 0⟩ : Ptr) = swappedAddress i ⟨some w.base, 0⟩ w.cap ∧ v'.cap = w.cap := by
    intro i j v' w hw hs
    unfold swappedAddress
    rcases (hinv.wf.gd hw).shape with ⟨hb, hc⟩ | ⟨b, hb, hc, _⟩ <;> rcases hs with ⟨b', hb', rfl⟩ | ⟨⟨_, hb'⟩, h4, h5⟩
    · rw [hb] at hb'; cases hb'
    · rw [hc, h4, h5]; exact ⟨rfl, rfl⟩
    · rw [if_pos (by omega)]; exact ⟨rfl, rfl⟩
    · rw [hb] at hb'; cases hb'
  have k1 := hinv'.shows h1 hx'
  have k2 := hinv'.shows h2 hy'
  rw [(fin i j v' w hw hs1).1, (fin i j v' w hw hs1).2] at k1
  rw [(fin j i w' v hv hs2).1, (fin j i w' v hv hs2).2] at k2
  refine ⟨s', ?_, k1, k2, ?_⟩
  · show noRet (Str.swap (.var i) (.var j)) s = _
    unfold noRet
    mstep hr
    rfl
  · intro k e1 e2 d c zs z hsh
    obtain ⟨x, hx, rfl, rfl, hhx⟩ := hinv.of_shows hsh
    exact hinv'.shows (by rw [h3 _ (by simpa using e1) (by simpa using e2)]; exact hx) hhx

/-- C21: self-copy-assignment, self-move-assignment and self-swap change nothing at all -/
theorem C21_self (s : St) (i : Nat) :
    (Op.assignCopy i i).run s = .ok none s ∧ (Op.assignMove i i).run s = .ok none s ∧ (Op.swap i i).run s = .ok none s := by
  refine ⟨?_, ?_, ?_⟩
  · simp [Op.run, noRet, Str.assignCopy, M.bind_run]
  · simp [Op.run, noRet, Str.assignMove, Storage.moveAssign, M.noexcept, M.bind_run]
  · show noRet (Str.swap (.var i) (.var i)) s = _
    unfold noRet
    refine Eq.trans (M.bind_ok (a := ()) (s' := s) (by simp [Str.swap, M.noexcept])) ?_
    rfl

-- the short and the long string of the demo state, moved and swapped
example : ∃ s V d c d' c' t t', Reach s V ∧ Shows s 0 d c abc t ∧ Shows s 1 d' c' thirty t' ∧ V 2 = none := by
  obtain ⟨s, h, _⟩ := demo
  obtain ⟨d, c, t, h0⟩ := h.reach.shows (i := 0) (xs := abc) rfl
  obtain ⟨d', c', t', h1⟩ := h.reach.shows (i := 1) (xs := thirty) rfl
  exact ⟨s, _, d, c, d', c', t, t', h.reach, h0, h1, rfl⟩

/-! ## C22: shrink_to_fit -/

/-- C22: `shrink_to_fit` always succeeds without allocating (no block is allocated, the allocator is not even asked).  A
string of at most 22 bytes is then in its internal buffer, with the same contents, and its heap buffer, if it had one, is
released; a longer string is left exactly as it was.  Other strings are not affected. -/
theorem C22_shrink_to_fit (h : Reach s V) {i : Nat} {d : Ptr} {c : Nat} {xs : List UInt8} {t : UInt8} (hi : Shows s i d c xs t) :
    ∃ s', (Op.shrinkToFit i).run s = .ok none s' ∧ s'.nblk = s.nblk ∧ s'.tick = s.tick ∧
      (xs.length ≤ 22 → Shows s' i ⟨some (.sso (.var i)), 0⟩ 22 xs t ∧ ∀ b, d.base = some (.heap b) → s'.mem (.heap b) = none) ∧
      (22 < xs.length → s' = s) ∧
      ∀ k, k ≠ i → ∀ d c zs z, Shows s k d c zs z → Shows s' k d c zs z := by
  have hVi := h.of_shows hi
  have hspec : Spec (Big s) (.shrinkToFit i) V V none := .shrinkToFit hVi
  obtain ⟨hinv, rfl⟩ := h.inv
  obtain ⟨v, hv, rfl, rfl, hx⟩ := hinv.of_shows hi
  obtain ⟨s', v', hr, q, hx', h1, h2, _⟩ := shrinkToFit_ok hinv.wf hv hx
  have hrun : (Op.shrinkToFit i).run s = .ok none s' := by
    show noRet (Str.shrinkToFit (.var i)) s = _
    unfold noRet
    mstep hr
    rfl
  have h' := h.ok hspec hrun
  have hinv' := h'.inv.1
  have hframe : ∀ k, k ≠ i → ∀ d c zs z, Shows s k d c zs z → Shows s' k d c zs z :=
    fun k hk d c zs z hsh => C15_frame h hspec (.inl ⟨_, hrun⟩) (fun e => hk e) hsh
  refine ⟨s', hrun, q.nblk, q.tick, ?_, fun hl => (h2 hl).1, hframe⟩
  intro hl
  obtain ⟨hb, hc⟩ := h1 hl
  have k := hinv'.shows q.at hx'
  rw [hb, hc] at k
  refine ⟨k, ?_⟩
  intro b hd
  cases hm : s'.mem (.heap b) with
  | none => rfl
  | some l =>
    obtain ⟨j, ⟨c, zs, z, hsh, _⟩, huniq⟩ := C17_every_buffer_is_owned h' hm
    by_cases e : j = i
    · subst e
      have := (k.unique hsh).1
      cases this
    · exfalso
      obtain ⟨d0, c0, t0, hj⟩ := h.shows (h'.of_shows hsh)
      have := (hframe j e _ _ _ _ hj).unique hsh
      exact C21_independent h e hj hi (by rw [this.1, hd])

-- a long string that was shortened: the case in which the heap buffer is released
example : ∃ s V b c t, Reach s V ∧ Shows s 1 ⟨some (.heap b), 0⟩ c [] t := by
  obtain ⟨s, h, ho⟩ := demo
  obtain ⟨s1, _, h1, o1⟩ := h.next (Spec.reserve (i := 1) (n := 40) rfl) ho (demo_short demoV_len (by intro i n h; cases h; decide))
  obtain ⟨d1, c1, t1, k1⟩ := h1.reach.shows (i := 1) (xs := thirty) rfl
  obtain ⟨s2, hr2, h2, o2⟩ := h1.next (Spec.clear (i := 1) rfl) o1
    (demo_short (short_upd demoV_len (by intro xs h; cases h; decide)) (by intro i n h; cases h))
  obtain ⟨v, hv, rfl, _, hh⟩ := h1.reach.inv.1.of_shows k1
  obtain ⟨s', v', hr, q, hh', hb, _⟩ := clear_any h1.reach.inv.1.wf hv hh
  have e : s2 = s' := by
    have : (Op.clear 1).run s1 = .ok none s' := by
      show noRet (Str.clear (.var 1)) s1 = _
      unfold noRet
      mstep hr
      rfl
    rw [hr2] at this; cases this; rfl
  subst e
  have k := h2.reach.inv.1.shows q.at hh'
  rcases C17_representation h1.reach k1 with ⟨_, _, hl⟩ | ⟨b, hbb, _⟩
  · exact absurd hl (by decide)
  · rw [hb] at k
    rw [hbb] at k
    exact ⟨s2, _, b, _, _, h2.reach, k⟩

/-! ## C23: replace -/

/-- C23: `replace` with a range of forward iterators (or a view) -/
theorem C23_replace_range (h : Reach s V) {i : Nat} {pre mid post bs : List UInt8} {l : List Src}
    (hi : V i = some (pre ++ mid ++ post)) (hl : Src.AreAll V l bs)
    (hn : (pre ++ mid ++ post).length + bs.length + 23 < 2 ^ 64) :
    DoesOrThrows s (.replaceRange i pre.length (pre.length + mid.length) l) i (pre ++ bs ++ post) none :=
  does_or_throws h (.replaceRange hi hl hn) (fun _ h => h) (by intro _ _ h; cases h) (by intro _ _ h; cases h)

/-- C23: `replace` with a range of input iterators -/
theorem C23_replace_input (h : Reach s V) {i : Nat} {pre mid post bs : List UInt8} {l : List Src}
    (hi : V i = some (pre ++ mid ++ post)) (hl : Src.AreAll V l bs)
    (hn : (pre ++ mid ++ post).length + bs.length < 2 ^ 64) :
    DoesOrThrows s (.replaceInput i pre.length (pre.length + mid.length) l) i (pre ++ bs ++ post) none :=
  does_or_throws h (.replaceInput hi hl hn) (fun _ h => h) (by intro _ _ h; cases h) (by intro _ _ h; cases h)

/-- C23: `replace` with an initializer list -/
theorem C23_replace_ilist (h : Reach s V) {i : Nat} {pre mid post bs : List UInt8}
    (hi : V i = some (pre ++ mid ++ post)) (hn : (pre ++ post).length + bs.length < 2 ^ 64) :
    Does s (.replaceIlist i pre.length (pre.length + mid.length) bs) i (pre ++ bs ++ post) none :=
  does h (.replaceIlist hi hn) (fun _ h => h) (by intro _ _ h; cases h) (by intro _ _ h; cases h) (by intro b h; cases h)

/-- C23: `replace` with `n` copies of a character -/
theorem C23_replace_fill (h : Reach s V) {i n : Nat} {ch : UInt8} {pre mid post : List UInt8}
    (hi : V i = some (pre ++ mid ++ post)) (hn : (pre ++ post).length + n < 2 ^ 64) :
    Does s (.replaceFill i pre.length (pre.length + mid.length) n ch) i (pre ++ List.replicate n ch ++ post) none :=
  does h (.replaceFill hi hn) (fun _ h => h) (by intro _ _ h; cases h) (by intro _ _ h; cases h) (by intro b h; cases h)

-- shorter, equally long and longer replacements in the demo state
example : ∃ s, Does s (.replaceFill 0 1 3 1 120) 0 [97, 120] none ∧ Does s (.replaceFill 0 1 3 2 120) 0 [97, 120, 120] none ∧
    Does s (.replaceFill 0 1 2 3 120) 0 [97, 120, 120, 120, 99] none := by
  obtain ⟨s, h, _⟩ := demo
  exact ⟨s, C23_replace_fill h.reach (pre := [97]) (mid := [98, 99]) (post := []) rfl (by decide),
    C23_replace_fill h.reach (pre := [97]) (mid := [98, 99]) (post := []) rfl (by decide),
    C23_replace_fill h.reach (pre := [97]) (mid := [98]) (post := [99]) rfl (by decide)⟩

/-! ## C24: substr -/

/-- C24: `substr(offset) const &` -/
theorem C24_substr (h : Reach s V) {i j : Nat} {pre ys : List UInt8} (hi : V i = none) (hj : V j = some (pre ++ ys)) :
    Does s (.substr i j pre.length) i ys none :=
  does h (.substr hi hj) (fun _ h => h) (by intro _ _ h; cases h) (by intro _ _ h; cases h) (by intro b h; cases h)

/-- C24: `substr(offset, count) const &` -/
theorem C24_substr_count (h : Reach s V) {i j : Nat} {pre ys post : List UInt8} (hi : V i = none)
    (hj : V j = some (pre ++ ys ++ post)) : Does s (.substrN i j pre.length ys.length) i ys none :=
  does h (.substrN hi hj) (fun _ h => h) (by intro _ _ h; cases h) (by intro _ _ h; cases h) (by intro b h; cases h)

/-- C24: `substr(offset) &&` always succeeds; the source remains a valid string -/
theorem C24_substr_consuming (h : Reach s V) {i j : Nat} {pre ys : List UInt8} (hi : V i = none)
    (hj : V j = some (pre ++ ys)) :
    ∃ s' zs, (Op.substrMove i j pre.length).run s = .ok none s' ∧ Reach s' (upd (upd V i (some ys)) j (some zs)) ∧
      (∃ d c, Shows s' i d c ys 0) ∧ (∃ d c t, Shows s' j d c zs t) ∧
      ∀ k d c xs t, k ≠ i → k ≠ j → Shows s k d c xs t → Shows s' k d c xs t := by
  have hij : i ≠ j := by rintro rfl; rw [hi] at hj; cases hj
  have hne : Id.var i ≠ .var j := by rintro ⟨⟩; exact hij rfl
  have hV := h.inv.2
  obtain ⟨hinv, rfl⟩ := h.inv
  obtain ⟨w, u, hw, hh⟩ := vars_some hinv hj
  obtain ⟨s', v', w', hr, st, hv', h1, h2, _⟩ := substrMove_ok hinv (vars_none hi) hw hh
  have hrun : (Op.substrMove i j pre.length).run s = .ok none s' := by
    show noRet (Str.substrMove (.var i) (.var j) pre.length) s = _
    unfold noRet
    mstep hr
    rfl
  by_cases hb : Big s j
  · have h' := h.ok (.substrMoveBig hi hj hb) hrun
    exact ⟨s', [], hrun, h', ⟨_, _, h'.inv.1.shows (by rw [st.abs, upd_ne _ _ hne, upd_same]) hv'⟩, h'.shows (upd_same _ _ _),
      fun k d c xs t hki hkj => C15_frame h (.substrMoveBig hi hj hb) (.inl ⟨_, hrun⟩) (fun ht => ht.elim hki hkj)⟩
  · have h' := h.ok (.substrMoveSmall hi hj hb) hrun
    exact ⟨s', ys, hrun, h', ⟨_, _, h'.inv.1.shows (by rw [st.abs, upd_ne _ _ hne, upd_same]) hv'⟩, h'.shows (upd_same _ _ _),
      fun k d c xs t hki hkj => C15_frame h (.substrMoveSmall hi hj hb) (.inl ⟨_, hrun⟩) (fun ht => ht.elim hki hkj)⟩

/-- C24: `substr(offset, count) &&` always succeeds; the source remains a valid string -/
theorem C24_substr_count_consuming (h : Reach s V) {i j : Nat} {pre ys post : List UInt8} (hi : V i = none)
    (hj : V j = some (pre ++ ys ++ post)) :
    ∃ s' zs, (Op.substrNMove i j pre.length ys.length).run s = .ok none s' ∧
      Reach s' (upd (upd V i (some ys)) j (some zs)) ∧ (∃ d c, Shows s' i d c ys 0) ∧ (∃ d c t, Shows s' j d c zs t) ∧
      ∀ k d c xs t, k ≠ i → k ≠ j → Shows s k d c xs t → Shows s' k d c xs t := by
  have hij : i ≠ j := by rintro rfl; rw [hi] at hj; cases hj
  have hne : Id.var i ≠ .var j := by rintro ⟨⟩; exact hij rfl
  obtain ⟨hinv, rfl⟩ := h.inv
  obtain ⟨w, u, hw, hh⟩ := vars_some hinv hj
  obtain ⟨s', v', w', hr, st, hv', h1, h2, _⟩ := substrNMove_ok hinv (vars_none hi) hw hh
  have hrun : (Op.substrNMove i j pre.length ys.length).run s = .ok none s' := by
    show noRet (Str.substrNMove (.var i) (.var j) pre.length ys.length) s = _
    unfold noRet
    mstep hr
    rfl
  by_cases hb : Big s j
  · have h' := h.ok (.substrNMoveBig hi hj hb) hrun
    exact ⟨s', [], hrun, h', ⟨_, _, h'.inv.1.shows (by rw [st.abs, upd_ne _ _ hne, upd_same]) hv'⟩, h'.shows (upd_same _ _ _),
      fun k d c xs t hki hkj => C15_frame h (.substrNMoveBig hi hj hb) (.inl ⟨_, hrun⟩) (fun ht => ht.elim hki hkj)⟩
  · have h' := h.ok (.substrNMoveSmall hi hj hb) hrun
    exact ⟨s', ys, hrun, h', ⟨_, _, h'.inv.1.shows (by rw [st.abs, upd_ne _ _ hne, upd_same]) hv'⟩, h'.shows (upd_same _ _ _),
      fun k d c xs t hki hkj => C15_frame h (.substrNMoveSmall hi hj hb) (.inl ⟨_, hrun⟩) (fun ht => ht.elim hki hkj)⟩

-- the middle of "abc" and the tail of the long string
example : ∃ s, Does s (.substrN 2 0 1 1) 2 [98] none ∧ Does s (.substr 2 1 28) 2 [29, 30] none := by
  obtain ⟨s, h, _⟩ := demo
  exact ⟨s, C24_substr_count h.reach (j := 0) (pre := [97]) (ys := [98]) (post := [99]) rfl rfl,
    C24_substr h.reach (j := 1) (pre := thirty.take 28) (ys := [29, 30]) rfl rfl⟩

/-! ## C27: literals -/

/-- C27 for literals without embedded null characters: `"..."_s` is exactly the characters of the literal.  (It
terminates the program if the memory cannot be had: the operator is `noexcept`.)  Missing: literals with embedded null
characters, for which it is false, see `C27_refuted`. -/
theorem C27_literal_partial (h : Reach s V) {i : Nat} {lit : List UInt8} (hi : V i = none) (h0 : 0 ∉ lit)
    (hn : lit.length + 23 < 2 ^ 64) :
    (∃ s', (Op.literal i lit).run s = .ok none s' ∧ (∃ d c t, Shows s' i d c lit t) ∧
      ∀ j, j ≠ i → ∀ d c xs t, Shows s j d c xs t → Shows s' j d c xs t) ∨
    ((Op.literal i lit).run s = .term ∧ 22 < lit.length) := by
  have hw : cString lit = lit := by
    unfold cString
    clear hn
    induction lit with
    | nil => rfl
    | cons x xs ih =>
      have hx : x ≠ 0 := by rintro rfl; exact h0 (by simp)
      simp [hx]
      simpa using ih (fun h => h0 (by simp [h]))
  have hs : Spec (Big s) (.literal i lit) V (upd V i (some (cString lit))) none := .literal hi hn
  rw [hw] at hs
  have hc := Reach.call h hs
  cases hr : (Op.literal i lit).run s with
  | ok r' s' =>
    rw [hr] at hc
    obtain ⟨rfl, h'⟩ := hc
    exact .inl ⟨s', rfl, h'.shows (upd_same _ _ _), fun j hj d c xs t hsh =>
      C15_frame h hs (.inl ⟨_, hr⟩) (fun e => hj e) hsh⟩
  | exc e s' =>
    exfalso
    have : ∀ m : SM Unit, noRet (M.noexcept m) s ≠ .exc e s' := by
      intro m hm
      cases hmm : m s with
      | ok a s1 => rw [show noRet (M.noexcept m) s = .ok none s1 from M.bind_ok (M.noexcept_ok hmm)] at hm; cases hm
      | exc e s1 =>
        rw [show noRet (M.noexcept m) s = .term from M.bind_term (M.noexcept_exc hmm)] at hm; cases hm
      | ub f =>
        rw [show noRet (M.noexcept m) s = .ub f from M.bind_ub (by simp [M.noexcept, hmm])] at hm; cases hm
      | term =>
        rw [show noRet (M.noexcept m) s = .term from M.bind_term (by simp [M.noexcept, hmm])] at hm; cases hm
    exact this _ hr
  | ub => rw [hr] at hc; exact hc.elim
  | term =>
    rw [hr] at hc
    obtain ⟨_, n, ha, hn, _⟩ := hc
    refine .inr ⟨rfl, ?_⟩
    rcases ha with ⟨j, xs, hj, h2, rfl⟩ | ⟨j, hj⟩
    · cases (show j = i from hj)
      rw [upd_same] at h2; cases h2; exact hn
    · cases hj

/-- C27 is violated: `"a\\0b"_s` is the string "a". -/
theorem C27_refuted : ∃ (s s' : St) (V : Vars) (d : Ptr) (c : Nat) (t : UInt8), Reach s V ∧ V 0 = none ∧
    (Op.literal 0 [97, 0, 98]).run s = .ok none s' ∧ Shows s' 0 d c [97] t := by
  have hr : (Op.literal 0 [97, 0, 98]).run (start fun _ => false) = .ok none (after (.literal 0 [97, 0, 98]) (start fun _ => false)) :=
    run_after (by decide +kernel)
  have h := (Reach.start fun _ => false).ok (.literal (i := 0) rfl (by decide)) hr
  obtain ⟨d, c, t, hsh⟩ := h.shows (i := 0) (xs := [97]) (by rw [upd_same]; rfl)
  exact ⟨_, _, _, d, c, t, .start _, rfl, hr, hsh⟩

-- a literal that meets the hypotheses of `C27_literal_partial`
example : ∃ s V, Reach s V ∧ V 2 = none ∧ 0 ∉ thirty ∧ thirty.length + 23 < 2 ^ 64 := by
  obtain ⟨s, h, _⟩ := demo
  exact ⟨s, _, h.reach, rfl, by decide, by decide⟩

/-! ## C28: concatenation -/

/-- C28: `operator+`: the operands are any views (of strings or not, also of the same string twice) or single characters;
the result is a new string with the concatenation, and no operand changes.  -/
theorem C28_concat (h : Reach s V) {i : Nat} {l r : List Src} {as bs : List UInt8} (hi : V i = none) (hl : Src.AreAll V l as)
    (hr : Src.AreAll V r bs) (hn : as.length + bs.length + 23 < 2 ^ 64) (hsrc : ∀ b, .thr b ∉ l ++ r) :
    Does s (.concat i l r) i (as ++ bs) none :=
  does h (.concat hi hl hr hn) (fun _ h => h) (by intro _ _ h; cases h) (by intro _ _ h; cases h) hsrc

/-- C28: `operator+(const string &, const string &)` -/
theorem C28_string_string (h : Reach s V) {i j k : Nat} {as bs : List UInt8} (hi : V i = none) (hj : V j = some as)
    (hk : V k = some bs) (hn : as.length + bs.length + 23 < 2 ^ 64) :
    Does s (.concat i (slice j 0 as.length) (slice k 0 bs.length)) i (as ++ bs) none := by
  refine C28_concat h hi (AreAll.slice (pre := []) (post := []) (by simpa using hj))
    (AreAll.slice (pre := []) (post := []) (by simpa using hk)) hn ?_
  intro b hb
  rcases List.mem_append.1 hb with hb | hb
  · exact slice_no_thr _ _ _ _ hb
  · exact slice_no_thr _ _ _ _ hb

-- short + long, and long + itself
example : ∃ s, Does s (.concat 2 (slice 0 0 3) (slice 1 0 30)) 2 (abc ++ thirty) none ∧
    Does s (.concat 2 (slice 1 0 30) (slice 1 0 30)) 2 (thirty ++ thirty) none := by
  obtain ⟨s, h, _⟩ := demo
  exact ⟨s, C28_string_string h.reach (j := 0) (k := 1) (as := abc) (bs := thirty) rfl rfl rfl (by decide),
    C28_string_string h.reach (j := 1) (k := 1) (as := thirty) (bs := thirty) rfl rfl rfl (by decide)⟩

end Ptl.Str

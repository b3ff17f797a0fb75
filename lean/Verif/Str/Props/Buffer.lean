import Verif.Str.Props.Values

/-!
# C90: a string keeps its buffer while its capacity suffices

inc/ptl/string.hpp:397-413 (reserve, resize), 420-442 (append), 444-458 (assign), 467-493 (insert), 495-530 (replace): which
buffer holds the result.
-/

namespace Ptl.Str

variable {s s' : St} {V V' : Vars} {op : Op} {r : Option Nat}

/-! ### specification -/

/-- the string a call edits: every member that changes the contents of one existing string -/
def Op.edits : Op → Option Nat
  | .assignCopy i _ | .assignInput i _ | .assignRange i _ | .assignIlist i _ | .assignFill i _ _ | .appendInput i _
  | .appendRange i _ | .appendIlist i _ | .appendFill i _ _ | .insertInput i _ _ | .insertRange i _ _ | .insertIlist i _ _
  | .insertFill i _ _ _ | .replaceInput i _ _ _ | .replaceRange i _ _ _ | .replaceIlist i _ _ _ | .replaceFill i _ _ _ _
  | .pushBack i _ | .popBack i | .clear i | .reserve i _ | .resize i _ _ | .erase i _ _ | .eraseOne i _ | .write i _ _ => some i
  | _ => none

/-- the range is read once, through a temporary string -/
def Op.viaInput : Op → Prop
  | .assignInput _ _ | .appendInput _ _ | .insertInput _ _ _ | .replaceInput _ _ _ _ => True
  | _ => False

/-- the capacity `c` the call needs for a string of size `n` that becomes one of size `m`: `m` characters, except where old
and new characters have to fit together -/
def Op.Fits (op : Op) (n m c : Nat) : Prop :=
  match op with
  | .reserve _ k => k ≤ c
  | .assignCopy i j => i = j ∨ n + m ≤ c
  | .assignRange _ l => n + l.length ≤ c
  | .replaceRange _ _ _ l => n + l.length ≤ c
  | .assignInput _ _ => False
  | _ => m ≤ c

/-- string `i` shows the same buffer and capacity; if the call threw, also the same bytes -/
def Stays (op : Op) (i : Nat) (d : Ptr) (c : Nat) (xs ys : List UInt8) : Out St (Option Nat) → Prop
  | .ok _ s' => ∃ t, Shows s' i d c ys t
  | .exc e s' => (e = .user ∨ op.viaInput) ∧ ∃ t, Shows s' i d c xs t
  | .ub _ => False
  | .term => False

/-! ### proofs -/

section of
variable (hinv : Inv s) {i : Nat} {v : Vw} {xs ys : List UInt8} {t : UInt8} (hv : abs s (.var i) = some v) (hh : Holds v xs t)
include hinv

theorem Stays.of_ok {v' : Vw} {t' : UInt8} {r : Option Nat} (hop : op.run s = .ok r s') (st : Step s s' (upd (abs s) (.var i) (some v')))
    (hh' : Holds v' ys t') (hb : v'.base = v.base) (hc : v'.cap = v.cap) : Stays op i ⟨some v.base, 0⟩ v.cap xs ys (op.run s) := by
  rw [hop, ← hb, ← hc]
  have hi' : Inv s' := Inv.one hinv st (fun v h => by cases h; exact ⟨_, _, hh'⟩)
  exact ⟨_, hi'.shows st.at hh'⟩

include hv hh

theorem Stays.of_exc {e : Exc} (hop : op.run s = .exc e s') (st : Step s s' (abs s)) (he : e = .user ∨ op.viaInput) :
    Stays op i ⟨some v.base, 0⟩ v.cap xs ys (op.run s) := by
  rw [hop]
  rw [← upd_eq _ _ _ hv] at st
  have hi' : Inv s' := Inv.one hinv st (fun v h => by cases h; exact ⟨_, _, hh⟩)
  exact ⟨he, _, hi'.shows st.at hh⟩

theorem Stays.of_runs {β : Type} {m : SM β} {k : β → SM (Option Nat)} {r : Option Nat} {src : List Arg} {stay : Prop} {ret : Vw → β}
    (hop : op.run s = (m >>= k) s) (hr : Runs m s (.var i) v xs src ys stay ret) (hs : stay)
    (hk : ∀ s' v', WF s' → abs s' (.var i) = some v' → k (ret v') s' = .ok r s') :
    Stays op i ⟨some v.base, 0⟩ v.cap xs ys (op.run s) := by
  rcases hr with ⟨s', v', hm, st, hh', hb, _⟩ | ⟨s', e, v', hm, st, hkept, _, hu⟩
  · exact .of_ok hinv (hop.trans ((M.bind_ok hm).trans (hk s' v' st.wf st.at))) st hh' (hb hs).1 (hb hs).2
  · obtain ⟨kb, kc, ⟨t', kh⟩, _⟩ := hkept
    rw [hop, M.bind_exc hm, ← kb, ← kc]
    have hi' : Inv s' := Inv.one hinv st (fun v h => by cases h; exact ⟨_, _, kh⟩)
    exact ⟨.inl (hu hs), _, hi'.shows st.at kh⟩

theorem Stays.of_runsS {β : Type} {m : SM β} {k : β → SM (Option Nat)} {r : Option Nat} {src : List Arg} {stay : Prop} {ret : Vw → β}
    (hop : op.run s = (m >>= k) s) (hr : RunsS m s (.var i) v src ys stay ret) (hs : stay)
    (hk : ∀ s' v', WF s' → abs s' (.var i) = some v' → k (ret v') s' = .ok r s') (hi : src = [] ∨ op.viaInput) :
    Stays op i ⟨some v.base, 0⟩ v.cap xs ys (op.run s) := by
  rcases hr with ⟨s', v', hm, st, hh', hb, _⟩ | ⟨s', e, hm, st, _, hu⟩
  · exact .of_ok hinv (hop.trans ((M.bind_ok hm).trans (hk s' v' st.wf st.at))) st hh' (hb hs).1 (hb hs).2
  · exact .of_exc hinv hv hh (hop.trans (M.bind_exc hm)) st (hi.imp (fun h => absurd h (hu hs)) id)

end of

theorem Src.AreAll.length {V : Vars} {l : List Src} {bs : List UInt8} (h : Src.AreAll V l bs) : bs.length = l.length := by
  induction h with
  | nil => rfl
  | cons _ _ ih => simp [ih]

set_option linter.unusedSimpArgs false in
theorem stays_step (hinv : Inv s) (hs : Spec (Big s) op (vars s) V' r) {i : Nat} (hi : op.edits = some i) {v : Vw} {xs ys : List UInt8}
    {t : UInt8} (hv : abs s (.var i) = some v) (hh : Holds v xs t) (hy : V' i = some ys) (hf : op.Fits xs.length ys.length v.cap) :
    Stays op i ⟨some v.base, 0⟩ v.cap xs ys (op.run s) := by
  have hw := hinv.wf
  have hx : ∀ {zs}, vars s i = some zs → zs = xs := fun h => by
    obtain ⟨w, u, hw', hh'⟩ := vars_some hinv h
    rw [hv] at hw'; cases hw'
    exact (hh'.unique hh).1
  have hle := hh.len (hw.gd hv)
  cases hs with
  | @assignCopy i j xs' ys' _ h0 h1 =>
    cases hi
    obtain rfl := hx h0
    simp only [upd_same, Option.some.injEq] at hy
    subst hy
    simp only [Op.Fits, List.length_append, List.length_replicate, List.length_cons, List.length_nil] at hf
    by_cases hij : i = j
    · subst hij
      obtain rfl := hx h1
      exact .of_ok hinv (M.bind_ok (a := ()) (s' := s) (by simp [Str.assignCopy])) (by rw [upd_eq _ _ _ hv]; exact Step.refl hw) hh rfl rfl
    · obtain ⟨w, u, hwj, hyj⟩ := vars_some hinv h1
      exact .of_runsS hinv hv hh rfl (assignCopy_run hw hwj hyj hv hh (by rintro ⟨⟩; exact hij rfl)) (hf.resolve_left hij) (fun _ _ _ _ => rfl) (.inl rfl)
  | assignInput => exact hf.elim
  | assignRange h0 h1 h2 =>
    cases hi
    obtain rfl := hx h0
    simp only [upd_same, Option.some.injEq] at hy
    subst hy
    simp only [Op.Fits, List.length_append, List.length_replicate, List.length_cons, List.length_nil] at hf
    obtain ⟨as, hr, hse, ht⟩ := resolveAll_ok hinv (lo_of hinv h0) h1
    exact .of_runs hinv hv hh (M.bind_ok hr) (assignRange_run hw hv hh hse (fun _ => Nat.le_refl _) (by rw [← pow64]; omega) (by rw [← pow64]; omega))
      (by rw [h1.length]; exact hf) (fun _ _ _ _ => rfl)
  | assignIlist h0 =>
    cases hi
    obtain rfl := hx h0
    simp only [upd_same, Option.some.injEq] at hy
    subst hy
    simp only [Op.Fits, List.length_append, List.length_replicate, List.length_cons, List.length_nil] at hf
    exact .of_runsS hinv hv hh rfl (assignIlist_run hw hv hh _) hf (fun _ _ _ _ => rfl) (.inl rfl)
  | assignFill h0 =>
    cases hi
    obtain rfl := hx h0
    simp only [upd_same, Option.some.injEq] at hy
    subst hy
    simp only [Op.Fits, List.length_append, List.length_replicate, List.length_cons, List.length_nil] at hf
    exact .of_runsS hinv hv hh rfl (assignFill_run hw hv hh _ _) hf (fun _ _ _ _ => rfl) (.inl rfl)
  | appendInput h0 h1 h2 =>
    cases hi
    obtain rfl := hx h0
    simp only [upd_same, Option.some.injEq] at hy
    subst hy
    simp only [Op.Fits, List.length_append, List.length_replicate, List.length_cons, List.length_nil] at hf
    obtain ⟨as, hr, hse, ht⟩ := resolveAll_ok hinv (lo_of hinv h0) h1
    exact .of_runsS hinv hv hh (M.bind_ok hr) (appendInput_run hw hv hh hse h2) hf (fun _ _ _ _ => rfl) (.inr trivial)
  | appendRange h0 h1 h2 =>
    cases hi
    obtain rfl := hx h0
    simp only [upd_same, Option.some.injEq] at hy
    subst hy
    simp only [Op.Fits, List.length_append, List.length_replicate, List.length_cons, List.length_nil] at hf
    obtain ⟨as, hr, hse, ht⟩ := resolveAll_ok hinv (lo_of hinv h0) h1
    exact .of_runs hinv hv hh (M.bind_ok hr) (appendRange_run hw hv hh hse (fun _ => Nat.le_refl _) h2) hf (fun _ _ _ _ => rfl)
  | appendIlist h0 h2 =>
    cases hi
    obtain rfl := hx h0
    simp only [upd_same, Option.some.injEq] at hy
    subst hy
    simp only [Op.Fits, List.length_append, List.length_replicate, List.length_cons, List.length_nil] at hf
    exact .of_runsS hinv hv hh rfl (appendIlist_run hw hv hh h2) hf (fun _ _ _ _ => rfl) (.inl rfl)
  | appendFill h0 h2 =>
    cases hi
    obtain rfl := hx h0
    simp only [upd_same, Option.some.injEq] at hy
    subst hy
    simp only [Op.Fits, List.length_append, List.length_replicate, List.length_cons, List.length_nil] at hf
    exact .of_runsS hinv hv hh rfl (appendFill_run hw hv hh _ h2) hf (fun _ _ _ _ => rfl) (.inl rfl)
  | insertInput h0 h1 h2 =>
    cases hi
    obtain rfl := hx h0
    simp only [upd_same, Option.some.injEq] at hy
    subst hy
    simp only [Op.Fits, List.length_append, List.length_replicate, List.length_cons, List.length_nil] at hf
    obtain ⟨as, hr, hse, ht⟩ := resolveAll_ok hinv (lo_of hinv h0) h1
    exact .of_runsS hinv hv hh ((M.bind_ok hr).trans (M.bind_ok (pos_ok hw hv _))) (insertInput_run hw hv hh rfl hse h2) (by first | omega | (simp only [List.length_append]; omega)) (fun _ _ hw' h => offset_ok hw' h) (.inr trivial)
  | insertRange h0 h1 h2 =>
    cases hi
    obtain rfl := hx h0
    simp only [upd_same, Option.some.injEq] at hy
    subst hy
    simp only [Op.Fits, List.length_append, List.length_replicate, List.length_cons, List.length_nil] at hf
    obtain ⟨as, hr, hse, ht⟩ := resolveAll_ok hinv (lo_of hinv h0) h1
    exact .of_runs hinv hv hh ((M.bind_ok hr).trans (M.bind_ok (pos_ok hw hv _))) (insertRange_run hw hv hh hse (fun _ => Nat.le_refl _) (by rw [← pow64]; simp at h2; omega)) (by first | omega | (simp only [List.length_append]; omega)) (fun _ _ hw' h => offset_ok hw' h)
  | insertIlist h0 h2 =>
    cases hi
    obtain rfl := hx h0
    simp only [upd_same, Option.some.injEq] at hy
    subst hy
    simp only [Op.Fits, List.length_append, List.length_replicate, List.length_cons, List.length_nil] at hf
    exact .of_runsS hinv hv hh (M.bind_ok (pos_ok hw hv _)) (insertIlist_run hw hv hh rfl h2) (by first | omega | (simp only [List.length_append]; omega)) (fun _ _ hw' h => offset_ok hw' h) (.inl rfl)
  | insertFill h0 h2 =>
    cases hi
    obtain rfl := hx h0
    simp only [upd_same, Option.some.injEq] at hy
    subst hy
    simp only [Op.Fits, List.length_append, List.length_replicate, List.length_cons, List.length_nil] at hf
    exact .of_runsS hinv hv hh (M.bind_ok (pos_ok hw hv _)) (insertFill_run hw hv hh _ rfl h2) (by first | omega | (simp only [List.length_append]; omega)) (fun _ _ hw' h => offset_ok hw' h) (.inl rfl)
  | replaceInput h0 h1 h2 =>
    cases hi
    obtain rfl := hx h0
    simp only [upd_same, Option.some.injEq] at hy
    subst hy
    simp only [Op.Fits, List.length_append, List.length_replicate, List.length_cons, List.length_nil] at hf
    obtain ⟨as, hr, hse, ht⟩ := resolveAll_ok hinv (lo_of hinv h0) h1
    exact .of_runsS hinv hv hh ((M.bind_ok hr).trans ((M.bind_ok (pos_ok hw hv _)).trans (M.bind_ok (pos_ok hw hv _)))) (replaceInput_run hw hv hh rfl hse (Nat.lt_of_lt_of_le h2 (Nat.le_add_right _ _))) (by first | omega | (simp only [List.length_append]; omega)) (fun _ _ _ _ => rfl) (.inr trivial)
  | replaceRange h0 h1 h2 =>
    cases hi
    obtain rfl := hx h0
    simp only [upd_same, Option.some.injEq] at hy
    subst hy
    simp only [Op.Fits, List.length_append, List.length_replicate, List.length_cons, List.length_nil] at hf
    obtain ⟨as, hr, hse, ht⟩ := resolveAll_ok hinv (lo_of hinv h0) h1
    have hl := h1.length
    exact .of_runs hinv hv hh ((M.bind_ok hr).trans ((M.bind_ok (pos_ok hw hv _)).trans (M.bind_ok (pos_ok hw hv _)))) (replaceRange_run hw hv hh hse (fun _ => Nat.le_refl _) (by rw [← pow64]; simp at h2; omega)) (by first | omega | (simp only [List.length_append]; omega)) (fun _ _ _ _ => rfl)
  | replaceIlist h0 h2 =>
    cases hi
    obtain rfl := hx h0
    simp only [upd_same, Option.some.injEq] at hy
    subst hy
    simp only [Op.Fits, List.length_append, List.length_replicate, List.length_cons, List.length_nil] at hf
    exact .of_runsS hinv hv hh ((M.bind_ok (pos_ok hw hv _)).trans (M.bind_ok (pos_ok hw hv _))) (replaceIlist_run hw hv hh rfl (by rw [← pow64]; simp at h2 ⊢; omega)) (by first | omega | (simp only [List.length_append]; omega)) (fun _ _ _ _ => rfl) (.inl rfl)
  | replaceFill h0 h2 =>
    cases hi
    obtain rfl := hx h0
    simp only [upd_same, Option.some.injEq] at hy
    subst hy
    simp only [Op.Fits, List.length_append, List.length_replicate, List.length_cons, List.length_nil] at hf
    exact .of_runsS hinv hv hh ((M.bind_ok (pos_ok hw hv _)).trans (M.bind_ok (pos_ok hw hv _))) (replaceFill_run hw hv hh _ rfl (by rw [← pow64]; simp at h2 ⊢; omega)) (by first | omega | (simp only [List.length_append]; omega)) (fun _ _ _ _ => rfl) (.inl rfl)
  | pushBack h0 =>
    cases hi
    obtain rfl := hx h0
    simp only [upd_same, Option.some.injEq] at hy
    subst hy
    simp only [Op.Fits, List.length_append, List.length_replicate, List.length_cons, List.length_nil] at hf
    rcases pushBack_run hw hv hh _ with ⟨s', v', hr, st, hh', hc, hb, _⟩ | ⟨s', e, hr, st, _, h⟩
    · exact .of_ok hinv ((M.bind_ok hr).trans (offset_ok st.wf st.at)) st hh' (hb (by omega)) (by rw [hc, if_neg (by omega)])
    · omega
  | popBack h0 =>
    cases hi
    obtain rfl := hx h0
    simp only [upd_same, Option.some.injEq] at hy
    subst hy
    simp only [Op.Fits, List.length_append, List.length_replicate, List.length_cons, List.length_nil] at hf
    obtain ⟨s', v', hr, q, hh', hb, hc⟩ := popBack_ok hw hv hh rfl
    exact .of_ok hinv (M.bind_ok hr) q.step hh' hb hc
  | clear h0 =>
    cases hi
    obtain rfl := hx h0
    simp only [upd_same, Option.some.injEq] at hy
    subst hy
    simp only [Op.Fits, List.length_append, List.length_replicate, List.length_cons, List.length_nil] at hf
    obtain ⟨s', v', hr, q, hh', hb, hc⟩ := clear_any hw hv hh
    exact .of_ok hinv (M.bind_ok hr) q.step hh' hb hc
  | @reserve _ n _ _ h0 =>
    cases hi
    obtain rfl := hx h0
    obtain rfl := hx hy
    simp only [Op.Fits] at hf
    rcases reserve_run hw hv hh n with ⟨s', v', t', hr, st, hh', ht, hc, hsame, _⟩ | ⟨s', e, hr, st, _, h⟩
    · obtain ⟨rfl, rfl⟩ := hsame hf
      exact .of_ok hinv (M.bind_ok hr) st hh' rfl rfl
    · omega
  | resizeShrink h0 =>
    cases hi
    obtain rfl := hx h0
    simp only [upd_same, Option.some.injEq] at hy
    subst hy
    simp only [Op.Fits, List.length_append, List.length_replicate, List.length_cons, List.length_nil] at hf
    rcases resize_run hw hv hh _ _ with ⟨s', v', hr, st, hh', hc, hb, _⟩ | ⟨s', e, hr, st, _, h⟩
    · exact .of_ok hinv (M.bind_ok hr) st (by simpa using hh') (hb hf) (by rw [hc, if_pos hf])
    · omega
  | @resizeGrow _ xs' n ch _ h0 =>
    cases hi
    obtain rfl := hx h0
    simp only [upd_same, Option.some.injEq] at hy
    subst hy
    simp only [Op.Fits, List.length_append, List.length_replicate, List.length_cons, List.length_nil] at hf
    rcases resize_run hw hv hh (xs'.length + n) ch with ⟨s', v', hr, st, hh', hc, hb, _⟩ | ⟨s', e, hr, st, _, h⟩
    · rw [List.take_of_length_le (by omega), Nat.add_sub_cancel_left] at hh'
      exact .of_ok hinv (M.bind_ok hr) st hh' (hb hf) (by rw [hc, if_pos hf])
    · omega
  | erase h0 =>
    cases hi
    obtain rfl := hx h0
    simp only [upd_same, Option.some.injEq] at hy
    subst hy
    simp only [Op.Fits, List.length_append, List.length_replicate, List.length_cons, List.length_nil] at hf
    obtain ⟨s', v', hr, q, hh', hb, hc⟩ := erase_ok hw hv hh rfl
    exact .of_ok hinv ((M.bind_ok (pos_ok hw hv _)).trans ((M.bind_ok (pos_ok hw hv _)).trans ((M.bind_ok hr).trans
      (by rw [← hb]; exact offset_ok q.wf q.at)))) q.step hh' hb hc
  | eraseOne h0 =>
    cases hi
    obtain rfl := hx h0
    simp only [upd_same, Option.some.injEq] at hy
    subst hy
    simp only [Op.Fits, List.length_append, List.length_replicate, List.length_cons, List.length_nil] at hf
    obtain ⟨s', v', hr, q, hh', hb, hc⟩ := erase_ok hw hv hh rfl
    exact .of_ok hinv ((M.bind_ok (pos_ok hw hv _)).trans ((M.bind_ok (by exact hr)).trans
      (by rw [← hb]; exact offset_ok q.wf q.at))) q.step hh' hb hc
  | @write _ k ch xs' _ h0 hk =>
    cases hi
    obtain rfl := hx h0
    simp only [upd_same, Option.some.injEq] at hy
    subst hy
    simp only [Op.Fits, List.length_append, List.length_replicate, List.length_cons, List.length_nil] at hf
    obtain ⟨hsz, rest, hb⟩ := hh
    have hb' : v.buf = (xs'.take k).map some ++ [some xs'[k]] ++ ((xs'.drop (k + 1)).map some ++ some t :: rest) := by
      rw [hb]
      have : xs' = xs'.take k ++ xs'[k] :: xs'.drop (k + 1) := by rw [← List.drop_eq_getElem_cons hk, List.take_append_drop]
      have h2 := congrArg (List.map some) this
      rw [List.map_append, List.map_cons] at h2
      rw [h2]
      simp
    obtain ⟨s', hr, q⟩ := writeN_ok hw hv (bs := [ch]) (off := k) hb' (by simp; omega) rfl
    refine .of_ok hinv (v := v) (r := none) ((M.bind_ok (a := ⟨some v.base, k⟩) (s' := s) ?_).trans (M.bind_ok (m := writeAt ⟨some v.base, k⟩ ch) hr)) q.step
      (t' := t) ⟨by simpa using hsz, rest, ?_⟩ rfl rfl
    · unfold index
      mstep (data_ok hw hv)
      simp [Ptr.add]
    · rw [List.set_eq_take_append_cons_drop, if_pos hk]
      simp
  | _ => cases hi

/-- C90 (the claim holds where `Fits` does): as long as the capacity suffices, a call that edits a string leaves `data()` and
`capacity()` as they are, whether it returns or throws; no exception is due to a lack of memory, except where a range of input
iterators is first read into a temporary string. Missing: `assign` and `replace` with a range, and copy assignment, need room for
the old and the new characters together (`C90_refuted`, `C90_exact`), and `assign` with input iterators never reuses the
buffer. -/
theorem C90_partial (h : Reach s V) (hs : Spec (Big s) op V V' r) {i : Nat} (hi : op.edits = some i) {d : Ptr} {c : Nat}
    {xs ys : List UInt8} {t : UInt8} (hsh : Shows s i d c xs t) (hy : V' i = some ys) (hf : op.Fits xs.length ys.length c) :
    match op.run s with
    | .ok _ s' => ∃ t, Shows s' i d c ys t
    | .exc e s' => (e = .user ∨ op.viaInput) ∧ ∃ t, Shows s' i d c xs t
    | .ub _ => False
    | .term => False := by
  obtain ⟨hinv, rfl⟩ := h.inv
  obtain ⟨v, hv, rfl, rfl, hh⟩ := hinv.of_shows hsh
  have := stays_step hinv hs hi hv hh hy hf
  unfold Stays at this
  exact this

/-- the smallest capacity the library gives to a string of `n` characters -/
def tight (n : Nat) : Nat := if n ≤ 22 then 22 else max 48 ((n + 23) / 24 * 24)

theorem tight_eq (n : Nat) : tight n = fit n := by
  unfold tight fit capFor
  split
  · rfl
  · omega

/-- C90: `reserve(n)` gives a capacity of at least `n`, and exactly the one described by `tight` if there was less before. -/
theorem C90_reserve (h : Reach s V) {i n : Nat} {d d' : Ptr} {c c' : Nat} {xs ys : List UInt8} {t t' : UInt8} (hsh : Shows s i d c xs t)
    (hr : (Op.reserve i n).run s = .ok none s') (hsh' : Shows s' i d' c' ys t') :
    ys = xs ∧ n ≤ c' ∧ (n ≤ c → d' = d ∧ c' = c) ∧ (c < n → c' = tight n) := by
  have hinv' := (h.ok (.reserve (i := i) (n := n) (h.of_shows hsh)) hr).inv.1
  obtain ⟨hinv, rfl⟩ := h.inv
  obtain ⟨v, hv, rfl, rfl, hh⟩ := hinv.of_shows hsh
  obtain ⟨v', hv', rfl, rfl, hh'⟩ := hinv'.of_shows hsh'
  have h22 : 22 ≤ v.cap := by rcases (hinv.wf.gd hv).shape with ⟨_, h⟩ | ⟨_, _, h, _⟩ <;> omega
  rcases reserve_run hinv.wf hv hh n with ⟨s1, v1, t1, hr1, st, hh1, _, hc, hsame, _⟩ | ⟨s1, e, hr1, _⟩
  · have : s1 = s' := by
      have := hr.symm.trans (M.bind_ok hr1)
      cases this; rfl
    subst this
    rw [st.at] at hv'
    cases hv'
    refine ⟨(hh'.unique hh1).1, ?_, fun h => ?_, fun h => ?_⟩
    · rw [hc]
      split
      · assumption
      · exact capFor_ge _
    · obtain ⟨_, rfl⟩ := hsame h
      exact ⟨rfl, rfl⟩
    · rw [tight_eq, fit_big (by omega), hc, if_neg (by omega)]
  · have := hr.symm.trans (M.bind_exc hr1)
    cases this

/-- calls that put a range, or another string, in place of characters -/
inductive Op.Replaces : Op → Nat → Prop
  | assign {i l} : Op.Replaces (.assignRange i l) i
  | replace {i f l src} : Op.Replaces (.replaceRange i f l src) i
  | copy {i j} : Op.Replaces (.assignCopy i j) i

/-- C90, where `Fits` fails: `assign` and `replace` with a range, and copy assignment, then give the string the smallest
capacity for the new contents; what was reserved is lost. -/
theorem C90_exact (h : Reach s V) (hs : Spec (Big s) op V V' r) {i : Nat} (hi : op.Replaces i) {d d' : Ptr} {c c' : Nat}
    {xs ys : List UInt8} {t t' : UInt8} (hsh : Shows s i d c xs t) (hy : V' i = some ys) (hf : ¬ op.Fits xs.length ys.length c)
    (hr : op.run s = .ok r s') (hsh' : Shows s' i d' c' ys t') : c' = tight ys.length := by
  have h' := h.ok hs hr
  have hinv' := h'.inv.1
  obtain ⟨hinv, rfl⟩ := h.inv
  obtain ⟨v, hv, rfl, rfl, hh⟩ := hinv.of_shows hsh
  have hw := hinv.wf
  have hx : ∀ {zs}, vars s i = some zs → zs = xs := fun h => by
    obtain ⟨w, u, hw', hh'⟩ := vars_some hinv h
    rw [hv] at hw'; cases hw'
    exact (hh'.unique hh).1
  have key : ∀ {src : List Arg} {stay : Prop} {m : SM Unit}, Runs m s (.var i) v xs src ys stay (fun _ => ()) → ¬ stay →
      op.run s = noRet m s → c' = tight ys.length := by
    intro src stay m hrun hst hop
    rcases hrun with ⟨s1, v1, hm, st, hh1, _, hc⟩ | ⟨s1, e, v1, hm, _⟩
    · have : s1 = s' := by
        have := hr.symm.trans (hop.trans (M.bind_ok hm))
        cases this; rfl
      subst this
      obtain ⟨v2, hv2, _, rfl, _⟩ := hinv'.of_shows hsh'
      rw [st.at] at hv2
      cases hv2
      rw [tight_eq, hc hst]
    · have := hr.symm.trans (hop.trans (M.bind_exc hm))
      cases this
  cases hi with
  | assign =>
    cases hs with
    | assignRange h0 h1 h2 =>
      obtain rfl := hx h0
      simp only [upd_same, Option.some.injEq] at hy
      subst hy
      obtain ⟨as, hr', hse, ht⟩ := resolveAll_ok hinv (lo_of hinv h0) h1
      exact key (assignRange_run hw hv hh hse (fun _ => Nat.le_refl _) (by rw [← pow64]; omega) (by rw [← pow64]; omega))
        (by rw [h1.length]; exact hf) (M.bind_ok hr')
  | replace =>
    cases hs with
    | replaceRange h0 h1 h2 =>
      obtain rfl := hx h0
      simp only [upd_same, Option.some.injEq] at hy
      subst hy
      have hl := h1.length
      obtain ⟨as, hr', hse, ht⟩ := resolveAll_ok hinv (lo_of hinv h0) h1
      refine key (replaceRange_run hw hv hh hse (fun _ => Nat.le_refl _) (by rw [← pow64]; simp at h2; omega)) ?_
        ((M.bind_ok hr').trans ((M.bind_ok (pos_ok hw hv _)).trans (M.bind_ok (pos_ok hw hv _))))
      simp only [Op.Fits, List.length_append] at hf
      omega
  | @copy _ j =>
    cases hs with
    | assignCopy h0 h1 =>
      obtain rfl := hx h0
      simp only [upd_same, Option.some.injEq] at hy
      subst hy
      obtain ⟨w, u, hwj, hyj⟩ := vars_some hinv h1
      have hij : i ≠ j := fun e => hf (.inl e)
      exact key (assignCopy_runs hw hwj hyj hv hh (by rintro ⟨⟩; exact hij rfl)) (fun k => hf (.inr k)) rfl

/-- calls that construct a string from characters -/
inductive Op.Builds : Op → Nat → Prop
  | range {i l} : Op.Builds (.ctorRange i l) i
  | fill {i n ch} : Op.Builds (.ctorFill i n ch) i
  | copy {i j} : Op.Builds (.ctorCopy i j) i
  | concat {i l r} : Op.Builds (.concat i l r) i
  | substr {i j k} : Op.Builds (.substr i j k) i
  | substrN {i j k n} : Op.Builds (.substrN i j k n) i

/-- C90: a new string has the smallest capacity for its contents; in particular, a copy does not inherit what was reserved. -/
theorem C90_new (h : Reach s V) (hs : Spec (Big s) op V V' r) {i : Nat} (hi : op.Builds i) {d' : Ptr} {c' : Nat} {ys : List UInt8}
    {t' : UInt8} (hr : op.run s = .ok r s') (hsh' : Shows s' i d' c' ys t') : c' = tight ys.length := by
  have h' := h.ok hs hr
  have hy := h'.of_shows hsh'
  have hinv' := h'.inv.1
  obtain ⟨hinv, rfl⟩ := h.inv
  have hw := hinv.wf
  have key : ∀ {zs : List UInt8} {src : List Arg} {m : SM Unit}, MakesP (· = fit zs.length) m s (.var i) src zs → V' i = some zs →
      op.run s = noRet m s → c' = tight ys.length := by
    intro zs src m hrun hz hop
    obtain rfl : zs = ys := by rw [hz] at hy; cases hy; rfl
    rcases hrun with ⟨s1, v1, hm, st, hh1, hc⟩ | ⟨s1, e, hm, _⟩
    · have : s1 = s' := by
        have := hr.symm.trans (hop.trans (M.bind_ok hm))
        cases this; rfl
      subst this
      obtain ⟨v2, hv2, _, rfl, _⟩ := hinv'.of_shows hsh'
      rw [st.at] at hv2
      cases hv2
      rw [tight_eq]
      exact hc
    · have := hr.symm.trans (hop.trans (M.bind_exc hm))
      cases this
  cases hi <;> cases hs
  case range.ctorRange h2 h0 h1 =>
    obtain ⟨as, hr', hse, ht⟩ := resolveAll_ok hinv (lo_none hinv h0) h1
    exact key (ctorRange_run hw (vars_none h0) var_tmp hse h2) (upd_same _ _ _) (M.bind_ok hr')
  case fill.ctorFill h2 h0 =>
    exact key (by simpa using ctorFill_run hw (vars_none h0) var_tmp _ h2) (upd_same _ _ _) rfl
  case copy.ctorCopy h0 h1 =>
    obtain ⟨w, u, hwj, hh⟩ := vars_some hinv h1
    exact key (ctorCopy_run hw hwj hh (vars_none h0) var_tmp) (upd_same _ _ _) rfl
  case concat.concat hn h0 hl hr2 =>
    obtain ⟨al, hrl, hsl, htl⟩ := resolveAll_ok hinv (lo_none hinv h0) hl
    obtain ⟨ar, hrr, hsr, htr⟩ := resolveAll_ok hinv (lo_none hinv h0) hr2
    exact key (concat_run hw (vars_none h0) var_tmp hsl hsr hn) (upd_same _ _ _) ((M.bind_ok hrl).trans (M.bind_ok hrr))
  case substr.substr h0 h1 =>
    obtain ⟨w, u, hwj, hh⟩ := vars_some hinv h1
    exact key (substr_run hw hwj hh (vars_none h0) var_tmp rfl) (upd_same _ _ _) rfl
  case substrN.substrN h0 h1 =>
    obtain ⟨w, u, hwj, hh⟩ := vars_some hinv h1
    exact key (substrN_run hw hwj hh (vars_none h0) var_tmp rfl) (upd_same _ _ _) rfl

/-- C90 does not hold for `assign` with a range: a string of thirty characters has capacity 48; assigning twenty characters, for
which there is room, takes a new buffer, and the capacity drops to 22. -/
theorem C90_refuted : ∃ (s s' : St) (V : Vars) (d d' : Ptr) (t t' : UInt8), Clean s V ∧ Shows s 1 d 48 thirty t ∧
    (Op.assignRange 1 ((thirty.take 20).map .val)).run s = .ok none s' ∧ Shows s' 1 d' 22 (thirty.take 20) t' ∧ d' ≠ d := by
  have hl : ∀ (xs : List UInt8), xs.length ≤ 1000 → ∀ i zs, upd (fun _ => none : Vars) 1 (some xs) i = some zs → zs.length ≤ 1000 :=
    fun xs hx => short_upd (by intro i xs h; cases h) (by intro zs h; cases h; exact hx)
  have sp : Spec (Big (start fun _ => false)) (.ctorRange 1 (thirty.map .val)) (fun _ => none) (upd (fun _ => none) 1 (some thirty)) none :=
    .ctorRange rfl (AreAll.vals _) (by decide)
  have h0 := Clean.start fun _ => false
  obtain ⟨s, hr, h, ho⟩ := h0.next sp (fun _ => rfl) (demo_short (hl _ (by decide)) (by intro i n h; cases h))
  obtain ⟨d, c, t, sh⟩ := h.reach.shows (i := 1) (xs := thirty) rfl
  obtain rfl : c = 48 := C90_new h0.reach sp .range hr sh
  have sp' : Spec (Big s) (.assignRange 1 ((thirty.take 20).map .val)) (upd (fun _ => none) 1 (some thirty))
      (upd (upd (fun _ => none) 1 (some thirty)) 1 (some (thirty.take 20))) none :=
    .assignRange (upd_same _ _ _) (AreAll.vals _) (by decide)
  obtain ⟨s', hr', h', _⟩ := h.next sp' ho (demo_short (short_upd (hl _ (by decide)) (by intro zs h; cases h; decide)) (by intro i n h; cases h))
  obtain ⟨d', c', t', sh'⟩ := h'.reach.shows (i := 1) (xs := thirty.take 20) (upd_same _ _ _)
  obtain rfl : c' = 22 := C90_exact h.reach sp' .assign sh (upd_same _ _ _) (show ¬ 30 + 20 ≤ 48 by decide) hr' sh'
  refine ⟨s, s', _, d, d', t, t', h, sh, hr', sh', ?_⟩
  rcases C17_representation h.reach sh with ⟨_, h, _⟩ | ⟨b, rfl, _⟩
  · cases h
  rcases C17_representation h'.reach sh' with ⟨rfl, _⟩ | ⟨b', _, h, _⟩
  · intro h; cases h
  · omega

-- a long string is cleared and refilled in place, up to its capacity of 48
example : ∃ (s s1 s2 : St) (V : Vars) (d : Ptr) (c : Nat) (t t1 t2 : UInt8), Clean s V ∧ Shows s 1 d c thirty t ∧
    (Op.clear 1).run s = .ok none s1 ∧ Shows s1 1 d c [] t1 ∧
    (Op.assignRange 1 (thirty.map .val)).run s1 = .ok none s2 ∧ Shows s2 1 d c thirty t2 := by
  obtain ⟨s, h, ho⟩ := demo
  obtain ⟨d, c, t, sh⟩ := h.reach.shows (i := 1) (xs := thirty) rfl
  have hc : 30 ≤ c := by
    rcases C17_representation h.reach sh with ⟨_, _, hl⟩ | ⟨_, _, _, _, hl, _⟩
    · exact absurd hl (by decide)
    · exact hl
  have sp : Spec (Big s) (.clear 1) demoV (upd demoV 1 (some [])) none := .clear (i := 1) (xs := thirty) rfl
  obtain ⟨s1, hr1, h1, o1⟩ := h.next sp ho (demo_short (short_upd demoV_len (by intro zs h; cases h; decide)) (by intro i n h; cases h))
  have k1 := C90_partial h.reach sp rfl sh (upd_same _ _ _) (Nat.zero_le _)
  rw [hr1] at k1
  obtain ⟨t1, sh1⟩ := k1
  have sp' : Spec (Big s1) (.assignRange 1 (thirty.map .val)) (upd demoV 1 (some [])) (upd (upd demoV 1 (some [])) 1 (some thirty)) none :=
    .assignRange (upd_same _ _ _) (AreAll.vals _) (by decide)
  obtain ⟨s2, hr2, h2, _⟩ := h1.next sp' o1
    (demo_short (short_upd (short_upd demoV_len (by intro zs h; cases h; decide)) (by intro zs h; cases h; decide)) (by intro i n h; cases h))
  have k2 := C90_partial h1.reach sp' rfl sh1 (upd_same _ _ _) (show 0 + 30 ≤ c by omega)
  rw [hr2] at k2
  obtain ⟨t2, sh2⟩ := k2
  exact ⟨s, s1, s2, _, d, c, t, t1, t2, h, sh, hr1, sh1, hr2, sh2⟩

end Ptl.Str

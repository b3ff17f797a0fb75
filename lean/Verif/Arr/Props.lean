import Verif.Arr.Steps
import Verif.Iter.Containers
import Verif.Ops

/-!
# C55: `array` – construction, access, fill, swap, comparison; and C56 for its iterators

`N ≤ ptrdiffMax`: no array has more elements than pointer differences can express.
-/

set_option linter.unusedSectionVars false

namespace Ptl.Arr

open View (Loc Mem)
open Iter (It)

variable {α : Type} {E : Elem α} {N : Nat} {s s' : St α} {V V' : Vars α} {i j k : Nat} {xs ys vs : List α} {x y v : α} {op : Op α}
  {args : List (Arg α)}

/-! ### construction -/

theorem Takes.frame (h : Takes E args V vs V') : (∀ i, V i = none → V' i = none) ∧
    ((∀ i xs, V i = some xs → xs.length = N) → ∀ i xs, V' i = some xs → xs.length = N) ∧ vs.length = args.length := by
  induction h with
  | nil => exact ⟨fun _ h => h, fun h => h, rfl⟩
  | val _ ih => exact ⟨ih.1, ih.2.1, by simp [ih.2.2]⟩
  | elem _ _ _ ih => exact ⟨ih.1, ih.2.1, by simp [ih.2.2]⟩
  | @mv j k v ys as V vs V' hj _ _ ih =>
    refine ⟨fun i hi => ih.1 i ?_, fun hl => ih.2.1 ?_, by simp [ih.2.2]⟩
    · rw [upd_ne _ _ (by rintro rfl; rw [hj] at hi; cases hi)]; exact hi
    · intro i xs hi
      by_cases e : i = j
      · subst e; rw [upd_same] at hi; cases hi; rw [List.length_set]; exact hl _ _ hj
      · rw [upd_ne _ _ e] at hi; exact hl _ _ hi

theorem fallible_run : Run (fallible s) (fun _ s' => s'.mem = s.mem ∧ s'.orc = s.orc)
    (fun e s' => e = .user ∧ s'.mem = s.mem ∧ s'.orc = s.orc ∧ ∃ t, s.orc t = true) := by
  unfold fallible
  split
  · exact ⟨rfl, rfl, rfl, _, by assumption⟩
  · exact ⟨rfl, rfl⟩

theorem takeAll_run (h : Takes E args V vs V') : ∀ s : St α, s.mem = V → Run (takeAll E args s)
    (fun us s' => us = vs ∧ s'.mem = V' ∧ s'.orc = s.orc)
    (fun e s' => e = .user ∧ s'.orc = s.orc ∧ (∃ t, s.orc t = true) ∧ ∃ n vs', Takes E (args.take n) V vs' s'.mem) := by
  induction h with
  | nil => intro s hs; exact ⟨rfl, hs, rfl⟩
  | @val v as V vs V' _ ih =>
    intro s hs
    unfold takeAll Arg.take
    rw [M.bind_assoc']
    refine Run.bind fallible_run ?_ ?_
    · rintro _ s1 ⟨h1, h2⟩
      show Run ((takeAll E as >>= _) s1) _ _
      refine Run.bind (ih s1 (h1.trans hs)) ?_ ?_
      · rintro us s2 ⟨rfl, h3, h4⟩
        exact ⟨rfl, h3, h4.trans h2⟩
      · rintro e s2 ⟨h3, h4, ⟨t, h5⟩, n, vs', h6⟩
        exact ⟨h3, h4.trans h2, ⟨t, h2 ▸ h5⟩, n + 1, v :: vs', .val h6⟩
    · rintro e s1 ⟨h0, h1, h2, h3⟩
      exact ⟨h0, h2, h3, 0, [], by rw [h1, hs]; exact .nil⟩
  | @elem j k v ys as V vs V' hj hk _ ih =>
    intro s hs
    unfold takeAll Arg.take
    rw [M.bind_assoc']
    refine Run.bind fallible_run ?_ ?_
    · rintro _ s1 ⟨h1, h2⟩
      rw [M.bind_ok (read_k (s := s1) (by rw [h1, hs]; exact hj) hk)]
      show Run ((takeAll E as >>= _) s1) _ _
      refine Run.bind (ih s1 (h1.trans hs)) ?_ ?_
      · rintro us s2 ⟨rfl, h3, h4⟩
        exact ⟨rfl, h3, h4.trans h2⟩
      · rintro e s2 ⟨h3, h4, ⟨t, h5⟩, n, vs', h6⟩
        exact ⟨h3, h4.trans h2, ⟨t, h2 ▸ h5⟩, n + 1, v :: vs', .elem hj hk h6⟩
    · rintro e s1 ⟨h0, h1, h2, h3⟩
      exact ⟨h0, h2, h3, 0, [], by rw [h1, hs]; exact .nil⟩
  | @mv j k v ys as V vs V' hj hk _ ih =>
    intro s hs
    have hj' : s.mem j = some ys := by rw [hs]; exact hj
    unfold takeAll Arg.take
    rw [M.bind_assoc', M.bind_ok (read_k hj' hk), M.bind_assoc', M.bind_ok (write_k hj' (List.getElem?_eq_some_iff.1 hk).1 _)]
    show Run ((takeAll E as >>= _) { s with mem := upd s.mem j (some (ys.set k (E.moved v))) }) _ _
    refine Run.bind (ih _ (by show upd s.mem _ _ = _; rw [hs])) ?_ ?_
    · rintro us s2 ⟨rfl, h3, h4⟩
      exact ⟨rfl, h3, h4⟩
    · rintro e s2 ⟨h3, h4, ⟨t, h5⟩, n, vs', h6⟩
      exact ⟨h3, h4, ⟨t, h5⟩, n + 1, v :: vs', .mv hj hk h6⟩

theorem takeDefaults_run : ∀ (n : Nat) (s : St α), Run (takeDefaults E n s)
    (fun us s' => us = List.replicate n E.dflt ∧ s'.mem = s.mem ∧ s'.orc = s.orc)
    (fun e s' => e = .user ∧ s'.mem = s.mem ∧ s'.orc = s.orc ∧ ∃ t, s.orc t = true)
  | 0, _ => ⟨rfl, rfl, rfl⟩
  | n + 1, s => by
    unfold takeDefaults
    refine Run.bind fallible_run ?_ (fun _ _ h => h)
    rintro _ s1 ⟨h1, h2⟩
    refine Run.bind (takeDefaults_run n s1) ?_ ?_
    · rintro us s2 ⟨rfl, h3, h4⟩
      exact ⟨rfl, h3.trans h1, h4.trans h2⟩
    · rintro e s2 ⟨h3, h4, h5, t, h6⟩
      exact ⟨h3, h4.trans h1, h5.trans h2, t, h2 ▸ h6⟩

theorem newObj_ok (h : s.mem i = none) (xs : List α) : newObj i xs s = .ok () { s with mem := upd s.mem i (some xs) } := by
  simp [newObj, h]

theorem takes_elems (hj : V j = some ys) : ∀ (n k : Nat), k + n = ys.length →
    Takes E ((List.range' k n).map fun c => .elem j c) V (ys.drop k) V
  | 0, k, h => by rw [List.drop_of_length_le (by omega)]; exact .nil
  | n + 1, k, h => by
    rw [List.range'_succ, List.map_cons, List.drop_eq_getElem_cons (by omega : k < ys.length)]
    exact .elem hj (List.getElem?_eq_getElem _) (takes_elems hj n (k + 1) (by omega))

theorem takes_elems_frame {l : List Nat} : Takes E (l.map fun c => .elem j c) V vs V' → V' = V := by
  induction l generalizing vs with
  | nil => intro h; cases h; rfl
  | cons c l ih =>
    intro h
    cases h with
    | elem _ _ h' => exact ih h'

theorem takeAll_moves (hy : ys.length = N) (m0 : Mem α) : ∀ (n k : Nat) (s : St α), k + n = N →
    s.mem = upd m0 j (some (mix k (ys.map E.moved) ys)) →
    takeAll E ((List.range' k n).map fun c => .mv j c) s = .ok (ys.drop k) { s with mem := upd m0 j (some (ys.map E.moved)) } := by
  have hz : (ys.map E.moved).length = N := by simpa using hy
  intro n
  induction n with
  | zero =>
    intro k s hk hm
    have : k = N := by omega
    subst this
    rw [mix_all hz hy] at hm
    rw [← hm, List.drop_of_length_le (by omega)]
    rfl
  | succ n ih =>
    intro k s hk hm
    have hkN : k < N := by omega
    have hmj : s.mem j = some (mix k (ys.map E.moved) ys) := by rw [hm, upd_same]
    have hyk : ys[k]? = some (ys[k]'(by omega)) := List.getElem?_eq_getElem _
    have hym : (mix k (ys.map E.moved) ys)[k]? = some (ys[k]'(by omega)) := by
      rw [mix_get hz hy (by omega), if_neg (by omega)]; exact hyk
    have hzk : (ys.map E.moved)[k]? = some (E.moved (ys[k]'(by omega))) := by simp [hyk]
    have hml := mix_length hz hy (Nat.le_of_lt hkN)
    rw [List.range'_succ, List.map_cons]
    unfold takeAll Arg.take
    rw [M.bind_assoc', M.bind_ok (read_k hmj hym), M.bind_assoc', M.bind_ok (write_k hmj (by omega) _)]
    show (takeAll E _ >>= _) _ = _
    rw [M.bind_ok (ih (k + 1) { s with mem := upd s.mem j (some ((mix k (ys.map E.moved) ys).set k (E.moved (ys[k]'(by omega))))) }
      (by omega) (by show upd s.mem _ _ = _; rw [mix_set hz hy hkN hzk, hm, upd_upd]))]
    rw [List.drop_eq_getElem_cons (by omega : k < ys.length)]
    rfl

/-! ### the invariant -/

/-- memory is what the specification says, and arrays have `Size` elements -/
structure Inv (N : Nat) (s : St α) (V : Vars α) : Prop where
  mem : s.mem = V
  len : ∀ i xs, V i = some xs → xs.length = N

theorem len_upd (h : ∀ i xs, V i = some xs → xs.length = N) (hx : xs.length = N) (i : Nat) :
    ∀ j ys, upd V i (some xs) j = some ys → ys.length = N := by
  intro j ys hj
  by_cases e : j = i
  · subst e; rw [upd_same] at hj; cases hj; exact hx
  · rw [upd_ne _ _ e] at hj; exact h _ _ hj

theorem torn_len (hx : xs.length = N) (hy : ys.length = N) (hk : xs[k]? = some x) (z : α) :
    (ys.take k ++ z :: xs.drop (k + 1)).length = N := by
  have : k < xs.length := (List.getElem?_eq_some_iff.1 hk).1
  simp
  omega

theorem Spec.len {o : Option Exc} (h : ∀ i xs, V i = some xs → xs.length = N) (hs : Spec E N op V o V') :
    ∀ i xs, V' i = some xs → xs.length = N := by
  cases hs with
  | ctor h0 hl ht =>
    have f := ht.frame (N := N)
    exact len_upd (f.2.1 h) (by simp [f.2.2]; omega) _
  | ctorThrows h0 hl ht ht' => exact (ht'.frame (N := N)).2.1 h
  | ctorCopy h0 hj => exact len_upd h (h _ _ hj) _
  | ctorCopyThrows h0 hj => exact h
  | ctorMove h0 hj => exact len_upd (len_upd h (by simpa using h _ _ hj) _) (h _ _ hj) _
  | dtor hi =>
    rename_i i xs
    intro j ys hj
    by_cases e : j = i
    · subst e; rw [upd_same] at hj; cases hj
    · rw [upd_ne _ _ e] at hj; exact h _ _ hj
  | assignCopy hi hj => exact len_upd h (h _ _ hj) _
  | assignCopyThrows hi hj hk hk' => exact len_upd h (torn_len (h _ _ hi) (h _ _ hj) hk _) _
  | assignMove hij hi hj => exact len_upd (len_upd h (h _ _ hj) _) (by simpa using h _ _ hj) _
  | assignMoveSelf hi => exact len_upd h (by simpa using h _ _ hi) _
  | fill hi ha => exact len_upd h (by simp) _
  | fillThrows hi ha hk =>
    rename_i i k a v x xs
    refine len_upd h ?_ _
    have : k < xs.length := (List.getElem?_eq_some_iff.1 hk).1
    have := h _ _ hi
    simp
    omega
  | swap hi hj => exact len_upd (len_upd h (h _ _ hj) _) (h _ _ hi) _
  | setIndex hi hk => exact len_upd h (by simpa using h _ _ hi) _
  | setAt hi hk => exact len_upd h (by simpa using h _ _ hi) _
  | setAtThrows hi hk => exact h
  | setGet hi hk => exact len_upd h (by simpa using h _ _ hi) _
  | setFront hi hk => exact len_upd h (by simpa using h _ _ hi) _
  | setBack hi hk => exact len_upd h (by simpa using h _ _ hi) _
  | setIter hi hk => exact len_upd h (by simpa using h _ _ hi) _

/-- the outcome is one that the specification allows -/
abbrev Allowed (E : Elem α) (N : Nat) (op : Op α) (V : Vars α) (s : St α) : Prop :=
  Run (op.run E N s) (fun _ s' => Spec E N op V none s'.mem ∧ s'.orc = s.orc)
    (fun e s' => Spec E N op V (some e) s'.mem ∧ s'.orc = s.orc ∧ (e = .user → ∃ t, s.orc t = true))

theorem step_ctor (h : Inv N s V) (h0 : V i = none) (hl : args.length ≤ N) (ht : Takes E args V vs V') :
    Allowed E N (.ctor i args) V s := by
  have f := ht.frame (N := N)
  show Run (ctor E N i args s) _ _
  unfold ctor
  rw [if_pos hl]
  refine Run.bind (takeAll_run ht s h.mem) ?_ ?_
  · rintro us s1 ⟨rfl, h1, h2⟩
    refine Run.bind (takeDefaults_run _ s1) ?_ ?_
    · rintro ds s2 ⟨rfl, h3, h4⟩
      rw [newObj_ok (by rw [h3, h1]; exact f.1 _ h0)]
      refine ⟨?_, h4.trans h2⟩
      show Spec E N _ V none (upd s2.mem _ _)
      rw [h3, h1]
      exact .ctor h0 hl ht
    · rintro e s2 ⟨rfl, h4, h5, t, h6⟩
      refine ⟨?_, h5.trans h2, fun _ => ⟨t, h2 ▸ h6⟩⟩
      rw [h4, h1]
      exact .ctorThrows (n := args.length) h0 hl ht (by rw [List.take_length]; exact ht)
  · rintro e s1 ⟨rfl, h2, h3, n, vs', h4⟩
    exact ⟨.ctorThrows h0 hl ht h4, h2, fun _ => h3⟩

theorem step_fill (hN : N ≤ ptrdiffMax) (h : Inv N s V) {a : Arg α} (hi : V i = some xs) (ha : a.Is V v) :
    Allowed E N (.fill i a) V s := by
  have hx := h.len _ _ hi
  have hi' : s.mem i = some xs := by rw [h.mem]; exact hi
  have hr : (List.replicate N v).length = N := by simp
  show Run (fill E N i a s) _ _
  unfold fill
  rw [M.bind_ok (begin_ok hi'), M.bind_ok (end_ok hi' hx hN)]
  have hread : ∀ (j k : Nat) (ys : List α), V j = some ys → ys[k]? = some v → ∀ (c : Nat) (s1 : St α), c ≤ N →
      s1.mem = upd s.mem i (some (mix c (List.replicate N v) xs)) → readLoc ⟨j, k⟩ s1 = .ok v s1 := by
    intro j k ys hj hk c s1 hc hm
    by_cases e : j = i
    · subst e
      rw [hi] at hj; cases hj
      have hk' : k < xs.length := (List.getElem?_eq_some_iff.1 hk).1
      refine read_k (xs := mix c (List.replicate N v) xs) (by rw [hm, upd_same]) ?_
      rw [mix_get hr hx hc]
      split
      · rw [List.getElem?_replicate, if_pos (by omega)]
      · exact hk
    · refine read_k (xs := ys) ?_ hk
      rw [hm, upd_ne _ _ e, h.mem]
      exact hj
  refine (fillLoop_run hx s (v := v) ?_ N 0 s (by omega) (by rw [mix_zero, upd_eq _ _ _ hi']) rfl).mono ?_ ?_
  · intro c s1 hc hm
    cases ha with
    | val => rfl
    | elem hj hk => exact hread _ _ _ hj hk c s1 hc hm
    | mv hj hk => exact hread _ _ _ hj hk c s1 hc hm
  · rintro _ s1 ⟨h1, h2⟩
    refine ⟨?_, h2⟩
    rw [h1, h.mem]
    exact .fill hi ha
  · rintro e s1 ⟨rfl, h2, h3, c, x, y, h4, h5, h6⟩
    refine ⟨?_, h2, fun _ => h3⟩
    have hc : c < N := hx ▸ (List.getElem?_eq_some_iff.1 h4).1
    have hy : y = v := by rw [List.getElem?_replicate, if_pos hc] at h5; exact (Option.some.inj h5).symm
    subst hy
    rw [h6, h.mem, List.take_replicate, Nat.min_eq_left (by omega)]
    exact .fillThrows hi ha h4

theorem step_assignCopy (h : Inv N s V) (hi : V i = some xs) (hj : V j = some ys) : Allowed E N (.assignCopy i j) V s := by
  have hx := h.len _ _ hi
  have hy := h.len _ _ hj
  have hi' : s.mem i = some xs := by rw [h.mem]; exact hi
  have hj' : s.mem j = some ys := by rw [h.mem]; exact hj
  show Run (assignCopy E N i j s) _ _
  unfold assignCopy
  rw [M.bind_ok (alive_ok hj'), M.bind_ok (alive_ok hi')]
  refine (copyLoop_run hx hy s ?_ N 0 s (by omega) (by rw [mix_zero, upd_eq _ _ _ hi']) rfl).mono ?_ ?_
  · intro c s1 y hc hm hyc
    by_cases e : j = i
    · subst e
      rw [hi] at hj; cases hj
      rw [mix_self] at hm
      exact read_k (xs := xs) (by rw [hm, upd_same]) hyc
    · exact read_k (xs := ys) (by rw [hm, upd_ne _ _ e, hj']) hyc
  · rintro _ s1 ⟨h1, h2⟩
    refine ⟨?_, h2⟩
    rw [h1, h.mem]
    exact .assignCopy hi hj
  · rintro e s1 ⟨rfl, h2, h3, c, x, y, h4, h5, h6⟩
    refine ⟨?_, h2, fun _ => h3⟩
    rw [h6, h.mem]
    exact .assignCopyThrows hi hj h4 h5

theorem step_set {l : AM α Loc} (h : Inv N s V) (hi : V i = some xs) (hk : k < N) (hl : l s = .ok ⟨i, k⟩ s) (v : α) :
    (l >>= fun l => writeLoc l v) s = .ok () { s with mem := upd V i (some (xs.set k v)) } := by
  rw [M.bind_ok hl, write_k (by rw [h.mem]; exact hi) (by rw [h.len _ _ hi]; exact hk), h.mem]

theorem step_ctorCopy (h : Inv N s V) (h0 : V i = none) (hj : V j = some ys) : Allowed E N (.ctorCopy i j) V s := by
  have hy := h.len _ _ hj
  show Run (ctorCopy E N i j s) _ _
  unfold ctorCopy
  rw [M.bind_ok (alive_ok (by rw [h.mem]; exact hj)), List.range_eq_range']
  refine Run.bind (takeAll_run (takes_elems hj N 0 (by omega)) s h.mem) ?_ ?_
  · rintro us s1 ⟨rfl, h1, h2⟩
    rw [newObj_ok (by rw [h1]; exact h0)]
    refine ⟨?_, h2⟩
    show Spec E N _ V none (upd s1.mem _ _)
    rw [h1]
    exact .ctorCopy h0 hj
  · rintro e s1 ⟨rfl, h2, h3, n, vs', h4⟩
    rw [← List.map_take] at h4
    refine ⟨?_, h2, fun _ => h3⟩
    rw [takes_elems_frame h4]
    exact .ctorCopyThrows h0 hj

theorem step (hN : N ≤ ptrdiffMax) (h : Inv N s V) (hp : Pre E N op V) : Allowed E N op V s := by
  obtain ⟨o, V', hs⟩ := hp
  have get : ∀ {i : Nat} {xs : List α}, V i = some xs → s.mem i = some xs := by intro i xs hi; rw [h.mem]; exact hi
  have good : ∀ {o : Op α} {V' : Vars α}, Spec E N o V none V' → o.run E N s = .ok () { s with mem := V' } → Allowed E N o V s := by
    intro o V' ho hr
    unfold Allowed
    rw [hr]
    exact ⟨ho, rfl⟩
  cases hs with
  | ctor h0 hl ht => exact step_ctor h h0 hl ht
  | ctorThrows h0 hl ht ht' => exact step_ctor h h0 hl ht
  | ctorCopy h0 hj => exact step_ctorCopy h h0 hj
  | ctorCopyThrows h0 hj => exact step_ctorCopy h h0 hj
  | @ctorMove i j ys _ h0 hj =>
    refine good (.ctorMove h0 hj) ?_
    show ctorMove E N i j s = _
    unfold ctorMove
    rw [M.bind_ok (alive_ok (get hj)), List.range_eq_range',
      M.bind_ok (takeAll_moves (h.len _ _ hj) V N 0 s (by omega) (by rw [mix_zero, upd_eq _ _ _ hj, h.mem])),
      newObj_ok (by show upd V j _ i = none; rw [upd_ne _ _ (by rintro rfl; rw [h0] at hj; cases hj)]; exact h0)]
    rfl
  | @dtor i xs _ hi =>
    refine good (.dtor hi) ?_
    show dtor i s = _
    unfold dtor
    rw [← h.mem]
    exact M.bind_ok (alive_ok (get hi))
  | assignCopy hi hj => exact step_assignCopy h hi hj
  | assignCopyThrows hi hj hk hk' => exact step_assignCopy h hi hj
  | @assignMove i j xs ys _ hij hi hj =>
    refine good (.assignMove hij hi hj) ?_
    show assignMove E N i j s = _
    unfold assignMove
    rw [M.bind_ok (alive_ok (get hj)), M.bind_ok (alive_ok (get hi)),
      moveLoop_run (h.len _ _ hi) (h.len _ _ hj) hij V N 0 s (by omega)
        (by rw [mix_zero, mix_zero, upd_eq _ _ _ hi, upd_eq _ _ _ hj, h.mem])]
  | @assignMoveSelf i xs _ hi =>
    refine good (.assignMoveSelf hi) ?_
    show assignMove E N i i s = _
    unfold assignMove
    rw [M.bind_ok (alive_ok (get hi)), M.bind_ok (alive_ok (get hi)),
      moveLoop_self (h.len _ _ hi) V N 0 s (by omega) (by rw [mix_zero, upd_eq _ _ _ hi, h.mem])]
  | fill hi ha => exact step_fill hN h hi ha
  | fillThrows hi ha hk => exact step_fill hN h hi ha
  | @swap i j xs ys _ hi hj =>
    refine good (.swap hi hj) ?_
    show swap N i j s = _
    unfold swap
    refine M.noexcept_ok ?_
    rw [M.bind_ok (begin_ok (get hi)), M.bind_ok (end_ok (get hi) (h.len _ _ hi) hN), M.bind_ok (begin_ok (get hj))]
    by_cases hij : i = j
    · subst hij
      rw [hi] at hj; cases hj
      rw [swapLoop_self (h.len _ _ hi) (get hi) N 0 (by omega), upd_upd, upd_eq _ _ _ hi, ← h.mem]
    · rw [swapLoop_run (h.len _ _ hi) (h.len _ _ hj) hij V N 0 s (by omega)
        (by rw [mix_zero, mix_zero, upd_eq _ _ _ hi, upd_eq _ _ _ hj, h.mem])]
  | setIndex hi hk => exact good (.setIndex hi hk) (step_set h hi hk (index_k (get hi) (h.len _ _ hi) hk) _)
  | setAt hi hk =>
    refine good (.setAt hi hk) (step_set h hi hk ?_ _)
    rw [at_, if_neg (by unfold size; omega)]
    exact index_k (get hi) (h.len _ _ hi) hk
  | @setAtThrows i k v xs _ hi hk =>
    have : (Op.setAt i k v).run E N s = .exc .outOfRange s := by
      refine M.bind_exc ?_
      rw [at_, if_pos (by exact hk)]
      rfl
    unfold Allowed
    rw [this]
    refine ⟨?_, rfl, fun h => by cases h⟩
    rw [h.mem]
    exact .setAtThrows hi hk
  | setGet hi hk =>
    refine good (.setGet hi hk) (step_set h hi hk ?_ _)
    rw [Arr.get, if_pos hk]
    exact index_k (get hi) (h.len _ _ hi) hk
  | setFront hi hk => exact good (.setFront hi hk) (step_set h hi hk (index_k (get hi) (h.len _ _ hi) hk) _)
  | setBack hi hk =>
    refine good (.setBack hi hk) (step_set h hi (by omega) ?_ _)
    have e : szSub (size N) 1 = N - 1 := szSub_eq hk (by unfold size szMod; unfold ptrdiffMax at hN; omega)
    rw [back, e]
    exact index_k (get hi) (h.len _ _ hi) (by omega)
  | setIter hi hk => exact good (.setIter hi hk) (step_set h hi hk (iterAt_k (get hi) (h.len _ _ hi) hk) _)

theorem Takes.det (h : Takes E args V vs V') : ∀ {ws W}, Takes E args V ws W → ws = vs ∧ W = V' := by
  induction h with
  | nil => intro ws W h; cases h; exact ⟨rfl, rfl⟩
  | val _ ih => intro ws W h; cases h with | val h => obtain ⟨rfl, rfl⟩ := ih h; exact ⟨rfl, rfl⟩
  | elem hj hk _ ih =>
    intro ws W h
    cases h with
    | elem hj' hk' h =>
      rw [hj] at hj'; cases hj'
      rw [hk] at hk'; cases hk'
      obtain ⟨rfl, rfl⟩ := ih h; exact ⟨rfl, rfl⟩
  | mv hj hk _ ih =>
    intro ws W h
    cases h with
    | mv hj' hk' h =>
      rw [hj] at hj'; cases hj'
      rw [hk] at hk'; cases hk'
      obtain ⟨rfl, rfl⟩ := ih h; exact ⟨rfl, rfl⟩

theorem Arg.Is.det {a : Arg α} {w : α} (h : a.Is V v) (h' : a.Is V w) : v = w := by
  cases h with
  | val => cases h'; rfl
  | elem hj hk => cases h' with | elem hj' hk' => rw [hj] at hj'; cases hj'; rw [hk] at hk'; cases hk'; rfl
  | mv hj hk => cases h' with | mv hj' hk' => rw [hj] at hj'; cases hj'; rw [hk] at hk'; cases hk'; rfl

/-- the specification says uniquely what a call that returns does -/
theorem Spec.det {W W' : Vars α} (h : Spec E N op V none W) (h' : Spec E N op V none W') : W = W' := by
  cases h with
  | ctor h0 hl ht => cases h' with | ctor h0' hl' ht' => obtain ⟨rfl, rfl⟩ := ht.det ht'; rfl
  | ctorCopy h0 hj => cases h' with | ctorCopy h0' hj' => rw [hj] at hj'; cases hj'; rfl
  | ctorMove h0 hj => cases h' with | ctorMove h0' hj' => rw [hj] at hj'; cases hj'; rfl
  | dtor => cases h'; rfl
  | assignCopy hi hj => cases h' with | assignCopy hi' hj' => rw [hj] at hj'; cases hj'; rfl
  | assignMove hij hi hj =>
    cases h' with
    | assignMove hij' hi' hj' => rw [hj] at hj'; cases hj'; rfl
    | assignMoveSelf => exact absurd rfl hij
  | assignMoveSelf hi =>
    cases h' with
    | assignMove hij' hi' hj' => exact absurd rfl hij'
    | assignMoveSelf hi' => rw [hi] at hi'; cases hi'; rfl
  | fill hi ha => cases h' with | fill hi' ha' => rw [ha.det ha']
  | swap hi hj => cases h' with | swap hi' hj' => rw [hj] at hj'; cases hj'; rw [hi] at hi'; cases hi'; rfl
  | setIndex hi hk => cases h' with | setIndex hi' _ => rw [hi] at hi'; cases hi'; rfl
  | setAt hi hk => cases h' with | setAt hi' _ => rw [hi] at hi'; cases hi'; rfl
  | setGet hi hk => cases h' with | setGet hi' _ => rw [hi] at hi'; cases hi'; rfl
  | setFront hi hk => cases h' with | setFront hi' _ => rw [hi] at hi'; cases hi'; rfl
  | setBack hi hk => cases h' with | setBack hi' _ => rw [hi] at hi'; cases hi'; rfl
  | @setIter i v k xs _ hi hk =>
    generalize hq : Op.setIter i (k : Int) v = op at h'
    cases h' with
    | setIter hi' _ =>
      simp only [Op.setIter.injEq, Int.natCast_inj] at hq
      obtain ⟨rfl, rfl, rfl⟩ := hq
      rw [hi] at hi'; cases hi'; rfl
    | _ => cases hq

theorem Reach.inv (hN : N ≤ ptrdiffMax) (h : Reach E N s V) : Inv N s V := by
  induction h with
  | start => exact ⟨rfl, fun _ _ h => by cases h⟩
  | @ok s s' V V' op _ hs hr ih =>
    have := step hN ih ⟨_, _, hs⟩
    unfold Allowed at this
    rw [hr] at this
    exact ⟨Spec.det this.1 hs, hs.len ih.len⟩
  | thrown _ hs hr hm ih => exact ⟨hm, hs.len ih.len⟩

/-! ## C55: calls -/

theorem Reach.call (h : Reach E N s V) (hN : N ≤ ptrdiffMax) (hp : Pre E N op V) :
    (∃ s' V', op.run E N s = .ok () s' ∧ Spec E N op V none V' ∧ Reach E N s' V') ∨
    (∃ e s' V', op.run E N s = .exc e s' ∧ Spec E N op V (some e) V' ∧ Reach E N s' V') := by
  have := step hN (h.inv hN) hp
  unfold Allowed at this
  cases hr : op.run E N s with
  | ok _ s' => rw [hr] at this; exact .inl ⟨s', _, rfl, this.1, h.ok this.1 hr⟩
  | exc e s' => rw [hr] at this; exact .inr ⟨e, s', _, rfl, this.1, h.thrown this.1 hr rfl⟩
  | ub => rw [hr] at this; exact this.elim
  | term => rw [hr] at this; exact this.elim

/-- C55: a call throws something other than `out_of_range` only if an operation of an element threw -/
theorem C55_no_spurious (hN : N ≤ ptrdiffMax) (h : Reach E N s V) (hp : Pre E N op V) (horc : ∀ t, s.orc t = false) {e : Exc}
    (hr : op.run E N s = .exc e s') : e = .outOfRange := by
  have := step hN (h.inv hN) hp
  unfold Allowed at this
  rw [hr] at this
  have hu : e ≠ .user := fun he => by
    obtain ⟨t, ht⟩ := this.2.2 he
    rw [horc] at ht; cases ht
  obtain ⟨hs, -, -⟩ := this
  revert hs
  generalize s'.mem = W
  intro hs
  cases hs with
  | ctorThrows => exact absurd rfl hu
  | ctorCopyThrows => exact absurd rfl hu
  | assignCopyThrows => exact absurd rfl hu
  | fillThrows => exact absurd rfl hu
  | setAtThrows => rfl

theorem Reach.next (hN : N ≤ ptrdiffMax) (h : Reach E N s V) (hs : Spec E N op V none V') (horc : ∀ t, s.orc t = false) :
    ∃ s', op.run E N s = .ok () s' ∧ Reach E N s' V' ∧ ∀ t, s'.orc t = false := by
  have := step hN (h.inv hN) ⟨_, _, hs⟩
  unfold Allowed at this
  cases hr : op.run E N s with
  | ok _ s' => rw [hr] at this; exact ⟨s', rfl, h.ok hs hr, fun t => by rw [this.2]; exact horc t⟩
  | exc e s' =>
    rw [hr] at this
    obtain ⟨h', -, -⟩ := this
    have := C55_no_spurious hN h ⟨_, _, hs⟩ horc hr
    subst this
    cases hs with
    | setAt _ hk => exact absurd h' (by intro h'; generalize s'.mem = W at h'; cases h'; omega)
    | _ => exact absurd h' (by intro h'; generalize s'.mem = W at h'; cases h')
  | ub => rw [hr] at this; exact this.elim
  | term => rw [hr] at this; exact this.elim

/-! ## C55: access -/

theorem Inv.shows (hN : N ≤ ptrdiffMax) (hinv : Inv N s V) (hi : V i = some xs) : Shows N s i xs := by
  have hl := hinv.len _ _ hi
  have hi' : s.mem i = some xs := by rw [hinv.mem]; exact hi
  refine ⟨hl, ?_, fun k hk => index_k hi' hl (by omega), fun k hk => ?_, fun k hk => ?_, fun k hk => ?_, fun hx => ?_, fun hx => ?_,
    fun k hk => iterAt_k hi' hl (by omega), fun k v hv => read_k hi' hv⟩
  · rw [Arr.empty, size, ← hl, Bool.eq_iff_iff]; simp
  · rw [at_, if_neg (by unfold size; omega)]; exact index_k hi' hl (by omega)
  · rw [at_, if_pos (by unfold size; omega)]; rfl
  · rw [Arr.get, if_pos (by omega)]; exact index_k hi' hl (by omega)
  · have := List.length_pos_iff.2 hx
    exact index_k hi' hl (by omega)
  · have := List.length_pos_iff.2 hx
    have e : szSub (size N) 1 = N - 1 := szSub_eq (by unfold size; omega) (by unfold size szMod; unfold ptrdiffMax at hN; omega)
    rw [back, e, hl]
    exact index_k hi' hl (by omega)

/-- C55: after every history, the client sees of every array exactly the elements the specification says: `[k]`, `at(k)`,
`get<k>`, `front()`, `back()` and `begin()[k]` lead to the very element `k`, and `at` throws beyond the end. -/
theorem C55_shows (hN : N ≤ ptrdiffMax) (h : Reach E N s V) (hi : V i = some xs) : Shows N s i xs := (h.inv hN).shows hN hi

/-- what the client sees of all arrays is what the specification says: which ones are alive, and the contents of those -/
def Agrees (N : Nat) (s : St α) (V : Vars α) : Prop := ∀ i, (∀ xs, V i = some xs → Shows N s i xs) ∧ (V i = none → s.mem i = none)

theorem Reach.agrees (h : Reach E N s V) (hN : N ≤ ptrdiffMax) : Agrees N s V :=
  fun _ => ⟨fun _ hi => C55_shows hN h hi, fun hi => by rw [(h.inv hN).mem]; exact hi⟩

/-- C55: after every history, a call within its preconditions does what the specification says, or throws and does what the
specification says about that; nothing else can happen.  `at` throws `out_of_range`; otherwise only what an element throws. -/
theorem C55_call (hN : N ≤ ptrdiffMax) (h : Reach E N s V) (hp : Pre E N op V) :
    (∃ s' V', op.run E N s = .ok () s' ∧ Spec E N op V none V' ∧ Reach E N s' V' ∧ Agrees N s' V') ∨
    (∃ e s' V', op.run E N s = .exc e s' ∧ Spec E N op V (some e) V' ∧ Reach E N s' V' ∧ Agrees N s' V') := by
  rcases h.call hN hp with ⟨s', V', h1, h2, h3⟩ | ⟨e, s', V', h1, h2, h3⟩
  · exact .inl ⟨s', V', h1, h2, h3, h3.agrees hN⟩
  · exact .inr ⟨e, s', V', h1, h2, h3, h3.agrees hN⟩

theorem Reach.of_shows (hN : N ≤ ptrdiffMax) (h : Reach E N s V) (hx : xs ≠ []) (hsh : Shows N s i xs) : V i = some xs := by
  have hinv := h.inv hN
  cases hi : V i with
  | none =>
    have h0 := hsh.index 0 (List.length_pos_iff.2 hx)
    have : data N i s = .ub .deadObject := by
      unfold data
      rw [M.bind_run]
      simp [alive, hinv.mem, hi]
    unfold index at h0
    rw [M.bind_run, this] at h0
    cases h0
  | some ys =>
    have h2 := C55_shows hN h hi
    congr 1
    apply List.ext_getElem
    · rw [h2.length, hsh.length]
    · intro k h3 h4
      have e1 := h2.value k _ (List.getElem?_eq_getElem h3)
      have e2 := hsh.value k _ (List.getElem?_eq_getElem h4)
      rw [e1] at e2
      simpa using e2

/-- C55: `fill` sets every element, also when the argument is an element of the same array -/
theorem C55_fill (hN : N ≤ ptrdiffMax) (h : Reach E N s V) {a : Arg α} (hi : V i = some xs) (ha : a.Is V v)
    (hr : (Op.fill i a).run E N s = .ok () s') : Shows N s' i (List.replicate N v) ∧
      ∀ j ys, j ≠ i → V j = some ys → Shows N s' j ys := by
  have h' := h.ok (.fill hi ha) hr
  refine ⟨C55_shows hN h' (upd_same _ _ _), fun j ys hj hy => C55_shows hN h' ?_⟩
  rw [upd_ne _ _ hj]; exact hy

/-- C55: `swap` cannot fail and exchanges the contents of two arrays; a self-swap changes nothing -/
theorem C55_swap (hN : N ≤ ptrdiffMax) (h : Reach E N s V) (hi : V i = some xs) (hj : V j = some ys) :
    ∃ s', (Op.swap i j).run E N s = .ok () s' ∧ Shows N s' i ys ∧ Shows N s' j xs ∧
      ∀ k zs, k ≠ i → k ≠ j → V k = some zs → Shows N s' k zs := by
  have hs : Spec E N (.swap i j) V none _ := .swap hi hj
  rcases h.call hN ⟨_, _, hs⟩ with ⟨s', V', hr, hs', h'⟩ | ⟨e, s', V', hr, hs', h'⟩
  · cases hs' with
    | swap hi' hj' =>
      rw [hi] at hi'; cases hi'
      rw [hj] at hj'; cases hj'
      refine ⟨s', hr, C55_shows hN h' ?_, C55_shows hN h' (upd_same _ _ _), fun k zs hki hkj hk => C55_shows hN h' ?_⟩
      · by_cases e : i = j
        · subst e; rw [hi] at hj; cases hj; exact upd_same _ _ _
        · rw [upd_ne _ _ e, upd_same]
      · rw [upd_ne _ _ hkj, upd_ne _ _ hki]; exact hk
  · cases hs'

/-- C55: a copy has equal contents, and later changes to one do not affect the other (arrays are disjoint objects) -/
theorem C55_independent (hN : N ≤ ptrdiffMax) (h : Reach E N s V) (h0 : V i = none) (hj : V j = some ys)
    (hr : (Op.ctorCopy i j).run E N s = .ok () s') : Shows N s' i ys ∧ Shows N s' j ys ∧
      ∀ k v s'', k < N → (Op.setIndex i k v).run E N s' = .ok () s'' → Shows N s'' i (ys.set k v) ∧ Shows N s'' j ys := by
  have hij : j ≠ i := by rintro rfl; rw [h0] at hj; cases hj
  have h' := h.ok (.ctorCopy h0 hj) hr
  have hi' : upd V i (some ys) i = some ys := upd_same _ _ _
  have hj' : upd V i (some ys) j = some ys := by rw [upd_ne _ _ hij]; exact hj
  refine ⟨C55_shows hN h' hi', C55_shows hN h' hj', fun k v s'' hk hr' => ?_⟩
  have h'' := h'.ok (.setIndex hi' hk) hr'
  refine ⟨C55_shows hN h'' (upd_same _ _ _), C55_shows hN h'' ?_⟩
  rw [upd_ne _ _ hij]; exact hj'

/-! ## C55: comparison -/

theorem Inv.opEq (hN : N ≤ ptrdiffMax) (hinv : Inv N s V) (eq : α → α → Bool) (hi : V i = some xs) (hj : V j = some ys) :
    Arr.opEq N eq i j s = .ok (equalRange eq xs ys) s := by
  have hx := hinv.len _ _ hi
  have hy := hinv.len _ _ hj
  have hi' : s.mem i = some xs := by rw [hinv.mem]; exact hi
  have hj' : s.mem j = some ys := by rw [hinv.mem]; exact hj
  have diff : ∀ {i : Nat} {xs : List α}, s.mem i = some xs → xs.length = N →
      onMem (Iter.diff · ⟨ptrK N i N⟩ ⟨ptrK N i 0⟩) s = .ok (N : Int) s := by
    intro i xs hi hx
    refine onMem_ok ?_
    by_cases h0 : N = 0
    · subst h0; rfl
    · have p1 := points hi hx (by omega : 0 < N)
      have p2 : Iter.Points s.mem ⟨ptrK N i N⟩ i N N := ⟨by simp [ptrK, h0], ⟨xs, hi, hx⟩, by omega, by omega⟩
      rw [(Iter.C56_distance p1 p2).1]
      simp
  unfold Arr.opEq
  rw [M.bind_ok (begin_ok hi'), M.bind_ok (end_ok hi' hx hN), M.bind_ok (begin_ok hj'), M.bind_ok (end_ok hj' hy hN),
    M.bind_ok (diff hi' hx), M.bind_ok (diff hj' hy), if_neg (by simp), eqLoop_run eq hx hy hi' hj' N 0 (by omega), equalRange,
    if_neg (by simp [hx, hy])]
  rfl

theorem opEq_ok (hN : N ≤ ptrdiffMax) (h : Reach E N s V) (eq : α → α → Bool) (hi : V i = some xs) (hj : V j = some ys) :
    opEq N eq i j s = .ok (equalRange eq xs ys) s := (h.inv hN).opEq hN eq hi hj

theorem Inv.opLt (hN : N ≤ ptrdiffMax) (hinv : Inv N s V) (lt : α → α → Bool) (hi : V i = some xs) (hj : V j = some ys) :
    Arr.opLt N lt i j s = .ok (lexCompare lt xs ys) s := by
  have hx := hinv.len _ _ hi
  have hy := hinv.len _ _ hj
  have hi' : s.mem i = some xs := by rw [hinv.mem]; exact hi
  have hj' : s.mem j = some ys := by rw [hinv.mem]; exact hj
  unfold Arr.opLt
  rw [M.bind_ok (begin_ok hi'), M.bind_ok (end_ok hi' hx hN), M.bind_ok (begin_ok hj'), M.bind_ok (end_ok hj' hy hN),
    lexLoop_run lt hx hy hi' hj' N 0 (by omega)]
  rfl

theorem opLt_ok (hN : N ≤ ptrdiffMax) (h : Reach E N s V) (lt : α → α → Bool) (hi : V i = some xs) (hj : V j = some ys) :
    opLt N lt i j s = .ok (lexCompare lt xs ys) s := (h.inv hN).opLt hN lt hi hj

/-- C55: `<` is lexicographic order of the contents; comparing changes nothing -/
theorem C55_less (hN : N ≤ ptrdiffMax) (h : Reach E N s V) (lt : α → α → Bool) (hi : V i = some xs) (hj : V j = some ys) :
    ∃ b, opLt N lt i j s = .ok b s ∧ (b = true ↔ LexBefore (fun x y => lt x y = true) xs ys) :=
  ⟨_, opLt_ok hN h lt hi hj, lexCompare_iff lt xs ys⟩

/-- C55: `==` holds exactly if the elements are pairwise `==` -/
theorem C55_equal (hN : N ≤ ptrdiffMax) (h : Reach E N s V) (eq : α → α → Bool) (hi : V i = some xs) (hj : V j = some ys) :
    ∃ b, opEq N eq i j s = .ok b s ∧
      (b = true ↔ ∀ (k : Nat) (x y : α), xs[k]? = some x → ys[k]? = some y → eq x y = true) := by
  refine ⟨_, opEq_ok hN h eq hi hj, (equalRange_iff eq xs ys).trans ⟨fun h => h.2, fun h' => ⟨?_, h'⟩⟩⟩
  rw [(h.inv hN).len _ _ hi, (h.inv hN).len _ _ hj]

/-- C55: if element `==` is equality of values, then `==` is equality of the sequences -/
theorem C55_equal_iff_same (hN : N ≤ ptrdiffMax) (h : Reach E N s V) (eq : α → α → Bool) (heq : ∀ a b, eq a b = true ↔ a = b)
    (hi : V i = some xs) (hj : V j = some ys) : ∃ b, opEq N eq i j s = .ok b s ∧ (b = true ↔ xs = ys) :=
  ⟨_, opEq_ok hN h eq hi hj, equalRange_eq heq xs ys⟩

/-- C55: the six operators are consistent -/
theorem C55_consistent (hN : N ≤ ptrdiffMax) (h : Reach E N s V) (lt eq : α → α → Bool) (hi : V i = some xs) (hj : V j = some ys) :
    ∃ a b c, opLt N lt i j s = .ok a s ∧ opLt N lt j i s = .ok b s ∧ opEq N eq i j s = .ok c s ∧
      opGt N lt i j s = .ok b s ∧ opLe N lt i j s = .ok (!b) s ∧ opGe N lt i j s = .ok (!a) s ∧ opNe N eq i j s = .ok (!c) s := by
  refine ⟨_, _, _, opLt_ok hN h lt hi hj, opLt_ok hN h lt hj hi, opEq_ok hN h eq hi hj, opLt_ok hN h lt hj hi, ?_, ?_, ?_⟩
  · exact M.bind_ok (opLt_ok hN h lt hj hi)
  · exact M.bind_ok (opLt_ok hN h lt hi hj)
  · exact M.bind_ok (opEq_ok hN h eq hi hj)

/-- C55: if the element order is a strict weak order, so is `<` on arrays -/
theorem C55_strict_weak_order (hN : N ≤ ptrdiffMax) (h : Reach E N s V) {lt : α → α → Bool} (hlt : StrictWeak lt)
    {zs : List α} (hi : V i = some xs) (hj : V j = some ys) (hk : V k = some zs) :
    opLt N lt i i s = .ok false s ∧
    (opLt N lt i j s = .ok true s → opLt N lt j k s = .ok true s → opLt N lt i k s = .ok true s) ∧
    (opLt N lt i j s = .ok false s → opLt N lt j i s = .ok false s → opLt N lt j k s = .ok false s →
      opLt N lt k j s = .ok false s → opLt N lt i k s = .ok false s ∧ opLt N lt k i s = .ok false s) := by
  have hw := lexCompare_strictWeak hlt
  rw [opLt_ok hN h lt hi hi, opLt_ok hN h lt hi hj, opLt_ok hN h lt hj hk, opLt_ok hN h lt hi hk, opLt_ok hN h lt hj hi,
    opLt_ok hN h lt hk hj, opLt_ok hN h lt hk hi]
  simp only [Out.ok.injEq, and_true]
  exact ⟨hw.irrefl xs, hw.trans xs ys zs, fun h1 h2 h3 h4 => hw.incomp xs ys zs h1 h2 h3 h4⟩

/-- C55: if the element order is a strict total order, arrays that are not `<` either way have equal contents -/
theorem C55_strict_total_order (hN : N ≤ ptrdiffMax) (h : Reach E N s V) {lt : α → α → Bool} (hlt : StrictTotal lt)
    (hi : V i = some xs) (hj : V j = some ys) (h1 : opLt N lt i j s = .ok false s) (h2 : opLt N lt j i s = .ok false s) :
    xs = ys := by
  rw [opLt_ok hN h lt hi hj] at h1
  rw [opLt_ok hN h lt hj hi] at h2
  simp only [Out.ok.injEq, and_true] at h1 h2
  exact (lexCompare_strictTotal hlt).tri xs ys h1 h2

/-! ## C56 -/

/-- C56, array: after every history, the iterators of every array traverse exactly its elements -/
theorem C56_array (hN : N ≤ ptrdiffMax) (h : Reach E N s V) (hi : V i = some xs) :
    ∃ d, data N i s = .ok d s ∧ Iter.Traverses s.mem d (size N) xs := by
  have hinv := h.inv hN
  have hl := hinv.len _ _ hi
  have hi' : s.mem i = some xs := by rw [hinv.mem]; exact hi
  refine ⟨_, data_ok hi', Iter.Traverses.mk' (span hi' hl hN) ?_⟩
  by_cases h0 : N = 0
  · have : xs = [] := List.length_eq_zero_iff.1 (by omega)
    subst this
    simp [ptrK, h0, Iter.elems]
  · have e : ptrK N i 0 = .at i (0 : Nat) := by simp [ptrK, h0]
    rw [e]
    have := Iter.values_at (m := s.mem) (b := i) (o := 0) (xs := []) (ys := xs) (zs := []) (by simpa using hi') rfl
    rwa [hl] at this

/-! ### concrete cases -/

/-- an element type whose moved-from and self-moved objects become 0, and half-assigned ones 99 -/
def natElem : Elem Nat := { moved := fun _ => 0, selfMove := fun _ => 0, torn := fun _ _ => 99, dflt := 5 }

/-- two arrays of three elements: `{1, 2, 5}` and `{7, 7, 7}` -/
def demoV : Vars Nat := upd (upd (fun _ => none) 0 (some [1, 2, 5])) 1 (some [7, 7, 7])

/-- they are reached by a history of four calls -/
theorem demo : ∃ s, Reach natElem 3 s demoV ∧ ∀ t, s.orc t = false := by
  have hN : 3 ≤ ptrdiffMax := by decide
  obtain ⟨s1, _, h1, o1⟩ := (Reach.start (E := natElem) (N := 3) fun _ => false).next hN
    (.ctor (i := 0) (args := [.val 1, .val 2]) rfl (by decide) (.val (.val .nil))) (fun _ => rfl)
  obtain ⟨s2, _, h2, o2⟩ := h1.next hN (.ctorCopy (i := 1) (j := 0) rfl rfl) o1
  obtain ⟨s3, _, h3, o3⟩ := h2.next hN (.setAt (i := 1) (k := 1) (v := 7) rfl (by decide)) o2
  obtain ⟨s4, _, h4, o4⟩ := h3.next hN (.fill (i := 1) (a := .elem 1 1) (v := 7) rfl (.elem rfl rfl)) o3
  refine ⟨s4, ?_, o4⟩
  have e : demoV = upd (upd (upd (upd (fun _ => none) 0 (some [1, 2, 5])) 1 (some [1, 2, 5])) 1 (some [1, 7, 5])) 1 (some [7, 7, 7]) := by
    simp [demoV, upd_upd]
  rw [e]
  exact h4

example : ∃ s, Reach natElem 3 s demoV ∧ Shows 3 s 0 [1, 2, 5] ∧ Shows 3 s 1 [7, 7, 7] ∧
    opLt 3 (fun a b => decide (a < b)) 0 1 s = .ok true s ∧ opEq 3 (fun a b => decide (a = b)) 0 1 s = .ok false s ∧
    (∃ s', (Op.swap 0 1).run natElem 3 s = .ok () s' ∧ Shows 3 s' 0 [7, 7, 7] ∧ Shows 3 s' 1 [1, 2, 5]) ∧
    (∃ d, Iter.Traverses s.mem d 3 [1, 2, 5]) := by
  have hN : 3 ≤ ptrdiffMax := by decide
  obtain ⟨s, h, _⟩ := demo
  obtain ⟨s', h1, h2, h3, _⟩ := C55_swap hN h (i := 0) (j := 1) rfl rfl
  obtain ⟨d, _, hd⟩ := C56_array hN h (i := 0) rfl
  exact ⟨s, h, C55_shows hN h rfl, C55_shows hN h rfl, opLt_ok hN h _ (i := 0) (j := 1) rfl rfl,
    opEq_ok hN h _ (i := 0) (j := 1) rfl rfl, ⟨s', h1, h2, h3⟩, d, hd⟩

/-- `Size` 0: an array without elements; filling, swapping and comparing it is fine -/
example : ∃ s V, Reach natElem 0 s V ∧ Shows 0 s 0 [] ∧ (∃ s', (Op.fill 0 (.val 1)).run natElem 0 s = .ok () s' ∧ Shows 0 s' 0 []) ∧
    (∃ s', (Op.swap 0 0).run natElem 0 s = .ok () s') ∧ opEq 0 (fun _ _ => false) 0 0 s = .ok true s ∧
    at_ 0 0 0 s = .exc .outOfRange s := by
  have hN : 0 ≤ ptrdiffMax := by decide
  obtain ⟨s, _, h, ho⟩ := (Reach.start (E := natElem) (N := 0) fun _ => false).next hN
    (.ctor (i := 0) (args := []) rfl (by decide) .nil) (fun _ => rfl)
  obtain ⟨s1, h1, h1', _⟩ := h.next hN (.fill (i := 0) (a := .val 1) (v := 1) rfl .val) ho
  obtain ⟨s2, h2, _⟩ := C55_swap hN h (i := 0) (j := 0) rfl rfl
  exact ⟨s, _, h, C55_shows hN h rfl, ⟨s1, h1, C55_shows hN h1' rfl⟩, ⟨s2, h2⟩, opEq_ok hN h _ (i := 0) (j := 0) rfl rfl,
    (C55_shows hN h (i := 0) rfl).beyond 0 (by decide)⟩

/-- an assignment that throws half-way: exactly the elements before are assigned -/
example : ∃ s s' V, Reach natElem 3 s V ∧ (Op.fill 0 (.val 7)).run natElem 3 s = .exc .user s' ∧ Shows 3 s' 0 [7, 99, 5] := by
  have hN : 3 ≤ ptrdiffMax := by decide
  have h0 : Reach natElem 3 (start fun t => t == 4) (fun _ => none) := .start _
  let s1 : St Nat := ⟨upd (fun _ => none) 0 (some [1, 2, 5]), fun t => t == 4, 3⟩
  have h1 : Reach natElem 3 s1 _ := h0.ok (.ctor (i := 0) (args := [.val 1, .val 2]) rfl (by decide) (.val (.val .nil))) rfl
  let s2 : St Nat := ⟨upd (upd s1.mem 0 (some [7, 2, 5])) 0 (some [7, 99, 5]), s1.orc, 5⟩
  have hr : (Op.fill 0 (.val 7)).run natElem 3 s1 = .exc .user s2 := by
    rfl
  have h2 : Reach natElem 3 s2 (upd s1.mem 0 (some [7, 99, 5])) :=
    h1.thrown (.fillThrows (k := 1) (v := 7) (x := 2) (xs := [1, 2, 5]) rfl .val rfl) hr (upd_upd _ _ _ _)
  exact ⟨s1, s2, _, h1, hr, C55_shows hN h2 rfl⟩

end Ptl.Arr

import Verif.Tuple.Client
import Verif.Arr.Steps
import Verif.Ops

/-!
# C57: `tuple` – construction, access, swap, comparison
-/

set_option linter.unusedSectionVars false

namespace Ptl.Tuple

open View (Loc Mem)
open Arr (St AM readLoc writeLoc newObj alive fallible copyAssign moveAssign swapElem Run Run.bind Run.mono mix read_k write_k
  alive_ok)

variable {ν : Type} {ts us : List (Elem ν)} {T : Elem ν} {s s' : St ν} {V V' : Vars ν} {i j k d : Nat} {xs ys zs vs : List ν}
  {x y v : ν} {op : Op ν} {args : List (Arg ν)} {a : Arg ν}

/-! ### lists that are changed from the back -/

theorem mix_set_back_any (hx : d < xs.length) (v : ν) (ys : List ν) :
    (mix (d + 1) xs ys).set d v = xs.take d ++ v :: ys.drop (d + 1) := by
  unfold mix
  rw [List.take_succ_eq_append_getElem hx, List.append_assoc, List.set_append_right _ _ (by simp; omega)]
  have : d - (xs.take d).length = 0 := by simp; omega
  rw [this]
  rfl

theorem mix_set_back (hx : d < xs.length) (hy : ys[d]? = some y) : (mix (d + 1) xs ys).set d y = mix d xs ys := by
  rw [mix_set_back_any hx]
  obtain ⟨hd, rfl⟩ := List.getElem?_eq_some_iff.1 hy
  rw [mix, List.drop_eq_getElem_cons hd]

theorem mix_len (h : xs.length = ys.length) : (mix d xs ys).length = xs.length := by simp [mix]; omega

theorem mix_at (h : xs.length = ys.length) (c : Nat) : (mix d xs ys)[c]? = if c < d then xs[c]? else ys[c]? := by
  by_cases hd : d ≤ xs.length
  · exact Arr.mix_get (N := xs.length) rfl h.symm hd c
  · have : mix d xs ys = xs := by
      simp [mix, List.take_of_length_le (by omega : xs.length ≤ d), List.drop_of_length_le (by omega : ys.length ≤ d)]
    rw [this]
    split
    · rfl
    · rw [List.getElem?_eq_none (by omega), List.getElem?_eq_none (by omega)]

theorem mix_full (h : xs.length = ys.length) (hd : xs.length ≤ d) : mix d xs ys = xs := by
  simp [mix, List.take_of_length_le hd, List.drop_of_length_le (by omega : ys.length ≤ d)]

theorem zip_get {f : Elem ν → ν → ν} (hT : ts[k]? = some T) (hy : ys[k]? = some y) : (List.zipWith f ts ys)[k]? = some (f T y) := by
  simp [List.getElem?_zipWith, hT, hy]

theorem drop_cons (h : T :: us = ts.drop d) : ts[d]? = some T ∧ us = ts.drop (d + 1) ∧ d < ts.length := by
  have hd : d < ts.length := by
    have := congrArg List.length h
    simp at this
    omega
  rw [List.drop_eq_getElem_cons hd] at h
  cases h
  exact ⟨List.getElem?_eq_getElem _, rfl, hd⟩

theorem drop_nil (h : [] = ts.drop d) : ts.length ≤ d := by
  have := congrArg List.length h
  simp at this
  omega

/-! ### construction -/

theorem fallible_run : Run (fallible s) (fun _ s' => s'.mem = s.mem ∧ s'.orc = s.orc)
    (fun e s' => e = .user ∧ s'.mem = s.mem ∧ s'.orc = s.orc ∧ ∃ t, s.orc t = true) := by
  unfold fallible
  split
  · exact ⟨rfl, rfl, rfl, _, by assumption⟩
  · exact ⟨rfl, rfl⟩

theorem newObj_ok (h : s.mem i = none) (xs : List ν) : newObj i xs s = .ok () { s with mem := upd s.mem i (some xs) } := by
  simp [newObj, h]

theorem take_run (h : Takes1 T a V v V') (hs : s.mem = V) : Run (a.take T s)
    (fun u s' => u = v ∧ s'.mem = V' ∧ s'.orc = s.orc)
    (fun e s' => e = .user ∧ s'.mem = V ∧ s'.orc = s.orc ∧ ∃ t, s.orc t = true) := by
  cases h with
  | val =>
    refine Run.bind fallible_run ?_ ?_
    · rintro _ s1 ⟨h1, h2⟩; exact ⟨rfl, h1.trans hs, h2⟩
    · rintro e s1 ⟨h0, h1, h2, h3⟩; exact ⟨h0, h1.trans hs, h2, h3⟩
  | elem hj hk =>
    refine Run.bind fallible_run ?_ ?_
    · rintro _ s1 ⟨h1, h2⟩
      rw [M.bind_ok (read_k (s := s1) (by rw [h1, hs]; exact hj) hk)]
      exact ⟨rfl, h1.trans hs, h2⟩
    · rintro e s1 ⟨h0, h1, h2, h3⟩; exact ⟨h0, h1.trans hs, h2, h3⟩
  | mv hj hk =>
    have hj' : s.mem _ = _ := hs ▸ hj
    rw [Arg.take]
    rw [M.bind_ok (read_k hj' hk), M.bind_ok (write_k hj' (List.getElem?_eq_some_iff.1 hk).1 _)]
    exact ⟨rfl, by show upd s.mem _ _ = _; rw [hs], rfl⟩

theorem storage_run (h : Takes ts args V vs V') : ∀ s : St ν, s.mem = V → Run (storage ts args s)
    (fun us s' => us = vs ∧ s'.mem = V' ∧ s'.orc = s.orc)
    (fun e s' => e = .user ∧ s'.orc = s.orc ∧ (∃ t, s.orc t = true) ∧ ∃ n vs', Takes (ts.drop n) (args.drop n) V vs' s'.mem) := by
  induction h with
  | nil => intro s hs; exact ⟨rfl, hs, rfl⟩
  | cons ht h1 ih =>
    intro s hs
    unfold storage
    refine Run.bind (ih s hs) ?_ ?_
    · rintro us s1 ⟨rfl, h2, h3⟩
      refine Run.bind (take_run h1 h2) ?_ ?_
      · rintro u s2 ⟨rfl, h4, h5⟩
        exact ⟨rfl, h4, h5.trans h3⟩
      · rintro e s2 ⟨h4, h5, h6, t, h7⟩
        exact ⟨h4, h6.trans h3, ⟨t, h3 ▸ h7⟩, 1, us, by rw [h5]; exact ht⟩
    · rintro e s1 ⟨h2, h3, h4, n, vs', h5⟩
      exact ⟨h2, h3, h4, n + 1, vs', h5⟩

theorem Takes1.frame (h : Takes1 T a V v V') : (∀ i, V i = none → V' i = none) ∧
    ∀ n, (∀ i xs, V i = some xs → xs.length = n) → ∀ i xs, V' i = some xs → xs.length = n := by
  cases h with
  | val => exact ⟨fun _ h => h, fun _ h => h⟩
  | elem => exact ⟨fun _ h => h, fun _ h => h⟩
  | @mv j k v ys _ hj _ =>
    refine ⟨fun i hi => ?_, fun n hl i xs hi => ?_⟩
    · rw [upd_ne _ _ (by rintro rfl; rw [hj] at hi; cases hi)]; exact hi
    · by_cases e : i = j
      · subst e; rw [upd_same] at hi; cases hi; rw [List.length_set]; exact hl _ _ hj
      · rw [upd_ne _ _ e] at hi; exact hl _ _ hi

theorem Takes.frame (h : Takes ts args V vs V') : (∀ i, V i = none → V' i = none) ∧
    (∀ n, (∀ i xs, V i = some xs → xs.length = n) → ∀ i xs, V' i = some xs → xs.length = n) ∧ vs.length = ts.length := by
  induction h with
  | nil => exact ⟨fun _ h => h, fun _ h => h, rfl⟩
  | cons _ h1 ih =>
    exact ⟨fun i hi => h1.frame.1 i (ih.1 i hi), fun n hl => h1.frame.2 n (ih.2.1 n hl), by simp [ih.2.2]⟩

theorem storageCopy_run (hj : s.mem j = some ys) (hy : ys.length = ts.length) : ∀ (us : List (Elem ν)) (d : Nat) (s1 : St ν),
    us = ts.drop d → s1.mem = s.mem → Run (storageCopy j us d s1)
      (fun vs s' => vs = ys.drop d ∧ s'.mem = s.mem ∧ s'.orc = s1.orc)
      (fun e s' => e = .user ∧ s'.mem = s.mem ∧ s'.orc = s1.orc ∧ ∃ t, s1.orc t = true)
  | [], d, s1, hu, hm => ⟨by rw [List.drop_of_length_le (hy ▸ drop_nil hu)], hm, rfl⟩
  | T :: us, d, s1, hu, hm => by
    obtain ⟨hT, hu', hd⟩ := drop_cons hu
    unfold storageCopy
    refine Run.bind (storageCopy_run hj hy us (d + 1) s1 hu' hm) ?_ (fun _ _ h => h)
    rintro vs s2 ⟨rfl, h1, h2⟩
    refine Run.bind fallible_run ?_ ?_
    · rintro _ s3 ⟨h3, h4⟩
      rw [M.bind_ok (read_k (s := s3) (x := ys[d]'(by omega)) (by rw [h3, h1]; exact hj) (List.getElem?_eq_getElem _))]
      exact ⟨(List.drop_eq_getElem_cons (by omega)).symm, h3.trans h1, h4.trans h2⟩
    · rintro e s3 ⟨h3, h4, h5, t, h6⟩
      exact ⟨h3, h4.trans h1, h5.trans h2, t, h2 ▸ h6⟩

theorem storageMove_run (hy : ys.length = ts.length) (m0 : Mem ν) : ∀ (us : List (Elem ν)) (d : Nat) (s : St ν),
    us = ts.drop d → s.mem = upd m0 j (some ys) →
      storageMove j us d s = .ok (ys.drop d) { s with mem := upd m0 j (some (mix d ys (List.zipWith (fun T y => T.moved y) ts ys))) }
  | [], d, s, hu, hm => by
    have := drop_nil hu
    rw [mix_full (by simp; omega) (by omega), ← hm, List.drop_of_length_le (by omega)]
    rfl
  | T :: us, d, s, hu, hm => by
    obtain ⟨hT, hu', hd⟩ := drop_cons hu
    have hyd : ys[d]? = some (ys[d]'(by omega)) := List.getElem?_eq_getElem _
    have hl : ys.length = (List.zipWith (fun (T : Elem ν) y => T.moved y) ts ys).length := by simp; omega
    unfold storageMove
    rw [M.bind_ok (storageMove_run hy m0 us (d + 1) s hu' hm),
      M.bind_ok (read_k (xs := mix (d + 1) ys (List.zipWith (fun T y => T.moved y) ts ys)) (by exact upd_same _ _ _)
        (by rw [mix_at hl, if_pos (by omega)]; exact hyd)),
      M.bind_ok (write_k (xs := mix (d + 1) ys (List.zipWith (fun T y => T.moved y) ts ys)) (by exact upd_same _ _ _)
        (by rw [mix_len hl]; omega) _),
      mix_set_back (by omega) (zip_get hT hyd), List.drop_eq_getElem_cons (by omega : d < ys.length)]
    show Out.ok _ { s with mem := upd (upd m0 _ _) _ _ } = _
    rw [upd_upd]

theorem storageAssign_run (hx : xs.length = ts.length) (hy : ys.length = ts.length) (s0 : St ν)
    (hread : ∀ d s y, d < ts.length → s.mem = upd s0.mem i (some (mix (d + 1) xs ys)) → ys[d]? = some y → readLoc ⟨j, d⟩ s = .ok y s) :
    ∀ (us : List (Elem ν)) (d : Nat) (s : St ν), us = ts.drop d → s.mem = upd s0.mem i (some xs) → s.orc = s0.orc →
      Run (storageAssign i j us d s)
        (fun _ s' => s'.mem = upd s0.mem i (some (mix d xs ys)) ∧ s'.orc = s0.orc)
        (fun e s' => e = .user ∧ s'.orc = s0.orc ∧ (∃ t, s0.orc t = true) ∧ ∃ c T x y, ts[c]? = some T ∧ xs[c]? = some x ∧
          ys[c]? = some y ∧ s'.mem = upd s0.mem i (some (xs.take c ++ T.torn x y :: ys.drop (c + 1))))
  | [], d, s, hu, hm, ho => by
    have := drop_nil hu
    exact ⟨by rw [mix_full (by omega) (by omega)]; exact hm, ho⟩
  | T :: us, d, s, hu, hm, ho => by
    obtain ⟨hT, hu', hd⟩ := drop_cons hu
    have hxd : xs[d]? = some (xs[d]'(by omega)) := List.getElem?_eq_getElem _
    have hyd : ys[d]? = some (ys[d]'(by omega)) := List.getElem?_eq_getElem _
    unfold storageAssign
    refine Run.bind (storageAssign_run hx hy s0 hread us (d + 1) s hu' hm ho) ?_ (fun _ _ h => h)
    rintro _ s1 ⟨h1, h2⟩
    refine (Arr.copyAssign_run (a := .elem j d) (xs := mix (d + 1) xs ys) (x := xs[d]'(by omega)) (v := ys[d]'(by omega)) (by rw [h1, upd_same])
      (by rw [mix_at (by omega), if_pos (by omega)]; exact hxd) (hread d s1 _ hd h1 hyd)).mono ?_ ?_
    · rintro _ s2 ⟨h3, h4⟩
      exact ⟨by rw [h3, h1, upd_upd, mix_set_back (by omega) hyd], h4.trans h2⟩
    · rintro e s2 ⟨h3, h4, h5, h6⟩
      exact ⟨h3, h5.trans h2, ⟨_, h2 ▸ h6⟩, d, T, _, _, hT, hxd, hyd, by rw [h4, h1, upd_upd, mix_set_back_any (by omega)]⟩

theorem storageMoveAssign_run (hx : xs.length = ts.length) (hy : ys.length = ts.length) (hij : i ≠ j) (m0 : Mem ν) :
    ∀ (us : List (Elem ν)) (d : Nat) (s : St ν), us = ts.drop d → s.mem = upd (upd m0 i (some xs)) j (some ys) →
      storageMoveAssign i j us d s = .ok () { s with mem := upd (upd m0 i (some (mix d xs ys))) j (some (mix d ys (List.zipWith (fun T y => T.moved y) ts ys))) }
  | [], d, s, hu, hm => by
    have := drop_nil hu
    rw [mix_full (by omega) (by omega), mix_full (by simp; omega) (by omega), ← hm]
    rfl
  | T :: us, d, s, hu, hm => by
    obtain ⟨hT, hu', hd⟩ := drop_cons hu
    have hyd : ys[d]? = some (ys[d]'(by omega)) := List.getElem?_eq_getElem _
    have hl : ys.length = (List.zipWith (fun (T : Elem ν) y => T.moved y) ts ys).length := by simp; omega
    unfold storageMoveAssign
    rw [M.bind_ok (storageMoveAssign_run hx hy hij m0 us (d + 1) s hu' hm),
      Arr.moveAssign_run (xs := mix (d + 1) xs ys) (ys := mix (d + 1) ys (List.zipWith (fun T y => T.moved y) ts ys))
        (y := ys[d]'(by omega)) (by show upd _ _ _ _ = _; rw [upd_ne _ _ hij, upd_same]) (by exact upd_same _ _ _)
        (by rw [mix_len (by omega)]; omega) (by rw [mix_at hl, if_pos (by omega)]; exact hyd) hij,
      mix_set_back (by omega) hyd, mix_set_back (by omega) (zip_get (f := fun T y => T.moved y) hT hyd)]
    show Out.ok _ { s with mem := upd (upd (upd (upd m0 _ _) _ _) _ _) _ _ } = _
    rw [upd_comm (upd m0 i _) _ _ (Ne.symm hij), upd_upd, upd_upd]

theorem storageMoveAssign_self (hx : xs.length = ts.length) (m0 : Mem ν) :
    ∀ (us : List (Elem ν)) (d : Nat) (s : St ν), us = ts.drop d → s.mem = upd m0 i (some xs) →
      storageMoveAssign i i us d s =
        .ok () { s with mem := upd m0 i (some (mix d xs (List.zipWith (fun T x => T.selfMove x) ts xs))) }
  | [], d, s, hu, hm => by
    have := drop_nil hu
    rw [mix_full (by simp; omega) (by omega), ← hm]
    rfl
  | T :: us, d, s, hu, hm => by
    obtain ⟨hT, hu', hd⟩ := drop_cons hu
    have hxd : xs[d]? = some (xs[d]'(by omega)) := List.getElem?_eq_getElem _
    have hl : xs.length = (List.zipWith (fun (T : Elem ν) x => T.selfMove x) ts xs).length := by simp; omega
    unfold storageMoveAssign
    rw [M.bind_ok (storageMoveAssign_self hx m0 us (d + 1) s hu' hm),
      Arr.moveAssign_self (xs := mix (d + 1) xs (List.zipWith (fun T x => T.selfMove x) ts xs)) (by exact upd_same _ _ _)
        (by rw [mix_at hl, if_pos (by omega)]; exact hxd),
      mix_set_back (by omega) (zip_get (f := fun T x => T.selfMove x) hT hxd)]
    show Out.ok _ { s with mem := upd (upd m0 _ _) _ _ } = _
    rw [upd_upd]

theorem storageSwap_run (hx : xs.length = ts.length) (hy : ys.length = ts.length) (hij : i ≠ j) (m0 : Mem ν) :
    ∀ (us : List (Elem ν)) (d : Nat) (s : St ν), us = ts.drop d →
      s.mem = upd (upd m0 i (some (mix d ys xs))) j (some (mix d xs ys)) →
      storageSwap i j us d s = .ok () { s with mem := upd (upd m0 i (some ys)) j (some xs) }
  | [], d, s, hu, hm => by
    have := drop_nil hu
    rw [mix_full (by omega) (by omega), mix_full (by omega) (by omega)] at hm
    rw [← hm]
    rfl
  | T :: us, d, s, hu, hm => by
    obtain ⟨hT, hu', hd⟩ := drop_cons hu
    have hxd : xs[d]? = some (xs[d]'(by omega)) := List.getElem?_eq_getElem _
    have hyd : ys[d]? = some (ys[d]'(by omega)) := List.getElem?_eq_getElem _
    unfold storageSwap
    rw [M.bind_ok (Arr.swapElem_run (xs := mix d ys xs) (ys := mix d xs ys) (x := xs[d]'(by omega)) (y := ys[d]'(by omega))
        (by rw [hm, upd_ne _ _ hij, upd_same]) (by rw [hm]; exact upd_same _ _ _)
        (by rw [mix_at (by omega), if_neg (by omega)]; exact hxd) (by rw [mix_at (by omega), if_neg (by omega)]; exact hyd) hij),
      Arr.mix_set hy hx hd hyd, Arr.mix_set hx hy hd hxd]
    refine storageSwap_run hx hy hij m0 us (d + 1) _ hu' ?_
    show upd (upd s.mem _ _) _ _ = _
    rw [hm, upd_comm (upd m0 i _) _ _ (Ne.symm hij), upd_upd, upd_upd]

theorem storageSwap_self (hx : xs.length = ts.length) (hi : s.mem i = some xs) :
    ∀ (us : List (Elem ν)) (d : Nat), us = ts.drop d → storageSwap i i us d s = .ok () s
  | [], d, hu => rfl
  | T :: us, d, hu => by
    obtain ⟨hT, hu', hd⟩ := drop_cons hu
    unfold storageSwap
    rw [M.bind_ok (Arr.swapElem_self hi (List.getElem?_eq_getElem (by omega : d < xs.length)))]
    exact storageSwap_self hx hi us (d + 1) hu'

theorem storageGet_run (s : St ν) : ∀ (us : List (Elem ν)) (k d : Nat), k < us.length →
    storageGet i us k d s = .ok ⟨i, d + k⟩ s
  | _ :: us, 0, d, _ => rfl
  | _ :: us, k + 1, d, hk => by
    unfold storageGet
    rw [if_neg (by omega), Nat.add_sub_cancel, storageGet_run s us k (d + 1) (by simpa using hk)]
    congr 2
    omega

/-! ### comparison of lists, as the loops do it -/

def equalList : List (Elem ν) → List ν → List ν → Bool
  | T :: ts, x :: xs, y :: ys => if T.eq x y then equalList ts xs ys else false
  | _, _, _ => true

def lessList : List (Elem ν) → List ν → List ν → Bool
  | T :: ts, x :: xs, y :: ys => if T.lt x y then true else if T.lt y x then false else lessList ts xs ys
  | _, _, _ => false

theorem storageEqual_run (hi : s.mem i = some xs) (hj : s.mem j = some ys) (hx : xs.length = ts.length) (hy : ys.length = ts.length) :
    ∀ (us : List (Elem ν)) (d : Nat), us = ts.drop d →
      storageEqual i j us d s = .ok (equalList us (xs.drop d) (ys.drop d)) s
  | [], d, hu => by
    have := drop_nil hu
    rw [List.drop_of_length_le (by omega : xs.length ≤ d)]
    rfl
  | T :: us, d, hu => by
    obtain ⟨hT, hu', hd⟩ := drop_cons hu
    unfold storageEqual
    rw [M.bind_ok (read_k hi (List.getElem?_eq_getElem (by omega : d < xs.length))),
      M.bind_ok (read_k hj (List.getElem?_eq_getElem (by omega : d < ys.length))),
      List.drop_eq_getElem_cons (by omega : d < xs.length), List.drop_eq_getElem_cons (by omega : d < ys.length), equalList]
    split
    · exact storageEqual_run hi hj hx hy us (d + 1) hu'
    · rfl

theorem storageLess_run (hi : s.mem i = some xs) (hj : s.mem j = some ys) (hx : xs.length = ts.length) (hy : ys.length = ts.length) :
    ∀ (us : List (Elem ν)) (d : Nat), us = ts.drop d →
      storageLess i j us d s = .ok (lessList us (xs.drop d) (ys.drop d)) s
  | [], d, hu => by
    have := drop_nil hu
    rw [List.drop_of_length_le (by omega : xs.length ≤ d)]
    rfl
  | T :: us, d, hu => by
    obtain ⟨hT, hu', hd⟩ := drop_cons hu
    unfold storageLess
    rw [M.bind_ok (read_k hi (List.getElem?_eq_getElem (by omega : d < xs.length))),
      M.bind_ok (read_k hj (List.getElem?_eq_getElem (by omega : d < ys.length))),
      List.drop_eq_getElem_cons (by omega : d < xs.length), List.drop_eq_getElem_cons (by omega : d < ys.length), lessList]
    split
    · rfl
    · split
      · rfl
      · exact storageLess_run hi hj hx hy us (d + 1) hu'

theorem equalList_iff : ∀ (ts : List (Elem ν)) (xs ys : List ν), equalList ts xs ys = true ↔
    ∀ (k : Nat) (T : Elem ν) (x y : ν), ts[k]? = some T → xs[k]? = some x → ys[k]? = some y → T.eq x y = true
  | [], xs, ys => by simp [equalList]
  | _ :: _, [], ys => by simp [equalList]
  | _ :: _, _ :: _, [] => by simp [equalList]
  | T :: ts, x :: xs, y :: ys => by
    unfold equalList
    constructor
    · intro h
      split at h
      · rename_i he
        intro k T' x' y' h1 h2 h3
        cases k with
        | zero => simp at h1 h2 h3; subst h1 h2 h3; exact he
        | succ k => exact (equalList_iff ts xs ys).1 h k T' x' y' (by simpa using h1) (by simpa using h2) (by simpa using h3)
      · cases h
    · intro h
      rw [if_pos (h 0 T x y rfl rfl rfl)]
      exact (equalList_iff ts xs ys).2 fun k T' x' y' h1 h2 h3 =>
        h (k + 1) T' x' y' (by simpa using h1) (by simpa using h2) (by simpa using h3)

theorem lessList_iff : ∀ (ts : List (Elem ν)) (xs ys : List ν), lessList ts xs ys = true ↔ Before ts xs ys
  | [], xs, ys => by simp [lessList, Before]
  | _ :: _, [], ys => by simp [lessList, Before]
  | _ :: _, _ :: _, [] => by simp [lessList, Before]
  | T :: ts, x :: xs, y :: ys => by
    unfold lessList
    constructor
    · intro h
      split at h
      · rename_i hl
        exact ⟨0, T, x, y, rfl, rfl, rfl, hl, fun k' _ _ _ hk => by omega⟩
      · split at h
        · cases h
        · rename_i h1 h2
          obtain ⟨k, T', x', y', hT, hx, hy, hl, hb⟩ := (lessList_iff ts xs ys).1 h
          refine ⟨k + 1, T', x', y', by simpa using hT, by simpa using hx, by simpa using hy, hl, ?_⟩
          intro k' T'' x'' y'' hk h3 h4 h5
          cases k' with
          | zero => simp at h3 h4 h5; subst h3 h4 h5; exact ⟨by simpa using h1, by simpa using h2⟩
          | succ k' => exact hb k' T'' x'' y'' (by omega) (by simpa using h3) (by simpa using h4) (by simpa using h5)
    · rintro ⟨k, T', x', y', hT, hx, hy, hl, hb⟩
      cases k with
      | zero => simp at hT hx hy; subst hT hx hy; rw [if_pos hl]
      | succ k =>
        obtain ⟨h1, h2⟩ := hb 0 T x y (by omega) rfl rfl rfl
        rw [if_neg (by simp [h1]), if_neg (by simp [h2])]
        exact (lessList_iff ts xs ys).2 ⟨k, T', x', y', by simpa using hT, by simpa using hx, by simpa using hy, hl,
          fun k' T'' x'' y'' hk h3 h4 h5 => hb (k' + 1) T'' x'' y'' (by omega) (by simpa using h3) (by simpa using h4)
            (by simpa using h5)⟩

theorem lessList_weak : ∀ (ts : List (Elem ν)), (∀ T ∈ ts, StrictWeak T.lt) → ∀ xs ys zs : List ν, xs.length = ts.length →
    ys.length = ts.length → zs.length = ts.length →
      lessList ts xs xs = false ∧
      (lessList ts xs ys = true → lessList ts ys zs = true → lessList ts xs zs = true) ∧
      (lessList ts xs ys = false → lessList ts ys xs = false → lessList ts ys zs = false → lessList ts zs ys = false →
        lessList ts xs zs = false ∧ lessList ts zs xs = false)
  | [], _, [], [], [], _, _, _ => by simp [lessList]
  | T :: ts, h, x :: xs, y :: ys, z :: zs, hx, hy, hz => by
    have hT := h T (by simp)
    obtain ⟨i1, i2, i3⟩ := lessList_weak ts (fun T' h' => h T' (by simp [h'])) xs ys zs (by simpa using hx) (by simpa using hy)
      (by simpa using hz)
    refine ⟨by simp [lessList, hT.irrefl, i1], ?_, ?_⟩
    · simp only [lessList]
      intro h1 h2
      cases a1 : T.lt x y <;> cases a2 : T.lt y x <;> cases b1 : T.lt y z <;> cases b2 : T.lt z y <;> simp [a1, a2, b1, b2] at h1 h2
      · obtain ⟨c1, c2⟩ := hT.incomp x y z a1 a2 b1 b2
        simp [c1, c2, i2 h1 h2]
      · simp [hT.trans_left a1 a2 b1]
      · simp [hT.trans_left a1 a2 b1]
      · simp [hT.trans_right a1 b1 b2]
      · simp [hT.trans x y z a1 b1]
      · simp [hT.trans x y z a1 b1]
      · simp [hT.trans_right a1 b1 b2]
      · simp [hT.trans x y z a1 b1]
      · simp [hT.trans x y z a1 b1]
    · simp only [lessList]
      intro h1 h2 h3 h4
      cases a1 : T.lt x y <;> cases a2 : T.lt y x <;> simp [a1, a2] at h1 h2
      cases b1 : T.lt y z <;> cases b2 : T.lt z y <;> simp [b1, b2] at h3 h4
      obtain ⟨c1, c2⟩ := hT.incomp x y z a1 a2 b1 b2
      simp [c1, c2, i3 h1 h2 h3 h4]

theorem lessList_total : ∀ (ts : List (Elem ν)), (∀ T ∈ ts, StrictTotal T.lt) → ∀ xs ys : List ν, xs.length = ts.length →
    ys.length = ts.length → lessList ts xs ys = false → lessList ts ys xs = false → xs = ys
  | [], _, [], [], _, _, _, _ => rfl
  | T :: ts, h, x :: xs, y :: ys, hx, hy, h1, h2 => by
    simp only [lessList] at h1 h2
    cases a1 : T.lt x y <;> cases a2 : T.lt y x <;> simp [a1, a2] at h1 h2
    rw [(h T (by simp)).tri x y a1 a2, lessList_total ts (fun T' h' => h T' (by simp [h'])) xs ys (by simpa using hx)
      (by simpa using hy) h1 h2]

/-! ### the invariant -/

/-- memory is what the specification says, and tuples have all their elements -/
structure Inv (ts : List (Elem ν)) (s : St ν) (V : Vars ν) : Prop where
  mem : s.mem = V
  len : ∀ i xs, V i = some xs → xs.length = ts.length

theorem len_upd {N : Nat} (h : ∀ i xs, V i = some xs → xs.length = N) (hx : xs.length = N) (i : Nat) :
    ∀ j ys, upd V i (some xs) j = some ys → ys.length = N := by
  intro j ys hj
  by_cases e : j = i
  · subst e; rw [upd_same] at hj; cases hj; exact hx
  · rw [upd_ne _ _ e] at hj; exact h _ _ hj

theorem Spec.len {o : Option Exc} (h : ∀ i xs, V i = some xs → xs.length = ts.length) (hs : Spec ts op V o V') :
    ∀ i xs, V' i = some xs → xs.length = ts.length := by
  have zip : ∀ {f : Elem ν → ν → ν} {ys : List ν}, ys.length = ts.length → (List.zipWith f ts ys).length = ts.length := by
    intro f ys h; simp; omega
  cases hs with
  | ctor h0 ht => exact len_upd (ht.frame.2.1 _ h) ht.frame.2.2 _
  | ctorThrows h0 ht ht' => exact ht'.frame.2.1 _ h
  | ctorCopy h0 hj => exact len_upd h (h _ _ hj) _
  | ctorCopyThrows h0 hj => exact h
  | ctorMove h0 hj => exact len_upd (len_upd h (zip (h _ _ hj)) _) (h _ _ hj) _
  | @dtor i xs _ hi =>
    intro j ys hj
    by_cases e : j = i
    · subst e; rw [upd_same] at hj; cases hj
    · rw [upd_ne _ _ e] at hj; exact h _ _ hj
  | assignCopy hi hj => exact len_upd h (h _ _ hj) _
  | @assignCopyThrows i j k T x y xs ys _ hi hj hT hk hk' =>
    refine len_upd h ?_ _
    have := h _ _ hi
    have := h _ _ hj
    have : k < xs.length := (List.getElem?_eq_some_iff.1 hk).1
    simp
    omega
  | assignMove hij hi hj => exact len_upd (len_upd h (h _ _ hj) _) (zip (h _ _ hj)) _
  | assignMoveSelf hi => exact len_upd h (zip (h _ _ hi)) _
  | swap hi hj => exact len_upd (len_upd h (h _ _ hj) _) (h _ _ hi) _
  | set hi hk => exact len_upd h (by simpa using h _ _ hi) _

/-- the outcome is one that the specification allows -/
abbrev Allowed (ts : List (Elem ν)) (op : Op ν) (V : Vars ν) (s : St ν) : Prop :=
  Run (op.run ts s) (fun _ s' => Spec ts op V none s'.mem ∧ s'.orc = s.orc)
    (fun e s' => e = .user ∧ Spec ts op V (some e) s'.mem ∧ s'.orc = s.orc ∧ ∃ t, s.orc t = true)

theorem step_ctor (h : Inv ts s V) (h0 : V i = none) (ht : Takes ts args V vs V') : Allowed ts (.ctor i args) V s := by
  refine Run.bind (storage_run ht s h.mem) ?_ ?_
  · rintro us s1 ⟨rfl, h1, h2⟩
    rw [newObj_ok (by rw [h1]; exact ht.frame.1 _ h0)]
    refine ⟨?_, h2⟩
    show Spec ts _ V none (upd s1.mem _ _)
    rw [h1]
    exact .ctor h0 ht
  · rintro e s1 ⟨rfl, h2, h3, n, vs', h4⟩
    exact ⟨rfl, .ctorThrows h0 ht h4, h2, h3⟩

theorem step_ctorCopy (h : Inv ts s V) (h0 : V i = none) (hj : V j = some ys) : Allowed ts (.ctorCopy i j) V s := by
  have hj' : s.mem j = some ys := by rw [h.mem]; exact hj
  show Run (ctorCopy ts i j s) _ _
  unfold ctorCopy
  rw [M.bind_ok (alive_ok hj')]
  refine Run.bind (storageCopy_run hj' (h.len _ _ hj) ts 0 s rfl rfl) ?_ ?_
  · rintro us s1 ⟨rfl, h1, h2⟩
    rw [newObj_ok (by rw [h1, h.mem]; exact h0)]
    refine ⟨?_, h2⟩
    show Spec ts _ V none (upd s1.mem _ _)
    rw [h1, h.mem]
    exact .ctorCopy h0 hj
  · rintro e s1 ⟨rfl, h1, h2, h3⟩
    refine ⟨rfl, ?_, h2, h3⟩
    rw [h1, h.mem]
    exact .ctorCopyThrows h0 hj

theorem step_assignCopy (h : Inv ts s V) (hi : V i = some xs) (hj : V j = some ys) : Allowed ts (.assignCopy i j) V s := by
  have hx := h.len _ _ hi
  have hy := h.len _ _ hj
  have hi' : s.mem i = some xs := by rw [h.mem]; exact hi
  have hj' : s.mem j = some ys := by rw [h.mem]; exact hj
  show Run (assignCopy ts i j s) _ _
  unfold assignCopy
  rw [M.bind_ok (alive_ok hj'), M.bind_ok (alive_ok hi')]
  refine (storageAssign_run hx hy s ?_ ts 0 s rfl (by rw [upd_eq _ _ _ hi']) rfl).mono ?_ ?_
  · intro d s1 y hd hm hyd
    by_cases e : j = i
    · subst e
      rw [hi] at hj; cases hj
      rw [Arr.mix_self] at hm
      exact read_k (xs := xs) (by rw [hm, upd_same]) hyd
    · exact read_k (xs := ys) (by rw [hm, upd_ne _ _ e, hj']) hyd
  · rintro _ s1 ⟨h1, h2⟩
    refine ⟨?_, h2⟩
    rw [h1, h.mem]
    exact .assignCopy hi hj
  · rintro e s1 ⟨rfl, h2, h3, c, T, x, y, h4, h5, h6, h7⟩
    refine ⟨rfl, ?_, h2, h3⟩
    rw [h7, h.mem]
    exact .assignCopyThrows hi hj h4 h5 h6

theorem get_ok (hi : s.mem i = some xs) (hk : k < ts.length) : get ts i k s = .ok ⟨i, k⟩ s := by
  unfold get
  rw [M.bind_ok (alive_ok hi), storageGet_run s ts k 0 hk, Nat.zero_add]

theorem step (h : Inv ts s V) (hp : Pre ts op V) : Allowed ts op V s := by
  obtain ⟨o, V', hs⟩ := hp
  have get : ∀ {i : Nat} {xs : List ν}, V i = some xs → s.mem i = some xs := by intro i xs hi; rw [h.mem]; exact hi
  have good : ∀ {o : Op ν} {V' : Vars ν}, Spec ts o V none V' → o.run ts s = .ok () { s with mem := V' } → Allowed ts o V s := by
    intro o V' ho hr
    unfold Allowed
    rw [hr]
    exact ⟨ho, rfl⟩
  cases hs with
  | ctor h0 ht => exact step_ctor h h0 ht
  | ctorThrows h0 ht ht' => exact step_ctor h h0 ht
  | ctorCopy h0 hj => exact step_ctorCopy h h0 hj
  | ctorCopyThrows h0 hj => exact step_ctorCopy h h0 hj
  | @ctorMove i j ys _ h0 hj =>
    refine good (.ctorMove h0 hj) ?_
    show ctorMove ts i j s = _
    unfold ctorMove
    rw [M.bind_ok (alive_ok (get hj)),
      M.bind_ok (storageMove_run (h.len _ _ hj) V ts 0 s rfl (by rw [upd_eq _ _ _ hj, h.mem])), Arr.mix_zero,
      newObj_ok (by show upd V j _ i = none; rw [upd_ne _ _ (by rintro rfl; rw [h0] at hj; cases hj)]; exact h0)]
    rfl
  | @dtor i xs _ hi =>
    refine good (.dtor hi) ?_
    show dtor i s = _
    unfold dtor
    rw [← h.mem]
    exact M.bind_ok (alive_ok (get hi))
  | assignCopy hi hj => exact step_assignCopy h hi hj
  | assignCopyThrows hi hj hT hk hk' => exact step_assignCopy h hi hj
  | @assignMove i j xs ys _ hij hi hj =>
    refine good (.assignMove hij hi hj) ?_
    show assignMove ts i j s = _
    unfold assignMove
    rw [M.bind_ok (alive_ok (get hj)), M.bind_ok (alive_ok (get hi)),
      storageMoveAssign_run (h.len _ _ hi) (h.len _ _ hj) hij V ts 0 s rfl (by rw [upd_eq _ _ _ hi, upd_eq _ _ _ hj, h.mem]),
      Arr.mix_zero, Arr.mix_zero]
  | @assignMoveSelf i xs _ hi =>
    refine good (.assignMoveSelf hi) ?_
    show assignMove ts i i s = _
    unfold assignMove
    rw [M.bind_ok (alive_ok (get hi)), M.bind_ok (alive_ok (get hi)),
      storageMoveAssign_self (h.len _ _ hi) V ts 0 s rfl (by rw [upd_eq _ _ _ hi, h.mem]), Arr.mix_zero]
  | @swap i j xs ys _ hi hj =>
    refine good (.swap hi hj) ?_
    show swap ts i j s = _
    unfold swap
    refine M.noexcept_ok ?_
    rw [M.bind_ok (alive_ok (get hi)), M.bind_ok (alive_ok (get hj))]
    by_cases hij : i = j
    · subst hij
      rw [hi] at hj; cases hj
      rw [storageSwap_self (h.len _ _ hi) (get hi) ts 0 rfl, upd_upd, upd_eq _ _ _ hi, ← h.mem]
    · rw [storageSwap_run (h.len _ _ hi) (h.len _ _ hj) hij V ts 0 s rfl
        (by rw [Arr.mix_zero, Arr.mix_zero, upd_eq _ _ _ hi, upd_eq _ _ _ hj, h.mem])]
  | @set i k v xs _ hi hk =>
    refine good (.set hi hk) ?_
    show (Tuple.get ts i k >>= fun l => writeLoc l v) s = _
    rw [M.bind_ok (get_ok (get hi) hk), write_k (get hi) (by rw [h.len _ _ hi]; exact hk), h.mem]

theorem Takes1.det {w : ν} {W : Vars ν} (h : Takes1 T a V v V') (h' : Takes1 T a V w W) : w = v ∧ W = V' := by
  cases h with
  | val => cases h'; exact ⟨rfl, rfl⟩
  | elem hj hk => cases h' with | elem hj' hk' => rw [hj] at hj'; cases hj'; rw [hk] at hk'; cases hk'; exact ⟨rfl, rfl⟩
  | mv hj hk => cases h' with | mv hj' hk' => rw [hj] at hj'; cases hj'; rw [hk] at hk'; cases hk'; exact ⟨rfl, rfl⟩

theorem Takes.det (h : Takes ts args V vs V') : ∀ {ws W}, Takes ts args V ws W → ws = vs ∧ W = V' := by
  induction h with
  | nil => intro ws W h; cases h; exact ⟨rfl, rfl⟩
  | cons _ h1 ih =>
    intro ws W h
    cases h with
    | cons h2 h3 =>
      obtain ⟨rfl, rfl⟩ := ih h2
      obtain ⟨rfl, rfl⟩ := h1.det h3
      exact ⟨rfl, rfl⟩

/-- the specification says uniquely what a call that returns does -/
theorem Spec.det {W W' : Vars ν} (h : Spec ts op V none W) (h' : Spec ts op V none W') : W = W' := by
  cases h with
  | ctor h0 ht => cases h' with | ctor h0' ht' => obtain ⟨rfl, rfl⟩ := ht.det ht'; rfl
  | ctorCopy h0 hj => cases h' with | ctorCopy h0' hj' => rw [hj] at hj'; cases hj'; rfl
  | ctorMove h0 hj => cases h' with | ctorMove h0' hj' => rw [hj] at hj'; cases hj'; rfl
  | dtor => cases h'; rfl
  | assignCopy hi hj => cases h' with | assignCopy hi' hj' => rw [hj] at hj'; cases hj'; rfl
  | assignMove hij hi hj =>
    cases h' with
    | assignMove hij' hi' hj' => rw [hj] at hj'; cases hj'; rfl
    | assignMoveSelf => exact absurd rfl hij
  | assignMoveSelf hi =>
    cases h' with
    | assignMove hij' hi' hj' => exact absurd rfl hij'
    | assignMoveSelf hi' => rw [hi] at hi'; cases hi'; rfl
  | swap hi hj => cases h' with | swap hi' hj' => rw [hj] at hj'; cases hj'; rw [hi] at hi'; cases hi'; rfl
  | set hi hk => cases h' with | set hi' _ => rw [hi] at hi'; cases hi'; rfl

theorem Reach.inv (h : Reach ts s V) : Inv ts s V := by
  induction h with
  | start => exact ⟨rfl, fun _ _ h => by cases h⟩
  | @ok s s' V V' op _ hs hr ih =>
    have := step ih ⟨_, _, hs⟩
    unfold Allowed at this
    rw [hr] at this
    exact ⟨Spec.det this.1 hs, hs.len ih.len⟩
  | thrown _ hs hr hm ih => exact ⟨hm, hs.len ih.len⟩

/-! ## C57: calls -/

theorem Reach.call (h : Reach ts s V) (hp : Pre ts op V) :
    (∃ s' V', op.run ts s = .ok () s' ∧ Spec ts op V none V' ∧ Reach ts s' V') ∨
    (∃ s' V', op.run ts s = .exc .user s' ∧ Spec ts op V (some .user) V' ∧ Reach ts s' V' ∧ ∃ t, s.orc t = true) := by
  have := step h.inv hp
  unfold Allowed at this
  cases hr : op.run ts s with
  | ok _ s' => rw [hr] at this; exact .inl ⟨s', _, rfl, this.1, h.ok this.1 hr⟩
  | exc e s' =>
    rw [hr] at this
    obtain ⟨rfl, h1, h2, h3⟩ := this
    exact .inr ⟨s', _, rfl, h1, h.thrown h1 hr rfl, h3⟩
  | ub => rw [hr] at this; exact this.elim
  | term => rw [hr] at this; exact this.elim

theorem Reach.next (h : Reach ts s V) (hs : Spec ts op V none V') (horc : ∀ t, s.orc t = false) :
    ∃ s', op.run ts s = .ok () s' ∧ Reach ts s' V' ∧ ∀ t, s'.orc t = false := by
  have := step h.inv ⟨_, _, hs⟩
  unfold Allowed at this
  cases hr : op.run ts s with
  | ok _ s' => rw [hr] at this; exact ⟨s', rfl, h.ok hs hr, fun t => by rw [this.2]; exact horc t⟩
  | exc e s' => rw [hr] at this; obtain ⟨_, _, _, t, ht⟩ := this; rw [horc] at ht; cases ht
  | ub => rw [hr] at this; exact this.elim
  | term => rw [hr] at this; exact this.elim

/-! ## C57: access -/

theorem Inv.shows (h : Inv ts s V) (hi : V i = some xs) : Shows ts s i xs := by
  have hl := h.len _ _ hi
  have hi' : s.mem i = some xs := by rw [h.mem]; exact hi
  exact ⟨hl, fun k hk => get_ok hi' (by omega), fun k v hv => read_k hi' hv⟩

/-- C57: after every history, `get<k>` of every tuple leads to its element `k` (different indices to different elements), which
has the value the specification says -/
theorem C57_shows (h : Reach ts s V) (hi : V i = some xs) : Shows ts s i xs := h.inv.shows hi

/-- what the client sees of all tuples is what the specification says: which ones are alive, and the elements of those -/
def Agrees (ts : List (Elem ν)) (s : St ν) (V : Vars ν) : Prop :=
  ∀ i, (∀ xs, V i = some xs → Shows ts s i xs) ∧ (V i = none → s.mem i = none)

theorem Reach.agrees (h : Reach ts s V) : Agrees ts s V :=
  fun _ => ⟨fun _ hi => C57_shows h hi, fun hi => by rw [h.inv.mem]; exact hi⟩

/-- C57: after every history, a call within its preconditions does what the specification says; or an element's operation
threw, and then it does what the specification says about that; nothing else can happen -/
theorem C57_call (h : Reach ts s V) (hp : Pre ts op V) :
    (∃ s' V', op.run ts s = .ok () s' ∧ Spec ts op V none V' ∧ Reach ts s' V' ∧ Agrees ts s' V') ∨
    (∃ s' V', op.run ts s = .exc .user s' ∧ Spec ts op V (some .user) V' ∧ Reach ts s' V' ∧ Agrees ts s' V' ∧ ∃ t, s.orc t = true) := by
  rcases h.call hp with ⟨s', V', h1, h2, h3⟩ | ⟨s', V', h1, h2, h3, h4⟩
  · exact .inl ⟨s', V', h1, h2, h3, h3.agrees⟩
  · exact .inr ⟨s', V', h1, h2, h3, h3.agrees, h4⟩

/-- C57: a tuple is constructed from exactly as many arguments as it has elements; other numbers do not compile (in the model: are
outside the preconditions) -/
theorem C57_wrong_count {args : List (Arg ν)} (h : args.length ≠ ts.length) (s : St ν) : ctor ts i args s = .ub .precondition := by
  have key : ∀ (ts : List (Elem ν)) (args : List (Arg ν)), args.length ≠ ts.length → ∀ s : St ν, storage ts args s = .ub .precondition := by
    intro ts
    induction ts with
    | nil => intro args h s; cases args with
      | nil => exact absurd rfl h
      | cons => rfl
    | cons T ts ih => intro args h s; cases args with
      | nil => rfl
      | cons a as =>
        unfold storage
        rw [M.bind_ub (ih as (by simpa using h) s)]
  unfold ctor
  rw [M.bind_ub (key ts args h s)]

/-- C57: `get<k>` of a new tuple is `Type{argument k}` -/
theorem C57_construct (h : Reach ts s V) (h0 : V i = none) (hv : vs.length = ts.length)
    (hr : (Op.ctor i (vs.map .val)).run ts s = .ok () s') :
    Shows ts s' i (List.zipWith (fun T v => T.init v) ts vs) ∧ ∀ j xs, V j = some xs → Shows ts s' j xs := by
  have ht : ∀ (ts : List (Elem ν)) (vs : List ν), vs.length = ts.length →
      Takes ts (vs.map .val) V (List.zipWith (fun T v => T.init v) ts vs) V := by
    intro ts
    induction ts with
    | nil => intro vs h; rw [List.length_eq_zero_iff.1 h]; exact .nil
    | cons T ts ih =>
      intro vs h
      cases vs with
      | nil => cases h
      | cons v vs => exact .cons (ih vs (by simpa using h)) .val
  have h' := h.ok (.ctor h0 (ht ts vs hv)) hr
  refine ⟨C57_shows h' (upd_same _ _ _), fun j xs hj => C57_shows h' ?_⟩
  rw [upd_ne _ _ (by rintro rfl; rw [h0] at hj; cases hj)]; exact hj

/-- C57: elements are independent: writing one changes neither the others nor other tuples -/
theorem C57_set (h : Reach ts s V) (hi : V i = some xs) (hk : k < ts.length) (v : ν) :
    ∃ s', (Op.set i k v).run ts s = .ok () s' ∧ Shows ts s' i (xs.set k v) ∧ ∀ j ys, j ≠ i → V j = some ys → Shows ts s' j ys := by
  rcases h.call ⟨_, _, .set hi hk (v := v)⟩ with ⟨s', V', hr, hs', h'⟩ | ⟨s', V', hr, hs', h'⟩
  · cases Spec.det hs' (.set hi hk)
    refine ⟨s', hr, C57_shows h' (upd_same _ _ _), fun j ys hj hy => C57_shows h' ?_⟩
    rw [upd_ne _ _ hj]; exact hy
  · cases hs'

/-- C57: `swap` cannot fail and exchanges all elements; a self-swap changes nothing -/
theorem C57_swap (h : Reach ts s V) (hi : V i = some xs) (hj : V j = some ys) :
    ∃ s', (Op.swap i j).run ts s = .ok () s' ∧ Shows ts s' i ys ∧ Shows ts s' j xs ∧
      ∀ k zs, k ≠ i → k ≠ j → V k = some zs → Shows ts s' k zs := by
  rcases h.call ⟨_, _, .swap hi hj⟩ with ⟨s', V', hr, hs', h'⟩ | ⟨s', V', hr, hs', h'⟩
  · cases Spec.det hs' (.swap hi hj)
    refine ⟨s', hr, C57_shows h' ?_, C57_shows h' (upd_same _ _ _), fun k zs hki hkj hk => C57_shows h' ?_⟩
    · by_cases e : i = j
      · subst e; rw [hi] at hj; cases hj; exact upd_same _ _ _
      · rw [upd_ne _ _ e, upd_same]
    · rw [upd_ne _ _ hkj, upd_ne _ _ hki]; exact hk
  · cases hs'

/-- C57: `tuple_element<k>` is the type of `get<k>`, for exactly the indices below `tuple_size` -/
theorem C57_tuple_element (k : Nat) : ∀ ts : List (Elem ν), tupleElement k ts = ts[k]? ∧ (tupleElement k ts = none ↔ tupleSize ts ≤ k) := by
  have e : ∀ (k : Nat) (ts : List (Elem ν)), tupleElement k ts = ts[k]? := by
    intro k ts
    induction ts generalizing k with
    | nil => simp [tupleElement]
    | cons T ts ih => cases k with
      | zero => rfl
      | succ k => simpa [tupleElement] using ih k
  intro ts
  exact ⟨e k ts, by rw [e, List.getElem?_eq_none_iff]; rfl⟩

/-! ## C57: comparison -/

theorem Inv.opEq (h : Inv ts s V) (hi : V i = some xs) (hj : V j = some ys) : Tuple.opEq ts i j s = .ok (equalList ts xs ys) s := by
  have hi' : s.mem i = some xs := by rw [h.mem]; exact hi
  have hj' : s.mem j = some ys := by rw [h.mem]; exact hj
  unfold Tuple.opEq
  rw [M.bind_ok (alive_ok hi'), M.bind_ok (alive_ok hj'),
    storageEqual_run hi' hj' (h.len _ _ hi) (h.len _ _ hj) ts 0 rfl]
  rfl

theorem opEq_ok (h : Reach ts s V) (hi : V i = some xs) (hj : V j = some ys) : opEq ts i j s = .ok (equalList ts xs ys) s :=
  h.inv.opEq hi hj

theorem Inv.opLt (h : Inv ts s V) (hi : V i = some xs) (hj : V j = some ys) : Tuple.opLt ts i j s = .ok (lessList ts xs ys) s := by
  have hi' : s.mem i = some xs := by rw [h.mem]; exact hi
  have hj' : s.mem j = some ys := by rw [h.mem]; exact hj
  unfold Tuple.opLt
  rw [M.bind_ok (alive_ok hi'), M.bind_ok (alive_ok hj'),
    storageLess_run hi' hj' (h.len _ _ hi) (h.len _ _ hj) ts 0 rfl]
  rfl

theorem opLt_ok (h : Reach ts s V) (hi : V i = some xs) (hj : V j = some ys) : opLt ts i j s = .ok (lessList ts xs ys) s :=
  h.inv.opLt hi hj

/-- C57: `==` holds exactly if the elements are pairwise `==` (each by its own type's operator); comparing changes nothing -/
theorem C57_equal (h : Reach ts s V) (hi : V i = some xs) (hj : V j = some ys) : ∃ b, opEq ts i j s = .ok b s ∧
    (b = true ↔ ∀ (k : Nat) (T : Elem ν) (x y : ν), ts[k]? = some T → xs[k]? = some x → ys[k]? = some y → T.eq x y = true) :=
  ⟨_, opEq_ok h hi hj, equalList_iff ts xs ys⟩

/-- C57: if the elements' `==` are equality of values, then `==` is equality of the contents -/
theorem C57_equal_iff_same (h : Reach ts s V) (heq : ∀ T ∈ ts, ∀ a b, T.eq a b = true ↔ a = b) (hi : V i = some xs)
    (hj : V j = some ys) : ∃ b, opEq ts i j s = .ok b s ∧ (b = true ↔ xs = ys) := by
  have hx := h.inv.len _ _ hi
  have hy := h.inv.len _ _ hj
  refine ⟨_, opEq_ok h hi hj, (equalList_iff ts xs ys).trans ⟨fun h' => ?_, ?_⟩⟩
  · apply List.ext_getElem (by omega)
    intro k h1 h2
    exact (heq _ (List.getElem_mem (by omega)) _ _).1 (h' k (ts[k]'(by omega)) _ _ (List.getElem?_eq_getElem _)
      (List.getElem?_eq_getElem _) (List.getElem?_eq_getElem _))
  · rintro rfl k T x y hT h1 h2
    rw [h1] at h2; cases h2
    exact (heq T (List.mem_of_getElem? hT) x x).2 rfl

/-- C57: `<` is lexicographic order -/
theorem C57_less (h : Reach ts s V) (hi : V i = some xs) (hj : V j = some ys) :
    ∃ b, opLt ts i j s = .ok b s ∧ (b = true ↔ Before ts xs ys) :=
  ⟨_, opLt_ok h hi hj, lessList_iff ts xs ys⟩

/-- C57: the six operators are consistent -/
theorem C57_consistent (h : Reach ts s V) (hi : V i = some xs) (hj : V j = some ys) :
    ∃ a b c, opLt ts i j s = .ok a s ∧ opLt ts j i s = .ok b s ∧ opEq ts i j s = .ok c s ∧
      opGt ts i j s = .ok b s ∧ opLe ts i j s = .ok (!b) s ∧ opGe ts i j s = .ok (!a) s ∧ opNe ts i j s = .ok (!c) s := by
  refine ⟨_, _, _, opLt_ok h hi hj, opLt_ok h hj hi, opEq_ok h hi hj, opLt_ok h hj hi, ?_, ?_, ?_⟩
  · exact M.bind_ok (opLt_ok h hj hi)
  · exact M.bind_ok (opLt_ok h hi hj)
  · exact M.bind_ok (opEq_ok h hi hj)

/-- C57: if the elements' `<` are strict weak orders, so is `<` on tuples -/
theorem C57_strict_weak_order (h : Reach ts s V) (hlt : ∀ T ∈ ts, StrictWeak T.lt) (hi : V i = some xs) (hj : V j = some ys)
    (hk : V k = some zs) :
    opLt ts i i s = .ok false s ∧
    (opLt ts i j s = .ok true s → opLt ts j k s = .ok true s → opLt ts i k s = .ok true s) ∧
    (opLt ts i j s = .ok false s → opLt ts j i s = .ok false s → opLt ts j k s = .ok false s →
      opLt ts k j s = .ok false s → opLt ts i k s = .ok false s ∧ opLt ts k i s = .ok false s) := by
  rw [opLt_ok h hi hi, opLt_ok h hi hj, opLt_ok h hj hk, opLt_ok h hi hk, opLt_ok h hj hi, opLt_ok h hk hj, opLt_ok h hk hi]
  simp only [Out.ok.injEq, and_true]
  exact lessList_weak ts hlt xs ys zs (h.inv.len _ _ hi) (h.inv.len _ _ hj) (h.inv.len _ _ hk)

/-- C57: if the elements' `<` are strict total orders, tuples that are not `<` either way have equal contents -/
theorem C57_strict_total_order (h : Reach ts s V) (hlt : ∀ T ∈ ts, StrictTotal T.lt) (hi : V i = some xs) (hj : V j = some ys)
    (h1 : opLt ts i j s = .ok false s) (h2 : opLt ts j i s = .ok false s) : xs = ys := by
  rw [opLt_ok h hi hj] at h1
  rw [opLt_ok h hj hi] at h2
  simp only [Out.ok.injEq, and_true] at h1 h2
  exact lessList_total ts hlt xs ys (h.inv.len _ _ hi) (h.inv.len _ _ hj) h1 h2

/-! ### concrete cases -/

/-- values: of one type in ascending, of the other in descending order -/
def up : Elem Nat :=
  { moved := fun _ => 0, selfMove := fun _ => 0, torn := fun _ _ => 99, dflt := 0, init := id, eq := (· == ·), lt := (· < ·) }

def down : Elem Nat := { up with lt := fun a b => b < a, init := (· + 1), moved := fun _ => 7 }

/-- two tuples: `{1, 6}` and `{1, 4}` -/
def demoV : Vars Nat := upd (upd (fun _ => none) 0 (some [1, 6])) 1 (some [1, 4])

theorem demo : ∃ s, Reach [up, down] s demoV ∧ ∀ t, s.orc t = false := by
  obtain ⟨s1, _, h1, o1⟩ := (Reach.start (ts := [up, down]) fun _ => false).next
    (.ctor (i := 0) (args := [.val 1, .val 5]) rfl (.cons (.cons .nil .val) .val)) (fun _ => rfl)
  obtain ⟨s2, _, h2, o2⟩ := h1.next (.ctorCopy (i := 1) (j := 0) rfl rfl) o1
  obtain ⟨s3, _, h3, o3⟩ := h2.next (.set (i := 1) (k := 1) (v := 4) rfl (by decide)) o2
  refine ⟨s3, ?_, o3⟩
  have e : demoV = upd (upd (upd (fun _ => none) 0 (some [1, 6])) 1 (some [1, 6])) 1 (some [1, 4]) := by simp [demoV, upd_upd]
  rw [e]
  exact h3

example : ∃ s, Reach [up, down] s demoV ∧ Shows [up, down] s 0 [1, 6] ∧ Shows [up, down] s 1 [1, 4] ∧
    opLt [up, down] 0 1 s = .ok true s ∧ opEq [up, down] 0 1 s = .ok false s ∧
    (∃ s', (Op.swap 0 1).run [up, down] s = .ok () s' ∧ Shows [up, down] s' 0 [1, 4] ∧ Shows [up, down] s' 1 [1, 6]) ∧
    (∃ s', (Op.ctorMove 2 0).run [up, down] s = .ok () s' ∧ Shows [up, down] s' 0 [0, 7] ∧ Shows [up, down] s' 2 [1, 6]) := by
  obtain ⟨s, h, ho⟩ := demo
  obtain ⟨s1, h1, h2, h3, _⟩ := C57_swap h (i := 0) (j := 1) rfl rfl
  obtain ⟨s2, h4, h5, _⟩ := h.next (.ctorMove (i := 2) (j := 0) rfl rfl) ho
  exact ⟨s, h, C57_shows h rfl, C57_shows h rfl, opLt_ok h (i := 0) (j := 1) rfl rfl, opEq_ok h (i := 0) (j := 1) rfl rfl,
    ⟨s1, h1, h2, h3⟩, s2, h4, C57_shows h5 rfl, C57_shows h5 rfl⟩

theorem up_total : StrictTotal up.lt :=
  { irrefl := by simp [up], trans := by simp [up]; omega, incomp := by simp [up]; omega, tri := by simp [up]; omega }
theorem down_total : StrictTotal down.lt :=
  { irrefl := by simp [down], trans := by simp [down]; omega, incomp := by simp [down]; omega, tri := by simp [down]; omega }

example : (∀ T ∈ [up, down], StrictTotal T.lt) ∧ ∀ T ∈ [up, down], ∀ a b, T.eq a b = true ↔ a = b := by
  constructor
  · intro T hT; simp at hT; rcases hT with rfl | rfl
    · exact up_total
    · exact down_total
  · intro T hT; simp at hT; rcases hT with rfl | rfl <;> simp [up, down]

/-- the tuple without elements -/
example : ∃ s V, Reach ([] : List (Elem Nat)) s V ∧ Shows [] s 0 [] ∧ opEq [] 0 0 s = .ok true s ∧ opLt [] 0 0 s = .ok false s := by
  obtain ⟨s1, _, h1, o1⟩ := (Reach.start (ts := ([] : List (Elem Nat))) fun _ => false).next
    (.ctor (i := 0) (args := []) rfl .nil) (fun _ => rfl)
  exact ⟨s1, _, h1, C57_shows h1 rfl, opEq_ok h1 (i := 0) (j := 0) rfl rfl, opLt_ok h1 (i := 0) (j := 0) rfl rfl⟩

end Ptl.Tuple

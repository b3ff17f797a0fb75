import Verif.Str.Demo

/-! # Views, comparison, hashing and growth of strings (lemmas) -/

namespace Ptl.Str

variable {s s' : St} {V : Vars}

/-- the view denotes the bytes `xs` -/
structure View.Sees (s : St) (a : View) (xs : List UInt8) : Prop where
  size : a.size = xs.length
  read : ∀ n, n ≤ xs.length → a.read n s = .ok (xs.take n) s

theorem View.read_mem (p : Ptr) (m n : Nat) : (View.mem p m).read n = readN p n := rfl

theorem View.Sees.ext (s : St) (bs : List UInt8) : View.Sees s (.ext bs) bs := ⟨rfl, fun _ _ => rfl⟩

theorem readN_zero (p : Ptr) : readN p 0 s = .ok [] s := by simp [readN]

theorem View.Sees.sub (hw : WF s) {i : Id} {v : Vw} (hv : abs s i = some v) {pre xs post : List UInt8} {t : UInt8}
    (hh : Holds v (pre ++ xs ++ post) t) : View.Sees s (.mem ⟨some v.base, pre.length⟩ xs.length) xs := by
  refine ⟨rfl, fun n hn => ?_⟩
  obtain ⟨_, rest, hb⟩ := hh
  rw [View.read_mem]
  refine readN_ok hw hv (A := pre.map some) (B := (xs.drop n).map some ++ post.map some ++ some t :: rest) ?_ (by simp)
    (by simp; omega)
  rw [hb]
  have e : xs.map some = (xs.take n).map some ++ (xs.drop n).map some := by rw [← List.map_append, List.take_append_drop]
  rw [List.map_append, List.map_append, e]
  simp only [List.append_assoc]

theorem View.Sees.whole (hw : WF s) {i : Id} {v : Vw} (hv : abs s i = some v) {xs : List UInt8} {t : UInt8}
    (hh : Holds v xs t) : View.Sees s (.mem ⟨if xs = [] then none else some v.base, 0⟩ xs.length) xs := by
  by_cases h0 : xs = []
  · subst h0
    refine ⟨rfl, fun n hn => ?_⟩
    have : n = 0 := by simpa using hn
    subst this
    rw [View.read_mem]; exact readN_zero _
  · rw [if_neg h0]
    exact View.Sees.sub hw hv (pre := []) (post := []) (by simpa using hh)

theorem viewOf_ok (hw : WF s) {i : Id} {v : Vw} (hv : abs s i = some v) {xs : List UInt8} {t : UInt8} (hh : Holds v xs t) :
    ∃ a, viewOf i s = .ok a s ∧ View.Sees s a xs := by
  refine ⟨_, ?_, View.Sees.whole hw hv hh⟩
  unfold viewOf
  mstep (view_ok hw hv hh)
  rfl

theorem View.compare_ok {a b : View} {xs ys : List UInt8} (ha : View.Sees s a xs) (hb : View.Sees s b ys) :
    a.compare b s = .ok (svCompare xs ys) s := by
  unfold View.compare
  simp only [ha.size, hb.size]
  mstep (ha.read _ (Nat.min_le_left _ _))
  mstep (hb.read _ (Nat.min_le_right _ _))
  rw [memcmp_take]
  rfl

theorem View.equal_ok {a b : View} {xs ys : List UInt8} (ha : View.Sees s a xs) (hb : View.Sees s b ys) :
    a.equal b s = .ok (if xs.length = ys.length then svCompare xs ys == .eq else false) s := by
  unfold View.equal
  rw [ha.size, hb.size]
  split
  · mstep (View.compare_ok ha hb)
    rfl
  · rfl

theorem View.cmp_ok (c : Cmp) {a b : View} {xs ys : List UInt8} (ha : View.Sees s a xs) (hb : View.Sees s b ys) :
    View.cmp c a b s = .ok (c.result xs ys) s := by
  unfold View.cmp Cmp.result
  cases c <;> dsimp only
  case eq => exact View.equal_ok ha hb
  case ne => exact Eq.trans (M.bind_ok (View.equal_ok ha hb)) rfl
  all_goals exact Eq.trans (M.bind_ok (View.compare_ok ha hb)) rfl

theorem cmpStrView_ok (c : Cmp) (hw : WF s) {i : Id} {v : Vw} (hv : abs s i = some v) {xs ys : List UInt8} {t : UInt8}
    (hh : Holds v xs t) {b : View} (hb : View.Sees s b ys) : cmpStrView c i b s = .ok (c.result xs ys) s := by
  obtain ⟨a, hr, ha⟩ := viewOf_ok hw hv hh
  unfold cmpStrView
  mstep hr
  exact View.cmp_ok c ha hb

theorem cmpViewStr_ok (c : Cmp) (hw : WF s) {i : Id} {v : Vw} (hv : abs s i = some v) {xs ys : List UInt8} {t : UInt8}
    (hh : Holds v ys t) {a : View} (ha : View.Sees s a xs) : cmpViewStr c a i s = .ok (c.result xs ys) s := by
  obtain ⟨b, hr, hb⟩ := viewOf_ok hw hv hh
  unfold cmpViewStr
  mstep hr
  exact View.cmp_ok c ha hb

theorem cmpStrStr_ok (c : Cmp) (hw : WF s) {i j : Id} {v w : Vw} (hv : abs s i = some v) (hw' : abs s j = some w)
    {xs ys : List UInt8} {t u : UInt8} (hh : Holds v xs t) (hy : Holds w ys u) :
    cmpStrStr c i j s = .ok (c.result xs ys) s := by
  obtain ⟨b, hr, hb⟩ := viewOf_ok hw hw' hy
  unfold cmpStrStr
  mstep hr
  exact cmpStrView_ok c hw hv hh hb

theorem hash_ok (h : List UInt8 → Nat) (hw : WF s) {i : Id} {v : Vw} (hv : abs s i = some v) {xs : List UInt8} {t : UInt8}
    (hh : Holds v xs t) : hash h i s = .ok (h xs) s := by
  obtain ⟨a, hr, ha⟩ := viewOf_ok hw hv hh
  unfold hash
  mstep hr
  mstep (ha.read _ (Nat.le_of_eq ha.size))
  rw [ha.size, List.take_length]
  rfl

/-! ### growth -/

/-- `n` calls of `push_back` -/
def pushes (i : Nat) (ch : UInt8) : Nat → SM Unit
  | 0 => pure ()
  | n + 1 => do
    pushes i ch n
    let _ ← pushBack (.var i) ch
    pure ()

/-- capacity after `n` times `push_back` on a fresh string -/
def capAt (n : Nat) : Nat := if n ≤ 22 then 22 else capFor n

/-- bytes copied by `n` times `push_back` on a fresh string -/
def copied (n : Nat) : Nat :=
  if n ≤ 22 then 0 else 12 * (max 2 ((n + 23) / 24) * max 2 ((n + 23) / 24)) - (11 * max 2 ((n + 23) / 24) + 3)

theorem copied_step (n : Nat) : copied (n + 1) = copied n + if n = capAt n then n + 1 else 0 := by
  unfold copied capAt capFor
  by_cases h22 : n + 1 ≤ 22
  · have h : n ≤ 22 := by omega
    simp only [h22, h, if_true]
    rw [if_neg (by omega)]
  · rw [if_neg h22]
    by_cases h : n ≤ 22
    · have : n = 22 := by omega
      subst this
      decide
    · rw [if_neg h, if_neg h]
      generalize hK : max 2 ((n + 23) / 24) = K
      by_cases he : n = K * 24
      · have h1 : max 2 ((n + 1 + 23) / 24) = K + 1 := by omega
        rw [h1, if_pos he]
        have h2 : (K + 1) * (K + 1) = K * K + 2 * K + 1 := by
          rw [Nat.add_mul, Nat.mul_add]; omega
        have h3 : 2 * K ≤ K * K := Nat.mul_le_mul_right K (by omega)
        rw [h2]; omega
      · have h1 : max 2 ((n + 1 + 23) / 24) = K := by omega
        rw [h1, if_neg he]; omega

theorem capAt_step (n : Nat) : capAt (n + 1) = if n = capAt n then capFor (n + 1) else capAt n := by
  unfold capAt
  by_cases h22 : n + 1 ≤ 22
  · have h : n ≤ 22 := by omega
    simp only [h22, h, if_true]
    rw [if_neg (by omega)]
  · rw [if_neg h22]
    by_cases h : n ≤ 22
    · have : n = 22 := by omega
      subst this; rfl
    · rw [if_neg h]
      unfold capFor
      split <;> omega

theorem pushes_run (h : Reach s V) {i : Nat} (hi : V i = some []) (hc : capacity (.var i) s = .ok 22 s)
    (ho : ∀ k, s.orc k = false) (ch : UInt8) (n : Nat) (hn : n + 23 ≤ maxSize) :
    ∃ s' v', pushes i ch n s = .ok () s' ∧ Step s s' (upd (abs s) (.var i) (some v')) ∧ (∃ t, Holds v' (List.replicate n ch) t) ∧
      v'.cap = capAt n ∧ s'.moves = s.moves + copied n := by
  obtain ⟨hinv, rfl⟩ := h.inv
  induction n with
  | zero =>
    obtain ⟨v, t, hv, hh⟩ := vars_some hinv hi
    have hcap : v.cap = 22 := by have := (capacity_ok hinv.wf hv).symm.trans hc; injection this
    exact ⟨s, v, rfl, by rw [upd_eq _ _ _ hv]; exact Step.refl hinv.wf, ⟨t, hh⟩, by simp [capAt, hcap], by simp [copied]⟩
  | succ n ih =>
    obtain ⟨s1, v1, hr1, st1, ⟨t1, hh1⟩, hc1, hm1⟩ := ih (by omega)
    rcases pushBack_run st1.wf st1.at hh1 ch with ⟨s2, v2, hr2, st2, hh2, hc2, _, hm2⟩ | ⟨s2, e, hr2, st2, hy, _⟩
    · refine ⟨s2, v2, ?_, st1.then st2, ⟨0, ?_⟩, ?_, ?_⟩
      · unfold pushes
        mstep hr1
        mstep hr2
        rfl
      · rw [← List.replicate_succ'] at hh2; exact hh2
      · rw [hc2, List.length_replicate, hc1, capAt_step]
      · rw [hm2, hm1, List.length_replicate, hc1, copied_step]; omega
    · exfalso
      have nohit : ¬ Hit s1 s2 := fun ⟨k, _, _, hk⟩ => by rw [st1.orc, ho] at hk; cases hk
      rw [List.length_replicate] at hy
      cases hy with
      | length h => omega
      | mem h k =>
        rcases k with k | k
        · have := capFor_big k h; omega
        · exact nohit k
      | user h => cases h

end Ptl.Str

import Verif.Arr.Client
import Verif.Iter.Props

/-! # The loops of the array model -/

set_option linter.unusedSectionVars false

namespace Ptl.Arr

open View (Ptr Loc Mem)
open Iter (It)

variable {α β γ : Type} {E : Elem α} {N : Nat} {s s' : St α} {i j k : Nat} {xs ys : List α} {x y v : α}

/-- the outcome is a return with `P` or an exception with `Q` -/
def Run (r : Out (St α) β) (P : β → St α → Prop) (Q : Exc → St α → Prop) : Prop :=
  match r with
  | .ok b s => P b s
  | .exc e s => Q e s
  | .ub _ => False
  | .term => False

theorem Run.bind {m : AM α β} {f : β → AM α γ} {P : β → St α → Prop} {P' : γ → St α → Prop} {Q Q' : Exc → St α → Prop}
    (h : Run (m s) P Q) (h1 : ∀ b s', P b s' → Run (f b s') P' Q') (h2 : ∀ e s', Q e s' → Q' e s') :
    Run ((m >>= f) s) P' Q' := by
  rw [M.bind_run]
  cases hm : m s with
  | ok b s' => rw [hm] at h; exact h1 b s' h
  | exc e s' => rw [hm] at h; exact h2 e s' h
  | ub => rw [hm] at h; exact h
  | term => rw [hm] at h; exact h

theorem Run.mono {r : Out (St α) β} {P P' : β → St α → Prop} {Q Q' : Exc → St α → Prop} (h : Run r P Q)
    (h1 : ∀ b s', P b s' → P' b s') (h2 : ∀ e s', Q e s' → Q' e s') : Run r P' Q' := by
  cases r with
  | ok b s' => exact h1 b s' h
  | exc e s' => exact h2 e s' h
  | ub => exact h
  | term => exact h

/-! ### positions -/

/-- pointer to element `k` of array `i` -/
def ptrK (N i k : Nat) : Ptr := if N = 0 then .null else .at i k

theorem onMem_ok {f : Mem α → Except Fault β} {b : β} (h : f s.mem = .ok b) : onMem f s = .ok b s := by simp [onMem, h]

theorem alive_ok (h : s.mem i = some xs) : alive i s = .ok xs s := by simp [alive, h]

theorem data_ok (h : s.mem i = some xs) : data N i s = .ok (ptrK N i 0) s := by
  unfold data
  rw [M.bind_ok (alive_ok h)]
  rfl

theorem begin_ok (h : s.mem i = some xs) : begin_ N i s = .ok ⟨ptrK N i 0⟩ s := by
  unfold begin_
  rw [M.bind_ok (data_ok h)]
  rfl

theorem span (h : s.mem i = some xs) (hl : xs.length = N) (hN : N ≤ ptrdiffMax) : Iter.Span s.mem (ptrK N i 0) N := by
  refine ⟨hN, ?_⟩
  by_cases h0 : N = 0
  · simp only [ptrK, if_pos h0]; exact h0
  · simp only [ptrK, if_neg h0]
    exact ⟨by omega, xs, h, by omega⟩

theorem end_ok (h : s.mem i = some xs) (hl : xs.length = N) (hN : N ≤ ptrdiffMax) :
    end_ N i s = .ok ⟨ptrK N i N⟩ s := by
  unfold end_
  rw [M.bind_ok (data_ok h)]
  refine onMem_ok ?_
  show Iter.end_ s.mem (ptrK N i 0) N = _
  rw [Iter.end_eq (span h hl hN)]
  by_cases h0 : N = 0
  · simp only [ptrK, if_pos h0, Iter.past]
  · simp only [ptrK, if_neg h0, Iter.past]
    simp

theorem ne_k (hk : k ≤ N) : Iter.ne ⟨ptrK N i k⟩ ⟨ptrK N i N⟩ = decide (k < N) := by
  unfold ptrK Iter.ne Iter.eq
  by_cases h : N = 0
  · subst h; simp
  · simp only [h, if_false]
    rw [Bool.eq_iff_iff]
    simp only [Bool.not_eq_true', beq_eq_false_iff_ne, Ne, Ptr.at.injEq, true_and, decide_eq_true_eq]
    omega

theorem eq_k (hk : k ≤ N) : Iter.eq ⟨ptrK N i k⟩ ⟨ptrK N i N⟩ = decide (k = N) := by
  have := ne_k (i := i) hk
  unfold Iter.ne at this
  rw [Bool.not_eq_eq_eq_not] at this
  rw [this, ← decide_not, decide_eq_decide]
  omega

theorem points (h : s.mem i = some xs) (hl : xs.length = N) (hk : k < N) :
    Iter.Points s.mem ⟨ptrK N i k⟩ i N k := by
  refine ⟨?_, ⟨xs, h, hl⟩, by omega, by omega⟩
  simp only [ptrK]
  rw [if_neg (by omega)]

theorem deref_k (h : s.mem i = some xs) (hl : xs.length = N) (hk : k < N) :
    onMem (Iter.deref · ⟨ptrK N i k⟩) s = .ok ⟨i, k⟩ s :=
  onMem_ok (Iter.C56_deref (points h hl hk) (by omega)).1

theorem inc_k (h : s.mem i = some xs) (hl : xs.length = N) (hk : k < N) :
    onMem (Iter.inc · ⟨ptrK N i k⟩) s = .ok ⟨ptrK N i (k + 1)⟩ s := by
  refine onMem_ok ?_
  obtain ⟨jt, h1, h2⟩ := Iter.C56_add (points h hl hk) (k := 1) (by omega) (by omega)
  rw [(Iter.C56_steps _ 0).1, h1]
  congr 1
  rw [h2.at]
  simp only [ptrK]
  rw [if_neg (by omega)]
  rfl

theorem read_k (h : s.mem i = some xs) (hk : xs[k]? = some x) : readLoc ⟨i, k⟩ s = .ok x s :=
  onMem_ok (by simp [Loc.read, h, hk])

theorem write_k (h : s.mem i = some xs) (hk : k < xs.length) (v : α) :
    writeLoc ⟨i, k⟩ v s = .ok () { s with mem := upd s.mem i (some (xs.set k v)) } := by
  simp [writeLoc, Loc.write, h, hk]

theorem index_k (h : s.mem i = some xs) (hl : xs.length = N) (hk : k < N) : index N i k s = .ok ⟨i, k⟩ s := by
  unfold index
  rw [M.bind_ok (data_ok h)]
  have e : ptrK N i 0 = .at i (0 : Nat) := by simp only [ptrK]; rw [if_neg (by omega)]
  rw [e]
  have : onMem ((Ptr.at i ((0 : Nat) : Int)).add · k) s = .ok (.at i ((0 : Nat) + k : Int)) s :=
    onMem_ok (Ptr.add_at h (by omega) (by omega))
  rw [M.bind_ok this]
  exact onMem_ok (Ptr.deref_at h (by omega) (by omega))

theorem iterAt_k (h : s.mem i = some xs) (hl : xs.length = N) (hk : k < N) : iterAt N i k s = .ok ⟨i, k⟩ s := by
  unfold iterAt
  rw [M.bind_ok (begin_ok h)]
  refine onMem_ok ?_
  rw [Iter.C56_element (points h hl (by omega : 0 < N)) (by omega) (by omega)]
  congr 2
  omega

/-! ### element operations -/

theorem copyAssign_run {a : Arg α} (h : s.mem i = some xs) (hx : xs[k]? = some x) (ha : a.read s = .ok v s) :
    Run (copyAssign E ⟨i, k⟩ a s)
      (fun _ s' => s'.mem = upd s.mem i (some (xs.set k v)) ∧ s'.orc = s.orc)
      (fun e s' => e = .user ∧ s'.mem = upd s.mem i (some (xs.set k (E.torn x v))) ∧ s'.orc = s.orc ∧ s.orc s.tick = true) := by
  have hk : k < xs.length := (List.getElem?_eq_some_iff.1 hx).1
  have hm : (readLoc ⟨i, k⟩ >>= fun x => a.read >>= fun v => pure (x, v) : AM α (α × α)) s = .ok (x, v) s := by
    rw [M.bind_ok (read_k h hx), M.bind_ok ha]; rfl
  unfold copyAssign
  rw [hm]
  simp only
  split
  · rw [write_k h hk]
    exact ⟨rfl, rfl, rfl, by assumption⟩
  · rw [write_k h hk]
    exact ⟨rfl, rfl⟩

theorem swapElem_run (h : s.mem i = some xs) (h' : s.mem j = some ys) (hx : xs[k]? = some x) (hy : ys[k]? = some y) (hij : i ≠ j) :
    swapElem ⟨i, k⟩ ⟨j, k⟩ s = .ok () { s with mem := upd (upd s.mem i (some (xs.set k y))) j (some (ys.set k x)) } := by
  have hk : k < xs.length := (List.getElem?_eq_some_iff.1 hx).1
  have hk' : k < ys.length := (List.getElem?_eq_some_iff.1 hy).1
  unfold swapElem
  rw [M.bind_ok (read_k h hx), M.bind_ok (read_k h' hy), M.bind_ok (write_k h hk y)]
  rw [write_k (s := { s with mem := upd s.mem i (some (xs.set k y)) }) (xs := ys) (by rw [← h']; exact upd_ne _ _ (Ne.symm hij)) hk']

theorem swapElem_self (h : s.mem i = some xs) (hx : xs[k]? = some x) : swapElem ⟨i, k⟩ ⟨i, k⟩ s = .ok () s := by
  have hk : k < xs.length := (List.getElem?_eq_some_iff.1 hx).1
  obtain ⟨_, hg⟩ := List.getElem?_eq_some_iff.1 hx
  have e : xs.set k x = xs := by rw [← hg]; exact List.set_getElem_self hk
  have w := write_k h hk x
  rw [e, upd_eq _ _ _ h] at w
  unfold swapElem
  rw [M.bind_ok (read_k h hx), M.bind_ok (read_k h hx), M.bind_ok w, w]

theorem moveAssign_run (h : s.mem i = some xs) (h' : s.mem j = some ys) (hk : k < xs.length) (hy : ys[k]? = some y) (hij : i ≠ j) :
    moveAssign E ⟨i, k⟩ ⟨j, k⟩ s =
      .ok () { s with mem := upd (upd s.mem i (some (xs.set k y))) j (some (ys.set k (E.moved y))) } := by
  have hk' : k < ys.length := (List.getElem?_eq_some_iff.1 hy).1
  unfold moveAssign
  rw [M.bind_ok (read_k h' hy), if_neg (by simp [hij]), M.bind_ok (write_k h hk y)]
  rw [write_k (s := { s with mem := upd s.mem i (some (xs.set k y)) }) (xs := ys) (by rw [← h']; exact upd_ne _ _ (Ne.symm hij)) hk']

theorem moveAssign_self (h : s.mem i = some xs) (hx : xs[k]? = some x) :
    moveAssign E ⟨i, k⟩ ⟨i, k⟩ s = .ok () { s with mem := upd s.mem i (some (xs.set k (E.selfMove x))) } := by
  have hk : k < xs.length := (List.getElem?_eq_some_iff.1 hx).1
  unfold moveAssign
  rw [M.bind_ok (read_k h hx), if_pos rfl, write_k h hk]

/-! ### lists that are changed from the front -/

/-- the first `k` elements of `ys`, then those of `xs` -/
def mix (k : Nat) (ys xs : List α) : List α := ys.take k ++ xs.drop k

theorem mix_zero : mix 0 ys xs = xs := by simp [mix]
theorem mix_all (h : ys.length = N) (h' : xs.length = N) : mix N ys xs = ys := by
  simp [mix, List.take_of_length_le (Nat.le_of_eq h), List.drop_of_length_le (Nat.le_of_eq h')]
theorem mix_length (h : ys.length = N) (h' : xs.length = N) (hk : k ≤ N) : (mix k ys xs).length = N := by simp [mix]; omega
theorem mix_self (xs : List α) (k : Nat) : mix k xs xs = xs := List.take_append_drop k xs

theorem mix_get (h : ys.length = N) (h' : xs.length = N) (hk : k ≤ N) (c : Nat) :
    (mix k ys xs)[c]? = if c < k then ys[c]? else xs[c]? := by
  unfold mix
  split
  · rw [List.getElem?_append_left (by simp; omega), List.getElem?_take, if_pos (by assumption)]
  · rw [List.getElem?_append_right (by simp; omega), List.getElem?_drop]
    congr 1
    simp
    omega

theorem mix_set_any (h : ys.length = N) (h' : xs.length = N) (hk : k < N) (v : α) :
    (mix k ys xs).set k v = ys.take k ++ v :: xs.drop (k + 1) := by
  have hl : (ys.take k).length = k := by simp; omega
  unfold mix
  rw [List.set_append_right _ _ (by omega), hl, Nat.sub_self, List.drop_eq_getElem_cons (by omega : k < xs.length)]
  rfl

theorem mix_set (h : ys.length = N) (h' : xs.length = N) (hk : k < N) (hy : ys[k]? = some y) :
    (mix k ys xs).set k y = mix (k + 1) ys xs := by
  rw [mix_set_any h h' hk]
  obtain ⟨hk', rfl⟩ := List.getElem?_eq_some_iff.1 hy
  rw [mix, List.take_succ_eq_append_getElem hk', List.append_assoc]
  rfl

theorem get_lt (h : xs.length = N) (hk : k < N) : ∃ x, xs[k]? = some x := ⟨_, List.getElem?_eq_getElem (by omega)⟩

/-! ### loops -/

/-- a loop stopped at element `c` of `i` -/
def Stopped (E : Elem α) (s s' : St α) (i : Nat) (ys xs : List α) : Prop :=
  ∃ c x y, xs[c]? = some x ∧ ys[c]? = some y ∧ s'.mem = upd s.mem i (some (ys.take c ++ E.torn x y :: xs.drop (c + 1)))

theorem fillLoop_run {a : Arg α} (hx : xs.length = N) (s0 : St α)
    (hread : ∀ k s, k ≤ N → s.mem = upd s0.mem i (some (mix k (List.replicate N v) xs)) → a.read s = .ok v s) :
    ∀ (n k : Nat) (s : St α), k + n = N → s.mem = upd s0.mem i (some (mix k (List.replicate N v) xs)) → s.orc = s0.orc →
      Run (fillLoop E ⟨ptrK N i N⟩ a (n + 1) ⟨ptrK N i k⟩ s)
        (fun _ s' => s'.mem = upd s0.mem i (some (List.replicate N v)) ∧ s'.orc = s0.orc)
        (fun e s' => e = .user ∧ s'.orc = s0.orc ∧ (∃ t, s0.orc t = true) ∧ Stopped E s0 s' i (List.replicate N v) xs) := by
  have hr : (List.replicate N v).length = N := by simp
  intro n
  induction n with
  | zero =>
    intro k s hk hm ho
    have : k = N := by omega
    subst this
    rw [mix_all hr hx] at hm
    unfold fillLoop
    rw [ne_k (Nat.le_refl k), if_neg (by simp)]
    exact ⟨hm, ho⟩
  | succ n ih =>
    intro k s hk hm ho
    have hkN : k < N := by omega
    have hmi : s.mem i = some (mix k (List.replicate N v) xs) := by rw [hm, upd_same]
    have hml := mix_length hr hx (Nat.le_of_lt hkN)
    obtain ⟨x, hxk⟩ := get_lt hx hkN
    have hxm : (mix k (List.replicate N v) xs)[k]? = some x := by rw [mix_get hr hx (by omega), if_neg (by omega)]; exact hxk
    have hv : (List.replicate N v)[k]? = some v := by simp [hkN]
    unfold fillLoop
    rw [ne_k (by omega), if_pos (by simpa using hkN), M.bind_ok (deref_k hmi hml hkN)]
    refine Run.bind (copyAssign_run hmi hxm (hread k s (by omega) hm)) ?_ ?_
    · rintro _ s1 ⟨h1, h2⟩
      rw [mix_set hr hx hkN hv, hm, upd_upd] at h1
      have h1i : s1.mem i = some (mix (k + 1) (List.replicate N v) xs) := by rw [h1, upd_same]
      rw [M.bind_ok (inc_k h1i (mix_length hr hx hkN) hkN)]
      exact ih (k + 1) s1 (by omega) h1 (h2.trans ho)
    · rintro e s1 ⟨h0, h1, h2, h3⟩
      refine ⟨h0, h2.trans ho, ⟨_, ho ▸ h3⟩, k, x, v, hxk, hv, ?_⟩
      rw [h1, hm, upd_upd, mix_set_any hr hx hkN]

theorem copyLoop_run (hx : xs.length = N) (hy : ys.length = N) (s0 : St α)
    (hread : ∀ k s y, k < N → s.mem = upd s0.mem i (some (mix k ys xs)) → ys[k]? = some y → readLoc ⟨j, k⟩ s = .ok y s) :
    ∀ (n k : Nat) (s : St α), k + n = N → s.mem = upd s0.mem i (some (mix k ys xs)) → s.orc = s0.orc →
      Run (copyLoop E i j n k s)
        (fun _ s' => s'.mem = upd s0.mem i (some ys) ∧ s'.orc = s0.orc)
        (fun e s' => e = .user ∧ s'.orc = s0.orc ∧ (∃ t, s0.orc t = true) ∧ Stopped E s0 s' i ys xs) := by
  intro n
  induction n with
  | zero =>
    intro k s hk hm ho
    have : k = N := by omega
    subst this
    rw [mix_all hy hx] at hm
    exact ⟨hm, ho⟩
  | succ n ih =>
    intro k s hk hm ho
    have hkN : k < N := by omega
    have hmi : s.mem i = some (mix k ys xs) := by rw [hm, upd_same]
    obtain ⟨x, hxk⟩ := get_lt hx hkN
    obtain ⟨y, hyk⟩ := get_lt hy hkN
    have hxm : (mix k ys xs)[k]? = some x := by rw [mix_get hy hx (by omega), if_neg (by omega)]; exact hxk
    unfold copyLoop
    refine Run.bind (copyAssign_run (a := .elem j k) hmi hxm (hread k s y hkN hm hyk)) ?_ ?_
    · rintro _ s1 ⟨h1, h2⟩
      rw [mix_set hy hx hkN hyk, hm, upd_upd] at h1
      exact ih (k + 1) s1 (by omega) h1 (h2.trans ho)
    · rintro e s1 ⟨h0, h1, h2, h3⟩
      refine ⟨h0, h2.trans ho, ⟨_, ho ▸ h3⟩, k, x, y, hxk, hyk, ?_⟩
      rw [h1, hm, upd_upd, mix_set_any hy hx hkN]

theorem moveLoop_run (hx : xs.length = N) (hy : ys.length = N) (hij : i ≠ j) (m0 : Mem α) :
    ∀ (n k : Nat) (s : St α), k + n = N →
      s.mem = upd (upd m0 i (some (mix k ys xs))) j (some (mix k (ys.map E.moved) ys)) →
      moveLoop E i j n k s = .ok () { s with mem := upd (upd m0 i (some ys)) j (some (ys.map E.moved)) } := by
  have hz : (ys.map E.moved).length = N := by simpa using hy
  intro n
  induction n with
  | zero =>
    intro k s hk hm
    have : k = N := by omega
    subst this
    rw [mix_all hy hx, mix_all hz hy] at hm
    rw [← hm]
    rfl
  | succ n ih =>
    intro k s hk hm
    have hkN : k < N := by omega
    have hmi : s.mem i = some (mix k ys xs) := by rw [hm, upd_ne _ _ hij, upd_same]
    have hmj : s.mem j = some (mix k (ys.map E.moved) ys) := by rw [hm, upd_same]
    obtain ⟨y, hyk⟩ := get_lt hy hkN
    have hym : (mix k (ys.map E.moved) ys)[k]? = some y := by rw [mix_get hz hy (by omega), if_neg (by omega)]; exact hyk
    have hzk : (ys.map E.moved)[k]? = some (E.moved y) := by simp [hyk]
    have hml := mix_length hy hx (Nat.le_of_lt hkN)
    unfold moveLoop
    rw [M.bind_ok (moveAssign_run hmi hmj (by omega) hym hij)]
    rw [ih (k + 1) _ (by omega) ?_]
    show upd (upd s.mem _ _) _ _ = _
    rw [mix_set hy hx hkN hyk, mix_set hz hy hkN hzk, hm, upd_comm _ _ _ (Ne.symm hij), upd_upd,
      upd_upd]

theorem moveLoop_self (hx : xs.length = N) (m0 : Mem α) :
    ∀ (n k : Nat) (s : St α), k + n = N → s.mem = upd m0 i (some (mix k (xs.map E.selfMove) xs)) →
      moveLoop E i i n k s = .ok () { s with mem := upd m0 i (some (xs.map E.selfMove)) } := by
  have hz : (xs.map E.selfMove).length = N := by simpa using hx
  intro n
  induction n with
  | zero =>
    intro k s hk hm
    have : k = N := by omega
    subst this
    rw [mix_all hz hx] at hm
    rw [← hm]
    rfl
  | succ n ih =>
    intro k s hk hm
    have hkN : k < N := by omega
    have hmi : s.mem i = some (mix k (xs.map E.selfMove) xs) := by rw [hm, upd_same]
    obtain ⟨x, hxk⟩ := get_lt hx hkN
    have hxm : (mix k (xs.map E.selfMove) xs)[k]? = some x := by rw [mix_get hz hx (by omega), if_neg (by omega)]; exact hxk
    have hzk : (xs.map E.selfMove)[k]? = some (E.selfMove x) := by simp [hxk]
    unfold moveLoop
    rw [M.bind_ok (moveAssign_self hmi hxm)]
    rw [ih (k + 1) _ (by omega) ?_]
    show upd s.mem _ _ = _
    rw [mix_set hz hx hkN hzk, hm, upd_upd]

theorem swapLoop_run (hx : xs.length = N) (hy : ys.length = N) (hij : i ≠ j) (m0 : Mem α) :
    ∀ (n k : Nat) (s : St α), k + n = N → s.mem = upd (upd m0 i (some (mix k ys xs))) j (some (mix k xs ys)) →
      swapLoop ⟨ptrK N i N⟩ (n + 1) ⟨ptrK N i k⟩ ⟨ptrK N j k⟩ s = .ok () { s with mem := upd (upd m0 i (some ys)) j (some xs) } := by
  intro n
  induction n with
  | zero =>
    intro k s hk hm
    have : k = N := by omega
    subst this
    rw [mix_all hy hx, mix_all hx hy] at hm
    unfold swapLoop
    rw [ne_k (Nat.le_refl k), if_neg (by simp), ← hm]
    rfl
  | succ n ih =>
    intro k s hk hm
    have hkN : k < N := by omega
    have hmi : s.mem i = some (mix k ys xs) := by rw [hm, upd_ne _ _ hij, upd_same]
    have hmj : s.mem j = some (mix k xs ys) := by rw [hm, upd_same]
    obtain ⟨x, hxk⟩ := get_lt hx hkN
    obtain ⟨y, hyk⟩ := get_lt hy hkN
    have hxm : (mix k ys xs)[k]? = some x := by rw [mix_get hy hx (by omega), if_neg (by omega)]; exact hxk
    have hym : (mix k xs ys)[k]? = some y := by rw [mix_get hx hy (by omega), if_neg (by omega)]; exact hyk
    have hmli := mix_length hy hx (Nat.le_of_lt hkN)
    have hmlj := mix_length hx hy (Nat.le_of_lt hkN)
    unfold swapLoop
    rw [ne_k (by omega), if_pos (by simpa using hkN), M.bind_ok (deref_k hmi hmli hkN), M.bind_ok (deref_k hmj hmlj hkN),
      M.bind_ok (swapElem_run hmi hmj hxm hym hij)]
    have e : upd (upd s.mem i (some ((mix k ys xs).set k y))) j (some ((mix k xs ys).set k x)) =
        upd (upd m0 i (some (mix (k + 1) ys xs))) j (some (mix (k + 1) xs ys)) := by
      rw [mix_set hy hx hkN hyk, mix_set hx hy hkN hxk, hm, upd_comm _ _ _ (Ne.symm hij), upd_upd, upd_upd]
    rw [e]
    have hi1 := inc_k (s := { s with mem := upd (upd m0 i (some (mix (k + 1) ys xs))) j (some (mix (k + 1) xs ys)) })
      (i := i) (xs := mix (k + 1) ys xs) (by show upd _ _ _ _ = _; rw [upd_ne _ _ hij, upd_same]) (mix_length hy hx hkN) hkN
    have hj1 := inc_k (s := { s with mem := upd (upd m0 i (some (mix (k + 1) ys xs))) j (some (mix (k + 1) xs ys)) })
      (i := j) (xs := mix (k + 1) xs ys) (by show upd _ _ _ _ = _; rw [upd_same]) (mix_length hx hy hkN) hkN
    rw [M.bind_ok hi1, M.bind_ok hj1]
    rw [ih (k + 1) _ (by omega) rfl]

theorem swapLoop_self (hx : xs.length = N) (hi : s.mem i = some xs) :
    ∀ (n k : Nat), k + n = N → swapLoop ⟨ptrK N i N⟩ (n + 1) ⟨ptrK N i k⟩ ⟨ptrK N i k⟩ s = .ok () s := by
  intro n
  induction n with
  | zero =>
    intro k hk
    have : k = N := by omega
    subst this
    unfold swapLoop
    rw [ne_k (Nat.le_refl k), if_neg (by simp)]
    rfl
  | succ n ih =>
    intro k hk
    have hkN : k < N := by omega
    obtain ⟨x, hxk⟩ := get_lt hx hkN
    unfold swapLoop
    rw [ne_k (by omega), if_pos (by simpa using hkN), M.bind_ok (deref_k hi hx hkN), M.bind_ok (deref_k hi hx hkN),
      M.bind_ok (swapElem_self hi hxk), M.bind_ok (inc_k hi hx hkN), M.bind_ok (inc_k hi hx hkN), ih (k + 1) (by omega)]

theorem eqLoop_run (eq : α → α → Bool) (hx : xs.length = N) (hy : ys.length = N) (hi : s.mem i = some xs) (hj : s.mem j = some ys) :
    ∀ (n k : Nat), k + n = N →
      eqLoop eq ⟨ptrK N i N⟩ (n + 1) ⟨ptrK N i k⟩ ⟨ptrK N j k⟩ s = .ok (equalLoop eq (xs.drop k) (ys.drop k)) s := by
  intro n
  induction n with
  | zero =>
    intro k hk
    have : k = N := by omega
    subst this
    unfold eqLoop
    rw [ne_k (Nat.le_refl k), if_neg (by simp), List.drop_of_length_le (by omega), List.drop_of_length_le (by omega)]
    rfl
  | succ n ih =>
    intro k hk
    have hkN : k < N := by omega
    have hxk : xs[k]? = some (xs[k]'(by omega)) := List.getElem?_eq_getElem _
    have hyk : ys[k]? = some (ys[k]'(by omega)) := List.getElem?_eq_getElem _
    unfold eqLoop
    rw [ne_k (by omega), if_pos (by simpa using hkN), M.bind_ok (deref_k hi hx hkN), M.bind_ok (read_k hi hxk),
      M.bind_ok (deref_k hj hy hkN), M.bind_ok (read_k hj hyk)]
    rw [List.drop_eq_getElem_cons (by omega : k < xs.length), List.drop_eq_getElem_cons (by omega : k < ys.length)]
    by_cases he : eq (xs[k]'(by omega)) (ys[k]'(by omega)) = true
    · rw [if_neg (by simp [he]), M.bind_ok (inc_k hi hx hkN), M.bind_ok (inc_k hj hy hkN), ih (k + 1) (by omega)]
      simp [equalLoop, he]
    · rw [if_pos (by simpa using he)]
      simp only [Bool.not_eq_true] at he
      simp [equalLoop, he]

theorem lexLoop_run (lt : α → α → Bool) (hx : xs.length = N) (hy : ys.length = N) (hi : s.mem i = some xs) (hj : s.mem j = some ys) :
    ∀ (n k : Nat), k + n = N →
      lexLoop lt ⟨ptrK N i N⟩ ⟨ptrK N j N⟩ (n + 1) ⟨ptrK N i k⟩ ⟨ptrK N j k⟩ s = .ok (lexCompare lt (xs.drop k) (ys.drop k)) s := by
  intro n
  induction n with
  | zero =>
    intro k hk
    have : k = N := by omega
    subst this
    unfold lexLoop
    rw [ne_k (Nat.le_refl k), ne_k (Nat.le_refl k), if_neg (by simp), eq_k (Nat.le_refl k), List.drop_of_length_le (by omega),
      List.drop_of_length_le (by omega)]
    simp [lexCompare]
  | succ n ih =>
    intro k hk
    have hkN : k < N := by omega
    have hxk : xs[k]? = some (xs[k]'(by omega)) := List.getElem?_eq_getElem _
    have hyk : ys[k]? = some (ys[k]'(by omega)) := List.getElem?_eq_getElem _
    unfold lexLoop
    rw [ne_k (by omega), ne_k (by omega), if_pos (by simpa using hkN), M.bind_ok (deref_k hi hx hkN), M.bind_ok (read_k hi hxk),
      M.bind_ok (deref_k hj hy hkN), M.bind_ok (read_k hj hyk)]
    rw [List.drop_eq_getElem_cons (by omega : k < xs.length), List.drop_eq_getElem_cons (by omega : k < ys.length)]
    by_cases h1 : lt (xs[k]'(by omega)) (ys[k]'(by omega)) = true
    · rw [if_pos h1]; simp [lexCompare, h1]
    · rw [if_neg h1]
      simp only [Bool.not_eq_true] at h1
      by_cases h2 : lt (ys[k]'(by omega)) (xs[k]'(by omega)) = true
      · rw [if_pos h2]; simp [lexCompare, h1, h2]
      · rw [if_neg h2, M.bind_ok (inc_k hi hx hkN), M.bind_ok (inc_k hj hy hkN), ih (k + 1) (by omega)]
        simp only [Bool.not_eq_true] at h2
        simp [lexCompare, h1, h2]

end Ptl.Arr

import Verif.Nested.Closure
import Verif.Str.Props.History
import Verif.Str.Props.Values
import Verif.Bitset.Props.Bits

/-! Strings (Verif/Str) and bitsets (Verif/Bitset) as classes in the sense of Verif/Nested/Basic.lean. -/

namespace Ptl.Nested

/-! ### strings -/

section Str
open Ptl.Str

/-- a call whose result is not used -/
def strCall (op : Op) : M Str.St Unit := do
  let _ ← op.run
  pure ()

/-- string.hpp: the functions of the model of Verif/Str/Model.lean -/
def strClass : Class Str.St where
  copy i j := strCall (.ctorCopy i j)
  move i j := strCall (.ctorMove i j)
  assign i j := strCall (.assignCopy i j)
  moveAssign i j := strCall (.assignMove i j)
  swap i j := strCall (.swap i j)
  dtor i := strCall (.dtor i)

variable {s : Str.St} {V V' : Vars} {op : Op} {r : Option Nat}

theorem strCall_res (h : Reach s V) (hs : Spec (Big s) op V V' r) (hl : ∀ i lit, op ≠ .literal i lit) : Res (strCall op s) (fun s' => Reach s' V') (fun s' => Reach s' V) := by
  have := h.call hs
  cases hr : op.run s with
  | ok r' s' => rw [hr] at this; exact .ok ((M.bind_ok hr).trans rfl) this.2
  | exc e s' => rw [hr] at this; exact .inr ⟨e, s', M.bind_exc hr, this⟩
  | ub f => rw [hr] at this; exact this.elim
  | term => rw [hr] at this; obtain ⟨⟨i, lit, he⟩, _⟩ := this; exact absurd he (hl i lit)

theorem noexcept_ne (m : M Str.St Unit) (s : Str.St) (e : Exc) (s' : Str.St) : noRet (M.noexcept m) s ≠ .exc e s' := by
  unfold noRet
  cases hm : m s with
  | ok a s1 => rw [M.bind_ok (M.noexcept_ok hm)]; exact fun h => nomatch h
  | exc e1 s1 => simp [M.bind_run, M.noexcept, hm]
  | ub f => simp [M.bind_run, M.noexcept, hm]
  | term => simp [M.bind_run, M.noexcept, hm]

theorem strCall_run (h : Reach s V) (hs : Spec (Big s) op V V' r) (hl : ∀ i lit, op ≠ .literal i lit) {m : M Str.St Unit} (hm : op.run = noRet (M.noexcept m)) :
    ∃ s', strCall op s = .ok () s' ∧ Reach s' V' := by
  have := h.call hs
  cases hr : op.run s with
  | ok r' s' => rw [hr] at this; exact ⟨s', (M.bind_ok hr).trans rfl, this.2⟩
  | exc e s' => rw [hm] at hr; exact absurd hr (noexcept_ne m s e s')
  | ub f => rw [hr] at this; exact this.elim
  | term => rw [hr] at this; obtain ⟨⟨i, lit, he⟩, _⟩ := this; exact absurd he (hl i lit)

theorem str_regular : Regular strClass Reach (fun s => (∀ p, s.mem p = none) ∧ ∀ i, s.obj (.var i) = none) where
  determ h h' := h.inv.2.symm.trans h'.inv.2
  clean h := ⟨C17_no_leak h fun _ => rfl, fun i => (C15_contents h i).2 rfl⟩
  copy h hi hj := strCall_res h (.ctorCopy hi hj) (by intro _ _ h; cases h)
  assign {s V i j x y} h hij hi hj := (strCall_res h (.assignCopy hi hj) (by intro _ _ h; cases h)).mono (fun s' hs => hs) fun s' hs => ⟨x, by rw [upd_eq _ _ _ hi]; exact hs⟩
  assignSelf {s V i x} h hi := .ok (s := s) ((M.bind_ok (C21_self s i).1).trans rfl) h
  move {s V i j y} h hi hj := by
    have hij : i ≠ j := fun he => by rw [he, hj] at hi; cases hi
    by_cases hb : Big s j
    · obtain ⟨s', h1, h2⟩ := strCall_run h (.ctorMoveBig hi hj hb) (by intro _ _ h; cases h) rfl
      exact ⟨s', [], h1, by rw [upd_comm _ _ _ (Ne.symm hij)]; exact h2⟩
    · obtain ⟨s', h1, h2⟩ := strCall_run h (.ctorMoveSmall hi hj hb) (by intro _ _ h; cases h) rfl
      exact ⟨s', y, h1, by rw [upd_eq V j _ hj]; exact h2⟩
  moveAssign {s V i j x y} h hij hi hj := by
    by_cases hb : Big s j
    · obtain ⟨s', h1, h2⟩ := strCall_run h (.assignMoveBig hi hj hij hb) (by intro _ _ h; cases h) rfl
      exact ⟨s', [], h1, by rw [upd_comm _ _ _ (Ne.symm hij)]; exact h2⟩
    · obtain ⟨s', h1, h2⟩ := strCall_run h (.assignMoveSmall hi hj hij hb) (by intro _ _ h; cases h) rfl
      exact ⟨s', y, h1, by rw [upd_eq V j _ hj]; exact h2⟩
  moveAssignSelf {s V i x} h hi := ⟨s, x, (M.bind_ok (C21_self s i).2.1).trans rfl, by rw [upd_eq _ _ _ hi]; exact h⟩
  swap h hi hj := strCall_run h (.swap hi hj) (by intro _ _ h; cases h) rfl
  dtor {s V i x} h hi := by
    have hinv := h.inv
    obtain ⟨v, u, hv, _⟩ := vars_some hinv.1 (by rw [hinv.2]; exact hi)
    obtain ⟨s', h1, _⟩ := dtor_ok hinv.1.wf hv
    have hr : (Op.dtor i).run s = .ok none s' := (M.bind_ok (f := fun _ => pure none) h1).trans rfl
    exact ⟨s', (M.bind_ok hr).trans rfl, h.ok (.dtor hi) hr⟩

end Str

/-! ### bitsets -/

section Bitset
open Ptl.Bitset

/-- a call whose result is not used -/
def bitCall (n : Nat) (op : Op) : M Bitset.St Unit := do
  let _ ← op.run n
  pure ()

/-- bitset.hpp: the functions of the model of Verif/Bitset/Model.lean; there are no move functions of its own, moving copies -/
def bitClass (n : Nat) : Class Bitset.St where
  copy i j := bitCall n (.copy i j)
  move i j := bitCall n (.copy i j)
  assign i j := bitCall n (.assign i j)
  moveAssign i j := bitCall n (.assign i j)
  swap i j := bitCall n (.swap i j)
  dtor i := bitCall n (.dtor i)

/-- which bitsets there are; the streams do not matter -/
def BitRep (n : Nat) (s : Bitset.St) (V : Nat → Option (Bits n)) : Prop := ∃ is os, Reach n s ⟨V, is, os⟩

theorem bitCall_run {n : Nat} {s : Bitset.St} {V V' : Nat → Option (Bits n)} {op : Op} {r : Bitset.Res} (h : BitRep n s V)
    (hs : ∀ is os, op.spec ⟨V, is, os⟩ = some (.ok r, ⟨V', is, os⟩)) : ∃ s', bitCall n op s = .ok () s' ∧ BitRep n s' V' := by
  obtain ⟨is, os, h⟩ := h
  obtain ⟨s', h1, h2⟩ := h.next (hs is os)
  exact ⟨s', (M.bind_ok h1).trans rfl, is, os, h2⟩

theorem bit_regular (n : Nat) : Regular (bitClass n) (BitRep n) (fun s => ∀ i, s.obj i = none) where
  determ {s V V'} h h' := by
    obtain ⟨_, _, h⟩ := h
    obtain ⟨_, _, h'⟩ := h'
    funext i
    cases hV : V i with
    | none =>
      cases hV' : V' i with
      | none => rfl
      | some g =>
        obtain ⟨xs, h1, _⟩ := h'.inv.live i g hV'
        rw [h.inv.dead i hV] at h1; cases h1
    | some f =>
      obtain ⟨xs, h1, h2⟩ := h.inv.live i f hV
      cases hV' : V' i with
      | none => rw [h'.inv.dead i hV'] at h1; cases h1
      | some g =>
        obtain ⟨ys, h3, h4⟩ := h'.inv.live i g hV'
        rw [h1] at h3
        exact congrArg some ((h2.inj h4).1 (Option.some.inj h3))
  clean {s} h i := by
    obtain ⟨_, _, h⟩ := h
    exact h.inv.dead i rfl
  copy {s V i j y} h hi hj := by
    obtain ⟨s', h1, h2⟩ := bitCall_run (op := .copy i j) (V' := upd V i (some y)) (r := .unit) h fun is os => by simp [Op.spec, View.use, View.create, View.put, hi, hj]
    exact .ok h1 h2
  move {s V i j y} h hi hj := by
    obtain ⟨s', h1, h2⟩ := bitCall_run (op := .copy i j) (V' := upd V i (some y)) (r := .unit) h fun is os => by simp [Op.spec, View.use, View.create, View.put, hi, hj]
    exact ⟨s', y, h1, by rw [upd_eq V j _ hj]; exact h2⟩
  assign {s V i j x y} h hij hi hj := by
    obtain ⟨s', h1, h2⟩ := bitCall_run (op := .assign i j) (V' := upd V i (some y)) (r := .unit) h fun is os => by simp [Op.spec, View.use, View.modify, View.put, hi, hj]
    exact .ok h1 h2
  assignSelf {s V i x} h hi := by
    obtain ⟨s', h1, h2⟩ := bitCall_run (op := .assign i i) (V' := upd V i (some x)) (r := .unit) h fun is os => by simp [Op.spec, View.use, View.modify, View.put, hi]
    exact .ok h1 (by rw [upd_eq V i _ hi] at h2; exact h2)
  moveAssign {s V i j x y} h hij hi hj := by
    obtain ⟨s', h1, h2⟩ := bitCall_run (op := .assign i j) (V' := upd V i (some y)) (r := .unit) h fun is os => by simp [Op.spec, View.use, View.modify, View.put, hi, hj]
    exact ⟨s', y, h1, by rw [upd_eq V j _ hj]; exact h2⟩
  moveAssignSelf {s V i x} h hi := by
    obtain ⟨s', h1, h2⟩ := bitCall_run (op := .assign i i) (V' := upd V i (some x)) (r := .unit) h fun is os => by simp [Op.spec, View.use, View.modify, View.put, hi]
    exact ⟨s', x, h1, h2⟩
  swap {s V i j x y} h hi hj :=
    bitCall_run (op := .swap i j) (V' := upd (upd V i (some y)) j (some x)) (r := .unit) h fun is os => by simp [Op.spec, View.use, View.put, hi, hj]
  dtor {s V i x} h hi :=
    bitCall_run (op := .dtor i) (V' := upd V i none) (r := .unit) h fun is os => by simp [Op.spec, View.use, hi]

end Bitset

end Ptl.Nested

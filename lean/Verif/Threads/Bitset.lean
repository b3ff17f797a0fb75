import Verif.Threads.Basic
import Verif.Bitset.Props.Frame

/-!
# C111 for `bitset`

Reading from and writing to streams is left out: here all bitsets share one input and one output stream.
-/

namespace Ptl.Bitset

open Threads

variable {n : Nat} {s s' : St} {S : Nat → Prop} {V V' W : View n} {op : Op} {r : Except Exc Res}

/-- the bitsets that a call changes -/
def Op.Changes : Op → Nat → Prop
  | .ctor i, k | .ctorVal i _, k | .dtor i, k | .shlA i _, k | .shrA i _, k | .setAll i, k | .resetAll i, k | .flipAll i, k | .setAt i _ _, k
  | .resetAt i _, k | .flipAt i _, k | .refSet i _ _, k | .refFlip i _, k | .atSet i _ _, k | .atFlip i _, k | .extract i, k => k = i
  | .copy i _, k | .assign i _, k | .andA i _, k | .orA i _, k | .xorA i _, k | .opNot i _, k | .opShl i _ _, k | .opShr i _ _, k => k = i
  | .opAnd i _ _, k | .opOr i _ _, k | .opXor i _ _, k => k = i
  | .swap i j, k => k = i ∨ k = j
  | .index _ _, _ | .atConst _ _, _ | .test _ _, _ | .allSet _, _ | .anySet _, _ | .noneSet _, _ | .count _, _ | .insert _, _
  | .opEq _ _, _ | .opNe _ _, _ | .openIn _, _ | .openOut _, _ => False

theorem Op.Changes.names {k : Nat} (h : op.Changes k) : op.Names k := by
  cases op <;> simp only [Op.Changes, Op.Names] at h ⊢ <;> first | exact h | exact .inl h

/-- the call uses a stream -/
def Op.Streams : Op → Prop
  | .insert _ | .extract _ | .openIn _ | .openOut _ => True
  | _ => False

/-- the same bitsets, later; nothing else matters to a bitset -/
def Later (s s' : St) : Prop := s' = s

/-- `ptl::bitset<n>` -/
noncomputable def threads (n : Nat) : Class St Op Res where
  run := fun op => op.run n
  Reached := fun s => ∃ V : View n, Reach n s V
  Pre := fun S s op => ∃ (V : View n) (r : Except Exc Res) (V' : View n), Reach n s V ∧ op.spec (V.only S) = some (r, V') ∧ ¬ op.Streams
  Names := Op.Names
  Changes := Op.Changes
  only := only
  Later := Later

/-- the meaning of a call is about the bitsets it names -/
theorem spec_agree (hs : op.spec V = some (r, V')) (hv : ∀ i, op.Names i → W.var i = V.var i) : ∃ V0, op.spec W = some (r, V0) := by
  cases op
  all_goals simp only [Op.Names, forall_eq, forall_eq_or_imp] at hv
  all_goals simp only [Op.spec, View.use, View.create, View.modify, View.checked, View.unchecked, Option.bind_eq_some_iff, hv] at hs ⊢
  all_goals first
    | exact ⟨_, rfl⟩
    | (simp_all; done)
    | (revert hs; (repeat' split) <;> simp_all <;> done)
    | (obtain ⟨a, ha, hs⟩ := hs; cases hs; exact ⟨_, a, ha, rfl⟩)
    | (obtain ⟨a, ha, b, hb, hs⟩ := hs; cases hs; exact ⟨_, a, ha, b, hb, rfl⟩)
    | (obtain ⟨a, ha, hs⟩ := hs
       split at hs <;> rename_i h <;> cases hs <;> first
         | exact ⟨_, a, ha, congrArg some (if_pos h)⟩
         | exact ⟨_, a, ha, congrArg some (if_neg h)⟩
         | exact ⟨_, a, ha, if_pos h⟩)

/-- what a call does not change keeps its bits -/
theorem spec_other (hs : op.spec V = some (r, V')) {k : Nat} (h : ¬ op.Changes k) : V'.var k = V.var k := by
  cases op
  all_goals simp only [Op.Changes, not_or] at h
  all_goals simp only [Op.spec, View.use, View.create, View.modify, View.checked, View.unchecked, View.put, Option.bind_eq_some_iff] at hs
  all_goals
    repeat' first
      | (obtain ⟨_, _, hs⟩ := hs)
      | split at hs
    all_goals first
      | rfl
      | (simp [upd_ne, h]; done)
      | (cases hs; rfl)
      | (cases hs; simp [upd_ne, h]; done)
      | (cases hs; done)

theorem spec_streams (hs : op.spec V = some (r, V')) (h : ¬ op.Streams) : V'.is = V.is ∧ V'.os = V.os := by
  cases op
  all_goals simp only [Op.Streams, not_true_eq_false] at h
  all_goals simp only [Op.spec, View.use, View.create, View.modify, View.checked, View.unchecked, View.put, Option.bind_eq_some_iff] at hs
  all_goals
    repeat' first
      | (obtain ⟨_, _, hs⟩ := hs)
      | split at hs
    all_goals first
      | exact ⟨rfl, rfl⟩
      | (cases hs; exact ⟨rfl, rfl⟩)
      | (cases hs; done)

theorem St.ext' {s t : St} (h1 : s.obj = t.obj) (h2 : s.is = t.is) (h3 : s.os = t.os) : s = t := by
  cases s; cases t; cases h1; cases h2; cases h3; rfl

theorem ends_outcome {m : Out St Res} {x : Threads.Res Res} (h : Ends m x s') : ∃ r, m = outcome r s' := by
  cases x with
  | ok r => exact ⟨.ok r, h⟩
  | exc e => exact ⟨.error e, h⟩

theorem outcome_inj {r r' : Except Exc Res} {s s' : St} (h : outcome r s = outcome r' s') : r = r' ∧ s = s' := by
  cases r <;> cases r' <;> cases h <;> exact ⟨rfl, rfl⟩

theorem spec_all (hs : op.spec (V.only S) = some (r, V')) (hS : ∀ i, op.Names i → S i) : ∃ V', op.spec V = some (r, V') :=
  spec_agree hs fun i hi => (if_pos (hS i hi)).symm

attribute [local instance] Classical.propDecidable

theorem run_only {x : Threads.Res Res} (h : Reach n s V) (hs : op.spec V = some (r, V'))
    (hS : ∀ i, op.Names i → S i) (hr : Ends (op.run n s) x s') : Ends (op.run n (only S s)) x (only S s') := by
  obtain ⟨V0, hs0⟩ := spec_only (S := S) hs hS
  obtain ⟨s0, e0, hinv0⟩ := step (inv_only (S := S) h.inv) hs0
  obtain ⟨s1, e1, _⟩ := step h.inv hs
  obtain ⟨r1, e2⟩ := ends_outcome hr
  obtain ⟨rfl, rfl⟩ := outcome_inj (e2.symm.trans e1)
  have hf := frm_run (n := n) (F := rest S s) op (fun i hi => if_pos (hS i hi)) _ _ beside_only
  have hb : Beside (rest S s) s0 s' := by
    rw [e0, e1] at hf
    cases r1 with
    | ok a => obtain ⟨t, h1, h2⟩ := hf; cases h1; exact h2
    | error a => obtain ⟨t, h1, h2⟩ := hf; cases h1; exact h2
  have : only S s' = s0 := by
    refine St.ext' (funext fun k => ?_) hb.is hb.os
    by_cases hk : S k
    · refine (if_pos hk).trans ?_
      rcases hb.obj k with ⟨o, h1, h2, _⟩ | ⟨h1, h2⟩
      · rw [h1, h2]
      · rw [h1, h2]; exact if_pos hk
    · refine (if_neg hk).trans (hinv0.dead k ?_).symm
      rw [spec_other hs0 fun hc => hk (hS k hc.names)]
      exact if_neg hk
  rw [this]
  cases x with
  | ok a =>
    have hr : op.run n s = .ok a s' := hr
    rw [e1] at hr
    cases r1 <;> cases hr
    exact e0
  | exc a =>
    have hr : op.run n s = .exc a s' := hr
    rw [e1] at hr
    cases r1 <;> cases hr
    exact e0

theorem later_only {x : Threads.Res Res} (h : Reach n s V) (hs : op.spec V = some (r, V')) (hns : ¬ op.Streams)
    (hS : ∀ i, op.Changes i → ¬ S i) (hr : Ends (op.run n s) x s') : Later (only S s) (only S s') := by
  obtain ⟨s1, e1, hinv'⟩ := step h.inv hs
  obtain ⟨r1, e2⟩ := ends_outcome hr
  obtain ⟨rfl, rfl⟩ := outcome_inj (e2.symm.trans e1)
  obtain ⟨h1, h2⟩ := spec_streams hs hns
  refine St.ext' (funext fun k => ?_) (hinv'.is.trans (h1.trans h.inv.is.symm)) (hinv'.os.trans (h2.trans h.inv.os.symm))
  by_cases hk : S k
  · exact (if_pos hk).trans ((C93_bitset_sources h hs e1 (spec_other hs fun hc => hS k hc hk)).trans (if_pos hk).symm)
  · exact (if_neg hk).trans (if_neg hk).symm

theorem separate : (threads n).Separate where
  safe := by
    rintro S s op f - ⟨V, r, V', h, hs, _⟩ hS e
    obtain ⟨V', hs⟩ := spec_all hs hS
    obtain ⟨s1, e1, _⟩ := step h.inv hs
    rw [show op.run n s = .ub f from e] at e1
    cases r <;> cases e1
  next := by
    rintro S s s' op x - ⟨V, r, V', h, hs, _⟩ hS hr
    obtain ⟨V', hs⟩ := spec_all hs hS
    obtain ⟨s1, e1, _⟩ := step h.inv hs
    obtain ⟨r1, e2⟩ := ends_outcome hr
    obtain ⟨rfl, rfl⟩ := outcome_inj (e2.symm.trans e1)
    cases r1 with
    | ok a => exact ⟨_, h.ok hs e1⟩
    | error a => exact ⟨_, h.thrown hs e1⟩
  own := by
    rintro S s s' op x - ⟨V, r, V', h, hs, _⟩ hS hr
    obtain ⟨V', hs⟩ := spec_all hs hS
    exact run_only h hs hS hr
  other := by
    rintro S S' s s' op x - ⟨V, r, V', h, hs, hns⟩ hS hc hr
    obtain ⟨V', hs⟩ := spec_all hs hS
    exact later_only h hs hns hc hr

/-- C111 for bitsets: each thread that changes only bitsets that no other one uses, and no streams, runs as it would on its own, with
the same results and exceptions, and ends with the same bitsets.  (Different bits of one bitset are not different objects.) -/
theorem C111_bitset {τ : Type} [DecidableEq τ] {May : τ → Nat → Prop}
    {l : List (τ × Op × Threads.Res Res)} (h : Reach n s V) (hr : Threads.Runs (threads n) May s l s') (t : τ) :
    Alone (threads n) (only (May t) s) (callsOf t l) (only (May t) s') ∧
    ∃ V' : View n, Reach n s' V' ∧
      ∀ (op : Op) (r : Except Exc Res) (V0' : View n), op.spec (V'.only (May t)) = some (r, V0') → ¬ op.Streams →
        (∀ i, op.Names i → May t i) → ∀ f, op.run n s' ≠ .ub f := by
  refine ⟨separate.alone ⟨V, h⟩ hr t, ?_⟩
  obtain ⟨V', h'⟩ := separate.reached (C := threads n) ⟨V, h⟩ hr
  exact ⟨V', h', fun op r V0' hs hns hS f => separate.safe (C := threads n) ⟨V', h'⟩ ⟨V', r, V0', h', hs, hns⟩ hS⟩

-- two threads with a bitset each: one asks for a bit that its bitset does not have, the other one sets all bits of its own
example : ∃ s s' : St, (∃ V : View 11, Reach 11 s V) ∧
    Threads.Runs (threads 11) (fun (t : Bool) i => i = t.toNat) s
      [(false, .test 0 11, .exc .outOfRange), (true, .setAll 1, .ok .unit)] s' ∧
    Alone (threads 11) (only (fun i => i = 0) s) [(.test 0 11, .exc .outOfRange)] (only (fun i => i = 0) s') ∧
    Alone (threads 11) (only (fun i => i = 1) s) [(.setAll 1, .ok .unit)] (only (fun i => i = 1) s') := by
  obtain ⟨s1, _, h1⟩ := (Reach.start (n := 11) fun _ => false).next (op := .ctorVal 0 2025#64) (r := .ok .unit) rfl
  obtain ⟨s2, _, h2⟩ := h1.next (op := .ctorVal 1 7#64) (r := .ok .unit) rfl
  obtain ⟨s3, e3, h3⟩ := h2.next (op := .test 0 11) (r := .error .outOfRange) rfl
  obtain ⟨s4, e4, h4⟩ := h3.next (op := .setAll 1) (r := .ok .unit) rfl
  have t0 : ∀ W : View 11, W.var 0 ≠ none → (Op.test 0 11).spec W = some (.error .outOfRange, W) := by
    intro W hW
    cases hv : W.var 0 with
    | none => exact absurd hv hW
    | some f => simp [Op.spec, View.use, hv]
  have t1 : ∀ W : View 11, W.var 1 ≠ none → (Op.setAll 1).spec W = some (.ok .unit, W.put 1 fun _ => true) := by
    intro W hW
    cases hv : W.var 1 with
    | none => exact absurd hv hW
    | some f => simp [Op.spec, View.modify, View.use, hv]
  have hr : Threads.Runs (threads 11) (fun (t : Bool) i => i = t.toNat) s2
      [(false, .test 0 11, .exc .outOfRange), (true, .setAll 1, .ok .unit)] s4 := by
    refine .call (l := [_]) (.call (l := []) .none ⟨_, _, _, h2, t0 _ ?_, fun h => h⟩ (fun i hi => hi) (fun i hi => hi.elim) e3)
      ⟨_, _, _, h3, t1 _ ?_, fun h => h⟩ (fun i hi => hi) ?_ e4
    · simp [View.only, View.put, upd]
    · simp [View.only, View.put, upd]
    · intro i hi u hu
      cases hi
      cases u
      · decide
      · exact absurd rfl hu
  exact ⟨s2, s4, ⟨_, h2⟩, hr, (C111_bitset h2 hr false).1, (C111_bitset h2 hr true).1⟩

end Ptl.Bitset

import Verif.Threads.Basic
import Verif.Arr.Frame

/-!
# C111 for `array`
-/

namespace Ptl.Arr

open Threads
open View (Mem)

attribute [local instance] Classical.propDecidable

section
variable {α : Type} {s s' : St α} {S : Nat → Prop}

/-- the same arrays, later -/
structure Later (s s' : St α) : Prop where
  mem : s'.mem = s.mem
  orc : s'.orc = s.orc

theorem St.ext' {s t : St α} (h1 : s.mem = t.mem) (h2 : s.orc = t.orc) (h3 : s.tick = t.tick) : s = t := by
  cases s; cases t; cases h1; cases h2; cases h3; rfl

/-- a call creates no object that it does not name -/
theorem run_names {m : M (St α) Unit} (hm : ∀ F : Mem α, (∀ i, S i → F i = none) → Frm (Beside F) m) {x : Threads.Res Unit}
    (hr : Ends (m (only S s)) x s') {n : Nat} (hn : ¬ S n) : s'.mem n = none := by
  have hb : Beside (fun n => if S n then none else some []) (only S s)
      { s with mem := fun n => if S n then s.mem n else some [] } :=
    ⟨fun i => by
      by_cases h : S i
      · simp only [only, if_pos h]
        cases s.mem i with
        | none => exact .inr ⟨rfl, rfl⟩
        | some o => exact .inl ⟨o, rfl, rfl, trivial⟩
      · simp only [only, if_neg h]
        exact .inr ⟨trivial, trivial⟩, rfl, rfl⟩
  have hf := hm _ (fun i hi => if_pos hi) _ _ hb
  have key : ∀ t : St α, Beside (fun n => if S n then none else some []) s' t → s'.mem n = none := fun t h => by
    rcases h.obj n with ⟨_, _, _, h3⟩ | ⟨h1, _⟩
    · simp [hn] at h3
    · exact h1
  cases x with
  | ok r => rw [show m (only S s) = .ok r s' from hr] at hf; obtain ⟨t, _, h⟩ := hf; exact key t h
  | exc e => rw [show m (only S s) = .exc e s' from hr] at hf; obtain ⟨t, _, h⟩ := hf; exact key t h

/-- what a call leaves of the named objects is what one finds of them after the call in the whole state -/
theorem only_after {s0 : St α} (hn : ∀ n, ¬ S n → s0.mem n = none) (h : Beside (rest S s) s0 s') : only S s' = s0 := by
  refine St.ext' (funext fun n => ?_) h.orc h.tick
  by_cases hS : S n
  · refine (if_pos hS).trans ?_
    rcases h.obj n with ⟨o, h1, h2, _⟩ | ⟨h1, h2⟩
    · rw [h1, h2]
    · rw [h1, h2]; exact if_pos hS
  · exact (if_neg hS).trans (hn n hS).symm

/-- erasing everything else before the call or after the call is the same -/
theorem ends_only {m : M (St α) Unit} (hm : ∀ F : Mem α, (∀ i, S i → F i = none) → Frm (Beside F) m)
    (hub : ∀ f, m (only S s) ≠ .ub f) {x : Threads.Res Unit} (hr : Ends (m s) x s') : Ends (m (only S s)) x (only S s') := by
  have hf := hm (rest S s) (fun i hi => if_pos hi) _ _ beside_only
  cases e : m (only S s) with
  | ok r' s0 =>
    rw [e] at hf
    obtain ⟨s1, h1, h2⟩ := hf
    have := only_after (fun n hn => run_names hm (x := .ok r') e hn) h2
    cases x with
    | ok r1 => have hr : m s = .ok r1 s' := hr; rw [h1] at hr; cases hr; rw [this]; rfl
    | exc e1 => have hr : m s = .exc e1 s' := hr; rw [h1] at hr; cases hr
  | exc e' s0 =>
    rw [e] at hf
    obtain ⟨s1, h1, h2⟩ := hf
    have := only_after (fun n hn => run_names hm (x := .exc e') e hn) h2
    cases x with
    | ok r1 => have hr : m s = .ok r1 s' := hr; rw [h1] at hr; cases hr
    | exc e1 => have hr : m s = .exc e1 s' := hr; rw [h1] at hr; cases hr; rw [this]; rfl
  | ub f => exact (hub f e).elim
  | term =>
    rw [e] at hf
    have hf : m s = .term := hf
    cases x with
    | ok r1 => have hr : m s = .ok r1 s' := hr; rw [hf] at hr; cases hr
    | exc e1 => have hr : m s = .exc e1 s' := hr; rw [hf] at hr; cases hr

theorem later_of (ho : s'.orc = s.orc) (h : ∀ n, S n → s'.mem n = s.mem n) : Later (only S s) (only S s') := by
  refine ⟨funext fun n => ?_, ho⟩
  by_cases hn : S n
  · exact (if_pos hn).trans ((h n hn).trans (if_pos hn).symm)
  · exact (if_neg hn).trans (if_neg hn).symm

end

variable {α : Type} {E : Elem α} {N : Nat} {s s' : St α} {S : Nat → Prop} {V V' : Vars α} {op : Op α}

/-- the arrays that an argument may change: the one it is a moved element of -/
def Arg.Moves : Arg α → Nat → Prop
  | .mv j _, k => k = j
  | _, _ => False

/-- the arrays that a call may change: not the sources of copies -/
def Op.Changes : Op α → Nat → Prop
  | .ctor i args, k => k = i ∨ ∃ a ∈ args, a.Moves k
  | .ctorCopy i _, k | .assignCopy i _, k | .fill i _, k => k = i
  | .ctorMove i j, k | .assignMove i j, k | .swap i j, k => k = i ∨ k = j
  | .dtor i, k | .setIndex i _ _, k | .setAt i _ _, k | .setGet i _ _, k | .setFront i _, k | .setBack i _, k | .setIter i _ _, k => k = i

/-- `ptl::array` -/
noncomputable def threads (E : Elem α) (N : Nat) : Class (St α) (Op α) Unit where
  run := fun op => op.run E N
  Reached := fun s => ∃ V, Reach E N s V
  Pre := fun S s op => ∃ V, Reach E N s V ∧ Pre E N op (fun i => if S i then V i else none)
  Names := Op.Names
  Changes := Op.Changes
  only := only
  Later := Later

theorem takes_other {args : List (Arg α)} {vs : List α} (ht : Takes E args V vs V') {n : Nat}
    (h : ¬ ∃ a ∈ args, a.Moves n) : V' n = V n := by
  induction ht with
  | nil => rfl
  | val _ ih => exact ih fun ⟨a, ha, hm⟩ => h ⟨a, List.mem_cons_of_mem _ ha, hm⟩
  | elem _ _ _ ih => exact ih fun ⟨a, ha, hm⟩ => h ⟨a, List.mem_cons_of_mem _ ha, hm⟩
  | @mv j k _ _ _ _ _ _ _ _ _ ih =>
    rw [ih fun ⟨a, ha, hm⟩ => h ⟨a, List.mem_cons_of_mem _ ha, hm⟩, upd_ne _ _ fun e => h ⟨.mv j k, List.mem_cons_self, e⟩]

/-- what a call does not change keeps its value -/
theorem spec_other {x : Option Exc} (hs : Spec E N op V x V') {n : Nat} (h : ¬ op.Changes n) : V' n = V n := by
  cases hs with
  | ctor _ _ ht => rw [upd_ne _ _ fun e => h (.inl e), takes_other ht fun hm => h (.inr hm)]
  | ctorThrows _ _ _ ht => exact takes_other ht fun ⟨a, ha, hm⟩ => h (.inr ⟨a, List.mem_of_mem_take ha, hm⟩)
  | ctorCopyThrows | setAtThrows => rfl
  | ctorMove | assignMove | swap =>
    first
      | rw [upd_ne _ _ fun e => h (.inr e), upd_ne _ _ fun e => h (.inl e)]
      | rw [upd_ne _ _ fun e => h (.inl e), upd_ne _ _ fun e => h (.inr e)]
  | assignMoveSelf => exact upd_ne _ _ fun e => h (.inl e)
  | ctorCopy | dtor | assignCopy | assignCopyThrows | fill | fillThrows | setIndex | setAt | setGet | setFront | setBack | setIter =>
    exact upd_ne _ _ h


theorem later_only (hN : N ≤ ptrdiffMax) {x : Threads.Res Unit} (h : Reach E N s V) (hp : Pre E N op V)
    (hS : ∀ i, op.Changes i → ¬ S i) (hr : Ends (op.run E N s) x s') : Later (only S s) (only S s') := by
  have hinv := (h.inv hN)
  have hst := step hN hinv hp
  unfold Allowed at hst
  cases x with
  | ok r =>
    rw [show op.run E N s = .ok r s' from hr] at hst
    exact later_of hst.2 fun n hn => by rw [spec_other hst.1 fun hc => hS n hc hn, hinv.mem]
  | exc e =>
    rw [show op.run E N s = .exc e s' from hr] at hst
    exact later_of hst.2.1 fun n hn => by rw [spec_other hst.1 fun hc => hS n hc hn, hinv.mem]

theorem separate (hN : N ≤ ptrdiffMax) : (threads E N).Separate where
  safe := by
    rintro S s op f - ⟨V, h, hp⟩ hS e
    have hst := step hN (h.inv hN) (hp.agree hS fun i hi => (if_pos hi).symm)
    unfold Allowed at hst
    rw [show op.run E N s = .ub f from e] at hst
    exact hst
  next := by
    rintro S s s' op x - ⟨V, h, hp⟩ hS hr
    have hst := step hN (h.inv hN) (hp.agree hS fun i hi => (if_pos hi).symm)
    unfold Allowed at hst
    cases x with
    | ok r' =>
      rw [show op.run E N s = .ok r' s' from hr] at hst
      exact ⟨_, h.ok hst.1 hr⟩
    | exc e =>
      rw [show op.run E N s = .exc e s' from hr] at hst
      exact ⟨_, h.thrown hst.1 hr rfl⟩
  own := by
    rintro S s s' op x - ⟨V, h, hp⟩ hS hr
    have hp := hp.agree hS (V0 := V) fun i hi => (if_pos hi).symm
    refine ends_only (fun F hF => frm_run op fun i hi => hF i (hS i hi)) (fun f e => ?_) hr
    have hst := step hN (inv_only (S := S) (h.inv hN)) (hp.only hS)
    unfold Allowed at hst
    rw [show op.run E N (only S s) = .ub f from e] at hst
    exact hst
  other := by
    rintro S S' s s' op x - ⟨V, h, hp⟩ hS hc hr
    exact later_only hN h (hp.agree hS fun i hi => (if_pos hi).symm) hc hr

/-- C111 for arrays: each thread that changes only arrays that no other one uses runs as it would on its own, with the same
exceptions, and ends with the same arrays. -/
theorem C111_array (hN : N ≤ ptrdiffMax) {τ : Type} [DecidableEq τ] {May : τ → Nat → Prop}
    {l : List (τ × Op α × Threads.Res Unit)} (h : Reach E N s V) (hr : Threads.Runs (threads E N) May s l s') (t : τ) :
    Alone (threads E N) (only (May t) s) (callsOf t l) (only (May t) s') ∧
    ∃ V', Reach E N s' V' ∧
      (∀ i, May t i → ∀ xs, V' i = some xs → Shows N (only (May t) s') i xs ∧ Shows N s' i xs) ∧
      ∀ op, Pre E N op (fun i => if May t i then V' i else none) → (∀ i, op.Names i → May t i) → ∀ f, op.run E N s' ≠ .ub f := by
  refine ⟨(separate hN).alone ⟨V, h⟩ hr t, ?_⟩
  obtain ⟨V', h'⟩ := (separate hN).reached ⟨V, h⟩ hr
  exact ⟨V', h', fun i hi xs hv => (C93_array_reads hN h' hi hi hv hv (fun _ _ => true) (fun _ _ => true)).1,
    fun op hs hS f => (separate hN).safe ⟨V', h'⟩ ⟨V', h', hs⟩ hS⟩

end Ptl.Arr

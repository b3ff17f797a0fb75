import Verif.Threads.Basic
import Verif.Optional.Props.Frame
import Verif.Optional.Props.History

/-!
# C111 for `optional`
-/

namespace Ptl.Optional

open Threads

variable {α : Type} {E : Elem α} {s s' : St α} {S : Nat → Prop} {V V' V'' : Vars α} {op : Op α}

/-- the optionals that a call may change: not the sources of copies -/
def Op.Changes : Op α → Nat → Prop
  | .ctorNull i, k | .dtor i, k | .assignNull i, k | .reset i, k | .write i _, k | .writeValue i _, k => k = i
  | .ctorCopy i _, k | .assignCopy i _, k | .ctorFrom i _, k | .assignFrom i _, k => k = i
  | .ctorMove i j, k | .assignMove i j, k | .swap i j, k => k = i ∨ k = j
  | .ctorFromMove i x, k | .assignFromMove i x, k => k = i ∨ x.Names k
  | .ctorInPlace i a, k | .emplace i a, k | .takeValueOr i a, k => k = i ∨ a.Names k
  | .getValueOr _ a, k => a.Names k

/-- the same optionals, later -/
structure Later (s s' : St α) : Prop where
  obj : s'.obj = s.obj
  orc : s'.orc = s.orc
  tick : s.tick ≤ s'.tick

attribute [local instance] Classical.propDecidable

/-- `ptl::optional` -/
noncomputable def threads (E : Elem α) : Class (St α) (Op α) Unit where
  run := fun op => op.run E
  Reached := fun s => ∃ V, Reach E s V
  Pre := fun S s op => ∃ V V', Reach E s V ∧ Spec E op (fun i => if S i then V i else none) V'
  Names := Op.Names
  Changes := Op.Changes
  only := only
  Later := Later

theorem left_other {x : Src α} {f : α → α} {n : Nat} (h : ¬ x.Names n) : x.left V f n = V n := by
  cases x with
  | ext => rfl
  | own j => exact upd_ne _ _ h

theorem gives_other {a : Args α} {v : α} {n : Nat} (hg : a.Gives V v V') (h : ¬ a.Names n) : V' n = V n := by
  cases hg with
  | val => rfl
  | thr => rfl
  | ref => exact upd_ne _ _ h

/-- what a call does not change keeps its value -/
theorem spec_other (hs : Spec E op V V') {n : Nat} (h : ¬ op.Changes n) : V' n = V n := by
  cases hs with
  | ctorNull | dtor | assignNull | reset | write | writeValue | ctorCopy | assignCopy | ctorFrom | assignFrom => exact upd_ne _ _ h
  | ctorMove => rw [upd_ne _ _ fun e => h (.inl e), upd_ne _ _ fun e => h (.inr e)]
  | ctorFromMove => rw [upd_ne _ _ fun e => h (.inl e), left_other fun e => h (.inr e)]
  | assignFromMove => rw [upd_ne _ _ fun e => h (.inl e), left_other fun e => h (.inr e)]
  | ctorInPlace _ ha => rw [upd_ne _ _ fun e => h (.inl e), gives_other ha fun e => h (.inr e)]
  | emplace _ ha => rw [upd_ne _ _ fun e => h (.inl e), gives_other ha fun e => h (.inr e)]
  | assignMoveSelf => rfl
  | assignMove => rw [upd_ne _ _ fun e => h (.inl e), upd_ne _ _ fun e => h (.inr e)]
  | swap => rw [upd_ne _ _ fun e => h (.inr e), upd_ne _ _ fun e => h (.inl e)]
  | takeValueOr => exact upd_ne _ _ fun e => h (.inl e)
  | takeDefault _ ha => exact gives_other ha fun e => h (.inr e)
  | getValueOr => rfl
  | getDefault _ ha => exact gives_other ha h

theorem torn_other (ht : Torn E op V V'') {n : Nat} (h : ¬ op.Changes n) : V'' n = V n := by
  cases ht with
  | same | copyEmpty | fromEmpty => rfl
  | copyFull => exact upd_ne _ _ h
  | fromFull => exact upd_ne _ _ h

theorem St.ext' {s t : St α} (h1 : s.obj = t.obj) (h4 : s.born = t.born) (h2 : s.orc = t.orc) (h3 : s.tick = t.tick) :
    s = t := by
  cases s; cases t; cases h1; cases h2; cases h3; cases h4; rfl

/-- a call creates no optional that it does not name -/
theorem run_names (hS : ∀ i, op.Names i → S i) {x : Threads.Res Unit} (hr : Ends (op.run E (only S s)) x s') {n : Nat} (hn : ¬ S n) :
    s'.obj n = none := by
  have hb : Beside (fun n => if S n then none else some (rep none)) (only S s)
      { s with obj := fun n => if S n then s.obj n else some (rep none) } :=
    ⟨fun i => by
      by_cases h : S i
      · simp only [only, if_pos h]
        cases s.obj i with
        | none => exact .inr ⟨rfl, rfl⟩
        | some o => exact .inl ⟨o, rfl, rfl, trivial⟩
      · simp only [only, if_neg h]
        exact .inr ⟨trivial, trivial⟩, rfl, rfl, rfl⟩
  have hf := frm_run (E := E) op (fun i hi => if_pos (hS i hi)) _ _ hb
  have key : ∀ t : St α, Beside (fun n => if S n then none else some (rep none)) s' t → s'.obj n = none := fun t h => by
    rcases h.obj n with ⟨_, _, _, h3⟩ | ⟨h1, _⟩
    · simp [hn] at h3
    · exact h1
  cases x with
  | ok r => rw [show op.run E (only S s) = .ok r s' from hr] at hf; obtain ⟨t, _, h⟩ := hf; exact key t h
  | exc e => rw [show op.run E (only S s) = .exc e s' from hr] at hf; obtain ⟨t, _, h⟩ := hf; exact key t h

/-- what the call leaves of the named optionals is what one finds of them after the call in the whole state -/
theorem only_after {s0 : St α} (hn : ∀ n, ¬ S n → s0.obj n = none) (h : Beside (rest S s) s0 s') : only S s' = s0 := by
  refine St.ext' (funext fun n => ?_) h.born h.orc h.tick
  by_cases hS : S n
  · refine (if_pos hS).trans ?_
    rcases h.obj n with ⟨o, h1, h2, _⟩ | ⟨h1, h2⟩
    · rw [h1, h2]
    · rw [h1, h2]; exact if_pos hS
  · exact (if_neg hS).trans (hn n hS).symm

theorem run_only (hE : E.Plain) {x : Threads.Res Unit} (h : Reach E s V) (hs : Spec E op V V')
    (hS : ∀ i, op.Names i → S i) (hr : Ends (op.run E s) x s') : Ends (op.run E (only S s)) x (only S s') := by
  have hc := C93_optional hE h hs hS
  cases e : op.run E (only S s) with
  | ok r' s0 =>
    rw [e] at hc
    obtain ⟨s1, h1, h2⟩ := hc
    have := only_after (fun n hn => run_names (E := E) (x := .ok r') hS e hn) h2
    cases x with
    | ok r1 => have hr : op.run E s = .ok r1 s' := hr; rw [h1] at hr; cases hr; rw [this]; rfl
    | exc e1 => have hr : op.run E s = .exc e1 s' := hr; rw [h1] at hr; cases hr
  | exc e' s0 =>
    rw [e] at hc
    obtain ⟨s1, h1, h2⟩ := hc
    have := only_after (fun n hn => run_names (E := E) (x := .exc e') hS e hn) h2
    cases x with
    | ok r1 => have hr : op.run E s = .ok r1 s' := hr; rw [h1] at hr; cases hr
    | exc e1 => have hr : op.run E s = .exc e1 s' := hr; rw [h1] at hr; cases hr; rw [this]; rfl
  | ub f => rw [e] at hc; exact hc.elim
  | term =>
    rw [e] at hc
    cases x with
    | ok r1 => have hr : op.run E s = .ok r1 s' := hr; rw [hc] at hr; cases hr
    | exc e1 => have hr : op.run E s = .exc e1 s' := hr; rw [hc] at hr; cases hr

theorem later_only (hE : E.Plain) {x : Threads.Res Unit} (h : Reach E s V) (hs : Spec E op V V')
    (hS : ∀ i, op.Changes i → ¬ S i) (hr : Ends (op.run E s) x s') : Later (only S s) (only S s') := by
  have hinv := h.inv hE
  have hst := step hE hinv hs
  have key : ∀ W : Vars α, Inv s' W → (∀ n, S n → W n = V n) → (only S s').obj = (only S s).obj := fun W hw he => by
    funext n
    by_cases hn : S n
    · exact (if_pos hn).trans (((hw n).trans (by rw [he n hn, hinv n])).trans (if_pos hn).symm)
    · exact (if_neg hn).trans (if_neg hn).symm
  cases x with
  | ok r =>
    rw [show op.run E s = .ok r s' from hr] at hst
    exact ⟨key _ hst.1 fun n hn => spec_other hs fun hc => hS n hc hn, hst.2.1, hst.2.2⟩
  | exc e =>
    rw [show op.run E s = .exc e s' from hr] at hst
    obtain ⟨_, ⟨V'', ht, hi⟩, ho, m, h1, h2, _⟩ := hst
    exact ⟨key _ hi fun n hn => torn_other ht fun hc => hS n hc hn, ho, by show s.tick ≤ s'.tick; omega⟩

theorem spec_all (hs : Spec E op (fun i => if S i then V i else none) V') (hS : ∀ i, op.Names i → S i) :
    ∃ V', Spec E op V V' := hs.only fun i hi => (if_pos (hS i hi)).symm

theorem separate (hE : E.Plain) : (threads E).Separate where
  safe := by
    rintro S s op f - ⟨V, V', h, hs⟩ hS e
    obtain ⟨V', hs⟩ := spec_all hs hS
    have hst := step hE (h.inv hE) hs
    rw [show op.run E s = .ub f from e] at hst
    exact hst
  next := by
    rintro S s s' op x - ⟨V, V', h, hs⟩ hS hr
    obtain ⟨V', hs⟩ := spec_all hs hS
    cases x with
    | ok r' => exact ⟨_, h.ok hs hr⟩
    | exc e =>
      have hst := step hE (h.inv hE) hs
      rw [show op.run E s = .exc e s' from hr] at hst
      obtain ⟨_, ⟨V'', ht, _⟩, _⟩ := hst
      exact ⟨_, h.thrown hs hr ht⟩
  own := by
    rintro S s s' op x - ⟨V, V', h, hs⟩ hS hr
    obtain ⟨V', hs⟩ := spec_all hs hS
    exact run_only hE h hs hS hr
  other := by
    rintro S S' s s' op x - ⟨V, V', h, hs⟩ hS hc hr
    obtain ⟨V', hs⟩ := spec_all hs hS
    exact later_only hE h hs hc hr

/-- C111 for optionals: each thread that changes only optionals that no other one uses runs as it would on its own, with the same
exceptions, and ends with the same optionals. -/
theorem C111_optional (hE : E.Plain) {τ : Type} [DecidableEq τ] {May : τ → Nat → Prop}
    {l : List (τ × Op α × Threads.Res Unit)} (h : Reach E s V) (hr : Threads.Runs (threads E) May s l s') (t : τ) :
    Alone (threads E) (only (May t) s) (callsOf t l) (only (May t) s') ∧
    ∃ V', Reach E s' V' ∧
      (∀ i, May t i → ∀ o, Shows (only (May t) s') i o ↔ Shows s' i o) ∧
      ∀ op V0', Spec E op (fun i => if May t i then V' i else none) V0' → (∀ i, op.Names i → May t i) → ∀ f, op.run E s' ≠ .ub f := by
  refine ⟨(separate hE).alone ⟨V, h⟩ hr t, ?_⟩
  obtain ⟨V', h'⟩ := (separate hE).reached ⟨V, h⟩ hr
  exact ⟨V', h', fun i hi o => C93_optional_reads hi o,
    fun op V0' hs hS f => (separate hE).safe ⟨V', h'⟩ ⟨V', V0', h', hs⟩ hS⟩

end Ptl.Optional

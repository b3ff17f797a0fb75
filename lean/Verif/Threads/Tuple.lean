import Verif.Threads.Arr
import Verif.Tuple.Frame

/-!
# C111 for `tuple`
-/

namespace Ptl.Tuple

open Threads
open Arr (only Later later_of ends_only)

attribute [local instance] Classical.propDecidable

variable {ν : Type} {ts : List (Elem ν)} {s s' : Arr.St ν} {S : Nat → Prop} {V V' : Vars ν} {op : Op ν}

/-- the tuples that an argument may change: the one it is a moved element of -/
def Arg.Moves : Arg ν → Nat → Prop
  | .mv j _, k => k = j
  | _, _ => False

/-- the tuples that a call may change: not the sources of copies -/
def Op.Changes : Op ν → Nat → Prop
  | .ctor i args, k => k = i ∨ ∃ a ∈ args, a.Moves k
  | .ctorCopy i _, k | .assignCopy i _, k | .dtor i, k | .set i _ _, k => k = i
  | .ctorMove i j, k | .assignMove i j, k | .swap i j, k => k = i ∨ k = j

/-- `ptl::tuple` -/
noncomputable def threads (ts : List (Elem ν)) : Class (Arr.St ν) (Op ν) Unit where
  run := fun op => op.run ts
  Reached := fun s => ∃ V, Reach ts s V
  Pre := fun S s op => ∃ V, Reach ts s V ∧ Pre ts op (fun i => if S i then V i else none)
  Names := Op.Names
  Changes := Op.Changes
  only := only
  Later := Later

theorem takes1_other {T : Elem ν} {a : Arg ν} {v : ν} (ht : Takes1 T a V v V') {n : Nat} (h : ¬ a.Moves n) : V' n = V n := by
  cases ht with
  | val => rfl
  | elem => rfl
  | mv => exact upd_ne _ _ h

theorem takes_other {ts : List (Elem ν)} {args : List (Arg ν)} {vs : List ν} (ht : Takes ts args V vs V') {n : Nat}
    (h : ¬ ∃ a ∈ args, a.Moves n) : V' n = V n := by
  induction ht with
  | nil => rfl
  | cons _ h1 ih =>
    rw [takes1_other h1 fun hm => h ⟨_, List.mem_cons_self, hm⟩, ih fun ⟨a, ha, hm⟩ => h ⟨a, List.mem_cons_of_mem _ ha, hm⟩]

/-- what a call does not change keeps its value -/
theorem spec_other {x : Option Exc} (hs : Spec ts op V x V') {n : Nat} (h : ¬ op.Changes n) : V' n = V n := by
  cases hs with
  | ctor _ ht => rw [upd_ne _ _ fun e => h (.inl e), takes_other ht fun hm => h (.inr hm)]
  | ctorThrows _ _ ht => exact takes_other ht fun ⟨a, ha, hm⟩ => h (.inr ⟨a, List.mem_of_mem_drop ha, hm⟩)
  | ctorCopyThrows => rfl
  | ctorMove | assignMove | swap =>
    first
      | rw [upd_ne _ _ fun e => h (.inr e), upd_ne _ _ fun e => h (.inl e)]
      | rw [upd_ne _ _ fun e => h (.inl e), upd_ne _ _ fun e => h (.inr e)]
  | assignMoveSelf => exact upd_ne _ _ fun e => h (.inl e)
  | ctorCopy | dtor | assignCopy | assignCopyThrows | set => exact upd_ne _ _ h


theorem later_only  {x : Threads.Res Unit} (h : Reach ts s V) (hp : Pre ts op V)
    (hS : ∀ i, op.Changes i → ¬ S i) (hr : Ends (op.run ts s) x s') : Later (only S s) (only S s') := by
  have hinv := h.inv
  have hst := step hinv hp
  unfold Allowed at hst
  cases x with
  | ok r =>
    rw [show op.run ts s = .ok r s' from hr] at hst
    exact later_of hst.2 fun n hn => by rw [spec_other hst.1 fun hc => hS n hc hn, hinv.mem]
  | exc e =>
    rw [show op.run ts s = .exc e s' from hr] at hst
    exact later_of hst.2.2.1 fun n hn => by rw [spec_other hst.2.1 fun hc => hS n hc hn, hinv.mem]

theorem separate : (threads ts).Separate where
  safe := by
    rintro S s op f - ⟨V, h, hp⟩ hS e
    have hst := step h.inv (hp.agree hS fun i hi => (if_pos hi).symm)
    unfold Allowed at hst
    rw [show op.run ts s = .ub f from e] at hst
    exact hst
  next := by
    rintro S s s' op x - ⟨V, h, hp⟩ hS hr
    have hst := step h.inv (hp.agree hS fun i hi => (if_pos hi).symm)
    unfold Allowed at hst
    cases x with
    | ok r' =>
      rw [show op.run ts s = .ok r' s' from hr] at hst
      exact ⟨_, h.ok hst.1 hr⟩
    | exc e =>
      rw [show op.run ts s = .exc e s' from hr] at hst
      exact ⟨_, h.thrown hst.2.1 hr rfl⟩
  own := by
    rintro S s s' op x - ⟨V, h, hp⟩ hS hr
    have hp := hp.agree hS (V0 := V) fun i hi => (if_pos hi).symm
    refine ends_only (fun F hF => frm_run op fun i hi => hF i (hS i hi)) (fun f e => ?_) hr
    have hst := step (inv_only (S := S) h.inv) (hp.only hS)
    unfold Allowed at hst
    rw [show op.run ts (only S s) = .ub f from e] at hst
    exact hst
  other := by
    rintro S S' s s' op x - ⟨V, h, hp⟩ hS hc hr
    exact later_only  h (hp.agree hS fun i hi => (if_pos hi).symm) hc hr

/-- C111 for tuples: each thread that changes only tuples that no other one uses runs as it would on its own, with the same
exceptions, and ends with the same tuples. -/
theorem C111_tuple  {τ : Type} [DecidableEq τ] {May : τ → Nat → Prop}
    {l : List (τ × Op ν × Threads.Res Unit)} (h : Reach ts s V) (hr : Threads.Runs (threads ts) May s l s') (t : τ) :
    Alone (threads ts) (only (May t) s) (callsOf t l) (only (May t) s') ∧
    ∃ V', Reach ts s' V' ∧
      (∀ i, May t i → ∀ xs, V' i = some xs → Shows ts (only (May t) s') i xs ∧ Shows ts s' i xs) ∧
      ∀ op, Pre ts op (fun i => if May t i then V' i else none) → (∀ i, op.Names i → May t i) → ∀ f, op.run ts s' ≠ .ub f := by
  refine ⟨separate.alone ⟨V, h⟩ hr t, ?_⟩
  obtain ⟨V', h'⟩ := separate.reached ⟨V, h⟩ hr
  exact ⟨V', h', fun i hi xs hv => (C93_tuple_reads h' hi hi hv hv).1,
    fun op hs hS f => separate.safe ⟨V', h'⟩ ⟨V', h', hs⟩ hS⟩

end Ptl.Tuple

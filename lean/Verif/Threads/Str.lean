import Verif.Threads.Basic
import Verif.Str.Props.Frame

/-!
# C111 for `string`
-/

namespace Ptl.Str

open Threads

variable {s s' : St} {S : Nat → Prop}

/-- the same strings with the same buffers, later -/
structure Later (s s' : St) : Prop where
  obj : s'.obj = s.obj
  mem : s'.mem = s.mem
  orc : s'.orc = s.orc
  nblk : s.nblk ≤ s'.nblk
  tick : s.tick ≤ s'.tick

/-- `ptl::string` -/
noncomputable def threads : Class St Op (Option Nat) where
  run := fun op => op.run
  Reached := fun s => ∃ V, Reach s V
  Pre := fun S s op => ∃ V' r, Spec (Big (only S s)) op (vars (only S s)) V' r
  Names := Op.Names
  Changes := Op.Targets
  only := only
  Later := Later

theorem St.ext' {s t : St} (h1 : s.obj = t.obj) (h2 : s.mem = t.mem) (h3 : s.nblk = t.nblk) (h4 : s.ntmp = t.ntmp)
    (h5 : s.orc = t.orc) (h6 : s.tick = t.tick) (h7 : s.moves = t.moves) : s = t := by
  cases s; cases t; cases h1; cases h2; cases h3; cases h4; cases h5; cases h6; cases h7; rfl

/-- what the call leaves of the named strings is what one finds of them after the call in the whole state -/
theorem only_after {s0 : St} (hinv : Inv s0) (hn : ∀ n, ¬ S n → s0.obj (.var n) = none) (h : After S s s0 s') :
    only S s' = s0 := by
  have hv : ∀ n, S n → s'.obj (.var n) = s0.obj (.var n) := by
    intro n hS
    rcases h.obj (.var n) with ⟨o, h1, h2, _⟩ | ⟨h1, h2⟩
    · rw [h1, h2]
    · rw [h1, h2]; exact rest_var hS
  have ht : ∀ k, s0.obj (.tmp k) = none := fun k => abs_none.1 (hinv.tmp k)
  refine St.ext' (funext fun i => ?_) (funext fun b => ?_) h.nblk h.ntmp h.orc h.tick h.moves
  · cases i with
    | tmp k => exact (ht k).symm
    | var n =>
      by_cases hS : S n
      · exact (only_var hS).trans (hv n hS)
      · exact (if_neg hS).trans (hn n hS).symm
  · cases hb : s0.mem b with
    | some l =>
      obtain ⟨i, o, ho, hp⟩ := hinv.wf.owned b l hb
      cases i with
      | tmp k => rw [ht k] at ho; cases ho
      | var n =>
        have hS : S n := Classical.byContradiction fun hS => by rw [hn n hS] at ho; cases ho
        rw [only_held ⟨n, o, hS, (hv n hS).trans ho, hp⟩]
        rcases h.mem b with ⟨l', h1, h2, _⟩ | ⟨h1, _⟩
        · rw [h2, ← h1, hb]
        · rw [hb] at h1; cases h1
    | none =>
      cases hl : (only S s').mem b with
      | none => rfl
      | some l =>
        obtain ⟨⟨n, o, hS, ho, hp⟩, _⟩ := only_mem hl
        rw [hv n hS] at ho
        obtain ⟨_, l', h1, _⟩ := hinv.wf.good _ _ ho
        rw [hp, hb] at h1
        cases h1

/-- erasing everything else before the call or after the call is the same -/
theorem run_only {V V' : Vars} {op : Op} {r : Option Nat} {x : Threads.Res (Option Nat)} (h : Reach s V)
    (hs : Spec (Big s) op V V' r) (hS : ∀ i, op.Names i → S i) (hr : Ends (op.run s) x s') :
    Ends (op.run (only S s)) x (only S s') := by
  have hc := C93_string h hs hS
  obtain ⟨hinv, rfl⟩ := h.inv
  obtain ⟨V0', hs0, -⟩ := hs.only hS (V0 := vars (only S s)) (big0 := Big (only S s)) (fun i hi => vars_only hi)
    (fun i hi => big_only hinv hi)
  have hst := step (inv_only (S := S) hinv) hs0
  have hno : ∀ n, ¬ S n → abs (only S s) (.var n) = none := fun n hn => abs_none.2 (if_neg hn)
  cases e : op.run (only S s) with
  | ok r' s0 =>
    rw [e] at hc hst
    obtain ⟨s1, h1, h2⟩ := hc
    have : only S s1 = s0 :=
      only_after hst.1 (fun n hn => abs_none.1 ((hst.2.2.1 n fun ht => hn (hS n (.inl ht))).trans (hno n hn))) h2
    cases x with
    | ok r1 => have hr : op.run s = .ok r1 s' := hr; rw [h1] at hr; cases hr; rw [this]; rfl
    | exc e1 => have hr : op.run s = .exc e1 s' := hr; rw [h1] at hr; cases hr
  | exc e' s0 =>
    rw [e] at hc hst
    obtain ⟨s1, h1, h2⟩ := hc
    have : only S s1 = s0 :=
      only_after hst.1 (fun n hn => abs_none.1 ((hst.2.2.1 n fun ht => hn (hS n (.inl ht))).trans (hno n hn))) h2
    cases x with
    | ok r1 => have hr : op.run s = .ok r1 s' := hr; rw [h1] at hr; cases hr
    | exc e1 => have hr : op.run s = .exc e1 s' := hr; rw [h1] at hr; cases hr; rw [this]; rfl
  | ub f => rw [e] at hc; exact hc.elim
  | term =>
    rw [e] at hc
    cases x with
    | ok r1 => have hr : op.run s = .ok r1 s' := hr; rw [hc] at hr; cases hr
    | exc e1 => have hr : op.run s = .exc e1 s' := hr; rw [hc] at hr; cases hr

/-- strings that a call does not change are the same objects with the same buffers after it -/
theorem later_only {V V' : Vars} {op : Op} {r : Option Nat} {x : Threads.Res (Option Nat)} (h : Reach s V)
    (hs : Spec (Big s) op V V' r) (hS : ∀ i, op.Targets i → ¬ S i) (hr : Ends (op.run s) x s') :
    Later (only S s) (only S s') := by
  have hr' : (∃ r', op.run s = .ok r' s') ∨ ∃ e, op.run s = .exc e s' := by
    cases x with
    | ok r1 => exact .inl ⟨r1, hr⟩
    | exc e1 => exact .inr ⟨e1, hr⟩
  have hk : ∀ n, S n → s'.obj (.var n) = s.obj (.var n) ∧
      ∀ o, s.obj (.var n) = some o → s'.mem (o.base (.var n)) = s.mem (o.base (.var n)) :=
    fun n hn => C93_string_sources h hs hr' (fun ht => hS n ht hn)
  have ha : Adv s s' := by
    have hst := step h.inv.1 (h.inv.2.symm ▸ hs)
    rcases hr' with ⟨r', e⟩ | ⟨e', e⟩ <;> rw [e] at hst
    · exact hst.2.1
    · exact hst.2.1
  refine ⟨funext fun i => ?_, funext fun b => ?_, ha.orc, ha.nblk, ha.tick⟩
  · cases i with
    | tmp k => rfl
    | var n =>
      by_cases hn : S n
      · rw [only_var hn, only_var hn]; exact (hk n hn).1
      · exact (if_neg hn).trans (if_neg hn).symm
  · by_cases hb : Owns S s b
    · obtain ⟨n, o, hn, ho, hp⟩ := hb
      rw [only_held ⟨n, o, hn, ho, hp⟩, only_held ⟨n, o, hn, (hk n hn).1.trans ho, hp⟩, ← hp]
      exact (hk n hn).2 o ho
    · have hb' : ¬ Owns S s' b := fun ⟨n, o, hn, ho, hp⟩ => hb ⟨n, o, hn, (hk n hn).1.symm.trans ho, hp⟩
      exact (if_neg hb').trans (if_neg hb).symm

theorem spec_all {V V0' : Vars} {op : Op} {r : Option Nat} (h : Reach s V) (hs : Spec (Big (only S s)) op (vars (only S s)) V0' r)
    (hS : ∀ i, op.Names i → S i) : ∃ V', Spec (Big s) op V V' r := by
  obtain ⟨hinv, rfl⟩ := h.inv
  obtain ⟨V', hs', -⟩ := hs.only hS (V0 := vars s) (big0 := Big s) (fun i hi => (vars_only hi).symm)
    (fun i hi => (big_only hinv hi).symm)
  exact ⟨V', hs'⟩

theorem separate : (threads).Separate where
  safe := by
    rintro S s op f ⟨V, h⟩ ⟨V', r, hs⟩ hS e
    obtain ⟨V', hs⟩ := spec_all h hs hS
    have hst := step h.inv.1 (h.inv.2.symm ▸ hs)
    rw [show op.run s = .ub f from e] at hst
    exact hst
  next := by
    rintro S s s' op x ⟨V, h⟩ ⟨V', r, hs⟩ hS hr
    obtain ⟨V', hs⟩ := spec_all h hs hS
    cases x with
    | ok r' => exact ⟨_, h.ok hs hr⟩
    | exc e => exact ⟨_, h.thrown hs hr⟩
  own := by
    rintro S s s' op x ⟨V, h⟩ ⟨V', r, hs⟩ hS hr
    obtain ⟨V', hs⟩ := spec_all h hs hS
    exact run_only h hs hS hr
  other := by
    rintro S S' s s' op x ⟨V, h⟩ ⟨V', r, hs⟩ hS hc hr
    obtain ⟨V', hs⟩ := spec_all h hs hS
    exact later_only h hs hc hr

/-- C111, as for vectors: each thread that changes only strings that no other one uses runs as it would on its own, with the same
results and exceptions, and ends with the same strings in the same buffers. -/
theorem C111_string {τ : Type} [DecidableEq τ] {May : τ → Nat → Prop} {V : Vars} {l : List (τ × Op × Threads.Res (Option Nat))}
    (h : Reach s V) (hr : Threads.Runs threads May s l s') (t : τ) :
    Alone threads (only (May t) s) (callsOf t l) (only (May t) s') ∧
    ∃ V', Reach s' V' ∧
      (∀ i, May t i → ∀ d c xs b, Shows (only (May t) s') i d c xs b ↔ Shows s' i d c xs b) ∧
      ∀ op V0' r, Spec (Big (only (May t) s')) op (vars (only (May t) s')) V0' r → (∀ i, op.Names i → May t i) →
        ∀ f, op.run s' ≠ .ub f := by
  refine ⟨separate.alone ⟨V, h⟩ hr t, ?_⟩
  obtain ⟨V', h'⟩ := separate.reached ⟨V, h⟩ hr
  exact ⟨V', h', fun i hi => (C93_string_reads h' hi).1, fun op V0' r hs hS f => separate.safe ⟨V', h'⟩ ⟨V0', r, hs⟩ hS⟩

end Ptl.Str

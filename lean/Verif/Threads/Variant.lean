import Verif.Threads.Basic
import Verif.Variant.Props.Frame
import Verif.Variant.Props.History

/-!
# C111 for `variant`
-/

namespace Ptl.Variant

open Threads

variable {τ ν : Type} [DecidableEq τ] {E : Elem τ ν} {ts : List τ} {s s' : St ν} {S : Nat → Prop} {V V' : Vars τ ν} {op : Op τ ν}

/-- the variants that a call may change: not the sources of copies -/
def Op.Changes : Op τ ν → Nat → Prop
  | .ctorDefault i, n | .dtor i, n | .write i _ _, n | .visit i _, n => n = i
  | .ctorCopy i _, n | .assignCopy i _, n => n = i
  | .ctorMove i j, n | .assignMove i j, n | .swap i j, n => n = i ∨ n = j
  | .ctorIndex i _ x, n | .ctorValue i _ x, n | .assignValue i _ x, n | .emplace i _ x, n | .emplaceIndex i _ x, n =>
    n = i ∨ x.Names n

/-- the same variants, later -/
structure Later (s s' : St ν) : Prop where
  obj : s'.obj = s.obj
  part : s'.part = s.part
  orc : s'.orc = s.orc
  tick : s.tick ≤ s'.tick

attribute [local instance] Classical.propDecidable

/-- `ptl::variant` with the alternatives `ts` -/
noncomputable def threads (E : Elem τ ν) (ts : List τ) : Class (St ν) (Op τ ν) Unit where
  run := fun op => op.run E ts
  Reached := fun s => ∃ V, Reach E ts s V
  Pre := fun S s op => ∃ V V', Reach E ts s V ∧ Spec E ts op (fun i => if S i then V i else none) V'
  Names := Op.Names
  Changes := Op.Changes
  only := only
  Later := Later

omit [DecidableEq τ] in
theorem takes_other {x : Src τ ν} {v : ν} {n : Nat} (hg : x.Takes V v V') (h : ¬ x.Names n) : V' n = V n := by
  cases hg with
  | val => rfl
  | thr => rfl
  | ref => exact upd_ne _ _ h

omit [DecidableEq τ] in
/-- what a call does not change keeps its value -/
theorem spec_other (hs : Spec E ts op V V') {n : Nat} (h : ¬ op.Changes n) : V' n = V n := by
  cases hs with
  | ctorDefault | dtor | write | visit | ctorCopy | assignCopy => exact upd_ne _ _ h
  | ctorMove | assignMove | swap => rw [upd_ne _ _ fun e => h (.inr e), upd_ne _ _ fun e => h (.inl e)]
  | assignMoveSelf => rfl
  | ctorIndex _ _ hx | ctorValue _ _ hx | assignValue _ _ hx | emplace _ _ hx | emplaceIndex _ _ hx =>
    rw [upd_ne _ _ fun e => h (.inl e), takes_other hx fun e => h (.inr e)]

theorem St.ext' {s t : St ν} (h1 : s.obj = t.obj) (h2 : s.part = t.part) (h3 : s.ntmp = t.ntmp) (h4 : s.orc = t.orc)
    (h5 : s.tick = t.tick) : s = t := by
  cases s; cases t; cases h1; cases h2; cases h3; cases h4; cases h5; rfl

/-- a call creates no variant that it does not name -/
theorem run_names (hp : ∀ i, s.part i = []) (hS : ∀ i, op.Names i → S i) {x : Threads.Res Unit}
    (hr : Ends (op.run E ts (only S s)) x s') {n : Nat} (hn : ¬ S n) : s'.obj (.var n) = none := by
  let F : Id → Option (Obj ν) := fun | .var n => if S n then none else some ⟨none, 0⟩ | .tmp _ => none
  let t : St ν := { s with obj := fun | .var n => if S n then s.obj (.var n) else some ⟨none, 0⟩ | .tmp n => s.obj (.tmp n) }
  have hb : Beside F (only S s) t :=
    ⟨fun i => by
      cases i with
      | var i =>
        by_cases h : S i
        · simp only [only, F, t, if_pos h]
          cases s.obj (.var i) with
          | none => exact .inr ⟨rfl, rfl⟩
          | some o => exact .inl ⟨o, rfl, rfl, trivial⟩
        · simp only [only, F, t, if_neg h]
          exact .inr ⟨trivial, trivial⟩
      | tmp i =>
        simp only [only, F, t]
        cases s.obj (.tmp i) with
        | none => exact .inr ⟨rfl, rfl⟩
        | some o => exact .inl ⟨o, rfl, rfl, trivial⟩, hp, rfl, rfl, rfl, rfl⟩
  have hf := frm_run (E := E) (ts := ts) (F := F) op (fun _ => rfl) (fun i hi => if_pos (hS i hi)) _ _ hb
  have key : ∀ t : St ν, Beside F s' t → s'.obj (.var n) = none := fun t h => by
    rcases h.obj (.var n) with ⟨_, _, _, h3⟩ | ⟨h1, _⟩
    · simp [F, hn] at h3
    · exact h1
  cases x with
  | ok r => rw [show op.run E ts (only S s) = .ok r s' from hr] at hf; obtain ⟨t, _, h⟩ := hf; exact key t h
  | exc e => rw [show op.run E ts (only S s) = .exc e s' from hr] at hf; obtain ⟨t, _, h⟩ := hf; exact key t h

omit [DecidableEq τ] in
/-- what the call leaves of the named variants is what one finds of them after the call in the whole state -/
theorem only_after {s0 : St ν} (hn : ∀ n, ¬ S n → s0.obj (.var n) = none) (h : Beside (rest S s) s0 s') : only S s' = s0 := by
  refine St.ext' (funext fun i => ?_) h.part' h.ntmp h.orc h.tick
  cases i with
  | var n =>
    by_cases hS : S n
    · refine (only_var hS).trans ?_
      rcases h.obj (.var n) with ⟨o, h1, h2, _⟩ | ⟨h1, h2⟩
      · rw [h1, h2]
      · rw [h1, h2]; exact rest_var hS
    · exact (only_other hS).trans (hn n hS).symm
  | tmp n =>
    show s'.obj (.tmp n) = _
    rcases h.obj (.tmp n) with ⟨o, h1, h2, _⟩ | ⟨h1, h2⟩
    · rw [h1, h2]
    · rw [h1, h2]; rfl

theorem run_only (hE : E.Plain) (ha : Alts ts) {x : Threads.Res Unit} (h : Reach E ts s V) (hs : Spec E ts op V V')
    (hS : ∀ i, op.Names i → S i) (hr : Ends (op.run E ts s) x s') : Ends (op.run E ts (only S s)) x (only S s') := by
  have hc := C93_variant hE ha h hs hS
  cases e : op.run E ts (only S s) with
  | ok r' s0 =>
    rw [e] at hc
    obtain ⟨s1, h1, h2⟩ := hc
    have := only_after (fun n hn => run_names (E := E) (ts := ts) (x := .ok r') (h.inv hE ha).part hS e hn) h2
    cases x with
    | ok r1 => have hr : op.run E ts s = .ok r1 s' := hr; rw [h1] at hr; cases hr; rw [this]; rfl
    | exc e1 => have hr : op.run E ts s = .exc e1 s' := hr; rw [h1] at hr; cases hr
  | exc e' s0 =>
    rw [e] at hc
    obtain ⟨s1, h1, h2⟩ := hc
    have := only_after (fun n hn => run_names (E := E) (ts := ts) (x := .exc e') (h.inv hE ha).part hS e hn) h2
    cases x with
    | ok r1 => have hr : op.run E ts s = .ok r1 s' := hr; rw [h1] at hr; cases hr
    | exc e1 => have hr : op.run E ts s = .exc e1 s' := hr; rw [h1] at hr; cases hr; rw [this]; rfl
  | ub f => rw [e] at hc; exact hc.elim
  | term =>
    rw [e] at hc
    cases x with
    | ok r1 => have hr : op.run E ts s = .ok r1 s' := hr; rw [hc] at hr; cases hr
    | exc e1 => have hr : op.run E ts s = .exc e1 s' := hr; rw [hc] at hr; cases hr

theorem later_only (hE : E.Plain) (ha : Alts ts) {x : Threads.Res Unit} (h : Reach E ts s V) (hs : Spec E ts op V V')
    (hS : ∀ i, op.Changes i → ¬ S i) (hr : Ends (op.run E ts s) x s') : Later (only S s) (only S s') := by
  have hinv := h.inv hE ha
  have hst := step hE ha hinv hs
  have key : ∀ W : Vars τ ν, Inv ts s' W → (∀ n, S n → W n = V n) → (only S s').obj = (only S s).obj := fun W hw he => by
    funext i
    cases i with
    | tmp k => exact (hw.tmp k).trans (hinv.tmp k).symm
    | var n =>
      by_cases hn : S n
      · rw [only_var hn, only_var hn]
        cases hv : V n with
        | none => rw [hinv.dead n hv, hw.dead n ((he n hn).trans hv)]
        | some p => rw [(hinv.live n p.1 p.2 hv).2, (hw.live n p.1 p.2 ((he n hn).trans hv)).2]
      · rw [only_other hn, only_other hn]
  have hpt : ∀ W : Vars τ ν, Inv ts s' W → s'.part = s.part := fun W hw => funext fun i => (hw.part i).trans (hinv.part i).symm
  cases x with
  | ok r =>
    rw [show op.run E ts s = .ok r s' from hr] at hst
    exact ⟨key _ hst.1 fun n hn => spec_other hs fun hc => hS n hc hn, hpt _ hst.1, hst.2.1, hst.2.2⟩
  | exc e =>
    rw [show op.run E ts s = .exc e s' from hr] at hst
    obtain ⟨_, hi, _, ho, m, h1, h2, _⟩ := hst
    exact ⟨key _ hi fun _ _ => rfl, hpt _ hi, ho, by show s.tick ≤ s'.tick; omega⟩

omit [DecidableEq τ] in
theorem spec_all (hs : Spec E ts op (fun i => if S i then V i else none) V') (hS : ∀ i, op.Names i → S i) :
    ∃ V', Spec E ts op V V' := hs.only fun i hi => (if_pos (hS i hi)).symm

theorem separate (hE : E.Plain) (ha : Alts ts) : (threads E ts).Separate where
  safe := by
    rintro S s op f - ⟨V, V', h, hs⟩ hS e
    obtain ⟨V', hs⟩ := spec_all hs hS
    have hst := step hE ha (h.inv hE ha) hs
    rw [show op.run E ts s = .ub f from e] at hst
    exact hst
  next := by
    rintro S s s' op x - ⟨V, V', h, hs⟩ hS hr
    obtain ⟨V', hs⟩ := spec_all hs hS
    cases x with
    | ok r' => exact ⟨_, h.ok hs hr⟩
    | exc e => exact ⟨_, h.thrown hs hr⟩
  own := by
    rintro S s s' op x - ⟨V, V', h, hs⟩ hS hr
    obtain ⟨V', hs⟩ := spec_all hs hS
    exact run_only hE ha h hs hS hr
  other := by
    rintro S S' s s' op x - ⟨V, V', h, hs⟩ hS hc hr
    obtain ⟨V', hs⟩ := spec_all hs hS
    exact later_only hE ha h hs hc hr

/-- C111 for variants: each thread that changes only variants that no other one uses runs as it would on its own, with the same
exceptions, and ends with the same variants. -/
theorem C111_variant (hE : E.Plain) (ha : Alts ts) {κ : Type} [DecidableEq κ] {May : κ → Nat → Prop}
    {l : List (κ × Op τ ν × Threads.Res Unit)} (h : Reach E ts s V) (hr : Threads.Runs (threads E ts) May s l s') (t : κ) :
    Alone (threads E ts) (only (May t) s) (callsOf t l) (only (May t) s') ∧
    ∃ V', Reach E ts s' V' ∧
      (∀ i, May t i → ∀ T x, V' i = some (T, x) → Shows ts (only (May t) s') i T x ∧ Shows ts s' i T x) ∧
      ∀ op V0', Spec E ts op (fun i => if May t i then V' i else none) V0' → (∀ i, op.Names i → May t i) →
        ∀ f, op.run E ts s' ≠ .ub f := by
  refine ⟨(separate hE ha).alone ⟨V, h⟩ hr t, ?_⟩
  obtain ⟨V', h'⟩ := (separate hE ha).reached ⟨V, h⟩ hr
  exact ⟨V', h', fun i hi T x hv => (C93_variant_reads hE ha h' hi hi hv hv).1,
    fun op V0' hs hS f => (separate hE ha).safe ⟨V', h'⟩ ⟨V', V0', h', hs⟩ hS⟩

end Ptl.Variant

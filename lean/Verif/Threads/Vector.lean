import Verif.Threads.Basic
import Verif.Vector.Demo
import Verif.Vector.Props.Frame
import Verif.Vector.Props.Values

/-!
# C111 for `vector`
-/

namespace Ptl.Vector

open Threads

variable {α : Type} {T : Elem α} {s s' : St α Storage} {S : Nat → Prop}

/-- the vectors that a call changes: those it is about, and those it moves elements out of -/
def Op.Changes (op : Op α) (i : Nat) : Prop := op.Targets i ∨ op.MovesFrom i

/-- the same vectors with the same buffers, later -/
structure Later (s s' : St α Storage) : Prop where
  obj : s'.obj = s.obj
  blk : s'.blk = s.blk
  orc : s'.orc = s.orc
  nblk : s.nblk ≤ s'.nblk
  tick : s.tick ≤ s'.tick

/-- `ptl::vector` with elements described by `T` -/
noncomputable def threads (T : Elem α) : Class (St α Storage) (Op α) (Option Nat) where
  run := fun op => op.run T
  Reached := fun s => ∃ V, Reach T s V
  Pre := fun S s op => ∃ V' r, Spec T op (vars (only S s)) V' r
  Names := Op.Names
  Changes := Op.Changes
  only := only
  Later := Later

theorem St.ext' {s t : St α Storage} (h1 : s.obj = t.obj) (h2 : s.blk = t.blk) (h3 : s.nblk = t.nblk) (h4 : s.ntmp = t.ntmp)
    (h5 : s.orc = t.orc) (h6 : s.tick = t.tick) (h7 : s.moves = t.moves) : s = t := by
  cases s; cases t; cases h1; cases h2; cases h3; cases h4; cases h5; cases h6; cases h7; rfl

/-- what the call leaves of the named vectors is what one finds of them after the call in the whole state -/
theorem only_after {s0 : St α Storage} (hinv : Inv T s0) (hn : ∀ n, ¬ S n → s0.obj (.var n) = none) (h : After S s s0 s') :
    only S s' = s0 := by
  have hv : ∀ n, S n → s'.obj (.var n) = s0.obj (.var n) := by
    intro n hS
    rcases h.obj (.var n) with ⟨o, h1, h2, _⟩ | ⟨h1, h2⟩
    · rw [h1, h2]
    · rw [h1, h2]; exact rest_var hS
  refine St.ext' (funext fun i => ?_) (funext fun b => ?_) h.nblk h.ntmp h.orc h.tick h.moves
  · cases i with
    | tmp k => exact (hinv.tmp k).symm
    | var n =>
      by_cases hS : S n
      · exact (only_var hS).trans (hv n hS)
      · exact (if_neg hS).trans (hn n hS).symm
  · cases hb : s0.blk b with
    | some l =>
      obtain ⟨i, o, ho, hp⟩ := hinv.wf.owned b l hb
      cases i with
      | tmp k => rw [hinv.tmp k] at ho; cases ho
      | var n =>
        have hS : S n := Classical.byContradiction fun hS => by rw [hn n hS] at ho; cases ho
        rw [only_held ⟨n, o, hS, (hv n hS).trans ho, hp⟩]
        rcases h.blk b with ⟨l', h1, h2, _⟩ | ⟨h1, _⟩
        · rw [h2, ← h1, hb]
        · rw [hb] at h1; cases h1
    | none =>
      cases hl : (only S s').blk b with
      | none => rfl
      | some l =>
        obtain ⟨⟨n, o, hS, ho, hp⟩, _⟩ := only_blk hl
        rw [hv n hS] at ho
        obtain ⟨xs, hg⟩ := hinv.wf.good _ _ ho
        rw [(hg.own hp).2.2.2.2.2] at hb
        cases hb

/-- erasing everything else before the call or after the call is the same -/
theorem run_only {V V' : Vars α} {op : Op α} {r : Option Nat} {x : Threads.Res (Option Nat)} (h : Reach T s V) (hs : Spec T op V V' r)
    (hS : ∀ i, op.Names i → S i) (hr : Ends (op.run T s) x s') : Ends (op.run T (only S s)) x (only S s') := by
  have hc := C93_vector h hs hS
  obtain ⟨hinv, rfl⟩ := h.inv
  obtain ⟨V0', hs0, -⟩ := hs.only hS (V0 := vars (only S s)) (fun i hi => vars_only hinv hi)
  have hst := step (inv_only (S := S) hinv) hs0
  have hno : ∀ n, ¬ S n → (only S s).obj (.var n) = none := fun n hn => if_neg hn
  cases e : op.run T (only S s) with
  | ok r' s0 =>
    rw [e] at hc hst
    obtain ⟨s1, h1, h2⟩ := hc
    have : only S s1 = s0 := only_after hst.1.1 (fun n hn => (hst.1.2 n fun ht => hn (hS n (.inl ht))).trans (hno n hn)) h2
    cases x with
    | ok r1 => have hr : op.run T s = .ok r1 s' := hr; rw [h1] at hr; cases hr; rw [this]; rfl
    | exc e1 => have hr : op.run T s = .exc e1 s' := hr; rw [h1] at hr; cases hr
  | exc e' s0 =>
    rw [e] at hc hst
    obtain ⟨s1, h1, h2⟩ := hc
    have hi0 : Inv T s0 := ⟨hst.1.wf (inv_only (S := S) hinv).wf, fun k => by rw [hst.1.obj]; rfl⟩
    have : only S s1 = s0 := only_after hi0 (fun n hn => by rw [hst.1.obj]; exact hno n hn) h2
    cases x with
    | ok r1 => have hr : op.run T s = .ok r1 s' := hr; rw [h1] at hr; cases hr
    | exc e1 => have hr : op.run T s = .exc e1 s' := hr; rw [h1] at hr; cases hr; rw [this]; rfl
  | ub f => rw [e] at hc; exact hc.elim
  | term =>
    rw [e] at hc
    cases x with
    | ok r1 => have hr : op.run T s = .ok r1 s' := hr; rw [hc] at hr; cases hr
    | exc e1 => have hr : op.run T s = .exc e1 s' := hr; rw [hc] at hr; cases hr

/-- vectors that a call does not change are the same objects with the same buffers after it -/
theorem later_only {V V' : Vars α} {op : Op α} {r : Option Nat} {x : Threads.Res (Option Nat)} (h : Reach T s V) (hs : Spec T op V V' r)
    (hS : ∀ i, op.Changes i → ¬ S i) (hr : Ends (op.run T s) x s') : Later (only S s) (only S s') := by
  have hr' : (∃ r', op.run T s = .ok r' s') ∨ ∃ e, op.run T s = .exc e s' := by
    cases x with
    | ok r1 => exact .inl ⟨r1, hr⟩
    | exc e1 => exact .inr ⟨e1, hr⟩
  have hk : ∀ n, S n → s'.obj (.var n) = s.obj (.var n) ∧ ∀ o b, s.obj (.var n) = some o → o.ptr = some b → s'.blk b = s.blk b :=
    fun n hn => C93_vector_sources h hs hr' (fun ht => hS n (.inl ht) hn)
      (frame_vars hs (fun ht => hS n (.inl ht) hn) (fun ht => hS n (.inr ht) hn))
  have ha : Adv s s' := by
    have hst := step h.inv.1 (h.inv.2.symm ▸ hs)
    rcases hr' with ⟨r', e⟩ | ⟨e', e⟩ <;> rw [e] at hst
    · exact hst.2.1
    · exact hst.1.adv
  refine ⟨funext fun i => ?_, funext fun b => ?_, ha.orc, ha.nblk, ha.tick⟩
  · cases i with
    | tmp k => rfl
    | var n =>
      by_cases hn : S n
      · rw [only_var hn, only_var hn]; exact (hk n hn).1
      · exact (if_neg hn).trans (if_neg hn).symm
  · by_cases hb : Holds S s b
    · obtain ⟨n, o, hn, ho, hp⟩ := hb
      rw [only_held ⟨n, o, hn, ho, hp⟩, only_held ⟨n, o, hn, (hk n hn).1.trans ho, hp⟩]
      exact (hk n hn).2 o b ho hp
    · have hb' : ¬ Holds S s' b := fun ⟨n, o, hn, ho, hp⟩ => hb ⟨n, o, hn, (hk n hn).1.symm.trans ho, hp⟩
      exact (if_neg hb').trans (if_neg hb).symm

theorem spec_all {V V0' : Vars α} {op : Op α} {r : Option Nat} (h : Reach T s V) (hs : Spec T op (vars (only S s)) V0' r)
    (hS : ∀ i, op.Names i → S i) : ∃ V', Spec T op V V' r := by
  obtain ⟨hinv, rfl⟩ := h.inv
  obtain ⟨V', hs', -⟩ := hs.only hS (V0 := vars s) (fun i hi => (vars_only hinv hi).symm)
  exact ⟨V', hs'⟩

theorem separate : (threads T).Separate where
  safe := by
    rintro S s op f ⟨V, h⟩ ⟨V', r, hs⟩ hS e
    obtain ⟨V', hs⟩ := spec_all h hs hS
    have hst := step h.inv.1 (h.inv.2.symm ▸ hs)
    rw [show op.run T s = .ub f from e] at hst
    exact hst
  next := by
    rintro S s s' op x ⟨V, h⟩ ⟨V', r, hs⟩ hS hr
    obtain ⟨V', hs⟩ := spec_all h hs hS
    cases x with
    | ok r' => exact ⟨_, h.ok hs hr⟩
    | exc e => exact ⟨_, h.thrown hs hr⟩
  own := by
    rintro S s s' op x ⟨V, h⟩ ⟨V', r, hs⟩ hS hr
    obtain ⟨V', hs⟩ := spec_all h hs hS
    exact run_only h hs hS hr
  other := by
    rintro S S' s s' op x ⟨V, h⟩ ⟨V', r, hs⟩ hS hc hr
    obtain ⟨V', hs⟩ := spec_all h hs hS
    exact later_only h hs hc hr

/-- C111: however the calls of several threads are mixed, if each changes only vectors that no other one uses and keeps to the
preconditions, then no call is undefined, and each thread runs as it would on its own: there is an execution in which nothing but
its vectors and their buffers exists and only its calls happen, each with the same result (also if it throws), and which ends with
the same vectors, with the same elements in the same buffers. -/
theorem C111_vector {τ : Type} [DecidableEq τ] {May : τ → Nat → Prop} {V : Vars α} {l : List (τ × Op α × Threads.Res (Option Nat))}
    (h : Reach T s V) (hr : Runs (threads T) May s l s') (t : τ) :
    Alone (threads T) (only (May t) s) (callsOf t l) (only (May t) s') ∧
    ∃ V', Reach T s' V' ∧
      (∀ i, May t i → ∀ d c xs, Shows (only (May t) s') i d c xs ↔ Shows s' i d c xs) ∧
      ∀ op V0' r, Spec T op (vars (only (May t) s')) V0' r → (∀ i, op.Names i → May t i) → ∀ f, op.run T s' ≠ .ub f := by
  refine ⟨separate.alone ⟨V, h⟩ hr t, ?_⟩
  obtain ⟨V', h'⟩ := separate.reached ⟨V, h⟩ hr
  exact ⟨V', h', fun i hi => (C93_vector_reads h' hi).1, fun op V0' r hs hS f => separate.safe ⟨V', h'⟩ ⟨V0', r, hs⟩ hS⟩

/-- the vectors that two threads may use: vector 1 both, vectors 0 and 2 one each -/
def demoMay : Bool → Nat → Prop
  | false, i => i = 0 ∨ i = 1
  | true, i => i = 2 ∨ i = 1

-- vectors `{1, 2, 3}` and `{7}`: one thread appends to the first and then assigns the second one to it, another thread copies the
-- second one in between; either does what it would do alone
example : ∃ s s' : St Nat Storage, Reach natElem s demoV ∧
    Runs (threads natElem) demoMay s [(false, .pushBack 0 (.ref (.val 9)), .ok (some 3)), (true, .ctorCopy 2 1, .ok none),
      (false, .assignCopy 0 1, .ok none)] s' ∧ vars s' 0 = some [7] ∧ vars s' 1 = some [7] ∧ vars s' 2 = some [7] ∧
    Alone (threads natElem) (only (demoMay false) s)
      [(.pushBack 0 (.ref (.val 9)), .ok (some 3)), (.assignCopy 0 1, .ok none)] (only (demoMay false) s') ∧
    Alone (threads natElem) (only (demoMay true) s) [(.ctorCopy 2 1, .ok none)] (only (demoMay true) s') := by
  obtain ⟨s, h, ho⟩ := demo
  have len : ∀ {V : Vars Nat} {i : Nat} {x : Option (List Nat)}, (∀ i xs, V i = some xs → xs.length ≤ 1000) →
      (∀ xs, x = some xs → xs.length ≤ 1000) → ∀ j xs, upd V i x j = some xs → xs.length ≤ 1000 := by
    intro V i x hV hx j xs h
    simp only [upd] at h
    split at h
    · exact hx _ h
    · exact hV _ _ h
  have l1 := len (i := 0) (x := some [1, 2, 3, 9]) demoV_len (by intro xs h; cases h; decide)
  have l2 := len (i := 2) (x := some [7]) l1 (by intro xs h; cases h; decide)
  have l3 := len (i := 0) (x := some [7]) l2 (by intro xs h; cases h; decide)
  have go : ∀ {t : Bool} {s : St Nat Storage} {V V' : Vars Nat} {op : Op Nat} {r : Option Nat}, Reach natElem s V →
      Spec natElem op V V' r → (∀ i, op.Names i → demoMay t i) → (threads natElem).Pre (demoMay t) s op := by
    intro t s V V' op r h hs hS
    obtain ⟨hinv, rfl⟩ := h.inv
    obtain ⟨V0, hs0, -⟩ := hs.only hS (V0 := vars (only (demoMay t) s)) (fun i hi => vars_only hinv hi)
    exact ⟨V0, r, hs0⟩
  have p1 : Spec natElem (.pushBack 0 (.ref (.val 9))) demoV (upd demoV 0 (some [1, 2, 3, 9])) (some 3) :=
    .pushBack (xs := [1, 2, 3]) (.ref (.val 9)) rfl
  obtain ⟨s1, r1, h1, o1⟩ := h.next p1 ho (demo_short l1 (by intro i n h; cases h))
  have p2 : Spec natElem (.ctorCopy 2 1) (upd demoV 0 (some [1, 2, 3, 9])) _ _ := .ctorCopy rfl rfl
  obtain ⟨s2, r2, h2, o2⟩ := h1.next p2 o1 (demo_short l2 (by intro i n h; cases h))
  have p3 : Spec natElem (.assignCopy 0 1) (upd (upd demoV 0 (some [1, 2, 3, 9])) 2 (some [7])) _ _ := .assignCopy rfl rfl
  obtain ⟨s3, r3, h3, o3⟩ := h2.next p3 o2 (demo_short l3 (by intro i n h; cases h))
  have n1 : ∀ i, (Op.pushBack 0 (.ref (.val 9)) : Op Nat).Names i → demoMay false i := by
    rintro i (hi | hi)
    · exact .inl hi
    · exact hi.elim
  have n2 : ∀ i, (Op.ctorCopy 2 1 : Op Nat).Names i → demoMay true i := fun i hi => hi
  have n3 : ∀ i, (Op.assignCopy 0 1 : Op Nat).Names i → demoMay false i := fun i hi => hi
  have hr : Runs (threads natElem) demoMay s [(false, .pushBack 0 (.ref (.val 9)), .ok (some 3)), (true, .ctorCopy 2 1, .ok none),
      (false, .assignCopy 0 1, .ok none)] s3 := by
    refine .call (l := [_, _]) (.call (l := [_]) (.call (l := []) .none (go h p1 n1) n1 ?_ r1) (go h1 p2 n2) n2 ?_ r2) (go h2 p3 n3) n3 ?_ r3
    all_goals
      rintro i (hi | hi) u hu hm
      · cases hi
        cases u
        all_goals first
          | exact absurd rfl hu
          | (rcases hm with hm | hm <;> exact absurd hm (by decide))
      · cases hi
  have hv := h3.inv.2
  exact ⟨s, s3, h, hr, by rw [hv]; rfl, by rw [hv]; rfl, by rw [hv]; rfl, (C111_vector h hr false).1, (C111_vector h hr true).1⟩

end Ptl.Vector

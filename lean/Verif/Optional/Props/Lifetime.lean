import Verif.Optional.Demo
import Verif.Optional.Props.History
import Verif.Reads.Basic

/-!
# C114: an optional that keeps having a value keeps the object

`St.born i` counts how many objects have come into existence inside optional `i`.  If that number is the same before and after, and
there is an object before and after, it is the same object: references and pointers to it are still good.
-/

namespace Ptl.Optional

variable {α : Type}

/-! ### the property, on the client's view -/

/-- how many objects a step from `o` to `o'` needs: one, if there was none and now there is one -/
def needed : Option (Option α) → Option (Option α) → Nat
  | some (some _), _ => 0
  | _, some (some _) => 1
  | _, _ => 0

/-- a history in which optional `i` has a value after each call (also after those that throw) -/
inductive Holding (E : Elem α) (i : Nat) (s : St α) (V : Vars α) : St α → Vars α → Prop
  | refl : Holding E i s V s V
  | ok {s1 s2 : St α} {V1 V2 : Vars α} {op : Op α} {x : α} : Holding E i s V s1 V1 → Spec E op V1 V2 → op.run E s1 = .ok () s2 →
      V2 i = some (some x) → Holding E i s V s2 V2
  | thrown {s1 s2 : St α} {V1 V2 V3 : Vars α} {op : Op α} {e : Exc} {x : α} : Holding E i s V s1 V1 → Spec E op V1 V2 →
      op.run E s1 = .exc e s2 → Torn E op V1 V3 → V3 i = some (some x) → Holding E i s V s2 V3

/-! ### counting -/

/-- number of objects in an optional -/
def cnt : Option (Obj α) → Nat
  | some ⟨some _, _⟩ => 1
  | _ => 0

/-- as many objects have come into existence in `k` as there are more than before: none has been destroyed -/
def One (k : Nat) (s s' : St α) : Prop := s.born k ≤ s'.born k ∧ s'.born k + cnt (s.obj k) = s.born k + cnt (s'.obj k)

/-- an object has come into existence in `k` only if there was none and there is one now -/
def Few (k : Nat) (s s' : St α) : Prop := s'.born k = s.born k + if cnt (s.obj k) = 0 then cnt (s'.obj k) else 0

variable {k : Nat} {s s' : St α} {E : Elem α}

instance : Steps (One (α := α) k) where
  refl _ := ⟨Nat.le_refl _, rfl⟩
  trans s t u h h' := ⟨Nat.le_trans h.1 h'.1, by have := h.2; have := h'.2; omega⟩

theorem cnt_le (o : Option (Obj α)) : cnt o ≤ 1 := by
  unfold cnt; split <;> omega

theorem One.few (h : One k s s') : Few k s s' := by
  have h1 := cnt_le (s.obj k)
  have h2 := cnt_le (s'.obj k)
  have h3 := h.1
  have h4 := h.2
  unfold Few
  split <;> omega

/-- what was in `k` is destroyed at the end -/
theorem One.few_none {t : St α} (h : One k s t) (hc : cnt (t.obj k) = 1) (hs : cnt (s.obj k) = 1) (hb : s'.born k = t.born k) :
    Few k s s' := by
  have h4 := h.2
  unfold Few
  rw [if_neg (by omega)]
  omega

theorem One.of_same (hb : s'.born = s.born) (hc : cnt (s'.obj k) = cnt (s.obj k)) : One k s s' := by
  constructor
  · rw [hb]; exact Nat.le_refl _
  · rw [hb, hc]

theorem cnt_upd {ob : Nat → Option (Obj α)} {j : Nat} {o : Option (Obj α)} (h : cnt o = cnt (ob j)) :
    cnt (upd ob j o k) = cnt (ob k) := by
  by_cases e : k = j
  · subst e; simpa using h
  · rw [upd_ne _ _ e]

theorem keeps_onExc {σ β : Type} {R : σ → σ → Prop} [Steps R] {m : M σ β} {h : M σ Unit} (hm : Keeps R m) (hh : Keeps R h) :
    Keeps R (M.onExc m h) := by
  intro s
  have h1 := hm s
  unfold M.onExc
  cases e : m s with
  | ok a s1 => rw [e] at h1; exact h1
  | ub f => trivial
  | term => trivial
  | exc x s1 =>
    rw [e] at h1
    have h2 := hh s1
    dsimp only
    cases e2 : h s1 with
    | ok a s2 => rw [e2] at h2; exact Steps.trans _ _ _ h1 h2
    | exc => trivial
    | ub => trivial
    | term => trivial

theorem one_fallible : Keeps (One (α := α) k) fallible := by
  intro s; unfold fallible; split <;> exact .of_same rfl rfl
theorem one_flag (i : Nat) : Keeps (One (α := α) k) (flag i) := by
  intro s; unfold flag; cases s.obj i <;> first | trivial | exact .of_same rfl rfl
theorem one_readVal (i : Nat) : Keeps (One (α := α) k) (readVal i) := by
  intro s; unfold readVal
  cases s.obj i with
  | none => trivial
  | some o => dsimp only; cases o.val <;> first | trivial | exact .of_same rfl rfl
theorem one_setFlag (i : Nat) (b : Bool) : Keeps (One (α := α) k) (setFlag i b) := by
  intro s; unfold setFlag
  cases h : s.obj i with
  | none => trivial
  | some o => obtain ⟨v, f⟩ := o; exact .of_same rfl (cnt_upd (by rw [h]; cases v <;> rfl))
theorem one_newObj (i : Nat) (b : Bool) : Keeps (One (α := α) k) (newObj i b) := by
  intro s; unfold newObj
  cases h : s.obj i with
  | some o => trivial
  | none => exact .of_same rfl (cnt_upd (by rw [h]; rfl))
theorem one_killObj (i : Nat) : Keeps (One (α := α) k) (killObj i) := by
  intro s; unfold killObj
  cases h : s.obj i with
  | none => trivial
  | some o =>
    obtain ⟨v, f⟩ := o
    cases v with
    | some v => trivial
    | none => exact .of_same rfl (cnt_upd (by rw [h]; rfl))
theorem one_writeVal (i : Nat) (v : α) : Keeps (One (α := α) k) (writeVal i v) := by
  intro s; unfold writeVal
  cases h : s.obj i with
  | none => trivial
  | some o =>
    obtain ⟨w, f⟩ := o
    cases w with
    | none => trivial
    | some w => exact .of_same rfl (cnt_upd (by rw [h]; rfl))
theorem one_placeVal (i : Nat) (v : α) : Keeps (One (α := α) k) (placeVal i v) := by
  intro s; unfold placeVal
  cases h : s.obj i with
  | none => trivial
  | some o =>
    obtain ⟨w, f⟩ := o
    cases w with
    | some w => trivial
    | none =>
      show _ ≤ upd s.born i (s.born i + 1) k ∧ upd s.born i (s.born i + 1) k + _ = _ + cnt (upd s.obj i _ k)
      by_cases e : k = i
      · subst e; simp [h, cnt]
      · simp [upd_ne _ _ e]
theorem one_destroyVal {i : Nat} (hk : k ≠ i) : Keeps (One (α := α) k) (destroyVal i) := by
  intro s; unfold destroyVal
  cases h : s.obj i with
  | none => trivial
  | some o =>
    obtain ⟨w, f⟩ := o
    cases w with
    | none => trivial
    | some w => exact .of_same rfl (by show cnt (upd _ _ _ _) = _; rw [upd_ne _ _ hk])

macro_rules | `(tactic| keep_step) => `(tactic| with_reducible exact one_fallible)
macro_rules | `(tactic| keep_step) => `(tactic| with_reducible exact one_flag _)
macro_rules | `(tactic| keep_step) => `(tactic| with_reducible exact one_readVal _)
macro_rules | `(tactic| keep_step) => `(tactic| with_reducible exact one_setFlag _ _)
macro_rules | `(tactic| keep_step) => `(tactic| with_reducible exact one_newObj _ _)
macro_rules | `(tactic| keep_step) => `(tactic| with_reducible exact one_killObj _)
macro_rules | `(tactic| keep_step) => `(tactic| with_reducible exact one_writeVal _ _)
macro_rules | `(tactic| keep_step) => `(tactic| with_reducible exact one_placeVal _ _)
macro_rules | `(tactic| keep_step) => `(tactic| with_reducible exact one_destroyVal (by assumption))
macro_rules | `(tactic| keep_step) => `(tactic| with_reducible refine keeps_onExc ?_ ?_)

theorem one_read (x : Src α) : Keeps (One k) x.read := by cases x <;> (unfold Src.read; keep)
theorem one_leave (f : α → α) (x : Src α) : Keeps (One k) (x.leave f) := by cases x <;> (unfold Src.leave; keep)
theorem one_eval (a : Args α) : Keeps (One k) a.eval := by cases a <;> (unfold Args.eval; keep)
macro_rules | `(tactic| keep_step) => `(tactic| with_reducible exact one_read _)
macro_rules | `(tactic| keep_step) => `(tactic| with_reducible exact one_leave _ _)
macro_rules | `(tactic| keep_step) => `(tactic| with_reducible exact one_eval _)

theorem one_copyInto (i : Nat) (x : Src α) : Keeps (One k) (copyInto E i x) := by unfold copyInto; keep
theorem one_moveInto (i : Nat) (x : Src α) : Keeps (One k) (moveInto E i x) := by unfold moveInto; keep
theorem one_copyOver (i : Nat) (x : Src α) : Keeps (One k) (copyOver E i x) := by unfold copyOver; keep
theorem one_moveOver (i : Nat) (x : Src α) : Keeps (One k) (moveOver E i x) := by
  cases x <;> (unfold moveOver; dsimp only; keep)
macro_rules | `(tactic| keep_step) => `(tactic| with_reducible exact one_copyInto _ _)
macro_rules | `(tactic| keep_step) => `(tactic| with_reducible exact one_moveInto _ _)
macro_rules | `(tactic| keep_step) => `(tactic| with_reducible exact one_copyOver _ _)
macro_rules | `(tactic| keep_step) => `(tactic| with_reducible exact one_moveOver _ _)

theorem one_construct (i : Nat) (b : Bool) {m : OM α Unit} (h : Keeps (One k) m) : Keeps (One k) (construct i b m) := by
  unfold construct; keep
macro_rules | `(tactic| keep_step) => `(tactic| with_reducible refine one_construct _ _ ?_)

theorem one_assignFrom (i : Nat) (x : Src α) : Keeps (One k) (assignFrom E i x) := by unfold assignFrom; keep
theorem one_assignFromMove (i : Nat) (x : Src α) : Keeps (One k) (assignFromMove E i x) := by unfold assignFromMove; keep
macro_rules | `(tactic| keep_step) => `(tactic| with_reducible exact one_assignFrom _ _)
macro_rules | `(tactic| keep_step) => `(tactic| with_reducible exact one_assignFromMove _ _)

/-! ### calls that destroy -/

theorem few_of {β : Type} {m : OM α β} (h : Keeps (One k) m) : Keeps (Few k) m := by
  intro s
  have := h s
  revert this
  cases m s with
  | ok | exc => exact One.few
  | ub | term => exact id

/-- after reading a flag -/
theorem few_flag {β : Type} {i : Nat} {f : Bool → OM α β}
    (h : ∀ (s : St α) o, s.obj i = some o → (f o.initialized s).Keeps (Few k) s) : Keeps (Few k) (flag i >>= f) := by
  intro s
  cases e : s.obj i with
  | none => rw [M.bind_ub (x := .deadObject) (by unfold flag; rw [e])]; trivial
  | some o => rw [M.bind_ok (flag_ok e)]; exact h s o e

/-- the end of a call that destroys the object in `i` -/
theorem few_destroy {t : St α} {i : Nat} (h : One i s t) (hs : ∀ o, t.obj i = some o → o.val.isSome = true → cnt (s.obj i) = 1) :
    ((do destroyVal i; setFlag i false : OM α Unit) t).Keeps (Few i) s := by
  cases e : t.obj i with
  | none => rw [M.bind_ub (x := .deadObject) (by unfold destroyVal; rw [e])]; trivial
  | some o =>
    obtain ⟨v, f⟩ := o
    cases v with
    | none => rw [M.bind_ub (x := .destroyRaw) (by unfold destroyVal; rw [e])]; trivial
    | some v =>
      rw [M.bind_ok (destroyVal_ok e), setFlag_ok (ob := ⟨none, f⟩) (by simp)]
      exact h.few_none (by rw [e]; rfl) (hs _ e rfl) rfl

theorem few_reset (i : Nat) : Keeps (Few (α := α) k) (reset i) := by
  by_cases hk : k = i
  · subst hk
    refine .noexcept (few_flag fun s o e => ?_)
    split
    · refine few_destroy (Steps.refl s) fun o' e' hv => ?_
      obtain ⟨v, f⟩ := o'
      cases v with
      | none => cases hv
      | some v => rw [e']; rfl
    · exact One.few (Steps.refl s)
  · refine few_of ?_
    unfold reset
    keep

theorem few_pure {β : Type} (b : β) : Keeps (Few (α := α) k) (pure b) := few_of (.pure _)

/-- one half of `swap`: the value of `i` is moved into the empty `j`, then destroyed -/
theorem few_half {i j : Nat} (hne : i ≠ j) : Keeps (Few k) (do
    moveInto E j (.own i)
    setFlag j true
    destroyVal i
    setFlag i false : OM α Unit) := by
  by_cases hk : k = i
  · subst hk
    intro s
    have h1 := one_moveInto (E := E) (k := k) j (.own k) s
    cases e1 : moveInto E j (.own k) s with
    | ub f => rw [M.bind_ub e1]; trivial
    | term => rw [M.bind_term e1]; trivial
    | exc x t => rw [e1] at h1; rw [M.bind_exc e1]; exact h1.few
    | ok u t =>
      rw [e1] at h1
      have h1 : One k s t := h1
      have hc : cnt (s.obj k) = 1 := by
        unfold moveInto at e1
        cases hr : readVal k s with
        | ok v t' =>
          unfold readVal at hr
          cases ho : s.obj k with
          | none => rw [ho] at hr; cases hr
          | some o =>
            obtain ⟨v, f⟩ := o
            cases v with
            | none => rw [ho] at hr; cases hr
            | some v => rfl
        | exc x t' => rw [M.bind_exc (m := Src.read (.own k)) hr] at e1; cases e1
        | ub f => rw [M.bind_ub (m := Src.read (.own k)) hr] at e1; cases e1
        | term => rw [M.bind_term (m := Src.read (.own k)) hr] at e1; cases e1
      rw [M.bind_ok e1]
      have h2 := one_setFlag (k := k) j true t
      cases e2 : setFlag j true t with
      | ub f => rw [M.bind_ub e2]; trivial
      | term => rw [M.bind_term e2]; trivial
      | exc x t2 => rw [e2] at h2; rw [M.bind_exc e2]; exact One.few (Steps.trans _ _ _ h1 h2)
      | ok u2 t2 =>
        rw [e2] at h2
        rw [M.bind_ok e2]
        exact few_destroy (Steps.trans _ _ _ h1 h2) fun _ _ _ => hc
  · refine few_of ?_
    keep

theorem few_swap (i j : Nat) : Keeps (Few k) (swap E i j) := by
  unfold swap
  refine .noexcept ?_
  by_cases hij : i = j
  · rw [if_pos hij]; exact few_pure _
  · rw [if_neg hij]
    refine few_flag fun s o e => ?_
    refine few_flag (k := k) (i := j) (f := fun c => _) (fun s o' e' => ?_) s
    split
    · exact few_pure _ s
    · split
      · exact few_half hij s
      · split
        · exact few_half (Ne.symm hij) s
        · refine few_of ?_ s
          keep

theorem few_run (op : Op α) : Keeps (Few k) (op.run E) := by
  cases op with
  | ctorNull i => refine few_of ?_; show Keeps _ (ctorNull i); unfold ctorNull; keep
  | ctorCopy i j => refine few_of ?_; show Keeps _ (ctorCopy E i j); unfold ctorCopy; keep
  | ctorMove i j => refine few_of ?_; show Keeps _ (ctorMove E i j); unfold ctorMove; keep
  | ctorFrom i x => refine few_of ?_; show Keeps _ (ctorFrom E i x); unfold ctorFrom; keep
  | ctorFromMove i x => refine few_of ?_; show Keeps _ (ctorFromMove E i x); unfold ctorFromMove; keep
  | ctorInPlace i a => refine few_of ?_; show Keeps _ (ctorInPlace i a); unfold ctorInPlace; keep
  | dtor i =>
    refine .noexcept ?_
    intro s
    have h1 := few_reset (k := k) i s
    cases e1 : reset i s with
    | ub f => rw [M.bind_ub e1]; trivial
    | term => rw [M.bind_term e1]; trivial
    | exc x t => rw [e1] at h1; rw [M.bind_exc e1]; exact h1
    | ok u t =>
      rw [e1] at h1
      rw [M.bind_ok e1]
      have h2 := one_killObj (k := k) i t
      have h3 : ∀ t', killObj i t = .ok () t' → t'.born = t.born := by
        intro t' e
        unfold killObj at e
        cases ho : t.obj i with
        | none => rw [ho] at e; cases e
        | some o =>
          rw [ho] at e
          dsimp only at e
          cases hv : o.val <;> rw [hv] at e <;> cases e
          rfl
      have h4 : ∀ x t', killObj i t ≠ .exc x t' := by
        intro x t' e
        unfold killObj at e
        cases ho : t.obj i with
        | none => rw [ho] at e; cases e
        | some o =>
          rw [ho] at e
          dsimp only at e
          cases hv : o.val <;> rw [hv] at e <;> cases e
      cases e2 : killObj i t with
      | ub f => trivial
      | term => trivial
      | exc x t' => exact absurd e2 (h4 x t')
      | ok u t' =>
        rw [e2] at h2
        have hb := h3 t' e2
        have h1 : Few k s t := h1
        have h2 := h2.2
        rw [hb] at h2
        have hc : cnt (t'.obj k) = cnt (t.obj k) := by omega
        show Few k s t'
        unfold Few
        rw [hb, hc]
        exact h1
  | assignNull i => exact .noexcept (few_reset i)
  | assignCopy i j =>
    show Keeps _ (assignCopy E i j)
    unfold assignCopy
    refine .ite (few_flag fun s o e => ?_) (few_pure _)
    split
    · exact few_of (one_assignFrom _ _) s
    · exact few_reset i s
  | assignMove i j =>
    show Keeps _ (assignMove E i j)
    unfold assignMove
    refine .noexcept (.ite (few_flag fun s o e => ?_) (few_pure _))
    split
    · exact few_of (one_assignFromMove _ _) s
    · exact few_reset i s
  | assignFrom i x => exact few_of (one_assignFrom _ _)
  | assignFromMove i x => exact few_of (one_assignFromMove _ _)
  | reset i => exact few_reset i
  | emplace i a => refine few_of ?_; unfold Op.run emplace; keep
  | swap i j => exact few_swap i j
  | write i v => refine few_of ?_; unfold Op.run deref; keep
  | writeValue i v => refine few_of ?_; unfold Op.run value deref; keep
  | takeValueOr i a => refine few_of ?_; unfold Op.run valueOrMove; keep
  | getValueOr i a => refine few_of ?_; unfold Op.run valueOr; keep

/-! ### the theorems -/

variable {V V' : Vars α} {op : Op α} {i : Nat} {x : α}

theorem needed_eq (h : Inv s V) (h' : Inv s' V') :
    needed (V i) (V' i) = if cnt (s.obj i) = 0 then cnt (s'.obj i) else 0 := by
  rw [h i, h' i]
  rcases V i with _ | _ | x <;> rcases V' i with _ | _ | y <;> rfl

theorem torn_holds (h : Torn E op V V') : needed (V i) (V' i) = 0 := by
  have self : ∀ o : Option (Option α), needed o o = 0 := by rintro (_ | _ | x) <;> rfl
  cases h with
  | same | copyEmpty | fromEmpty => exact self _
  | @copyFull j _ x _ _ hi =>
    by_cases e : i = j
    · subst e; rw [hi]; rfl
    · rw [upd_ne _ _ e]; exact self _
  | @fromFull j _ x _ _ hi =>
    by_cases e : i = j
    · subst e; rw [hi]; rfl
    · rw [upd_ne _ _ e]; exact self _

/-- C114: whatever the call, an object comes into existence inside an optional only if the optional had no value before and has one
afterwards; in particular none does if the call throws. -/
theorem C114_optional (hE : E.Plain) (h : Reach E s V) (hs : Spec E op V V') (i : Nat) :
    match op.run E s with
    | .ok _ s' => Reach E s' V' ∧ s'.born i = s.born i + needed (V i) (V' i)
    | .exc _ s' => ∃ V'', Torn E op V V'' ∧ Reach E s' V'' ∧ s'.born i = s.born i
    | .ub _ => False
    | .term => False := by
  have hc := C46_call hE h hs
  have hf := few_run (E := E) (k := i) op s
  cases hr : op.run E s with
  | ok r s' =>
    rw [hr] at hc hf
    exact ⟨hc.1, hf.trans (by rw [needed_eq (h.inv hE) (hc.1.inv hE)])⟩
  | exc e s' =>
    rw [hr] at hc hf
    obtain ⟨V'', ht, h', _⟩ := hc
    refine ⟨V'', ht, h', hf.trans ?_⟩
    rw [← needed_eq (h.inv hE) (h'.inv hE), torn_holds ht, Nat.add_zero]
  | ub f => rw [hr] at hc; exact hc
  | term => rw [hr] at hc; exact hc

/-- C114: through any number of calls, as long as the optional has a value after each of them, that is the same object, and a
reference to it shows its present value. -/
theorem C114_optional_history (hE : E.Plain) (h : Reach E s V) (hi : V i = some (some x)) (hh : Holding E i s V s' V') :
    Reach E s' V' ∧ s'.born i = s.born i ∧ ∃ y, V' i = some (some y) ∧ readVal i s' = .ok y s' := by
  have key : Reach E s' V' ∧ s'.born i = s.born i ∧ ∃ y, V' i = some (some y) := by
    induction hh with
    | refl => exact ⟨h, rfl, x, hi⟩
    | @ok s1 s2 V1 V2 op y _ hs hr hi2 ih =>
      obtain ⟨h1, hb, z, hz⟩ := ih
      have := C114_optional hE h1 hs i
      rw [hr] at this
      exact ⟨this.1, this.2.trans (by rw [hz]; exact hb), y, hi2⟩
    | @thrown s1 s2 V1 V2 V3 op e y _ hs hr ht hi3 ih =>
      obtain ⟨h1, hb, z, hz⟩ := ih
      have := C114_optional hE h1 hs i
      rw [hr] at this
      obtain ⟨_, _, _, hb'⟩ := this
      exact ⟨h1.thrown hs hr ht, hb'.trans hb, y, hi3⟩
  obtain ⟨h', hb, y, hy⟩ := key
  exact ⟨h', hb, y, hy, readVal_ok ((h'.inv hE).at hy)⟩

/-- `optional<int> a{7}, b; auto & r = *a; a = 8; a.emplace(9); swap(a, b);`: up to the last call it is the same object; then it
has moved to `b`, where a new one has come into existence -/
example :
    let run (l : List (Op Nat)) := l.foldl (fun m op => do m; op.run demoE) (pure () : OM Nat Unit)
    let p : List (Op Nat) := [.ctorFrom 0 (.ext 7), .ctorNull 1, .assignFrom 0 (.ext 8), .emplace 0 (.val 9)]
    (∃ s, run p (start Nat fun _ => false) = .ok () s ∧ s.born 0 = 1 ∧ s.born 1 = 0 ∧ readVal 0 s = .ok 9 s) ∧
    ∃ s, run (p ++ [.swap 0 1, .assignMove 0 1]) (start Nat fun _ => false) = .ok () s ∧ s.born 0 = 2 ∧ s.born 1 = 1 :=
  ⟨⟨_, rfl, rfl, rfl, rfl⟩, ⟨_, rfl, rfl, rfl⟩⟩

end Ptl.Optional

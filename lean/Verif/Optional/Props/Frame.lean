import Verif.Frame
import Verif.Optional.Demo
import Verif.Optional.Props.Access

/-!
# C93: a call touches nothing but the optionals it is given

As `Verif/Vector/Props/Frame.lean`, for optionals.
-/

namespace Ptl.Optional

variable {α : Type}

/-- the objects of `t` are those of `s` and, side by side with them, `F` -/
structure Beside (F : Nat → Option (Obj α)) (s t : St α) : Prop where
  obj : ∀ i, (∃ o, s.obj i = some o ∧ t.obj i = some o ∧ F i = none) ∨ (s.obj i = none ∧ t.obj i = F i)
  born : t.born = s.born
  orc : t.orc = s.orc
  tick : t.tick = s.tick

variable {F : Nat → Option (Obj α)} {E : Elem α}

theorem Beside.setObj {s t : St α} (h : Beside F s t) {i : Nat} (hF : F i = none) (o : Option (Obj α)) :
    Beside F { s with obj := upd s.obj i o } { t with obj := upd t.obj i o } := by
  refine { h with obj := fun j => ?_ }
  by_cases hj : j = i
  · subst hj
    cases o with
    | some o => exact .inl ⟨o, by simp, by simp, hF⟩
    | none => exact .inr ⟨by simp, by simp [hF]⟩
  · simp only [upd_ne _ _ hj]; exact h.obj j

theorem frm_fallible : Frm (Beside F) fallible := by
  intro s t h
  unfold fallible
  rw [h.orc, h.tick]
  split
  · exact ⟨_, rfl, { h with tick := by simp, orc := by simp }⟩
  · exact ⟨_, rfl, { h with tick := by simp, orc := by simp }⟩

theorem frm_flag (i : Nat) : Frm (Beside F) (flag i) := by
  intro s t h
  unfold flag
  rcases h.obj i with ⟨o, h1, h2, _⟩ | ⟨h1, _⟩
  · rw [h1, h2]; exact ⟨_, rfl, h⟩
  · rw [h1]; trivial

theorem frm_setFlag (i : Nat) (b : Bool) : Frm (Beside F) (setFlag i b) := by
  intro s t h
  unfold setFlag
  rcases h.obj i with ⟨o, h1, h2, h3⟩ | ⟨h1, _⟩
  · rw [h1, h2]; exact ⟨_, rfl, h.setObj h3 _⟩
  · rw [h1]; trivial

theorem frm_newObj {i : Nat} (hF : F i = none) (b : Bool) : Frm (Beside F) (newObj i b) := by
  intro s t h
  unfold newObj
  rcases h.obj i with ⟨o, h1, h2, h3⟩ | ⟨h1, h2⟩
  · rw [h1]; trivial
  · rw [h1, h2, hF]; exact ⟨_, rfl, h.setObj hF _⟩

theorem frm_killObj (i : Nat) : Frm (Beside F) (killObj i) := by
  intro s t h
  unfold killObj
  rcases h.obj i with ⟨o, h1, h2, h3⟩ | ⟨h1, _⟩
  · rw [h1, h2]
    dsimp only
    cases o.val with
    | some _ => trivial
    | none => exact ⟨_, rfl, h.setObj h3 _⟩
  · rw [h1]; trivial

theorem frm_readVal (i : Nat) : Frm (Beside F) (readVal i) := by
  intro s t h
  unfold readVal
  rcases h.obj i with ⟨o, h1, h2, h3⟩ | ⟨h1, _⟩
  · rw [h1, h2]
    dsimp only
    cases o.val with
    | some _ => exact ⟨_, rfl, h⟩
    | none => trivial
  · rw [h1]; trivial

theorem frm_writeVal (i : Nat) (v : α) : Frm (Beside F) (writeVal i v) := by
  intro s t h
  unfold writeVal
  rcases h.obj i with ⟨o, h1, h2, h3⟩ | ⟨h1, _⟩
  · rw [h1, h2]
    dsimp only
    cases o.val with
    | some _ => exact ⟨_, rfl, h.setObj h3 _⟩
    | none => trivial
  · rw [h1]; trivial

theorem frm_placeVal (i : Nat) (v : α) : Frm (Beside F) (placeVal i v) := by
  intro s t h
  unfold placeVal
  rcases h.obj i with ⟨o, h1, h2, h3⟩ | ⟨h1, _⟩
  · rw [h1, h2]
    dsimp only
    cases o.val with
    | none =>
      exact ⟨_, rfl, { h.setObj h3 (some { o with val := some v }) with born := by show upd _ _ _ = upd _ _ _; rw [h.born] }⟩
    | some _ => trivial
  · rw [h1]; trivial

theorem frm_destroyVal (i : Nat) : Frm (Beside F) (destroyVal i) := by
  intro s t h
  unfold destroyVal
  rcases h.obj i with ⟨o, h1, h2, h3⟩ | ⟨h1, _⟩
  · rw [h1, h2]
    dsimp only
    cases o.val with
    | some _ => exact ⟨_, rfl, h.setObj h3 _⟩
    | none => trivial
  · rw [h1]; trivial

macro_rules | `(tactic| frm_step) => `(tactic| with_reducible exact frm_fallible)
macro_rules | `(tactic| frm_step) => `(tactic| with_reducible exact frm_flag _)
macro_rules | `(tactic| frm_step) => `(tactic| with_reducible exact frm_setFlag _ _)
macro_rules | `(tactic| frm_step) => `(tactic| with_reducible exact frm_newObj (by assumption) _)
macro_rules | `(tactic| frm_step) => `(tactic| with_reducible exact frm_killObj _)
macro_rules | `(tactic| frm_step) => `(tactic| with_reducible exact frm_readVal _)
macro_rules | `(tactic| frm_step) => `(tactic| with_reducible exact frm_writeVal _ _)
macro_rules | `(tactic| frm_step) => `(tactic| with_reducible exact frm_placeVal _ _)
macro_rules | `(tactic| frm_step) => `(tactic| with_reducible exact frm_destroyVal _)

theorem frm_read (x : Src α) : Frm (Beside F) x.read := by cases x <;> (unfold Src.read; frm)
theorem frm_leave (f : α → α) (x : Src α) : Frm (Beside F) (x.leave f) := by cases x <;> (unfold Src.leave; frm)
theorem frm_eval (a : Args α) : Frm (Beside F) a.eval := by cases a <;> (unfold Args.eval; frm)

macro_rules | `(tactic| frm_step) => `(tactic| with_reducible exact frm_read _)
macro_rules | `(tactic| frm_step) => `(tactic| with_reducible exact frm_leave _ _)
macro_rules | `(tactic| frm_step) => `(tactic| with_reducible exact frm_eval _)

theorem frm_copyInto (i : Nat) (x : Src α) : Frm (Beside F) (copyInto E i x) := by unfold copyInto; frm
theorem frm_moveInto (i : Nat) (x : Src α) : Frm (Beside F) (moveInto E i x) := by unfold moveInto; frm
theorem frm_copyOver (i : Nat) (x : Src α) : Frm (Beside F) (copyOver E i x) := by unfold copyOver; frm
theorem frm_moveOver (i : Nat) (x : Src α) : Frm (Beside F) (moveOver E i x) := by cases x <;> (unfold moveOver; dsimp only; frm)

macro_rules | `(tactic| frm_step) => `(tactic| with_reducible exact frm_copyInto _ _)
macro_rules | `(tactic| frm_step) => `(tactic| with_reducible exact frm_moveInto _ _)
macro_rules | `(tactic| frm_step) => `(tactic| with_reducible exact frm_copyOver _ _)
macro_rules | `(tactic| frm_step) => `(tactic| with_reducible exact frm_moveOver _ _)

theorem frm_construct {i : Nat} (hF : F i = none) (b : Bool) {m : OM α Unit} (h : Frm (Beside F) m) :
    Frm (Beside F) (construct i b m) := by unfold construct; frm

macro_rules | `(tactic| frm_step) => `(tactic| with_reducible refine frm_construct (by assumption) _ ?_)

theorem frm_reset (i : Nat) : Frm (Beside F) (reset i) := by unfold reset; frm
macro_rules | `(tactic| frm_step) => `(tactic| with_reducible exact frm_reset _)
theorem frm_assignFrom (i : Nat) (x : Src α) : Frm (Beside F) (assignFrom E i x) := by unfold assignFrom; frm
theorem frm_assignFromMove (i : Nat) (x : Src α) : Frm (Beside F) (assignFromMove E i x) := by unfold assignFromMove; frm
macro_rules | `(tactic| frm_step) => `(tactic| with_reducible exact frm_assignFrom _ _)
macro_rules | `(tactic| frm_step) => `(tactic| with_reducible exact frm_assignFromMove _ _)
theorem frm_emplace (i : Nat) (a : Args α) : Frm (Beside F) (emplace E i a) := by unfold emplace; frm
theorem frm_swap (i j : Nat) : Frm (Beside F) (swap E i j) := by unfold swap; frm
theorem frm_deref (i : Nat) : Frm (Beside F) (deref i) := .pure _
macro_rules | `(tactic| frm_step) => `(tactic| with_reducible exact frm_deref _)
theorem frm_value (i : Nat) : Frm (Beside F) (value i) := by unfold value; frm
theorem frm_valueOr (i : Nat) (a : Args α) : Frm (Beside F) (valueOr i a) := by unfold valueOr; frm
theorem frm_valueOrMove (i : Nat) (a : Args α) : Frm (Beside F) (valueOrMove E i a) := by unfold valueOrMove; frm

macro_rules | `(tactic| frm_step) => `(tactic| with_reducible exact frm_emplace _ _)
macro_rules | `(tactic| frm_step) => `(tactic| with_reducible exact frm_value _)
macro_rules | `(tactic| frm_step) => `(tactic| with_reducible exact frm_valueOr _ _)
macro_rules | `(tactic| frm_step) => `(tactic| with_reducible exact frm_valueOrMove _ _)

/-! ### the calls -/

/-- the optional whose value the argument is -/
def Src.Names : Src α → Nat → Prop
  | .ext _, _ => False
  | .own j, i => i = j

/-- the optional whose value is an argument of the constructor -/
def Args.Names : Args α → Nat → Prop
  | .ref j _ _ _, i => i = j
  | _, _ => False

/-- the optionals that the client names in the call: those it is about, and those whose values are arguments -/
def Op.Names : Op α → Nat → Prop
  | .ctorNull i, k | .dtor i, k | .assignNull i, k | .reset i, k | .write i _, k | .writeValue i _, k => k = i
  | .ctorCopy i j, k | .ctorMove i j, k | .assignCopy i j, k | .assignMove i j, k | .swap i j, k => k = i ∨ k = j
  | .ctorFrom i x, k | .ctorFromMove i x, k | .assignFrom i x, k | .assignFromMove i x, k => k = i ∨ x.Names k
  | .ctorInPlace i a, k | .emplace i a, k | .takeValueOr i a, k | .getValueOr i a, k => k = i ∨ a.Names k

theorem frm_run (op : Op α) (hF : ∀ i, op.Names i → F i = none) : Frm (Beside F) (op.run E) := by
  cases op with
  | ctorNull i => have := hF i rfl; show Frm _ (ctorNull i); unfold ctorNull; frm
  | ctorCopy i j => have := hF i (.inl rfl); show Frm _ (ctorCopy E i j); unfold ctorCopy; frm
  | ctorMove i j => have := hF i (.inl rfl); show Frm _ (ctorMove E i j); unfold ctorMove; frm
  | ctorFrom i x => have := hF i (.inl rfl); show Frm _ (ctorFrom E i x); unfold ctorFrom; frm
  | ctorFromMove i x => have := hF i (.inl rfl); show Frm _ (ctorFromMove E i x); unfold ctorFromMove; frm
  | ctorInPlace i a => have := hF i (.inl rfl); show Frm _ (ctorInPlace i a); unfold ctorInPlace; frm
  | dtor i => show Frm _ (dtor i); unfold dtor; frm
  | assignNull i => show Frm _ (assignNull i); unfold assignNull; frm
  | assignCopy i j => show Frm _ (assignCopy E i j); unfold assignCopy; frm
  | assignMove i j => show Frm _ (assignMove E i j); unfold assignMove; frm
  | assignFrom i x => exact frm_assignFrom _ _
  | assignFromMove i x => exact frm_assignFromMove _ _
  | reset i => exact frm_reset _
  | emplace i a => unfold Op.run; frm
  | swap i j => exact frm_swap _ _
  | write i v => unfold Op.run; frm
  | writeValue i v => unfold Op.run; frm
  | takeValueOr i a => unfold Op.run; frm
  | getValueOr i a => unfold Op.run; frm

/-! ### the meaning of a call is about the optionals it names -/

theorem Src.Has.only {V V0 : Vars α} {x : Src α} {v : α} (h : x.Has V v) (h0 : ∀ i, x.Names i → V0 i = V i) : x.Has V0 v := by
  cases x with
  | ext w => exact h
  | own j => exact (h0 j rfl).trans h

theorem Args.Gives.only {V V0 V1 : Vars α} {a : Args α} {v : α} (h : a.Gives V v V1) (h0 : ∀ i, a.Names i → V0 i = V i) :
    ∃ W, a.Gives V0 v W := by
  cases h with
  | val => exact ⟨_, .val _⟩
  | thr => exact ⟨_, .thr _⟩
  | ref h => exact ⟨_, .ref ((h0 _ rfl).trans h)⟩

theorem Spec.only {op : Op α} {V V' V0 : Vars α} (hs : Spec E op V V') (h0 : ∀ i, op.Names i → V0 i = V i) :
    ∃ V0', Spec E op V0 V0' := by
  have nm : ∀ {i o}, op.Names i → V i = o → V0 i = o := fun hi h => (h0 _ hi).trans h
  cases hs with
  | ctorNull h => exact ⟨_, .ctorNull (nm rfl h)⟩
  | ctorCopy h hj => exact ⟨_, .ctorCopy (nm (.inl rfl) h) (nm (.inr rfl) hj)⟩
  | ctorMove h hj => exact ⟨_, .ctorMove (nm (.inl rfl) h) (nm (.inr rfl) hj)⟩
  | ctorFrom h hx => exact ⟨_, .ctorFrom (nm (.inl rfl) h) (hx.only fun i hi => h0 i (.inr hi))⟩
  | ctorFromMove h hx => exact ⟨_, .ctorFromMove (nm (.inl rfl) h) (hx.only fun i hi => h0 i (.inr hi))⟩
  | ctorInPlace h ha =>
    obtain ⟨W, hW⟩ := ha.only fun i hi => h0 i (.inr hi)
    exact ⟨_, .ctorInPlace (nm (.inl rfl) h) hW⟩
  | dtor h => exact ⟨_, .dtor (nm rfl h)⟩
  | assignNull h => exact ⟨_, .assignNull (nm rfl h)⟩
  | assignCopy h hj => exact ⟨_, .assignCopy (nm (.inl rfl) h) (nm (.inr rfl) hj)⟩
  | assignMoveSelf h => exact ⟨_, .assignMoveSelf (nm (.inl rfl) h)⟩
  | assignMove hij h hj => exact ⟨_, .assignMove hij (nm (.inl rfl) h) (nm (.inr rfl) hj)⟩
  | assignFrom h hx => exact ⟨_, .assignFrom (nm (.inl rfl) h) (hx.only fun i hi => h0 i (.inr hi))⟩
  | assignFromMove h hx => exact ⟨_, .assignFromMove (nm (.inl rfl) h) (hx.only fun i hi => h0 i (.inr hi))⟩
  | reset h => exact ⟨_, .reset (nm rfl h)⟩
  | emplace h ha =>
    obtain ⟨W, hW⟩ := ha.only fun i hi => h0 i (.inr hi)
    exact ⟨_, .emplace (nm (.inl rfl) h) hW⟩
  | swap h hj => exact ⟨_, .swap (nm (.inl rfl) h) (nm (.inr rfl) hj)⟩
  | write h => exact ⟨_, .write (nm rfl h)⟩
  | writeValue h => exact ⟨_, .writeValue (nm rfl h)⟩
  | takeValueOr h => exact ⟨_, .takeValueOr (nm (.inl rfl) h)⟩
  | takeDefault h ha =>
    obtain ⟨W, hW⟩ := ha.only fun i hi => h0 i (.inr hi)
    exact ⟨_, .takeDefault (nm (.inl rfl) h) hW⟩
  | getValueOr h => exact ⟨_, .getValueOr (nm (.inl rfl) h)⟩
  | getDefault h ha =>
    obtain ⟨W, hW⟩ := ha.only fun i hi => h0 i (.inr hi)
    exact ⟨_, .getDefault (nm (.inl rfl) h) hW⟩

/-! ### erasing the other optionals from memory -/

attribute [local instance] Classical.propDecidable

/-- the state in which only the optionals in `S` exist -/
noncomputable def only (S : Nat → Prop) (s : St α) : St α := { s with obj := fun i => if S i then s.obj i else none }

/-- what was erased -/
noncomputable def rest (S : Nat → Prop) (s : St α) : Nat → Option (Obj α) := fun i => if S i then none else s.obj i

variable {s s' : St α} {S : Nat → Prop}

theorem beside_only : Beside (rest S s) (only S s) s where
  obj := by
    intro n
    show (∃ o, (if S n then s.obj n else none) = some o ∧ _ ∧ (if S n then none else s.obj n) = none) ∨
      ((if S n then s.obj n else none) = none ∧ _ = (if S n then none else s.obj n))
    by_cases h : S n
    · simp only [if_pos h]
      cases ho : s.obj n with
      | none => exact .inr ⟨rfl, rfl⟩
      | some o => exact .inl ⟨o, rfl, rfl, trivial⟩
    · simp only [if_neg h]
      exact .inr ⟨trivial, trivial⟩
  born := rfl
  orc := rfl
  tick := rfl

theorem inv_only {V : Vars α} (hinv : Inv s V) : Inv (only S s) (fun i => if S i then V i else none) := by
  intro i
  show (if S i then s.obj i else none) = Option.map rep (if S i then V i else none)
  split
  · exact hinv i
  · rfl

/-- C93: erase all optionals that the call does not name from memory.  The call does the same as before: it returns normally, or
throws the same exception, and leaves the same behind (`s0`); if nothing had been erased, that would still be there, unchanged. -/
theorem C93_optional (hE : E.Plain) {V V' : Vars α} {op : Op α} (h : Reach E s V) (hs : Spec E op V V')
    (hS : ∀ i, op.Names i → S i) :
    match op.run E (only S s) with
    | .ok r' s0 => ∃ s', op.run E s = .ok r' s' ∧ Beside (rest S s) s0 s'
    | .exc e s0 => ∃ s', op.run E s = .exc e s' ∧ Beside (rest S s) s0 s'
    | .ub _ => False
    | .term => op.run E s = .term := by
  have hinv := h.inv hE
  obtain ⟨V0', hs0⟩ := hs.only (V0 := fun i => if S i then V i else none) (fun i hi => if_pos (hS i hi))
  have hst := step hE (inv_only (S := S) hinv) hs0
  have hf := frm_run (E := E) (F := rest S s) op (fun i hi => if_pos (hS i hi)) _ _ beside_only
  cases hr : op.run E (only S s) with
  | ok r' s0 => rw [hr] at hf; exact hf
  | exc e s0 => rw [hr] at hf; exact hf
  | ub f => rw [hr] at hst; exact hst.elim
  | term => rw [hr] at hf; exact hf

/-- C93: what the client sees of an optional does not depend on any other optional. -/
theorem C93_optional_reads {i : Nat} (hi : S i) (o : Option α) :
    Shows (only S s) i o ↔ Shows s i o := by
  have e : (only S s).obj i = s.obj i := if_pos hi
  have k1 : flag i (only S s) = .ok true (only S s) ↔ flag i s = .ok true s := by
    unfold flag; rw [e]; cases s.obj i <;> simp
  have k2 : flag i (only S s) = .ok false (only S s) ↔ flag i s = .ok false s := by
    unfold flag; rw [e]; cases s.obj i <;> simp
  have k3 : ∀ x, readVal i (only S s) = .ok x (only S s) ↔ readVal i s = .ok x s := by
    intro x
    unfold readVal; rw [e]
    cases s.obj i with
    | none => simp
    | some q => cases hq : q.val <;> simp [hq]
  have v0 : ∀ {t : St α}, flag i t = .ok false t → value i t = .exc .badOptionalAccess t := by
    intro t ht; unfold value; rw [M.bind_ok ht]; rfl
  have v1 : ∀ {t : St α}, flag i t = .ok true t → value i t = .ok i t := by
    intro t ht; unfold value; rw [M.bind_ok ht]; rfl
  constructor
  · intro hs
    cases hs with
    | empty h1 h2 => exact .empty (k2.1 h1) (v0 (k2.1 h1))
    | full h1 h2 h3 h4 =>
      cases h3
      exact .full (k1.1 h1) (v1 (k1.1 h1)) rfl ((k3 _).1 h4)
  · intro hs
    cases hs with
    | empty h1 h2 => exact .empty (k2.2 h1) (v0 (k2.2 h1))
    | full h1 h2 h3 h4 =>
      cases h3
      exact .full (k1.2 h1) (v1 (k1.2 h1)) rfl ((k3 _).2 h4)

/-- C93: the same for comparing two optionals, and for comparing an optional with a value or with `nullopt`: with all others
erased, the answers are the same. -/
theorem C93_optional_compare (hE : E.Plain) {V : Vars α} (h : Reach E s V) {i j : Nat} (hi : S i) (hj : S j) {o o' : Option α}
    (vi : V i = some o) (vj : V j = some o') {x : Src α} {v : α} (hx : x.Has V v) (hxS : ∀ i, x.Names i → S i) (c : Cmp) :
    (∃ b, compare E c i j (only S s) = .ok b (only S s) ∧ compare E c i j s = .ok b s) ∧
    (∃ b, compareValue E c i x (only S s) = .ok b (only S s) ∧ compareValue E c i x s = .ok b s) ∧
    (∃ b, valueCompare E c x i (only S s) = .ok b (only S s) ∧ valueCompare E c x i s = .ok b s) ∧
    (∃ b, compareNull c i (only S s) = .ok b (only S s) ∧ compareNull c i s = .ok b s) ∧
    (∃ b, nullCompare c i (only S s) = .ok b (only S s) ∧ nullCompare c i s = .ok b s) := by
  have k := h.inv hE
  have k0 := inv_only (S := S) k
  have vi0 : (fun i => if S i then V i else none) i = some o := (if_pos hi).trans vi
  have vj0 : (fun i => if S i then V i else none) j = some o' := (if_pos hj).trans vj
  have hx0 : x.Has (fun i => if S i then V i else none) v := hx.only fun i hi => if_pos (hxS i hi)
  exact ⟨⟨_, k0.compare vi0 vj0 c, k.compare vi vj c⟩,
    ⟨_, (k0.compareValue vi0 hx0 c).1, (k.compareValue vi hx c).1⟩, ⟨_, (k0.compareValue vi0 hx0 c).2, (k.compareValue vi hx c).2⟩,
    ⟨_, (k0.compareNull (E := E) vi0 c).1, (k.compareNull (E := E) vi c).1⟩,
    ⟨_, (k0.compareNull (E := E) vi0 c).2, (k.compareNull (E := E) vi c).2⟩⟩

/-- optional 0 holds 7, optional 1 is empty, optional 2 holds 5: `o0 = o1` does the same without optional 2, which keeps its value -/
example : ∃ s s' : St Nat, Reach demoE s demoV ∧ (Op.assignCopy 0 1).run demoE (only (· ≠ 2) s) = .ok () s' ∧
    s'.obj 2 = none ∧
    ∃ t, (Op.assignCopy 0 1).run demoE s = .ok () t ∧ t.obj 0 = s'.obj 0 ∧ t.obj 2 = some ⟨some 5, true⟩ := by
  obtain ⟨s, h, _⟩ := demo (fun _ => false) rfl
  have o0 : s.obj 0 = some ⟨some 7, true⟩ := h.inv demoE_plain 0
  have o1 : s.obj 1 = some ⟨none, false⟩ := h.inv demoE_plain 1
  have o2 : s.obj 2 = some ⟨some 5, true⟩ := h.inv demoE_plain 2
  have p0 : (only (· ≠ 2) s).obj 0 = some ⟨some 7, true⟩ := (if_pos (by decide)).trans o0
  have p1 : (only (· ≠ 2) s).obj 1 = some ⟨none, false⟩ := (if_pos (by decide)).trans o1
  have p2 : (only (· ≠ 2) s).obj 2 = none := if_neg (by simp)
  have r2 : rest (· ≠ 2) s 2 = some ⟨some 5, true⟩ := (if_neg (by simp)).trans o2
  have hr : ∃ s', (Op.assignCopy 0 1).run demoE (only (· ≠ 2) s) = .ok () s' ∧ s'.obj 2 = none ∧
      s'.obj 0 = some ⟨none, false⟩ := by
    refine ⟨{ only (· ≠ 2) s with obj := upd (only (· ≠ 2) s).obj 0 (some ⟨none, false⟩) }, ?_, ?_, ?_⟩
    · show assignCopy demoE 0 1 _ = _
      unfold assignCopy reset
      simp [bind, M.bind, M.noexcept, flag, p0, p1, destroyVal, setFlag]
    · exact (upd_ne (k := 0) (x := 2) _ (some (⟨none, false⟩ : Obj Nat)) (by decide)).trans p2
    · simp
  obtain ⟨s', hr, h2, h0⟩ := hr
  refine ⟨s, s', h, hr, h2, ?_⟩
  have := C93_optional (S := (· ≠ 2)) demoE_plain h (Spec.assignCopy (i := 0) (j := 1) rfl rfl) (by
    intro i hi; rcases hi with rfl | rfl <;> decide)
  rw [hr] at this
  obtain ⟨t, ht, hb⟩ := this
  refine ⟨t, ht, ?_, ?_⟩
  · rcases hb.obj 0 with ⟨o, k1, k2, _⟩ | ⟨k1, _⟩
    · rw [k1, k2]
    · rw [h0] at k1; cases k1
  · rcases hb.obj 2 with ⟨o, k1, _⟩ | ⟨_, k2⟩
    · rw [h2] at k1; cases k1
    · rw [k2, r2]

end Ptl.Optional

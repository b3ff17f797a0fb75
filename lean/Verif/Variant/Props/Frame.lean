import Verif.Frame
import Verif.Variant.Demo
import Verif.Variant.Props.Access

/-!
# C93: a call touches nothing but the variants it is given

As `Verif/Vector/Props/Frame.lean`, for variants.
-/

set_option linter.unusedSectionVars false

namespace Ptl.Variant

variable {τ ν : Type} [DecidableEq τ]

/-- the objects of `t` are those of `s` and, side by side with them, `F` -/
structure Beside (F : Id → Option (Obj ν)) (s t : St ν) : Prop where
  obj : ∀ i, (∃ o, s.obj i = some o ∧ t.obj i = some o ∧ F i = none) ∨ (s.obj i = none ∧ t.obj i = F i)
  /-- no variant is a part of the value of another one -/
  part : ∀ i, s.part i = []
  part' : t.part = s.part
  ntmp : t.ntmp = s.ntmp
  orc : t.orc = s.orc
  tick : t.tick = s.tick

variable {F : Id → Option (Obj ν)} {E : Elem τ ν} {ts : List τ}

theorem Beside.setObj {s t : St ν} (h : Beside F s t) {i : Id} (hF : F i = none) (o : Option (Obj ν)) :
    Beside F { s with obj := upd s.obj i o } { t with obj := upd t.obj i o } := by
  refine { h with obj := fun j => ?_ }
  by_cases hj : j = i
  · subst hj
    cases o with
    | some o => exact .inl ⟨o, by simp, by simp, hF⟩
    | none => exact .inr ⟨by simp, by simp [hF]⟩
  · simp only [upd_ne _ _ hj]; exact h.obj j

theorem frm_fallible : Frm (Beside F) fallible := by
  intro s t h
  unfold fallible
  rw [h.orc, h.tick]
  split
  · exact ⟨_, rfl, { h with tick := by simp, orc := by simp }⟩
  · exact ⟨_, rfl, { h with tick := by simp, orc := by simp }⟩

theorem frm_getObj (i : Id) : Frm (Beside F) (getObj i) := by
  intro s t h
  unfold getObj
  rcases h.obj i with ⟨o, h1, h2, _⟩ | ⟨h1, _⟩
  · rw [h1, h2]; exact ⟨_, rfl, h⟩
  · rw [h1]; trivial

theorem frm_newObj {i : Id} (hF : F i = none) (b : Nat) : Frm (Beside F) (newObj i b) := by
  intro s t h
  unfold newObj
  rcases h.obj i with ⟨o, h1, h2, h3⟩ | ⟨h1, h2⟩
  · rw [h1]; trivial
  · rw [h1, h2, hF]; exact ⟨_, rfl, h.setObj hF _⟩

theorem frm_killObj (i : Id) : Frm (Beside F) (killObj i) := by
  intro s t h
  unfold killObj
  rcases h.obj i with ⟨o, h1, h2, h3⟩ | ⟨h1, _⟩
  · rw [h1, h2]
    dsimp only
    cases o.slot with
    | some _ => trivial
    | none => exact ⟨_, rfl, h.setObj h3 _⟩
  · rw [h1]; trivial

theorem frm_setType (i : Id) (n : Nat) : Frm (Beside F) (setType i n) := by
  intro s t h
  unfold setType
  rcases h.obj i with ⟨o, h1, h2, h3⟩ | ⟨h1, _⟩
  · rw [h1, h2]; exact ⟨_, rfl, h.setObj h3 _⟩
  · rw [h1]; trivial

theorem frm_readAt (p : Ptr τ) : Frm (Beside F) (readAt p) := by
  intro s t h
  unfold readAt
  rcases h.obj p.obj with ⟨o, h1, h2, h3⟩ | ⟨h1, _⟩
  · rw [h1, h2]
    dsimp only
    cases o.slot with
    | none => trivial
    | some kv =>
      obtain ⟨k, v⟩ := kv
      dsimp only
      split
      · exact ⟨_, rfl, h⟩
      · trivial
  · rw [h1]; trivial

theorem frm_writeAt (p : Ptr τ) (w : ν) : Frm (Beside F) (writeAt p w) := by
  intro s t h
  unfold writeAt
  rcases h.obj p.obj with ⟨o, h1, h2, h3⟩ | ⟨h1, _⟩
  · rw [h1, h2]
    dsimp only
    cases o.slot with
    | none => trivial
    | some kv =>
      obtain ⟨k, v⟩ := kv
      dsimp only
      split
      · exact ⟨_, rfl, h.setObj h3 _⟩
      · trivial
  · rw [h1]; trivial

theorem frm_placeAt (p : Ptr τ) (w : ν) : Frm (Beside F) (placeAt p w) := by
  intro s t h
  unfold placeAt
  rcases h.obj p.obj with ⟨o, h1, h2, h3⟩ | ⟨h1, _⟩
  · rw [h1, h2]
    dsimp only
    cases o.slot with
    | some _ => trivial
    | none => exact ⟨_, rfl, h.setObj h3 _⟩
  · rw [h1]; trivial

theorem frm_destroyAt (p : Ptr τ) : Frm (Beside F) (destroyAt p) := by
  intro s t h
  unfold destroyAt
  rcases h.obj p.obj with ⟨o, h1, h2, h3⟩ | ⟨h1, _⟩
  · rw [h1, h2]
    dsimp only
    cases o.slot with
    | none => trivial
    | some kv =>
      obtain ⟨k, v⟩ := kv
      dsimp only
      split
      · have e : ∀ u : St ν, u.part p.obj = [] →
            (fun j => if j ∈ u.part p.obj then none else upd u.obj p.obj (some { o with slot := none }) j) =
            upd u.obj p.obj (some { o with slot := none }) := by
          intro u hu; funext j; simp [hu]
        have h4 : t.part p.obj = [] := by rw [h.part']; exact h.part _
        rw [e s (h.part _), e t h4]
        exact ⟨_, rfl, h.setObj h3 _⟩
      · trivial
  · rw [h1]; trivial

macro_rules | `(tactic| frm_step) => `(tactic| with_reducible exact frm_fallible)
macro_rules | `(tactic| frm_step) => `(tactic| with_reducible exact frm_getObj _)
macro_rules | `(tactic| frm_step) => `(tactic| with_reducible exact frm_newObj (by assumption) _)
macro_rules | `(tactic| frm_step) => `(tactic| with_reducible exact frm_killObj _)
macro_rules | `(tactic| frm_step) => `(tactic| with_reducible exact frm_setType _ _)
macro_rules | `(tactic| frm_step) => `(tactic| with_reducible exact frm_readAt _)
macro_rules | `(tactic| frm_step) => `(tactic| with_reducible exact frm_writeAt _ _)
macro_rules | `(tactic| frm_step) => `(tactic| with_reducible exact frm_placeAt _ _)
macro_rules | `(tactic| frm_step) => `(tactic| with_reducible exact frm_destroyAt _)

theorem frm_eval (a : Arg τ ν) : Frm (Beside F) a.eval := by cases a <;> (unfold Arg.eval; frm)
macro_rules | `(tactic| frm_step) => `(tactic| with_reducible exact frm_eval _)
theorem frm_construct (p : Ptr τ) (a : Arg τ ν) : Frm (Beside F) (construct p a) := by unfold construct; frm
macro_rules | `(tactic| frm_step) => `(tactic| with_reducible exact frm_construct _ _)

theorem frm_storageGet (i : Id) (I d : Nat) (l : List τ) : Frm (Beside F) (Storage.get i I d l) := by
  induction l generalizing I d with
  | nil => cases I <;> (unfold Storage.get; frm)
  | cons T l ih =>
    cases I with
    | zero => unfold Storage.get; frm
    | succ I => unfold Storage.get; exact ih _ _

theorem frm_storageSet (i : Id) (I d : Nat) (l : List τ) (a : Arg τ ν) : Frm (Beside F) (Storage.set i I d l a) := by
  induction l generalizing I d with
  | nil => cases I <;> (unfold Storage.set; frm)
  | cons T l ih =>
    cases I with
    | zero => unfold Storage.set; frm
    | succ I => unfold Storage.set; exact ih _ _

theorem frm_storageDestroy (i : Id) (I d : Nat) (l : List τ) : Frm (Beside F) (Storage.destroy i I d l) := by
  induction l generalizing I d with
  | nil => cases I <;> (unfold Storage.destroy; frm)
  | cons T l ih =>
    cases I with
    | zero => unfold Storage.destroy; frm
    | succ I => unfold Storage.destroy; exact ih _ _

theorem frm_dispatch {β : Type} (n : Nat) {f : Nat → VM ν β} (h : ∀ I, Frm (Beside F) (f I)) :
    Frm (Beside F) (dispatch ts n f) := by
  unfold dispatch
  exact .ite (fun _ => h _) (fun _ => .ub _)

macro_rules | `(tactic| frm_step) => `(tactic| with_reducible exact frm_storageGet _ _ _ _)
macro_rules | `(tactic| frm_step) => `(tactic| with_reducible exact frm_storageSet _ _ _ _ _)
macro_rules | `(tactic| frm_step) => `(tactic| with_reducible exact frm_storageDestroy _ _ _ _)
macro_rules | `(tactic| frm_step) => `(tactic| with_reducible refine frm_dispatch _ (fun _ => ?_))

theorem frm_emplaceImpl (n : Nat) (i : Id) (a : Arg τ ν) : Frm (Beside F) (emplaceImpl ts n i a) := by unfold emplaceImpl; frm
theorem frm_assignCopyImpl (n : Nat) (i j : Id) : Frm (Beside F) (assignCopyImpl E ts n i j) := by unfold assignCopyImpl; frm
theorem frm_assignMoveImpl (n : Nat) (i j : Id) : Frm (Beside F) (assignMoveImpl E ts n i j) := by unfold assignMoveImpl; frm
theorem frm_destroyImpl (n : Nat) (i : Id) : Frm (Beside F) (destroyImpl ts n i) := by unfold destroyImpl; frm
theorem frm_compareImpl (c : Cmp) (n : Nat) (i j : Id) : Frm (Beside F) (compareImpl E ts c n i j) := by unfold compareImpl; frm
theorem frm_swapImpl (n : Nat) (i j : Id) : Frm (Beside F) (swapImpl (ν := ν) ts n i j) := by unfold swapImpl; frm

macro_rules | `(tactic| frm_step) => `(tactic| with_reducible exact frm_emplaceImpl _ _ _)
macro_rules | `(tactic| frm_step) => `(tactic| with_reducible exact frm_assignCopyImpl _ _ _)
macro_rules | `(tactic| frm_step) => `(tactic| with_reducible exact frm_assignMoveImpl _ _ _)
macro_rules | `(tactic| frm_step) => `(tactic| with_reducible exact frm_destroyImpl _ _)
macro_rules | `(tactic| frm_step) => `(tactic| with_reducible exact frm_compareImpl _ _ _ _)
macro_rules | `(tactic| frm_step) => `(tactic| with_reducible exact frm_swapImpl _ _ _)

theorem frm_construct' {i : Id} (hF : F i = none) (n : Nat) {m : VM ν Unit} (h : Frm (Beside F) m) :
    Frm (Beside F) (construct' i n m) := by unfold construct'; frm
macro_rules | `(tactic| frm_step) => `(tactic| with_reducible refine frm_construct' (by assumption) _ ?_)

theorem frm_ctorDefault {i : Id} (hF : F i = none) : Frm (Beside F) (ctorDefault E ts i) := by
  cases ts <;> (unfold ctorDefault; dsimp only; frm)
theorem frm_ctorCopy {i : Id} (hF : F i = none) (j : Id) : Frm (Beside F) (ctorCopy E ts i j) := by unfold ctorCopy; frm
theorem frm_ctorMove {i : Id} (hF : F i = none) (j : Id) : Frm (Beside F) (ctorMove E ts i j) := by unfold ctorMove; frm
theorem frm_ctorIndex {i : Id} (hF : F i = none) (k : Nat) (a : Arg τ ν) : Frm (Beside F) (ctorIndex ts i k a) := by
  unfold ctorIndex; frm
theorem frm_ctorValue {i : Id} (hF : F i = none) (T : τ) (a : Arg τ ν) : Frm (Beside F) (ctorValue ts i T a) :=
  frm_ctorIndex hF _ _
theorem frm_dtor (i : Id) : Frm (Beside F) (dtor ts i) := by unfold dtor; frm

macro_rules | `(tactic| frm_step) => `(tactic| with_reducible exact frm_ctorCopy (by assumption) _)
macro_rules | `(tactic| frm_step) => `(tactic| with_reducible exact frm_ctorMove (by assumption) _)
macro_rules | `(tactic| frm_step) => `(tactic| with_reducible exact frm_ctorIndex (by assumption) _ _)
macro_rules | `(tactic| frm_step) => `(tactic| with_reducible exact frm_ctorValue (by assumption) _ _)
macro_rules | `(tactic| frm_step) => `(tactic| with_reducible exact frm_dtor _)

theorem frm_withTmp {β : Type} (hT : ∀ n, F (.tmp n) = none) {ctor : Id → VM ν Unit} {body : Id → VM ν β}
    (hc : ∀ t, F t = none → Frm (Beside F) (ctor t)) (hb : ∀ t, Frm (Beside F) (body t)) :
    Frm (Beside F) (withTmp ts ctor body) := by
  intro s t h
  unfold withTmp
  rw [h.ntmp]
  exact Frm.bind (hc _ (hT _)) (fun _ => Frm.withDtor (hb _) (frm_dtor _)) _ _ { h with ntmp := rfl }

macro_rules | `(tactic| frm_step) => `(tactic| with_reducible refine frm_withTmp (by assumption) (fun _ _ => ?_) (fun _ => ?_))

theorem frm_assignCopy (hT : ∀ n, F (.tmp n) = none) (i j : Id) : Frm (Beside F) (assignCopy E ts i j) := by
  unfold assignCopy; frm
theorem frm_assignMove (i j : Id) : Frm (Beside F) (assignMove E ts i j) := by unfold assignMove; frm
macro_rules | `(tactic| frm_step) => `(tactic| with_reducible exact frm_assignMove _ _)
theorem frm_assignValue (hT : ∀ n, F (.tmp n) = none) (i : Id) (T : τ) (a : Arg τ ν) :
    Frm (Beside F) (assignValue E ts i T a) := by unfold assignValue; frm
theorem frm_holds (i : Id) (T : τ) : Frm (Beside F) (holds ts i T) := by unfold holds; frm
macro_rules | `(tactic| frm_step) => `(tactic| with_reducible exact frm_holds _ _)
theorem frm_getIf (i : Id) (T : τ) : Frm (Beside F) (getIf ts i T) := by unfold getIf; frm
macro_rules | `(tactic| frm_step) => `(tactic| with_reducible exact frm_getIf _ _)
theorem frm_get (i : Id) (T : τ) : Frm (Beside F) (get ts i T) := by
  unfold get
  refine .bind (frm_getIf _ _) fun r => ?_
  cases r <;> (dsimp only; frm)
macro_rules | `(tactic| frm_step) => `(tactic| with_reducible exact frm_get _ _)
theorem frm_emplace (hT : ∀ n, F (.tmp n) = none) (i : Id) (T : τ) (a : Arg τ ν) :
    Frm (Beside F) (emplace E ts i T a) := by unfold emplace; frm
macro_rules | `(tactic| frm_step) => `(tactic| with_reducible exact frm_emplace (by assumption) _ _ _)
theorem frm_emplaceIndex (hT : ∀ n, F (.tmp n) = none) (i : Id) (k : Nat) (a : Arg τ ν) :
    Frm (Beside F) (emplaceIndex E ts i k a) := by
  unfold emplaceIndex
  cases determineType k ts <;> (dsimp only; frm)
macro_rules | `(tactic| frm_step) => `(tactic| with_reducible exact frm_emplaceIndex (by assumption) _ _ _)
theorem frm_swap (hT : ∀ n, F (.tmp n) = none) (i j : Id) : Frm (Beside F) (swap E ts i j) := by unfold swap; frm
theorem frm_visit {β : Type} (conv : τ → τ → β → β) (i : Id) {vis : Ptr τ → VM ν β} (h : ∀ p, Frm (Beside F) (vis p)) :
    Frm (Beside F) (visit ts conv i vis) := by
  unfold visit visitImpl
  exact .bind (frm_getObj _) fun o => frm_dispatch _ fun I => .bind (frm_storageGet _ _ _ _) fun p => .bind (h p) fun r => .pure _
theorem frm_resolve (x : Src τ ν) : Frm (Beside F) (x.resolve ts) := by cases x <;> (unfold Src.resolve; frm)
macro_rules | `(tactic| frm_step) => `(tactic| with_reducible exact frm_resolve _)

/-! ### the calls -/

/-- the variant whose value the argument refers to -/
def Src.Names : Src τ ν → Nat → Prop
  | .ref j _ _ _ _, i => i = j
  | _, _ => False

/-- the variants that the client names in the call: those it is about, and those whose values are arguments -/
def Op.Names : Op τ ν → Nat → Prop
  | .ctorDefault i, n | .dtor i, n | .write i _ _, n | .visit i _, n => n = i
  | .ctorCopy i j, n | .ctorMove i j, n | .assignCopy i j, n | .assignMove i j, n | .swap i j, n => n = i ∨ n = j
  | .ctorIndex i _ x, n | .ctorValue i _ x, n | .assignValue i _ x, n | .emplace i _ x, n | .emplaceIndex i _ x, n =>
    n = i ∨ x.Names n

theorem frm_run (op : Op τ ν) (hT : ∀ n, F (.tmp n) = none) (hF : ∀ i, op.Names i → F (.var i) = none) :
    Frm (Beside F) (op.run E ts) := by
  cases op with
  | ctorDefault i => exact frm_ctorDefault (hF i rfl)
  | ctorCopy i j => exact frm_ctorCopy (hF i (.inl rfl)) _
  | ctorMove i j => exact frm_ctorMove (hF i (.inl rfl)) _
  | ctorIndex i k x => exact .bind (frm_resolve _) fun a => frm_ctorIndex (hF i (.inl rfl)) _ _
  | ctorValue i T x => exact .bind (frm_resolve _) fun a => frm_ctorValue (hF i (.inl rfl)) _ _
  | dtor i => exact frm_dtor _
  | assignCopy i j => exact frm_assignCopy hT _ _
  | assignMove i j => exact frm_assignMove _ _
  | assignValue i T x => exact .bind (frm_resolve _) fun a => frm_assignValue hT _ _ _
  | emplace i T x => exact .bind (frm_resolve _) fun a => .bind (frm_emplace hT _ _ _) fun _ => .pure _
  | emplaceIndex i k x => exact .bind (frm_resolve _) fun a => .bind (frm_emplaceIndex hT _ _ _) fun _ => .pure _
  | swap i j => exact frm_swap hT _ _
  | write i T v => exact .bind (frm_get _ _) fun p => frm_writeAt _ _
  | visit i f => exact frm_visit _ _ fun p => .bind (frm_readAt _) fun v => frm_writeAt _ _

/-! ### the meaning of a call is about the variants it names -/

theorem Src.Takes.only {V V0 V1 : Vars τ ν} {x : Src τ ν} {v : ν} (h : x.Takes V v V1) (h0 : ∀ i, x.Names i → V0 i = V i) :
    ∃ W, x.Takes V0 v W := by
  cases h with
  | val => exact ⟨_, .val _⟩
  | thr => exact ⟨_, .thr _⟩
  | ref h => exact ⟨_, .ref ((h0 _ rfl).trans h)⟩

theorem Spec.only {op : Op τ ν} {V V' V0 : Vars τ ν} (hs : Spec E ts op V V') (h0 : ∀ i, op.Names i → V0 i = V i) :
    ∃ V0', Spec E ts op V0 V0' := by
  have nm : ∀ {i o}, op.Names i → V i = o → V0 i = o := fun hi h => (h0 _ hi).trans h
  cases hs with
  | ctorDefault h hts => exact ⟨_, .ctorDefault (nm rfl h) hts⟩
  | ctorCopy h hj => exact ⟨_, .ctorCopy (nm (.inl rfl) h) (nm (.inr rfl) hj)⟩
  | ctorMove h hj => exact ⟨_, .ctorMove (nm (.inl rfl) h) (nm (.inr rfl) hj)⟩
  | ctorIndex h hk hx =>
    obtain ⟨W, hW⟩ := hx.only fun i hi => h0 i (.inr hi)
    exact ⟨_, .ctorIndex (nm (.inl rfl) h) hk hW⟩
  | ctorValue h hk hx =>
    obtain ⟨W, hW⟩ := hx.only fun i hi => h0 i (.inr hi)
    exact ⟨_, .ctorValue (nm (.inl rfl) h) hk hW⟩
  | dtor h => exact ⟨_, .dtor (nm rfl h)⟩
  | assignCopy h hj => exact ⟨_, .assignCopy (nm (.inl rfl) h) (nm (.inr rfl) hj)⟩
  | assignMove h hj hn => exact ⟨_, .assignMove (nm (.inl rfl) h) (nm (.inr rfl) hj) hn⟩
  | assignMoveSelf h => exact ⟨_, .assignMoveSelf (nm (.inl rfl) h)⟩
  | assignValue h hk hx =>
    obtain ⟨W, hW⟩ := hx.only fun i hi => h0 i (.inr hi)
    exact ⟨_, .assignValue (nm (.inl rfl) h) hk hW⟩
  | emplace h hk hx hn =>
    obtain ⟨W, hW⟩ := hx.only fun i hi => h0 i (.inr hi)
    exact ⟨_, .emplace (nm (.inl rfl) h) hk hW hn⟩
  | emplaceIndex h hk hx hn =>
    obtain ⟨W, hW⟩ := hx.only fun i hi => h0 i (.inr hi)
    exact ⟨_, .emplaceIndex (nm (.inl rfl) h) hk hW hn⟩
  | swap h hj => exact ⟨_, .swap (nm (.inl rfl) h) (nm (.inr rfl) hj)⟩
  | write h => exact ⟨_, .write (nm rfl h)⟩
  | visit h => exact ⟨_, .visit (nm rfl h)⟩

/-! ### erasing the other variants from memory -/

attribute [local instance] Classical.propDecidable

/-- the state in which only the variants in `S` exist -/
noncomputable def only (S : Nat → Prop) (s : St ν) : St ν :=
  { s with obj := fun i => match i with
    | .var n => if S n then s.obj (.var n) else none
    | .tmp n => s.obj (.tmp n) }

/-- what was erased -/
noncomputable def rest (S : Nat → Prop) (s : St ν) : Id → Option (Obj ν)
  | .var n => if S n then none else s.obj (.var n)
  | .tmp _ => none

variable {s s' : St ν} {S : Nat → Prop}

theorem only_var {n : Nat} (h : S n) : (only S s).obj (.var n) = s.obj (.var n) := if_pos h
theorem only_other {n : Nat} (h : ¬ S n) : (only S s).obj (.var n) = none := if_neg h
theorem rest_var {n : Nat} (h : S n) : rest S s (.var n) = none := if_pos h
theorem rest_other {n : Nat} (h : ¬ S n) : rest S s (.var n) = s.obj (.var n) := if_neg h

theorem beside_only (hp : ∀ i, s.part i = []) : Beside (rest S s) (only S s) s where
  obj := by
    intro i
    cases i with
    | var n =>
      by_cases h : S n
      · rw [only_var h, rest_var h]
        cases ho : s.obj (.var n) with
        | none => exact .inr ⟨rfl, rfl⟩
        | some o => exact .inl ⟨o, rfl, rfl, rfl⟩
      · rw [only_other h, rest_other h]
        exact .inr ⟨rfl, rfl⟩
    | tmp n =>
      show (∃ o, s.obj (.tmp n) = some o ∧ s.obj (.tmp n) = some o ∧ none = none) ∨ (s.obj (.tmp n) = none ∧ s.obj (.tmp n) = none)
      cases ho : s.obj (.tmp n) with
      | none => exact .inr ⟨rfl, rfl⟩
      | some o => exact .inl ⟨o, rfl, rfl, rfl⟩
  part := hp
  part' := rfl
  ntmp := rfl
  orc := rfl
  tick := rfl

theorem inv_only {V : Vars τ ν} (hinv : Inv ts s V) : Inv ts (only S s) (fun i => if S i then V i else none) where
  dead := by
    intro i hi
    by_cases h : S i
    · rw [only_var h]; exact hinv.dead i (by simpa [h] using hi)
    · exact only_other h
  live := by
    intro i T x hi
    by_cases h : S i
    · rw [only_var h]; exact hinv.live i T x (by simpa [h] using hi)
    · simp [h] at hi
  tmp := hinv.tmp
  part := hinv.part

/-- C93: erase all variants that the call does not name from memory.  The call does the same as before: it returns normally, or
throws the same exception, and leaves the same behind (`s0`); if nothing had been erased, that would still be there, unchanged. -/
theorem C93_variant (hE : E.Plain) (ha : Alts ts) {V V' : Vars τ ν} {op : Op τ ν} (h : Reach E ts s V)
    (hs : Spec E ts op V V') (hS : ∀ i, op.Names i → S i) :
    match op.run E ts (only S s) with
    | .ok r' s0 => ∃ s', op.run E ts s = .ok r' s' ∧ Beside (rest S s) s0 s'
    | .exc e s0 => ∃ s', op.run E ts s = .exc e s' ∧ Beside (rest S s) s0 s'
    | .ub _ => False
    | .term => op.run E ts s = .term := by
  have hinv := h.inv hE ha
  obtain ⟨V0', hs0⟩ := hs.only (V0 := fun i => if S i then V i else none) (fun i hi => if_pos (hS i hi))
  have hst := step hE ha (inv_only (S := S) hinv) hs0
  have hf := frm_run (E := E) (ts := ts) (F := rest S s) op (fun _ => rfl) (fun i hi => rest_var (hS i hi)) _ _
    (beside_only hinv.part)
  cases hr : op.run E ts (only S s) with
  | ok r' s0 => rw [hr] at hf; exact hf
  | exc e s0 => rw [hr] at hf; exact hf
  | ub f => rw [hr] at hst; exact hst.elim
  | term => rw [hr] at hf; exact hf

/-- C93: what the client sees of a variant – which alternative it holds, what `get` and `get_if` return, which object a visitor is
called with – and how it compares to another one does not depend on any third variant: with those erased, it is the same. -/
theorem C93_variant_reads (hE : E.Plain) (ha : Alts ts) {V : Vars τ ν} (h : Reach E ts s V) {i j : Nat} (hi : S i) (hj : S j)
    {a b : τ × ν} (vi : V i = some a) (vj : V j = some b) :
    (Shows ts (only S s) i a.1 a.2 ∧ Shows ts s i a.1 a.2) ∧
    (∀ T ∈ ts, (∃ r, getIf ts (.var i) T (only S s) = .ok r (only S s) ∧ getIf ts (.var i) T s = .ok r s) ∧
      ((∃ p, get ts (.var i) T (only S s) = .ok p (only S s) ∧ get ts (.var i) T s = .ok p s) ∨
        get ts (.var i) T (only S s) = .exc .badVariantAccess (only S s) ∧ get ts (.var i) T s = .exc .badVariantAccess s)) ∧
    ∀ c, ∃ r, compare E ts c (.var i) (.var j) (only S s) = .ok r (only S s) ∧ compare E ts c (.var i) (.var j) s = .ok r s := by
  have k := h.inv hE ha
  have k0 := inv_only (S := S) k
  have vi0 : (fun i => if S i then V i else none) i = some a := (if_pos hi).trans vi
  have vj0 : (fun i => if S i then V i else none) j = some b := (if_pos hj).trans vj
  obtain ⟨hT, ho⟩ := k.live i _ _ vi
  obtain ⟨_, ho0⟩ := k0.live i _ _ vi0
  refine ⟨⟨k0.shows ha vi0, k.shows ha vi⟩, fun T hT' => ?_, fun c => ⟨_, k0.compare ha vi0 vj0 c, k.compare ha vi vj c⟩⟩
  by_cases e : T = a.1
  · subst e
    exact ⟨⟨_, getIf_held ha (ha.at_ hT) ho0, getIf_held ha (ha.at_ hT) ho⟩,
      .inl ⟨_, get_held ha (ha.at_ hT) ho0, get_held ha (ha.at_ hT) ho⟩⟩
  · exact ⟨⟨_, getIf_other ha (ha.at_ hT) ho0 hT' e, getIf_other ha (ha.at_ hT) ho hT' e⟩,
      .inr ⟨get_other ha (ha.at_ hT) ho0 hT' e, get_other ha (ha.at_ hT) ho hT' e⟩⟩

/-- variable 0 holds the `int` 7, variable 1 the `str` 5: `v0 = std::string{…}` does the same without variable 1, which keeps its
value -/
example : ∃ s s' t : St Nat, Reach demoE demoTs s demoV ∧
    (Op.assignValue 0 .str (.val 9)).run demoE demoTs (only (· = 0) s) = .ok () s' ∧
    (Op.assignValue 0 .str (.val 9)).run demoE demoTs s = .ok () t ∧
    s'.obj (.var 1) = none ∧ t.obj (.var 1) = full 1 5 ∧ t.obj (.var 0) = full 1 9 := by
  obtain ⟨s, h, ho⟩ := demo
  have hinv := h.inv demoE_plain demo_alts
  have hs : Spec demoE demoTs (.assignValue 0 .str (.val 9)) demoV _ :=
    .assignValue (T' := .int) (y := 7) rfl (by decide) (.val 9)
  obtain ⟨t, ht, hrt, _⟩ := h.next demoE_plain demo_alts hs ho
  have hit := hrt.inv demoE_plain demo_alts
  have := C93_variant (S := (· = 0)) demoE_plain demo_alts h hs (by
    intro i hi; rcases hi with rfl | hi
    · rfl
    · exact hi.elim)
  cases hr : (Op.assignValue 0 .str (.val 9)).run demoE demoTs (only (· = 0) s) with
  | ok r s' =>
    rw [hr] at this
    obtain ⟨t', ht', hb⟩ := this
    rw [ht] at ht'; cases ht'
    refine ⟨s, s', t, h, hr, ht, ?_, (hit.live 1 .str 5 rfl).2, (hit.live 0 .str 9 rfl).2⟩
    have h1 : rest (· = 0) s (.var 1) = full 1 5 := (rest_other (by decide)).trans (hinv.live 1 .str 5 rfl).2
    rcases hb.obj (.var 1) with ⟨o, _, _, k⟩ | ⟨k, _⟩
    · rw [h1] at k; cases k
    · exact k
  | exc e s' =>
    rw [hr] at this
    obtain ⟨t', ht', _⟩ := this
    rw [ht] at ht'; cases ht'
  | ub f => rw [hr] at this; exact this.elim
  | term => rw [hr] at this; rw [ht] at this; cases this

end Ptl.Variant

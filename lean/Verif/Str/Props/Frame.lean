import Verif.Frame
import Verif.Str.Props.History
import Verif.Str.Access
import Verif.Str.Demo

/-!
# C93: a call touches nothing but the strings it is given

As `Verif/Vector/Props/Frame.lean`, for strings: a call behaves in exactly the same way if all strings that it does not name are
erased from memory before it starts.
-/

namespace Ptl.Str

/-- a part of memory: some objects and some regions (blocks, or `sso.buf` of the objects) -/
structure Part where
  obj : Id → Option Obj
  mem : Base → Option (List (Option UInt8))

/-- the memory of `t` consists of that of `s` and, side by side with it, of `F` -/
structure Beside (F : Part) (s t : St) : Prop where
  obj : ∀ i, (∃ o, s.obj i = some o ∧ t.obj i = some o ∧ F.obj i = none) ∨ (s.obj i = none ∧ t.obj i = F.obj i)
  mem : ∀ b, (∃ l, s.mem b = some l ∧ t.mem b = some l ∧ F.mem b = none) ∨ (s.mem b = none ∧ t.mem b = F.mem b)
  /-- `sso.buf` is part of its object -/
  sso : ∀ i, F.obj i = none → F.mem (.sso i) = none
  /-- new blocks and new temporaries are not in `F` -/
  freshB : ∀ b, s.nblk ≤ b → F.mem (.heap b) = none
  freshT : ∀ k, s.ntmp ≤ k → F.obj (.tmp k) = none
  nblk : t.nblk = s.nblk
  ntmp : t.ntmp = s.ntmp
  orc : t.orc = s.orc
  tick : t.tick = s.tick
  moves : t.moves = s.moves

variable {F : Part}

theorem Beside.setObj {s t : St} (h : Beside F s t) {i : Id} (hF : F.obj i = none) (o : Option Obj) :
    Beside F { s with obj := upd s.obj i o } { t with obj := upd t.obj i o } := by
  refine { h with obj := fun j => ?_ }
  by_cases hj : j = i
  · subst hj
    cases o with
    | some o => exact .inl ⟨o, by simp, by simp, hF⟩
    | none => exact .inr ⟨by simp, by simp [hF]⟩
  · simp only [upd_ne _ _ hj]; exact h.obj j

theorem Beside.setMem {s t : St} (h : Beside F s t) {b : Base} (hF : F.mem b = none) (l : Option (List (Option UInt8))) :
    Beside F { s with mem := upd s.mem b l } { t with mem := upd t.mem b l } := by
  refine { h with mem := fun j => ?_ }
  by_cases hj : j = b
  · subst hj
    cases l with
    | some o => exact .inl ⟨o, by simp, by simp, hF⟩
    | none => exact .inr ⟨by simp, by simp [hF]⟩
  · simp only [upd_ne _ _ hj]; exact h.mem j

theorem Beside.setBoth {s t : St} (h : Beside F s t) {i : Id} (hF : F.obj i = none) (o : Option Obj)
    (l : Option (List (Option UInt8))) :
    Beside F { s with obj := upd s.obj i o, mem := upd s.mem (.sso i) l } { t with obj := upd t.obj i o, mem := upd t.mem (.sso i) l } :=
  (h.setObj hF o).setMem (h.sso i hF) l

theorem frm_fallible (e : Exc) : Frm (Beside F) (fallible e) := by
  intro s t h
  unfold fallible
  rw [h.orc, h.tick]
  split
  · exact ⟨_, rfl, { h with tick := by simp, orc := by simp }⟩
  · exact ⟨_, rfl, { h with tick := by simp, orc := by simp }⟩

theorem frm_countMoves (n : Nat) : Frm (Beside F) (countMoves n) := by
  intro s t h
  exact ⟨_, rfl, { h with moves := by simp [h.moves] }⟩

theorem frm_getObj (i : Id) : Frm (Beside F) (getObj i) := by
  intro s t h
  unfold getObj
  rcases h.obj i with ⟨o, h1, h2, _⟩ | ⟨h1, _⟩
  · rw [h1, h2]; exact ⟨_, rfl, h⟩
  · rw [h1]; trivial

theorem frm_setObj (i : Id) (o : Obj) : Frm (Beside F) (setObj i o) := by
  intro s t h
  unfold Str.setObj
  rcases h.obj i with ⟨o, h1, h2, h3⟩ | ⟨h1, _⟩
  · rw [h1, h2]; exact ⟨_, rfl, h.setObj h3 _⟩
  · rw [h1]; trivial

theorem frm_setSsoSiz (i : Id) (n : Nat) : Frm (Beside F) (setSsoSiz i n) := by
  intro s t h
  unfold setSsoSiz
  rcases h.obj i with ⟨o, h1, h2, h3⟩ | ⟨h1, _⟩
  · rw [h1, h2]
    dsimp only
    cases o.u with
    | sso => exact ⟨_, rfl, h.setObj h3 _⟩
    | heap => exact ⟨_, rfl, h.setBoth h3 _ _⟩
  · rw [h1]; trivial

theorem frm_setHeap (i : Id) (p c n : Nat) : Frm (Beside F) (setHeap i p c n) := by
  intro s t h
  unfold setHeap
  rcases h.obj i with ⟨o, h1, h2, h3⟩ | ⟨h1, _⟩
  · rw [h1, h2]; exact ⟨_, rfl, h.setBoth h3 _ _⟩
  · rw [h1]; trivial

theorem frm_newObj {i : Id} (hF : F.obj i = none) : Frm (Beside F) (newObj i) := by
  intro s t h
  unfold newObj
  rcases h.obj i with ⟨o, h1, h2, h3⟩ | ⟨h1, h2⟩
  · rw [h1]; trivial
  · rw [h1, h2, hF]; exact ⟨_, rfl, h.setBoth hF _ _⟩

theorem frm_killObj (i : Id) : Frm (Beside F) (killObj i) := by
  intro s t h
  unfold killObj
  rcases h.obj i with ⟨o, h1, h2, h3⟩ | ⟨h1, _⟩
  · rw [h1, h2]; exact ⟨_, rfl, h.setBoth h3 _ _⟩
  · rw [h1]; trivial

theorem frm_newChar (n : Nat) : Frm (Beside F) (newChar n) := by
  intro s t h
  unfold newChar
  rw [h.orc, h.tick, h.nblk]
  split
  · exact ⟨_, rfl, h⟩
  · split
    · exact ⟨_, rfl, { h with tick := by simp, orc := by simp, nblk := by simp }⟩
    · have h2 := h.setMem (h.freshB s.nblk (Nat.le_refl _)) (some (List.replicate n none))
      exact ⟨_, rfl, { h2 with
        freshB := fun b hb => h.freshB b (Nat.le_of_succ_le hb), nblk := by simp, tick := by simp, orc := by simp }⟩

theorem frm_nextBlk : Frm (Beside F) nextBlk := fun _ _ h => ⟨_, by unfold nextBlk; rw [h.nblk], h⟩

theorem frm_deleteChar (d b : Nat) : Frm (Beside F) (deleteChar d b) := by
  intro s t h
  unfold deleteChar
  rcases h.mem (.heap b) with ⟨l, h1, h2, h3⟩ | ⟨h1, _⟩
  · rw [h1, h2]
    dsimp only
    split
    · trivial
    · exact ⟨_, rfl, h.setMem h3 _⟩
  · rw [h1]; trivial

theorem frm_readN (p : Ptr) (n : Nat) : Frm (Beside F) (readN p n) := by
  intro s t h
  unfold readN
  split
  · exact ⟨_, rfl, h⟩
  · cases p.base with
    | none => trivial
    | some b =>
      dsimp only
      rcases h.mem b with ⟨l, h1, h2, h3⟩ | ⟨h1, _⟩
      · rw [h1, h2]
        dsimp only
        split
        · trivial
        · split
          · exact ⟨_, rfl, h⟩
          · trivial
      · rw [h1]; trivial

theorem frm_writeN (p : Ptr) (bs : List UInt8) : Frm (Beside F) (writeN p bs) := by
  intro s t h
  unfold writeN
  split
  · exact ⟨_, rfl, h⟩
  · cases p.base with
    | none => trivial
    | some b =>
      dsimp only
      rcases h.mem b with ⟨l, h1, h2, h3⟩ | ⟨h1, _⟩
      · rw [h1, h2]
        dsimp only
        split
        · trivial
        · exact ⟨_, rfl, h.setMem h3 _⟩
      · rw [h1]; trivial

theorem frm_readAt (p : Ptr) : Frm (Beside F) (readAt p) := by
  intro s t h
  unfold readAt
  cases p.base with
  | none => trivial
  | some b =>
    dsimp only
    rcases h.mem b with ⟨l, h1, h2, h3⟩ | ⟨h1, _⟩
    · rw [h1, h2]
      dsimp only
      cases l[p.off]? with
      | none => trivial
      | some x =>
        cases x with
        | none => trivial
        | some v => exact ⟨_, rfl, h⟩
    · rw [h1]; trivial

theorem frm_writeAt (p : Ptr) (v : UInt8) : Frm (Beside F) (writeAt p v) := frm_writeN _ _

macro_rules | `(tactic| frm_step) => `(tactic| with_reducible exact frm_fallible _)
macro_rules | `(tactic| frm_step) => `(tactic| with_reducible exact frm_countMoves _)
macro_rules | `(tactic| frm_step) => `(tactic| with_reducible exact frm_getObj _)
macro_rules | `(tactic| frm_step) => `(tactic| with_reducible exact frm_setObj _ _)
macro_rules | `(tactic| frm_step) => `(tactic| with_reducible exact frm_setSsoSiz _ _)
macro_rules | `(tactic| frm_step) => `(tactic| with_reducible exact frm_setHeap _ _ _ _)
macro_rules | `(tactic| frm_step) => `(tactic| with_reducible exact frm_newObj (by assumption))
macro_rules | `(tactic| frm_step) => `(tactic| with_reducible exact frm_killObj _)
macro_rules | `(tactic| frm_step) => `(tactic| with_reducible exact frm_newChar _)
macro_rules | `(tactic| frm_step) => `(tactic| with_reducible exact frm_nextBlk)
macro_rules | `(tactic| frm_step) => `(tactic| with_reducible exact frm_deleteChar _ _)
macro_rules | `(tactic| frm_step) => `(tactic| with_reducible exact frm_readN _ _)
macro_rules | `(tactic| frm_step) => `(tactic| with_reducible exact frm_writeN _ _)
macro_rules | `(tactic| frm_step) => `(tactic| with_reducible exact frm_readAt _)
macro_rules | `(tactic| frm_step) => `(tactic| with_reducible exact frm_writeAt _ _)

theorem frm_memmove (p q : Ptr) (n : Nat) : Frm (Beside F) (memmove p q n) := by unfold memmove; frm
theorem frm_fill (p : Ptr) (n : Nat) (ch : UInt8) : Frm (Beside F) (fill p n ch) := frm_writeN _ _
theorem frm_distance (p q : Ptr) : Frm (Beside F) (distance p q) := by unfold distance; frm

macro_rules | `(tactic| frm_step) => `(tactic| with_reducible exact frm_memmove _ _ _)
macro_rules | `(tactic| frm_step) => `(tactic| with_reducible exact frm_fill _ _ _)
macro_rules | `(tactic| frm_step) => `(tactic| with_reducible exact frm_distance _ _)

theorem frm_rotate (f m l : Ptr) : Frm (Beside F) (rotate f m l) := by unfold rotate; frm
theorem frm_deref (a : Arg) : Frm (Beside F) a.deref := by cases a <;> (unfold Arg.deref; frm)
theorem frm_setDealloc (i : Id) (d : Option Nat) : Frm (Beside F) (setDealloc i d) := by unfold setDealloc; frm
theorem frm_ssoSiz (i : Id) : Frm (Beside F) (ssoSiz i) := by
  refine .bind (frm_getObj _) fun o => ?_
  cases o.u <;> frm
theorem frm_heapOf (i : Id) : Frm (Beside F) (heapOf i) := by
  refine .bind (frm_getObj _) fun o => ?_
  cases o.u <;> frm

macro_rules | `(tactic| frm_step) => `(tactic| with_reducible exact frm_rotate _ _ _)
macro_rules | `(tactic| frm_step) => `(tactic| with_reducible exact frm_deref _)
macro_rules | `(tactic| frm_step) => `(tactic| with_reducible exact frm_setDealloc _ _)
macro_rules | `(tactic| frm_step) => `(tactic| with_reducible exact frm_ssoSiz _)
macro_rules | `(tactic| frm_step) => `(tactic| with_reducible exact frm_heapOf _)

theorem frm_copyRange (as : List Arg) (p : Ptr) : Frm (Beside F) (copyRange as p) := by
  induction as generalizing p with
  | nil => unfold copyRange; frm
  | cons a as ih =>
    unfold copyRange
    exact .bind (by frm) fun _ => .bind (by frm) fun _ => ih _

theorem frm_clearToSso (i : Id) : Frm (Beside F) (clearToSso i) := by unfold clearToSso; frm
theorem frm_copySso (i j : Id) : Frm (Beside F) (copySso i j) := by unfold copySso; frm

macro_rules | `(tactic| frm_step) => `(tactic| with_reducible exact frm_copyRange _ _)
macro_rules | `(tactic| frm_step) => `(tactic| with_reducible exact frm_clearToSso _)
macro_rules | `(tactic| frm_step) => `(tactic| with_reducible exact frm_copySso _ _)

theorem frm_moveHeap (i j : Id) : Frm (Beside F) (moveHeap i j) := by unfold moveHeap; frm
theorem frm_storage {i : Id} (hF : F.obj i = none) : Frm (Beside F) (Storage.ctor i) := by unfold Storage.ctor; frm
theorem frm_ctorCap {i : Id} (hF : F.obj i = none) (n : Nat) : Frm (Beside F) (Storage.ctorCap i n) := by
  unfold Storage.ctorCap; frm

theorem frm_release (i : Id) : Frm (Beside F) (Storage.release i) := by
  refine .bind (frm_getObj _) fun o => ?_
  cases o.dealloc <;> frm

macro_rules | `(tactic| frm_step) => `(tactic| with_reducible exact frm_moveHeap _ _)
macro_rules | `(tactic| frm_step) => `(tactic| with_reducible exact frm_storage (by assumption))
macro_rules | `(tactic| frm_step) => `(tactic| with_reducible exact frm_ctorCap (by assumption) _)
macro_rules | `(tactic| frm_step) => `(tactic| with_reducible exact frm_release _)

theorem frm_storageMove {i j : Id} (hF : F.obj i = none) : Frm (Beside F) (Storage.ctorMove i j) := by unfold Storage.ctorMove; frm
theorem frm_moveAssign (i j : Id) : Frm (Beside F) (Storage.moveAssign i j) := by unfold Storage.moveAssign; frm
theorem frm_dtor (i : Id) : Frm (Beside F) (Storage.dtor i) := by unfold Storage.dtor; frm
theorem frm_data (i : Id) : Frm (Beside F) (data i) := by unfold data; frm
theorem frm_capacity (i : Id) : Frm (Beside F) (capacity i) := by unfold capacity; frm
theorem frm_size (i : Id) : Frm (Beside F) (size i) := by unfold size; frm
theorem frm_setSize (i : Id) (n : Nat) : Frm (Beside F) (setSize i n) := by unfold setSize; frm

macro_rules | `(tactic| frm_step) => `(tactic| with_reducible exact frm_storageMove (by assumption))
macro_rules | `(tactic| frm_step) => `(tactic| with_reducible exact frm_moveAssign _ _)
macro_rules | `(tactic| frm_step) => `(tactic| with_reducible exact frm_dtor _)
macro_rules | `(tactic| frm_step) => `(tactic| with_reducible exact frm_data _)
macro_rules | `(tactic| frm_step) => `(tactic| with_reducible exact frm_capacity _)
macro_rules | `(tactic| frm_step) => `(tactic| with_reducible exact frm_size _)
macro_rules | `(tactic| frm_step) => `(tactic| with_reducible exact frm_setSize _ _)

theorem frm_shrinkToFit (i : Id) : Frm (Beside F) (shrinkToFit i) := by
  refine .noexcept (.bind (frm_getObj _) fun o => ?_)
  cases o.dealloc <;> frm
theorem frm_swap (i j : Id) : Frm (Beside F) (swap i j) := by unfold swap; frm
theorem frm_empty (i : Id) : Frm (Beside F) (empty i) := by unfold empty; frm

macro_rules | `(tactic| frm_step) => `(tactic| with_reducible exact frm_shrinkToFit _)
macro_rules | `(tactic| frm_step) => `(tactic| with_reducible exact frm_empty _)

/-- a temporary is not in `F` -/
theorem frm_tmp {β : Type} {m : Id → SM β} (h : ∀ i, F.obj i = none → Frm (Beside F) (m i)) :
    Frm (Beside F) (fun s => m (.tmp s.ntmp) { s with ntmp := s.ntmp + 1 }) := by
  intro s t hst
  dsimp only
  rw [hst.ntmp]
  exact h _ (hst.freshT _ (Nat.le_refl _)) _ _
    { hst with freshT := fun k hk => hst.freshT k (Nat.le_of_succ_le hk), ntmp := by simp }

theorem frm_withStorage {β : Type} (n : Nat) {body : Id → SM β} (h : ∀ i, Frm (Beside F) (body i)) :
    Frm (Beside F) (withStorage n body) :=
  frm_tmp (m := fun t => do Storage.ctorCap t n; M.withDtor (body t) (Storage.dtor t)) fun i hi => by
    have := h i
    frm

macro_rules | `(tactic| frm_step) => `(tactic| with_reducible refine frm_withStorage _ (fun _ => ?_))

theorem frm_reserve (i : Id) (n : Nat) : Frm (Beside F) (reserve i n) := by unfold reserve; frm
macro_rules | `(tactic| frm_step) => `(tactic| with_reducible exact frm_reserve _ _)
theorem frm_resize (i : Id) (n : Nat) (ch : UInt8) : Frm (Beside F) (resize i n ch) := by unfold resize; frm
theorem frm_index (i : Id) (k : Nat) : Frm (Beside F) (index i k) := by unfold index; frm
macro_rules | `(tactic| frm_step) => `(tactic| with_reducible exact frm_resize _ _ _)
macro_rules | `(tactic| frm_step) => `(tactic| with_reducible exact frm_index _ _)
theorem frm_back (i : Id) : Frm (Beside F) (back i) := by unfold back; frm
macro_rules | `(tactic| frm_step) => `(tactic| with_reducible exact frm_back _)
theorem frm_pushBack (i : Id) (ch : UInt8) : Frm (Beside F) (pushBack i ch) := by unfold pushBack; frm
theorem frm_popBack (i : Id) : Frm (Beside F) (popBack i) := by unfold popBack; frm
theorem frm_clear (i : Id) : Frm (Beside F) (clear i) := by unfold clear; frm
theorem frm_erase (i : Id) (p q : Ptr) : Frm (Beside F) (erase i p q) := by unfold erase; frm

macro_rules | `(tactic| frm_step) => `(tactic| with_reducible exact frm_pushBack _ _)
macro_rules | `(tactic| frm_step) => `(tactic| with_reducible exact frm_erase _ _ _)

theorem frm_appendNoAliasing (i : Id) (n : Nat) {f : Nat → SM Unit} (h : ∀ k, Frm (Beside F) (f k)) :
    Frm (Beside F) (appendNoAliasing i n f) := by
  unfold appendNoAliasing
  repeat' first | exact h _ | frm_step
theorem frm_assignNoAliasing (i : Id) (n : Nat) {f : SM Unit} (h : Frm (Beside F) f) : Frm (Beside F) (assignNoAliasing i n f) := by
  unfold assignNoAliasing
  frm
theorem frm_insertNoAliasing (i : Id) (p : Ptr) (n : Nat) {f : Nat → SM Unit} (h : ∀ k, Frm (Beside F) (f k)) :
    Frm (Beside F) (insertNoAliasing i p n f) := by
  unfold insertNoAliasing
  repeat' first | exact h _ | frm_step
theorem frm_replaceNoAliasing (i : Id) (p q : Ptr) (n : Nat) {f : Nat → SM Unit} (h : ∀ k, Frm (Beside F) (f k)) :
    Frm (Beside F) (replaceNoAliasing i p q n f) := by
  unfold replaceNoAliasing
  repeat' first | exact h _ | frm_step

theorem frm_putAt (i : Id) (k : Nat) (bs : List UInt8) : Frm (Beside F) (putAt i k bs) := by unfold putAt; frm
theorem frm_fillAt (i : Id) (k n : Nat) (ch : UInt8) : Frm (Beside F) (fillAt i k n ch) := by unfold fillAt; frm
theorem frm_copyFrom (i j : Id) (k : Nat) : Frm (Beside F) (copyFrom i j k) := by unfold copyFrom; frm

theorem frm_construct {i : Id} (hF : F.obj i = none) {m : SM Unit} (h : Frm (Beside F) m) : Frm (Beside F) (construct i m) := by
  unfold construct; frm
theorem frm_storageAssign (i : Id) (n : Nat) : Frm (Beside F) (storageAssign i n) := by unfold storageAssign; frm
macro_rules | `(tactic| frm_step) => `(tactic| with_reducible exact frm_storageAssign _ _)

theorem frm_pushAll (i : Id) (as : List Arg) : Frm (Beside F) (pushAll i as) := by
  induction as with
  | nil => unfold pushAll; frm
  | cons a as ih => unfold pushAll; frm

theorem frm_ctorInput {i : Id} (hF : F.obj i = none) (as : List Arg) : Frm (Beside F) (ctorInput i as) :=
  frm_construct hF (frm_pushAll _ _)
theorem frm_ctorRange {i : Id} (hF : F.obj i = none) (as : List Arg) : Frm (Beside F) (ctorRange i as) :=
  frm_construct hF (by frm)
theorem frm_ctorFill {i : Id} (hF : F.obj i = none) (n : Nat) (ch : UInt8) : Frm (Beside F) (ctorFill i n ch) :=
  frm_construct hF (by frm)
theorem frm_concat {i : Id} (hF : F.obj i = none) (as bs : List Arg) : Frm (Beside F) (concat i as bs) :=
  frm_construct hF (by frm)

macro_rules | `(tactic| frm_step) => `(tactic| with_reducible exact frm_ctorInput (by assumption) _)
macro_rules | `(tactic| frm_step) => `(tactic| with_reducible exact frm_ctorRange (by assumption) _)

theorem frm_view (i : Id) : Frm (Beside F) (view i) := by unfold view; frm
macro_rules | `(tactic| frm_step) => `(tactic| with_reducible exact frm_view _)

theorem frm_ctorCopy {i : Id} (hF : F.obj i = none) (j : Id) : Frm (Beside F) (ctorCopy i j) := by unfold ctorCopy; frm
theorem frm_ctorMove {i : Id} (hF : F.obj i = none) (j : Id) : Frm (Beside F) (ctorMove i j) := by unfold ctorMove; frm
macro_rules | `(tactic| frm_step) => `(tactic| with_reducible exact frm_ctorMove (by assumption) _)

theorem frm_withString {β : Type} {ctor : Id → SM Unit} {body : Id → SM β} (hc : ∀ i, F.obj i = none → Frm (Beside F) (ctor i))
    (h : ∀ i, Frm (Beside F) (body i)) : Frm (Beside F) (withString ctor body) :=
  frm_tmp (m := fun t => do ctor t; M.withDtor (body t) (Storage.dtor t)) fun i hi => by
    have := h i
    have := hc i hi
    frm

theorem frm_assignMove (i j : Id) : Frm (Beside F) (assignMove i j) := by unfold assignMove; frm
theorem frm_appendInput (i : Id) (as : List Arg) : Frm (Beside F) (appendInput i as) :=
  frm_withString (fun _ hi => frm_ctorInput hi _) fun _ =>
    .bind (frm_size _) fun _ => frm_appendNoAliasing _ _ fun _ => frm_copyFrom _ _ _
theorem frm_appendRange (i : Id) (as : List Arg) : Frm (Beside F) (appendRange i as) := by unfold appendRange; frm
theorem frm_appendIlist (i : Id) (bs : List UInt8) : Frm (Beside F) (appendIlist i bs) :=
  frm_appendNoAliasing _ _ fun _ => frm_putAt _ _ _
theorem frm_appendFill (i : Id) (n : Nat) (ch : UInt8) : Frm (Beside F) (appendFill i n ch) :=
  frm_appendNoAliasing _ _ fun _ => frm_fillAt _ _ _ _
theorem frm_assignInput (i : Id) (as : List Arg) : Frm (Beside F) (assignInput i as) :=
  frm_withString (fun _ hi => frm_ctorInput hi _) fun _ => frm_assignMove _ _
theorem frm_assignTmp (i : Id) (as : List Arg) :
    Frm (Beside F) (withString (fun t => ctorRange t as) fun tmp => assignMove i tmp) :=
  frm_withString (fun _ hi => frm_ctorRange hi _) fun _ => frm_assignMove _ _
macro_rules | `(tactic| frm_step) => `(tactic| with_reducible exact frm_assignTmp _ _)
theorem frm_assignRange (i : Id) (as : List Arg) : Frm (Beside F) (assignRange i as) := by unfold assignRange; frm
macro_rules | `(tactic| frm_step) => `(tactic| with_reducible exact frm_assignRange _ _)
theorem frm_assignIlist (i : Id) (bs : List UInt8) : Frm (Beside F) (assignIlist i bs) := frm_assignNoAliasing _ _ (frm_putAt _ _ _)
theorem frm_assignFill (i : Id) (n : Nat) (ch : UInt8) : Frm (Beside F) (assignFill i n ch) :=
  frm_assignNoAliasing _ _ (frm_fillAt _ _ _ _)
theorem frm_assignCopy (i j : Id) : Frm (Beside F) (assignCopy i j) := by unfold assignCopy; frm
theorem frm_insertInput (i : Id) (p : Ptr) (as : List Arg) : Frm (Beside F) (insertInput i p as) :=
  frm_withString (fun _ hi => frm_ctorInput hi _) fun _ =>
    .bind (frm_size _) fun _ => frm_insertNoAliasing _ _ _ fun _ => frm_copyFrom _ _ _
theorem frm_insertRange (i : Id) (p : Ptr) (as : List Arg) : Frm (Beside F) (insertRange i p as) := by unfold insertRange; frm
theorem frm_insertIlist (i : Id) (p : Ptr) (bs : List UInt8) : Frm (Beside F) (insertIlist i p bs) :=
  frm_insertNoAliasing _ _ _ fun _ => frm_putAt _ _ _
theorem frm_insertFill (i : Id) (p : Ptr) (n : Nat) (ch : UInt8) : Frm (Beside F) (insertFill i p n ch) :=
  frm_insertNoAliasing _ _ _ fun _ => frm_fillAt _ _ _ _
theorem frm_replaceInput (i : Id) (p q : Ptr) (as : List Arg) : Frm (Beside F) (replaceInput i p q as) :=
  frm_withString (fun _ hi => frm_ctorInput hi _) fun _ =>
    .bind (frm_size _) fun _ => frm_replaceNoAliasing _ _ _ _ fun _ => frm_copyFrom _ _ _
theorem frm_replaceRange (i : Id) (p q : Ptr) (as : List Arg) : Frm (Beside F) (replaceRange i p q as) := by
  unfold replaceRange; frm
theorem frm_replaceIlist (i : Id) (p q : Ptr) (bs : List UInt8) : Frm (Beside F) (replaceIlist i p q bs) :=
  frm_replaceNoAliasing _ _ _ _ fun _ => frm_putAt _ _ _
theorem frm_replaceFill (i : Id) (p q : Ptr) (n : Nat) (ch : UInt8) : Frm (Beside F) (replaceFill i p q n ch) :=
  frm_replaceNoAliasing _ _ _ _ fun _ => frm_fillAt _ _ _ _
theorem frm_substr {r : Id} (hF : F.obj r = none) (i : Id) (k : Nat) : Frm (Beside F) (substr r i k) := by unfold substr; frm
theorem frm_substrN {r : Id} (hF : F.obj r = none) (i : Id) (k n : Nat) : Frm (Beside F) (substrN r i k n) := by unfold substrN; frm
theorem frm_substrMove {r : Id} (hF : F.obj r = none) (i : Id) (k : Nat) : Frm (Beside F) (substrMove r i k) := by
  unfold substrMove; frm
theorem frm_substrNMove {r : Id} (hF : F.obj r = none) (i : Id) (k n : Nat) : Frm (Beside F) (substrNMove r i k n) := by
  unfold substrNMove; frm
theorem frm_literal {i : Id} (hF : F.obj i = none) (lit : List UInt8) (n : Nat) : Frm (Beside F) (literal i lit n) := by
  unfold literal; frm

theorem frm_resolve (x : Src) : Frm (Beside F) x.resolve := by cases x <;> (unfold Src.resolve; frm)
theorem frm_resolveAll (l : List Src) : Frm (Beside F) (Src.resolveAll l) := by
  induction l with
  | nil => unfold Src.resolveAll; frm
  | cons x l ih =>
    unfold Src.resolveAll
    exact .bind (frm_resolve x) fun _ => .bind ih fun _ => .pure _
theorem frm_pos (i k : Nat) : Frm (Beside F) (pos i k) := by unfold pos; frm
theorem frm_offset (i : Nat) (p : Ptr) : Frm (Beside F) (offset i p) := by unfold offset; frm
theorem frm_noRet {m : SM Unit} (h : Frm (Beside F) m) : Frm (Beside F) (noRet m) := by unfold noRet; frm

/-! ### the calls -/

/-- the string that an iterator refers into -/
def Src.Names : Src → Nat → Prop
  | .elem j _, i => i = j
  | _, _ => False

/-- the strings that the client names in the call: those it is about, those copied from, and those that iterators refer into -/
def Op.Names (op : Op) (i : Nat) : Prop := op.Targets i ∨ (∃ x, x ∈ op.sources ∧ x.Names i) ∨ match op with
  | .ctorCopy _ j | .assignCopy _ j | .substr _ j _ | .substrN _ j _ _ => i = j
  | _ => False

theorem frm_run (op : Op) (hF : ∀ i, op.Targets i → F.obj (.var i) = none) : Frm (Beside F) op.run := by
  cases op with
  | ctorDefault i => exact frm_noRet (frm_storage (hF i rfl))
  | ctorInput i l => exact .bind (frm_resolveAll l) fun _ => frm_noRet (frm_ctorInput (hF i rfl) _)
  | ctorRange i l => exact .bind (frm_resolveAll l) fun _ => frm_noRet (frm_ctorRange (hF i rfl) _)
  | ctorFill i n ch => exact frm_noRet (frm_ctorFill (hF i rfl) _ _)
  | ctorCopy i j => exact frm_noRet (frm_ctorCopy (hF i rfl) _)
  | ctorMove i j => exact frm_noRet (frm_ctorMove (hF i (.inl rfl)) _)
  | concat i l r =>
    exact .bind (frm_resolveAll l) fun _ => .bind (frm_resolveAll r) fun _ => frm_noRet (frm_concat (hF i rfl) _ _)
  | literal i lit => exact frm_noRet (frm_literal (hF i rfl) _ _)
  | substr i j k => exact frm_noRet (frm_substr (hF i rfl) _ _)
  | substrN i j k n => exact frm_noRet (frm_substrN (hF i rfl) _ _ _)
  | substrMove i j k => exact frm_noRet (frm_substrMove (hF i (.inl rfl)) _ _)
  | substrNMove i j k n => exact frm_noRet (frm_substrNMove (hF i (.inl rfl)) _ _ _)
  | dtor i => exact frm_noRet (frm_dtor _)
  | assignCopy i j => exact frm_noRet (frm_assignCopy _ _)
  | assignMove i j => exact frm_noRet (frm_assignMove _ _)
  | assignInput i l => exact .bind (frm_resolveAll l) fun _ => frm_noRet (frm_assignInput _ _)
  | assignRange i l => exact .bind (frm_resolveAll l) fun _ => frm_noRet (frm_assignRange _ _)
  | assignIlist i bs => exact frm_noRet (frm_assignIlist _ _)
  | assignFill i n ch => exact frm_noRet (frm_assignFill _ _ _)
  | appendInput i l => exact .bind (frm_resolveAll l) fun _ => frm_noRet (frm_appendInput _ _)
  | appendRange i l => exact .bind (frm_resolveAll l) fun _ => frm_noRet (frm_appendRange _ _)
  | appendIlist i bs => exact frm_noRet (frm_appendIlist _ _)
  | appendFill i n ch => exact frm_noRet (frm_appendFill _ _ _)
  | insertInput i p l =>
    exact .bind (frm_resolveAll l) fun _ => .bind (frm_pos _ _) fun _ => .bind (frm_insertInput _ _ _) fun _ => frm_offset _ _
  | insertRange i p l =>
    exact .bind (frm_resolveAll l) fun _ => .bind (frm_pos _ _) fun _ => .bind (frm_insertRange _ _ _) fun _ => frm_offset _ _
  | insertIlist i p bs => exact .bind (frm_pos _ _) fun _ => .bind (frm_insertIlist _ _ _) fun _ => frm_offset _ _
  | insertFill i p n ch => exact .bind (frm_pos _ _) fun _ => .bind (frm_insertFill _ _ _ _) fun _ => frm_offset _ _
  | replaceInput i f l src =>
    exact .bind (frm_resolveAll src) fun _ => .bind (frm_pos _ _) fun _ => .bind (frm_pos _ _) fun _ =>
      frm_noRet (frm_replaceInput _ _ _ _)
  | replaceRange i f l src =>
    exact .bind (frm_resolveAll src) fun _ => .bind (frm_pos _ _) fun _ => .bind (frm_pos _ _) fun _ =>
      frm_noRet (frm_replaceRange _ _ _ _)
  | replaceIlist i f l bs => exact .bind (frm_pos _ _) fun _ => .bind (frm_pos _ _) fun _ => frm_noRet (frm_replaceIlist _ _ _ _)
  | replaceFill i f l n ch => exact .bind (frm_pos _ _) fun _ => .bind (frm_pos _ _) fun _ => frm_noRet (frm_replaceFill _ _ _ _ _)
  | swap i j => exact frm_noRet (frm_swap _ _)
  | pushBack i ch => exact .bind (frm_pushBack _ _) fun _ => frm_offset _ _
  | popBack i => exact frm_noRet (frm_popBack _)
  | clear i => exact frm_noRet (frm_clear _)
  | reserve i n => exact frm_noRet (frm_reserve _ _)
  | shrinkToFit i => exact frm_noRet (frm_shrinkToFit _)
  | resize i n ch => exact frm_noRet (frm_resize _ _ _)
  | erase i f l =>
    exact .bind (frm_pos _ _) fun _ => .bind (frm_pos _ _) fun _ => .bind (frm_erase _ _ _) fun _ => frm_offset _ _
  | eraseOne i p => exact .bind (frm_pos _ _) fun _ => .bind (frm_erase _ _ _) fun _ => frm_offset _ _
  | write i k ch => exact .bind (frm_index _ _) fun _ => frm_noRet (frm_writeAt _ _)

/-! ### the list semantics of a call is about the strings it names -/

theorem Src.AreAll.only {V V0 : Vars} {l : List Src} {bs : List UInt8} (h : Src.AreAll V l bs)
    (h0 : ∀ i, (∃ x, x ∈ l ∧ x.Names i) → V0 i = V i) : Src.AreAll V0 l bs := by
  induction h with
  | nil => exact .nil
  | cons h _ ih =>
    refine .cons ?_ (ih fun i ⟨x, hx, hi⟩ => h0 i ⟨x, .tail _ hx, hi⟩)
    cases h with
    | val => exact .val _
    | thr => exact .thr _
    | elem h1 h2 => exact .elem ((h0 _ ⟨_, .head _, rfl⟩).trans h1) h2

theorem upd_agree {V V0 : Vars} {S : Nat → Prop} (h : ∀ i, S i → V0 i = V i) (j : Nat) (o : Option (List UInt8)) :
    ∀ i, S i → upd V0 j o i = upd V j o i := by
  intro i hi
  simp only [upd]
  split
  · rfl
  · exact h i hi

theorem Spec.only {big big0 : Nat → Prop} {op : Op} {V V' V0 : Vars} {r : Option Nat} (hs : Spec big op V V' r) {S : Nat → Prop}
    (hS : ∀ i, op.Names i → S i) (h0 : ∀ i, S i → V0 i = V i) (hb : ∀ i, S i → (big0 i ↔ big i)) :
    ∃ V0', Spec big0 op V0 V0' r ∧ ∀ i, S i → V0' i = V' i := by
  have tg : ∀ {i o}, op.Targets i → V i = o → V0 i = o := fun hi h => (h0 _ (hS _ (.inl hi))).trans h
  have bg : ∀ {i}, op.Targets i → (big0 i ↔ big i) := fun hi => hb _ (hS _ (.inl hi))
  have all : ∀ {l bs}, (∀ x, x ∈ l → x ∈ op.sources) → Src.AreAll V l bs → Src.AreAll V0 l bs := fun hl h =>
    h.only fun i ⟨x, hx, hi⟩ => h0 i (hS i (.inr (.inl ⟨x, hl x hx, hi⟩)))
  cases hs with
  | ctorDefault h => exact ⟨_, .ctorDefault (tg rfl h), upd_agree h0 _ _⟩
  | ctorInput h hx => exact ⟨_, .ctorInput (tg rfl h) (all (fun _ h => h) hx), upd_agree h0 _ _⟩
  | ctorRange h hx hr => exact ⟨_, .ctorRange (tg rfl h) (all (fun _ h => h) hx) hr, upd_agree h0 _ _⟩
  | ctorFill h hr => exact ⟨_, .ctorFill (tg rfl h) hr, upd_agree h0 _ _⟩
  | ctorCopy h hj => exact ⟨_, .ctorCopy (tg rfl h) ((h0 _ (hS _ (.inr (.inr rfl)))).trans hj), upd_agree h0 _ _⟩
  | ctorMoveBig h hj hg =>
    exact ⟨_, .ctorMoveBig (tg (.inl rfl) h) (tg (.inr rfl) hj) ((bg (.inr rfl)).2 hg), upd_agree (upd_agree h0 _ _) _ _⟩
  | ctorMoveSmall h hj hg =>
    exact ⟨_, .ctorMoveSmall (tg (.inl rfl) h) (tg (.inr rfl) hj) (fun hc => hg ((bg (.inr rfl)).1 hc)), upd_agree h0 _ _⟩
  | concat h hl hr hn =>
    exact ⟨_, .concat (tg rfl h) (all (fun _ h => List.mem_append_left _ h) hl) (all (fun _ h => List.mem_append_right _ h) hr) hn,
      upd_agree h0 _ _⟩
  | literal h hr => exact ⟨_, .literal (tg rfl h) hr, upd_agree h0 _ _⟩
  | substr h hj => exact ⟨_, .substr (tg rfl h) ((h0 _ (hS _ (.inr (.inr rfl)))).trans hj), upd_agree h0 _ _⟩
  | substrN h hj => exact ⟨_, .substrN (tg rfl h) ((h0 _ (hS _ (.inr (.inr rfl)))).trans hj), upd_agree h0 _ _⟩
  | substrMoveBig h hj hg =>
    exact ⟨_, .substrMoveBig (tg (.inl rfl) h) (tg (.inr rfl) hj) ((bg (.inr rfl)).2 hg), upd_agree (upd_agree h0 _ _) _ _⟩
  | substrMoveSmall h hj hg =>
    exact ⟨_, .substrMoveSmall (tg (.inl rfl) h) (tg (.inr rfl) hj) (fun hc => hg ((bg (.inr rfl)).1 hc)),
      upd_agree (upd_agree h0 _ _) _ _⟩
  | substrNMoveBig h hj hg =>
    exact ⟨_, .substrNMoveBig (tg (.inl rfl) h) (tg (.inr rfl) hj) ((bg (.inr rfl)).2 hg), upd_agree (upd_agree h0 _ _) _ _⟩
  | substrNMoveSmall h hj hg =>
    exact ⟨_, .substrNMoveSmall (tg (.inl rfl) h) (tg (.inr rfl) hj) (fun hc => hg ((bg (.inr rfl)).1 hc)),
      upd_agree (upd_agree h0 _ _) _ _⟩
  | dtor h => exact ⟨_, .dtor (tg rfl h), upd_agree h0 _ _⟩
  | assignCopy h hj => exact ⟨_, .assignCopy (tg rfl h) ((h0 _ (hS _ (.inr (.inr rfl)))).trans hj), upd_agree h0 _ _⟩
  | assignMoveBig h hj hij hg =>
    exact ⟨_, .assignMoveBig (tg (.inl rfl) h) (tg (.inr rfl) hj) hij ((bg (.inr rfl)).2 hg), upd_agree (upd_agree h0 _ _) _ _⟩
  | assignMoveSmall h hj hij hg =>
    exact ⟨_, .assignMoveSmall (tg (.inl rfl) h) (tg (.inr rfl) hj) hij (fun hc => hg ((bg (.inr rfl)).1 hc)), upd_agree h0 _ _⟩
  | assignMoveSelf h => exact ⟨_, .assignMoveSelf (tg (.inl rfl) h), h0⟩
  | assignInput h hx => exact ⟨_, .assignInput (tg rfl h) (all (fun _ h => h) hx), upd_agree h0 _ _⟩
  | assignRange h hx hr => exact ⟨_, .assignRange (tg rfl h) (all (fun _ h => h) hx) hr, upd_agree h0 _ _⟩
  | assignIlist h => exact ⟨_, .assignIlist (tg rfl h), upd_agree h0 _ _⟩
  | assignFill h => exact ⟨_, .assignFill (tg rfl h), upd_agree h0 _ _⟩
  | appendInput h hx hr => exact ⟨_, .appendInput (tg rfl h) (all (fun _ h => h) hx) hr, upd_agree h0 _ _⟩
  | appendRange h hx hr => exact ⟨_, .appendRange (tg rfl h) (all (fun _ h => h) hx) hr, upd_agree h0 _ _⟩
  | appendIlist h hr => exact ⟨_, .appendIlist (tg rfl h) hr, upd_agree h0 _ _⟩
  | appendFill h hr => exact ⟨_, .appendFill (tg rfl h) hr, upd_agree h0 _ _⟩
  | insertInput h hx hr => exact ⟨_, .insertInput (tg rfl h) (all (fun _ h => h) hx) hr, upd_agree h0 _ _⟩
  | insertRange h hx hr => exact ⟨_, .insertRange (tg rfl h) (all (fun _ h => h) hx) hr, upd_agree h0 _ _⟩
  | insertIlist h hr => exact ⟨_, .insertIlist (tg rfl h) hr, upd_agree h0 _ _⟩
  | insertFill h hr => exact ⟨_, .insertFill (tg rfl h) hr, upd_agree h0 _ _⟩
  | replaceInput h hx hr => exact ⟨_, .replaceInput (tg rfl h) (all (fun _ h => h) hx) hr, upd_agree h0 _ _⟩
  | replaceRange h hx hr => exact ⟨_, .replaceRange (tg rfl h) (all (fun _ h => h) hx) hr, upd_agree h0 _ _⟩
  | replaceIlist h hr => exact ⟨_, .replaceIlist (tg rfl h) hr, upd_agree h0 _ _⟩
  | replaceFill h hr => exact ⟨_, .replaceFill (tg rfl h) hr, upd_agree h0 _ _⟩
  | swap h hj => exact ⟨_, .swap (tg (.inl rfl) h) (tg (.inr rfl) hj), upd_agree (upd_agree h0 _ _) _ _⟩
  | pushBack h => exact ⟨_, .pushBack (tg rfl h), upd_agree h0 _ _⟩
  | popBack h => exact ⟨_, .popBack (tg rfl h), upd_agree h0 _ _⟩
  | clear h => exact ⟨_, .clear (tg rfl h), upd_agree h0 _ _⟩
  | reserve h => exact ⟨_, .reserve (tg rfl h), h0⟩
  | shrinkToFit h => exact ⟨_, .shrinkToFit (tg rfl h), h0⟩
  | resizeShrink h => exact ⟨_, .resizeShrink (tg rfl h), upd_agree h0 _ _⟩
  | resizeGrow h => exact ⟨_, .resizeGrow (tg rfl h), upd_agree h0 _ _⟩
  | erase h => exact ⟨_, .erase (tg rfl h), upd_agree h0 _ _⟩
  | eraseOne h => exact ⟨_, .eraseOne (tg rfl h), upd_agree h0 _ _⟩
  | write h hk => exact ⟨_, .write (tg rfl h) hk, upd_agree h0 _ _⟩

/-! ### erasing the other strings from memory -/

attribute [local instance] Classical.propDecidable

/-- region `b` is the buffer of one of the strings in `S` -/
def Owns (S : Nat → Prop) (s : St) (b : Base) : Prop := ∃ i o, S i ∧ s.obj (.var i) = some o ∧ o.base (.var i) = b

/-- the state in which, of all strings and buffers, only the strings in `S` and their buffers exist -/
noncomputable def only (S : Nat → Prop) (s : St) : St :=
  { s with
    obj := fun
      | .var i => if S i then s.obj (.var i) else none
      | .tmp _ => none
    mem := fun b => if Owns S s b then s.mem b else none }

/-- what was erased -/
noncomputable def rest (S : Nat → Prop) (s : St) : Part where
  obj := fun
    | .var i => if S i then none else s.obj (.var i)
    | .tmp _ => none
  mem := fun b => if Owns S s b then none else s.mem b

variable {s s' : St} {S : Nat → Prop}

theorem only_obj {i : Id} {o : Obj} (h : (only S s).obj i = some o) : ∃ n, i = .var n ∧ S n ∧ s.obj (.var n) = some o := by
  cases i with
  | tmp => cases h
  | var n =>
    have h : (if S n then s.obj (.var n) else none) = some o := h
    split at h
    · exact ⟨n, rfl, ‹_›, h⟩
    · cases h

theorem only_mem {b : Base} {l : List (Option UInt8)} (h : (only S s).mem b = some l) : Owns S s b ∧ s.mem b = some l := by
  have h : (if Owns S s b then s.mem b else none) = some l := h
  split at h
  · exact ⟨‹_›, h⟩
  · cases h

theorem only_var {n : Nat} (h : S n) : (only S s).obj (.var n) = s.obj (.var n) := if_pos h

theorem rest_var {n : Nat} (h : S n) : (rest S s).obj (.var n) = none := if_pos h

theorem rest_other {n : Nat} (h : ¬ S n) : (rest S s).obj (.var n) = s.obj (.var n) := if_neg h

theorem only_held {b : Base} (h : Owns S s b) : (only S s).mem b = s.mem b := if_pos h

theorem beside_only (hinv : Inv s) : Beside (rest S s) (only S s) s where
  obj := by
    intro i
    cases i with
    | tmp k => exact .inr ⟨rfl, abs_none.1 (hinv.tmp k)⟩
    | var n =>
      show (∃ o, (if S n then s.obj (.var n) else none) = some o ∧ _ ∧ (if S n then none else s.obj (.var n)) = none) ∨
        ((if S n then s.obj (.var n) else none) = none ∧ _ = (if S n then none else s.obj (.var n)))
      by_cases h : S n
      · simp only [if_pos h]
        cases ho : s.obj (.var n) with
        | none => exact .inr ⟨rfl, rfl⟩
        | some o => exact .inl ⟨o, rfl, rfl, trivial⟩
      · simp only [if_neg h]
        exact .inr ⟨trivial, trivial⟩
  mem := by
    intro b
    show (∃ l, (if Owns S s b then s.mem b else none) = some l ∧ _ ∧ (if Owns S s b then none else s.mem b) = none) ∨
      ((if Owns S s b then s.mem b else none) = none ∧ _ = (if Owns S s b then none else s.mem b))
    by_cases h : Owns S s b
    · simp only [if_pos h]
      cases ho : s.mem b with
      | none => exact .inr ⟨rfl, rfl⟩
      | some o => exact .inl ⟨o, rfl, rfl, trivial⟩
    · simp only [if_neg h]
      exact .inr ⟨trivial, trivial⟩
  sso := by
    intro i hi
    show (if Owns S s (.sso i) then none else s.mem (.sso i)) = none
    split
    · rfl
    next hn =>
      cases hm : s.mem (.sso i) with
      | none => rfl
      | some l =>
        obtain ⟨j, o, h1, h2⟩ := hinv.wf.owned _ _ hm
        have hj : j = i := by
          unfold Obj.base at h2
          split at h2
          · injection h2
          · cases h2
        subst hj
        cases j with
        | tmp k => rw [abs_none.1 (hinv.tmp k)] at h1; cases h1
        | var n =>
          have hi : (if S n then none else s.obj (.var n)) = none := hi
          split at hi
          · exact absurd ⟨n, o, ‹_›, h1, h2⟩ hn
          · rw [h1] at hi; cases hi
  freshB := by
    intro b hb
    show (if Owns S s (.heap b) then none else s.mem (.heap b)) = none
    split
    · rfl
    · exact hinv.wf.freshB b hb
  freshT := fun _ _ => rfl
  nblk := rfl
  ntmp := rfl
  orc := rfl
  tick := rfl
  moves := rfl

theorem abs_only {n : Nat} (hn : S n) : abs (only S s) (.var n) = abs s (.var n) := by
  unfold abs
  rw [only_var hn]
  cases h : s.obj (.var n) with
  | none => rfl
  | some o =>
    show some _ = some _
    dsimp only
    rw [only_held ⟨n, o, hn, h, rfl⟩]

theorem wf_only (hinv : Inv s) : WF (only S s) where
  good := by
    intro i o h
    obtain ⟨n, rfl, hn, ho⟩ := only_obj h
    obtain ⟨h1, l, h2, h3⟩ := hinv.wf.good _ _ ho
    exact ⟨h1, l, (only_held ⟨n, o, hn, ho, rfl⟩).trans h2, h3⟩
  inj := by
    intro i j o o' h h' hb
    obtain ⟨n, rfl, hn, ho⟩ := only_obj h
    obtain ⟨m, rfl, hm, ho'⟩ := only_obj h'
    exact hinv.wf.inj _ _ _ _ ho ho' hb
  owned := by
    intro b l h
    obtain ⟨⟨n, o, hn, ho, hb⟩, _⟩ := only_mem h
    exact ⟨.var n, o, (only_var hn).trans ho, hb⟩
  freshB := by
    intro b hb
    show (if Owns S s (.heap b) then s.mem (.heap b) else none) = none
    split
    · exact hinv.wf.freshB b hb
    · rfl
  freshT := fun _ _ => rfl

theorem inv_only (hinv : Inv s) : Inv (only S s) where
  wf := wf_only hinv
  tmp := fun _ => rfl
  holds := by
    intro i v h
    cases ho : (only S s).obj (.var i) with
    | none => rw [abs_none.2 ho] at h; cases h
    | some o =>
      obtain ⟨n, h1, hn, _⟩ := only_obj ho
      cases h1
      rw [abs_only hn] at h
      exact hinv.holds _ _ h

theorem vars_only {n : Nat} (hn : S n) : vars (only S s) n = vars s n := by
  unfold vars varsOf
  rw [abs_only hn]

theorem big_only (hinv : Inv s) {n : Nat} (hn : S n) : Big (only S s) n ↔ Big s n := by
  cases h : abs s (.var n) with
  | some v => rw [big_iff hinv h, big_iff (inv_only (S := S) hinv) ((abs_only hn).trans h)]
  | none =>
    have h1 := abs_none.1 h
    have h2 := (only_var (s := s) hn).trans h1
    constructor
    · rintro ⟨c, hc, _⟩
      unfold capacity at hc
      rw [M.bind_ub (show getObj (.var n) (only S s) = .ub .deadObject by unfold getObj; rw [h2])] at hc
      cases hc
    · rintro ⟨c, hc, _⟩
      unfold capacity at hc
      rw [M.bind_ub (show getObj (.var n) s = .ub .deadObject by unfold getObj; rw [h1])] at hc
      cases hc

/-- the memory after the call: `s0` is what became of the named strings; everything else is as it was in `s` -/
def After (S : Nat → Prop) (s s0 s' : St) : Prop := Beside (rest S s) s0 s'

/-- C93: erase all strings that the call does not name, together with their buffers, from memory.  The call does the same as
before: it returns the same result, throws the same exception or ends the program, and it leaves the same behind; if nothing had
been erased, that would still be there, unchanged. -/
theorem C93_string {V V' : Vars} {op : Op} {r : Option Nat} (h : Reach s V) (hs : Spec (Big s) op V V' r)
    (hS : ∀ i, op.Names i → S i) :
    match op.run (only S s) with
    | .ok r' s0 => ∃ s', op.run s = .ok r' s' ∧ After S s s0 s'
    | .exc e s0 => ∃ s', op.run s = .exc e s' ∧ After S s s0 s'
    | .ub _ => False
    | .term => op.run s = .term := by
  obtain ⟨hinv, rfl⟩ := h.inv
  obtain ⟨V0', hs0, -⟩ := hs.only hS (V0 := vars (only S s)) (big0 := Big (only S s)) (fun i hi => vars_only hi)
    (fun i hi => big_only hinv hi)
  have hst := step (inv_only (S := S) hinv) hs0
  have hf := frm_run (F := rest S s) op (fun i hi => if_pos (hS i (.inl hi))) _ _ (beside_only hinv)
  cases hr : op.run (only S s) with
  | ok r' s0 => rw [hr] at hf; exact hf
  | exc e s0 => rw [hr] at hf; exact hf
  | ub f => rw [hr] at hst; exact hst
  | term => rw [hr] at hf; exact hf

/-- C93: reading works in the same way: `data()`, `size()`, `capacity()`, all bytes up to and including the terminator, the
comparisons and the hash of strings do not depend on any other string. -/
theorem C93_string_reads {V : Vars} (h : Reach s V) {i : Nat} (hi : S i) :
    (∀ d c xs t, Shows (only S s) i d c xs t ↔ Shows s i d c xs t) ∧
    (V i ≠ none → ∀ f, ∃ n, hash f (.var i) (only S s) = .ok n (only S s) ∧ hash f (.var i) s = .ok n s) ∧
    ∀ j, S j → V i ≠ none → V j ≠ none → ∀ c, ∃ a,
      cmpStrStr c (.var i) (.var j) (only S s) = .ok a (only S s) ∧ cmpStrStr c (.var i) (.var j) s = .ok a s := by
  obtain ⟨hinv, rfl⟩ := h.inv
  have hinv0 := inv_only (S := S) hinv
  refine ⟨fun d c xs t => ⟨fun hs => ?_, fun hs => ?_⟩, fun h0 f => ?_, fun j hj hi0 hj0 c => ?_⟩
  · obtain ⟨v, hv, rfl, rfl, hh⟩ := hinv0.of_shows hs
    exact hinv.shows ((abs_only hi).symm.trans hv) hh
  · obtain ⟨v, hv, rfl, rfl, hh⟩ := hinv.of_shows hs
    exact hinv0.shows ((abs_only hi).trans hv) hh
  · cases hx : vars s i with
    | none => exact absurd hx h0
    | some xs =>
      obtain ⟨v, t, hv, hh⟩ := vars_some hinv hx
      exact ⟨_, hash_ok f hinv0.wf ((abs_only hi).trans hv) hh, hash_ok f hinv.wf hv hh⟩
  · cases hx : vars s i with
    | none => exact absurd hx hi0
    | some xs =>
      cases hy : vars s j with
      | none => exact absurd hy hj0
      | some ys =>
        obtain ⟨v, t, hv, hh⟩ := vars_some hinv hx
        obtain ⟨w, u, hw, hk⟩ := vars_some hinv hy
        exact ⟨_, cmpStrStr_ok c hinv0.wf ((abs_only hi).trans hv) ((abs_only hj).trans hw) hh hk, cmpStrStr_ok c hinv.wf hv hw hh hk⟩

/-- C93: of the strings a call does name, those it only reads (copy sources, strings that iterators refer into) keep all of their
memory: the object and its whole buffer. -/
theorem C93_string_sources {V V' : Vars} {op : Op} {r : Option Nat} (h : Reach s V) (hs : Spec (Big s) op V V' r)
    (hr : (∃ r', op.run s = .ok r' s') ∨ ∃ e, op.run s = .exc e s') {j : Nat} (hj : ¬ op.Targets j) :
    s'.obj (.var j) = s.obj (.var j) ∧ ∀ o, s.obj (.var j) = some o → s'.mem (o.base (.var j)) = s.mem (o.base (.var j)) := by
  obtain ⟨hinv, rfl⟩ := h.inv
  have hst := step hinv hs
  have key : Inv s' ∧ abs s' (.var j) = abs s (.var j) := by
    rcases hr with ⟨r', hr⟩ | ⟨e, hr⟩ <;> rw [hr] at hst
    · exact ⟨hst.1, hst.2.2.1 j hj⟩
    · exact ⟨hst.1, hst.2.2.1 j hj⟩
  obtain ⟨hinv', ha⟩ := key
  cases hv : abs s (.var j) with
  | none =>
    rw [hv] at ha
    rw [abs_none.1 ha, abs_none.1 hv]
    exact ⟨rfl, fun o ho => by cases ho⟩
  | some v =>
    rw [hv] at ha
    rcases hinv.wf.cases hv with ⟨h1, h2, _, h3, _⟩ | ⟨b, h1, h2, h3, _⟩ <;>
      rcases hinv'.wf.cases ha with ⟨h1', h2', _, h3', _⟩ | ⟨b', h1', h2', h3', _⟩
    · refine ⟨h1'.trans h1.symm, fun o ho => ?_⟩
      rw [h1] at ho
      cases ho
      exact h3'.trans h3.symm
    · rw [h2] at h2'; cases h2'
    · rw [h2] at h2'; cases h2'
    · rw [h2] at h2'
      cases h2'
      refine ⟨h1'.trans h1.symm, fun o ho => ?_⟩
      rw [h1] at ho
      cases ho
      exact h3'.trans h3.symm

-- strings of 3 and 30 bytes: with the long one erased from memory, `push_back('x')` on the short one does what it always does
example : ∃ s : St, Reach s demoV ∧ (only (· = 0) s).obj (.var 1) = none ∧ s.obj (.var 1) ≠ none ∧
    ∃ s0 s', (Op.pushBack 0 120).run (only (· = 0) s) = .ok (some 3) s0 ∧ (Op.pushBack 0 120).run s = .ok (some 3) s' ∧
      s'.obj (.var 0) = s0.obj (.var 0) ∧ s'.obj (.var 1) = s.obj (.var 1) := by
  obtain ⟨s, h, ho⟩ := demo
  have h := h.reach
  have hs : Spec (Big s) (.pushBack 0 120) demoV (upd demoV 0 (some (abc ++ [120]))) (some 3) := .pushBack (xs := abc) rfl
  obtain ⟨s', hr, h', _⟩ := h.next hs ho (demo_short (short_upd demoV_len (by intro xs h; cases h; decide)) (by intro i n h; cases h))
  have hc := C93_string (S := (· = 0)) h hs (fun i hi => by
    rcases hi with hi | ⟨x, hx, _⟩ | hi
    · exact hi
    · cases hx
    · exact hi.elim)
  have h1 : s.obj (.var 1) ≠ none := by
    intro h1
    obtain ⟨_, hv⟩ := h.inv
    have : vars s 1 = none := by simp [vars, varsOf, abs, h1]
    rw [hv] at this
    cases this
  refine ⟨s, h, if_neg (by decide), h1, ?_⟩
  cases hr0 : (Op.pushBack 0 120).run (only (· = 0) s) with
  | ok r' s0 =>
    rw [hr0] at hc
    obtain ⟨s'', h2, h3⟩ := hc
    rw [hr] at h2
    cases h2
    refine ⟨s0, s', rfl, hr, ?_, ?_⟩
    · rcases h3.obj (.var 0) with ⟨o, h4, h5, _⟩ | ⟨h4, h5⟩
      · rw [h4, h5]
      · rw [h4, h5, rest_var (S := (· = 0)) rfl]
    · rcases h3.obj (.var 1) with ⟨o, h4, h5, h6⟩ | ⟨_, h5⟩
      · rw [rest_other (by decide)] at h6; exact absurd h6 h1
      · rw [h5, rest_other (by decide)]
  | exc e s0 => rw [hr0] at hc; obtain ⟨_, h2, _⟩ := hc; rw [hr] at h2; cases h2
  | ub f => rw [hr0] at hc; exact hc.elim
  | term => rw [hr0] at hc; rw [hr] at hc; cases hc

end Ptl.Str

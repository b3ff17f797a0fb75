import Verif.Frame
import Verif.Vector.Props.History
import Verif.Vector.Access
import Verif.Vector.Demo

/-!
# C93: a call touches nothing but the vectors it is given

The heap may hold any number of other vectors with their buffers.  A call behaves in exactly the same way if all of them are
erased from memory before it starts – so it neither reads, writes, moves nor frees any of that.
-/

namespace Ptl.Vector

variable {α ω : Type}

/-- a part of memory: some objects and blocks -/
structure Part (α ω : Type) where
  obj : Id → Option ω
  blk : Nat → Option (List (Option α))

/-- the memory of `t` consists of that of `s` and, side by side with it, of `F` -/
structure Beside (F : Part α ω) (s t : St α ω) : Prop where
  obj : ∀ i, (∃ o, s.obj i = some o ∧ t.obj i = some o ∧ F.obj i = none) ∨ (s.obj i = none ∧ t.obj i = F.obj i)
  blk : ∀ b, (∃ l, s.blk b = some l ∧ t.blk b = some l ∧ F.blk b = none) ∨ (s.blk b = none ∧ t.blk b = F.blk b)
  /-- new blocks and new temporaries are not in `F` -/
  freshB : ∀ b, s.nblk ≤ b → F.blk b = none
  freshT : ∀ k, s.ntmp ≤ k → F.obj (.tmp k) = none
  nblk : t.nblk = s.nblk
  ntmp : t.ntmp = s.ntmp
  orc : t.orc = s.orc
  tick : t.tick = s.tick
  moves : t.moves = s.moves

variable {F : Part α ω}

theorem frm_fallible (e : Exc) : Frm (Beside F) (fallible e) := by
  intro s t h
  unfold fallible
  rw [h.orc, h.tick]
  split
  · exact ⟨_, rfl, { h with tick := by simp, orc := by simp }⟩
  · exact ⟨_, rfl, { h with tick := by simp, orc := by simp }⟩

theorem frm_countMove : Frm (Beside F) countMove := by
  intro s t h
  exact ⟨_, rfl, { h with moves := by simp [h.moves] }⟩

theorem frm_getObj (i : Id) : Frm (Beside F) (getObj i) := by
  intro s t h
  unfold getObj
  rcases h.obj i with ⟨o, h1, h2, _⟩ | ⟨h1, _⟩
  · rw [h1, h2]; exact ⟨_, rfl, h⟩
  · rw [h1]; trivial

theorem Beside.setObj {s t : St α ω} (h : Beside F s t) {i : Id} (hF : F.obj i = none) (o : Option ω) :
    Beside F { s with obj := upd s.obj i o } { t with obj := upd t.obj i o } := by
  refine { h with obj := fun j => ?_ }
  by_cases hj : j = i
  · subst hj
    cases o with
    | some o => exact .inl ⟨o, by simp, by simp, hF⟩
    | none => exact .inr ⟨by simp, by simp [hF]⟩
  · simp only [upd_ne _ _ hj]; exact h.obj j

theorem Beside.setBlk {s t : St α ω} (h : Beside F s t) {b : Nat} (hF : F.blk b = none) (l : Option (List (Option α))) :
    Beside F { s with blk := upd s.blk b l } { t with blk := upd t.blk b l } := by
  refine { h with blk := fun j => ?_ }
  by_cases hj : j = b
  · subst hj
    cases l with
    | some o => exact .inl ⟨o, by simp, by simp, hF⟩
    | none => exact .inr ⟨by simp, by simp [hF]⟩
  · simp only [upd_ne _ _ hj]; exact h.blk j

theorem frm_setObj (i : Id) (o : ω) : Frm (Beside F) (setObj i o) := by
  intro s t h
  unfold Ptl.setObj
  rcases h.obj i with ⟨o, h1, h2, h3⟩ | ⟨h1, _⟩
  · rw [h1, h2]; exact ⟨_, rfl, h.setObj h3 _⟩
  · rw [h1]; trivial

theorem frm_newObj {i : Id} (hF : F.obj i = none) (o : ω) : Frm (Beside F) (newObj i o) := by
  intro s t h
  unfold newObj
  rcases h.obj i with ⟨o, h1, h2, h3⟩ | ⟨h1, h2⟩
  · rw [h1]; trivial
  · rw [h1, h2, hF]; exact ⟨_, rfl, h.setObj hF _⟩

theorem frm_killObj (i : Id) : Frm (Beside F) (killObj i) := by
  intro s t h
  unfold killObj
  rcases h.obj i with ⟨o, h1, h2, h3⟩ | ⟨h1, _⟩
  · rw [h1, h2]; exact ⟨_, rfl, h.setObj h3 _⟩
  · rw [h1]; trivial

theorem frm_alloc (n : Nat) : Frm (Beside F) (alloc n) := by
  intro s t h
  unfold alloc
  rw [h.orc, h.tick, h.nblk]
  split
  · exact ⟨_, rfl, { h with tick := by simp, orc := by simp, nblk := by simp }⟩
  · have h2 := h.setBlk (h.freshB s.nblk (Nat.le_refl _)) (some (List.replicate n none))
    exact ⟨_, rfl, { h2 with
      freshB := fun b hb => h.freshB b (Nat.le_of_succ_le hb), nblk := by simp, tick := by simp, orc := by simp }⟩

theorem frm_slotAt (p : Ptr) : Frm (Beside F) (slotAt p) := by
  intro s t h
  unfold slotAt
  cases p.blk with
  | none => trivial
  | some b =>
    dsimp only
    rcases h.blk b with ⟨l, h1, h2, h3⟩ | ⟨h1, _⟩
    · rw [h1, h2]
      dsimp only
      cases l[p.off]? with
      | none => trivial
      | some x => exact ⟨_, rfl, h⟩
    · rw [h1]; trivial

theorem frm_setSlot (p : Ptr) (x : Option α) : Frm (Beside F) (setSlot p x) := by
  intro s t h
  unfold setSlot
  cases p.blk with
  | none => trivial
  | some b =>
    dsimp only
    rcases h.blk b with ⟨l, h1, h2, h3⟩ | ⟨h1, _⟩
    · rw [h1, h2]
      dsimp only
      split
      · exact ⟨_, rfl, h.setBlk h3 _⟩
      · trivial
    · rw [h1]; trivial

macro_rules | `(tactic| frm_step) => `(tactic| with_reducible exact frm_fallible _)
macro_rules | `(tactic| frm_step) => `(tactic| with_reducible exact frm_countMove)
macro_rules | `(tactic| frm_step) => `(tactic| with_reducible exact frm_getObj _)
macro_rules | `(tactic| frm_step) => `(tactic| with_reducible exact frm_setObj _ _)
macro_rules | `(tactic| frm_step) => `(tactic| with_reducible exact frm_newObj (by assumption) _)
macro_rules | `(tactic| frm_step) => `(tactic| with_reducible exact frm_killObj _)
macro_rules | `(tactic| frm_step) => `(tactic| with_reducible exact frm_alloc _)
macro_rules | `(tactic| frm_step) => `(tactic| with_reducible exact frm_slotAt _)
macro_rules | `(tactic| frm_step) => `(tactic| with_reducible exact frm_setSlot _ _)

variable {F : Part α Storage} {T : Elem α}

theorem frm_readAt (p : Ptr) : Frm (Beside F) (readAt p) := by
  refine .bind (frm_slotAt _) fun x => ?_
  cases x <;> frm

theorem frm_initAt (p : Ptr) (v : α) : Frm (Beside F) (initAt p v) := by
  refine .bind (frm_slotAt _) fun x => ?_
  cases x <;> frm

macro_rules | `(tactic| frm_step) => `(tactic| with_reducible exact frm_readAt _)
macro_rules | `(tactic| frm_step) => `(tactic| with_reducible exact frm_initAt _ _)

theorem frm_constructAt (p : Ptr) (a : Arg α) : Frm (Beside F) (constructAt T p a) := by
  cases a <;> (unfold constructAt; frm)

theorem frm_destroyAt (p : Ptr) : Frm (Beside F) (destroyAt p) := by
  refine .bind (frm_slotAt _) fun x => ?_
  cases x <;> frm

theorem frm_moveAssignAt (p q : Ptr) : Frm (Beside F) (moveAssignAt T p q) := by unfold moveAssignAt; frm

macro_rules | `(tactic| frm_step) => `(tactic| with_reducible exact frm_constructAt _ _)
macro_rules | `(tactic| frm_step) => `(tactic| with_reducible exact frm_destroyAt _)
macro_rules | `(tactic| frm_step) => `(tactic| with_reducible exact frm_moveAssignAt _ _)

theorem frm_destroyN (p : Ptr) (n : Nat) : Frm (Beside F) (destroyN p n) := by
  induction n generalizing p with
  | zero => unfold destroyN; frm
  | succ n ih => unfold destroyN; exact .bind (frm_destroyAt _) fun _ => ih _

macro_rules | `(tactic| frm_step) => `(tactic| with_reducible exact frm_destroyN _ _)

theorem frm_uninitLoop (first cur : Ptr) (as : List (Arg α)) : Frm (Beside F) (uninitLoop T first cur as) := by
  induction as generalizing cur with
  | nil => unfold uninitLoop; frm
  | cons a as ih =>
    unfold uninitLoop
    refine .bind (by frm) fun _ => ih _

macro_rules | `(tactic| frm_step) => `(tactic| with_reducible exact frm_uninitLoop _ _ _)

theorem frm_uninitializedMoveN (p : Ptr) (n : Nat) (q : Ptr) : Frm (Beside F) (uninitializedMoveN T p n q) := by
  induction n generalizing p q with
  | zero => unfold uninitializedMoveN; frm
  | succ n ih =>
    unfold uninitializedMoveN
    exact .bind (by frm) fun _ => .bind (by frm) fun _ => ih _ _

theorem frm_moveN (p : Ptr) (n : Nat) (q : Ptr) : Frm (Beside F) (moveN T p n q) := by
  induction n generalizing p q with
  | zero => unfold moveN; frm
  | succ n ih =>
    unfold moveN
    exact .bind (by frm) fun _ => ih _ _

theorem frm_distance (p q : Ptr) : Frm (Beside F) (distance p q) := by unfold distance; frm

theorem frm_rotate (f m l : Ptr) : Frm (Beside F) (rotate f m l) := by
  intro s t h
  unfold rotate
  split
  · split
    · exact ⟨_, rfl, h⟩
    · cases f.blk with
      | none => trivial
      | some b =>
        dsimp only
        rcases h.blk b with ⟨l, h1, h2, h3⟩ | ⟨h1, _⟩
        · rw [h1, h2]
          dsimp only
          split
          · trivial
          · split
            · exact ⟨_, rfl, h.setBlk h3 _⟩
            · trivial
        · rw [h1]; trivial
  · trivial

theorem frm_free (d : Nat) (p : Option Nat) : Frm (Beside F) (free d p) := by
  intro s t h
  cases p with
  | none => exact ⟨_, rfl, h⟩
  | some b =>
    unfold free
    dsimp only
    rcases h.blk b with ⟨l, h1, h2, h3⟩ | ⟨h1, _⟩
    · rw [h1, h2]
      dsimp only
      split
      · trivial
      · split
        · exact ⟨_, rfl, h.setBlk h3 _⟩
        · trivial
    · rw [h1]; trivial

macro_rules | `(tactic| frm_step) => `(tactic| with_reducible exact frm_uninitializedMoveN _ _ _)
macro_rules | `(tactic| frm_step) => `(tactic| with_reducible exact frm_moveN _ _ _)
macro_rules | `(tactic| frm_step) => `(tactic| with_reducible exact frm_distance _ _)
macro_rules | `(tactic| frm_step) => `(tactic| with_reducible exact frm_rotate _ _ _)
macro_rules | `(tactic| frm_step) => `(tactic| with_reducible exact frm_free _ _)

theorem frm_ctorCap {i : Id} (hF : F.obj i = none) (n : Nat) : Frm (Beside F) (Storage.ctorCap T i n) := by
  unfold Storage.ctorCap; frm

theorem frm_release (o : Storage) : Frm (Beside F) o.release := by
  unfold Storage.release
  cases o.dealloc <;> frm

macro_rules | `(tactic| frm_step) => `(tactic| with_reducible exact frm_ctorCap (by assumption) _)
macro_rules | `(tactic| frm_step) => `(tactic| with_reducible exact frm_release _)

theorem frm_dtor (i : Id) : Frm (Beside F) (Storage.dtor i) := by unfold Storage.dtor; frm

theorem frm_storageMove {i j : Id} (hF : F.obj i = none) : Frm (Beside F) (Storage.ctorMove i j) := by unfold Storage.ctorMove; frm

theorem frm_moveAssign (i j : Id) : Frm (Beside F) (Storage.moveAssign i j) := by unfold Storage.moveAssign; frm

theorem frm_data (i : Id) : Frm (Beside F) (data i) := by unfold data; frm
theorem frm_size (i : Id) : Frm (Beside F) (size i) := by unfold size; frm
theorem frm_capacity (i : Id) : Frm (Beside F) (capacity i) := by unfold capacity; frm
theorem frm_setSize (i : Id) (n : Nat) : Frm (Beside F) (setSize i n) := by unfold setSize; frm

macro_rules | `(tactic| frm_step) => `(tactic| with_reducible exact frm_dtor _)
macro_rules | `(tactic| frm_step) => `(tactic| with_reducible exact frm_storageMove (by assumption))
macro_rules | `(tactic| frm_step) => `(tactic| with_reducible exact frm_moveAssign _ _)
macro_rules | `(tactic| frm_step) => `(tactic| with_reducible exact frm_data _)
macro_rules | `(tactic| frm_step) => `(tactic| with_reducible exact frm_size _)
macro_rules | `(tactic| frm_step) => `(tactic| with_reducible exact frm_capacity _)
macro_rules | `(tactic| frm_step) => `(tactic| with_reducible exact frm_setSize _ _)

theorem frm_empty (i : Id) : Frm (Beside F) (empty i) := by unfold empty; frm
theorem frm_swap (i j : Id) : Frm (Beside F) (swap i j) := by unfold swap; frm

macro_rules | `(tactic| frm_step) => `(tactic| with_reducible exact frm_empty _)

/-- a temporary is not in `F` -/
theorem frm_tmp {β : Type} {m : Id → VM α β} (h : ∀ i, F.obj i = none → Frm (Beside F) (m i)) :
    Frm (Beside F) (fun s => m (.tmp s.ntmp) { s with ntmp := s.ntmp + 1 }) := by
  intro s t hst
  dsimp only
  rw [hst.ntmp]
  exact h _ (hst.freshT _ (Nat.le_refl _)) _ _
    { hst with freshT := fun k hk => hst.freshT k (Nat.le_of_succ_le hk), ntmp := by simp }

theorem frm_withStorage {β : Type} (n : Nat) {body : Id → VM α β} (h : ∀ i, Frm (Beside F) (body i)) :
    Frm (Beside F) (withStorage T n body) :=
  frm_tmp (m := fun t => do Storage.ctorCap T t n; M.withDtor (body t) (Storage.dtor t)) fun i hi => by
    have := h i
    frm

macro_rules | `(tactic| frm_step) => `(tactic| with_reducible refine frm_withStorage _ (fun _ => ?_))

theorem frm_assignImpl (i : Id) (n : Nat) {f : Ptr → VM α Unit} (h : ∀ p, Frm (Beside F) (f p)) :
    Frm (Beside F) (assignImpl T i n f) := by
  unfold assignImpl
  repeat' first | exact h _ | frm_step

theorem frm_insertImpl (i : Id) (p : Ptr) (n : Nat) {f : Ptr → VM α Unit} (h : ∀ p, Frm (Beside F) (f p)) :
    Frm (Beside F) (insertImpl T i p n f) := by
  unfold insertImpl
  repeat' first | exact h _ | frm_step

theorem frm_erase (i : Id) (p q : Ptr) : Frm (Beside F) (erase T i p q) := by unfold erase; frm

macro_rules | `(tactic| frm_step) => `(tactic| with_reducible exact frm_erase _ _ _)

theorem frm_resizeImpl (i : Id) (n : Nat) {f : Ptr → Nat → VM α Unit} (h : ∀ p n, Frm (Beside F) (f p n)) :
    Frm (Beside F) (resizeImpl T i n f) := by
  unfold resizeImpl
  repeat' first | exact h _ _ | frm_step

theorem frm_fill (p : Ptr) (n : Nat) (a : Arg α) : Frm (Beside F) (uninitializedFillN T p n a) := frm_uninitLoop _ _ _
theorem frm_vcons (p : Ptr) (n : Nat) : Frm (Beside F) (uninitializedValueConstructN T p n) := frm_uninitLoop _ _ _
theorem frm_copy (as : List (Arg α)) (p : Ptr) : Frm (Beside F) (uninitializedCopy T as p) := frm_uninitLoop _ _ _

theorem frm_resize (i : Id) (n : Nat) : Frm (Beside F) (resize T i n) := frm_resizeImpl _ _ fun _ _ => frm_vcons _ _
theorem frm_resizeFill (i : Id) (n : Nat) (a : Arg α) : Frm (Beside F) (resizeFill T i n a) :=
  frm_resizeImpl _ _ fun _ _ => frm_fill _ _ _
theorem frm_emplace (i : Id) (p : Ptr) (a : Arg α) : Frm (Beside F) (emplace T i p a) :=
  frm_insertImpl _ _ _ fun _ => frm_constructAt _ _
theorem frm_end (i : Id) : Frm (Beside F) (end_ i) := by unfold end_; frm

macro_rules | `(tactic| frm_step) => `(tactic| with_reducible exact frm_resize _ _)
macro_rules | `(tactic| frm_step) => `(tactic| with_reducible exact frm_resizeFill _ _ _)
macro_rules | `(tactic| frm_step) => `(tactic| with_reducible exact frm_emplace _ _ _)
macro_rules | `(tactic| frm_step) => `(tactic| with_reducible exact frm_end _)

theorem frm_pushBack (i : Id) (a : Arg α) : Frm (Beside F) (pushBack T i a) := by unfold pushBack; frm
theorem frm_popBack (i : Id) : Frm (Beside F) (popBack (α := α) i) := by unfold popBack; frm
theorem frm_reserve (i : Id) (n : Nat) : Frm (Beside F) (reserve T i n) := by unfold reserve; frm
theorem frm_shrinkToFit (i : Id) : Frm (Beside F) (shrinkToFit T i) := by unfold shrinkToFit; frm
theorem frm_clear (i : Id) : Frm (Beside F) (clear (α := α) i) := by unfold clear; frm
theorem frm_assignRange (i : Id) (as : List (Arg α)) : Frm (Beside F) (assignRange T i as) :=
  frm_assignImpl _ _ fun _ => frm_copy _ _
theorem frm_assignFill (i : Id) (n : Nat) (a : Arg α) : Frm (Beside F) (assignFill T i n a) :=
  frm_assignImpl _ _ fun _ => frm_fill _ _ _
theorem frm_insertRange (i : Id) (p : Ptr) (as : List (Arg α)) : Frm (Beside F) (insertRange T i p as) :=
  frm_insertImpl _ _ _ fun _ => frm_copy _ _
theorem frm_insertFill (i : Id) (p : Ptr) (n : Nat) (a : Arg α) : Frm (Beside F) (insertFill T i p n a) :=
  frm_insertImpl _ _ _ fun _ => frm_fill _ _ _

macro_rules | `(tactic| frm_step) => `(tactic| with_reducible exact frm_pushBack _ _)
macro_rules | `(tactic| frm_step) => `(tactic| with_reducible exact frm_assignRange _ _)
macro_rules | `(tactic| frm_step) => `(tactic| with_reducible exact frm_insertRange _ _ _)

theorem frm_construct {i : Id} (hF : F.obj i = none) {m : VM α Unit} (h : Frm (Beside F) m) : Frm (Beside F) (construct i m) := by
  unfold construct; frm

theorem frm_pushAll (i : Id) (vs : List α) : Frm (Beside F) (pushAll T i vs) := by
  induction vs with
  | nil => unfold pushAll; frm
  | cons v vs ih => unfold pushAll; frm

theorem frm_ctorInput {i : Id} (hF : F.obj i = none) (vs : List α) : Frm (Beside F) (ctorInput T i vs) :=
  frm_construct hF (frm_pushAll _ _)
theorem frm_ctorRange {i : Id} (hF : F.obj i = none) (as : List (Arg α)) : Frm (Beside F) (ctorRange T i as) :=
  frm_construct hF (frm_assignRange _ _)

macro_rules | `(tactic| frm_step) => `(tactic| with_reducible exact frm_ctorInput (by assumption) _)
macro_rules | `(tactic| frm_step) => `(tactic| with_reducible exact frm_ctorRange (by assumption) _)

theorem frm_ctorCopy {i : Id} (hF : F.obj i = none) (j : Id) : Frm (Beside F) (ctorCopy T i j) := by unfold ctorCopy; frm
theorem frm_ctorCount {i : Id} (hF : F.obj i = none) (n : Nat) : Frm (Beside F) (ctorCount T i n) :=
  frm_construct hF (frm_resize _ _)
theorem frm_ctorFill {i : Id} (hF : F.obj i = none) (n : Nat) (a : Arg α) : Frm (Beside F) (ctorFill T i n a) :=
  frm_construct hF (frm_resizeFill _ _ _)

theorem frm_withVector {β : Type} (vs : List α) {body : Id → VM α β} (h : ∀ i, Frm (Beside F) (body i)) :
    Frm (Beside F) (withVector T vs body) :=
  frm_tmp (m := fun t => do ctorInput T t vs; M.withDtor (body t) (Storage.dtor t)) fun i hi => by
    have := h i
    frm

theorem frm_assignCopy (i j : Id) : Frm (Beside F) (assignCopy T i j) := by unfold assignCopy; frm
theorem frm_assignInput (i : Id) (vs : List α) : Frm (Beside F) (assignInput T i vs) :=
  frm_withVector _ fun _ => frm_moveAssign _ _
theorem frm_insertInput (i : Id) (p : Ptr) (vs : List α) : Frm (Beside F) (insertInput T i p vs) :=
  frm_withVector _ fun _ => by frm
theorem frm_index (i : Id) (k : Nat) : Frm (Beside F) (index (α := α) i k) := by unfold index; frm
theorem frm_writeAt (p : Ptr) (v : α) : Frm (Beside F) (writeAt p v) := by unfold writeAt; frm
theorem frm_putAt (p : Ptr) (v : α) : Frm (Beside F) (putAt p v) := by unfold putAt; frm

macro_rules | `(tactic| frm_step) => `(tactic| with_reducible exact frm_index _ _)
macro_rules | `(tactic| frm_step) => `(tactic| with_reducible exact frm_writeAt _ _)

theorem frm_resolve (x : Src α) : Frm (Beside F) x.resolve := by cases x <;> (unfold Src.resolve; frm)
theorem frm_resolve1 (x : Src1 α) : Frm (Beside F) x.resolve := by
  cases x with
  | ref x => exact frm_resolve x
  | mv => unfold Src1.resolve; frm
theorem frm_resolveAll (l : List (Src α)) : Frm (Beside F) (Src.resolveAll l) := by
  induction l with
  | nil => unfold Src.resolveAll; frm
  | cons x l ih =>
    unfold Src.resolveAll
    exact .bind (frm_resolve x) fun _ => .bind ih fun _ => .pure _
theorem frm_rng (x : Rng α) : Frm (Beside F) x.resolve := by
  cases x with
  | refs l => exact frm_resolveAll l
  | mvs => unfold Rng.resolve; frm
theorem frm_pos (i k : Nat) : Frm (Beside F) (pos (α := α) i k) := by unfold pos; frm
theorem frm_offset (i : Nat) (p : Ptr) : Frm (Beside F) (offset (α := α) i p) := by unfold offset; frm
theorem frm_noRet {m : VM α Unit} (h : Frm (Beside F) m) : Frm (Beside F) (noRet m) := by unfold noRet; frm

/-! ### the calls -/

/-- the vectors that a value passed by reference is in -/
def Src.Names : Src α → Nat → Prop
  | .val _, _ => False
  | .elem j _, i => i = j

/-- the vectors that an argument is in -/
def Src1.Names : Src1 α → Nat → Prop
  | .ref x, i => x.Names i
  | .mv j _, i => i = j

/-- the vectors that the elements of a range are in -/
def Rng.Names : Rng α → Nat → Prop
  | .refs l, i => ∃ x, x ∈ l ∧ x.Names i
  | .mvs j _ _, i => i = j

/-- the vectors that the client names in the call: those it is about, and those that arguments refer into -/
def Op.Names (op : Op α) (i : Nat) : Prop := op.Targets i ∨ match op with
  | .ctorCopy _ j | .assignCopy _ j => i = j
  | .ctorFill _ _ x | .assignFill _ _ x | .insertFill _ _ _ x | .resizeFill _ _ x => x.Names i
  | .pushBack _ x | .emplace _ _ x => x.Names i
  | .ctorRange _ x | .assignRange _ x | .insertRange _ _ x => x.Names i
  | _ => False

theorem frm_run (op : Op α) (hF : ∀ i, op.Targets i → F.obj (.var i) = none) : Frm (Beside F) (op.run T) := by
  cases op with
  | ctorDefault i => exact frm_noRet (frm_newObj (hF i rfl) _)
  | ctorCount i n => exact frm_noRet (frm_ctorCount (hF i rfl) _)
  | ctorFill i n x => exact .bind (frm_resolve x) fun _ => frm_noRet (frm_ctorFill (hF i rfl) _ _)
  | ctorRange i x => exact .bind (frm_rng x) fun _ => frm_noRet (frm_ctorRange (hF i rfl) _)
  | ctorInput i vs => exact frm_noRet (frm_ctorInput (hF i rfl) _)
  | ctorCopy i j => exact frm_noRet (frm_ctorCopy (hF i rfl) _)
  | ctorMove i j => exact frm_noRet (frm_storageMove (hF i (.inl rfl)))
  | dtor i => exact frm_noRet (frm_dtor _)
  | assignCopy i j => exact frm_noRet (frm_assignCopy _ _)
  | assignMove i j => exact frm_noRet (frm_moveAssign _ _)
  | assignRange i x => exact .bind (frm_rng x) fun _ => frm_noRet (frm_assignRange _ _)
  | assignInput i vs => exact frm_noRet (frm_assignInput _ _)
  | assignFill i n x => exact .bind (frm_resolve x) fun _ => frm_noRet (frm_assignFill _ _ _)
  | swap i j => exact frm_noRet (frm_swap _ _)
  | pushBack i x => exact .bind (frm_resolve1 x) fun _ => .bind (frm_pushBack _ _) fun _ => frm_offset _ _
  | emplace i p x =>
    exact .bind (frm_resolve1 x) fun _ => .bind (frm_pos _ _) fun _ => .bind (frm_emplace _ _ _) fun _ => frm_offset _ _
  | insertFill i p n x =>
    exact .bind (frm_resolve x) fun _ => .bind (frm_pos _ _) fun _ => .bind (frm_insertFill _ _ _ _) fun _ => frm_offset _ _
  | insertRange i p x =>
    exact .bind (frm_rng x) fun _ => .bind (frm_pos _ _) fun _ => .bind (frm_insertRange _ _ _) fun _ => frm_offset _ _
  | insertInput i p vs => exact .bind (frm_pos _ _) fun _ => .bind (frm_insertInput _ _ _) fun _ => frm_offset _ _
  | erase i f l =>
    exact .bind (frm_pos _ _) fun _ => .bind (frm_pos _ _) fun _ => .bind (frm_erase _ _ _) fun _ => frm_offset _ _
  | eraseOne i p => exact .bind (frm_pos _ _) fun _ => .bind (frm_erase _ _ _) fun _ => frm_offset _ _
  | popBack i => exact frm_noRet (frm_popBack _)
  | clear i => exact frm_noRet (frm_clear _)
  | reserve i n => exact frm_noRet (frm_reserve _ _)
  | shrinkToFit i => exact frm_noRet (frm_shrinkToFit _)
  | resize i n => exact frm_noRet (frm_resize _ _)
  | resizeFill i n x => exact .bind (frm_resolve x) fun _ => frm_noRet (frm_resizeFill _ _ _)
  | write i k v => exact .bind (frm_index _ _) fun _ => frm_noRet (frm_writeAt _ _)
  | put i k v => exact .bind (frm_index _ _) fun _ => frm_noRet (frm_putAt _ _)

/-! ### the list semantics of a call is about the vectors it names -/

theorem Src.Is.only {V V0 : Vars α} {x : Src α} {v : α} (h : x.Is V v) (h0 : ∀ i, x.Names i → V0 i = V i) : x.Is V0 v := by
  cases h with
  | val => exact .val _
  | elem h1 h2 => exact .elem ((h0 _ rfl).trans h1) h2

theorem upd_agree {V V0 : Vars α} {S : Nat → Prop} (h : ∀ i, S i → V0 i = V i) (j : Nat) (o : Option (List α)) :
    ∀ i, S i → upd V0 j o i = upd V j o i := by
  intro i hi
  simp only [upd]
  split
  · rfl
  · exact h i hi

theorem Src1.Takes.only {moved : α → α} {V V0 V1 : Vars α} {S : Nat → Prop} {x : Src1 α} {v : α} (h : x.Takes moved V v V1)
    (h0 : ∀ i, S i → V0 i = V i) (hx : ∀ i, x.Names i → S i) : ∃ W, x.Takes moved V0 v W ∧ ∀ i, S i → W i = V1 i := by
  cases h with
  | ref h => exact ⟨V0, .ref (h.only fun i hi => h0 i (hx i hi)), h0⟩
  | mv h1 h2 => exact ⟨_, .mv ((h0 _ (hx _ rfl)).trans h1) h2, upd_agree h0 _ _⟩

theorem Src.AreAll.only {V V0 : Vars α} {l : List (Src α)} {vs : List α} (h : Src.AreAll V l vs)
    (h0 : ∀ i, (∃ x, x ∈ l ∧ x.Names i) → V0 i = V i) : Src.AreAll V0 l vs := by
  induction h with
  | nil => exact .nil
  | cons h _ ih =>
    exact .cons (h.only fun i hi => h0 i ⟨_, .head _, hi⟩) (ih fun i ⟨x, hx, hi⟩ => h0 i ⟨x, .tail _ hx, hi⟩)

theorem Rng.Takes.only {moved : α → α} {V V0 V1 : Vars α} {S : Nat → Prop} {x : Rng α} {vs : List α} (h : x.Takes moved V vs V1)
    (h0 : ∀ i, S i → V0 i = V i) (hx : ∀ i, x.Names i → S i) : ∃ W, x.Takes moved V0 vs W ∧ ∀ i, S i → W i = V1 i := by
  cases h with
  | refs h => exact ⟨V0, .refs (h.only fun i hi => h0 i (hx i hi)), h0⟩
  | mvs h1 => exact ⟨_, .mvs ((h0 _ (hx _ rfl)).trans h1), upd_agree h0 _ _⟩

theorem Spec.only {op : Op α} {V V' V0 : Vars α} {r : Option Nat} (hs : Spec T op V V' r) {S : Nat → Prop}
    (hS : ∀ i, op.Names i → S i) (h0 : ∀ i, S i → V0 i = V i) : ∃ V0', Spec T op V0 V0' r ∧ ∀ i, S i → V0' i = V' i := by
  have tg : ∀ {i o}, op.Targets i → V i = o → V0 i = o := fun hi h => (h0 _ (hS _ (.inl hi))).trans h
  cases hs with
  | ctorDefault h => exact ⟨_, .ctorDefault (tg rfl h), upd_agree h0 _ _⟩
  | ctorCount h hn => exact ⟨_, .ctorCount (tg rfl h) hn, upd_agree h0 _ _⟩
  | ctorFill h hn hx => exact ⟨_, .ctorFill (tg rfl h) hn (hx.only fun i hi => h0 i (hS i (.inr hi))), upd_agree h0 _ _⟩
  | ctorRange h hx hf =>
    obtain ⟨W, h1, h2⟩ := hx.only h0 fun i hi => hS i (.inr hi)
    exact ⟨_, .ctorRange (tg rfl h) h1 hf, upd_agree h2 _ _⟩
  | ctorInput h => exact ⟨_, .ctorInput (tg rfl h), upd_agree h0 _ _⟩
  | ctorCopy h hj => exact ⟨_, .ctorCopy (tg rfl h) ((h0 _ (hS _ (.inr rfl))).trans hj), upd_agree h0 _ _⟩
  | ctorMove h hj => exact ⟨_, .ctorMove (tg (.inl rfl) h) (tg (.inr rfl) hj), upd_agree (upd_agree h0 _ _) _ _⟩
  | dtor h => exact ⟨_, .dtor (tg rfl h), upd_agree h0 _ _⟩
  | assignCopy h hj => exact ⟨_, .assignCopy (tg rfl h) ((h0 _ (hS _ (.inr rfl))).trans hj), upd_agree h0 _ _⟩
  | assignMove h hj hij => exact ⟨_, .assignMove (tg (.inl rfl) h) (tg (.inr rfl) hj) hij, upd_agree (upd_agree h0 _ _) _ _⟩
  | assignMoveSelf h => exact ⟨_, .assignMoveSelf (tg (.inl rfl) h), h0⟩
  | assignRange h hx hf =>
    obtain ⟨W, h1, h2⟩ := hx.only h0 fun i hi => hS i (.inr hi)
    exact ⟨_, .assignRange (tg rfl h) h1 hf, upd_agree h2 _ _⟩
  | assignInput h => exact ⟨_, .assignInput (tg rfl h), upd_agree h0 _ _⟩
  | assignFill h hx hf => exact ⟨_, .assignFill (tg rfl h) (hx.only fun i hi => h0 i (hS i (.inr hi))) hf, upd_agree h0 _ _⟩
  | swap h hj => exact ⟨_, .swap (tg (.inl rfl) h) (tg (.inr rfl) hj), upd_agree (upd_agree h0 _ _) _ _⟩
  | pushBack hx h =>
    obtain ⟨W, h1, h2⟩ := hx.only h0 fun i hi => hS i (.inr hi)
    exact ⟨_, .pushBack h1 ((h2 _ (hS _ (.inl rfl))).trans h), upd_agree h2 _ _⟩
  | emplace hx h =>
    obtain ⟨W, h1, h2⟩ := hx.only h0 fun i hi => hS i (.inr hi)
    exact ⟨_, .emplace h1 ((h2 _ (hS _ (.inl rfl))).trans h), upd_agree h2 _ _⟩
  | insertFill hx h hf => exact ⟨_, .insertFill (hx.only fun i hi => h0 i (hS i (.inr hi))) (tg rfl h) hf, upd_agree h0 _ _⟩
  | insertRange hx h hf =>
    obtain ⟨W, h1, h2⟩ := hx.only h0 fun i hi => hS i (.inr hi)
    exact ⟨_, .insertRange h1 ((h2 _ (hS _ (.inl rfl))).trans h) hf, upd_agree h2 _ _⟩
  | insertInput h hf => exact ⟨_, .insertInput (tg rfl h) hf, upd_agree h0 _ _⟩
  | erase h hm => exact ⟨_, .erase (tg rfl h) hm, upd_agree h0 _ _⟩
  | eraseOne h => exact ⟨_, .eraseOne (tg rfl h), upd_agree h0 _ _⟩
  | popBack h => exact ⟨_, .popBack (tg rfl h), upd_agree h0 _ _⟩
  | clear h => exact ⟨_, .clear (tg rfl h), upd_agree h0 _ _⟩
  | reserve h hn => exact ⟨_, .reserve (tg rfl h) hn, h0⟩
  | shrinkToFit h => exact ⟨_, .shrinkToFit (tg rfl h), h0⟩
  | resizeShrink h => exact ⟨_, .resizeShrink (tg rfl h), upd_agree h0 _ _⟩
  | resizeGrow h hf => exact ⟨_, .resizeGrow (tg rfl h) hf, upd_agree h0 _ _⟩
  | resizeFillShrink h hx => exact ⟨_, .resizeFillShrink (tg rfl h) (hx.only fun i hi => h0 i (hS i (.inr hi))), upd_agree h0 _ _⟩
  | resizeFillGrow h hx hf =>
    exact ⟨_, .resizeFillGrow (tg rfl h) (hx.only fun i hi => h0 i (hS i (.inr hi))) hf, upd_agree h0 _ _⟩
  | write h hk => exact ⟨_, .write (tg rfl h) hk, upd_agree h0 _ _⟩
  | put h hk => exact ⟨_, .put (tg rfl h) hk, upd_agree h0 _ _⟩

/-! ### erasing the other vectors from memory -/

attribute [local instance] Classical.propDecidable

/-- block `b` is the buffer of one of the vectors in `S` -/
def Holds (S : Nat → Prop) (s : St α Storage) (b : Nat) : Prop := ∃ i o, S i ∧ s.obj (.var i) = some o ∧ o.ptr = some b

/-- the state in which, of all vectors and buffers, only the vectors in `S` and their buffers exist -/
noncomputable def only (S : Nat → Prop) (s : St α Storage) : St α Storage :=
  { s with
    obj := fun
      | .var i => if S i then s.obj (.var i) else none
      | .tmp _ => none
    blk := fun b => if Holds S s b then s.blk b else none }

/-- what was erased -/
noncomputable def rest (S : Nat → Prop) (s : St α Storage) : Part α Storage where
  obj := fun
    | .var i => if S i then none else s.obj (.var i)
    | .tmp _ => none
  blk := fun b => if Holds S s b then none else s.blk b

variable {s s' : St α Storage} {S : Nat → Prop}

theorem only_obj {i : Id} {o : Storage} (h : (only S s).obj i = some o) : ∃ n, i = .var n ∧ S n ∧ s.obj (.var n) = some o := by
  cases i with
  | tmp => cases h
  | var n =>
    have h : (if S n then s.obj (.var n) else none) = some o := h
    split at h
    · exact ⟨n, rfl, ‹_›, h⟩
    · cases h

theorem only_blk {b : Nat} {l : List (Option α)} (h : (only S s).blk b = some l) : Holds S s b ∧ s.blk b = some l := by
  have h : (if Holds S s b then s.blk b else none) = some l := h
  split at h
  · exact ⟨‹_›, h⟩
  · cases h

theorem only_var {n : Nat} (h : S n) : (only S s).obj (.var n) = s.obj (.var n) := if_pos h

theorem rest_var {n : Nat} (h : S n) : (rest S s).obj (.var n) = none := if_pos h

theorem rest_other {n : Nat} (h : ¬ S n) : (rest S s).obj (.var n) = s.obj (.var n) := if_neg h

theorem only_held {b : Nat} (h : Holds S s b) : (only S s).blk b = s.blk b := if_pos h

theorem beside_only (hinv : Inv T s) : Beside (rest S s) (only S s) s where
  obj := by
    intro i
    cases i with
    | tmp k => exact .inr ⟨rfl, hinv.tmp k⟩
    | var n =>
      show (∃ o, (if S n then s.obj (.var n) else none) = some o ∧ _ ∧ (if S n then none else s.obj (.var n)) = none) ∨
        ((if S n then s.obj (.var n) else none) = none ∧ _ = (if S n then none else s.obj (.var n)))
      by_cases h : S n
      · simp only [if_pos h]
        cases ho : s.obj (.var n) with
        | none => exact .inr ⟨rfl, rfl⟩
        | some o => exact .inl ⟨o, rfl, rfl, trivial⟩
      · simp only [if_neg h]
        exact .inr ⟨trivial, trivial⟩
  blk := by
    intro b
    show (∃ l, (if Holds S s b then s.blk b else none) = some l ∧ _ ∧ (if Holds S s b then none else s.blk b) = none) ∨
      ((if Holds S s b then s.blk b else none) = none ∧ _ = (if Holds S s b then none else s.blk b))
    by_cases h : Holds S s b
    · simp only [if_pos h]
      cases ho : s.blk b with
      | none => exact .inr ⟨rfl, rfl⟩
      | some o => exact .inl ⟨o, rfl, rfl, trivial⟩
    · simp only [if_neg h]
      exact .inr ⟨trivial, trivial⟩
  freshB := by
    intro b hb
    show (if Holds S s b then none else s.blk b) = none
    split
    · rfl
    · exact hinv.wf.freshB b hb
  freshT := fun _ _ => rfl
  nblk := rfl
  ntmp := rfl
  orc := rfl
  tick := rfl
  moves := rfl

theorem inv_only (hinv : Inv T s) : Inv T (only S s) where
  tmp := fun _ => rfl
  wf := {
    good := by
      intro i o h
      obtain ⟨n, rfl, hn, ho⟩ := only_obj h
      obtain ⟨xs, hg⟩ := hinv.wf.good _ _ ho
      refine ⟨xs, ?_⟩
      rcases hg with h1 | ⟨b, h1, h2, h3, h4, h5, h6, h7⟩
      · exact .inl h1
      · exact .inr ⟨b, h1, h2, h3, h4, h5, h6, (only_held ⟨n, o, hn, ho, h2⟩).trans h7⟩
    inj := by
      intro i j o o' b h h' hb hb'
      obtain ⟨n, rfl, hn, ho⟩ := only_obj h
      obtain ⟨m, rfl, hm, ho'⟩ := only_obj h'
      exact hinv.wf.inj _ _ _ _ b ho ho' hb hb'
    owned := by
      intro b l h
      obtain ⟨⟨n, o, hn, ho, hb⟩, _⟩ := only_blk h
      exact ⟨.var n, o, (only_var hn).trans ho, hb⟩
    freshB := by
      intro b hb
      show (if Holds S s b then s.blk b else none) = none
      split
      · exact hinv.wf.freshB b hb
      · rfl
    freshT := fun _ _ => rfl }

theorem vars_only (hinv : Inv T s) {n : Nat} (hn : S n) : vars (only S s) n = vars s n := by
  have ho := only_var (s := s) hn
  show (abs (only S s) (.var n)).map Prod.snd = (abs s (.var n)).map Prod.snd
  unfold abs
  rw [ho]
  cases h : s.obj (.var n) with
  | none => rfl
  | some o =>
    obtain ⟨xs, hg⟩ := hinv.wf.good _ _ h
    obtain ⟨ys, hg'⟩ := (inv_only (S := S) hinv).wf.good (.var n) o (ho.trans h)
    show some (contents (only S s) o) = some (contents s o)
    congr 1
    unfold contents
    cases hp : o.ptr with
    | none => rfl
    | some b => dsimp only; rw [only_held ⟨n, o, hn, h, hp⟩]

/-- the memory after the call: `s0` is what became of the named vectors; everything else is as it was in `s` -/
def After (S : Nat → Prop) (s s0 s' : St α Storage) : Prop := Beside (rest S s) s0 s'

/-- C93: erase all vectors that the call does not name, together with their buffers, from memory.  The call does the same as
before: it returns the same result, throws the same exception or ends the program, and it leaves the same behind; if nothing had
been erased, that would still be there, unchanged. -/
theorem C93_vector {V V' : Vars α} {op : Op α} {r : Option Nat} (h : Reach T s V) (hs : Spec T op V V' r)
    (hS : ∀ i, op.Names i → S i) :
    match op.run T (only S s) with
    | .ok r' s0 => ∃ s', op.run T s = .ok r' s' ∧ After S s s0 s'
    | .exc e s0 => ∃ s', op.run T s = .exc e s' ∧ After S s s0 s'
    | .ub _ => False
    | .term => op.run T s = .term := by
  obtain ⟨hinv, rfl⟩ := h.inv
  obtain ⟨V0', hs0, -⟩ := hs.only hS (V0 := vars (only S s)) (fun i hi => vars_only hinv hi)
  have hst := step (inv_only (S := S) hinv) hs0
  have hf := frm_run (T := T) (F := rest S s) op (fun i hi => if_pos (hS i (.inl hi))) _ _ (beside_only hinv)
  cases hr : op.run T (only S s) with
  | ok r' s0 => rw [hr] at hf; exact hf
  | exc e s0 => rw [hr] at hf; exact hf
  | ub f => rw [hr] at hst; exact hst
  | term => rw [hr] at hf; exact hf

/-- C93: reading works in the same way: `data()`, `size()`, `capacity()`, the elements and the comparisons of vectors do not depend on
any other vector. -/
theorem C93_vector_reads {V : Vars α} (h : Reach T s V) {i : Nat} (hi : S i) :
    (∀ d c xs, Shows (only S s) i d c xs ↔ Shows s i d c xs) ∧
    ∀ j, S j → V i ≠ none → V j ≠ none → ∀ lt eq, ∃ a b,
      opLt lt (.var i) (.var j) (only S s) = .ok a (only S s) ∧ opLt lt (.var i) (.var j) s = .ok a s ∧
      opEq eq (.var i) (.var j) (only S s) = .ok b (only S s) ∧ opEq eq (.var i) (.var j) s = .ok b s := by
  obtain ⟨hinv, rfl⟩ := h.inv
  have hinv0 := inv_only (S := S) hinv
  have e : ∀ {n}, S n → ∀ o xs, abs s (.var n) = some (o, xs) → abs (only S s) (.var n) = some (o, xs) := by
    intro n hn o xs ho
    have hv := (vars_only hinv hn).trans (vars_of_abs ho)
    obtain ⟨o', ho'⟩ := vars_some hv
    have h1 := (hinv0.wf.get ho').1
    rw [only_var hn, (hinv.wf.get ho).1] at h1
    cases h1
    exact ho'
  refine ⟨fun d c xs => ⟨fun hs => ?_, fun hs => ?_⟩, fun j hj hi0 hj0 lt eq => ?_⟩
  · obtain ⟨o, ho, rfl, rfl⟩ := hinv0.of_shows hs
    obtain ⟨o', ho'⟩ := vars_some ((vars_only hinv hi).symm.trans (vars_of_abs ho))
    have := e hi _ _ ho'
    rw [this] at ho
    cases ho
    exact hinv.shows ho'
  · obtain ⟨o, ho, rfl, rfl⟩ := hinv.of_shows hs
    exact hinv0.shows (e hi _ _ ho)
  · cases hx : vars s i with
    | none => exact absurd hx hi0
    | some xs =>
      cases hy : vars s j with
      | none => exact absurd hy hj0
      | some ys =>
        exact ⟨_, _, hinv0.opLt lt ((vars_only hinv hi).trans hx) ((vars_only hinv hj).trans hy), hinv.opLt lt hx hy,
          hinv0.opEq eq ((vars_only hinv hi).trans hx) ((vars_only hinv hj).trans hy), hinv.opEq eq hx hy⟩

/-- C93: of the vectors a call does name, those it only reads (copy sources, vectors that arguments refer into) keep all of their
memory: the object and its whole block. -/
theorem C93_vector_sources {V V' : Vars α} {op : Op α} {r : Option Nat} (h : Reach T s V) (hs : Spec T op V V' r)
    {s' : St α Storage} (hr : (∃ r', op.run T s = .ok r' s') ∨ ∃ e, op.run T s = .exc e s') {j : Nat} (hj : ¬ op.Targets j)
    (hV : V' j = V j) :
    s'.obj (.var j) = s.obj (.var j) ∧ ∀ o b, s.obj (.var j) = some o → o.ptr = some b → s'.blk b = s.blk b := by
  obtain ⟨hinv, rfl⟩ := h.inv
  have hst := step hinv hs
  rcases hr with ⟨r', hr⟩ | ⟨e, hr⟩ <;> rw [hr] at hst
  · obtain ⟨⟨hinv', hobj⟩, _, _, hv, _⟩ := hst
    refine ⟨hobj j hj, fun o b ho hb => ?_⟩
    obtain ⟨xs, hg⟩ := hinv.wf.good _ _ ho
    obtain ⟨ys, hg'⟩ := hinv'.wf.good _ _ ((hobj j hj).trans ho)
    have h1 : vars s j = some xs := by
      show (abs s (.var j)).map Prod.snd = _
      unfold abs
      rw [ho]
      exact congrArg some hg.contents
    have h2 : vars s' j = some ys := by
      show (abs s' (.var j)).map Prod.snd = _
      unfold abs
      rw [hobj j hj, ho]
      exact congrArg some hg'.contents
    rw [hv, hV, h1] at h2
    cases h2
    rw [(hg.own hb).2.2.2.2.2, (hg'.own hb).2.2.2.2.2]
  · exact ⟨congrFun hst.1.obj _, fun o b _ _ => congrFun hst.1.blk _⟩

-- vectors `{1, 2, 3}` and `{7}`: with the second one erased from memory, `push_back(9)` on the first does what it always does
example : ∃ s : St Nat Storage, Reach natElem s demoV ∧ (only (· = 0) s).obj (.var 1) = none ∧ s.obj (.var 1) ≠ none ∧
    ∃ s0 s', (Op.pushBack 0 (.ref (.val 9))).run natElem (only (· = 0) s) = .ok (some 3) s0 ∧
      (Op.pushBack 0 (.ref (.val 9))).run natElem s = .ok (some 3) s' ∧ s'.obj (.var 0) = s0.obj (.var 0) ∧
      s'.obj (.var 1) = s.obj (.var 1) := by
  obtain ⟨s, h, ho⟩ := demo
  have hs : Spec natElem (.pushBack 0 (.ref (.val 9))) demoV (upd demoV 0 (some [1, 2, 3, 9])) (some 3) :=
    .pushBack (xs := [1, 2, 3]) (.ref (.val 9)) rfl
  obtain ⟨s', hr, h', _⟩ := h.next hs ho (demo_short (by
    intro i xs h
    simp only [upd] at h
    split at h
    · cases h; decide
    · exact demoV_len i xs h) (by intro i n h; cases h))
  have hc := C93_vector (S := (· = 0)) h hs (fun i hi => by
    rcases hi with hi | hi
    · exact hi
    · exact hi.elim)
  have h1 : s.obj (.var 1) ≠ none := by
    intro h1
    obtain ⟨_, hv⟩ := h.inv
    have : vars s 1 = none := by
      show (abs s (.var 1)).map Prod.snd = none
      unfold abs
      rw [h1]
      rfl
    rw [hv] at this
    cases this
  refine ⟨s, h, if_neg (by decide), h1, ?_⟩
  cases hr0 : (Op.pushBack 0 (.ref (.val 9))).run natElem (only (· = 0) s) with
  | ok r' s0 =>
    rw [hr0] at hc
    obtain ⟨s'', h2, h3⟩ := hc
    rw [hr] at h2
    cases h2
    refine ⟨s0, s', rfl, hr, ?_, ?_⟩
    · rcases h3.obj (.var 0) with ⟨o, h4, h5, _⟩ | ⟨h4, h5⟩
      · rw [h4, h5]
      · rw [h4, h5, rest_var (S := (· = 0)) rfl]
    · rcases h3.obj (.var 1) with ⟨o, h4, h5, h6⟩ | ⟨_, h5⟩
      · rw [rest_other (by decide)] at h6; exact absurd h6 h1
      · rw [h5, rest_other (by decide)]
  | exc e s0 => rw [hr0] at hc; obtain ⟨_, h2, _⟩ := hc; rw [hr] at h2; cases h2
  | ub f => rw [hr0] at hc; exact hc.elim
  | term => rw [hr0] at hc; rw [hr] at hc; cases hc

end Ptl.Vector

import Verif.Frame
import Verif.Vector.Props.Growth

/-!
# C117: how much memory a vector holds on to

The capacity of a vector is bounded by the greatest number of elements that a vector has had so far, or that was reserved.
-/

namespace Ptl.Vector

variable {α β : Type}

/-! ### what is claimed (no reference to the model) -/

/-- a history (as in `Reach`) in which no vector ever had more than `N` elements, nor was asked to reserve room for more -/
inductive ReachUpTo (T : Elem α) (N : Nat) : St α Storage → Vars α → Prop
  | start (orc : Nat → Bool) : ReachUpTo T N (start α orc) (fun _ => none)
  | ok {s s' : St α Storage} {V V' : Vars α} {op : Op α} {r r' : Option Nat} :
      ReachUpTo T N s V → Spec T op V V' r → op.run T s = .ok r' s' → (∀ i xs, V' i = some xs → xs.length ≤ N) →
      (∀ i n, op = .reserve i n → n ≤ N) → ReachUpTo T N s' V'
  | thrown {s s' : St α Storage} {V V' : Vars α} {op : Op α} {r : Option Nat} {e : Exc} :
      ReachUpTo T N s V → Spec T op V V' r → op.run T s = .exc e s' → ReachUpTo T N s' V

/-! ### parts of calls that keep all capacities within a bound -/

/-- no capacity exceeds `B` -/
def Caps (B : Nat) (s : St α Storage) : Prop := ∀ i o, s.obj i = some o → o.cap ≤ B

/-- the same state, with no capacity above `B`; `Frm (Capped B) m` says that `m` keeps it so -/
def Capped (B : Nat) (s t : St α Storage) : Prop := s = t ∧ Caps B s

variable {T : Elem α} {B : Nat} {s s' : St α Storage} {V V' : Vars α}

theorem caps_of {m : VM α β} (h : ∀ s, Caps B s → match m s with
    | .ok _ s' => Caps B s'
    | .exc _ s' => Caps B s'
    | _ => True) : Frm (Capped B) m := by
  rintro s _ ⟨rfl, hc⟩
  have := h s hc
  cases e : m s with
  | ok a s' => rw [e] at this; exact ⟨s', rfl, rfl, this⟩
  | exc x s' => rw [e] at this; exact ⟨s', rfl, rfl, this⟩
  | ub => trivial
  | term => exact rfl

theorem caps_ok {m : VM α β} (h : Frm (Capped B) m) (hc : Caps B s) {a : β} (hr : m s = .ok a s') : Caps B s' := by
  have := h s s ⟨rfl, hc⟩
  rw [hr] at this
  obtain ⟨t, h1, h2, h3⟩ := this
  exact h3

/-- a primitive that leaves the vectors (other than their elements) alone -/
theorem caps_keep {m : VM α β} (h : ∀ s, match m s with
    | .ok _ s' => s'.obj = s.obj
    | .exc _ s' => s'.obj = s.obj
    | _ => True) : Frm (Capped B) m :=
  caps_of fun s hc => by
    have := h s
    cases e : m s with
    | ok a s' => rw [e] at this; intro i o ho; exact hc i o (this ▸ ho)
    | exc x s' => rw [e] at this; intro i o ho; exact hc i o (this ▸ ho)
    | ub => trivial
    | term => trivial

theorem Caps.upd (hc : Caps B s) {i : Id} {o : Option Storage} (ho : ∀ p, o = some p → p.cap ≤ B) :
    Caps B { s with obj := upd s.obj i o } := by
  intro j p hp
  simp only [Ptl.upd] at hp
  split at hp
  · exact ho p hp
  · exact hc j p hp

theorem caps_fallible (e : Exc) : Frm (Capped B) (fallible e : VM α Unit) :=
  caps_keep fun s => by unfold fallible; by_cases h : s.orc s.tick <;> simp [h]
theorem caps_countMove : Frm (Capped B) (countMove : VM α Unit) := caps_keep fun _ => rfl
theorem caps_alloc (n : Nat) : Frm (Capped B) (alloc n : VM α Nat) :=
  caps_keep fun s => by unfold alloc; by_cases h : s.orc s.tick <;> simp [h]
theorem caps_slotAt (p : Ptr) : Frm (Capped B) (slotAt p : VM α (Option α)) :=
  caps_keep fun s => by
    unfold slotAt
    cases p.blk with
    | none => trivial
    | some b => cases h : s.blk b with
      | none => simp [h]
      | some l => cases h' : l[p.off]? <;> simp [h, h']
theorem caps_setSlot (p : Ptr) (x : Option α) : Frm (Capped B) (setSlot p x : VM α Unit) :=
  caps_keep fun s => by
    unfold setSlot
    cases p.blk with
    | none => trivial
    | some b => cases h : s.blk b with
      | none => simp [h]
      | some l => by_cases h' : p.off < l.length <;> simp [h, h']
theorem caps_rotate (f m l : Ptr) : Frm (Capped B) (rotate f m l : VM α Unit) :=
  caps_keep fun s => by
    unfold rotate
    split
    · rename_i h
      repeat' split at h
      all_goals first | (cases h; rfl) | cases h
    · rename_i h
      repeat' split at h
      all_goals cases h
    · trivial
theorem caps_free (d : Nat) (p : Option Nat) : Frm (Capped B) (free d p : VM α Unit) :=
  caps_keep fun s => by
    cases p with
    | none => exact rfl
    | some b =>
      unfold free
      cases h : s.blk b with
      | none => simp [h]
      | some c => by_cases h1 : d = b <;> by_cases h2 : c.all Option.isNone = true <;> simp [h, h1, h2]

theorem caps_get {i : Id} {f : Storage → VM α β} (h : ∀ o : Storage, o.cap ≤ B → Frm (Capped B) (f o)) :
    Frm (Capped B) (getObj i >>= f) := by
  rintro s _ ⟨rfl, hc⟩
  cases ho : s.obj i with
  | none =>
    have e : (getObj i >>= f : VM α β) s = .ub .deadObject := by rw [M.bind_run]; simp [getObj, ho]
    rw [e]
    trivial
  | some o =>
    rw [M.bind_ok (getObj_ok ho)]
    exact h o (hc i o ho) s s ⟨rfl, hc⟩
theorem caps_setObj (i : Id) {o : Storage} (ho : o.cap ≤ B) : Frm (Capped B) (setObj i o : VM α Unit) :=
  caps_of fun s hc => by
    unfold setObj
    cases s.obj i with
    | none => trivial
    | some _ => exact hc.upd fun p hp => by cases hp; exact ho
theorem caps_newObj (i : Id) {o : Storage} (ho : o.cap ≤ B) : Frm (Capped B) (newObj i o : VM α Unit) :=
  caps_of fun s hc => by
    unfold newObj
    cases s.obj i with
    | some _ => trivial
    | none => exact hc.upd fun p hp => by cases hp; exact ho
theorem caps_killObj (i : Id) : Frm (Capped B) (killObj i : VM α Unit) :=
  caps_of fun s hc => by
    unfold killObj
    cases s.obj i with
    | none => trivial
    | some _ => exact hc.upd fun p hp => by cases hp

macro_rules | `(tactic| frm_step) => `(tactic| with_reducible exact caps_fallible _)
macro_rules | `(tactic| frm_step) => `(tactic| with_reducible exact caps_countMove)
macro_rules | `(tactic| frm_step) => `(tactic| with_reducible exact caps_alloc _)
macro_rules | `(tactic| frm_step) => `(tactic| with_reducible exact caps_slotAt _)
macro_rules | `(tactic| frm_step) => `(tactic| with_reducible exact caps_setSlot _ _)
macro_rules | `(tactic| frm_step) => `(tactic| with_reducible exact caps_rotate _ _ _)
macro_rules | `(tactic| frm_step) => `(tactic| with_reducible exact caps_free _ _)
macro_rules | `(tactic| frm_step) => `(tactic| with_reducible exact caps_killObj _)
macro_rules | `(tactic| frm_step) => `(tactic| with_reducible exact caps_setObj _ (by first | assumption | exact Nat.zero_le _))
macro_rules | `(tactic| frm_step) => `(tactic| with_reducible exact caps_newObj _ (by first | assumption | exact Nat.zero_le _))
macro_rules | `(tactic| frm_step) => `(tactic| with_reducible refine caps_get (fun _ _ => ?_))

theorem caps_readAt (p : Ptr) : Frm (Capped B) (readAt p : VM α α) := by
  refine .bind (caps_slotAt _) fun x => ?_
  cases x <;> frm
theorem caps_initAt (p : Ptr) (v : α) : Frm (Capped B) (initAt p v) := by
  refine .bind (caps_slotAt _) fun x => ?_
  cases x <;> frm

macro_rules | `(tactic| frm_step) => `(tactic| with_reducible exact caps_readAt _)
macro_rules | `(tactic| frm_step) => `(tactic| with_reducible exact caps_initAt _ _)

theorem caps_constructAt (p : Ptr) (a : Arg α) : Frm (Capped B) (constructAt T p a) := by
  cases a <;> (unfold constructAt; frm)
theorem caps_destroyAt (p : Ptr) : Frm (Capped B) (destroyAt p : VM α Unit) := by
  refine .bind (caps_slotAt _) fun x => ?_
  cases x <;> frm
theorem caps_moveAssignAt (p q : Ptr) : Frm (Capped B) (moveAssignAt T p q) := by unfold moveAssignAt; frm

macro_rules | `(tactic| frm_step) => `(tactic| with_reducible exact caps_constructAt _ _)
macro_rules | `(tactic| frm_step) => `(tactic| with_reducible exact caps_destroyAt _)
macro_rules | `(tactic| frm_step) => `(tactic| with_reducible exact caps_moveAssignAt _ _)

theorem caps_destroyN (p : Ptr) (n : Nat) : Frm (Capped B) (destroyN p n : VM α Unit) := by
  induction n generalizing p with
  | zero => unfold destroyN; frm
  | succ n ih => unfold destroyN; exact .bind (caps_destroyAt _) fun _ => ih _

macro_rules | `(tactic| frm_step) => `(tactic| with_reducible exact caps_destroyN _ _)

theorem caps_uninitLoop (first cur : Ptr) (as : List (Arg α)) : Frm (Capped B) (uninitLoop T first cur as) := by
  induction as generalizing cur with
  | nil => unfold uninitLoop; frm
  | cons a as ih =>
    unfold uninitLoop
    refine .bind (by frm) fun _ => ih _
theorem caps_uninitializedMoveN (p : Ptr) (n : Nat) (q : Ptr) : Frm (Capped B) (uninitializedMoveN T p n q) := by
  induction n generalizing p q with
  | zero => unfold uninitializedMoveN; frm
  | succ n ih =>
    unfold uninitializedMoveN
    exact .bind (by frm) fun _ => .bind (by frm) fun _ => ih _ _
theorem caps_moveN (p : Ptr) (n : Nat) (q : Ptr) : Frm (Capped B) (moveN T p n q) := by
  induction n generalizing p q with
  | zero => unfold moveN; frm
  | succ n ih =>
    unfold moveN
    exact .bind (by frm) fun _ => ih _ _
theorem caps_distance (p q : Ptr) : Frm (Capped B) (distance p q : VM α Nat) := by unfold distance; frm

macro_rules | `(tactic| frm_step) => `(tactic| with_reducible exact caps_uninitLoop _ _ _)
macro_rules | `(tactic| frm_step) => `(tactic| with_reducible exact caps_uninitializedMoveN _ _ _)
macro_rules | `(tactic| frm_step) => `(tactic| with_reducible exact caps_moveN _ _ _)
macro_rules | `(tactic| frm_step) => `(tactic| with_reducible exact caps_distance _ _)

theorem caps_ctorCap (i : Id) {n : Nat} (hB : 10 ≤ B) (hn : n ≤ B) : Frm (Capped B) (Storage.ctorCap T i n) := by
  have : max minCapacity n ≤ B := Nat.max_le.2 ⟨hB, hn⟩
  unfold Storage.ctorCap
  frm
theorem caps_release (o : Storage) : Frm (Capped B) (o.release : VM α Unit) := by
  unfold Storage.release
  cases o.dealloc <;> frm

macro_rules | `(tactic| frm_step) => `(tactic| with_reducible exact caps_release _)

theorem caps_dtor (i : Id) : Frm (Capped B) (Storage.dtor i : VM α Unit) := by unfold Storage.dtor; frm
theorem caps_storageMove (i j : Id) : Frm (Capped B) (Storage.ctorMove i j : VM α Unit) := by unfold Storage.ctorMove; frm
theorem caps_moveAssign (i j : Id) : Frm (Capped B) (Storage.moveAssign i j : VM α Unit) := by unfold Storage.moveAssign; frm
theorem caps_data (i : Id) : Frm (Capped B) (data i : VM α Ptr) := by unfold data; frm
theorem caps_size (i : Id) : Frm (Capped B) (size i : VM α Nat) := by unfold size; frm
theorem caps_capacity (i : Id) : Frm (Capped B) (capacity i : VM α Nat) := by unfold capacity; frm
theorem caps_setSize (i : Id) (n : Nat) : Frm (Capped B) (setSize i n : VM α Unit) := by unfold setSize; frm

macro_rules | `(tactic| frm_step) => `(tactic| with_reducible exact caps_dtor _)
macro_rules | `(tactic| frm_step) => `(tactic| with_reducible exact caps_moveAssign _ _)
macro_rules | `(tactic| frm_step) => `(tactic| with_reducible exact caps_data _)
macro_rules | `(tactic| frm_step) => `(tactic| with_reducible exact caps_size _)
macro_rules | `(tactic| frm_step) => `(tactic| with_reducible exact caps_capacity _)
macro_rules | `(tactic| frm_step) => `(tactic| with_reducible exact caps_setSize _ _)

theorem caps_empty (i : Id) : Frm (Capped B) (empty i : VM α Bool) := by unfold empty; frm
theorem caps_swap (i j : Id) : Frm (Capped B) (swap i j : VM α Unit) := by unfold swap; frm

macro_rules | `(tactic| frm_step) => `(tactic| with_reducible exact caps_empty _)

theorem caps_withStorage {n : Nat} (hB : 10 ≤ B) (hn : n ≤ B) {body : Id → VM α β} (h : ∀ i, Frm (Capped B) (body i)) :
    Frm (Capped B) (withStorage T n body) := by
  rintro s _ ⟨rfl, hc⟩
  have : Frm (Capped B) (do Storage.ctorCap T (.tmp s.ntmp) n; M.withDtor (body (.tmp s.ntmp)) (Storage.dtor (.tmp s.ntmp)) : VM α β) :=
    .bind (caps_ctorCap _ hB hn) fun _ => .withDtor (h _) (caps_dtor _)
  exact this _ _ ⟨rfl, hc⟩

macro_rules | `(tactic| frm_step) => `(tactic| with_reducible refine caps_withStorage (by assumption) (by assumption) (fun _ => ?_))

theorem caps_assignImpl (i : Id) {n : Nat} (hB : 10 ≤ B) (hn : n ≤ B) {f : Ptr → VM α Unit} (h : ∀ p, Frm (Capped B) (f p)) :
    Frm (Capped B) (assignImpl T i n f) := by
  unfold assignImpl
  repeat' first | exact h _ | frm_step
theorem caps_erase (i : Id) (p q : Ptr) : Frm (Capped B) (erase T i p q) := by unfold erase; frm

macro_rules | `(tactic| frm_step) => `(tactic| with_reducible exact caps_erase _ _ _)

theorem caps_resizeImpl (i : Id) {n : Nat} (hB : 10 ≤ B) (hn : n ≤ B) {f : Ptr → Nat → VM α Unit} (h : ∀ p n, Frm (Capped B) (f p n)) :
    Frm (Capped B) (resizeImpl T i n f) := by
  unfold resizeImpl
  repeat' first | exact h _ _ | frm_step
theorem caps_popBack (i : Id) : Frm (Capped B) (popBack (α := α) i) := by unfold popBack; frm
theorem caps_reserve (i : Id) {n : Nat} (hB : 10 ≤ B) (hn : n ≤ B) : Frm (Capped B) (reserve T i n) := by unfold reserve; frm
theorem caps_clear (i : Id) : Frm (Capped B) (clear (α := α) i) := by unfold clear; frm
theorem caps_construct (i : Id) {m : VM α Unit} (h : Frm (Capped B) m) : Frm (Capped B) (construct i m) := by
  unfold construct; frm
theorem caps_assignRange (i : Id) {as : List (Arg α)} (hB : 10 ≤ B) (hn : as.length ≤ B) : Frm (Capped B) (assignRange T i as) :=
  caps_assignImpl _ hB hn fun _ => caps_uninitLoop _ _ _
theorem caps_index (i : Id) (k : Nat) : Frm (Capped B) (index (α := α) i k) := by unfold index; frm
theorem caps_writeAt (p : Ptr) (v : α) : Frm (Capped B) (writeAt p v) := by unfold writeAt; frm
theorem caps_putAt (p : Ptr) (v : α) : Frm (Capped B) (putAt p v) := by unfold putAt; frm
theorem caps_pos (i k : Nat) : Frm (Capped B) (pos (α := α) i k) := by unfold pos; frm
theorem caps_offset (i : Nat) (p : Ptr) : Frm (Capped B) (offset (α := α) i p) := by unfold offset; frm
theorem caps_noRet {m : VM α Unit} (h : Frm (Capped B) m) : Frm (Capped B) (noRet m) := by unfold noRet; frm


/-! ### calls that may double the size -/

/-- only the vector `i` has changed -/
theorem caps_upd (hc : Caps B s) {W} {i : Id} {o : Storage} {xs : List α} (h : abs s' = upd (abs { s with blk := W }) i (some (o, xs)))
    (ho : o.cap ≤ B) : Caps B s' := by
  intro j p hp
  have := congrFun h j
  simp only [Ptl.upd] at this
  split at this
  · simp only [abs, hp, Option.map_some, Option.some.injEq, Prod.mk.injEq] at this
    rw [this.1]; exact ho
  · simp only [abs, hp, Option.map_some] at this
    cases hj : s.obj j with
    | none => simp [hj] at this
    | some q =>
      simp only [hj, Option.map_some, Option.some.injEq, Prod.mk.injEq] at this
      rw [this.1]; exact hc j q hj

/-- pushing back elements one at a time -/
theorem pushAll_caps (vs : List α) : ∀ {s : St α Storage} (_ : WF T s) {i : Id} {o : Storage} {xs : List α} (_ : abs s i = some (o, xs)),
    ∀ {a : Unit} {s' : St α Storage}, pushAll T i vs s = .ok a s' → 10 ≤ B → 2 * (o.siz + vs.length) ≤ B → Caps B s → Caps B s' := by
  induction vs with
  | nil => intro s hw i o xs habs a s' hr _ _ hc; cases hr; exact hc
  | cons v vs ih =>
    intro s hw i o xs habs a s' hr hB hn hc
    have hp := pushBack_spec hw habs (Mut.id hw) (Fills.copy hw (ArgVal.val v)) habs
    unfold pushAll at hr
    rw [M.bind_run] at hr
    cases hr1 : pushBack T i (.val v) s with
    | ok p s1 =>
      rw [hr1] at hp hr
      obtain ⟨hw1, _, hq⟩ := hp
      simp only [List.length_cons] at hn
      obtain ⟨o1, habs1, h1, h2⟩ : ∃ o1, abs s1 = upd (abs s) i (some (o1, xs ++ [v])) ∧ o1.siz = o.siz + 1 ∧ o1.cap ≤ B := by
        unfold Inserted at hq
        split at hq
        · exact ⟨_, hq.2.2, rfl, hc i o (hw.get habs).1⟩
        · exact ⟨_, hq.2.2.2, rfl, by simp only [capFor]; omega⟩
      exact ih hw1 (by rw [habs1, upd_same]) hr hB (by omega) (caps_upd (W := s.blk) hc habs1 h2)
    | exc e s1 => rw [hr1] at hr; cases hr
    | ub => rw [hr1] at hr; cases hr
    | term => rw [hr1] at hr; cases hr

theorem distance_state {p q : Ptr} {n : Nat} (h : distance p q s = .ok n s') : s' = s := by
  unfold distance at h
  split at h <;> cases h
  rfl

/-- insertions double the capacity at most -/
theorem caps_insertImpl {i : Id} {o : Storage} (ho : s.obj i = some o) {p : Ptr} {n : Nat} {f : Ptr → VM α Unit}
    (hf : ∀ p, Frm (Capped B) (f p)) (hB : 10 ≤ B) (hn : 2 * (o.siz + n) ≤ B) (hc : Caps B s) {a : Ptr}
    (hr : insertImpl T i p n f s = .ok a s') : Caps B s' := by
  unfold insertImpl at hr
  rw [M.bind_ok (data_ok ho), M.bind_run] at hr
  cases hd : distance ⟨o.ptr, 0⟩ p s with
  | ok off s1 =>
    obtain rfl := distance_state hd
    rw [hd] at hr
    simp only at hr
    rw [M.bind_ok (size_ok ho)] at hr
    have hreq : szAdd o.siz (max o.siz n) ≤ B := Nat.le_trans (Nat.mod_le _ _) (by omega)
    refine caps_ok (B := B) ?_ hc hr
    repeat' first | exact hf _ | frm_step
  | exc => rw [hd] at hr; cases hr
  | ub => rw [hd] at hr; cases hr
  | term => rw [hd] at hr; cases hr

theorem caps_pushBack {i : Id} {o : Storage} (ho : s.obj i = some o) {x : Arg α} (hB : 10 ≤ B) (hn : 2 * (o.siz + 1) ≤ B) (hc : Caps B s)
    {a : Ptr} (hr : pushBack T i x s = .ok a s') : Caps B s' := by
  unfold pushBack end_ at hr
  have e : (do let d ← data i; let n ← size i; pure (d.add n) : VM α Ptr) s = .ok (Ptr.add ⟨o.ptr, 0⟩ o.siz) s :=
    (M.bind_ok (data_ok ho)).trans (M.bind_ok (size_ok ho))
  rw [M.bind_ok e] at hr
  exact caps_insertImpl ho (fun _ => caps_constructAt _ _) hB hn hc hr

theorem caps_ctorInput (hw : WF T s) {i : Id} (hi : s.obj i = none) {n : Nat} (hn : s.ntmp ≤ n) (hk : ∀ k, i = .tmp k → k < n) (vs : List α)
    (hB : 10 ≤ B) (hv : 2 * vs.length ≤ B) (hc : Caps B s) {a : Unit} (hr : ctorInput T i vs { s with ntmp := n } = .ok a s') : Caps B s' := by
  have hcm := new_commit hw hi hn hk
  have habs : abs { s with obj := upd s.obj i (some {}), ntmp := n } i = some (({} : Storage), ([] : List α)) := by rw [hcm.2, upd_same]
  unfold ctorInput construct at hr
  rw [M.bind_ok (newObj_ok (s := { s with ntmp := n }) hi)] at hr
  have hc1 : Caps B { s with obj := upd s.obj i (some {}), ntmp := n } := Caps.upd hc (by intro p hp; cases hp; exact Nat.zero_le _)
  cases hp : pushAll T i vs { s with obj := upd s.obj i (some {}), ntmp := n } with
  | ok b s1 =>
    rw [M.onExc_ok hp] at hr
    cases hr
    exact pushAll_caps vs hcm.1 habs hp hB (by simp only; omega) hc1
  | exc e s1 =>
    unfold M.onExc at hr
    simp only [hp] at hr
    split at hr <;> cases hr
  | ub => unfold M.onExc at hr; simp only [hp] at hr; cases hr
  | term => unfold M.onExc at hr; simp only [hp] at hr; cases hr

/-- a call that collects a single-pass range in a temporary vector -/
theorem caps_withVector (hw : WF T s) (vs : List α) (hB : 10 ≤ B) (hv : 2 * vs.length ≤ B) (hc : Caps B s) {body : Id → VM α β} {a : β}
    (hr : withVector T vs body s = .ok a s')
    (hbody : ∀ {s1 s2 : St α Storage} {a : β} {ot : Storage}, WF T s1 → Caps B s1 → abs s1 = upd (abs s) (.tmp s.ntmp) (some (ot, vs)) →
      body (.tmp s.ntmp) s1 = .ok a s2 → Caps B s2) : Caps B s' := by
  have hf := hw.freshT _ (Nat.le_refl _)
  have hk : ∀ k, Id.tmp s.ntmp = .tmp k → k < s.ntmp + 1 := by intro k h; cases h; omega
  have h1 := ctorInput_any hw hf (n := s.ntmp + 1) (Nat.le_succ _) hk vs
  unfold withVector at hr
  simp only at hr
  rw [M.bind_run] at hr
  cases hr1 : ctorInput T (.tmp s.ntmp) vs { s with ntmp := s.ntmp + 1 } with
  | ok b s1 =>
    rw [hr1] at h1 hr
    obtain ⟨hw1, _, _, ot, habs1⟩ := h1
    have hc1 := caps_ctorInput hw hf (Nat.le_succ _) hk vs hB hv hc hr1
    simp only [M.withDtor] at hr
    cases hb : body (.tmp s.ntmp) s1 with
    | ok c s2 =>
      rw [hb] at hr
      simp only at hr
      have hc2 := hbody hw1 hc1 habs1 hb
      cases hd : Storage.dtor (.tmp s.ntmp) s2 with
      | ok _ s3 => rw [hd] at hr; cases hr; exact caps_ok (caps_dtor _) hc2 hd
      | exc => rw [hd] at hr; cases hr
      | ub => rw [hd] at hr; cases hr
      | term => rw [hd] at hr; cases hr
    | exc e s2 =>
      rw [hb] at hr
      simp only at hr
      split at hr <;> cases hr
    | ub => rw [hb] at hr; cases hr
    | term => rw [hb] at hr; cases hr
  | exc => rw [hr1] at hr; cases hr
  | ub => rw [hr1] at hr; cases hr
  | term => rw [hr1] at hr; cases hr

/-! ### the calls -/

/-- after resolving the arguments, which changes nothing -/
theorem caps_after {γ : Type} {m : VM α γ} {f : γ → VM α β} {a : γ} {b : β} (hm : m s = .ok a s) (hr : (m >>= f) s = .ok b s')
    (h : f a s = .ok b s' → Caps B s') : Caps B s' := by
  rw [M.bind_ok hm] at hr
  exact h hr

/-- a part of a call that is followed by computing an offset -/
theorem caps_then {γ : Type} {m : VM α γ} {f : γ → VM α β} {b : β} (hr : (m >>= f) s = .ok b s') (hf : ∀ a, Frm (Capped B) (f a))
    (h : ∀ {a s1}, m s = .ok a s1 → Caps B s1) : Caps B s' := by
  rw [M.bind_run] at hr
  cases hm : m s with
  | ok a s1 => rw [hm] at hr; exact caps_ok (hf a) (h hm) hr
  | exc => rw [hm] at hr; cases hr
  | ub => rw [hm] at hr; cases hr
  | term => rw [hm] at hr; cases hr

theorem vars_siz (hinv : Inv T s) {i : Nat} {xs : List α} (h : vars s i = some xs) : ∃ o, s.obj (.var i) = some o ∧ o.siz = xs.length := by
  obtain ⟨o, habs⟩ := vars_some h
  exact ⟨o, (hinv.wf.get habs).1, (hinv.wf.get habs).2.siz⟩

theorem map_length_eq {o o' : Option (List α)} (h : o.map List.length = o'.map List.length) {xs : List α} (hx : o' = some xs) :
    ∃ ys, o = some ys ∧ ys.length = xs.length := by
  subst hx
  cases o with
  | none => cases h
  | some ys => exact ⟨ys, rfl, by simpa using h⟩

theorem caps_step (h : Reach T s V) {op : Op α} {r r' : Option Nat} (hs : Spec T op V V' r) (hr : op.run T s = .ok r' s') {N : Nat}
    (h1 : ∀ i xs, V' i = some xs → xs.length ≤ N) (h2 : ∀ i n, op = .reserve i n → n ≤ N) (hc : Caps (max 10 (2 * N)) s) :
    Caps (max 10 (2 * N)) s' := by
  obtain ⟨hinv, rfl⟩ := h.inv
  have hB : 10 ≤ max 10 (2 * N) := Nat.le_max_left _ _
  have hN : ∀ {n}, n ≤ N → n ≤ max 10 (2 * N) := by intro n h; omega
  have hN2 : ∀ {n}, n ≤ N → 2 * n ≤ max 10 (2 * N) := by intro n h; omega
  cases hs with
  | ctorDefault hi => exact caps_ok (caps_noRet (caps_newObj _ (Nat.zero_le _))) hc hr
  | @ctorCount i n _ hi _ =>
    have := h1 i _ (upd_same _ _ _)
    rw [List.length_replicate] at this
    exact caps_ok (caps_noRet (caps_construct _ (caps_resizeImpl _ hB (hN this) fun _ _ => caps_uninitLoop _ _ _))) hc hr
  | @ctorFill i n x v _ hi _ hx =>
    have := h1 i _ (upd_same _ _ _)
    rw [List.length_replicate] at this
    obtain ⟨a, ha, _⟩ := Src.resolve_spec hinv.wf hx
    exact caps_after ha hr fun hr =>
      caps_ok (caps_noRet (caps_construct _ (caps_resizeImpl _ hB (hN this) fun _ _ => caps_uninitLoop _ _ _))) hc hr
  | @ctorRange i x vs _ V1 hi hx _ =>
    have := h1 i _ (upd_same _ _ _)
    obtain ⟨as, W, ha, hl, _⟩ := Rng.resolve_spec hinv.wf hx
    exact caps_after ha hr fun hr => caps_ok (caps_noRet (caps_construct _ (caps_assignRange _ hB (hl ▸ hN this)))) hc hr
  | @ctorInput i vs _ hi =>
    have := h1 i _ (upd_same _ _ _)
    exact caps_then hr (fun _ => .pure _) fun hm =>
      caps_ctorInput hinv.wf (vars_none hi) (Nat.le_refl _) (by intro k h; cases h) vs hB (hN2 this) hc hm
  | @ctorCopy i j ys _ hi hj =>
    have := h1 i _ (upd_same _ _ _)
    obtain ⟨o, ho, hl⟩ := vars_siz hinv hj
    refine caps_then hr (fun _ => .pure _) fun hm => ?_
    unfold ctorCopy at hm
    rw [M.bind_ok (data_ok ho), M.bind_ok (size_ok ho)] at hm
    exact caps_ok (caps_construct _ (caps_assignRange _ hB (by simp only [ptrRange, List.length_map, List.length_range]; omega))) hc hm
  | ctorMove hi hj => exact caps_ok (caps_noRet (caps_storageMove _ _)) hc hr
  | dtor hi => exact caps_ok (caps_noRet (caps_dtor _)) hc hr
  | @assignCopy i j xs ys _ hi hj =>
    have := h1 i _ (upd_same _ _ _)
    obtain ⟨o, ho, hl⟩ := vars_siz hinv hj
    refine caps_then hr (fun _ => .pure _) fun hm => ?_
    unfold assignCopy at hm
    split at hm
    · rw [M.bind_ok (data_ok ho), M.bind_ok (size_ok ho)] at hm
      exact caps_ok (caps_assignRange _ hB (by simp only [ptrRange, List.length_map, List.length_range]; omega)) hc hm
    · cases hm; exact hc
  | assignMove hi hj _ => exact caps_ok (caps_noRet (caps_moveAssign _ _)) hc hr
  | assignMoveSelf hi => exact caps_ok (caps_noRet (caps_moveAssign _ _)) hc hr
  | @assignRange i x xs vs _ V1 hi hx _ =>
    have := h1 i _ (upd_same _ _ _)
    obtain ⟨as, W, ha, hl, _⟩ := Rng.resolve_spec hinv.wf hx
    exact caps_after ha hr fun hr => caps_ok (caps_noRet (caps_assignRange _ hB (hl ▸ hN this))) hc hr
  | @assignInput i xs vs _ hi =>
    have := h1 i _ (upd_same _ _ _)
    exact caps_then hr (fun _ => .pure _) fun hm =>
      caps_withVector hinv.wf vs hB (hN2 this) hc hm fun _ hc1 _ hb => caps_ok (caps_moveAssign _ _) hc1 hb
  | @assignFill i n x v xs _ hi hx _ =>
    have := h1 i _ (upd_same _ _ _)
    rw [List.length_replicate] at this
    obtain ⟨a, ha, _⟩ := Src.resolve_spec hinv.wf hx
    exact caps_after ha hr fun hr => caps_ok (caps_noRet (caps_assignImpl _ hB (hN this) fun _ => caps_uninitLoop _ _ _)) hc hr
  | swap hi hj => exact caps_ok (caps_noRet (caps_swap _ _)) hc hr
  | @pushBack i x v xs _ V1 hx hi =>
    have := h1 i _ (upd_same _ _ _)
    obtain ⟨ys, hy, hl⟩ := map_length_eq (takes1_len hx i) hi
    obtain ⟨o, ho, hl'⟩ := vars_siz hinv hy
    obtain ⟨a, W, ha, _⟩ := Src1.resolve_spec hinv.wf hx
    refine caps_after ha hr fun hr => caps_then hr (fun _ => caps_offset _ _) fun hm =>
      caps_pushBack ho hB (hN2 (by simp at this; omega)) hc hm
  | @emplace i x v pre post _ V1 hx hi =>
    have := h1 i _ (upd_same _ _ _)
    obtain ⟨ys, hy, hl⟩ := map_length_eq (takes1_len hx i) hi
    obtain ⟨o, ho, hl'⟩ := vars_siz hinv hy
    obtain ⟨a, W, ha, _⟩ := Src1.resolve_spec hinv.wf hx
    refine caps_after ha hr fun hr => caps_after (pos_ok ho) hr fun hr => caps_then hr (fun _ => caps_offset _ _) fun hm =>
      caps_insertImpl ho (fun _ => caps_constructAt _ _) hB (hN2 (by simp at this hl; omega)) hc hm
  | @insertFill i n x v pre post _ hx hi _ =>
    have := h1 i _ (upd_same _ _ _)
    obtain ⟨o, ho, hl⟩ := vars_siz hinv hi
    obtain ⟨a, ha, _⟩ := Src.resolve_spec hinv.wf hx
    refine caps_after ha hr fun hr => caps_after (pos_ok ho) hr fun hr => caps_then hr (fun _ => caps_offset _ _) fun hm =>
      caps_insertImpl ho (fun _ => caps_uninitLoop _ _ _) hB (hN2 (by simp at this hl; omega)) hc hm
  | @insertRange i x vs pre post _ V1 hx hi _ =>
    have := h1 i _ (upd_same _ _ _)
    obtain ⟨ys, hy, hl⟩ := map_length_eq (takes_len hx i) hi
    obtain ⟨o, ho, hl'⟩ := vars_siz hinv hy
    obtain ⟨as, W, ha, hla, _⟩ := Rng.resolve_spec hinv.wf hx
    refine caps_after ha hr fun hr => caps_after (pos_ok ho) hr fun hr => caps_then hr (fun _ => caps_offset _ _) fun hm =>
      caps_insertImpl ho (fun _ => caps_uninitLoop _ _ _) hB (hN2 (by simp at this hl; omega)) hc hm
  | @insertInput i vs pre post _ hi _ =>
    have := h1 i _ (upd_same _ _ _)
    obtain ⟨o, ho, hl⟩ := vars_siz hinv hi
    simp only [List.length_append] at this hl
    refine caps_after (pos_ok ho) hr fun hr => caps_then hr (fun _ => caps_offset _ _) fun hm =>
      caps_withVector hinv.wf vs hB (hN2 (by omega)) hc hm fun {s1 s2 a ot} hw1 hc1 habs1 hb => ?_
    obtain ⟨ht, hgt⟩ := hw1.get (i := .tmp s.ntmp) (o := ot) (xs := vs) (by rw [habs1, upd_same])
    have ho1 : s1.obj (.var i) = some o := by
      have := congrFun habs1 (.var i)
      rw [upd_ne _ _ (by simp)] at this
      simp only [abs, ho, Option.map_some] at this
      cases h : s1.obj (.var i) with
      | none => simp [h] at this
      | some q =>
        simp only [h, Option.map_some, Option.some.injEq, Prod.mk.injEq] at this
        rw [this.1]
    have hsz := hgt.siz
    rw [M.bind_ok (data_ok ht), M.bind_ok (size_ok ht)] at hb
    exact caps_insertImpl ho1 (fun _ => caps_uninitLoop _ _ _) hB
      (hN2 (by simp only [moveRange, List.length_map, List.length_range]; omega)) hc1 hb
  | erase hi _ =>
    exact caps_ok (.bind (caps_pos _ _) fun _ => .bind (caps_pos _ _) fun _ => .bind (caps_erase _ _ _) fun _ => caps_offset _ _) hc hr
  | eraseOne hi => exact caps_ok (.bind (caps_pos _ _) fun _ => .bind (caps_erase _ _ _) fun _ => caps_offset _ _) hc hr
  | popBack hi => exact caps_ok (caps_noRet (caps_popBack _)) hc hr
  | clear hi => exact caps_ok (caps_noRet (caps_clear _)) hc hr
  | reserve hi _ => exact caps_ok (caps_noRet (caps_reserve _ hB (hN (h2 _ _ rfl)))) hc hr
  | @shrinkToFit i xs _ hi =>
    have := h1 i _ hi
    obtain ⟨o, ho, hl⟩ := vars_siz hinv hi
    refine caps_then hr (fun _ => .pure _) fun hm => ?_
    have e : shrinkToFit T (.var i) s = (M.noexcept do
        let cap ← capacity (.var i)
        if szMul o.siz 2 ≥ cap then pure ()
        else withStorage T o.siz fun tmp => do
          let d ← data (.var i)
          let t ← data tmp
          uninitializedMoveN T d o.siz t
          setSize tmp o.siz
          Storage.moveAssign (.var i) tmp : VM α Unit) s := by
      unfold shrinkToFit M.noexcept
      rw [M.bind_ok (size_ok ho)]
    rw [e] at hm
    have hreq : o.siz ≤ max 10 (2 * N) := by omega
    refine caps_ok ?_ hc hm
    frm
  | @resizeShrink i xs ys _ hi =>
    have := h1 i _ (upd_same _ _ _)
    exact caps_ok (caps_noRet (caps_resizeImpl _ hB (hN this) fun _ _ => caps_uninitLoop _ _ _)) hc hr
  | @resizeGrow i xs n _ hi _ =>
    have := h1 i _ (upd_same _ _ _)
    exact caps_ok (caps_noRet (caps_resizeImpl _ hB (hN (by simpa using this)) fun _ _ => caps_uninitLoop _ _ _)) hc hr
  | @resizeFillShrink i xs ys x v _ hi hx =>
    have := h1 i _ (upd_same _ _ _)
    obtain ⟨a, ha, _⟩ := Src.resolve_spec hinv.wf hx
    exact caps_after ha hr fun hr => caps_ok (caps_noRet (caps_resizeImpl _ hB (hN this) fun _ _ => caps_uninitLoop _ _ _)) hc hr
  | @resizeFillGrow i xs n x v _ hi hx _ =>
    have := h1 i _ (upd_same _ _ _)
    obtain ⟨a, ha, _⟩ := Src.resolve_spec hinv.wf hx
    exact caps_after ha hr fun hr =>
      caps_ok (caps_noRet (caps_resizeImpl _ hB (hN (by simpa using this)) fun _ _ => caps_uninitLoop _ _ _)) hc hr
  | write hi _ => exact caps_ok (.bind (caps_index _ _) fun _ => caps_noRet (caps_writeAt _ _)) hc hr
  | put hi _ => exact caps_ok (.bind (caps_index _ _) fun _ => caps_noRet (caps_putAt _ _)) hc hr

theorem ReachUpTo.reach {N : Nat} (h : ReachUpTo T N s V) : Reach T s V := by
  induction h with
  | start orc => exact .start orc
  | ok _ hs hr _ _ ih => exact ih.ok hs hr
  | thrown _ hs hr ih => exact ih.thrown hs hr

/-- C117: while no vector has had more than `N` elements, and no more were reserved, no vector holds on to memory for more than `2 * N`
elements (or 10, the least capacity there is) -/
theorem C117_memory {N : Nat} (h : ReachUpTo T N s V) {i : Nat} {d : Ptr} {c : Nat} {xs : List α} (hsh : Shows s i d c xs) :
    c ≤ max 10 (2 * N) := by
  have key : Caps (max 10 (2 * N)) s := by
    clear hsh
    induction h with
    | start orc => intro i o ho; cases ho
    | ok h hs hr h1 h2 ih => exact caps_step h.reach hs hr h1 h2 ih
    | @thrown s s' V V' op r e h hs hr ih =>
      obtain ⟨hinv, rfl⟩ := h.reach.inv
      have hst := step hinv hs
      rw [hr] at hst
      intro i o ho
      exact ih i o (by rw [← obj_ext hst.1.abs]; exact ho)
  obtain ⟨o, ho, _, rfl⟩ := h.reach.inv.1.of_shows hsh
  exact key _ o (h.reach.inv.1.wf.get ho).1

-- a vector has room for 20 elements at least, and for 40 at most, after `reserve(20)` and appending an element
example : ∃ (s : St Nat Storage) (V : Vars Nat) (d : Ptr) (c : Nat), ReachUpTo natElem 20 s V ∧ Shows s 0 d c [8] ∧ 20 ≤ c ∧ c ≤ 40 := by
  have short : ∀ (xs : List Nat), xs.length ≤ 20 → ∀ (V : Vars Nat), (∀ i ys, V i = some ys → ys.length ≤ 20) →
      ∀ i ys, upd V 0 (some xs) i = some ys → ys.length ≤ 20 := by
    intro xs hx V hV i ys hi
    simp only [upd] at hi
    split at hi
    · cases hi; exact hx
    · exact hV i ys hi
  have l1 := short [] (by decide) (fun _ => none) (by intro i ys h; cases h)
  have l2 := short [8] (by decide) _ l1
  have h0 : ReachUpTo natElem 20 (start Nat fun _ => false) fun _ => none := .start _
  have more : ∀ {V : Vars Nat}, (∀ i ys, V i = some ys → ys.length ≤ 20) → ∀ i ys, V i = some ys → ys.length ≤ 1000 := by
    intro V h i ys hi; have := h i ys hi; omega
  obtain ⟨s1, r1, h1, o1⟩ := h0.reach.next (Spec.ctorDefault (i := 0) rfl) (fun _ => rfl) (demo_short (more l1) (by intro i n h; cases h))
  have u1 := h0.ok (Spec.ctorDefault rfl) r1 l1 (by intro i n h; cases h)
  have sp2 : Spec natElem (.reserve 0 20) _ _ none := Spec.reserve (upd_same (fun _ => none) 0 (some [])) (by decide)
  obtain ⟨s2, r2, h2, o2⟩ := h1.next sp2 o1 (demo_short (more l1) (by intro i n h; cases h; decide))
  have u2 := u1.ok sp2 r2 l1 (by intro i n h; cases h; decide)
  obtain ⟨d, c, hsh, hc⟩ := C10_reserve h1 (upd_same _ _ _) (by decide) r2
  have sp3 : Spec natElem (.pushBack 0 (.ref (.val 8))) _ _ _ := Spec.pushBack (xs := []) (.ref (.val 8)) (upd_same (fun _ => none) 0 (some []))
  obtain ⟨s3, r3, h3, o3⟩ := h2.next sp3 o2 (demo_short (more l2) (by intro i n h; cases h))
  have u3 := u2.ok sp3 r3 l2 (by intro i n h; cases h)
  have hin := C06_insert_in_place h2 sp3 .pushBack hsh (by simp; omega)
  rw [r3] at hin
  obtain ⟨⟨ys, hy, hs3⟩, _⟩ := hin
  rw [upd_same] at hy
  cases hy
  exact ⟨s3, _, d, c, u3, hs3, hc, C117_memory u3 hs3⟩

end Ptl.Vector

import Verif.Cost
import Verif.Vector.Client

/-!
# What the calls of a vector spend

Two counters: blocks allocated, and steps that may fail other than allocations that succeeded (constructions and copies
of elements, and an allocation that throws).  The bounds hold in every state, so no invariant is needed.
-/

namespace Ptl.Vector

variable {α β : Type} (T : Elem α)

/-- the two counters -/
inductive Counter where
  | blocks
  | copies

/-- the counter; an allocation that succeeds raises `tick` and `nblk`, one that fails raises `tick` only -/
def Counter.of : Counter → Meter (St α Storage)
  | .blocks => ⟨fun s => s.nblk, fun _ => 0⟩
  | .copies => ⟨fun s => s.tick - s.nblk, fun e => if e = .badAlloc then 1 else 0⟩

/-- what an allocation adds to the counter -/
def Counter.block : Counter → Nat
  | .blocks => 1
  | .copies => 0

/-- what a construction from a value, or a copy, adds to the counter -/
def Counter.user : Counter → Nat
  | .blocks => 0
  | .copies => 1

variable {c : Counter} {n : Nat}

/-! ### primitives -/

theorem sp_fallible (e : Exc) : Spends c.of c.user (fallible e : VM α Unit) := by
  intro s
  cases c <;> simp only [fallible, Counter.of, Counter.user] <;> split <;> rename_i h <;> split at h <;> cases h <;>
    simp only [reduceIte] <;> omega

theorem sp_alloc (m : Nat) : Spends c.of c.block (alloc m : VM α Nat) := by
  intro s
  cases c <;> simp only [alloc, Counter.of, Counter.block] <;> split <;> rename_i h <;> split at h <;> cases h <;>
    simp only [reduceIte] <;> omega

/-- a primitive that leaves both counters alone -/
theorem sp_keep {m : VM α β} (h : ∀ s, match m s with
    | .ok _ s' => s'.nblk = s.nblk ∧ s'.tick = s.tick
    | .exc _ s' => s'.nblk = s.nblk ∧ s'.tick = s.tick
    | _ => True) : Spends c.of n m := by
  intro s
  have := h s
  cases e : m s <;> simp only [e] at this ⊢ <;> cases c <;> simp only [Counter.of] <;> omega

theorem sp_getObj (i : Id) : Spends c.of n (getObj i : VM α Storage) :=
  sp_keep fun s => by unfold getObj; cases s.obj i <;> simp
theorem sp_setObj (i : Id) (o : Storage) : Spends c.of n (setObj i o : VM α Unit) :=
  sp_keep fun s => by unfold setObj; cases s.obj i <;> simp
theorem sp_newObj (i : Id) (o : Storage) : Spends c.of n (newObj i o : VM α Unit) :=
  sp_keep fun s => by unfold newObj; cases s.obj i <;> simp
theorem sp_killObj (i : Id) : Spends c.of n (killObj i : VM α Unit) :=
  sp_keep fun s => by unfold killObj; cases s.obj i <;> simp
theorem sp_slotAt (p : Ptr) : Spends c.of n (slotAt p : VM α (Option α)) :=
  sp_keep fun s => by
    unfold slotAt
    cases p.blk with
    | none => trivial
    | some b => cases h : s.blk b with
      | none => simp [h]
      | some l => cases h' : l[p.off]? <;> simp [h, h']
theorem sp_setSlot (p : Ptr) (x : Option α) : Spends c.of n (setSlot p x : VM α Unit) :=
  sp_keep fun s => by
    unfold setSlot
    cases p.blk with
    | none => trivial
    | some b => cases h : s.blk b with
      | none => simp [h]
      | some l => by_cases h' : p.off < l.length <;> simp [h, h']
theorem sp_countMove : Spends c.of n (countMove : VM α Unit) := sp_keep fun _ => ⟨rfl, rfl⟩
theorem sp_rotate (f m l : Ptr) : Spends c.of n (rotate f m l : VM α Unit) :=
  sp_keep fun s => by
    unfold rotate
    by_cases h : f.blk = m.blk ∧ m.blk = l.blk ∧ f.off ≤ m.off ∧ m.off ≤ l.off
    · rw [if_pos h]
      by_cases h2 : f.off = l.off
      · rw [if_pos h2]; exact ⟨rfl, rfl⟩
      · rw [if_neg h2]
        cases f.blk with
        | none => trivial
        | some b => cases h3 : s.blk b with
          | none => simp only [h3]
          | some d =>
            simp only [h3]
            by_cases h4 : d.length < l.off
            · rw [if_pos h4]; trivial
            · rw [if_neg h4]
              by_cases h5 : ((d.drop f.off).take (l.off - f.off)).all Option.isSome
              · rw [if_pos h5]; exact ⟨rfl, rfl⟩
              · rw [if_neg h5]; trivial
    · rw [if_neg h]; trivial
theorem sp_free (d : Nat) (b : Option Nat) : Spends c.of n (free d b : VM α Unit) := by
  cases b with
  | none => exact Spends.pure _
  | some b =>
    refine sp_keep fun s => ?_
    unfold free
    cases h : s.blk b with
    | none => simp [h]
    | some l => by_cases h' : l.all Option.isNone <;> by_cases hd : d = b <;> simp [h, h', hd]
theorem sp_distance (p q : Ptr) : Spends c.of n (distance p q : VM α Nat) := by unfold distance; spend

macro_rules | `(tactic| spend1) => `(tactic| apply sp_getObj)
macro_rules | `(tactic| spend1) => `(tactic| apply sp_setObj)
macro_rules | `(tactic| spend1) => `(tactic| apply sp_newObj)
macro_rules | `(tactic| spend1) => `(tactic| apply sp_killObj)
macro_rules | `(tactic| spend1) => `(tactic| apply sp_slotAt)
macro_rules | `(tactic| spend1) => `(tactic| apply sp_setSlot)
macro_rules | `(tactic| spend1) => `(tactic| apply sp_countMove)
macro_rules | `(tactic| spend1) => `(tactic| apply sp_rotate)
macro_rules | `(tactic| spend1) => `(tactic| apply sp_free)
macro_rules | `(tactic| spend1) => `(tactic| apply sp_distance)

theorem sp_readAt (p : Ptr) : Spends c.of n (readAt p : VM α α) := by unfold readAt; spend
theorem sp_initAt (p : Ptr) (v : α) : Spends c.of n (initAt p v : VM α Unit) := by unfold initAt; spend
theorem sp_destroyAt (p : Ptr) : Spends c.of n (destroyAt p : VM α Unit) := by unfold destroyAt; spend
macro_rules | `(tactic| spend1) => `(tactic| apply sp_readAt)
macro_rules | `(tactic| spend1) => `(tactic| apply sp_initAt)
macro_rules | `(tactic| spend1) => `(tactic| apply sp_destroyAt)
theorem sp_moveAssignAt (p q : Ptr) : Spends c.of n (moveAssignAt T p q) := by unfold moveAssignAt; spend
macro_rules | `(tactic| spend1) => `(tactic| apply sp_moveAssignAt)


/-! ### algorithms -/

/-- an element that is moved costs nothing -/
def Arg.cost : Arg α → Nat
  | .val _ => 1
  | .copy _ => 1
  | .move _ => 0

/-- the elements of a range that are not moved -/
def Arg.costs : List (Arg α) → Nat
  | [] => 0
  | a :: as => a.cost + Arg.costs as

theorem sp_constructAt (p : Ptr) (a : Arg α) : Spends c.of (a.cost * c.user) (constructAt T p a) := by
  cases a with
  | val v => rw [Arg.cost, Nat.one_mul]; exact Spends.bindR (sp_fallible _) fun _ => by spend
  | copy q =>
    rw [Arg.cost, Nat.one_mul]
    exact Spends.bind0 (by spend) fun _ => Spends.bindR (sp_fallible _) fun _ => by spend
  | move q => unfold constructAt; spend
theorem sp_constructMove (p q : Ptr) : Spends c.of n (constructAt T p (.move q)) := by unfold constructAt; spend
macro_rules | `(tactic| spend1) => `(tactic| apply sp_constructMove)

theorem sp_destroyN (p : Ptr) (k : Nat) : Spends c.of n (destroyN p k : VM α Unit) := by
  induction k generalizing p with
  | zero => exact Spends.pure _
  | succ k ih => unfold destroyN; exact Spends.bind0 (by spend) fun _ => ih _
macro_rules | `(tactic| spend1) => `(tactic| apply sp_destroyN)
theorem sp_uninitLoop (first cur : Ptr) (as : List (Arg α)) :
    Spends c.of (Arg.costs as * c.user) (uninitLoop T first cur as) := by
  induction as generalizing cur with
  | nil => exact Spends.pure _
  | cons a as ih =>
    unfold uninitLoop
    rw [Arg.costs, Nat.add_mul]
    exact Spends.bind (Spends.onExc (sp_constructAt T _ _) (by spend)) fun _ => ih _
theorem Arg.costs_replicate (k : Nat) (a : Arg α) : Arg.costs (List.replicate k a) ≤ k := by
  induction k with
  | zero => exact Nat.le_refl _
  | succ k ih => rw [List.replicate_succ, Arg.costs]; have : a.cost ≤ 1 := by cases a <;> simp [Arg.cost]
                 omega
theorem sp_uninitializedCopy (as : List (Arg α)) (p : Ptr) :
    Spends c.of (Arg.costs as * c.user) (uninitializedCopy T as p) := sp_uninitLoop T _ _ _
theorem sp_uninitializedFillN (p : Ptr) (k : Nat) (a : Arg α) :
    Spends c.of (k * c.user) (uninitializedFillN T p k a) := by
  have h := sp_uninitLoop T (c := c) p p (List.replicate k a)
  exact h.mono (Nat.mul_le_mul_right _ (Arg.costs_replicate _ _))
theorem sp_uninitializedValueConstructN (p : Ptr) (k : Nat) :
    Spends c.of (k * c.user) (uninitializedValueConstructN T p k) := by
  have h := sp_uninitLoop T (c := c) p p (List.replicate k (.val T.dflt))
  exact h.mono (Nat.mul_le_mul_right _ (Arg.costs_replicate _ _))
theorem sp_uninitializedMoveN (p q : Ptr) (k : Nat) : Spends c.of n (uninitializedMoveN T p k q) := by
  induction k generalizing p q with
  | zero => exact Spends.pure _
  | succ k ih =>
    unfold uninitializedMoveN
    exact Spends.bind0 (by spend) fun _ => Spends.bind0 (by spend) fun _ => ih _ _
macro_rules | `(tactic| spend1) => `(tactic| apply sp_uninitializedMoveN)
theorem sp_moveN (p q : Ptr) (k : Nat) : Spends c.of n (moveN T p k q) := by
  induction k generalizing p q with
  | zero => exact Spends.pure _
  | succ k ih => unfold moveN; exact Spends.bind0 (by spend) fun _ => ih _ _
macro_rules | `(tactic| spend1) => `(tactic| apply sp_moveN)

/-! ### `storage_t` -/

theorem sp_release (o : Storage) : Spends c.of n (o.release : VM α Unit) := by unfold Storage.release; spend
macro_rules | `(tactic| spend1) => `(tactic| apply sp_release)
theorem sp_sdtor (i : Id) : Spends c.of n (Storage.dtor i : VM α Unit) := by unfold Storage.dtor; spend
macro_rules | `(tactic| spend1) => `(tactic| apply sp_sdtor)
theorem sp_ctorCap (i : Id) (k : Nat) : Spends c.of c.block (Storage.ctorCap T i k) := by
  unfold Storage.ctorCap
  refine Spends.ite (fun _ => by spend) fun _ => Spends.ite (fun _ => by spend) fun _ => ?_
  exact Spends.bindR (sp_alloc _) fun _ => by spend
theorem sp_sctorMove (i j : Id) : Spends c.of n (Storage.ctorMove i j : VM α Unit) := by unfold Storage.ctorMove; spend
theorem sp_moveAssign (i j : Id) : Spends c.of n (Storage.moveAssign i j : VM α Unit) := by
  unfold Storage.moveAssign; spend
theorem sp_data (i : Id) : Spends c.of n (data i : VM α Ptr) := by unfold data; spend
theorem sp_size (i : Id) : Spends c.of n (size i : VM α Nat) := by unfold size; spend
theorem sp_capacity (i : Id) : Spends c.of n (capacity i : VM α Nat) := by unfold capacity; spend
theorem sp_setSize (i : Id) (k : Nat) : Spends c.of n (setSize i k : VM α Unit) := by unfold setSize; spend
theorem sp_swap (i j : Id) : Spends c.of n (swap i j : VM α Unit) := by unfold swap; spend
macro_rules | `(tactic| spend1) => `(tactic| apply sp_sctorMove)
macro_rules | `(tactic| spend1) => `(tactic| apply sp_moveAssign)
macro_rules | `(tactic| spend1) => `(tactic| apply sp_data)
macro_rules | `(tactic| spend1) => `(tactic| apply sp_size)
macro_rules | `(tactic| spend1) => `(tactic| apply sp_capacity)
macro_rules | `(tactic| spend1) => `(tactic| apply sp_setSize)
macro_rules | `(tactic| spend1) => `(tactic| apply sp_swap)
theorem sp_empty (i : Id) : Spends c.of n (empty i : VM α Bool) := by unfold empty; spend
macro_rules | `(tactic| spend1) => `(tactic| apply sp_empty)

/-- entering a scope with a temporary changes neither counter -/
theorem sp_tmp {m : Id → VM α β} (h : ∀ t, Spends c.of n (m t)) :
    Spends c.of n (fun s => m (.tmp s.ntmp) { s with ntmp := s.ntmp + 1 }) := by
  intro s
  have := h (.tmp s.ntmp) { s with ntmp := s.ntmp + 1 }
  cases c <;> exact this
theorem sp_withStorage {k : Nat} {body : Id → VM α β} (h : ∀ t, Spends c.of n (body t)) :
    Spends c.of (c.block + n) (withStorage T k body) :=
  sp_tmp (m := fun t => do Storage.ctorCap T t k; M.withDtor (body t) (Storage.dtor t)) fun t =>
    Spends.bind (sp_ctorCap T _ _) fun _ => Spends.withDtor (h t) (by spend)

/-! ### members -/

theorem sp_assignImpl (i : Id) (k : Nat) {func : Ptr → VM α Unit} (h : ∀ p, Spends c.of n (func p)) :
    Spends c.of (c.block + n) (assignImpl T i k func) := by
  unfold assignImpl
  refine Spends.bind0 (by spend) fun _ => Spends.bind0 (by spend) fun _ => Spends.ite (fun _ => ?_) fun _ => ?_
  · exact Spends.mono (Spends.bind0 (by spend) fun _ => Spends.bindR (h _) fun _ => by spend) (by omega)
  · exact sp_withStorage T fun _ => Spends.bind0 (by spend) fun _ => Spends.bindR (h _) fun _ => by spend
theorem sp_insertImpl (i : Id) (p : Ptr) (k : Nat) {func : Ptr → VM α Unit} (h : ∀ p, Spends c.of n (func p)) :
    Spends c.of (c.block + n) (insertImpl T i p k func) := by
  unfold insertImpl
  refine Spends.bind0 (by spend) fun _ => Spends.bind0 (by spend) fun _ => Spends.bind0 (by spend) fun _ =>
    Spends.bind0 (by spend) fun _ => Spends.bindR (Spends.ite (fun _ => ?_) fun _ => ?_) fun _ => by spend
  · exact Spends.mono (Spends.bindR (h _) fun _ => by spend) (by omega)
  · exact sp_withStorage T fun _ => Spends.bind0 (by spend) fun _ => Spends.bindR (h _) fun _ => by spend
theorem sp_erase (i : Id) (p q : Ptr) : Spends c.of n (erase T i p q) := by unfold erase; spend
macro_rules | `(tactic| spend1) => `(tactic| apply sp_erase)
theorem sp_eraseOne (i : Id) (p : Ptr) : Spends c.of n (eraseOne T i p) := by unfold eraseOne; spend
macro_rules | `(tactic| spend1) => `(tactic| apply sp_eraseOne)
theorem sp_resizeImpl (i : Id) (k : Nat) {func : Ptr → Nat → VM α Unit}
    (h : ∀ p m, m ≤ k → Spends c.of (m * c.user) (func p m)) : Spends c.of (c.block + k * c.user) (resizeImpl T i k func) := by
  unfold resizeImpl
  refine Spends.bind0 (by spend) fun sz => Spends.ite (fun _ => by spend) fun _ =>
    Spends.ite (fun _ => by spend) fun _ => ?_
  refine Spends.mono (n := c.block + (k - sz) * c.user)
    (sp_withStorage T fun _ => Spends.bind0 (by spend) fun _ => Spends.bindR (h _ _ (Nat.sub_le _ _)) fun _ => by spend) ?_
  exact Nat.add_le_add_left (Nat.mul_le_mul_right _ (Nat.sub_le _ _)) _
theorem sp_resize (i : Id) (k : Nat) : Spends c.of (c.block + k * c.user) (resize T i k) :=
  sp_resizeImpl T i k fun _ _ _ => sp_uninitializedValueConstructN T _ _
theorem sp_resizeFill (i : Id) (k : Nat) (a : Arg α) : Spends c.of (c.block + k * c.user) (resizeFill T i k a) :=
  sp_resizeImpl T i k fun _ _ _ => sp_uninitializedFillN T _ _ _
theorem sp_emplace (i : Id) (p : Ptr) (a : Arg α) : Spends c.of (c.block + a.cost * c.user) (emplace T i p a) :=
  sp_insertImpl T i p 1 fun _ => sp_constructAt T _ _
theorem sp_end (i : Id) : Spends c.of n (end_ i : VM α Ptr) := by unfold end_; spend
macro_rules | `(tactic| spend1) => `(tactic| apply sp_end)
theorem sp_pushBack (i : Id) (a : Arg α) : Spends c.of (c.block + a.cost * c.user) (pushBack T i a) :=
  Spends.bind0 (by spend) fun _ => sp_emplace T _ _ _
theorem sp_popBack (i : Id) : Spends c.of n (popBack i : VM α Unit) := by unfold popBack; spend
theorem sp_clear (i : Id) : Spends c.of n (clear i : VM α Unit) := by unfold clear; spend
macro_rules | `(tactic| spend1) => `(tactic| apply sp_popBack)
macro_rules | `(tactic| spend1) => `(tactic| apply sp_clear)
theorem sp_reserve (i : Id) (k : Nat) : Spends c.of c.block (reserve T i k) := by
  unfold reserve
  refine Spends.bind0 (by spend) fun _ => Spends.ite (fun _ => by spend) fun _ => ?_
  refine sp_withStorage T (n := 0) fun _ => ?_
  refine Spends.bind0 (by spend) fun _ => Spends.bind0 (by spend) fun _ => Spends.bind0 ?_ fun _ => ?_ <;> spend
theorem sp_shrinkToFit (i : Id) : Spends c.of c.block (shrinkToFit T i) := by
  unfold shrinkToFit
  refine Spends.noexcept (Spends.bind0 (by spend) fun _ => Spends.bind0 (by spend) fun _ =>
    Spends.ite (fun _ => by spend) fun _ => ?_)
  exact sp_withStorage T (n := 0) fun _ => by spend
theorem sp_assignRange (i : Id) (as : List (Arg α)) : Spends c.of (c.block + Arg.costs as * c.user) (assignRange T i as) :=
  sp_assignImpl T i _ fun _ => sp_uninitializedCopy T _ _
theorem sp_assignFill (i : Id) (k : Nat) (a : Arg α) : Spends c.of (c.block + k * c.user) (assignFill T i k a) :=
  sp_assignImpl T i _ fun _ => sp_uninitializedFillN T _ _ _
theorem sp_insertRange (i : Id) (p : Ptr) (as : List (Arg α)) :
    Spends c.of (c.block + Arg.costs as * c.user) (insertRange T i p as) :=
  sp_insertImpl T i p _ fun _ => sp_uninitializedCopy T _ _
theorem sp_insertFill (i : Id) (p : Ptr) (k : Nat) (a : Arg α) :
    Spends c.of (c.block + k * c.user) (insertFill T i p k a) :=
  sp_insertImpl T i p _ fun _ => sp_uninitializedFillN T _ _ _
theorem sp_construct (i : Id) {body : VM α Unit} (h : Spends c.of n body) : Spends c.of n (construct i body) := by
  unfold construct; spend
theorem sp_pushAll (i : Id) (vs : List α) : Spends c.of (vs.length * (c.block + c.user)) (pushAll T i vs) := by
  induction vs with
  | nil => exact Spends.pure _
  | cons v vs ih =>
    unfold pushAll
    rw [List.length_cons, Nat.succ_mul, Nat.add_comm]
    exact Spends.bind (Spends.mono (sp_pushBack T _ _) (by simp [Arg.cost])) fun _ => ih
theorem sp_withVector (vs : List α) {body : Id → VM α β} (h : ∀ t, Spends c.of n (body t)) :
    Spends c.of (vs.length * (c.block + c.user) + n) (withVector T vs body) :=
  sp_tmp (m := fun t => do ctorInput T t vs; M.withDtor (body t) (Storage.dtor t)) fun t =>
    Spends.bind (sp_construct _ (sp_pushAll T _ _)) fun _ => Spends.withDtor (h t) (by spend)

end Ptl.Vector

import Verif.Cost
import Verif.Str.Client

/-!
# What the calls of a string spend

Two counters: blocks allocated, and steps that may fail other than allocations that succeeded (dereferencing iterators
that may throw, and an allocation that throws).  The bounds hold in every state, so no invariant is needed.
-/

namespace Ptl.Str

variable {β : Type}

/-- the two counters -/
inductive Counter where
  | blocks
  | derefs

/-- the counter; an allocation that succeeds raises `tick` and `nblk`, one that fails raises `tick` only -/
def Counter.of : Counter → Meter (St)
  | .blocks => ⟨fun s => s.nblk, fun _ => 0⟩
  | .derefs => ⟨fun s => s.tick - s.nblk, fun e => if e = .badAlloc then 1 else 0⟩

/-- what an allocation adds to the counter -/
def Counter.block : Counter → Nat
  | .blocks => 1
  | .derefs => 0

/-- what dereferencing an iterator that may throw adds to the counter -/
def Counter.user : Counter → Nat
  | .blocks => 0
  | .derefs => 1

variable {c : Counter} {n : Nat}

/-! ### primitives -/

theorem sp_fallible (e : Exc) : Spends c.of c.user (fallible e) := by
  intro s
  cases c <;> simp only [fallible, Counter.of, Counter.user] <;> split <;> rename_i h <;> split at h <;> cases h <;>
    simp only [reduceIte] <;> omega

theorem sp_newChar (m : Nat) : Spends c.of c.block (newChar m) := by
  intro s
  unfold newChar
  by_cases h1 : m > ptrdiffMax
  · rw [if_pos h1]; simp only; omega
  · rw [if_neg h1]
    by_cases h2 : s.orc s.tick
    · rw [if_pos h2]; cases c <;> simp only [Counter.of, Counter.block, reduceIte] <;> omega
    · rw [if_neg h2]; cases c <;> simp only [Counter.of, Counter.block, reduceIte] <;> omega

/-- a primitive that leaves both counters alone -/
theorem sp_keep {m : SM β} (h : ∀ s, match m s with
    | .ok _ s' => s'.nblk = s.nblk ∧ s'.tick = s.tick
    | .exc _ s' => s'.nblk = s.nblk ∧ s'.tick = s.tick
    | _ => True) : Spends c.of n m := by
  intro s
  have := h s
  cases e : m s <;> simp only [e] at this ⊢ <;> cases c <;> simp only [Counter.of] <;> omega

theorem sp_getObj (i : Id) : Spends c.of n (getObj i) := sp_keep fun s => by unfold getObj; cases s.obj i <;> simp
theorem sp_setObj (i : Id) (o : Obj) : Spends c.of n (setObj i o) :=
  sp_keep fun s => by unfold setObj; cases s.obj i <;> simp
theorem sp_newObj (i : Id) : Spends c.of n (newObj i) := sp_keep fun s => by unfold newObj; cases s.obj i <;> simp
theorem sp_killObj (i : Id) : Spends c.of n (killObj i) := sp_keep fun s => by unfold killObj; cases s.obj i <;> simp
theorem sp_readN (p : Ptr) (k : Nat) : Spends c.of n (readN p k) := sp_keep fun s => by
  unfold readN
  by_cases h0 : k = 0
  · rw [if_pos h0]; simp
  · rw [if_neg h0]
    cases p.base with
    | none => trivial
    | some b => cases h : s.mem b with
      | none => simp [h]
      | some l =>
        simp only [h]
        by_cases h1 : l.length < p.off + k
        · rw [if_pos h1]; trivial
        · rw [if_neg h1]
          by_cases h2 : ((l.drop p.off).take k).all Option.isSome
          · rw [if_pos h2]; exact ⟨rfl, rfl⟩
          · rw [if_neg h2]; trivial
theorem sp_writeN (p : Ptr) (bs : List UInt8) : Spends c.of n (writeN p bs) := sp_keep fun s => by
  unfold writeN
  by_cases h0 : bs = []
  · rw [if_pos h0]; simp
  · rw [if_neg h0]
    cases p.base with
    | none => trivial
    | some b => cases h : s.mem b with
      | none => simp [h]
      | some l =>
        simp only [h]
        by_cases h1 : l.length < p.off + bs.length
        · rw [if_pos h1]; trivial
        · rw [if_neg h1]; exact ⟨rfl, rfl⟩
theorem sp_readAt (p : Ptr) : Spends c.of n (readAt p) := sp_keep fun s => by
  unfold readAt
  cases p.base with
  | none => trivial
  | some b => cases h : s.mem b with
    | none => simp [h]
    | some l => cases h' : l[p.off]? with
      | none => simp [h, h']
      | some x => cases x <;> simp [h, h']
theorem sp_writeAt (p : Ptr) (v : UInt8) : Spends c.of n (writeAt p v) := sp_writeN _ _
theorem sp_countMoves (k : Nat) : Spends c.of n (countMoves k) := sp_keep fun _ => ⟨rfl, rfl⟩
theorem sp_nextBlk : Spends c.of n nextBlk := sp_keep fun _ => by simp [nextBlk]
theorem sp_deleteChar (d b : Nat) : Spends c.of n (deleteChar d b) :=
  sp_keep fun s => by unfold deleteChar; cases s.mem (.heap b) <;> by_cases h : d = b <;> simp [h]
theorem sp_setSsoSiz (i : Id) (k : Nat) : Spends c.of n (setSsoSiz i k) := sp_keep fun s => by
  unfold setSsoSiz
  cases s.obj i with
  | none => trivial
  | some o => cases h : o.u <;> simp [h]
theorem sp_setHeap (i : Id) (p k m : Nat) : Spends c.of n (setHeap i p k m) := sp_keep fun s => by
  unfold setHeap; cases s.obj i <;> simp
theorem sp_distance (p q : Ptr) : Spends c.of n (distance p q) := by unfold distance; spend

macro_rules | `(tactic| spend1) => `(tactic| apply sp_getObj)
macro_rules | `(tactic| spend1) => `(tactic| apply sp_setObj)
macro_rules | `(tactic| spend1) => `(tactic| apply sp_newObj)
macro_rules | `(tactic| spend1) => `(tactic| apply sp_killObj)
macro_rules | `(tactic| spend1) => `(tactic| apply sp_readN)
macro_rules | `(tactic| spend1) => `(tactic| apply sp_writeN)
macro_rules | `(tactic| spend1) => `(tactic| apply sp_readAt)
macro_rules | `(tactic| spend1) => `(tactic| apply sp_writeAt)
macro_rules | `(tactic| spend1) => `(tactic| apply sp_countMoves)
macro_rules | `(tactic| spend1) => `(tactic| apply sp_deleteChar)
macro_rules | `(tactic| spend1) => `(tactic| apply sp_nextBlk)
macro_rules | `(tactic| spend1) => `(tactic| apply sp_setSsoSiz)
macro_rules | `(tactic| spend1) => `(tactic| apply sp_setHeap)
macro_rules | `(tactic| spend1) => `(tactic| apply sp_distance)

/-! ### algorithms -/

theorem sp_memmove (p q : Ptr) (k : Nat) : Spends c.of n (memmove p q k) := by unfold memmove; spend
theorem sp_fill (p : Ptr) (k : Nat) (ch : UInt8) : Spends c.of n (fill p k ch) := by unfold fill; spend
theorem sp_rotate (f m l : Ptr) : Spends c.of n (rotate f m l) := by unfold rotate; spend
macro_rules | `(tactic| spend1) => `(tactic| apply sp_memmove)
macro_rules | `(tactic| spend1) => `(tactic| apply sp_fill)
macro_rules | `(tactic| spend1) => `(tactic| apply sp_rotate)

/-- only an iterator that may throw costs a step -/
def Arg.cost : Arg → Nat
  | .val _ => 0
  | .thr _ => 1
  | .at _ => 0

/-- number of iterators that may throw -/
def Arg.costs : List Arg → Nat
  | [] => 0
  | a :: as => a.cost + Arg.costs as

theorem sp_deref (a : Arg) : Spends c.of (a.cost * c.user) a.deref := by
  cases a with
  | val v => exact Spends.pure _
  | thr v => rw [Arg.cost, Nat.one_mul]; exact Spends.bindR (sp_fallible _) fun _ => by spend
  | «at» p => exact sp_readAt p
theorem sp_copyRange (as : List Arg) (p : Ptr) : Spends c.of (Arg.costs as * c.user) (copyRange as p) := by
  induction as generalizing p with
  | nil => exact Spends.pure _
  | cons a as ih =>
    unfold copyRange
    rw [Arg.costs, Nat.add_mul]
    exact Spends.bind (sp_deref a) fun _ => Spends.bind0 (by spend) fun _ => ih _

/-! ### `storage_t` -/

theorem sp_setDealloc (i : Id) (d : Option Nat) : Spends c.of n (setDealloc i d) := by unfold setDealloc; spend
theorem sp_ssoSiz (i : Id) : Spends c.of n (ssoSiz i) := by unfold ssoSiz; spend
theorem sp_heapOf (i : Id) : Spends c.of n (heapOf i) := by unfold heapOf; spend
macro_rules | `(tactic| spend1) => `(tactic| apply sp_setDealloc)
macro_rules | `(tactic| spend1) => `(tactic| apply sp_ssoSiz)
macro_rules | `(tactic| spend1) => `(tactic| apply sp_heapOf)
theorem sp_clearToSso (i : Id) : Spends c.of n (clearToSso i) := by unfold clearToSso; spend
theorem sp_copySso (i j : Id) : Spends c.of n (copySso i j) := by unfold copySso; spend
macro_rules | `(tactic| spend1) => `(tactic| apply sp_clearToSso)
macro_rules | `(tactic| spend1) => `(tactic| apply sp_copySso)
theorem sp_moveHeap (i j : Id) : Spends c.of n (moveHeap i j) := by unfold moveHeap; spend
macro_rules | `(tactic| spend1) => `(tactic| apply sp_moveHeap)
theorem sp_sctor (i : Id) : Spends c.of n (Storage.ctor i) := by unfold Storage.ctor; spend
macro_rules | `(tactic| spend1) => `(tactic| apply sp_sctor)
theorem sp_ctorCap (i : Id) (k : Nat) : Spends c.of c.block (Storage.ctorCap i k) := by
  unfold Storage.ctorCap
  refine Spends.bind0 (by spend) fun _ => Spends.ite (fun _ => Spends.onExc ?_ (by spend)) fun _ => by spend
  exact Spends.bind0 (by spend) fun _ => Spends.bind0 (by spend) fun _ => Spends.bindR (sp_newChar _) fun _ => by spend
theorem sp_sctorMove (i j : Id) : Spends c.of n (Storage.ctorMove i j) := by unfold Storage.ctorMove; spend
theorem sp_release (i : Id) : Spends c.of n (Storage.release i) := by unfold Storage.release; spend
macro_rules | `(tactic| spend1) => `(tactic| apply sp_sctorMove)
macro_rules | `(tactic| spend1) => `(tactic| apply sp_release)
theorem sp_moveAssign (i j : Id) : Spends c.of n (Storage.moveAssign i j) := by unfold Storage.moveAssign; spend
theorem sp_sdtor (i : Id) : Spends c.of n (Storage.dtor i) := by unfold Storage.dtor; spend
theorem sp_data (i : Id) : Spends c.of n (data i) := by unfold data; spend
theorem sp_capacity (i : Id) : Spends c.of n (capacity i) := by unfold capacity; spend
theorem sp_size (i : Id) : Spends c.of n (size i) := by unfold size; spend
theorem sp_setSize (i : Id) (k : Nat) : Spends c.of n (setSize i k) := by unfold setSize; spend
theorem sp_shrinkToFit (i : Id) : Spends c.of n (shrinkToFit i) := by unfold shrinkToFit; spend
theorem sp_swap (i j : Id) : Spends c.of n (swap i j) := by unfold swap; spend
macro_rules | `(tactic| spend1) => `(tactic| apply sp_moveAssign)
macro_rules | `(tactic| spend1) => `(tactic| apply sp_sdtor)
macro_rules | `(tactic| spend1) => `(tactic| apply sp_data)
macro_rules | `(tactic| spend1) => `(tactic| apply sp_capacity)
macro_rules | `(tactic| spend1) => `(tactic| apply sp_size)
macro_rules | `(tactic| spend1) => `(tactic| apply sp_setSize)
macro_rules | `(tactic| spend1) => `(tactic| apply sp_shrinkToFit)
macro_rules | `(tactic| spend1) => `(tactic| apply sp_swap)
theorem sp_empty (i : Id) : Spends c.of n (empty i) := by unfold empty; spend
theorem sp_index (i : Id) (k : Nat) : Spends c.of n (index i k) := by unfold index; spend
macro_rules | `(tactic| spend1) => `(tactic| apply sp_empty)
macro_rules | `(tactic| spend1) => `(tactic| apply sp_index)
theorem sp_back (i : Id) : Spends c.of n (back i) := by unfold back; spend
theorem sp_view (i : Id) : Spends c.of n (view i) := by unfold view; spend
macro_rules | `(tactic| spend1) => `(tactic| apply sp_back)
macro_rules | `(tactic| spend1) => `(tactic| apply sp_view)

/-- entering a scope with a temporary changes neither counter -/
theorem sp_tmp {m : Id → SM β} (h : ∀ t, Spends c.of n (m t)) :
    Spends c.of n (fun s => m (.tmp s.ntmp) { s with ntmp := s.ntmp + 1 }) := by
  intro s
  have := h (.tmp s.ntmp) { s with ntmp := s.ntmp + 1 }
  cases c <;> exact this
theorem sp_withStorage {k : Nat} {body : Id → SM β} (h : ∀ t, Spends c.of n (body t)) :
    Spends c.of (c.block + n) (withStorage k body) :=
  sp_tmp (m := fun t => do Storage.ctorCap t k; M.withDtor (body t) (Storage.dtor t)) fun t =>
    Spends.bind (sp_ctorCap _ _) fun _ => Spends.withDtor (h t) (by spend)
theorem sp_withString {k : Nat} {ctor : Id → SM Unit} {body : Id → SM β} (hc : ∀ t, Spends c.of k (ctor t))
    (h : ∀ t, Spends c.of n (body t)) : Spends c.of (k + n) (withString ctor body) :=
  sp_tmp (m := fun t => do ctor t; M.withDtor (body t) (Storage.dtor t)) fun t =>
    Spends.bind (hc _) fun _ => Spends.withDtor (h t) (by spend)

/-! ### members -/

theorem sp_reserve (i : Id) (k : Nat) : Spends c.of c.block (reserve i k) := by
  unfold reserve
  refine Spends.bind0 (by spend) fun _ => Spends.ite (fun _ => by spend) fun _ => Spends.ite (fun _ => by spend) fun _ => ?_
  refine sp_withStorage (n := 0) fun _ => ?_
  refine Spends.bind0 (by spend) fun _ => Spends.bind0 (by spend) fun _ => Spends.bind0 (by spend) fun _ =>
    Spends.bind0 ?_ fun _ => ?_ <;> spend
theorem sp_resize (i : Id) (k : Nat) (ch : UInt8) : Spends c.of c.block (resize i k ch) := by
  unfold resize
  exact Spends.bind0 (by spend) fun _ => Spends.bindR (sp_reserve _ _) fun _ => by spend
theorem sp_popBack (i : Id) : Spends c.of n (popBack i) := by unfold popBack; spend
theorem sp_clear (i : Id) : Spends c.of n (clear i) := by unfold clear; spend
theorem sp_erase (i : Id) (p q : Ptr) : Spends c.of n (erase i p q) := by unfold erase; spend
macro_rules | `(tactic| spend1) => `(tactic| apply sp_popBack)
macro_rules | `(tactic| spend1) => `(tactic| apply sp_clear)
macro_rules | `(tactic| spend1) => `(tactic| apply sp_erase)
theorem sp_eraseOne (i : Id) (p : Ptr) : Spends c.of n (eraseOne i p) := by unfold eraseOne; spend
macro_rules | `(tactic| spend1) => `(tactic| apply sp_eraseOne)
theorem sp_append (i : Id) (k : Nat) {f : Nat → SM Unit} (h : ∀ o, Spends c.of 0 (f o)) :
    Spends c.of c.block (appendNoAliasing i k f) :=
  Spends.bind0 (by spend) fun _ => Spends.bindR (sp_resize _ _ _) fun _ => h _
theorem sp_assign (i : Id) (k : Nat) {f : SM Unit} (h : Spends c.of 0 f) : Spends c.of c.block (assignNoAliasing i k f) :=
  Spends.bindR (sp_resize _ _ _) fun _ => h
theorem sp_insert (i : Id) (p : Ptr) (k : Nat) {f : Nat → SM Unit} (h : ∀ o, Spends c.of 0 (f o)) :
    Spends c.of c.block (insertNoAliasing i p k f) :=
  Spends.bind0 (by spend) fun _ => Spends.bind0 (by spend) fun _ => Spends.bind0 (by spend) fun _ =>
    Spends.bindR (sp_resize _ _ _) fun _ => Spends.bind0 (by spend) fun _ => Spends.bind0 (by spend) fun _ =>
    Spends.bind0 (by spend) fun _ => Spends.bind0 (by spend) fun _ => Spends.bind0 (h _) fun _ => by spend
theorem sp_replace (i : Id) (p q : Ptr) (k : Nat) {f : Nat → SM Unit} (h : ∀ o, Spends c.of 0 (f o)) :
    Spends c.of c.block (replaceNoAliasing i p q k f) := by
  unfold replaceNoAliasing
  refine Spends.bind0 (by spend) fun _ => Spends.bind0 (by spend) fun _ => Spends.bind0 (by spend) fun _ =>
    Spends.ite (fun _ => ?_) fun _ => ?_
  · exact Spends.bind0 (by spend) fun _ => Spends.bindR (sp_resize _ _ _) fun _ => Spends.bind0 (by spend) fun _ =>
      Spends.bind0 (by spend) fun _ => Spends.bind0 (by spend) fun _ => Spends.bind0 (by spend) fun _ => h _
  · exact Spends.bind0 (h _) fun _ => by spend
theorem sp_putAt (i : Id) (o : Nat) (bs : List UInt8) : Spends c.of n (putAt i o bs) := by unfold putAt; spend
theorem sp_fillAt (i : Id) (o k : Nat) (ch : UInt8) : Spends c.of n (fillAt i o k ch) := by unfold fillAt; spend
theorem sp_copyFrom (i t : Id) (o : Nat) : Spends c.of n (copyFrom i t o) := by unfold copyFrom; spend

/-! ### constructors -/

theorem sp_construct (i : Id) {body : SM Unit} (h : Spends c.of n body) : Spends c.of n (construct i body) := by
  unfold construct; spend
theorem sp_storageAssign (i : Id) (k : Nat) : Spends c.of c.block (storageAssign i k) :=
  sp_withStorage (n := 0) fun _ => by spend
theorem sp_ctorRange (i : Id) (as : List Arg) : Spends c.of (c.block + Arg.costs as * c.user) (ctorRange i as) :=
  sp_construct _ (Spends.bind (sp_storageAssign _ _) fun _ => Spends.bind0 (by spend) fun _ =>
    Spends.bind0 (by spend) fun _ => sp_copyRange _ _)
theorem sp_ctorFill (i : Id) (k : Nat) (ch : UInt8) : Spends c.of c.block (ctorFill i k ch) :=
  sp_construct _ (Spends.bindR (sp_storageAssign _ _) fun _ => by spend)
theorem sp_concat (i : Id) (as bs : List Arg) :
    Spends c.of (c.block + (Arg.costs as + Arg.costs bs) * c.user) (concat i as bs) := by
  rw [Nat.add_mul]
  exact sp_construct _ (Spends.bind (sp_storageAssign _ _) fun _ => Spends.bind0 (by spend) fun _ =>
    Spends.bind0 (by spend) fun _ => Spends.bind (sp_copyRange _ _) fun _ => sp_copyRange _ _)
theorem costs_ptr (p : Ptr) (k : Nat) : Arg.costs (ptrRange p k) = 0 := by
  unfold ptrRange
  generalize List.range k = l
  induction l with
  | nil => rfl
  | cons x l ih => rw [List.map_cons, Arg.costs, ih]; rfl
theorem sp_ctorPtr (i : Id) (p : Ptr) (k : Nat) : Spends c.of c.block (ctorRange i (ptrRange p k)) := by
  have := sp_ctorRange (c := c) i (ptrRange p k)
  rwa [costs_ptr, Nat.zero_mul] at this
theorem sp_ctorCopy (i j : Id) : Spends c.of c.block (ctorCopy i j) := Spends.bind0 (by spend) fun _ => sp_ctorPtr _ _ _
theorem sp_ctorMove (i j : Id) : Spends c.of n (ctorMove i j) := by unfold ctorMove; spend
theorem sp_assignMove (i j : Id) : Spends c.of n (assignMove i j) := by unfold assignMove; spend
macro_rules | `(tactic| spend1) => `(tactic| apply sp_ctorMove)
macro_rules | `(tactic| spend1) => `(tactic| apply sp_assignMove)
theorem sp_substr (i j : Id) (o : Nat) : Spends c.of c.block (substr i j o) :=
  Spends.bind0 (by spend) fun _ => Spends.bind0 (by spend) fun _ => Spends.bind0 (by spend) fun _ => sp_ctorPtr _ _ _
theorem sp_substrN (i j : Id) (o k : Nat) : Spends c.of c.block (substrN i j o k) :=
  Spends.bind0 (by spend) fun _ => sp_ctorPtr _ _ _
theorem sp_substrMove (i j : Id) (o : Nat) : Spends c.of n (substrMove i j o) := by unfold substrMove; spend
theorem sp_substrNMove (i j : Id) (o k : Nat) : Spends c.of n (substrNMove i j o k) := by unfold substrNMove; spend
theorem costs_val (l : List UInt8) : Arg.costs (l.map .val) = 0 := by
  induction l with
  | nil => rfl
  | cons x l ih => rw [List.map_cons, Arg.costs, ih]; rfl
theorem sp_literal (i : Id) (l : List UInt8) (k : Nat) : Spends c.of c.block (literal i l k) := by
  have := sp_ctorRange (c := c) i ((l.take (strlen l)).map .val)
  rw [costs_val, Nat.zero_mul] at this
  exact Spends.noexcept this

/-! ### modifiers from ranges -/

theorem sp_appendRange (i : Id) (as : List Arg) : Spends c.of (c.block + Arg.costs as * c.user) (appendRange i as) := by
  unfold appendRange
  refine Spends.bind0 (by spend) fun _ => Spends.bind0 (by spend) fun _ => Spends.ite (fun _ => ?_) fun _ => ?_
  · exact Spends.mono (Spends.bind0 (by spend) fun _ => Spends.bindR (sp_copyRange _ _) fun _ => by spend) (by omega)
  · exact sp_withStorage fun _ => Spends.bind0 (by spend) fun _ => Spends.bindR (sp_copyRange _ _) fun _ => by spend
theorem sp_assignRange (i : Id) (as : List Arg) : Spends c.of (c.block + Arg.costs as * c.user) (assignRange i as) := by
  unfold assignRange
  refine Spends.bind0 (by spend) fun _ => Spends.bind0 (by spend) fun _ => Spends.ite (fun _ => ?_) fun _ => ?_
  · exact Spends.mono (Spends.bind0 (by spend) fun _ => Spends.bindR (sp_copyRange _ _) fun _ => by spend) (by omega)
  · exact sp_withString (n := 0) (fun _ => sp_ctorRange _ _) fun _ => by spend
theorem sp_assignCopy (i j : Id) : Spends c.of c.block (assignCopy i j) := by
  unfold assignCopy
  refine Spends.ite (fun _ => Spends.bind0 (by spend) fun x => ?_) fun _ => by spend
  have := sp_assignRange (c := c) i (ptrRange x.1 x.2)
  rwa [costs_ptr, Nat.zero_mul] at this
theorem sp_insertRange (i : Id) (p : Ptr) (as : List Arg) :
    Spends c.of (c.block + Arg.costs as * c.user) (insertRange i p as) := by
  unfold insertRange
  refine Spends.bind0 (by spend) fun _ => Spends.bind0 (by spend) fun _ => Spends.bind0 (by spend) fun _ =>
    Spends.bind0 (by spend) fun _ => Spends.bindR (Spends.ite (fun _ => ?_) fun _ => ?_) fun _ => by spend
  · exact Spends.mono (Spends.bindR (sp_copyRange _ _) fun _ => by spend) (by omega)
  · exact sp_withStorage fun _ => Spends.bind0 (by spend) fun _ => Spends.bindR (sp_copyRange _ _) fun _ => by spend
theorem sp_replaceRange (i : Id) (p q : Ptr) (as : List Arg) :
    Spends c.of (c.block + Arg.costs as * c.user) (replaceRange i p q as) := by
  unfold replaceRange
  refine Spends.bind0 (by spend) fun _ => Spends.bind0 (by spend) fun _ => Spends.ite (fun _ => ?_) fun _ => ?_
  · exact Spends.mono (Spends.bind0 (by spend) fun _ => Spends.bindR (sp_copyRange _ _) fun _ => by spend) (by omega)
  · exact Spends.bind0 (by spend) fun _ => sp_withStorage fun _ => Spends.bind0 (by spend) fun _ =>
      Spends.bind0 (by spend) fun _ => Spends.bind0 (by spend) fun _ => Spends.bindR (sp_copyRange _ _) fun _ => by spend

end Ptl.Str

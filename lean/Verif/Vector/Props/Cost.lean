import Verif.Vector.Cost
import Verif.Vector.Demo
import Verif.Vector.Props.Values

/-!
# C82: how much a call on a vector allocates and copies

`St.nblk` counts the blocks allocated since program start, `St.tick` the steps that could have failed: allocations, and
constructions and copies of elements (moves of elements are `noexcept` and not counted).
-/

namespace Ptl.Vector

variable {α : Type} {T : Elem α}

/-! ### what is claimed (no reference to the model) -/

/-- how often a vector of capacity `c` must be reallocated until it holds `n` elements, if it starts with room for ten and
doubles -/
def growths (n c : Nat) : Nat := if n ≤ c then 0 else growths n (max 10 (2 * c)) + 1
termination_by n - c

/-- how many blocks the call may allocate; a call taking `n` elements from input iterators cannot know `n` beforehand -/
def Op.blocks : Op α → Nat
  | .ctorDefault _ | .ctorMove _ _ | .dtor _ | .assignMove _ _ | .swap _ _ | .erase _ _ _ | .eraseOne _ _ | .popBack _
  | .clear _ | .write _ _ _ | .put _ _ _ => 0
  | .ctorCount _ _ | .ctorFill _ _ _ | .ctorRange _ _ | .ctorCopy _ _ | .assignCopy _ _ | .assignRange _ _
  | .assignFill _ _ _ | .pushBack _ _ | .emplace _ _ _ | .insertFill _ _ _ _ | .insertRange _ _ _ | .reserve _ _
  | .shrinkToFit _ | .resize _ _ | .resizeFill _ _ _ => 1
  | .ctorInput _ vs | .assignInput _ vs => growths vs.length 0
  | .insertInput _ _ vs => growths vs.length 0 + 1

/-- number of elements of variable `i` -/
def Vars.len (V : Vars α) (i : Nat) : Nat := ((V i).getD []).length

/-- number of elements of the range that are to be copied, not moved -/
def Rng.copies : Rng α → Nat
  | .refs l => l.length
  | .mvs _ _ _ => 0

/-- whether the element is to be copied, not moved -/
def Src1.copies : Src1 α → Nat
  | .ref _ => 1
  | .mv _ _ => 0

/-- the number of elements the call is asked to produce from values given to it, or to copy; those it is asked to move do
not count -/
def Op.copies (V : Vars α) : Op α → Nat
  | .ctorDefault _ | .ctorMove _ _ | .dtor _ | .assignMove _ _ | .swap _ _ | .erase _ _ _ | .eraseOne _ _ | .popBack _
  | .clear _ | .reserve _ _ | .shrinkToFit _ | .put _ _ _ => 0
  | .ctorCount _ n | .ctorFill _ n _ | .assignFill _ n _ | .insertFill _ _ n _ => n
  | .ctorRange _ r | .assignRange _ r | .insertRange _ _ r => r.copies
  | .ctorCopy _ j | .assignCopy _ j => V.len j
  | .pushBack _ x | .emplace _ _ x => x.copies
  | .write _ _ _ => 1
  | .resize i n | .resizeFill i n _ => n - V.len i
  | .ctorInput _ vs | .assignInput _ vs | .insertInput _ _ vs => vs.length

/-- the call, made in state `s`, ends in state `s'` (returning or throwing) -/
def Ends (T : Elem α) (op : Op α) (s s' : St α Storage) : Prop :=
  (∃ r, op.run T s = .ok r s') ∨ ∃ e, op.run T s = .exc e s'

/-! ### the calls -/

variable {c : Counter}

theorem sp_srcResolve {n : Nat} (x : Src α) : Spends c.of n x.resolve := by cases x <;> unfold Src.resolve <;> spend
macro_rules | `(tactic| spend1) => `(tactic| apply sp_srcResolve)
theorem sp_src1Resolve {n : Nat} (x : Src1 α) : Spends c.of n x.resolve := by cases x <;> unfold Src1.resolve <;> spend
macro_rules | `(tactic| spend1) => `(tactic| apply sp_src1Resolve)
theorem sp_resolveAll {n : Nat} (l : List (Src α)) : Spends c.of n (Src.resolveAll l) := by
  induction l with
  | nil => exact Spends.pure _
  | cons x l ih => unfold Src.resolveAll; exact Spends.bind0 (by spend) fun _ => Spends.bindR ih fun _ => by spend
macro_rules | `(tactic| spend1) => `(tactic| apply sp_resolveAll)
theorem sp_rngResolve {n : Nat} (r : Rng α) : Spends c.of n r.resolve := by cases r <;> unfold Rng.resolve <;> spend
macro_rules | `(tactic| spend1) => `(tactic| apply sp_rngResolve)
theorem sp_pos {n : Nat} (i k : Nat) : Spends c.of n (pos i k : VM α Ptr) := by unfold pos; spend
macro_rules | `(tactic| spend1) => `(tactic| apply sp_pos)
theorem sp_offset {n : Nat} (i : Nat) (p : Ptr) : Spends c.of n (offset i p : VM α (Option Nat)) := by unfold offset; spend
macro_rules | `(tactic| spend1) => `(tactic| apply sp_offset)
theorem sp_noRet {n : Nat} {m : VM α Unit} (h : Spends c.of n m) : Spends c.of n (noRet m) :=
  Spends.bindR h fun _ => Spends.pure _
theorem sp_index {n : Nat} (i : Id) (k : Nat) : Spends c.of n (index i k : VM α Ptr) := by unfold index; spend
macro_rules | `(tactic| spend1) => `(tactic| apply sp_index)
theorem sp_writeAt (p : Ptr) (v : α) : Spends c.of c.user (writeAt p v) :=
  Spends.bind0 (by spend) fun _ => Spends.bindR (sp_fallible _) fun _ => by spend
theorem sp_putAt (p : Ptr) (v : α) : Spends c.of 0 (putAt p v) := by unfold putAt; spend

theorem src_cost {x : Src α} {s s' : St α Storage} {a : Arg α} (h : x.resolve s = .ok a s') : a.cost = 1 := by
  cases x with
  | val v => cases h; rfl
  | elem j k =>
    change ((data (.var j) : VM α Ptr) >>= fun d => pure (Arg.copy (d.add k))) s = _ at h
    rw [M.bind_run] at h
    cases hd : (data (.var j) : VM α Ptr) s with
    | ok d s1 => simp only [hd] at h; cases h; rfl
    | exc => simp [hd] at h
    | ub => simp [hd] at h
    | term => simp [hd] at h
theorem src1_cost {x : Src1 α} {s s' : St α Storage} {a : Arg α} (h : x.resolve s = .ok a s') : a.cost = x.copies := by
  cases x with
  | ref x => exact src_cost h
  | mv j k =>
    change ((data (.var j) : VM α Ptr) >>= fun d => pure (Arg.move (d.add k))) s = _ at h
    rw [M.bind_run] at h
    cases hd : (data (.var j) : VM α Ptr) s with
    | ok d s1 => simp only [hd] at h; cases h; rfl
    | exc => simp [hd] at h
    | ub => simp [hd] at h
    | term => simp [hd] at h
theorem all_costs {l : List (Src α)} {s s' : St α Storage} {as : List (Arg α)} (h : Src.resolveAll l s = .ok as s') :
    Arg.costs as = l.length := by
  induction l generalizing s s' as with
  | nil => cases h; rfl
  | cons x l ih =>
    unfold Src.resolveAll at h
    rw [M.bind_run] at h
    cases hx : x.resolve s with
    | ok a s1 =>
      simp only [hx] at h
      rw [M.bind_run] at h
      cases hl : Src.resolveAll l s1 with
      | ok bs s2 => simp only [hl] at h; cases h; rw [Arg.costs, ih hl, src_cost hx, List.length_cons, Nat.add_comm]
      | exc => simp [hl] at h
      | ub => simp [hl] at h
      | term => simp [hl] at h
    | exc => simp [hx] at h
    | ub => simp [hx] at h
    | term => simp [hx] at h
theorem costs_map {l : List Nat} {g : Nat → Arg α} {k : Nat} (h : ∀ x, (g x).cost = k) :
    Arg.costs (l.map g) = l.length * k := by
  induction l with
  | nil => simp [Arg.costs]
  | cons x l ih => rw [List.map_cons, Arg.costs, ih, h, List.length_cons, Nat.succ_mul, Nat.add_comm]
theorem costs_move (p : Ptr) (n : Nat) : Arg.costs (moveRange p n : List (Arg α)) = 0 := by
  unfold moveRange; rw [costs_map (k := 0) fun _ => rfl]; simp
theorem costs_ptr (p : Ptr) (n : Nat) : Arg.costs (ptrRange p n : List (Arg α)) = n := by
  unfold ptrRange; rw [costs_map (k := 1) fun _ => rfl]; simp
theorem rng_costs {r : Rng α} {s s' : St α Storage} {as : List (Arg α)} (h : r.resolve s = .ok as s') :
    Arg.costs as = r.copies := by
  cases r with
  | refs l => exact all_costs h
  | mvs j k m =>
    change ((data (.var j) : VM α Ptr) >>= fun d => pure (moveRange (d.add k) m)) s = _ at h
    rw [M.bind_run] at h
    cases hd : (data (.var j) : VM α Ptr) s with
    | ok d s1 => simp only [hd] at h; cases h; exact costs_move _ _
    | exc => simp [hd] at h
    | ub => simp [hd] at h
    | term => simp [hd] at h

theorem sp_range {β : Type} {n : Nat} (r : Rng α) {g : List (Arg α) → VM α β}
    (h : ∀ as, Arg.costs as = r.copies → Spends c.of n (g as)) : Spends c.of n (r.resolve >>= g) :=
  Spends.bindK (sp_rngResolve r) (fun _ _ _ e => rng_costs e) h
theorem sp_one {β : Type} {n : Nat} (x : Src1 α) {g : Arg α → VM α β}
    (h : ∀ a, a.cost = x.copies → Spends c.of n (g a)) : Spends c.of n (x.resolve >>= g) :=
  Spends.bindK (sp_src1Resolve x) (fun _ _ _ e => src1_cost e) h

/-- as `Op.blocks`, for either counter, and without knowing how a vector grows -/
def Op.loose (c : Counter) : Op α → Nat
  | .ctorDefault _ | .ctorMove _ _ | .dtor _ | .assignMove _ _ | .swap _ _ | .erase _ _ _ | .eraseOne _ _ | .popBack _
  | .clear _ | .write _ _ _ | .put _ _ _ => 0
  | .ctorCount _ _ | .ctorFill _ _ _ | .ctorRange _ _ | .ctorCopy _ _ | .assignCopy _ _ | .assignRange _ _
  | .assignFill _ _ _ | .pushBack _ _ | .emplace _ _ _ | .insertFill _ _ _ _ | .insertRange _ _ _ | .reserve _ _
  | .shrinkToFit _ | .resize _ _ | .resizeFill _ _ _ => c.block
  | .ctorInput _ vs | .assignInput _ vs => vs.length * c.block
  | .insertInput _ _ vs => vs.length * c.block + c.block

/-- the calls whose cost does not depend on the sizes of variables -/
theorem sp_run (V : Vars α) (op : Op α) (h1 : ∀ i j, op ≠ .ctorCopy i j) (h2 : ∀ i j, op ≠ .assignCopy i j)
    (h3 : ∀ i n, op ≠ .resize i n) (h4 : ∀ i n x, op ≠ .resizeFill i n x) :
    Spends c.of (op.loose c + op.copies V * c.user) (op.run T) := by
  cases op with
  | ctorDefault i => exact sp_noRet (sp_newObj _ _)
  | ctorCount i n => exact sp_noRet (sp_construct _ (sp_resize T _ _))
  | ctorFill i n x => exact Spends.bind0 (by spend) fun _ => sp_noRet (sp_construct _ (sp_resizeFill T _ _ _))
  | ctorRange i r =>
    exact sp_range r fun as h => sp_noRet (sp_construct _ (by have := sp_assignRange T (c := c) (.var i) as; rwa [h] at this))
  | ctorInput i vs =>
    refine sp_noRet (sp_construct _ (Spends.mono (sp_pushAll T _ _) ?_))
    simp [Op.loose, Op.copies, Nat.mul_add]
  | ctorCopy i j => exact absurd rfl (h1 i j)
  | ctorMove i j => exact sp_noRet (sp_sctorMove _ _)
  | dtor i => exact sp_noRet (sp_sdtor _)
  | assignCopy i j => exact absurd rfl (h2 i j)
  | assignMove i j => exact sp_noRet (sp_moveAssign _ _)
  | assignRange i r =>
    exact sp_range r fun as h => sp_noRet (by have := sp_assignRange T (c := c) (.var i) as; rwa [h] at this)
  | assignInput i vs =>
    refine sp_noRet (Spends.mono (sp_withVector T (n := 0) vs fun _ => by spend) ?_)
    simp [Op.loose, Op.copies, Nat.mul_add]
  | assignFill i n x => exact Spends.bind0 (by spend) fun _ => sp_noRet (sp_assignFill T _ _ _)
  | swap i j => exact sp_noRet (sp_swap _ _)
  | pushBack i x =>
    exact sp_one x fun a h => Spends.bindR (by have := sp_pushBack T (c := c) (.var i) a; rwa [h] at this) fun _ => by spend
  | emplace i p x =>
    exact sp_one x fun a h => Spends.bind0 (by spend) fun q =>
      Spends.bindR (by have := sp_emplace T (c := c) (.var i) q a; rwa [h] at this) fun _ => by spend
  | insertFill i p n x =>
    exact Spends.bind0 (by spend) fun _ => Spends.bind0 (by spend) fun _ =>
      Spends.bindR (sp_insertFill T _ _ _ _) fun _ => by spend
  | insertRange i p r =>
    exact sp_range r fun as h => Spends.bind0 (by spend) fun q =>
      Spends.bindR (by have := sp_insertRange T (c := c) (.var i) q as; rwa [h] at this) fun _ => by spend
  | insertInput i p vs =>
    refine Spends.bind0 (by spend) fun p => Spends.bindR ?_ fun _ => by spend
    refine Spends.mono (sp_withVector T (n := c.block) vs fun _ => ?_)
      (by simp only [Op.loose, Op.copies, Nat.mul_add, Nat.mul_one]; omega)
    refine Spends.bind0 (by spend) fun q => Spends.bind0 (by spend) fun n => ?_
    have := sp_insertRange T (c := c) (.var i) p (moveRange q n)
    rw [costs_move, Nat.zero_mul] at this
    exact this
  | erase i f l =>
    exact Spends.bind0 (by spend) fun _ => Spends.bind0 (by spend) fun _ => Spends.bind0 (by spend) fun _ => by spend
  | eraseOne i p => exact Spends.bind0 (by spend) fun _ => Spends.bind0 (by spend) fun _ => by spend
  | popBack i => exact sp_noRet (by spend)
  | clear i => exact sp_noRet (by spend)
  | reserve i n => exact sp_noRet (Spends.mono (sp_reserve T _ _) (Nat.le_add_right _ _))
  | shrinkToFit i => exact sp_noRet (Spends.mono (sp_shrinkToFit T _) (Nat.le_add_right _ _))
  | resize i n => exact absurd rfl (h3 i n)
  | resizeFill i n x => exact absurd rfl (h4 i n x)
  | write i k v =>
    exact Spends.bind0 (by spend) fun _ => sp_noRet (Spends.mono (sp_writeAt _ _) (by simp [Op.loose, Op.copies]))
  | put i k v => exact Spends.bind0 (by spend) fun _ => sp_noRet (Spends.mono (sp_putAt _ _) (Nat.zero_le _))

/-- the blocks any call allocates -/
theorem sp_blocks (op : Op α) : Spends Counter.blocks.of (op.loose .blocks) (op.run T) := by
  have key := sp_run (T := T) (c := .blocks) (fun _ => none) op
  simp only [Counter.user, Nat.mul_zero, Nat.add_zero] at key
  cases op with
  | ctorCopy i j =>
    exact sp_noRet (Spends.bind0 (by spend) fun _ => Spends.bind0 (by spend) fun _ =>
      sp_construct _ (sp_assignRange T (c := .blocks) _ _))
  | assignCopy i j =>
    refine sp_noRet (Spends.ite (fun _ => ?_) fun _ => by spend)
    exact Spends.bind0 (by spend) fun _ => Spends.bind0 (by spend) fun _ => sp_assignRange T (c := .blocks) _ _
  | resize i n => exact sp_noRet (sp_resize T (c := .blocks) _ _)
  | resizeFill i n x => exact Spends.bind0 (by spend) fun _ => sp_noRet (sp_resizeFill T (c := .blocks) _ _ _)
  | _ => exact key (by intros; simp) (by intros; simp) (by intros; simp) (by intros; simp)

/-! ### input iterators -/

theorem growths_le {n c : Nat} (h : n ≤ c) : growths n c = 0 := by rw [growths, if_pos h]
theorem growths_gt {n c : Nat} (h : c < n) : growths n c = growths n (max 10 (2 * c)) + 1 := by
  rw [growths, if_neg (by omega)]

/-- from capacity `c ≥ 10` on, `k` reallocations multiply the capacity by `2 ^ k`: the number of reallocations is
logarithmic -/
theorem growths_log (n : Nat) : ∀ k c, 10 ≤ c → growths n c = k + 1 → c * 2 ^ k < n
  | 0, c, _, h => by
    by_cases hn : n ≤ c
    · rw [growths_le hn] at h; cases h
    · omega
  | k + 1, c, hc, h => by
    by_cases hn : n ≤ c
    · rw [growths_le hn] at h; cases h
    · rw [growths_gt (by omega), Nat.max_eq_right (by omega)] at h
      have := growths_log n k (2 * c) (by omega) (by omega)
      rw [Nat.pow_succ]
      calc c * (2 ^ k * 2) = 2 * c * 2 ^ k := by rw [Nat.mul_comm (2 ^ k), ← Nat.mul_assoc, Nat.mul_comm c]
        _ < n := this

variable {s s' : St α Storage} {V V' : Vars α} {op : Op α} {r : Option Nat}

/-- adding an element when there is room allocates nothing -/
theorem pushBack_room {i : Id} {o : Storage} (hi : s.obj i = some o) (hc : szAdd o.siz 1 ≤ o.cap) (a : Arg α) :
    ∃ m : VM α Ptr, pushBack T i a s = m s ∧ Spends Counter.blocks.of 0 m := by
  unfold pushBack emplace insertImpl
  refine ⟨_, by rw [M.bind_ok (end_ok hi), M.bind_ok (data_ok hi), M.bind_ok (distance_ok (by rfl) (Nat.zero_le _)),
    M.bind_ok (size_ok hi), M.bind_ok (capacity_ok hi), if_pos hc], ?_⟩
  exact Spends.bindR (Spends.bindR (sp_constructAt T (c := .blocks) (Ptr.add ⟨o.ptr, 0⟩ o.siz) a) fun _ => by spend)
    fun _ => by spend

theorem pushAll_costs (vs : List α) : ∀ {s : St α Storage} (_ : WF T s) {i : Id} {o : Storage} {xs : List α}
    (_ : abs s i = some (o, xs)),
    Costs Counter.blocks.of (growths (o.siz + vs.length) o.cap) s (pushAll T i vs s) := by
  induction vs with
  | nil => intro s _ i o xs _; exact Costs.of (Spends.pure ()) s
  | cons v vs ih =>
    intro s hw i o xs habs
    have hp := pushBack_spec hw habs (Mut.id hw) (Fills.copy hw (ArgVal.val v)) habs
    have hsp := Costs.of (sp_pushBack T (c := .blocks) i (.val v)) s
    have hle := (hw.get habs).2.siz_le
    have := szMod_big
    unfold pushAll
    by_cases hc : o.siz + 1 ≤ o.cap
    · refine Costs.mono (n := 0 + growths (o.siz + (v :: vs).length) o.cap) (Costs.bind ?_ ?_) (by omega)
      · obtain ⟨m, hm, hs⟩ := pushBack_room (T := T) (hw.get habs).1 (by rw [szAdd_eq (by omega)]; exact hc) (.val v)
        rw [hm]; exact Costs.of hs s
      · intro a s1 hr
        rw [hr] at hp
        obtain ⟨hw1, _, hq⟩ := hp
        unfold Inserted at hq
        rw [if_pos hc] at hq
        have := ih hw1 (i := i) (o := { o with siz := o.siz + 1 }) (xs := xs ++ [v]) (by rw [hq.2.2, upd_same])
        refine this.mono (Nat.le_of_eq ?_)
        simp only [List.length_cons]; congr 1; omega
    · have hg : growths (o.siz + (v :: vs).length) o.cap =
          1 + growths (o.siz + (v :: vs).length) (max 10 (2 * o.cap)) := by
        rw [growths_gt (by simp only [List.length_cons]; omega), Nat.add_comm]
      rw [hg]
      refine Costs.bind (hsp.mono (by simp [Counter.block, Counter.user])) ?_
      intro a s1 hr
      rw [hr] at hp
      obtain ⟨hw1, _, hq⟩ := hp
      unfold Inserted at hq
      rw [if_neg hc] at hq
      have := ih hw1 (i := i) (xs := xs ++ [v]) (by rw [hq.2.2.2, upd_same])
      refine this.mono (Nat.le_of_eq ?_)
      simp only [List.length_cons, capFor]; congr 1 <;> omega

theorem ctorInput_costs (hw : WF T s) {i : Id} (hi : s.obj i = none) {n : Nat} (hn : s.ntmp ≤ n)
    (hk : ∀ k, i = .tmp k → k < n) (vs : List α) :
    Costs Counter.blocks.of (growths vs.length 0) { s with ntmp := n } (ctorInput T i vs { s with ntmp := n }) := by
  have hc := new_commit hw hi hn hk
  unfold ctorInput construct
  rw [← Nat.zero_add (growths vs.length 0)]
  refine Costs.bind (Costs.of (sp_newObj _ _) _) fun a s1 h => ?_
  rw [newObj_ok (s := { s with ntmp := n }) hi] at h
  cases h
  have := pushAll_costs vs hc.1 (i := i) (o := {}) (xs := []) (by rw [hc.2, upd_same])
  rw [Nat.zero_add] at this
  exact Costs.onExc this (by spend)

theorem withVector_costs {β : Type} (hw : WF T s) (vs : List α) {k : Nat} {body : Id → VM α β}
    (h : ∀ t, Spends Counter.blocks.of k (body t)) :
    Costs Counter.blocks.of (growths vs.length 0 + k) s (withVector T vs body s) := by
  have h1 := ctorInput_costs hw (hw.freshT _ (Nat.le_refl _)) (n := s.ntmp + 1) (Nat.le_succ _)
    (by intro k h; cases h; omega) vs
  have h2 := Costs.bind (g := fun _ => M.withDtor (body (.tmp s.ntmp)) (Storage.dtor (.tmp s.ntmp))) h1
    fun _ s1 _ => Costs.of (Spends.withDtor (h _) (by spend)) s1
  exact h2

/-! ### C82 -/

/-- the state after a call -/
def after (T : Elem α) (op : Op α) (s : St α Storage) : St α Storage :=
  match op.run T s with
  | .ok _ s' => s'
  | .exc _ s' => s'
  | _ => s
theorem run_after {op : Op α} {s : St α Storage} {r : Option Nat}
    (h : (match op.run T s with | .ok r' _ => r' == r | _ => false) = true) : op.run T s = .ok r (after T op s) := by
  unfold after
  cases hr : op.run T s with
  | ok r' s' => rw [hr] at h; simp at h; simp [h]
  | exc _ _ => rw [hr] at h; cases h
  | ub _ => rw [hr] at h; cases h
  | term => rw [hr] at h; cases h

/-- **C82** (vector): no call allocates more blocks than `Op.blocks` says: none when moving, swapping, erasing, clearing or
destroying, one otherwise (with input iterators, one per doubling).  This holds whether the call returns or throws. -/
theorem C82_blocks (h : Reach T s V) (hs : Spec T op V V' r) (hE : Ends T op s s') : s'.nblk ≤ s.nblk + op.blocks := by
  have key : Costs Counter.blocks.of op.blocks s (op.run T s) := by
    have gen := Costs.of (sp_blocks (T := T) op) s
    obtain ⟨hinv, rfl⟩ := h.inv
    cases hs with
    | ctorInput hi =>
      exact Costs.bind (k := 0) (ctorInput_costs (n := s.ntmp) hinv.wf (vars_none hi) (Nat.le_refl _)
        (by intro k h; cases h) _) fun _ s1 _ => Costs.of (Spends.pure _) s1
    | assignInput _ =>
      exact Costs.bind (k := 0) (withVector_costs (k := 0) hinv.wf _ fun _ => by spend) fun _ s1 _ =>
        Costs.of (Spends.pure _) s1
    | insertInput hi _ =>
      obtain ⟨o, ho⟩ := vars_some hi
      refine Costs.of_eq (M.bind_ok (pos_ok (hinv.wf.get ho).1)) (Costs.bind (k := 0)
        (withVector_costs (k := 1) hinv.wf _ fun _ => ?_) fun _ s1 _ => Costs.of (by spend) s1)
      exact Spends.bind0 (by spend) fun q => Spends.bind0 (by spend) fun n => sp_insertRange T (c := .blocks) _ _ _
    | _ => exact gen
  rcases hE with ⟨r, h⟩ | ⟨e, h⟩ <;> rw [h] at key <;> simp only [Costs, Counter.of] at key <;> omega

/-- what is claimed of copies: between `s` and the end of the call there were at most `n` steps that may fail, other than
allocations that succeeded; if the call throws `std::bad_alloc`, the failed allocation comes on top -/
def Copied (T : Elem α) (op : Op α) (n : Nat) (s : St α Storage) : Prop :=
  (∀ r s', op.run T s = .ok r s' → s'.tick + s.nblk ≤ s.tick + s'.nblk + n) ∧
  ∀ e s', op.run T s = .exc e s' → s'.tick + s.nblk ≤ s.tick + s'.nblk + n + if e = .badAlloc then 1 else 0

/-- what a call on variables of known sizes costs -/
theorem steps_of {m : VM α (Option Nat)} (he : op.run T s = m s)
    (hm : Spends Counter.copies.of (op.copies V) m) : Copied T op (op.copies V) s := by
  have := Costs.of hm s
  rw [← he] at this
  constructor
  · intro r s' h; rw [h] at this; simp only [Costs, Counter.of] at this; omega
  · intro r s' h; rw [h] at this; simp only [Costs, Counter.of] at this; split <;> simp_all <;> omega

theorem Vars.len_eq {i : Nat} {xs : List α} (h : V i = some xs) : V.len i = xs.length := by simp [Vars.len, h]

/-- a resize of a vector with `sz` elements -/
theorem resize_from {func : Ptr → Nat → VM α Unit} (hf : ∀ p m, Spends Counter.copies.of m (func p m)) {i : Id} {sz k : Nat}
    (hsz : size i s = .ok sz s) :
    ∃ m : VM α Unit, resizeImpl T i k func s = m s ∧ Spends Counter.copies.of (k - sz) m := by
  unfold resizeImpl
  refine ⟨_, M.bind_ok hsz, Spends.ite (fun _ => by spend) fun _ => Spends.ite (fun _ => by spend) fun _ => ?_⟩
  have := sp_withStorage T (c := .copies) (k := k) (n := k - sz) (body := fun tmp => do
      let t ← data tmp
      func (t.add sz) (k - sz)
      let d ← data i
      uninitializedMoveN T d sz t
      setSize tmp k
      Storage.moveAssign i tmp) fun _ =>
    Spends.bind0 (by spend) fun _ => Spends.bindR (hf _ _) fun _ => by spend
  rwa [Counter.block, Nat.zero_add] at this

/-- **C82** (vector): apart from the blocks it may allocate, a call within its preconditions takes at most as many steps
that may fail as it is given elements to copy: no element is copied or constructed without need, whatever is moved is not
copied, and elements already in the vector are never copied. -/
theorem C82_copies (h : Reach T s V) (hs : Spec T op V V' r) : Copied T op (op.copies V) s := by
  have key := sp_run (T := T) (c := .copies) V op
  have hl : op.loose .copies = 0 := by cases op <;> simp [Op.loose, Counter.block]
  simp only [Counter.user, Nat.mul_one, hl, Nat.zero_add] at key
  have copy : ∀ (i : Id) (p : Ptr) (n : Nat), Spends Counter.copies.of n (assignRange T i (ptrRange p n)) := by
    intro i p n
    have := sp_assignRange T (c := .copies) i (ptrRange p n)
    rwa [costs_ptr, Counter.user, Nat.mul_one, Counter.block, Nat.zero_add] at this
  have fill : ∀ (p : Ptr) (n : Nat) (a : Arg α), Spends Counter.copies.of n (uninitializedFillN T p n a) := by
    intro p n a; simpa [Counter.user] using sp_uninitializedFillN T (c := .copies) p n a
  have value : ∀ (p : Ptr) (n : Nat), Spends Counter.copies.of n (uninitializedValueConstructN T p n) := by
    intro p n; simpa [Counter.user] using sp_uninitializedValueConstructN T (c := .copies) p n
  cases op with
  | ctorCopy i j =>
    cases hs with
    | ctorCopy _ hj =>
      obtain ⟨d, c, hsh⟩ := h.shows hj
      refine steps_of (m := noRet (ctorRange T (.var i) (ptrRange d (V.len j)))) ?_ (sp_noRet ?_)
      · refine M.bind_congr (m := ctorCopy T (.var i) (.var j)) ?_
        unfold ctorCopy
        rw [M.bind_ok hsh.data, M.bind_ok hsh.size, Vars.len_eq hj]
      · exact sp_construct _ (copy _ _ _)
  | assignCopy i j =>
    cases hs with
    | assignCopy hi hj =>
      obtain ⟨d, c, hsh⟩ := h.shows hj
      by_cases hij : (Id.var i) ≠ .var j
      · refine steps_of (m := noRet (assignRange T (.var i) (ptrRange d (V.len j)))) ?_ (sp_noRet ?_)
        · refine M.bind_congr (m := assignCopy T (.var i) (.var j)) ?_
          unfold assignCopy
          rw [if_pos hij, M.bind_ok hsh.data, M.bind_ok hsh.size, Vars.len_eq hj]
        · exact copy _ _ _
      · refine steps_of (m := noRet (pure ())) ?_ (sp_noRet (by spend))
        refine M.bind_congr (m := assignCopy T (.var i) (.var j)) ?_
        unfold assignCopy
        rw [if_neg hij]
  | resize i n =>
    have hi : ∃ xs, V i = some xs := by cases hs with
      | resizeShrink hi => exact ⟨_, hi⟩
      | resizeGrow hi => exact ⟨_, hi⟩
    obtain ⟨xs, hi⟩ := hi
    obtain ⟨d, c, hsh⟩ := h.shows hi
    obtain ⟨m, e, hm⟩ := resize_from (T := T) (k := n) value hsh.size
    refine steps_of (m := noRet m) ?_ (sp_noRet ?_)
    · exact M.bind_congr e
    · rw [Op.copies, Vars.len_eq hi]; exact hm
  | resizeFill i n x =>
    have hi : ∃ xs, V i = some xs := by cases hs with
      | resizeFillShrink hi => exact ⟨_, hi⟩
      | resizeFillGrow hi => exact ⟨_, hi⟩
    obtain ⟨xs, hi⟩ := hi
    obtain ⟨d, c, hsh⟩ := h.shows hi
    have hx : ∃ v, x.Is V v := by cases hs with
      | resizeFillShrink _ hx => exact ⟨_, hx⟩
      | resizeFillGrow _ hx => exact ⟨_, hx⟩
    obtain ⟨v, hx⟩ := hx
    have ha : ∃ a, x.resolve s = .ok a s := by
      cases hx with
      | val v => exact ⟨_, rfl⟩
      | elem hj hk => obtain ⟨d', c', hsh'⟩ := h.shows hj; exact ⟨_, M.bind_ok hsh'.data⟩
    obtain ⟨a, ha⟩ := ha
    obtain ⟨m, e, hm⟩ := resize_from (T := T) (k := n) (fun p m => fill p m a) hsh.size
    refine steps_of (m := noRet m) ?_ (sp_noRet ?_)
    · refine (M.bind_ok ha).trans ?_
      exact M.bind_congr e
    · rw [Op.copies, Vars.len_eq hi]; exact hm
  | _ => exact steps_of rfl (key (by intros; simp) (by intros; simp) (by intros; simp) (by intros; simp))

/-- **C82** (vector): taking `n` elements from input iterators reallocates only logarithmically often. -/
theorem C82_growths {n k : Nat} (h : growths n 0 = k + 2) : 10 * 2 ^ k < n := by
  have hn : 0 < n := by
    rcases Nat.eq_zero_or_pos n with rfl | h0
    · rw [growths_le (Nat.le_refl _)] at h; cases h
    · exact h0
  rw [growths_gt hn] at h
  exact growths_log n k 10 (Nat.le_refl _) (by simpa using h)

/-- a vector of ten elements -/
def tenV : Vars Nat := upd (fun _ => none) 0 (some (List.range 10))

/-- A vector with ten elements is full.  The call that adds the eleventh allocates exactly once and copies one element;
adding one of its own elements by move, with room, neither allocates nor copies. -/
example : ∃ s s' s'', Reach natElem s tenV ∧ (Op.pushBack 0 (.ref (.val 7))).run natElem s = .ok (some 10) s' ∧
    s'.nblk = s.nblk + 1 ∧ s'.tick = s.tick + 2 ∧
    (Op.pushBack 0 (.mv 0 3)).run natElem s' = .ok (some 11) s'' ∧ s''.nblk = s'.nblk ∧ s''.tick = s'.tick := by
  let s : St Nat Storage := after natElem (.ctorRange 0 (.refs ((List.range 10).map .val))) (start Nat fun _ => false)
  let s' := after natElem (.pushBack 0 (.ref (.val 7))) s
  let s'' := after natElem (.pushBack 0 (.mv 0 3)) s'
  have h0 : Reach natElem s tenV := (Reach.start fun _ => false).ok
    (.ctorRange rfl (.refs (AreAll.vals _)) (by decide)) (run_after (r := none) (by decide +kernel))
  exact ⟨s, s', s'', h0, run_after (by decide +kernel), by decide +kernel, by decide +kernel, run_after (by decide +kernel),
    by decide +kernel, by decide +kernel⟩

/-- 21 elements from input iterators: three blocks (of 10, 20 and 40), one copy each. -/
example : ∃ s s', Reach natElem s (fun _ => none) ∧
    (Op.ctorInput 0 (List.range 21)).run natElem s = .ok none s' ∧
    s'.nblk = s.nblk + growths 21 0 ∧ s'.tick = s.tick + growths 21 0 + 21 ∧ growths 21 0 = 3 := by
  have hg : growths 21 0 = 3 := by
    rw [growths_gt (by decide), growths_gt (by decide), growths_gt (by decide), growths_le (by decide)]
  let s : St Nat Storage := start Nat fun _ => false
  refine ⟨s, after natElem (.ctorInput 0 (List.range 21)) s, .start _, run_after (by decide +kernel), ?_, ?_, hg⟩
  all_goals rw [hg]; decide +kernel

end Ptl.Vector

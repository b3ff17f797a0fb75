import Verif.Arr.Frame
import Verif.Tuple.Props

/-!
# C93: a call touches nothing but the tuples it is given

As `Verif/Arr/Frame.lean`, for tuples.
-/

namespace Ptl.Tuple

open View (Loc Mem)
open Arr (AM readLoc writeLoc newObj alive fallible copyAssign moveAssign swapElem Beside only rest beside_only)

variable {ν : Type} {F : Mem ν}

theorem frm_argTake (T : Elem ν) (a : Arg ν) : Frm (Beside F) (a.take T) := by
  cases a with
  | val v => exact .bind Arr.frm_fallible fun _ => .pure _
  | elem j k => exact .bind Arr.frm_fallible fun _ => .bind (Arr.frm_readLoc _) fun _ => .pure _
  | mv j k => exact .bind (Arr.frm_readLoc _) fun _ => .bind (Arr.frm_writeLoc _ _) fun _ => .pure _

theorem frm_storage : ∀ (ts : List (Elem ν)) (as : List (Arg ν)), Frm (Beside F) (storage ts as)
  | [], [] => .pure _
  | T :: ts, a :: as => .bind (frm_storage ts as) fun _ => .bind (frm_argTake T a) fun _ => .pure _
  | [], _ :: _ => .ub _
  | _ :: _, [] => .ub _

theorem frm_storageGet (i : Nat) : ∀ (ts : List (Elem ν)) (k d : Nat), Frm (Beside F) (storageGet i ts k d)
  | [], _, _ => .ub _
  | _ :: ts, k, d => .ite (fun _ => .pure _) fun _ => frm_storageGet i ts (k - 1) (d + 1)

theorem frm_storageSwap (i j : Nat) : ∀ (ts : List (Elem ν)) (d : Nat), Frm (Beside F) (storageSwap i j ts d)
  | [], _ => .pure _
  | _ :: ts, d => .bind (Arr.frm_swapElem _ _) fun _ => frm_storageSwap i j ts (d + 1)

theorem frm_storageCopy (j : Nat) : ∀ (ts : List (Elem ν)) (d : Nat), Frm (Beside F) (storageCopy j ts d)
  | [], _ => .pure _
  | _ :: ts, d => .bind (frm_storageCopy j ts (d + 1)) fun _ => .bind Arr.frm_fallible fun _ => .bind (Arr.frm_readLoc _) fun _ => .pure _

theorem frm_storageMove (j : Nat) : ∀ (ts : List (Elem ν)) (d : Nat), Frm (Beside F) (storageMove j ts d)
  | [], _ => .pure _
  | _ :: ts, d => .bind (frm_storageMove j ts (d + 1)) fun _ => .bind (Arr.frm_readLoc _) fun _ => .bind (Arr.frm_writeLoc _ _) fun _ => .pure _

theorem frm_storageAssign (i j : Nat) : ∀ (ts : List (Elem ν)) (d : Nat), Frm (Beside F) (storageAssign i j ts d)
  | [], _ => .pure _
  | _ :: ts, d => .bind (frm_storageAssign i j ts (d + 1)) fun _ => Arr.frm_copyAssign _ _

theorem frm_storageMoveAssign (i j : Nat) : ∀ (ts : List (Elem ν)) (d : Nat), Frm (Beside F) (storageMoveAssign i j ts d)
  | [], _ => .pure _
  | _ :: ts, d => .bind (frm_storageMoveAssign i j ts (d + 1)) fun _ => Arr.frm_moveAssign _ _

/-- the tuple that an argument refers into -/
def Arg.Names : Arg ν → Nat → Prop
  | .val _, _ => False
  | .elem j _, k | .mv j _, k => k = j

/-- the tuples that the client names in the call -/
def Op.Names : Op ν → Nat → Prop
  | .ctor i args, k => k = i ∨ ∃ a ∈ args, a.Names k
  | .ctorCopy i j, k | .ctorMove i j, k | .assignCopy i j, k | .assignMove i j, k | .swap i j, k => k = i ∨ k = j
  | .dtor i, k | .set i _ _, k => k = i

variable {ts : List (Elem ν)}

theorem frm_run (op : Op ν) (hF : ∀ i, op.Names i → F i = none) : Frm (Beside F) (op.run ts) := by
  cases op with
  | ctor i args => exact .bind (frm_storage _ _) fun _ => Arr.frm_newObj (hF i (.inl rfl)) _
  | ctorCopy i j => exact .bind (Arr.frm_alive j) fun _ => .bind (frm_storageCopy j ts 0) fun _ => Arr.frm_newObj (hF i (.inl rfl)) _
  | ctorMove i j => exact .bind (Arr.frm_alive j) fun _ => .bind (frm_storageMove j ts 0) fun _ => Arr.frm_newObj (hF i (.inl rfl)) _
  | dtor i => exact .bind (Arr.frm_alive i) fun _ => Arr.frm_kill (hF i rfl)
  | assignCopy i j => exact .bind (Arr.frm_alive j) fun _ => .bind (Arr.frm_alive i) fun _ => frm_storageAssign i j ts 0
  | assignMove i j => exact .bind (Arr.frm_alive j) fun _ => .bind (Arr.frm_alive i) fun _ => frm_storageMoveAssign i j ts 0
  | swap i j => exact .noexcept (.bind (Arr.frm_alive i) fun _ => .bind (Arr.frm_alive j) fun _ => frm_storageSwap i j ts 0)
  | set i k v => exact .bind (.bind (Arr.frm_alive i) fun _ => frm_storageGet i ts k 0) fun _ => Arr.frm_writeLoc _ _

attribute [local instance] Classical.propDecidable

variable {s : Arr.St ν} {S : Nat → Prop} {V : Vars ν}

theorem inv_only (hinv : Inv ts s V) : Inv ts (only S s) (fun i => if S i then V i else none) where
  mem := by
    show (fun i => if S i then s.mem i else none) = _
    rw [hinv.mem]
  len := by
    intro i xs h
    by_cases hi : S i
    · simp only [if_pos hi] at h; exact hinv.len i xs h
    · simp only [if_neg hi] at h; cases h

theorem Takes1.only {T : Elem ν} {a : Arg ν} {v : ν} {V V' V0 : Vars ν} (h : Takes1 T a V v V') (hn : ∀ j, a.Names j → S j)
    (hv : ∀ j, S j → V0 j = V j) : ∃ V0', Takes1 T a V0 v V0' ∧ ∀ j, S j → V0' j = V' j := by
  cases h with
  | val => exact ⟨V0, .val, hv⟩
  | elem hj hk => exact ⟨V0, .elem ((hv _ (hn _ rfl)).trans hj) hk, hv⟩
  | @mv j k v ys _ hj hk =>
    refine ⟨_, .mv ((hv _ (hn _ rfl)).trans hj) hk, fun j' hj' => ?_⟩
    by_cases e : j' = j
    · subst e; rw [upd_same, upd_same]
    · rw [upd_ne _ _ e, upd_ne _ _ e]; exact hv j' hj'

theorem Takes.only {ts : List (Elem ν)} {args : List (Arg ν)} {vs : List ν} {V V' : Vars ν} (h : Takes ts args V vs V') : ∀ {V0 : Vars ν},
    (∀ a ∈ args, ∀ j, a.Names j → S j) → (∀ j, S j → V0 j = V j) → ∃ V0', Takes ts args V0 vs V0' ∧ ∀ j, S j → V0' j = V' j := by
  induction h with
  | nil => intro V0 _ hv; exact ⟨_, .nil, hv⟩
  | cons _ h1 ih =>
    intro V0 hn hv
    obtain ⟨V1, h2, h3⟩ := ih (fun a ha => hn a (List.mem_cons_of_mem _ ha)) hv
    obtain ⟨V2, h4, h5⟩ := h1.only (hn _ List.mem_cons_self) h3
    exact ⟨V2, .cons h2 h4, h5⟩

/-- whether a call is within its preconditions depends on the tuples it names -/
theorem Pre.agree {op : Op ν} {V0 : Vars ν} (h : Pre ts op V) (hS : ∀ i, op.Names i → S i) (h0 : ∀ i, S i → V0 i = V i) :
    Pre ts op V0 := by
  obtain ⟨x, V', hs⟩ := h
  have hv : ∀ {i : Nat}, op.Names i → V0 i = V i := fun hi => h0 _ (hS _ hi)
  have tk : ∀ {args : List (Arg ν)} {vs : List ν} {V' : Vars ν}, Takes ts args V vs V' → (∀ a ∈ args, ∀ j, a.Names j → S j) →
      ∃ V0', Takes ts args V0 vs V0' := fun h hn => by
    obtain ⟨V0', h', _⟩ := h.only hn (V0 := V0) h0
    exact ⟨V0', h'⟩
  cases hs with
  | ctor h0 ht =>
    obtain ⟨V0', h'⟩ := tk ht fun a ha j hj => hS j (.inr ⟨a, ha, hj⟩)
    exact ⟨_, _, .ctor ((hv (.inl rfl)).trans h0) h'⟩
  | ctorThrows h0 ht _ =>
    obtain ⟨V0', h'⟩ := tk ht fun a ha j hj => hS j (.inr ⟨a, ha, hj⟩)
    exact ⟨_, _, .ctor ((hv (.inl rfl)).trans h0) h'⟩
  | ctorCopy h0 hj => exact ⟨_, _, .ctorCopy ((hv (.inl rfl)).trans h0) ((hv (.inr rfl)).trans hj)⟩
  | ctorCopyThrows h0 hj => exact ⟨_, _, .ctorCopy ((hv (.inl rfl)).trans h0) ((hv (.inr rfl)).trans hj)⟩
  | ctorMove h0 hj => exact ⟨_, _, .ctorMove ((hv (.inl rfl)).trans h0) ((hv (.inr rfl)).trans hj)⟩
  | dtor hi => exact ⟨_, _, .dtor ((hv rfl).trans hi)⟩
  | assignCopy hi hj => exact ⟨_, _, .assignCopy ((hv (.inl rfl)).trans hi) ((hv (.inr rfl)).trans hj)⟩
  | assignCopyThrows hi hj _ _ _ => exact ⟨_, _, .assignCopy ((hv (.inl rfl)).trans hi) ((hv (.inr rfl)).trans hj)⟩
  | assignMove hij hi hj => exact ⟨_, _, .assignMove hij ((hv (.inl rfl)).trans hi) ((hv (.inr rfl)).trans hj)⟩
  | assignMoveSelf hi => exact ⟨_, _, .assignMoveSelf ((hv (.inl rfl)).trans hi)⟩
  | swap hi hj => exact ⟨_, _, .swap ((hv (.inl rfl)).trans hi) ((hv (.inr rfl)).trans hj)⟩
  | set hi hk => exact ⟨_, _, .set ((hv rfl).trans hi) hk⟩

theorem Pre.only {op : Op ν} (h : Pre ts op V) (hS : ∀ i, op.Names i → S i) : Pre ts op (fun i => if S i then V i else none) :=
  h.agree hS fun _ hi => if_pos hi

/-- C93: erase all tuples that the call does not name from memory.  The call does the same as before: it returns normally, or
throws the same exception, and leaves the same behind (`s0`); if nothing had been erased, that would still be there, unchanged. -/
theorem C93_tuple {op : Op ν} (h : Reach ts s V) (hp : Pre ts op V) (hS : ∀ i, op.Names i → S i) :
    match op.run ts (only S s) with
    | .ok r' s0 => ∃ s', op.run ts s = .ok r' s' ∧ Beside (rest S s) s0 s'
    | .exc e s0 => ∃ s', op.run ts s = .exc e s' ∧ Beside (rest S s) s0 s'
    | .ub _ => False
    | .term => False := by
  have hst := step (inv_only (S := S) h.inv) (hp.only hS)
  have hf := frm_run (ts := ts) (F := rest S s) op (fun i hi => if_pos (hS i hi)) _ _ beside_only
  unfold Allowed at hst
  cases hr : op.run ts (only S s) with
  | ok r' s0 => rw [hr] at hf; exact hf
  | exc e s0 => rw [hr] at hf; exact hf
  | ub f => rw [hr] at hst; exact hst.elim
  | term => rw [hr] at hst; exact hst.elim

/-- C93: what the client sees of a tuple, and how it compares to another, does not depend on any other tuple. -/
theorem C93_tuple_reads (h : Reach ts s V) {i j : Nat} (hi : S i) (hj : S j) {xs ys : List ν} (vi : V i = some xs) (vj : V j = some ys) :
    (Shows ts (only S s) i xs ∧ Shows ts s i xs) ∧
    (∃ b, opEq ts i j (only S s) = .ok b (only S s) ∧ opEq ts i j s = .ok b s) ∧
    (∃ b, opNe ts i j (only S s) = .ok b (only S s) ∧ opNe ts i j s = .ok b s) ∧
    (∃ b, opLt ts i j (only S s) = .ok b (only S s) ∧ opLt ts i j s = .ok b s) ∧
    (∃ b, opGt ts i j (only S s) = .ok b (only S s) ∧ opGt ts i j s = .ok b s) ∧
    (∃ b, opLe ts i j (only S s) = .ok b (only S s) ∧ opLe ts i j s = .ok b s) ∧
    (∃ b, opGe ts i j (only S s) = .ok b (only S s) ∧ opGe ts i j s = .ok b s) := by
  have k := h.inv
  have k0 := inv_only (S := S) k
  have vi0 : (fun i => if S i then V i else none) i = some xs := (if_pos hi).trans vi
  have vj0 : (fun i => if S i then V i else none) j = some ys := (if_pos hj).trans vj
  exact ⟨⟨k0.shows vi0, k.shows vi⟩, ⟨_, k0.opEq vi0 vj0, k.opEq vi vj⟩, ⟨_, M.bind_ok (k0.opEq vi0 vj0), M.bind_ok (k.opEq vi vj)⟩,
    ⟨_, k0.opLt vi0 vj0, k.opLt vi vj⟩, ⟨_, k0.opLt vj0 vi0, k.opLt vj vi⟩,
    ⟨_, M.bind_ok (k0.opLt vj0 vi0), M.bind_ok (k.opLt vj vi)⟩, ⟨_, M.bind_ok (k0.opLt vi0 vj0), M.bind_ok (k.opLt vi vj)⟩⟩

/-- tuples `(1, 5)` and `(1, 4)`: a tuple moved from the first one does not touch the second -/
example : ∃ s : Arr.St Nat, Reach [up, down] s demoV ∧ ∃ s' t, (Op.ctorMove 2 0).run [up, down] (only (· ≠ 1) s) = .ok () s' ∧
    s'.mem 1 = none ∧ (Op.ctorMove 2 0).run [up, down] s = .ok () t ∧ t.mem 2 = s'.mem 2 ∧ t.mem 0 = s'.mem 0 ∧ t.mem 1 = demoV 1 := by
  obtain ⟨s, h, ho⟩ := demo
  have hs : Spec [up, down] (.ctorMove 2 0) demoV none _ := .ctorMove rfl rfl
  have := C93_tuple (S := (· ≠ 1)) h ⟨_, _, hs⟩ (by intro i hi; rcases hi with rfl | rfl <;> decide)
  obtain ⟨t, ht, ht', _⟩ := h.next hs ho
  have r1 : rest (· ≠ 1) s 1 = demoV 1 := by
    refine (if_neg (by simp)).trans ?_
    rw [h.inv.mem]
  have r0 : rest (· ≠ 1) s 0 = none := if_pos (by decide)
  have r2 : rest (· ≠ 1) s 2 = none := if_pos (by decide)
  have n1 : demoV 1 ≠ none := by intro h; cases h
  cases hr : (Op.ctorMove 2 0).run [up, down] (only (· ≠ 1) s) with
  | ok r s' =>
    rw [hr] at this
    obtain ⟨t', e, hb⟩ := this
    rw [ht] at e; cases e
    have same : ∀ k, rest (· ≠ 1) s k = none → t.mem k = s'.mem k := by
      intro k hk
      rcases hb.obj k with ⟨o, k1, k2, _⟩ | ⟨k1, k2⟩
      · rw [k1, k2]
      · rw [k1, k2, hk]
    refine ⟨s, h, s', t, hr, ?_, ht, same 2 r2, same 0 r0, ?_⟩
    · rcases hb.obj 1 with ⟨o, _, _, k⟩ | ⟨k, _⟩
      · rw [r1] at k; exact (n1 k).elim
      · exact k
    · rcases hb.obj 1 with ⟨o, _, _, k⟩ | ⟨_, k⟩
      · rw [r1] at k; exact (n1 k).elim
      · rw [k, r1]
  | exc e s' => rw [hr] at this; obtain ⟨t', e, _⟩ := this; rw [ht] at e; cases e
  | ub f => rw [hr] at this; exact this.elim
  | term => rw [hr] at this; exact this.elim

end Ptl.Tuple

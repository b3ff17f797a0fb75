import Verif.Frame
import Verif.Bitset.Props.Bits

/-!
# C93: a call touches nothing but the bitsets it is given

As `Verif/Vector/Props/Frame.lean`, for bitsets (and the streams, which every call may use).
-/

namespace Ptl.Bitset

/-- the objects of `t` are those of `s` and, side by side with them, `F` -/
structure Beside (F : Nat → Option (List Byte)) (s t : St) : Prop where
  obj : ∀ i, (∃ o, s.obj i = some o ∧ t.obj i = some o ∧ F i = none) ∨ (s.obj i = none ∧ t.obj i = F i)
  is : t.is = s.is
  os : t.os = s.os

variable {F : Nat → Option (List Byte)} {n : Nat}

theorem Beside.setObj {s t : St} (h : Beside F s t) {i : Nat} (hF : F i = none) (o : Option (List Byte)) :
    Beside F { s with obj := upd s.obj i o } { t with obj := upd t.obj i o } := by
  refine { h with obj := fun j => ?_ }
  by_cases hj : j = i
  · subst hj
    cases o with
    | some o => exact .inl ⟨o, by simp, by simp, hF⟩
    | none => exact .inr ⟨by simp, by simp [hF]⟩
  · simp only [upd_ne _ _ hj]; exact h.obj j

theorem frm_getObj (i : Nat) : Frm (Beside F) (getObj i) := by
  intro s t h
  unfold getObj
  rcases h.obj i with ⟨o, h1, h2, _⟩ | ⟨h1, _⟩
  · rw [h1, h2]; exact ⟨_, rfl, h⟩
  · rw [h1]; trivial

theorem frm_newObj {i : Nat} (hF : F i = none) (bs : List Byte) : Frm (Beside F) (newObj i bs) := by
  intro s t h
  unfold newObj
  rcases h.obj i with ⟨o, h1, h2, h3⟩ | ⟨h1, h2⟩
  · rw [h1]; trivial
  · rw [h1, h2, hF]; exact ⟨_, rfl, h.setObj hF _⟩

theorem frm_rd (i k : Nat) : Frm (Beside F) (rd i k) := by
  intro s t h
  unfold rd
  rcases h.obj i with ⟨o, h1, h2, _⟩ | ⟨h1, _⟩
  · rw [h1, h2]
    dsimp only
    cases o[k]? with
    | some _ => exact ⟨_, rfl, h⟩
    | none => trivial
  · rw [h1]; trivial

theorem frm_wr (i k : Nat) (b : Byte) : Frm (Beside F) (wr i k b) := by
  intro s t h
  unfold wr
  rcases h.obj i with ⟨o, h1, h2, h3⟩ | ⟨h1, _⟩
  · rw [h1, h2]
    dsimp only
    split
    · exact ⟨_, rfl, h.setObj h3 _⟩
    · trivial
  · rw [h1]; trivial

/-- replacing an object that exists -/
theorem frm_put {i : Nat} (hF : F i = none) (o : Option (List Byte)) : Frm (Beside F) (fun s => .ok () { s with obj := upd s.obj i o }) :=
  fun _ _ h => ⟨_, rfl, h.setObj hF o⟩

theorem frm_getIs : Frm (Beside F) getIs := fun s t h => ⟨t, by unfold getIs; rw [h.is], h⟩
theorem frm_setIs (is : IStream) : Frm (Beside F) (setIs is) := fun _ _ h => ⟨_, rfl, { h with is := rfl }⟩
theorem frm_getOs : Frm (Beside F) getOs := fun s t h => ⟨t, by unfold getOs; rw [h.os], h⟩
theorem frm_setOs (os : OStream) : Frm (Beside F) (setOs os) := fun _ _ h => ⟨_, rfl, { h with os := rfl }⟩

macro_rules | `(tactic| frm_step) => `(tactic| with_reducible exact frm_getObj _)
macro_rules | `(tactic| frm_step) => `(tactic| with_reducible exact frm_newObj (by assumption) _)
macro_rules | `(tactic| frm_step) => `(tactic| with_reducible exact frm_rd _ _)
macro_rules | `(tactic| frm_step) => `(tactic| with_reducible exact frm_wr _ _ _)
macro_rules | `(tactic| frm_step) => `(tactic| with_reducible exact frm_getIs)
macro_rules | `(tactic| frm_step) => `(tactic| with_reducible exact frm_setIs _)
macro_rules | `(tactic| frm_step) => `(tactic| with_reducible exact frm_getOs)
macro_rules | `(tactic| frm_step) => `(tactic| with_reducible exact frm_setOs _)

theorem frm_transform2 (f : Byte → Byte → Byte) (i k : Nat) : ∀ m j, Frm (Beside F) (transform2 f i k j m)
  | 0, _ => .pure _
  | m + 1, j => by have := frm_transform2 f i k m (j + 1); unfold transform2; frm
theorem frm_transform1 (f : Byte → Byte) (i : Nat) : ∀ m j, Frm (Beside F) (transform1 f i j m)
  | 0, _ => .pure _
  | m + 1, j => by have := frm_transform1 f i m (j + 1); unfold transform1; frm
theorem frm_fillN (i : Nat) (b : Byte) : ∀ m j, Frm (Beside F) (fillN i b j m)
  | 0, _ => .pure _
  | m + 1, j => by have := frm_fillN i b m (j + 1); unfold fillN; frm
theorem frm_swapRanges (i k : Nat) : ∀ m j, Frm (Beside F) (swapRanges i k j m)
  | 0, _ => .pure _
  | m + 1, j => by have := frm_swapRanges i k m (j + 1); unfold swapRanges; frm
theorem frm_clearTrailing (i : Nat) : Frm (Beside F) (clearTrailing n i) := by unfold clearTrailing; frm
theorem frm_shlInner (i : Nat) : ∀ j, Frm (Beside F) (shlInner i j)
  | 0 => .pure _
  | j + 1 => by have := frm_shlInner i j; unfold shlInner; frm
theorem frm_shrInner (i : Nat) : ∀ m j, Frm (Beside F) (shrInner i j m)
  | 0, _ => .pure _
  | m + 1, j => by have := frm_shrInner i m (j + 1); unfold shrInner; frm

macro_rules | `(tactic| frm_step) => `(tactic| with_reducible exact frm_transform2 _ _ _ _ _)
macro_rules | `(tactic| frm_step) => `(tactic| with_reducible exact frm_transform1 _ _ _ _)
macro_rules | `(tactic| frm_step) => `(tactic| with_reducible exact frm_fillN _ _ _ _)
macro_rules | `(tactic| frm_step) => `(tactic| with_reducible exact frm_swapRanges _ _ _ _)
macro_rules | `(tactic| frm_step) => `(tactic| with_reducible exact frm_clearTrailing _)
macro_rules | `(tactic| frm_step) => `(tactic| with_reducible exact frm_shlInner _ _)
macro_rules | `(tactic| frm_step) => `(tactic| with_reducible exact frm_shrInner _ _ _)

theorem frm_shlLoop (i : Nat) : ∀ c, Frm (Beside F) (shlLoop n i c)
  | 0 => .pure _
  | c + 1 => by have := frm_shlLoop i c; unfold shlLoop; frm
theorem frm_shrLoop (i : Nat) : ∀ c, Frm (Beside F) (shrLoop n i c)
  | 0 => .pure _
  | c + 1 => by have := frm_shrLoop i c; unfold shrLoop; frm

macro_rules | `(tactic| frm_step) => `(tactic| with_reducible exact frm_shlLoop _ _)
macro_rules | `(tactic| frm_step) => `(tactic| with_reducible exact frm_shrLoop _ _)

theorem frm_ctorDefault {i : Nat} (hF : F i = none) : Frm (Beside F) (ctorDefault n i) := frm_newObj hF _
theorem frm_ctorCopy {i : Nat} (hF : F i = none) (j : Nat) : Frm (Beside F) (ctorCopy i j) := by unfold ctorCopy; frm
theorem frm_index (i k : Nat) : Frm (Beside F) (index n i k) := by unfold index; frm
theorem frm_resetAt (i k : Nat) : Frm (Beside F) (resetAt n i k) := by unfold resetAt; frm
macro_rules | `(tactic| frm_step) => `(tactic| with_reducible exact frm_ctorDefault (by assumption))
macro_rules | `(tactic| frm_step) => `(tactic| with_reducible exact frm_ctorCopy (by assumption) _)
macro_rules | `(tactic| frm_step) => `(tactic| with_reducible exact frm_index _ _)
macro_rules | `(tactic| frm_step) => `(tactic| with_reducible exact frm_resetAt _ _)
theorem frm_atConst (i k : Nat) : Frm (Beside F) (atConst n i k) := by unfold atConst; frm
theorem frm_setAt (i k : Nat) (v : Bool) : Frm (Beside F) (setAt n i k v) := by unfold setAt; frm
theorem frm_flipAt (i k : Nat) : Frm (Beside F) (flipAt n i k) := by unfold flipAt; frm
theorem frm_resetAll (i : Nat) : Frm (Beside F) (resetAll n i) := by unfold resetAll; frm
theorem frm_flipAll (i : Nat) : Frm (Beside F) (flipAll n i) := by unfold flipAll; frm
theorem frm_shlAssign (i c : Nat) : Frm (Beside F) (shlAssign n i c) := by unfold shlAssign; frm
theorem frm_shrAssign (i c : Nat) : Frm (Beside F) (shrAssign n i c) := by unfold shrAssign; frm
theorem frm_andAssign (i j : Nat) : Frm (Beside F) (andAssign n i j) := by unfold andAssign; frm
theorem frm_orAssign (i j : Nat) : Frm (Beside F) (orAssign n i j) := by unfold orAssign; frm
theorem frm_xorAssign (i j : Nat) : Frm (Beside F) (xorAssign n i j) := by unfold xorAssign; frm
theorem frm_anySet (i : Nat) : Frm (Beside F) (anySet n i) := by unfold anySet; frm
theorem frm_opEq (i j : Nat) : Frm (Beside F) (opEq n i j) := by unfold opEq; frm
theorem frm_indexRef (i k : Nat) : Frm (Beside F) (indexRef i k) := by unfold indexRef; frm
macro_rules | `(tactic| frm_step) => `(tactic| with_reducible exact frm_atConst _ _)
macro_rules | `(tactic| frm_step) => `(tactic| with_reducible exact frm_setAt _ _ _)
macro_rules | `(tactic| frm_step) => `(tactic| with_reducible exact frm_flipAt _ _)
macro_rules | `(tactic| frm_step) => `(tactic| with_reducible exact frm_resetAll _)
macro_rules | `(tactic| frm_step) => `(tactic| with_reducible exact frm_flipAll _)
macro_rules | `(tactic| frm_step) => `(tactic| with_reducible exact frm_shlAssign _ _)
macro_rules | `(tactic| frm_step) => `(tactic| with_reducible exact frm_shrAssign _ _)
macro_rules | `(tactic| frm_step) => `(tactic| with_reducible exact frm_andAssign _ _)
macro_rules | `(tactic| frm_step) => `(tactic| with_reducible exact frm_orAssign _ _)
macro_rules | `(tactic| frm_step) => `(tactic| with_reducible exact frm_xorAssign _ _)
macro_rules | `(tactic| frm_step) => `(tactic| with_reducible exact frm_anySet _)
macro_rules | `(tactic| frm_step) => `(tactic| with_reducible exact frm_opEq _ _)
macro_rules | `(tactic| frm_step) => `(tactic| with_reducible exact frm_indexRef _ _)
theorem frm_ctorLoop (i : Nat) (v : BitVec 64) : ∀ m k, Frm (Beside F) (ctorLoop n i v k m)
  | 0, _ => .pure _
  | m + 1, k => by have := frm_ctorLoop i v m (k + 1); unfold ctorLoop; frm
theorem frm_atRef (i k : Nat) : Frm (Beside F) (atRef n i k) := by unfold atRef; frm
theorem frm_refAssign (r : Ref) (v : Bool) : Frm (Beside F) (refAssign n r v) := by unfold refAssign; frm
theorem frm_refFlip (r : Ref) : Frm (Beside F) (Bitset.refFlip n r) := by unfold Bitset.refFlip; frm
theorem frm_insertLoop (i : Nat) : ∀ k, Frm (Beside F) (insertLoop n i k)
  | 0 => .pure _
  | k + 1 => by have := frm_insertLoop i k; unfold insertLoop Bitset.test; frm
theorem frm_extractLoop (i : Nat) : ∀ m e, Frm (Beside F) (extractLoop n i m e)
  | 0, _ => .pure _
  | m + 1, e => by
    have := frm_extractLoop i m true
    unfold extractLoop
    refine .bind frm_getIs fun is => ?_
    generalize is.get = p
    obtain ⟨is', c⟩ := p
    dsimp only
    frm
theorem frm_extract (i : Nat) : Frm (Beside F) (Bitset.extract n i) := by
  unfold Bitset.extract
  refine .bind frm_getIs fun is => ?_
  generalize is.sentry false = p
  obtain ⟨is', ok⟩ := p
  dsimp only
  have := frm_extractLoop (F := F) (n := n) i n false
  frm
macro_rules | `(tactic| frm_step) => `(tactic| with_reducible exact frm_ctorLoop _ _ _ _)
macro_rules | `(tactic| frm_step) => `(tactic| with_reducible exact frm_atRef _ _)
macro_rules | `(tactic| frm_step) => `(tactic| with_reducible exact frm_refAssign _ _)
macro_rules | `(tactic| frm_step) => `(tactic| with_reducible exact frm_refFlip _)
macro_rules | `(tactic| frm_step) => `(tactic| with_reducible exact frm_insertLoop _ _)
macro_rules | `(tactic| frm_step) => `(tactic| with_reducible exact frm_extract _)

/-- the bitsets that the client names in the call -/
def Op.Names : Op → Nat → Prop
  | .ctor i, k | .ctorVal i _, k | .dtor i, k | .shlA i _, k | .shrA i _, k | .setAll i, k | .resetAll i, k | .flipAll i, k | .setAt i _ _, k
  | .resetAt i _, k | .flipAt i _, k | .refSet i _ _, k | .refFlip i _, k | .atSet i _ _, k | .atFlip i _, k | .index i _, k | .atConst i _, k | .test i _, k
  | .allSet i, k | .anySet i, k | .noneSet i, k | .count i, k | .insert i, k | .extract i, k => k = i
  | .copy i j, k | .assign i j, k | .andA i j, k | .orA i j, k | .xorA i j, k | .opNot i j, k | .opShl i j _, k | .opShr i j _, k | .swap i j, k
  | .opEq i j, k | .opNe i j, k => k = i ∨ k = j
  | .opAnd i j l, k | .opOr i j l, k | .opXor i j l, k => k = i ∨ k = j ∨ k = l
  | .openIn _, _ | .openOut _, _ => False

theorem frm_run (op : Op) (hF : ∀ i, op.Names i → F i = none) : Frm (Beside F) (op.run n) := by
  cases op with
  | ctor i => have := hF i rfl; unfold Op.run; frm
  | ctorVal i v => have := hF i rfl; unfold Op.run ctorValue; frm
  | copy i j => have := hF i (.inl rfl); unfold Op.run; frm
  | assign i j => have := hF i (.inl rfl); exact .bind (.bind (frm_getObj j) fun _ => .bind (frm_getObj i) fun _ => frm_put this _) fun _ => .pure _
  | dtor i => have := hF i rfl; exact .bind (.bind (frm_getObj i) fun _ => frm_put this _) fun _ => .pure _
  | andA i j => unfold Op.run; frm
  | orA i j => unfold Op.run; frm
  | xorA i j => unfold Op.run; frm
  | shlA i c => unfold Op.run; frm
  | shrA i c => unfold Op.run; frm
  | opAnd i j k => have := hF i (.inl rfl); unfold Op.run Bitset.opAnd; frm
  | opOr i j k => have := hF i (.inl rfl); unfold Op.run Bitset.opOr; frm
  | opXor i j k => have := hF i (.inl rfl); unfold Op.run Bitset.opXor; frm
  | opNot i j => have := hF i (.inl rfl); unfold Op.run Bitset.opNot; frm
  | opShl i j c => have := hF i (.inl rfl); unfold Op.run Bitset.opShl; frm
  | opShr i j c => have := hF i (.inl rfl); unfold Op.run Bitset.opShr; frm
  | setAll i => unfold Op.run Bitset.setAll; frm
  | resetAll i => unfold Op.run; frm
  | flipAll i => unfold Op.run; frm
  | setAt i k v => unfold Op.run; frm
  | resetAt i k => unfold Op.run; frm
  | flipAt i k => unfold Op.run; frm
  | swap i j => unfold Op.run Bitset.swap; frm
  | refSet i k v => unfold Op.run; frm
  | refFlip i k => unfold Op.run; frm
  | atSet i k v => unfold Op.run; frm
  | atFlip i k => unfold Op.run; frm
  | index i k => unfold Op.run; frm
  | atConst i k => unfold Op.run; frm
  | test i k => unfold Op.run Bitset.test; frm
  | allSet i => unfold Op.run Bitset.allSet; frm
  | anySet i => unfold Op.run; frm
  | noneSet i => unfold Op.run Bitset.noneSet; frm
  | count i => unfold Op.run Bitset.count; frm
  | opEq i j => unfold Op.run; frm
  | opNe i j => unfold Op.run Bitset.opNe; frm
  | insert i => unfold Op.run Bitset.insert; frm
  | extract i => unfold Op.run; frm
  | openIn is => unfold Op.run; frm
  | openOut os => unfold Op.run; frm

/-! ### erasing the other bitsets from memory -/

attribute [local instance] Classical.propDecidable

/-- the state in which only the bitsets in `S` exist -/
noncomputable def only (S : Nat → Prop) (s : St) : St := { s with obj := fun i => if S i then s.obj i else none }

/-- what was erased -/
noncomputable def rest (S : Nat → Prop) (s : St) : Nat → Option (List Byte) := fun i => if S i then none else s.obj i

variable {s : St} {S : Nat → Prop}

theorem beside_only : Beside (rest S s) (only S s) s where
  obj := by
    intro n
    show (∃ o, (if S n then s.obj n else none) = some o ∧ _ ∧ (if S n then none else s.obj n) = none) ∨
      ((if S n then s.obj n else none) = none ∧ _ = (if S n then none else s.obj n))
    by_cases h : S n
    · simp only [if_pos h]
      cases ho : s.obj n with
      | none => exact .inr ⟨rfl, rfl⟩
      | some o => exact .inl ⟨o, rfl, rfl, trivial⟩
    · simp only [if_neg h]
      exact .inr ⟨trivial, trivial⟩
  is := rfl
  os := rfl

/-- what the client knows of the bitsets in `S` -/
noncomputable def View.only (S : Nat → Prop) (V : View n) : View n := { V with var := fun i => if S i then V.var i else none }

theorem inv_only {V : View n} (hinv : Inv s V) : Inv (Bitset.only S s) (V.only S) where
  is := hinv.is
  os := hinv.os
  dead := by
    intro i h
    show (if S i then s.obj i else none) = none
    have h' : (if S i then V.var i else none) = none := h
    split
    · rename_i hi; rw [if_pos hi] at h'; exact hinv.dead i h'
    · rfl
  live := by
    intro i f h
    have h' : (if S i then V.var i else none) = some f := h
    show ∃ xs, (if S i then s.obj i else none) = some xs ∧ _
    by_cases hi : S i
    · rw [if_pos hi] at h' ⊢; exact hinv.live i f h'
    · rw [if_neg hi] at h'; cases h'

/-- the meaning of a call is about the bitsets it names -/
theorem spec_only {V V' : View n} {op : Op} {r : Except Exc Res} (hs : op.spec V = some (r, V')) (hS : ∀ i, op.Names i → S i) :
    ∃ V0, op.spec (V.only S) = some (r, V0) := by
  have hv : ∀ i, op.Names i → (V.only S).var i = V.var i := fun i hi => if_pos (hS i hi)
  cases op
  all_goals simp only [Op.Names, forall_eq, forall_eq_or_imp] at hv
  all_goals simp only [Op.spec, View.use, View.create, View.modify, View.checked, View.unchecked, Option.bind_eq_some_iff, hv] at hs ⊢
  all_goals first
    | exact ⟨_, rfl⟩
    | (simp_all; done)
    | (revert hs; (repeat' split) <;> simp_all <;> done)
    | (obtain ⟨a, ha, hs⟩ := hs; cases hs; exact ⟨_, a, ha, rfl⟩)
    | (obtain ⟨a, ha, b, hb, hs⟩ := hs; cases hs; exact ⟨_, a, ha, b, hb, rfl⟩)
    | (obtain ⟨a, ha, hs⟩ := hs
       split at hs <;> rename_i h <;> cases hs <;> first
         | exact ⟨_, a, ha, congrArg some (if_pos h)⟩
         | exact ⟨_, a, ha, congrArg some (if_neg h)⟩
         | exact ⟨_, a, ha, if_pos h⟩)

/-- C93: erase all bitsets that the call does not name from memory.  The call does the same as before: it returns the same, or
throws the same exception, and leaves the same behind (`s0`, streams included); if nothing had been erased, that would still be
there, unchanged. -/
theorem C93_bitset {V V' : View n} {op : Op} {r : Except Exc Res} (h : Reach n s V) (hs : op.spec V = some (r, V'))
    (hS : ∀ i, op.Names i → S i) :
    match op.run n (only S s) with
    | .ok r' s0 => r = .ok r' ∧ ∃ s', op.run n s = .ok r' s' ∧ Beside (rest S s) s0 s'
    | .exc e s0 => r = .error e ∧ ∃ s', op.run n s = .exc e s' ∧ Beside (rest S s) s0 s'
    | .ub _ => False
    | .term => False := by
  have hinv := h.inv
  obtain ⟨V0, hs0⟩ := spec_only (S := S) hs hS
  have hst := step (inv_only (S := S) hinv) hs0
  have hf := frm_run (n := n) (F := rest S s) op (fun i hi => if_pos (hS i hi)) _ _ beside_only
  cases hr : op.run n (only S s) with
  | ok r' s0 =>
    rw [hr] at hf
    cases r with
    | ok r =>
      obtain ⟨s1, h1, _⟩ := hst
      rw [hr] at h1; cases h1
      exact ⟨rfl, hf⟩
    | error e =>
      obtain ⟨s1, h1, _⟩ := hst
      rw [hr] at h1; cases h1
  | exc e s0 =>
    rw [hr] at hf
    cases r with
    | ok r =>
      obtain ⟨s1, h1, _⟩ := hst
      rw [hr] at h1; cases h1
    | error e =>
      obtain ⟨s1, h1, _⟩ := hst
      rw [hr] at h1; cases h1
      exact ⟨rfl, hf⟩
  | ub f =>
    cases r <;> (obtain ⟨s1, h1, _⟩ := hst; rw [hr] at h1; cases h1)
  | term =>
    cases r <;> (obtain ⟨s1, h1, _⟩ := hst; rw [hr] at h1; cases h1)

/-- C93: of the bitsets a call does name, those whose bits it does not change keep their memory, unused bits included. -/
theorem C93_bitset_sources {V V' : View n} {op : Op} {r : Except Exc Res} (h : Reach n s V) (hs : op.spec V = some (r, V')) {s' : St}
    (hr : op.run n s = outcome r s') {j : Nat} (hj : V'.var j = V.var j) : s'.obj j = s.obj j := by
  obtain ⟨s1, e, hinv'⟩ := step h.inv hs
  have : s' = s1 := by
    rw [hr] at e
    cases r <;> (cases e; rfl)
  subst this
  cases hv : V.var j with
  | none => rw [h.inv.dead j hv, hinv'.dead j (hj.trans hv)]
  | some f =>
    obtain ⟨xs, h1, h2⟩ := h.inv.live j f hv
    obtain ⟨ys, h3, h4⟩ := hinv'.live j f (hj.trans hv)
    rw [h1, h3, (h4.inj h2).2 rfl]

/-- `b2 = b0 & b1` with a bitset 3 around: the same happens without bitset 3, which keeps its bits -/
example : ∃ (s : St) (V : View 11), Reach 11 s V ∧ s.obj 3 ≠ none ∧
    ∃ s' t, (Op.opAnd 2 0 1).run 11 (only (· ≠ 3) s) = .ok .unit s' ∧ s'.obj 3 = none ∧
    (Op.opAnd 2 0 1).run 11 s = .ok .unit t ∧ t.obj 2 = s'.obj 2 ∧ t.obj 3 = s.obj 3 := by
  obtain ⟨s1, _, h1⟩ := (Reach.start (n := 11) fun _ => false).next (op := .ctorVal 0 2025#64) (by simp [Op.spec, View.create]; exact ⟨rfl, rfl⟩)
  obtain ⟨s2, _, h2⟩ := h1.next (op := .ctor 1) (by simp [Op.spec, View.create, View.put, upd]; exact ⟨rfl, rfl⟩)
  obtain ⟨s3, _, h3⟩ := h2.next (op := .ctorVal 3 5#64) (by simp [Op.spec, View.create, View.put, upd]; exact ⟨rfl, rfl⟩)
  have ho : s3.obj 3 ≠ none := by
    obtain ⟨xs, hx, _⟩ := h3.inv.live 3 (fun k => (5#64).getLsbD k.1) (by simp [upd])
    rw [hx]; intro hc; cases hc
  refine ⟨s3, _, h3, ho, ?_⟩
  have := C93_bitset (S := (· ≠ 3)) (op := .opAnd 2 0 1) h3 (by simp [Op.spec, View.use, View.create, View.put, upd]; exact ⟨rfl, rfl⟩)
    (by intro i hi; rcases hi with rfl | rfl | rfl <;> decide)
  have hb := beside_only (S := (· ≠ 3)) (s := s3)
  cases hr : (Op.opAnd 2 0 1).run 11 (only (· ≠ 3) s3) with
  | ok r s' =>
    rw [hr] at this
    obtain ⟨hr', t, ht, hb'⟩ := this
    cases hr'
    have r3 : rest (· ≠ 3) s3 3 = s3.obj 3 := if_neg (by simp)
    refine ⟨s', t, rfl, ?_, ht, ?_, ?_⟩
    · rcases hb'.obj 3 with ⟨o, _, _, k⟩ | ⟨k, _⟩
      · rw [r3] at k; exact (ho k).elim
      · exact k
    · have r2 : rest (· ≠ 3) s3 2 = none := if_pos (by decide)
      rcases hb'.obj 2 with ⟨o, k1, k2, _⟩ | ⟨k1, k2⟩
      · rw [k1, k2]
      · rw [k1, k2, r2]
    · rcases hb'.obj 3 with ⟨o, _, _, k⟩ | ⟨_, k⟩
      · rw [r3] at k; exact (ho k).elim
      · rw [k, r3]
  | exc e s' => rw [hr] at this; obtain ⟨hr', _⟩ := this; cases hr'
  | ub f => rw [hr] at this; exact this.elim
  | term => rw [hr] at this; exact this.elim

end Ptl.Bitset

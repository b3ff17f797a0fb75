import Verif.Frame
import Verif.Arr.Props

/-!
# C93: a call touches nothing but the arrays it is given

As `Verif/Vector/Props/Frame.lean`, for arrays.  The relation between the states and its rules are also those of tuples.
-/

namespace Ptl.Arr

open View (Loc Mem)
open Iter (It)

variable {α β : Type} {E : Elem α} {N : Nat}

/-- the objects of `t` are those of `s` and, side by side with them, `F` -/
structure Beside (F : Mem α) (s t : St α) : Prop where
  obj : ∀ i, (∃ xs, s.mem i = some xs ∧ t.mem i = some xs ∧ F i = none) ∨ (s.mem i = none ∧ t.mem i = F i)
  orc : t.orc = s.orc
  tick : t.tick = s.tick

variable {F : Mem α}

theorem Beside.setObj {s t : St α} (h : Beside F s t) {i : Nat} (hF : F i = none) (o : Option (List α)) :
    Beside F { s with mem := upd s.mem i o } { t with mem := upd t.mem i o } := by
  refine { h with obj := fun j => ?_ }
  by_cases hj : j = i
  · subst hj
    cases o with
    | some o => exact .inl ⟨o, by simp, by simp, hF⟩
    | none => exact .inr ⟨by simp, by simp [hF]⟩
  · simp only [upd_ne _ _ hj]; exact h.obj j

theorem Beside.sub {s t : St α} (h : Beside F s t) (b : Nat) (xs : List α) (hb : s.mem b = some xs) : t.mem b = some xs := by
  rcases h.obj b with ⟨o, h1, h2, _⟩ | ⟨h1, _⟩
  · rw [h2, ← h1, hb]
  · rw [hb] at h1; cases h1

/-- a pointer operation that succeeds gives the same if there are more objects -/
def Mono (f : Mem α → Except Fault β) : Prop :=
  ∀ m m' : Mem α, (∀ b xs, m b = some xs → m' b = some xs) → ∀ r, f m = .ok r → f m' = .ok r

theorem Mono.pure (r : β) : Mono (fun _ : Mem α => Except.ok r) := fun _ _ _ _ h => h

theorem Mono.bind {γ : Type} {f : Mem α → Except Fault β} {g : β → Mem α → Except Fault γ} (hf : Mono f) (hg : ∀ b, Mono (g b)) :
    Mono (fun m => f m >>= fun b => g b m) := by
  intro m m' h r hr
  have hr : (f m >>= fun b => g b m) = .ok r := hr
  cases hfm : f m with
  | error e => rw [show (f m >>= fun b => g b m) = .error e by rw [hfm]; rfl] at hr; cases hr
  | ok b =>
    rw [show (f m >>= fun b => g b m) = g b m by rw [hfm]; rfl] at hr
    show (f m' >>= fun b => g b m') = _
    rw [hf m m' h b hfm]
    exact hg b m m' h r hr

theorem mono_add (p : View.Ptr) (k : Int) : Mono (α := α) (p.add · k) := by
  intro m m' h r hr
  cases p with
  | null => exact hr
  | «at» b o =>
    simp only [View.Ptr.add] at hr ⊢
    cases hb : m b with
    | none => rw [hb] at hr; cases hr
    | some xs => rw [hb] at hr; rw [h b xs hb]; exact hr

theorem mono_deref (p : View.Ptr) : Mono (α := α) p.deref := by
  intro m m' h r hr
  cases p with
  | null => exact hr
  | «at» b o =>
    simp only [View.Ptr.deref] at hr ⊢
    cases hb : m b with
    | none => rw [hb] at hr; cases hr
    | some xs => rw [hb] at hr; rw [h b xs hb]; exact hr

theorem mono_sub (p q : View.Ptr) : Mono (α := α) (p.sub · q) := by
  intro m m' h r hr
  cases p with
  | null => cases q <;> exact hr
  | «at» b o =>
    cases q with
    | null => exact hr
    | «at» b' o' =>
      simp only [View.Ptr.sub] at hr ⊢
      cases hb : m b with
      | none => rw [hb] at hr; cases hr
      | some xs => rw [hb] at hr; rw [h b xs hb]; exact hr

theorem mono_read (l : Loc) : Mono (α := α) l.read := by
  intro m m' h r hr
  simp only [Loc.read] at hr ⊢
  cases hb : m l.blk with
  | none => rw [hb] at hr; cases hr
  | some xs => rw [hb] at hr; rw [h _ xs hb]; exact hr

theorem mono_inc (it : It) : Mono (α := α) (Iter.inc · it) := .bind (mono_add _ _) fun _ => .pure _
theorem mono_iadd (it : It) (k : Int) : Mono (α := α) (Iter.add · it k) := .bind (mono_add _ _) fun _ => .pure _
theorem mono_ideref (it : It) : Mono (α := α) (Iter.deref · it) := mono_deref _
theorem mono_iindex (it : It) (k : Int) : Mono (α := α) (Iter.index · it k) := .bind (mono_iadd _ _) fun _ => mono_ideref _
theorem mono_diff (it jt : It) : Mono (α := α) (Iter.diff · it jt) := mono_sub _ _
theorem mono_end (p : View.Ptr) (n : Nat) : Mono (α := α) (Iter.end_ · p n) := mono_iadd _ _

theorem frm_onMem {f : Mem α → Except Fault β} (hf : Mono f) : Frm (Beside F) (onMem f) := by
  intro s t h
  unfold onMem
  cases hs : f s.mem with
  | ok b => rw [hf _ _ h.sub b hs]; exact ⟨t, rfl, h⟩
  | error e => trivial

theorem frm_fallible : Frm (Beside F) fallible := by
  intro s t h
  unfold fallible
  rw [h.orc, h.tick]
  split
  · exact ⟨_, rfl, ⟨h.obj, rfl, rfl⟩⟩
  · exact ⟨_, rfl, ⟨h.obj, rfl, rfl⟩⟩

theorem frm_alive (i : Nat) : Frm (Beside F) (alive i) := by
  intro s t h
  unfold alive
  rcases h.obj i with ⟨o, h1, h2, _⟩ | ⟨h1, _⟩
  · rw [h1, h2]; exact ⟨_, rfl, h⟩
  · rw [h1]; trivial

theorem frm_readLoc (l : Loc) : Frm (Beside F) (readLoc l) := frm_onMem (mono_read l)

theorem frm_writeLoc (l : Loc) (v : α) : Frm (Beside F) (writeLoc l v) := by
  intro s t h
  unfold writeLoc Loc.write
  rcases h.obj l.blk with ⟨o, h1, h2, h3⟩ | ⟨h1, _⟩
  · rw [h1, h2]
    dsimp only
    by_cases hl : l.idx < o.length
    · simp only [if_pos hl]; exact ⟨_, rfl, h.setObj h3 _⟩
    · simp only [if_neg hl]; trivial
  · rw [h1]; trivial

theorem frm_newObj {i : Nat} (hF : F i = none) (xs : List α) : Frm (Beside F) (newObj i xs) := by
  intro s t h
  unfold newObj
  rcases h.obj i with ⟨o, h1, h2, h3⟩ | ⟨h1, h2⟩
  · rw [h1]; trivial
  · rw [h1, h2, hF]; exact ⟨_, rfl, h.setObj hF _⟩

/-- the end of a lifetime -/
theorem frm_kill {i : Nat} (hF : F i = none) : Frm (Beside F) (fun s => .ok () { s with mem := upd s.mem i none }) :=
  fun _ _ h => ⟨_, rfl, h.setObj hF none⟩

macro_rules | `(tactic| frm_step) => `(tactic| with_reducible exact frm_fallible)
macro_rules | `(tactic| frm_step) => `(tactic| with_reducible exact frm_alive _)
macro_rules | `(tactic| frm_step) => `(tactic| with_reducible exact frm_readLoc _)
macro_rules | `(tactic| frm_step) => `(tactic| with_reducible exact frm_writeLoc _ _)
macro_rules | `(tactic| frm_step) => `(tactic| with_reducible exact frm_newObj (by assumption) _)
macro_rules | `(tactic| frm_step) => `(tactic| with_reducible exact frm_onMem (mono_ideref _))
macro_rules | `(tactic| frm_step) => `(tactic| with_reducible exact frm_onMem (mono_iindex _ _))
macro_rules | `(tactic| frm_step) => `(tactic| with_reducible exact frm_onMem (mono_inc _))
macro_rules | `(tactic| frm_step) => `(tactic| with_reducible exact frm_onMem (mono_end _ _))
macro_rules | `(tactic| frm_step) => `(tactic| with_reducible exact frm_onMem (mono_add _ _))
macro_rules | `(tactic| frm_step) => `(tactic| with_reducible exact frm_onMem (mono_deref _))

theorem frm_argTake (a : Arg α) : Frm (Beside F) (a.take E) := by cases a <;> unfold Arg.take <;> frm
theorem frm_argRead (a : Arg α) : Frm (Beside F) a.read := by cases a <;> unfold Arg.read <;> frm
macro_rules | `(tactic| frm_step) => `(tactic| with_reducible exact frm_argTake _)
macro_rules | `(tactic| frm_step) => `(tactic| with_reducible exact frm_argRead _)

theorem frm_copyAssign (l : Loc) (a : Arg α) : Frm (Beside F) (copyAssign E l a) := by
  intro s t h
  have h1 : Frm (Beside F) (readLoc l >>= fun x => a.read >>= fun v => pure (x, v) : AM α (α × α)) := by frm
  have h1 := h1 s t h
  unfold copyAssign
  cases hr : (readLoc l >>= fun x => a.read >>= fun v => pure (x, v) : AM α (α × α)) s with
  | ok p s1 =>
    rw [hr] at h1
    obtain ⟨t1, h2, h3⟩ := h1
    rw [h2]
    obtain ⟨x, v⟩ := p
    dsimp only
    rw [h3.orc, h3.tick]
    split
    · have h4 := frm_writeLoc l (E.torn x v) s1 t1 h3
      cases hw : writeLoc l (E.torn x v) s1 with
      | ok u s2 =>
        rw [hw] at h4
        obtain ⟨t2, h5, h6⟩ := h4
        rw [h5]
        exact ⟨_, rfl, { h6 with orc := h6.orc, tick := by rw [h6.tick] }⟩
      | exc e s2 =>
        rw [hw] at h4
        obtain ⟨t2, h5, h6⟩ := h4
        rw [h5]
        exact ⟨_, rfl, h6⟩
      | ub f => trivial
      | term => rw [hw] at h4; rw [show writeLoc l (E.torn x v) t1 = .term from h4]; rfl
    · have h4 := frm_writeLoc l v s1 t1 h3
      cases hw : writeLoc l v s1 with
      | ok u s2 =>
        rw [hw] at h4
        obtain ⟨t2, h5, h6⟩ := h4
        rw [h5]
        exact ⟨_, rfl, { h6 with orc := h6.orc, tick := by rw [h6.tick] }⟩
      | exc e s2 =>
        rw [hw] at h4
        obtain ⟨t2, h5, h6⟩ := h4
        rw [h5]
        exact ⟨_, rfl, h6⟩
      | ub f => trivial
      | term => rw [hw] at h4; rw [show writeLoc l v t1 = .term from h4]; rfl
  | exc e s1 =>
    rw [hr] at h1
    obtain ⟨t1, h2, h3⟩ := h1
    rw [h2]
    exact ⟨_, rfl, h3⟩
  | ub f => trivial
  | term => rw [hr] at h1; rw [show (readLoc l >>= fun x => a.read >>= fun v => pure (x, v) : AM α (α × α)) t = .term from h1]; rfl

theorem frm_moveAssign (l src : Loc) : Frm (Beside F) (moveAssign E l src) := by unfold moveAssign; frm
theorem frm_swapElem (l l' : Loc) : Frm (Beside F) (swapElem (α := α) l l') := by unfold swapElem; frm
macro_rules | `(tactic| frm_step) => `(tactic| with_reducible exact frm_copyAssign _ _)
macro_rules | `(tactic| frm_step) => `(tactic| with_reducible exact frm_moveAssign _ _)
macro_rules | `(tactic| frm_step) => `(tactic| with_reducible exact frm_swapElem _ _)

theorem frm_takeAll : ∀ as : List (Arg α), Frm (Beside F) (takeAll E as)
  | [] => .pure _
  | a :: as => by have := frm_takeAll as; unfold takeAll; frm
theorem frm_takeDefaults : ∀ n, Frm (Beside F) (takeDefaults E n)
  | 0 => .pure _
  | n + 1 => by have := frm_takeDefaults n; unfold takeDefaults; frm
theorem frm_copyLoop (i j : Nat) : ∀ n k, Frm (Beside F) (copyLoop E i j n k)
  | 0, _ => .pure _
  | n + 1, k => by have := frm_copyLoop i j n (k + 1); unfold copyLoop; frm
theorem frm_moveLoop (i j : Nat) : ∀ n k, Frm (Beside F) (moveLoop E i j n k)
  | 0, _ => .pure _
  | n + 1, k => by have := frm_moveLoop i j n (k + 1); unfold moveLoop; frm
theorem frm_data (i : Nat) : Frm (Beside F) (data (α := α) N i) := by unfold data; frm
macro_rules | `(tactic| frm_step) => `(tactic| with_reducible exact frm_takeAll _)
macro_rules | `(tactic| frm_step) => `(tactic| with_reducible exact frm_takeDefaults _)
macro_rules | `(tactic| frm_step) => `(tactic| with_reducible exact frm_copyLoop _ _ _ _)
macro_rules | `(tactic| frm_step) => `(tactic| with_reducible exact frm_moveLoop _ _ _ _)
macro_rules | `(tactic| frm_step) => `(tactic| with_reducible exact frm_data _)
theorem frm_index (i k : Nat) : Frm (Beside F) (index (α := α) N i k) := by unfold index; frm
theorem frm_begin (i : Nat) : Frm (Beside F) (begin_ (α := α) N i) := by unfold begin_; frm
theorem frm_end (i : Nat) : Frm (Beside F) (end_ (α := α) N i) := by unfold end_; frm
macro_rules | `(tactic| frm_step) => `(tactic| with_reducible exact frm_index _ _)
macro_rules | `(tactic| frm_step) => `(tactic| with_reducible exact frm_begin _)
macro_rules | `(tactic| frm_step) => `(tactic| with_reducible exact frm_end _)
theorem frm_at (i k : Nat) : Frm (Beside F) (at_ (α := α) N i k) := by unfold at_; frm
theorem frm_get (i k : Nat) : Frm (Beside F) (get (α := α) N i k) := by unfold get; frm
theorem frm_iterAt (i : Nat) (k : Int) : Frm (Beside F) (iterAt (α := α) N i k) := by unfold iterAt; frm
macro_rules | `(tactic| frm_step) => `(tactic| with_reducible exact frm_at _ _)
macro_rules | `(tactic| frm_step) => `(tactic| with_reducible exact frm_get _ _)
macro_rules | `(tactic| frm_step) => `(tactic| with_reducible exact frm_iterAt _ _)
theorem frm_fillLoop (last : It) (a : Arg α) : ∀ fuel first, Frm (Beside F) (fillLoop E last a fuel first)
  | 0, _ => .ub _
  | fuel + 1, first => by have := frm_fillLoop last a fuel; unfold fillLoop; frm; exact this _
theorem frm_swapLoop (last : It) : ∀ fuel first first2, Frm (Beside F) (swapLoop (α := α) last fuel first first2)
  | 0, _, _ => .ub _
  | fuel + 1, first, first2 => by have := frm_swapLoop last fuel; unfold swapLoop; frm; exact this _ _
macro_rules | `(tactic| frm_step) => `(tactic| with_reducible exact frm_fillLoop _ _ _ _)
macro_rules | `(tactic| frm_step) => `(tactic| with_reducible exact frm_swapLoop _ _ _ _)

/-- the array that an argument refers into -/
def Arg.Names : Arg α → Nat → Prop
  | .val _, _ => False
  | .elem j _, k | .mv j _, k => k = j

/-- the arrays that the client names in the call -/
def Op.Names : Op α → Nat → Prop
  | .ctor i args, k => k = i ∨ ∃ a ∈ args, a.Names k
  | .ctorCopy i j, k | .ctorMove i j, k | .assignCopy i j, k | .assignMove i j, k | .swap i j, k => k = i ∨ k = j
  | .fill i a, k => k = i ∨ a.Names k
  | .dtor i, k | .setIndex i _ _, k | .setAt i _ _, k | .setGet i _ _, k | .setFront i _, k | .setBack i _, k | .setIter i _ _, k => k = i

theorem frm_run (op : Op α) (hF : ∀ i, op.Names i → F i = none) : Frm (Beside F) (op.run E N) := by
  cases op with
  | ctor i args => have := hF i (.inl rfl); unfold Op.run ctor; frm
  | ctorCopy i j => have := hF i (.inl rfl); unfold Op.run ctorCopy; frm
  | ctorMove i j => have := hF i (.inl rfl); unfold Op.run ctorMove; frm
  | dtor i => exact .bind (frm_alive i) fun _ => frm_kill (hF i rfl)
  | assignCopy i j => unfold Op.run assignCopy; frm
  | assignMove i j => unfold Op.run assignMove; frm
  | fill i a => unfold Op.run fill; frm
  | swap i j => unfold Op.run swap; frm
  | setIndex i k v => unfold Op.run; frm
  | setAt i k v => unfold Op.run; frm
  | setGet i k v => unfold Op.run; frm
  | setFront i v => unfold Op.run front; frm
  | setBack i v => unfold Op.run back; frm
  | setIter i k v => unfold Op.run; frm

/-! ### erasing the other arrays from memory -/

attribute [local instance] Classical.propDecidable

/-- the state in which only the objects in `S` exist -/
noncomputable def only (S : Nat → Prop) (s : St α) : St α := { s with mem := fun i => if S i then s.mem i else none }

/-- what was erased -/
noncomputable def rest (S : Nat → Prop) (s : St α) : Mem α := fun i => if S i then none else s.mem i

variable {s : St α} {S : Nat → Prop} {V : Vars α}

theorem beside_only : Beside (rest S s) (only S s) s where
  obj := by
    intro n
    show (∃ o, (if S n then s.mem n else none) = some o ∧ _ ∧ (if S n then none else s.mem n) = none) ∨
      ((if S n then s.mem n else none) = none ∧ _ = (if S n then none else s.mem n))
    by_cases h : S n
    · simp only [if_pos h]
      cases ho : s.mem n with
      | none => exact .inr ⟨rfl, rfl⟩
      | some o => exact .inl ⟨o, rfl, rfl, trivial⟩
    · simp only [if_neg h]
      exact .inr ⟨trivial, trivial⟩
  orc := rfl
  tick := rfl

theorem inv_only (hinv : Inv N s V) : Inv N (only S s) (fun i => if S i then V i else none) where
  mem := by
    show (fun i => if S i then s.mem i else none) = _
    rw [hinv.mem]
  len := by
    intro i xs h
    by_cases hi : S i
    · simp only [if_pos hi] at h; exact hinv.len i xs h
    · simp only [if_neg hi] at h; cases h

theorem Takes.only {args : List (Arg α)} {vs : List α} {V' : Vars α} (h : Takes E args V vs V') : ∀ {V0 : Vars α},
    (∀ a ∈ args, ∀ j, a.Names j → S j) → (∀ j, S j → V0 j = V j) → ∃ V0', Takes E args V0 vs V0' := by
  induction h with
  | nil => intro V0 _ _; exact ⟨_, .nil⟩
  | val _ ih =>
    intro V0 hn hv
    obtain ⟨V0', h'⟩ := ih (fun a ha => hn a (List.mem_cons_of_mem _ ha)) hv
    exact ⟨V0', .val h'⟩
  | elem hj hk _ ih =>
    intro V0 hn hv
    obtain ⟨V0', h'⟩ := ih (fun a ha => hn a (List.mem_cons_of_mem _ ha)) hv
    exact ⟨V0', .elem (by rw [hv _ (hn _ List.mem_cons_self _ rfl)]; exact hj) hk h'⟩
  | @mv j k v ys as V vs V' hj hk _ ih =>
    intro V0 hn hv
    obtain ⟨V0', h'⟩ := ih (V0 := upd V0 j (some (ys.set k (E.moved v)))) (fun a ha => hn a (List.mem_cons_of_mem _ ha)) (by
      intro j' hj'
      by_cases e : j' = j
      · subst e; rw [upd_same, upd_same]
      · rw [upd_ne _ _ e, upd_ne _ _ e]; exact hv j' hj')
    exact ⟨V0', .mv (by rw [hv _ (hn _ List.mem_cons_self _ rfl)]; exact hj) hk h'⟩

/-- whether a call is within its preconditions depends on the arrays it names -/
theorem Pre.agree {op : Op α} {V0 : Vars α} (h : Pre E N op V) (hS : ∀ i, op.Names i → S i) (h0 : ∀ i, S i → V0 i = V i) :
    Pre E N op V0 := by
  obtain ⟨x, V', hs⟩ := h
  have hv : ∀ {i : Nat}, op.Names i → V0 i = V i := fun hi => h0 _ (hS _ hi)
  have tk : ∀ {args : List (Arg α)} {vs : List α} {V' : Vars α}, Takes E args V vs V' → (∀ a ∈ args, ∀ j, a.Names j → S j) →
      ∃ V0', Takes E args V0 vs V0' := fun h hn => h.only hn h0
  cases hs with
  | ctor h0 hl ht =>
    obtain ⟨V0', h'⟩ := tk ht fun a ha j hj => hS j (.inr ⟨a, ha, hj⟩)
    exact ⟨_, _, .ctor ((hv (.inl rfl)).trans h0) hl h'⟩
  | ctorThrows h0 hl ht ht' =>
    obtain ⟨V0', h'⟩ := tk ht fun a ha j hj => hS j (.inr ⟨a, ha, hj⟩)
    exact ⟨_, _, .ctor ((hv (.inl rfl)).trans h0) hl h'⟩
  | ctorCopy h0 hj => exact ⟨_, _, .ctorCopy ((hv (.inl rfl)).trans h0) ((hv (.inr rfl)).trans hj)⟩
  | ctorCopyThrows h0 hj => exact ⟨_, _, .ctorCopy ((hv (.inl rfl)).trans h0) ((hv (.inr rfl)).trans hj)⟩
  | ctorMove h0 hj => exact ⟨_, _, .ctorMove ((hv (.inl rfl)).trans h0) ((hv (.inr rfl)).trans hj)⟩
  | dtor hi => exact ⟨_, _, .dtor ((hv rfl).trans hi)⟩
  | assignCopy hi hj => exact ⟨_, _, .assignCopy ((hv (.inl rfl)).trans hi) ((hv (.inr rfl)).trans hj)⟩
  | assignCopyThrows hi hj _ _ => exact ⟨_, _, .assignCopy ((hv (.inl rfl)).trans hi) ((hv (.inr rfl)).trans hj)⟩
  | assignMove hij hi hj => exact ⟨_, _, .assignMove hij ((hv (.inl rfl)).trans hi) ((hv (.inr rfl)).trans hj)⟩
  | assignMoveSelf hi => exact ⟨_, _, .assignMoveSelf ((hv (.inl rfl)).trans hi)⟩
  | fill hi ha =>
    have hi' := (hv (.inl rfl)).trans hi
    cases ha with
    | val => exact ⟨_, _, .fill hi' .val⟩
    | elem hj hk => exact ⟨_, _, .fill hi' (.elem ((hv (.inr rfl)).trans hj) hk)⟩
    | mv hj hk => exact ⟨_, _, .fill hi' (.mv ((hv (.inr rfl)).trans hj) hk)⟩
  | fillThrows hi ha _ =>
    have hi' := (hv (.inl rfl)).trans hi
    cases ha with
    | val => exact ⟨_, _, .fill hi' .val⟩
    | elem hj hk => exact ⟨_, _, .fill hi' (.elem ((hv (.inr rfl)).trans hj) hk)⟩
    | mv hj hk => exact ⟨_, _, .fill hi' (.mv ((hv (.inr rfl)).trans hj) hk)⟩
  | swap hi hj => exact ⟨_, _, .swap ((hv (.inl rfl)).trans hi) ((hv (.inr rfl)).trans hj)⟩
  | setIndex hi hk => exact ⟨_, _, .setIndex ((hv rfl).trans hi) hk⟩
  | setAt hi hk => exact ⟨_, _, .setAt ((hv rfl).trans hi) hk⟩
  | setAtThrows hi hk => exact ⟨_, _, .setAtThrows ((hv rfl).trans hi) hk⟩
  | setGet hi hk => exact ⟨_, _, .setGet ((hv rfl).trans hi) hk⟩
  | setFront hi hk => exact ⟨_, _, .setFront ((hv rfl).trans hi) hk⟩
  | setBack hi hk => exact ⟨_, _, .setBack ((hv rfl).trans hi) hk⟩
  | setIter hi hk => exact ⟨_, _, .setIter ((hv rfl).trans hi) hk⟩

theorem Pre.only {op : Op α} (h : Pre E N op V) (hS : ∀ i, op.Names i → S i) : Pre E N op (fun i => if S i then V i else none) :=
  h.agree hS fun _ hi => if_pos hi

/-- C93: erase all arrays that the call does not name from memory.  The call does the same as before: it returns normally, or
throws the same exception, and leaves the same behind (`s0`); if nothing had been erased, that would still be there, unchanged. -/
theorem C93_array (hN : N ≤ ptrdiffMax) {op : Op α} (h : Reach E N s V) (hp : Pre E N op V) (hS : ∀ i, op.Names i → S i) :
    match op.run E N (only S s) with
    | .ok r' s0 => ∃ s', op.run E N s = .ok r' s' ∧ Beside (rest S s) s0 s'
    | .exc e s0 => ∃ s', op.run E N s = .exc e s' ∧ Beside (rest S s) s0 s'
    | .ub _ => False
    | .term => False := by
  have hst := step hN (inv_only (S := S) (h.inv hN)) (hp.only hS)
  have hf := frm_run (E := E) (N := N) (F := rest S s) op (fun i hi => if_pos (hS i hi)) _ _ beside_only
  unfold Allowed at hst
  cases hr : op.run E N (only S s) with
  | ok r' s0 => rw [hr] at hf; exact hf
  | exc e s0 => rw [hr] at hf; exact hf
  | ub f => rw [hr] at hst; exact hst.elim
  | term => rw [hr] at hst; exact hst.elim

/-- C93: what the client sees of an array, and how it compares to another, does not depend on any other array. -/
theorem C93_array_reads (hN : N ≤ ptrdiffMax) (h : Reach E N s V) {i j : Nat} (hi : S i) (hj : S j) {xs ys : List α}
    (vi : V i = some xs) (vj : V j = some ys) (eq lt : α → α → Bool) :
    (Shows N (only S s) i xs ∧ Shows N s i xs) ∧
    (∃ b, opEq N eq i j (only S s) = .ok b (only S s) ∧ opEq N eq i j s = .ok b s) ∧
    (∃ b, opNe N eq i j (only S s) = .ok b (only S s) ∧ opNe N eq i j s = .ok b s) ∧
    (∃ b, opLt N lt i j (only S s) = .ok b (only S s) ∧ opLt N lt i j s = .ok b s) ∧
    (∃ b, opGt N lt i j (only S s) = .ok b (only S s) ∧ opGt N lt i j s = .ok b s) ∧
    (∃ b, opLe N lt i j (only S s) = .ok b (only S s) ∧ opLe N lt i j s = .ok b s) ∧
    (∃ b, opGe N lt i j (only S s) = .ok b (only S s) ∧ opGe N lt i j s = .ok b s) := by
  have k := h.inv hN
  have k0 := inv_only (S := S) k
  have vi0 : (fun i => if S i then V i else none) i = some xs := (if_pos hi).trans vi
  have vj0 : (fun i => if S i then V i else none) j = some ys := (if_pos hj).trans vj
  exact ⟨⟨k0.shows hN vi0, k.shows hN vi⟩, ⟨_, k0.opEq hN eq vi0 vj0, k.opEq hN eq vi vj⟩,
    ⟨_, M.bind_ok (k0.opEq hN eq vi0 vj0), M.bind_ok (k.opEq hN eq vi vj)⟩,
    ⟨_, k0.opLt hN lt vi0 vj0, k.opLt hN lt vi vj⟩, ⟨_, k0.opLt hN lt vj0 vi0, k.opLt hN lt vj vi⟩,
    ⟨_, M.bind_ok (k0.opLt hN lt vj0 vi0), M.bind_ok (k.opLt hN lt vj vi)⟩,
    ⟨_, M.bind_ok (k0.opLt hN lt vi0 vj0), M.bind_ok (k.opLt hN lt vi vj)⟩⟩

/-- arrays `{1, 2, 5}` and `{7, 7, 7}`: `a0.fill(a0[1])` does the same without array 1, which keeps its elements -/
example : ∃ s : St Nat, Reach natElem 3 s demoV ∧ ∃ s' t, (Op.fill 0 (.elem 0 1)).run natElem 3 (only (· ≠ 1) s) = .ok () s' ∧
    s'.mem 1 = none ∧ (Op.fill 0 (.elem 0 1)).run natElem 3 s = .ok () t ∧ t.mem 0 = s'.mem 0 ∧ t.mem 1 = some [7, 7, 7] := by
  have hN : 3 ≤ ptrdiffMax := by decide
  obtain ⟨s, h, ho⟩ := demo
  have hs : Spec natElem 3 (.fill 0 (.elem 0 1)) demoV none _ := .fill (v := 2) rfl (.elem rfl rfl)
  have := C93_array (S := (· ≠ 1)) hN h ⟨_, _, hs⟩ (by intro i hi; rcases hi with rfl | hi; · decide
                                                       · cases hi; decide)
  obtain ⟨t, ht, ht', _⟩ := h.next hN hs ho
  have r1 : rest (· ≠ 1) s 1 = some [7, 7, 7] := by
    refine (if_neg (by simp)).trans ?_
    rw [(h.inv hN).mem]; rfl
  have r0 : rest (· ≠ 1) s 0 = none := if_pos (by decide)
  cases hr : (Op.fill 0 (.elem 0 1)).run natElem 3 (only (· ≠ 1) s) with
  | ok r s' =>
    rw [hr] at this
    obtain ⟨t', e, hb⟩ := this
    rw [ht] at e; cases e
    refine ⟨s, h, s', t, hr, ?_, ht, ?_, ?_⟩
    · rcases hb.obj 1 with ⟨o, _, _, k⟩ | ⟨k, _⟩
      · rw [r1] at k; cases k
      · exact k
    · rcases hb.obj 0 with ⟨o, k1, k2, _⟩ | ⟨k1, k2⟩
      · rw [k1, k2]
      · rw [k1, k2, r0]
    · rcases hb.obj 1 with ⟨o, _, _, k⟩ | ⟨_, k⟩
      · rw [r1] at k; cases k
      · rw [k, r1]
  | exc e s' => rw [hr] at this; obtain ⟨t', e, _⟩ := this; rw [ht] at e; cases e
  | ub f => rw [hr] at this; exact this.elim
  | term => rw [hr] at this; exact this.elim

end Ptl.Arr

import Verif.Reads.Basic
import Verif.Vector.Model
import Verif.Str.Model
import Verif.Optional.Model
import Verif.Variant.Model
import Verif.Tuple.Model
import Verif.View.Model
import Verif.OptRef.Model
import Verif.VarRef.Model
import Verif.Bitset.Model

/-!
# The `const` functions of each class only read (C109)
-/

namespace Ptl

section
variable {α ω : Type} {R : St α ω → St α ω → Prop} [Steps R]

theorem keeps_getObj (i : Id) : Keeps R (getObj i) := by
  intro s; unfold getObj; split <;> first | exact Steps.refl s | trivial
theorem keeps_slotAt (p : Ptr) : Keeps R (slotAt p) := by
  intro s; unfold slotAt; repeat' split
  all_goals first | exact Steps.refl s | trivial
end

namespace Vector

variable {α : Type} {R : St α Storage → St α Storage → Prop} [Steps R]

theorem keeps_data (i : Id) : Keeps R (data (α := α) i) := by
  unfold data; keep; exact keeps_getObj i
theorem keeps_size (i : Id) : Keeps R (size (α := α) i) := by
  unfold size; keep; exact keeps_getObj i
theorem keeps_readAt (p : Ptr) : Keeps R (readAt (α := α) p) := by
  unfold readAt; keep; exact keeps_slotAt p
theorem keeps_index (i : Id) (k : Nat) : Keeps R (index (α := α) i k) := by
  unfold index; keep; exact keeps_data i

theorem keeps_lexLoop (lt : α → α → Bool) : ∀ (n : Nat) (p q : Ptr) (m : Nat), Keeps R (lexLoop lt p n q m)
  | 0, _, _, _ => Keeps.pure _
  | _ + 1, _, _, 0 => Keeps.pure _
  | n + 1, p, q, m + 1 => by
    unfold lexLoop
    refine .bind (keeps_readAt p) fun _ => .bind (keeps_readAt q) fun _ => .ite (.pure _) (.ite (.pure _) ?_)
    exact keeps_lexLoop lt n _ _ m

theorem keeps_eqLoop (eq : α → α → Bool) : ∀ (n : Nat) (p q : Ptr), Keeps R (eqLoop eq p n q)
  | 0, _, _ => Keeps.pure _
  | n + 1, p, q => by
    unfold eqLoop
    refine .bind (keeps_readAt p) fun _ => .bind (keeps_readAt q) fun _ => .ite ?_ (.pure _)
    exact keeps_eqLoop eq n _ _

theorem keeps_opLt (lt : α → α → Bool) (i j : Id) : Keeps R (opLt lt i j) :=
  .bind (keeps_data i) fun _ => .bind (keeps_size i) fun _ => .bind (keeps_data j) fun _ => .bind (keeps_size j) fun _ =>
    keeps_lexLoop lt _ _ _ _
theorem keeps_opEq (eq : α → α → Bool) (i j : Id) : Keeps R (opEq eq i j) :=
  .bind (keeps_data i) fun _ => .bind (keeps_size i) fun _ => .bind (keeps_data j) fun _ => .bind (keeps_size j) fun _ =>
    .ite (.pure _) (keeps_eqLoop eq _ _ _)

/-- C109: the const functions of `vector`, and reading through the pointers, references and iterators they return -/
theorem C109_vector (i j : Id) (k : Nat) (p : Ptr) (lt eq : α → α → Bool) :
    ReadOnly (data (α := α) i) ∧ ReadOnly (size (α := α) i) ∧ ReadOnly (capacity (α := α) i) ∧ ReadOnly (empty (α := α) i) ∧
    ReadOnly (index (α := α) i k) ∧ ReadOnly (at_ (α := α) i k) ∧ ReadOnly (front (α := α) i) ∧ ReadOnly (back (α := α) i) ∧
    ReadOnly (end_ (α := α) i) ∧ ReadOnly (readAt (α := α) p) ∧
    ReadOnly (opLt lt i j) ∧ ReadOnly (opGt lt i j) ∧ ReadOnly (opLe lt i j) ∧ ReadOnly (opGe lt i j) ∧
    ReadOnly (opEq eq i j) ∧ ReadOnly (opNe eq i j) := by
  refine ⟨keeps_data i, keeps_size i, .bind (keeps_getObj i) fun _ => .pure _, ?_, keeps_index i k, ?_, keeps_index i 0, ?_, ?_,
    keeps_readAt p, keeps_opLt lt i j, keeps_opLt lt j i, .bind (keeps_opLt lt j i) fun _ => .pure _,
    .bind (keeps_opLt lt i j) fun _ => .pure _, keeps_opEq eq i j, .bind (keeps_opEq eq i j) fun _ => .pure _⟩
  · unfold ReadOnly empty; keep; exact keeps_size i
  · exact .bind (keeps_size i) fun _ => .ite (.throw _) (keeps_index i k)
  · exact .bind (keeps_size i) fun _ => keeps_index i _
  · unfold ReadOnly end_; keep <;> first | exact keeps_data i | exact keeps_size i

/-- a vector {7, 8} and a vector {7, 9} -/
def twoVectors : St Nat Storage where
  blk := fun b => if b = 0 then some (some 7 :: some 8 :: List.replicate 8 none) else
    if b = 1 then some (some 7 :: some 9 :: List.replicate 8 none) else none
  nblk := 2
  obj := fun i => if i = .var 0 then some ⟨some 0, some 0, 10, 2⟩ else if i = .var 1 then some ⟨some 1, some 1, 10, 2⟩ else none
  ntmp := 0
  orc := fun _ => true
  tick := 0
  moves := 0

/-- one thread asks for the size, the next for an element, the third compares, the fourth asks for an element that does not exist -/
def someCalls : List (Call (St Nat Storage)) :=
  [⟨Nat, size (.var 0)⟩, ⟨Nat, do let p ← at_ (.var 1) 1; readAt p⟩, ⟨Bool, opLt (· < ·) (.var 0) (.var 1)⟩, ⟨Ptr, at_ (.var 0) 2⟩]

example : inTurn someCalls twoVectors =
    some ([⟨Nat, .returned 2⟩, ⟨Nat, .returned 9⟩, ⟨Bool, .returned true⟩, ⟨Ptr, .threw .outOfRange⟩], twoVectors) := rfl

/-- in whichever order -/
example : ∀ cs : List (Call (St Nat Storage)), cs.Perm someCalls → ∃ gs, inTurn cs twoVectors = some (gs, twoVectors) := by
  intro cs h
  obtain ⟨h1, _, _, _, _, h2, _, _, _, h3, h4, _⟩ := C109_vector (α := Nat) (.var 0) (.var 1) 2 ⟨none, 0⟩ (· < ·) (· == ·)
  obtain ⟨_, hs, _⟩ := C109_vector (α := Nat) (.var 0) (.var 1) 2 ⟨none, 0⟩ (· < ·) (· == ·)
  have ha := (C109_vector (α := Nat) (.var 1) (.var 1) 1 ⟨none, 0⟩ (· < ·) (· == ·)).2.2.2.2.2.1
  obtain ⟨gs, hg, -⟩ := C109_threads (s := twoVectors) cs
    (fun c hc => by
      have hc := h.mem_iff.1 hc
      simp only [someCalls, List.mem_cons, List.not_mem_nil, or_false] at hc
      rcases hc with rfl | rfl | rfl | rfl
      · exact hs
      · exact .bind ha fun p => keeps_readAt p
      · exact h4
      · exact h2)
    (fun c hc => by
      have hc := h.mem_iff.1 hc
      simp only [someCalls, List.mem_cons, List.not_mem_nil, or_false] at hc
      rcases hc with rfl | rfl | rfl | rfl <;> rfl)
  exact ⟨gs, hg⟩

/-- a call that writes is not read-only -/
example : ¬ ReadOnly (popBack (α := Nat) (.var 0)) := by
  intro h
  have h1 : twoVectors.obj (.var 0) = some ⟨some 0, some 0, 10, 1⟩ := by
    have := h twoVectors
    exact congrArg (fun s : St Nat Storage => s.obj (.var 0)) this
  exact absurd h1 (by decide)

end Vector

namespace Str

variable {R : St → St → Prop} [Steps R]

theorem keeps_getObj (i : Id) : Keeps R (getObj i) := by
  intro s; unfold getObj; split <;> first | exact Steps.refl s | trivial
theorem keeps_readAt (p : Ptr) : Keeps R (readAt p) := by
  intro s; unfold readAt; repeat' split
  all_goals first | exact Steps.refl s | trivial
theorem keeps_readN (p : Ptr) (n : Nat) : Keeps R (readN p n) := by
  intro s; unfold readN; repeat' split
  all_goals first | exact Steps.refl s | trivial
theorem keeps_ssoSiz (i : Id) : Keeps R (ssoSiz i) := by
  unfold ssoSiz; keep; exact keeps_getObj i
theorem keeps_heapOf (i : Id) : Keeps R (heapOf i) := by
  unfold heapOf; keep; exact keeps_getObj i
theorem keeps_data (i : Id) : Keeps R (data i) := by
  unfold data; keep <;> first | exact keeps_getObj i | exact keeps_heapOf i | exact keeps_ssoSiz i
theorem keeps_size (i : Id) : Keeps R (size i) := by
  unfold size; keep <;> first | exact keeps_getObj i | exact keeps_heapOf i | exact keeps_ssoSiz i
theorem keeps_capacity (i : Id) : Keeps R (capacity i) := by
  unfold capacity; keep <;> first | exact keeps_getObj i | exact keeps_heapOf i
theorem keeps_index (i : Id) (k : Nat) : Keeps R (index i k) := by
  unfold index; keep; exact keeps_data i
theorem keeps_view (i : Id) : Keeps R (view i) := by
  unfold view; keep <;> first | exact keeps_data i | exact keeps_size i | (unfold empty; keep; exact keeps_size i)
theorem keeps_viewOf (i : Id) : Keeps R (viewOf i) := by
  unfold viewOf; keep; exact keeps_view i
theorem keeps_read (v : View) (n : Nat) : Keeps R (v.read n) := by
  unfold View.read; keep; exact keeps_readN _ _
theorem keeps_compare (a b : View) : Keeps R (a.compare b) := by
  unfold View.compare; exact .bind (keeps_read _ _) fun _ => .bind (keeps_read _ _) fun _ => .pure _
theorem keeps_equal (a b : View) : Keeps R (a.equal b) := by
  unfold View.equal; keep; exact keeps_compare _ _
theorem keeps_cmp (c : Cmp) (a b : View) : Keeps R (View.cmp c a b) := by
  unfold View.cmp; keep <;> first | exact keeps_equal _ _ | exact keeps_compare _ _
theorem keeps_cmpStrView (c : Cmp) (i : Id) (v : View) : Keeps R (cmpStrView c i v) :=
  .bind (keeps_viewOf i) fun _ => keeps_cmp c _ v

/-- C109: the const functions of `string` -/
theorem C109_string (i j : Id) (k : Nat) (p : Ptr) (c : Cmp) (v : View) (h : List UInt8 → Nat) :
    ReadOnly (data i) ∧ ReadOnly (size i) ∧ ReadOnly (capacity i) ∧ ReadOnly (empty i) ∧
    ReadOnly (index i k) ∧ ReadOnly (at_ i k) ∧ ReadOnly (front i) ∧ ReadOnly (back i) ∧ ReadOnly (view i) ∧ ReadOnly (readAt p) ∧
    ReadOnly (cmpStrStr c i j) ∧ ReadOnly (cmpStrView c i v) ∧ ReadOnly (cmpViewStr c v i) ∧ ReadOnly (hash h i) := by
  refine ⟨keeps_data i, keeps_size i, keeps_capacity i, ?_, keeps_index i k, ?_, keeps_index i 0, ?_, keeps_view i, keeps_readAt p,
    .bind (keeps_viewOf j) fun _ => keeps_cmpStrView c i _, keeps_cmpStrView c i v, .bind (keeps_viewOf i) fun _ => keeps_cmp c v _, ?_⟩
  · unfold ReadOnly empty; keep; exact keeps_size i
  · exact .bind (keeps_size i) fun _ => .ite (.throw _) (keeps_index i k)
  · exact .bind (keeps_size i) fun _ => keeps_index i _
  · exact .bind (keeps_viewOf i) fun _ => .bind (keeps_read _ _) fun _ => .pure _

end Str

namespace Optional

variable {α : Type} {R : St α → St α → Prop} [Steps R]

theorem keeps_flag (i : Nat) : Keeps R (flag (α := α) i) := by
  intro s; unfold flag; split <;> first | exact Steps.refl s | trivial
theorem keeps_readVal (i : Nat) : Keeps R (readVal (α := α) i) := by
  intro s; unfold readVal; repeat' split
  all_goals first | exact Steps.refl s | trivial
theorem keeps_read (x : Src α) : Keeps R x.read := by
  unfold Src.read; keep; exact keeps_readVal _
theorem keeps_fallible : Keeps (Same St.obj) (fallible (α := α)) := by
  intro s; unfold fallible; split <;> exact rfl
theorem keeps_compare (E : Elem α) (c : Cmp) (i j : Nat) : Keeps R (compare E c i j) := by
  unfold compare; keep <;> first | exact keeps_flag _ | exact keeps_readVal _
theorem keeps_compareValue (E : Elem α) (c : Cmp) (i : Nat) (x : Src α) : Keeps R (compareValue E c i x) := by
  unfold compareValue; keep <;> first | exact keeps_flag _ | exact keeps_readVal _ | exact keeps_read _
theorem keeps_valueCompare (E : Elem α) (c : Cmp) (i : Nat) (x : Src α) : Keeps R (valueCompare E c x i) := by
  unfold valueCompare; keep <;> first | exact keeps_flag _ | exact keeps_readVal _ | exact keeps_read _

/-- the default for `value_or` is not moved out of an optional -/
def Args.Fresh : Args α → Prop
  | .val _ => True
  | .thr _ => True
  | .ref _ _ _ _ => False

/-- C109: the const functions of `optional`; `value_or` copies the value, which may throw, but leaves all optionals alone -/
theorem C109_optional (E : Elem α) (i j : Nat) (c : Cmp) (x : Src α) :
    ReadOnly (hasValue (α := α) i) ∧ ReadOnly (deref (α := α) i) ∧ ReadOnly (value (α := α) i) ∧ ReadOnly (readVal (α := α) i) ∧
    ReadOnly (compare E c i j) ∧ ReadOnly (compareNull (α := α) c i) ∧ ReadOnly (nullCompare (α := α) c i) ∧
    ReadOnly (compareValue E c i x) ∧ ReadOnly (valueCompare E c x i) ∧
    ∀ dflt : Args α, dflt.Fresh → Keeps (Same St.obj) (valueOr i dflt) := by
  refine ⟨keeps_flag i, .pure _, .bind (keeps_flag i) fun _ => .ite (.pure _) (.throw _), keeps_readVal i, keeps_compare E c i j,
    .noexcept (.bind (keeps_flag i) fun _ => .pure _), .noexcept (.bind (keeps_flag i) fun _ => .pure _),
    keeps_compareValue E c i x, keeps_valueCompare E c i x, fun dflt hd => ?_⟩
  refine .bind (keeps_flag i) fun _ => .ite (.bind (keeps_readVal i) fun _ => .bind keeps_fallible fun _ => .pure _) ?_
  cases dflt with
  | val v => exact .pure _
  | thr v => exact .bind keeps_fallible fun _ => .pure _
  | ref _ _ _ _ => exact hd.elim

end Optional

namespace Variant

variable {τ ν β : Type} [DecidableEq τ] {R : St ν → St ν → Prop} [Steps R] (E : Elem τ ν) (ts : List τ)

omit [DecidableEq τ] in
theorem keeps_getObj (i : Id) : Keeps R (getObj (ν := ν) i) := by
  intro s; unfold getObj; split <;> first | exact Steps.refl s | trivial
omit [DecidableEq τ] in
theorem keeps_readAt (p : Ptr τ) : Keeps R (readAt (ν := ν) p) := by
  intro s; unfold readAt; repeat' split
  all_goals first | exact Steps.refl s | trivial
omit [DecidableEq τ] in
theorem keeps_get (i : Id) : ∀ (I d : Nat) (ts : List τ), Keeps R (Storage.get (ν := ν) i I d ts)
  | _, _, [] => by unfold Storage.get; exact .ub _
  | 0, _, _ :: _ => .pure _
  | I + 1, d, _ :: tail => by unfold Storage.get; exact keeps_get i I (d + 1) tail
theorem keeps_holds (i : Id) (T : τ) : Keeps R (holds (ν := ν) ts i T) :=
  .bind (keeps_getObj i) fun _ => .pure _
theorem keeps_getIf (i : Id) (T : τ) : Keeps R (getIf (ν := ν) ts i T) :=
  .bind (keeps_holds ts i T) fun _ => .ite (.pure _) (.bind (keeps_get i _ _ _) fun _ => .pure _)
omit [DecidableEq τ] in
theorem keeps_visit (conv : τ → τ → β → β) (i : Id) (vis : Ptr τ → VM ν β) (hv : ∀ p, Keeps R (vis p)) :
    Keeps R (visit ts conv i vis) :=
  .bind (keeps_getObj i) fun _ => .ite (.bind (keeps_get i _ _ _) fun p => .bind (hv p) fun _ => .pure _) (.ub _)
omit [DecidableEq τ] in
theorem keeps_compareImpl (c : Cmp) (t : Nat) (i j : Id) : Keeps R (compareImpl E ts c t i j) :=
  .noexcept (.ite (.bind (keeps_get i _ _ _) fun _ => .bind (keeps_get j _ _ _) fun _ => .bind (keeps_readAt _) fun _ =>
    .bind (keeps_readAt _) fun _ => .pure _) (.ub _))
omit [DecidableEq τ] in
theorem keeps_compare (c : Cmp) (i j : Id) : Keeps R (compare E ts c i j) := by
  unfold compare; keep <;> first | exact keeps_getObj _ | exact keeps_compareImpl E ts _ _ _ _

/-- C109: the const functions of `variant`; `visit` does what the visitor does and nothing else: if that only reads, so does `visit`;
if that leaves something alone, so does `visit` -/
theorem C109_variant (i j : Id) (T : τ) (c : Cmp) (p : Ptr τ) :
    ReadOnly (holds (ν := ν) ts i T) ∧ ReadOnly (getIf (ν := ν) ts i T) ∧ ReadOnly (get (ν := ν) ts i T) ∧
    ReadOnly (readAt (ν := ν) p) ∧ ReadOnly (compare E ts c i j) ∧
    (∀ (conv : τ → τ → β → β) (vis : Ptr τ → VM ν β), (∀ p, ReadOnly (vis p)) → ReadOnly (visit ts conv i vis)) ∧
    ∀ {γ : Type} (f : St ν → γ) (conv : τ → τ → β → β) (vis : Ptr τ → VM ν β), (∀ p, Keeps (Same f) (vis p)) →
      Keeps (Same f) (visit ts conv i vis) := by
  refine ⟨keeps_holds ts i T, keeps_getIf ts i T, .bind (keeps_getIf ts i T) fun r => ?_, keeps_readAt p, keeps_compare E ts c i j,
    fun conv vis hv => keeps_visit ts conv i vis hv, fun f conv vis hv => keeps_visit ts conv i vis hv⟩
  cases r with
  | none => exact .throw _
  | some p => exact .pure _

end Variant

namespace Arr

open View (Mem Loc)
open Iter (It)

variable {α β : Type} {R : St α → St α → Prop} [Steps R] (N : Nat)

theorem keeps_onMem (f : Mem α → Except Fault β) : Keeps R (onMem f) := by
  intro s; unfold onMem; split <;> first | exact Steps.refl s | trivial
theorem keeps_alive (i : Nat) : Keeps R (alive (α := α) i) := by
  intro s; unfold alive; split <;> first | exact Steps.refl s | trivial
theorem keeps_readLoc (l : Loc) : Keeps R (readLoc (α := α) l) := keeps_onMem _
theorem keeps_data (i : Nat) : Keeps R (data (α := α) N i) := .bind (keeps_alive i) fun _ => .pure _
theorem keeps_index (i k : Nat) : Keeps R (index (α := α) N i k) :=
  .bind (keeps_data N i) fun _ => .bind (keeps_onMem _) fun _ => keeps_onMem _
theorem keeps_begin (i : Nat) : Keeps R (begin_ (α := α) N i) := .bind (keeps_data N i) fun _ => .pure _
theorem keeps_end (i : Nat) : Keeps R (end_ (α := α) N i) := .bind (keeps_data N i) fun _ => keeps_onMem _

theorem keeps_eqLoop (eq : α → α → Bool) (l : It) : ∀ (fuel : Nat) (a b : It), Keeps R (eqLoop eq l fuel a b)
  | 0, _, _ => .ub _
  | fuel + 1, a, b => by
    unfold eqLoop
    refine .ite (.bind (keeps_onMem _) fun _ => .bind (keeps_readLoc _) fun _ => .bind (keeps_onMem _) fun _ =>
      .bind (keeps_readLoc _) fun _ => .ite (.pure _) (.bind (keeps_onMem _) fun _ => .bind (keeps_onMem _) fun _ => ?_)) (.pure _)
    exact keeps_eqLoop eq l fuel _ _

theorem keeps_lexLoop (lt : α → α → Bool) (l l' : It) : ∀ (fuel : Nat) (a b : It), Keeps R (lexLoop lt l l' fuel a b)
  | 0, _, _ => .ub _
  | fuel + 1, a, b => by
    unfold lexLoop
    refine .ite (.bind (keeps_onMem _) fun _ => .bind (keeps_readLoc _) fun _ => .bind (keeps_onMem _) fun _ =>
      .bind (keeps_readLoc _) fun _ => .ite (.pure _) (.ite (.pure _)
        (.bind (keeps_onMem _) fun _ => .bind (keeps_onMem _) fun _ => ?_))) (.pure _)
    exact keeps_lexLoop lt l l' fuel _ _

theorem keeps_opEq (eq : α → α → Bool) (i j : Nat) : Keeps R (opEq N eq i j) :=
  .bind (keeps_begin N i) fun _ => .bind (keeps_end N i) fun _ => .bind (keeps_begin N j) fun _ => .bind (keeps_end N j) fun _ =>
    .bind (keeps_onMem _) fun _ => .bind (keeps_onMem _) fun _ => .ite (.pure _) (keeps_eqLoop eq _ _ _ _)
theorem keeps_opLt (lt : α → α → Bool) (i j : Nat) : Keeps R (opLt N lt i j) :=
  .bind (keeps_begin N i) fun _ => .bind (keeps_end N i) fun _ => .bind (keeps_begin N j) fun _ => .bind (keeps_end N j) fun _ =>
    keeps_lexLoop lt _ _ _ _ _

/-- C109: the const functions of `array` -/
theorem C109_array (i j k : Nat) (l : Loc) (eq lt : α → α → Bool) :
    ReadOnly (data (α := α) N i) ∧ ReadOnly (index (α := α) N i k) ∧ ReadOnly (at_ (α := α) N i k) ∧ ReadOnly (front (α := α) N i) ∧
    ReadOnly (back (α := α) N i) ∧ ReadOnly (get (α := α) N i k) ∧ ReadOnly (begin_ (α := α) N i) ∧ ReadOnly (end_ (α := α) N i) ∧
    ReadOnly (readLoc (α := α) l) ∧ ReadOnly (opEq N eq i j) ∧ ReadOnly (opNe N eq i j) ∧ ReadOnly (opLt N lt i j) ∧
    ReadOnly (opGt N lt i j) ∧ ReadOnly (opLe N lt i j) ∧ ReadOnly (opGe N lt i j) :=
  ⟨keeps_data N i, keeps_index N i k, .ite (.throw _) (keeps_index N i k), keeps_index N i _, keeps_index N i _,
    .ite (keeps_index N i k) (.ub _), keeps_begin N i, keeps_end N i, keeps_readLoc l, keeps_opEq N eq i j,
    .bind (keeps_opEq N eq i j) fun _ => .pure _, keeps_opLt N lt i j, keeps_opLt N lt j i,
    .bind (keeps_opLt N lt j i) fun _ => .pure _, .bind (keeps_opLt N lt i j) fun _ => .pure _⟩

end Arr

namespace Tuple

open Arr (AM keeps_alive keeps_readLoc)

variable {ν : Type} {R : Arr.St ν → Arr.St ν → Prop} [Steps R]

theorem keeps_storageGet (i : Nat) : ∀ (ts : List (Elem ν)) (k d : Nat), Keeps R (storageGet i ts k d)
  | [], _, _ => .ub _
  | _ :: ts, _, _ => .ite (.pure _) (keeps_storageGet i ts _ _)
theorem keeps_storageEqual (i j : Nat) : ∀ (ts : List (Elem ν)) (d : Nat), Keeps R (storageEqual i j ts d)
  | [], _ => .pure _
  | _ :: ts, _ => .bind (keeps_readLoc _) fun _ => .bind (keeps_readLoc _) fun _ => .ite (keeps_storageEqual i j ts _) (.pure _)
theorem keeps_storageLess (i j : Nat) : ∀ (ts : List (Elem ν)) (d : Nat), Keeps R (storageLess i j ts d)
  | [], _ => .pure _
  | _ :: ts, _ => .bind (keeps_readLoc _) fun _ => .bind (keeps_readLoc _) fun _ => .ite (.pure _)
    (.ite (.pure _) (keeps_storageLess i j ts _))
theorem keeps_opEq (ts : List (Elem ν)) (i j : Nat) : Keeps R (opEq ts i j) :=
  .bind (keeps_alive i) fun _ => .bind (keeps_alive j) fun _ => keeps_storageEqual i j ts 0
theorem keeps_opLt (ts : List (Elem ν)) (i j : Nat) : Keeps R (opLt ts i j) :=
  .bind (keeps_alive i) fun _ => .bind (keeps_alive j) fun _ => keeps_storageLess i j ts 0

/-- C109: the const functions of `tuple` -/
theorem C109_tuple (ts : List (Elem ν)) (i j k : Nat) :
    ReadOnly (get ts i k) ∧ ReadOnly (opEq ts i j) ∧ ReadOnly (opNe ts i j) ∧ ReadOnly (opLt ts i j) ∧ ReadOnly (opGt ts i j) ∧
    ReadOnly (opLe ts i j) ∧ ReadOnly (opGe ts i j) :=
  ⟨.bind (keeps_alive i) fun _ => keeps_storageGet i ts k 0, keeps_opEq ts i j, .bind (keeps_opEq ts i j) fun _ => .pure _,
    keeps_opLt ts i j, keeps_opLt ts j i, .bind (keeps_opLt ts j i) fun _ => .pure _, .bind (keeps_opLt ts i j) fun _ => .pure _⟩

end Tuple

namespace View

variable {α β : Type} {R : St α → St α → Prop} [Steps R]

theorem keeps_onMem (f : Mem α → Except Fault β) : Keeps R (onMem f) := by
  intro s; unfold onMem; split <;> first | exact Steps.refl s | trivial
theorem keeps_load (r : Nat) : Keeps R (load (α := α) r) := by
  intro s; unfold load; split <;> first | exact Steps.refl s | trivial
theorem keeps_size (x : Ref) : Keeps R (size (α := α) x) := .bind (keeps_onMem _) fun _ => .pure _
theorem keeps_index (x : Ref) (k : Nat) : Keeps R (index (α := α) x k) :=
  .bind (.pure _) fun _ => .bind (keeps_onMem _) fun _ => keeps_onMem _
theorem keeps_mkSized (p : Ptr) (n : Nat) : Keeps R (mkSized (α := α) p n) := .bind (keeps_onMem _) fun _ => .pure _
theorem keeps_chars : ∀ (n : Nat) (p : Ptr), Keeps R (chars (α := α) p n)
  | 0, _ => .pure _
  | n + 1, _ => .bind (keeps_onMem _) fun _ => .bind (keeps_onMem _) fun _ => .bind (keeps_onMem _) fun q =>
    .bind (keeps_chars n q) fun _ => .pure _
theorem keeps_view (x : Ref) : Keeps R (view (α := α) x) := .bind (.pure _) fun _ => .bind (keeps_size x) fun _ => keeps_chars _ _
theorem keeps_cLength {R : St UInt8 → St UInt8 → Prop} [Steps R] (p : Ptr) : Keeps R (cLength p) := by
  intro s; unfold cLength; dsimp only; repeat' split
  all_goals first | exact Steps.refl s | trivial

/-- C109: all functions of `array_ref` and `string_ref` that do not replace the reference itself leave it and the elements alone –
also making a reference to them, or a smaller one -/
theorem C109_views (x y : Ref) (r k n : Nat) (p q : Ptr) (c : Cmp) (h : List UInt8 → Nat) :
    ReadOnly (load (α := α) r) ∧ ReadOnly (data (α := α) x) ∧ ReadOnly (size (α := α) x) ∧ ReadOnly (empty (α := α) x) ∧
    ReadOnly (index (α := α) x k) ∧ ReadOnly (front (α := α) x) ∧ ReadOnly (back (α := α) x) ∧ ReadOnly (at_ (α := α) x k) ∧
    ReadOnly (first (α := α) x n) ∧ ReadOnly (last (α := α) x n) ∧ ReadOnly (subrangeFrom (α := α) x k) ∧
    ReadOnly (subrange (α := α) x k n) ∧ ReadOnly (mkPtrs (α := α) p q) ∧ ReadOnly (mkSized (α := α) p n) ∧
    ReadOnly (mkRange (α := α) p n) ∧ ReadOnly (mkCStr p) ∧ ReadOnly (literal p n) ∧ ReadOnly (view (α := α) x) ∧
    ReadOnly (compare c x y) ∧ ReadOnly (hash h x) ∧ ReadOnly (print x) := by
  refine ⟨keeps_load r, .pure _, keeps_size x, .bind (keeps_size x) fun _ => .pure _, keeps_index x k, keeps_index x 0,
    .bind (keeps_size x) fun _ => keeps_index x _, .bind (keeps_size x) fun _ => .ite (.throw _) (keeps_index x k),
    .bind (.pure _) fun _ => keeps_mkSized _ _,
    .bind (.pure _) fun _ => .bind (keeps_size x) fun _ => .bind (keeps_onMem _) fun _ => keeps_mkSized _ _,
    .bind (.pure _) fun _ => .bind (keeps_onMem _) fun _ => .bind (keeps_size x) fun _ => keeps_mkSized _ _,
    .bind (.pure _) fun _ => .bind (keeps_onMem _) fun _ => keeps_mkSized _ _, .pure _, keeps_mkSized p n, keeps_mkSized p n,
    .bind (keeps_cLength p) fun _ => keeps_mkSized _ _, .bind (keeps_cLength p) fun _ => keeps_mkSized _ _, keeps_view x,
    .bind (keeps_view x) fun _ => .bind (keeps_view y) fun _ => .pure _, .bind (keeps_view x) fun _ => .pure _, keeps_view x⟩

end View

namespace OptRef

variable {α β : Type}

/-- what is not kept by `value_or`: the steps of the failure oracle -/
def memory (s : St α) : (Nat → Option (Optional.Obj α)) × (Nat → Option α) × (Nat → Option (Option Loc)) :=
  (s.opt.obj, s.obj, s.ref)

theorem keeps_onOpt {m : Optional.OM α β} (h : ReadOnly m) : ReadOnly (onOpt m) := by
  intro s
  have h1 := h s.opt
  unfold onOpt
  cases hs : m s.opt with
  | ok a o => rw [hs] at h1; cases (show s.opt = o from h1); rfl
  | exc e o => rw [hs] at h1; cases (show s.opt = o from h1); rfl
  | ub f => trivial
  | term => trivial
theorem keeps_onOpt' {m : Optional.OM α β} (h : Keeps (Same Optional.St.obj) m) : Keeps (Same memory) (onOpt m) := by
  intro s
  have h1 := h s.opt
  unfold onOpt
  cases hs : m s.opt with
  | ok a o => rw [hs] at h1; exact congrArg (fun f => (f, s.obj, s.ref)) (show o.obj = s.opt.obj from h1)
  | exc e o => rw [hs] at h1; exact congrArg (fun f => (f, s.obj, s.ref)) (show o.obj = s.opt.obj from h1)
  | ub f => trivial
  | term => trivial
theorem keeps_ptr (r : Nat) : ReadOnly (ptr (α := α) r) := by
  intro s; unfold ptr; split <;> first | exact rfl | trivial
theorem keeps_hasValue (r : Nat) : ReadOnly (hasValue (α := α) r) := .bind (keeps_ptr r) fun _ => .pure _
theorem keeps_deref (r : Nat) : ReadOnly (deref (α := α) r) := by
  refine .bind (keeps_ptr r) fun p => ?_
  cases p with
  | none => exact .ub _
  | some l => exact .pure _
theorem keeps_readLoc (l : Loc) : ReadOnly (readLoc (α := α) l) := by
  cases l with
  | inOpt i => exact keeps_onOpt (Optional.keeps_readVal i)
  | plain k => intro s; unfold readLoc; dsimp only; split <;> first | exact rfl | trivial

/-- C109: the const functions of `optional_ref`; `value_or` copies the object, which may throw, but leaves all objects, optionals and
references alone -/
theorem C109_optional_ref (r : Nat) (l : Loc) :
    ReadOnly (hasValue (α := α) r) ∧ ReadOnly (deref (α := α) r) ∧ ReadOnly (value (α := α) r) ∧ ReadOnly (readLoc (α := α) l) ∧
    ∀ dflt : Optional.Args α, dflt.Fresh → Keeps (Same memory) (valueOr r dflt) := by
  refine ⟨keeps_hasValue r, keeps_deref r, .bind (keeps_hasValue r) fun _ => .ite (keeps_deref r) (.throw _), keeps_readLoc l,
    fun dflt hd => ?_⟩
  refine .bind (.of_readOnly (keeps_hasValue r)) fun _ => .ite (.bind (.of_readOnly (keeps_deref r)) fun l =>
    .bind (.of_readOnly (keeps_readLoc l)) fun _ => .bind (keeps_onOpt' Optional.keeps_fallible) fun _ => .pure _) ?_
  refine keeps_onOpt' ?_
  cases dflt with
  | val v => exact .pure _
  | thr v => exact .bind Optional.keeps_fallible fun _ => .pure _
  | ref _ _ _ _ => exact hd.elim

end OptRef

namespace VarRef

variable {τ ν β : Type} [DecidableEq τ] {R : St τ ν → St τ ν → Prop} [Steps R] (ts : List (CT τ))

omit [DecidableEq τ] in
theorem keeps_getRef (r : Nat) : Keeps R (getRef (τ := τ) (ν := ν) r) := by
  intro s; unfold getRef; split <;> first | exact Steps.refl s | trivial
omit [DecidableEq τ] in
theorem keeps_getType (r : Nat) : Keeps R (getType (τ := τ) (ν := ν) r) := by
  unfold getType; keep; exact keeps_getRef r
omit [DecidableEq τ] in
theorem keeps_lvalue (p : Nat) : Keeps R (lvalue (τ := τ) (ν := ν) p) := by
  intro s; unfold lvalue; repeat' split
  all_goals first | exact Steps.refl s | trivial
theorem keeps_readPtr (T : CT τ) (p : Nat) : Keeps R (readPtr (ν := ν) T p) := by
  intro s; unfold readPtr; repeat' split
  all_goals first | exact Steps.refl s | trivial
omit [DecidableEq τ] in
theorem keeps_get (r : Nat) : ∀ (I d : Nat) (ts : List (CT τ)), Keeps R (Storage.get (ν := ν) r I d ts)
  | 0, _, [] => by unfold Storage.get; exact .ub _
  | _ + 1, _, [] => by unfold Storage.get; exact .ub _
  | 0, _, _ :: _ => by unfold Storage.get; keep; exact keeps_getRef r
  | I + 1, d, _ :: tail => by unfold Storage.get; exact keeps_get r I (d + 1) tail
theorem keeps_holds (T : CT τ) (r : Nat) : Keeps R (holds (ν := ν) ts T r) := .bind (keeps_getType r) fun _ => .pure _
theorem keeps_getIf (T : CT τ) (r : Nat) : Keeps R (getIf (ν := ν) ts T r) := by
  refine .bind (keeps_holds ts T r) fun _ => .ite (.pure _) (.bind (keeps_getType r) fun t => .bind ?_ fun _ => .pure _)
  exact .ite (.bind (keeps_get r _ _ _) fun _ => .ite (.pure _) .term) (.ub _)
omit [DecidableEq τ] in
theorem keeps_visit (conv : CT τ → CT τ → β → β) (r : Nat) (vis : CT τ → Nat → RM τ ν β) (hv : ∀ U p, Keeps R (vis U p)) :
    Keeps R (visit ts conv r vis) :=
  .bind (keeps_getType r) fun _ => .ite (.bind (keeps_get r _ _ _) fun x => .bind (keeps_lvalue x.2) fun _ =>
    .bind (hv x.1 x.2) fun _ => .pure _) (.ub _)

/-- C109: the const functions of `variant_ref`; `visit` does what the visitor does and nothing else -/
theorem C109_variant_ref (T : CT τ) (r p : Nat) :
    ReadOnly (holds (ν := ν) ts T r) ∧ ReadOnly (getIf (ν := ν) ts T r) ∧ ReadOnly (get (ν := ν) ts T r) ∧
    ReadOnly (readPtr (ν := ν) T p) ∧
    (∀ (conv : CT τ → CT τ → β → β) (vis : CT τ → Nat → RM τ ν β), (∀ U p, ReadOnly (vis U p)) → ReadOnly (visit ts conv r vis)) ∧
    ∀ {γ : Type} (f : St τ ν → γ) (conv : CT τ → CT τ → β → β) (vis : CT τ → Nat → RM τ ν β),
      (∀ U p, Keeps (Same f) (vis U p)) → Keeps (Same f) (visit ts conv r vis) := by
  refine ⟨keeps_holds ts T r, keeps_getIf ts T r, .bind (keeps_getIf ts T r) fun x => ?_, keeps_readPtr T p,
    fun conv vis hv => keeps_visit ts conv r vis hv, fun f conv vis hv => keeps_visit ts conv r vis hv⟩
  cases x with
  | none => exact .throw _
  | some p => exact .pure _

end VarRef

namespace Bitset

variable {R : St → St → Prop} [Steps R] (n : Nat)

theorem keeps_getObj (i : Nat) : Keeps R (getObj i) := by
  intro s; unfold getObj; split <;> first | exact Steps.refl s | trivial
theorem keeps_rd (i k : Nat) : Keeps R (rd i k) := by
  intro s; unfold rd; repeat' split
  all_goals first | exact Steps.refl s | trivial
theorem keeps_index (i k : Nat) : Keeps R (index n i k) := .ite (.pure _) (.bind (keeps_rd i _) fun _ => .pure _)
theorem keeps_at (i k : Nat) : Keeps R (atConst n i k) := .ite (.throw _) (keeps_index n i k)
theorem keeps_any (i : Nat) : Keeps R (anySet n i) := .ite (.pure _) (.bind (keeps_getObj i) fun _ => .pure _)
theorem keeps_opEq (i j : Nat) : Keeps R (opEq n i j) :=
  .ite (.pure _) (.bind (keeps_getObj i) fun _ => .bind (keeps_getObj j) fun _ => .pure _)

/-- all but the output stream -/
def besidesOutput (s : St) : (Nat → Option (List Byte)) × IStream := (s.obj, s.is)

theorem keeps_insertLoop (i : Nat) : ∀ k, Keeps (Same besidesOutput) (insertLoop n i k)
  | 0 => .pure _
  | k + 1 => .bind (keeps_at n i k) fun _ => .bind (fun _ => rfl) fun _ => .bind (fun _ => rfl) fun _ => keeps_insertLoop i k

/-- C109: the const functions of `bitset`; writing one to a stream changes nothing but that stream -/
theorem C109_bitset (i j k : Nat) :
    ReadOnly (index n i k) ∧ ReadOnly (atConst n i k) ∧ ReadOnly (test n i k) ∧ ReadOnly (get n i k) ∧ ReadOnly (allSet n i) ∧
    ReadOnly (anySet n i) ∧ ReadOnly (noneSet n i) ∧ ReadOnly (toBool n i) ∧ ReadOnly (count n i) ∧ ReadOnly (opEq n i j) ∧
    ReadOnly (opNe n i j) ∧ ReadOnly (hash n i) ∧ Keeps (Same besidesOutput) (insert n i) :=
  ⟨keeps_index n i k, keeps_at n i k, keeps_at n i k, keeps_index n i k,
    .ite (.pure _) (.bind (keeps_getObj i) fun _ => .bind (keeps_rd i _) fun _ => .pure _), keeps_any n i,
    .bind (keeps_any n i) fun _ => .pure _, keeps_any n i, .ite (.pure _) (.bind (keeps_getObj i) fun _ => .pure _),
    keeps_opEq n i j, .bind (keeps_opEq n i j) fun _ => .pure _,
    .ite (.pure _) (.bind (keeps_getObj i) fun _ => .pure _), keeps_insertLoop n i n⟩

end Bitset

end Ptl

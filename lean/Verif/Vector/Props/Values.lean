import Verif.Vector.Props.Capacity
import Verif.Vector.Props.History

/-!
# C09, C12, C13, C14, C60: erase, value semantics, comparison, iterator categories, element access
-/

namespace Ptl.Vector

variable {α : Type}

/-- the call moves elements out of variable `j` (rvalue reference or move iterators) -/
inductive Op.MovesFrom (j : Nat) : Op α → Prop
  | pushBack {i k} : Op.MovesFrom j (.pushBack i (.mv j k))
  | emplace {i p k} : Op.MovesFrom j (.emplace i p (.mv j k))
  | ctorRange {i k m} : Op.MovesFrom j (.ctorRange i (.mvs j k m))
  | assignRange {i k m} : Op.MovesFrom j (.assignRange i (.mvs j k m))
  | insertRange {i p k m} : Op.MovesFrom j (.insertRange i p (.mvs j k m))

/-- histories of calls that neither have variable `j` as target nor move elements out of it -/
inductive Without (T : Elem α) (j : Nat) : St α Storage → Vars α → St α Storage → Vars α → Prop
  | none {s V} : Without T j s V s V
  | ok {s V s1 V1 s2 V2 op r r'} : Without T j s V s1 V1 → Spec T op V1 V2 r → ¬ op.Targets j → ¬ op.MovesFrom j →
      op.run T s1 = .ok r' s2 → Without T j s V s2 V2
  | thrown {s V s1 V1 s2 V2 op r e} : Without T j s V s1 V1 → Spec T op V1 V2 r →
      op.run T s1 = .exc e s2 → Without T j s V s2 V1

variable {T : Elem α} {s s' : St α Storage} {V V' : Vars α} {op : Op α} {r : Option Nat}

/-! ## C09 -/

/-- C09 for non-empty ranges, and for empty ones behind which no element changes when it is moved to itself (for instance
`erase(end(), end())`): exactly the given range
is removed, the others keep their order and values, the returned iterator is at the first removed position, the buffer
stays, and nothing can fail.  Missing for the full property: the empty range, see `C09_empty_range`. -/
theorem C09_erase_partial (h : Reach T s V) {i : Nat} {pre mid post : List α} {d : Ptr} {c : Nat}
    (hsh : Shows s i d c (pre ++ mid ++ post)) (hm : mid ≠ [] ∨ ∀ x ∈ post, T.selfMove x = x) :
    ∃ s', (Op.erase i pre.length (pre.length + mid.length)).run T s = .ok (some pre.length) s' ∧
      Shows s' i d c (pre ++ post) ∧ Reach T s' (upd V i (some (pre ++ post))) := by
  have hs : Spec T (.erase i pre.length (pre.length + mid.length)) V _ _ := .erase (h.of_shows hsh) hm
  obtain ⟨s', ys, h1, h2, h3, _⟩ := C06_shrink_in_place h hs .erase hsh
  rw [upd_same] at h2; cases h2
  exact ⟨s', h1, h3, h.ok hs h1⟩

/-- What `erase(it, it)` does to every vector: it self-move-assigns all elements from `it` on. -/
theorem C09_empty_range (h : Reach T s V) {i : Nat} {pre post : List α} {d : Ptr} {c : Nat}
    (hsh : Shows s i d c (pre ++ post)) :
    ∃ s', (Op.erase i pre.length pre.length).run T s = .ok (some pre.length) s' ∧
      Shows s' i d c (pre ++ post.map T.selfMove) := by
  obtain ⟨hinv, rfl⟩ := h.inv
  obtain ⟨o, ho, rfl, rfl⟩ := hinv.of_shows hsh
  obtain ⟨hobj, hg⟩ := hinv.wf.get ho
  have hsz := hg.siz
  have he := erase_spec hinv.wf ho (Nat.le_refl pre.length) (by rw [hsz]; simp)
  have hrun : (Op.erase i pre.length pre.length).run T s =
      (Vector.erase T (.var i) ⟨o.ptr, pre.length⟩ ⟨o.ptr, pre.length⟩ >>= offset i) s :=
    (M.bind_ok (pos_ok hobj)).trans (M.bind_ok (pos_ok hobj))
  rw [hrun]
  cases hm : Vector.erase T (.var i) ⟨o.ptr, pre.length⟩ ⟨o.ptr, pre.length⟩ s with
  | ok a s' =>
    rw [hm] at he
    obtain ⟨hw', ha', rfl, _, _, _, h4⟩ := he
    rw [if_pos rfl, List.take_left, List.drop_left] at h4
    have hinv' : InvF T (.clear i) s s' := hinv.of_abs rfl (W := s.blk) hw' h4
    refine ⟨s', ?_, ?_⟩
    · rw [M.bind_ok hm]
      unfold offset
      mstep (data_ok (obj_of_upd h4))
      mstep (distance_ok (by rfl) (by exact Nat.zero_le _))
      rfl
    · have := hinv'.1.shows (abs_at h4)
      exact this
  | exc e s' => rw [hm] at he; exact he.2.elim
  | ub => rw [hm] at he; exact he.elim
  | term => rw [hm] at he; exact he.elim

/-- C09 fails for the empty range: an element type may legally end up in an unspecified state when self-move-assigned,
and then `erase(it, it)` changes elements. -/
theorem C09_refuted : ∃ (s s' : St Nat Storage) (V : Vars Nat) (d : Ptr) (c : Nat), Reach natElem s V ∧
    Shows s 0 d c [1, 2, 3] ∧ (Op.erase 0 1 1).run natElem s = .ok (some 1) s' ∧ Shows s' 0 d c [1, 0, 0] := by
  obtain ⟨s, h, _⟩ := demo
  obtain ⟨d, c, hsh⟩ := h.shows (i := 0) (xs := [1, 2, 3]) rfl
  obtain ⟨s', h1, h2⟩ := C09_empty_range h (i := 0) (pre := [1]) (post := [2, 3]) hsh
  exact ⟨s, s', demoV, d, c, h, hsh, h1, h2⟩

example : ∃ s V d c, Reach natElem s V ∧ Shows s 0 d c ([1] ++ [2] ++ [3]) ∧ ([2] ≠ [] ∨ ∀ x ∈ [3], natElem.selfMove x = x) := by
  obtain ⟨s, h, _⟩ := demo
  obtain ⟨d, c, hsh⟩ := h.shows (i := 0) (xs := [1, 2, 3]) rfl
  exact ⟨s, demoV, d, c, h, hsh, .inl (by simp)⟩

/-! ## C12 -/

/-- C12: a copy-constructed vector has equal contents, in its own buffer; the source is untouched. -/
theorem C12_copy_construct (h : Reach T s V) {i j : Nat} {d : Ptr} {c : Nat} {ys : List α} (hi : V i = none)
    (hsh : Shows s j d c ys) {r' : Option Nat} (hr : (Op.ctorCopy i j).run T s = .ok r' s') :
    Shows s' j d c ys ∧ ∃ d' c', Shows s' i d' c' ys ∧ (ys ≠ [] → d'.blk ≠ d.blk) := by
  have hj := h.of_shows hsh
  have hij : i ≠ j := by rintro rfl; rw [hi] at hj; cases hj
  have hs : Spec T (.ctorCopy i j) V _ _ := .ctorCopy hi hj
  have h' := h.ok hs hr
  have hsj : Shows s' j d c ys := by
    obtain ⟨hinv, rfl⟩ := h.inv
    have hst := step hinv hs
    rw [hr] at hst
    obtain ⟨o, ho, rfl, rfl⟩ := hinv.of_shows hsh
    have hv : vars s' j = some ys := by rw [hst.2.2.2.1, upd_ne _ _ (Ne.symm hij)]; exact hj
    obtain ⟨o', ho'⟩ := vars_some hv
    have e := hst.1.2 j (by intro hh; exact hij hh.symm)
    rw [(hinv.wf.get ho).1, (hst.1.1.wf.get ho').1] at e
    cases e
    exact hst.1.1.shows ho'
  obtain ⟨d', c', hsi⟩ := h'.shows (i := i) (xs := ys) (upd_same _ _ _)
  refine ⟨hsj, d', c', hsi, fun hne he => hij ?_⟩
  have hinv := h'.inv.1
  obtain ⟨o, ho, rfl, rfl⟩ := hinv.of_shows hsj
  obtain ⟨o', ho', rfl, rfl⟩ := hinv.of_shows hsi
  have hg := hinv.wf.get ho
  cases hp : o.ptr with
  | none => exact absurd (hg.2.null hp).2 hne
  | some b =>
    have := hinv.wf.inj _ _ _ _ b (hinv.wf.get ho').1 hg.1 (by
      have : o'.ptr = o.ptr := he
      rw [this, hp]) hp
    cases this; rfl

/-- C12: copy-assignment gives equal contents and leaves the source untouched. -/
theorem C12_copy_assign (h : Reach T s V) {i j : Nat} (hij : i ≠ j) {d : Ptr} {c : Nat} {xs ys : List α}
    (hi : V i = some xs) (hsh : Shows s j d c ys) {r' : Option Nat} (hr : (Op.assignCopy i j).run T s = .ok r' s') :
    Shows s' j d c ys ∧ ∃ d' c', Shows s' i d' c' ys := by
  have hj := h.of_shows hsh
  have hs : Spec T (.assignCopy i j) V _ _ := .assignCopy hi hj
  have h' := h.ok hs hr
  refine ⟨?_, h'.shows (upd_same _ _ _)⟩
  obtain ⟨hinv, rfl⟩ := h.inv
  have hst := step hinv hs
  rw [hr] at hst
  obtain ⟨o, ho, rfl, rfl⟩ := hinv.of_shows hsh
  have hv : vars s' j = some ys := by rw [hst.2.2.2.1, upd_ne _ _ (Ne.symm hij)]; exact hj
  obtain ⟨o', ho'⟩ := vars_some hv
  have e := hst.1.2 j (by intro hh; exact hij hh.symm)
  rw [(hinv.wf.get ho).1, (hst.1.1.wf.get ho').1] at e
  cases e
  exact hst.1.1.shows ho'

theorem frame_vars (hs : Spec T op V V' r) {j : Nat} (h1 : ¬ op.Targets j) (h2 : ¬ op.MovesFrom j) : V' j = V j := by
  have ne : ∀ {i}, (op.Targets i) → j ≠ i := by rintro i hi rfl; exact h1 hi
  have t1 : ∀ {x : Src1 α} {v V1}, x.Takes T.moved V v V1 → (∀ k, x ≠ .mv j k) → V1 j = V j := by
    intro x v V1 hx hne
    cases hx with
    | ref => rfl
    | @mv j' k ys _ _ _ =>
      refine upd_ne _ _ ?_
      rintro rfl; exact hne k rfl
  have t2 : ∀ {x : Rng α} {vs V1}, x.Takes T.moved V vs V1 → (∀ k m, x ≠ .mvs j k m) → V1 j = V j := by
    intro x v V1 hx hne
    cases hx with
    | refs => rfl
    | @mvs j' pre vs post _ =>
      refine upd_ne _ _ ?_
      rintro rfl; exact hne _ _ rfl
  cases hs with
  | ctorMove h3 h4 => rw [upd_ne _ _ (ne (.inr rfl)), upd_ne _ _ (ne (.inl rfl))]
  | assignMove h3 h4 => rw [upd_ne _ _ (ne (.inr rfl)), upd_ne _ _ (ne (.inl rfl))]
  | swap h3 h4 => rw [upd_ne _ _ (ne (.inr rfl)), upd_ne _ _ (ne (.inl rfl))]
  | assignMoveSelf => rfl
  | reserve => rfl
  | shrinkToFit => rfl
  | pushBack hx _ => rw [upd_ne _ _ (ne rfl)]; exact t1 hx (by rintro k rfl; exact h2 .pushBack)
  | emplace hx _ => rw [upd_ne _ _ (ne rfl)]; exact t1 hx (by rintro k rfl; exact h2 .emplace)
  | ctorRange _ hx _ => rw [upd_ne _ _ (ne rfl)]; exact t2 hx (by rintro k m rfl; exact h2 .ctorRange)
  | assignRange _ hx _ => rw [upd_ne _ _ (ne rfl)]; exact t2 hx (by rintro k m rfl; exact h2 .assignRange)
  | insertRange hx _ _ => rw [upd_ne _ _ (ne rfl)]; exact t2 hx (by rintro k m rfl; exact h2 .insertRange)
  | _ => exact upd_ne _ _ (ne rfl)

theorem Without.reach {j : Nat} (hh : Without T j s V s' V') (h : Reach T s V) : Reach T s' V' := by
  induction hh with
  | none => exact h
  | ok _ hs _ _ hr ih => exact ih.ok hs hr
  | thrown _ hs hr ih => exact ih.thrown hs hr

/-- C12 (independence): whatever later happens to other vectors – including copies of `j`, and calls that throw –
everything the client sees of vector `j` stays the same, as long as no call has `j` as its target or moves elements
out of it. -/
theorem C12_independent (h : Reach T s V) {j : Nat} {d : Ptr} {c : Nat} {xs : List α} (hsh : Shows s j d c xs)
    (hh : Without T j s V s' V') : Shows s' j d c xs := by
  induction hh with
  | none => exact hsh
  | @ok s1 V1 s2 V2 op r r' hp hs h1 h2 hr ih =>
    have hr1 := hp.reach h
    have hr2 := hr1.ok hs hr
    have hv := frame_vars hs h1 h2
    obtain ⟨hinv, rfl⟩ := hr1.inv
    have hst := step hinv hs
    rw [hr] at hst
    obtain ⟨o, ho, rfl, rfl⟩ := hinv.of_shows ih
    have hv' : vars s2 j = some xs := by rw [hst.2.2.2.1, hv]; exact vars_of_abs ho
    obtain ⟨o', ho'⟩ := vars_some hv'
    have e := hst.1.2 j h1
    rw [(hinv.wf.get ho).1, (hst.1.1.wf.get ho').1] at e
    cases e
    exact hst.1.1.shows ho'
  | @thrown s1 V1 s2 V2 op r e hp hs hr ih =>
    have hr1 := hp.reach h
    have hr2 := hr1.thrown hs hr
    obtain ⟨hinv, rfl⟩ := hr1.inv
    have hst := step hinv hs
    rw [hr] at hst
    obtain ⟨o, ho, rfl, rfl⟩ := hinv.of_shows ih
    exact hr2.inv.1.shows (by rw [hst.1.abs, ho])

/-- C12: move construction transfers the buffer in place, leaves the source empty without a buffer, and cannot fail. -/
theorem C12_move_construct (h : Reach T s V) {i j : Nat} {d : Ptr} {c : Nat} {ys : List α} (hi : V i = none)
    (hsh : Shows s j d c ys) : ∃ s', (Op.ctorMove i j).run T s = .ok none s' ∧ Shows s' i d c ys ∧
      Shows s' j ⟨none, 0⟩ 0 [] ∧ s'.nblk = s.nblk ∧ s'.tick = s.tick := by
  have hj := h.of_shows hsh
  have hij : i ≠ j := by rintro rfl; rw [hi] at hj; cases hj
  obtain ⟨hinv, rfl⟩ := h.inv
  obtain ⟨o, ho, rfl, rfl⟩ := hinv.of_shows hsh
  obtain ⟨s', h1, h2, h3, h4, h5, h6, h7⟩ := ctorMove_spec hinv.wf (vars_none hi) ho
  have hst := step hinv (.ctorMove (T := T) hi hj)
  have e : (Op.ctorMove i j).run T s = .ok none s' := M.bind_ok h1
  rw [e] at hst
  have hne : Id.var i ≠ .var j := by intro hh; cases hh; exact hij rfl
  exact ⟨s', e, hst.1.1.shows (by rw [h7, upd_ne _ _ hne, upd_same]),
    hst.1.1.shows (o := {}) (by rw [h7, upd_same]), h6, h5⟩

/-- C12: move assignment, likewise. -/
theorem C12_move_assign (h : Reach T s V) {i j : Nat} (hij : i ≠ j) {d : Ptr} {c : Nat} {xs ys : List α}
    (hi : V i = some xs) (hsh : Shows s j d c ys) : ∃ s', (Op.assignMove i j).run T s = .ok none s' ∧
      Shows s' i d c ys ∧ Shows s' j ⟨none, 0⟩ 0 [] ∧ s'.nblk = s.nblk ∧ s'.tick = s.tick := by
  have hj := h.of_shows hsh
  obtain ⟨hinv, rfl⟩ := h.inv
  obtain ⟨o, ho, rfl, rfl⟩ := hinv.of_shows hsh
  obtain ⟨oi, hoi⟩ := vars_some hi
  have hne : Id.var i ≠ .var j := by intro hh; cases hh; exact hij rfl
  obtain ⟨s', h1, h2, h3, h4, h5, h6, h7⟩ := moveAssign_spec hinv.wf hne hoi ho
  have hst := step hinv (.assignMove (T := T) hi hj hij)
  have e : (Op.assignMove i j).run T s = .ok none s' := M.bind_ok h1
  rw [e] at hst
  exact ⟨s', e, hst.1.1.shows (by rw [h7, upd_ne _ _ hne, upd_same]),
    hst.1.1.shows (o := {}) (by rw [h7, upd_same]), h6, h5⟩

/-- C12: swap exchanges buffers, capacities and contents, and cannot fail. -/
theorem C12_swap (h : Reach T s V) {i j : Nat} {d d' : Ptr} {c c' : Nat} {xs ys : List α}
    (hi : Shows s i d c xs) (hj : Shows s j d' c' ys) : ∃ s', (Op.swap i j).run T s = .ok none s' ∧
      Shows s' i d' c' ys ∧ Shows s' j d c xs ∧ s'.nblk = s.nblk ∧ s'.tick = s.tick := by
  have hvi := h.of_shows hi
  have hvj := h.of_shows hj
  obtain ⟨hinv, rfl⟩ := h.inv
  obtain ⟨oi, hoi, rfl, rfl⟩ := hinv.of_shows hi
  obtain ⟨oj, hoj, rfl, rfl⟩ := hinv.of_shows hj
  obtain ⟨s', h1, h2, h3, h4, h5, h6, h7⟩ := swap_spec hinv.wf hoi hoj
  have hst := step hinv (.swap (T := T) hvi hvj)
  have e : (Op.swap i j).run T s = .ok none s' := M.bind_ok h1
  rw [e] at hst
  refine ⟨s', e, ?_, hst.1.1.shows (by rw [h7, upd_same]), h6, h5⟩
  by_cases hij : i = j
  · subst hij
    rw [hoi] at hoj; cases hoj
    exact hst.1.1.shows (by rw [h7, upd_same])
  · have hne : Id.var i ≠ .var j := by intro hh; cases hh; exact hij rfl
    exact hst.1.1.shows (by rw [h7, upd_ne _ _ hne, upd_same])

/-- C12: self-copy-assignment, self-move-assignment and self-swap change nothing at all. -/
theorem C12_self (h : Reach T s V) {i : Nat} {xs : List α} (hi : V i = some xs) :
    (Op.assignCopy i i).run T s = .ok none s ∧ (Op.assignMove i i).run T s = .ok none s ∧
      (Op.swap i i).run T s = .ok none s := by
  refine ⟨?_, M.bind_ok (moveAssign_self _ _), ?_⟩
  · have : assignCopy T (.var i) (.var i) s = .ok () s := by simp [assignCopy]
    exact M.bind_ok this
  · obtain ⟨hinv, rfl⟩ := h.inv
    obtain ⟨o, ho⟩ := vars_some hi
    have hobj := (hinv.wf.get ho).1
    refine M.bind_ok (a := ()) ?_
    unfold Vector.swap
    mstep (getObj_ok hobj)
    mstep (getObj_ok hobj)
    mstep (setObj_ok hobj)
    refine (setObj_ok (by exact upd_same _ _ _)).trans ?_
    simp only [upd_eq _ _ _ hobj]

-- two live vectors and a free variable
example : ∃ s V d d' c c', Reach natElem s V ∧ V 2 = none ∧ Shows s 0 d c [1, 2, 3] ∧ Shows s 1 d' c' [7] := by
  obtain ⟨s, h, _⟩ := demo
  obtain ⟨d, c, h0⟩ := h.shows (i := 0) (xs := [1, 2, 3]) rfl
  obtain ⟨d', c', h1⟩ := h.shows (i := 1) (xs := [7]) rfl
  exact ⟨s, demoV, d, d', c, c', h, rfl, h0, h1⟩

/-! ## C13 -/

/-- C13: `<` is lexicographic order of the contents; comparing changes nothing. -/
theorem C13_less (h : Reach T s V) (lt : α → α → Bool) {i j : Nat} {xs ys : List α} (hi : V i = some xs)
    (hj : V j = some ys) :
    ∃ b, opLt lt (.var i) (.var j) s = .ok b s ∧ (b = true ↔ LexBefore (fun x y => lt x y = true) xs ys) := by
  obtain ⟨hinv, rfl⟩ := h.inv
  exact ⟨_, hinv.opLt lt hi hj, lexCompare_iff lt xs ys⟩

/-- C13: `==` holds exactly if the sizes agree and the elements are pairwise `==`. -/
theorem C13_equal (h : Reach T s V) (eq : α → α → Bool) {i j : Nat} {xs ys : List α} (hi : V i = some xs)
    (hj : V j = some ys) :
    ∃ b, opEq eq (.var i) (.var j) s = .ok b s ∧ (b = true ↔ xs.length = ys.length ∧
      ∀ (k : Nat) (x y : α), xs[k]? = some x → ys[k]? = some y → eq x y = true) := by
  obtain ⟨hinv, rfl⟩ := h.inv
  exact ⟨_, hinv.opEq eq hi hj, equalRange_iff eq xs ys⟩

/-- C13: if element `==` is equality of values, then `==` is equality of the sequences. -/
theorem C13_equal_iff_same (h : Reach T s V) (eq : α → α → Bool) (heq : ∀ a b, eq a b = true ↔ a = b) {i j : Nat}
    {xs ys : List α} (hi : V i = some xs) (hj : V j = some ys) :
    ∃ b, opEq eq (.var i) (.var j) s = .ok b s ∧ (b = true ↔ xs = ys) := by
  obtain ⟨hinv, rfl⟩ := h.inv
  exact ⟨_, hinv.opEq eq hi hj, equalRange_eq heq xs ys⟩

/-- C13: the six operators are consistent: `a > b` is `b < a`, `a <= b` is `!(b < a)`, `a >= b` is `!(a < b)`,
`a != b` is `!(a == b)`. -/
theorem C13_consistent (h : Reach T s V) (lt eq : α → α → Bool) {i j : Nat} {xs ys : List α} (hi : V i = some xs)
    (hj : V j = some ys) : ∃ a b c, opLt lt (.var i) (.var j) s = .ok a s ∧ opLt lt (.var j) (.var i) s = .ok b s ∧
      opEq eq (.var i) (.var j) s = .ok c s ∧ opGt lt (.var i) (.var j) s = .ok b s ∧
      opLe lt (.var i) (.var j) s = .ok (!b) s ∧ opGe lt (.var i) (.var j) s = .ok (!a) s ∧
      opNe eq (.var i) (.var j) s = .ok (!c) s := by
  obtain ⟨hinv, rfl⟩ := h.inv
  refine ⟨_, _, _, hinv.opLt lt hi hj, hinv.opLt lt hj hi, hinv.opEq eq hi hj, hinv.opLt lt hj hi, ?_, ?_, ?_⟩
  · exact M.bind_ok (hinv.opLt lt hj hi)
  · exact M.bind_ok (hinv.opLt lt hi hj)
  · exact M.bind_ok (hinv.opEq eq hi hj)

/-- C13: if the element order is a strict weak order, so is `<` on vectors: irreflexive, transitive, and
incomparability is transitive. -/
theorem C13_strict_weak_order (h : Reach T s V) {lt : α → α → Bool} (hlt : StrictWeak lt) {i j k : Nat}
    {xs ys zs : List α} (hi : V i = some xs) (hj : V j = some ys) (hk : V k = some zs) :
    opLt lt (.var i) (.var i) s = .ok false s ∧
    (opLt lt (.var i) (.var j) s = .ok true s → opLt lt (.var j) (.var k) s = .ok true s →
      opLt lt (.var i) (.var k) s = .ok true s) ∧
    (opLt lt (.var i) (.var j) s = .ok false s → opLt lt (.var j) (.var i) s = .ok false s →
      opLt lt (.var j) (.var k) s = .ok false s → opLt lt (.var k) (.var j) s = .ok false s →
      opLt lt (.var i) (.var k) s = .ok false s ∧ opLt lt (.var k) (.var i) s = .ok false s) := by
  obtain ⟨hinv, rfl⟩ := h.inv
  have hw := lexCompare_strictWeak hlt
  rw [hinv.opLt lt hi hi, hinv.opLt lt hi hj, hinv.opLt lt hj hk, hinv.opLt lt hi hk, hinv.opLt lt hj hi,
    hinv.opLt lt hk hj, hinv.opLt lt hk hi]
  simp only [Out.ok.injEq, and_true]
  refine ⟨hw.irrefl xs, hw.trans xs ys zs, fun h1 h2 h3 h4 => ?_⟩
  exact hw.incomp xs ys zs h1 h2 h3 h4

/-- C13: if the element order is a strict total order, so is `<` on vectors: vectors that are not `<` either way have
equal contents. -/
theorem C13_strict_total_order (h : Reach T s V) {lt : α → α → Bool} (hlt : StrictTotal lt) {i j : Nat}
    {xs ys : List α} (hi : V i = some xs) (hj : V j = some ys) (h1 : opLt lt (.var i) (.var j) s = .ok false s)
    (h2 : opLt lt (.var j) (.var i) s = .ok false s) : xs = ys := by
  obtain ⟨hinv, rfl⟩ := h.inv
  rw [hinv.opLt lt hi hj] at h1
  rw [hinv.opLt lt hj hi] at h2
  simp only [Out.ok.injEq, and_true] at h1 h2
  exact (lexCompare_strictTotal hlt).tri xs ys h1 h2

example : ∃ s V, Reach natElem s V ∧ V 0 = some [1, 2, 3] ∧ V 1 = some [7] ∧
    opLt (fun a b => decide (a < b)) (.var 0) (.var 1) s = .ok true s := by
  obtain ⟨s, h, _⟩ := demo
  refine ⟨s, demoV, h, rfl, rfl, ?_⟩
  obtain ⟨hinv, hv⟩ := h.inv
  rw [hinv.opLt _ (i := 0) (j := 1) (xs := [1, 2, 3]) (ys := [7]) (by rw [hv]; rfl) (by rw [hv]; rfl)]
  rfl

/-! ## C14 -/

/-- the same vectors are alive in both states, with the same elements -/
def SameContents (s1 s2 : St α Storage) : Prop :=
  ∀ j xs, (∃ d c, Shows s1 j d c xs) ↔ ∃ d c, Shows s2 j d c xs

theorem Reach.sameContents {s1 s2 : St α Storage} (h1 : Reach T s1 V) (h2 : Reach T s2 V) : SameContents s1 s2 := fun _ _ =>
  ⟨fun ⟨_, _, h⟩ => h2.shows (h1.of_shows h), fun ⟨_, _, h⟩ => h1.shows (h2.of_shows h)⟩

/-- C14: construction from a single-pass range and from a forward range with the same values give the same contents
(of all vectors). -/
theorem C14_construct (h : Reach T s V) {i : Nat} {vs : List α} (hi : V i = none) (hn : vs.length < 2 ^ 64)
    {s1 s2 : St α Storage} {r1 r2 : Option Nat} (h1 : (Op.ctorInput i vs).run T s = .ok r1 s1)
    (h2 : (Op.ctorRange i (.refs (vs.map .val))).run T s = .ok r2 s2) :
    SameContents s1 s2 ∧ ∃ d c, Shows s1 i d c vs := by
  have e1 := h.ok (.ctorInput hi) h1
  exact ⟨e1.sameContents (h.ok (.ctorRange hi (.refs (AreAll.vals vs)) hn) h2), e1.shows (upd_same _ _ _)⟩

/-- C14: assignment. -/
theorem C14_assign (h : Reach T s V) {i : Nat} {xs vs : List α} (hi : V i = some xs) (hn : xs.length + vs.length < 2 ^ 64)
    {s1 s2 : St α Storage} {r1 r2 : Option Nat} (h1 : (Op.assignInput i vs).run T s = .ok r1 s1)
    (h2 : (Op.assignRange i (.refs (vs.map .val))).run T s = .ok r2 s2) :
    SameContents s1 s2 ∧ ∃ d c, Shows s1 i d c vs := by
  have e1 := h.ok (.assignInput hi) h1
  exact ⟨e1.sameContents (h.ok (.assignRange hi (.refs (AreAll.vals vs)) hn) h2), e1.shows (upd_same _ _ _)⟩

/-- C14: insertion, including the returned position. -/
theorem C14_insert (h : Reach T s V) {i : Nat} {pre post vs : List α} (hi : V i = some (pre ++ post))
    (hn : (pre ++ post).length + vs.length < 2 ^ 64)
    {s1 s2 : St α Storage} {r1 r2 : Option Nat} (h1 : (Op.insertInput i pre.length vs).run T s = .ok r1 s1)
    (h2 : (Op.insertRange i pre.length (.refs (vs.map .val))).run T s = .ok r2 s2) :
    r1 = some pre.length ∧ r2 = some pre.length ∧ SameContents s1 s2 ∧ ∃ d c, Shows s1 i d c (pre ++ vs ++ post) := by
  have e1 : Spec T (.insertInput i pre.length vs) V _ _ := .insertInput hi hn
  have e2 : Spec T (.insertRange i pre.length (.refs (vs.map .val))) V _ _ :=
    .insertRange (.refs (AreAll.vals vs)) hi hn
  have q1 := Reach.call h e1
  have q2 := Reach.call h e2
  rw [h1] at q1
  rw [h2] at q2
  exact ⟨q1.1, q2.1, q1.2.sameContents q2.2, q1.2.shows (upd_same _ _ _)⟩

-- both forms succeed on the demo vectors
example : ∃ s s1 s2 r1 r2, Reach natElem s demoV ∧ (Op.insertInput 0 1 [8, 9]).run natElem s = .ok r1 s1 ∧
    (Op.insertRange 0 1 (.refs ([8, 9].map .val))).run natElem s = .ok r2 s2 := by
  obtain ⟨s, h, ho⟩ := demo
  have hshort : ∀ op : Op Nat, (∀ i n, op ≠ .reserve i n) →
      ¬ TooLong natElem op (upd demoV 0 (some ([1] ++ [8, 9] ++ [2, 3]))) := by
    intro op hop
    refine demo_short ?_ (fun i n h => absurd h (hop i n))
    intro i xs h; simp only [upd] at h; split at h
    · cases h; decide
    · exact demoV_len _ _ h
  obtain ⟨s1, h1, _⟩ := h.next (Spec.insertInput (i := 0) (pre := [1]) (post := [2, 3]) (vs := [8, 9]) rfl (by decide)) ho
    (hshort _ (by intro i n hh; cases hh))
  obtain ⟨s2, h2, _⟩ := h.next (Spec.insertRange (i := 0) (pre := [1]) (post := [2, 3]) (.refs (AreAll.vals [8, 9])) rfl
    (by decide)) ho (hshort _ (by intro i n hh; cases hh))
  exact ⟨s, s1, s2, _, _, h, h1, h2⟩

/-! ## C60 -/

/-- C60: `at(k)` succeeds exactly for `k < size()`, with the address `operator[]` gives; otherwise it throws
`out_of_range` and changes nothing. -/
theorem C60_at (h : Reach T s V) {i k : Nat} {d : Ptr} {c : Nat} {xs : List α} (hsh : Shows s i d c xs) :
    (k < xs.length → at_ (.var i) k s = .ok (d.add k) s) ∧
    (xs.length ≤ k → at_ (.var i) k s = .exc .outOfRange s) := by
  obtain ⟨hinv, rfl⟩ := h.inv
  obtain ⟨o, ho, rfl, rfl⟩ := hinv.of_shows hsh
  obtain ⟨hobj, hg⟩ := hinv.wf.get ho
  have hsz := hg.siz
  constructor <;> intro hk <;> unfold at_
  · mstep (size_ok hobj)
    rw [if_neg (by omega), index_ok hobj]
    simp [Ptr.add]
  · mstep (size_ok hobj)
    rw [if_pos (by omega)]
    rfl

/-- C60: `operator[]`, `front()`, `back()` and `data() + k` address the elements: reading through the address gives
element `k` of the contents. -/
theorem C60_read (h : Reach T s V) {i k : Nat} {d : Ptr} {c : Nat} {xs : List α} {v : α} (hsh : Shows s i d c xs)
    (hk : xs[k]? = some v) :
    index (.var i) k s = .ok (d.add k) s ∧ readAt (d.add k) s = .ok v s ∧
    (k = 0 → front (.var i) s = .ok (d.add k) s) ∧ (k + 1 = xs.length → back (.var i) s = .ok (d.add k) s) := by
  obtain ⟨hinv, rfl⟩ := h.inv
  obtain ⟨o, ho, rfl, rfl⟩ := hinv.of_shows hsh
  obtain ⟨hobj, hg⟩ := hinv.wf.get ho
  have hsz := hg.siz
  have hle := hg.siz_le
  have hpm : ptrdiffMax = 9223372036854775807 := rfl
  have hszm : szMod = 18446744073709551616 := rfl
  refine ⟨by rw [index_ok hobj]; simp [Ptr.add], ?_, ?_, ?_⟩
  · exact hinv.at ho k v hk
  · rintro rfl
    unfold front
    rw [index_ok hobj]; rfl
  · intro hk1
    unfold back
    mstep (size_ok hobj)
    rw [index_ok hobj, szSub_eq (by omega) (by omega)]
    have : o.siz - 1 = k := by omega
    rw [this]; simp [Ptr.add]

/-- C60: writing through the address of element `k` changes exactly element `k` of exactly this vector; `data()` and
`capacity()` stay. -/
theorem C60_write (h : Reach T s V) {i k : Nat} {d : Ptr} {c : Nat} {xs : List α} (v : α) (hsh : Shows s i d c xs)
    (hk : k < xs.length) {a : Unit} (hr : writeAt (d.add k) v s = .ok a s') :
    Shows s' i d c (xs.set k v) ∧ ∀ j d' c' ys, j ≠ i → Shows s j d' c' ys → Shows s' j d' c' ys := by
  have hs : Spec T (.write i k v) V _ _ := .write (h.of_shows hsh) hk
  have hobj' := writeAt_obj hr
  have hinv := h.inv.1
  obtain ⟨o, ho, rfl, rfl⟩ := hinv.of_shows hsh
  obtain ⟨hobj, hg⟩ := hinv.wf.get ho
  have e : (Op.write i k v).run T s = .ok none s' := by
    refine (M.bind_ok (index_ok hobj k)).trans (M.bind_ok (a := a) ?_)
    simpa [Ptr.add] using hr
  have h' := h.ok hs e
  have hinv' := h'.inv.1
  have keep : ∀ {j d' c' ys zs}, Shows s j d' c' ys → V j = some ys → upd V i (some (xs.set k v)) j = some zs →
      Shows s' j d' c' zs := by
    intro j d' c' ys zs hj _ hz
    obtain ⟨oj, hoj, rfl, rfl⟩ := hinv.of_shows hj
    have hv : vars s' j = some zs := by rw [h'.inv.2]; exact hz
    obtain ⟨oj', hoj'⟩ := vars_some hv
    have e := (hinv'.wf.get hoj').1
    rw [hobj', (hinv.wf.get hoj).1] at e
    cases e
    exact hinv'.shows hoj'
  refine ⟨keep hsh (h.of_shows hsh) (upd_same _ _ _), fun j d' c' ys hne hj => ?_⟩
  exact keep hj (h.of_shows hj) (by rw [upd_ne _ _ hne]; exact h.of_shows hj)

example : ∃ s V d c, Reach natElem s V ∧ Shows s 0 d c [1, 2, 3] ∧ ∃ s', writeAt (d.add 1) 8 s = .ok () s' := by
  obtain ⟨s, h, ho⟩ := demo
  obtain ⟨d, c, hsh⟩ := h.shows (i := 0) (xs := [1, 2, 3]) rfl
  refine ⟨s, demoV, d, c, h, hsh, ?_⟩
  obtain ⟨_, hrd, _⟩ := C60_read h (k := 1) (v := 2) hsh rfl
  have hb : ∃ b l, d.blk = some b ∧ s.blk b = some l ∧ d.off + 1 < l.length := by
    obtain ⟨o, hoo, rfl, rfl⟩ := h.inv.1.of_shows hsh
    obtain ⟨_, hg⟩ := h.inv.1.wf.get hoo
    cases hp : o.ptr with
    | none => have := (hg.null hp).2; cases this
    | some b =>
      obtain ⟨_, _, h3, h4, _, h5⟩ := hg.own hp
      exact ⟨b, _, rfl, h5, by simp [lv]⟩
  obtain ⟨b, l, hd, hl, hlt⟩ := hb
  refine ⟨{ s with tick := s.tick + 1, blk := upd s.blk b (some (l.set (d.off + 1) (some 8))) }, ?_⟩
  unfold writeAt
  mstep hrd
  mstep (fallible_ok (ho _))
  have : d.add 1 = ⟨some b, d.off + 1⟩ := by rw [← hd]; rfl
  rw [this]
  exact setSlot_ok hl hlt

end Ptl.Vector

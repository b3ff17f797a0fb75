import Verif.Vector.Demo

/-!
# C07: requests beyond `max_size()`
-/

namespace Ptl.Vector

variable {α : Type} {T : Elem α} {s s' : St α Storage} {V V' : Vars α} {op : Op α} {r : Option Nat}

/-! ### evaluation of the implementation functions for requests that are too long -/

theorem maxCapacity_le (T : Elem α) : T.maxCapacity ≤ 9223372036854775807 := Nat.div_le_self _ _

theorem insertImpl_len (hinv : Inv T s) {i n k : Nat} {o : Storage} {xs : List α} {func : Ptr → VM α Unit}
    (ho : abs s (.var i) = some (o, xs)) (hn : o.siz + n < szMod) (hlen : T.maxCapacity < o.siz + n) :
    insertImpl T (.var i) ⟨o.ptr, k⟩ n func s = .exc .lengthError { s with ntmp := s.ntmp + 1 } := by
  obtain ⟨hobj, hg⟩ := hinv.wf.get ho
  have hcap : o.siz ≤ o.cap ∧ o.cap ≤ T.maxCapacity := by
    rcases hg with ⟨rfl, _⟩ | ⟨b, _, _, h1, h2, _, h3, _⟩
    · exact ⟨Nat.le_refl _, Nat.zero_le _⟩
    · exact ⟨by omega, h3⟩
  have hmax := maxCapacity_le T
  have hszm : szMod = 18446744073709551616 := rfl
  unfold insertImpl
  mstep (data_ok hobj)
  mstep (distance_ok (by rfl) (by exact Nat.zero_le _))
  mstep (size_ok hobj)
  mstep (capacity_ok hobj)
  rw [if_neg (by rw [szAdd_eq hn]; omega)]
  exact M.bind_exc (withStorage_len (by rw [szAdd_eq (by omega)]; omega))

theorem assignImpl_len (hinv : Inv T s) {i n : Nat} {o : Storage} {xs : List α} {func : Ptr → VM α Unit}
    (ho : abs s (.var i) = some (o, xs)) (hn : o.siz + n < szMod) (hlen : T.maxCapacity < n) :
    assignImpl T (.var i) n func s = .exc .lengthError { s with ntmp := s.ntmp + 1 } := by
  obtain ⟨hobj, hg⟩ := hinv.wf.get ho
  have hcap : o.siz ≤ o.cap ∧ o.cap ≤ T.maxCapacity := by
    rcases hg with ⟨rfl, _⟩ | ⟨b, _, _, h1, h2, _, h3, _⟩
    · exact ⟨Nat.le_refl _, Nat.zero_le _⟩
    · exact ⟨by omega, h3⟩
  unfold assignImpl
  mstep (size_ok hobj)
  mstep (capacity_ok hobj)
  rw [if_neg (by rw [szAdd_eq hn]; omega)]
  exact withStorage_len hlen

theorem resizeImpl_len {i : Id} {n : Nat} {o : Storage} {func : Ptr → Nat → VM α Unit}
    (hobj : s.obj i = some o) (ho : o.siz ≤ T.maxCapacity) (hlen : T.maxCapacity < n) :
    resizeImpl T i n func s = .exc .lengthError { s with ntmp := s.ntmp + 1 } := by
  unfold resizeImpl
  mstep (size_ok hobj)
  rw [if_neg (by omega), if_neg (by omega)]
  exact withStorage_len hlen

theorem construct_len {i : Nat} {body : VM α Unit} (hobj : s.obj (.var i) = none)
    (hb : body { s with obj := upd s.obj (.var i) (some {}) } =
      .exc .lengthError { s with obj := upd s.obj (.var i) (some {}), ntmp := s.ntmp + 1 }) :
    construct (.var i) body s = .exc .lengthError { s with ntmp := s.ntmp + 1 } := by
  unfold construct
  mstep (newObj_ok hobj)
  refine (M.onExc_exc hb (dtor_ok (i := .var i) (o := {}) (by exact upd_same _ _ _) (.inl rfl))).trans ?_
  congr 1
  have e : upd (upd s.obj (.var i) (some {})) (.var i) none = s.obj := by rw [upd_upd]; exact upd_eq _ _ _ hobj
  simp only [e]
  rfl

theorem size_le_max (hinv : Inv T s) {i : Nat} {o : Storage} {xs : List α} (ho : abs s (.var i) = some (o, xs)) :
    o.siz ≤ T.maxCapacity := by
  rcases (hinv.wf.get ho).2 with ⟨rfl, _⟩ | ⟨b, _, _, h1, h2, _, h3, _⟩
  · exact Nat.zero_le _
  · omega

/-! ### C07 -/

/-- the call throws `std::length_error`, all vectors and all buffers are exactly as before -/
def Rejected (T : Elem α) (op : Op α) (s : St α Storage) : Prop :=
  ∃ s', op.run T s = .exc .lengthError s' ∧ s'.obj = s.obj ∧ s'.blk = s.blk

/-- C07 for insert, emplace and push_back, as long as `size() + n` is representable in `size_type`.
Missing for the full property: larger `n`, see `C07_insert_refuted`. -/
theorem C07_insert_partial (h : Reach T s V) (hs : Spec T op V V' r) {i n : Nat} (hop : op.Inserts i n) {xs : List α}
    (hi : V i = some xs) (hlen : T.maxCapacity < xs.length + n) : Rejected T op s := by
  obtain ⟨hinv, rfl⟩ := h.inv
  obtain ⟨o, func, vs, pre, post, W, hf⟩ := insert_form hinv hs hop
  obtain ⟨o', ho⟩ := vars_some hi
  have hg := hinv.wf.get ho
  obtain rfl : o' = o := by have := hf.obj.symm.trans hg.1; cases this; rfl
  have hl := hf.len
  have hsz := hg.2.siz
  exact ⟨_, hf.run.trans (M.bind_exc (insertImpl_len hinv ho (by rw [hf.len]; have := hf.fit; omega)
    (by omega))), rfl, rfl⟩

/-- C07 for `assign(count, value)`, as long as `size() + n` is representable in `size_type`.
Missing for the full property: larger `n`, see `C07_assign_refuted`. -/
theorem C07_assign_fill_partial (h : Reach T s V) {i n : Nat} {x : Src α} {v : α} {xs : List α} (hi : V i = some xs)
    (hx : x.Is V v) (hn : xs.length + n < 2 ^ 64) (hlen : T.maxCapacity < n) : Rejected T (.assignFill i n x) s := by
  obtain ⟨hinv, rfl⟩ := h.inv
  obtain ⟨o, ho⟩ := vars_some hi
  obtain ⟨a, ha, _⟩ := Src.resolve_spec hinv.wf hx
  have hsz := (hinv.wf.get ho).2.siz
  have e : assignFill T (.var i) n a s = _ := assignImpl_len hinv ho (by unfold szMod; omega) hlen
  exact ⟨_, (M.bind_ok ha).trans (M.bind_exc e), rfl, rfl⟩

/-- C07 for `assign(first, last)`, as long as `size() + n` is representable in `size_type` (always true for ranges of
distinct objects). -/
theorem C07_assign_range_partial (h : Reach T s V) {i : Nat} {x : Rng α} {V1 : Vars α} {vs xs : List α}
    (hi : V i = some xs) (hx : x.Takes T.moved V vs V1) (hn : xs.length + vs.length < 2 ^ 64)
    (hlen : T.maxCapacity < vs.length) : Rejected T (.assignRange i x) s := by
  obtain ⟨hinv, rfl⟩ := h.inv
  obtain ⟨o, ho⟩ := vars_some hi
  obtain ⟨as, W, ha, hl, _⟩ := Rng.resolve_spec hinv.wf hx
  have hsz := (hinv.wf.get ho).2.siz
  have e : assignRange T (.var i) as s = _ := assignImpl_len hinv ho (by unfold szMod; omega) (by omega)
  exact ⟨_, (M.bind_ok ha).trans (M.bind_exc e), rfl, rfl⟩

/-- C07 for `resize(count)`: every count. -/
theorem C07_resize (h : Reach T s V) {i n : Nat} {xs : List α} (hi : V i = some xs) (hlen : T.maxCapacity < n) :
    Rejected T (.resize i n) s := by
  obtain ⟨hinv, rfl⟩ := h.inv
  obtain ⟨o, ho⟩ := vars_some hi
  have e : resize T (.var i) n s = _ := resizeImpl_len (hinv.wf.get ho).1 (size_le_max hinv ho) hlen
  exact ⟨_, M.bind_exc e, rfl, rfl⟩

/-- C07 for `resize(count, value)`: every count. -/
theorem C07_resize_fill (h : Reach T s V) {i n : Nat} {x : Src α} {v : α} {xs : List α} (hi : V i = some xs)
    (hx : x.Is V v) (hlen : T.maxCapacity < n) : Rejected T (.resizeFill i n x) s := by
  obtain ⟨hinv, rfl⟩ := h.inv
  obtain ⟨o, ho⟩ := vars_some hi
  obtain ⟨a, ha, _⟩ := Src.resolve_spec hinv.wf hx
  have e : resizeFill T (.var i) n a s = _ := resizeImpl_len (hinv.wf.get ho).1 (size_le_max hinv ho) hlen
  exact ⟨_, (M.bind_ok ha).trans (M.bind_exc e), rfl, rfl⟩

/-- C07 for `reserve`: every count. -/
theorem C07_reserve (h : Reach T s V) {i n : Nat} {xs : List α} (hi : V i = some xs) (hlen : T.maxCapacity < n) :
    Rejected T (.reserve i n) s := by
  obtain ⟨hinv, rfl⟩ := h.inv
  obtain ⟨o, ho⟩ := vars_some hi
  obtain ⟨hobj, hg⟩ := hinv.wf.get ho
  have hcap : o.cap ≤ T.maxCapacity := by
    rcases hg with ⟨rfl, _⟩ | ⟨b, _, _, h1, h2, _, h3, _⟩
    · exact Nat.zero_le _
    · exact h3
  have e : reserve T (.var i) n s = .exc .lengthError { s with ntmp := s.ntmp + 1 } := by
    unfold reserve
    mstep (capacity_ok hobj)
    rw [if_neg (by omega)]
    exact withStorage_len hlen
  exact ⟨_, M.bind_exc e, rfl, rfl⟩

/-- C07 for `vector(count)`: every count; no vector comes into existence. -/
theorem C07_construct_count (h : Reach T s V) {i n : Nat} (hi : V i = none) (hlen : T.maxCapacity < n) :
    Rejected T (.ctorCount i n) s := by
  obtain ⟨hinv, rfl⟩ := h.inv
  have e : ctorCount T (.var i) n s = _ := construct_len (vars_none hi)
    (resizeImpl_len (o := {}) (upd_same _ _ _) (Nat.zero_le _) hlen)
  exact ⟨_, M.bind_exc e, rfl, rfl⟩

/-- C07 for `vector(count, value)`: every count. -/
theorem C07_construct_fill (h : Reach T s V) {i n : Nat} {x : Src α} {v : α} (hi : V i = none) (hx : x.Is V v)
    (hlen : T.maxCapacity < n) : Rejected T (.ctorFill i n x) s := by
  obtain ⟨hinv, rfl⟩ := h.inv
  obtain ⟨a, ha, _⟩ := Src.resolve_spec hinv.wf hx
  have e : ctorFill T (.var i) n a s = _ := construct_len (vars_none hi)
    (resizeImpl_len (o := {}) (upd_same _ _ _) (Nat.zero_le _) hlen)
  exact ⟨_, (M.bind_ok ha).trans (M.bind_exc e), rfl, rfl⟩

/-- C07 for construction from a forward range (whose length is representable in `size_type`). -/
theorem C07_construct_range (h : Reach T s V) {i : Nat} {x : Rng α} {V1 : Vars α} {vs : List α} (hi : V i = none)
    (hx : x.Takes T.moved V vs V1) (hn : vs.length < 2 ^ 64) (hlen : T.maxCapacity < vs.length) :
    Rejected T (.ctorRange i x) s := by
  obtain ⟨hinv, rfl⟩ := h.inv
  obtain ⟨as, W, ha, hl, _⟩ := Rng.resolve_spec hinv.wf hx
  have e : ctorRange T (.var i) as s = .exc .lengthError { s with ntmp := s.ntmp + 1 } := by
    refine construct_len (vars_none hi) ?_
    unfold assignRange assignImpl
    mstep (size_ok (o := {}) (by exact upd_same _ _ _))
    mstep (capacity_ok (o := {}) (by exact upd_same _ _ _))
    rw [if_neg]
    · exact withStorage_len (by omega)
    · rw [szAdd_eq (by unfold szMod; show 0 + _ < _; omega)]
      show ¬ 0 + _ ≤ 0
      omega
  exact ⟨_, (M.bind_ok ha).trans (M.bind_exc e), rfl, rfl⟩

/-- C07, all calls (including single-pass ranges): no call within its preconditions ever returns normally with more
than `max_size()` elements; it throws and everything is as before. -/
theorem C07_never_exceeded (h : Reach T s V) (hs : Spec T op V V' r) {i : Nat} {ys : List α} (hi : V' i = some ys)
    (hlen : T.maxCapacity < ys.length) (hsf : ∀ j, op ≠ .shrinkToFit j) :
    ∃ e s', op.run T s = .exc e s' ∧ s'.obj = s.obj ∧ s'.blk = s.blk := by
  have h0 := h
  obtain ⟨hinv, rfl⟩ := h.inv
  have hst := step hinv hs
  cases hr : op.run T s with
  | ok r' s' =>
    have h' := (h0.ok hs hr).inv
    have hv : vars s' i = some ys := by rw [h'.2, hi]
    obtain ⟨o, ho⟩ := vars_some hv
    have h1 := size_le_max h'.1 ho
    have h2 := (h'.1.wf.get ho).2.siz
    omega
  | exc e s' => rw [hr] at hst; exact ⟨e, s', rfl, hst.1.obj, hst.1.blk⟩
  | ub => rw [hr] at hst; exact hst.elim
  | term => rw [hr] at hst; obtain ⟨⟨j, hj⟩, _⟩ := hst; exact absurd hj (hsf j)

-- the hypotheses are met by the demo state
example : ∃ s V V' r xs, Reach natElem s V ∧ Spec natElem (.insertFill 0 1 (2 ^ 63) (.elem 0 0)) V V' r ∧
    V 0 = some xs ∧ natElem.maxCapacity < xs.length + 2 ^ 63 := by
  obtain ⟨s, h, _⟩ := demo
  exact ⟨s, demoV, _, _, [1, 2, 3], h,
    .insertFill (pre := [1]) (post := [2, 3]) (.elem (ys := [1, 2, 3]) rfl rfl) rfl (by decide), rfl, by
      rw [natElem_max]; decide⟩

/-! ### the wrap-around -/

/-- constructing more elements than there is raw storage runs over the end of the block -/
theorem uninitLoop_overrun (v : α) : ∀ (m n : Nat) (s : St α Storage) (b f k : Nat) (pre : List (Option α)),
    s.blk b = some (pre ++ raw m) → k = pre.length → m < n → (∀ j, s.orc j = false) →
    uninitLoop T ⟨some b, f⟩ ⟨some b, k⟩ (List.replicate n (.val v)) s = .ub .outOfBounds := by
  intro m
  induction m with
  | zero =>
    intro n s b f k pre hb hk hn ho
    obtain ⟨n, rfl⟩ : ∃ m, n = m + 1 := ⟨n - 1, by omega⟩
    rw [List.replicate_succ]
    refine M.bind_ub (M.onExc_ub ?_)
    show (fallible .user >>= fun _ => initAt ⟨some b, k⟩ v) s = _
    mstep (fallible_ok (ho _))
    refine M.bind_ub ?_
    simp [slotAt, hb, hk, raw]
  | succ m ih =>
    intro n s b f k pre hb hk hn ho
    obtain ⟨n, rfl⟩ : ∃ m, n = m + 1 := ⟨n - 1, by omega⟩
    rw [List.replicate_succ]
    have hb' : s.blk b = some (pre ++ none :: raw m) := by rw [hb]; simp [raw, List.replicate_succ]
    have e : constructAt T ⟨some b, k⟩ (.val v) s =
        .ok () { s with blk := upd s.blk b (some (pre ++ some v :: raw m)), tick := s.tick + 1 } := by
      show (fallible .user >>= fun _ => initAt ⟨some b, k⟩ v) s = _
      mstep (fallible_ok (ho _))
      have := initAt_ok (s := { s with tick := s.tick + 1 }) (b := b) (k := k) (l := pre ++ none :: raw m) (v := v)
        hb' (get_mid _ _ _ hk)
      rw [this, set_mid _ _ _ _ hk]
    mstep (M.onExc_ok e)
    exact ih n _ b f (k + 1) (pre ++ [some v]) (by simp) (by simp [hk]) (by omega) ho

theorem fill_overrun (hinv : Inv T s) {i n : Nat} {o : Storage} {xs : List α} (ho : abs s (.var i) = some (o, xs))
    (hne : xs ≠ []) (v : α) (horc : ∀ j, s.orc j = false) (h1 : n < 2 ^ 64) (h2 : 2 ^ 64 ≤ xs.length + n) :
    szAdd o.siz n ≤ o.cap ∧ uninitializedFillN T ⟨o.ptr, o.siz⟩ n (.val v) s = .ub .outOfBounds := by
  obtain ⟨hobj, hg⟩ := hinv.wf.get ho
  have hle := hg.siz_le
  have hpm : ptrdiffMax = 9223372036854775807 := rfl
  have hsz := hg.siz
  constructor
  · unfold szAdd szMod
    have : (o.siz + n) % 2 ^ 64 = o.siz + n - 2 ^ 64 := by
      rw [Nat.mod_eq_sub_mod (by omega), Nat.mod_eq_of_lt (by omega)]
    omega
  · cases hp : o.ptr with
    | none => exact absurd (hg.null hp).2 hne
    | some b =>
      obtain ⟨_, _, _, _, _, hb⟩ := hg.own hp
      exact uninitLoop_overrun v _ n s b o.siz o.siz _ hb (by simp [lv, hsz]) (by omega) horc

/-- C07 fails for counts with `size() + n ≥ 2^64`: for every non-empty vector, every position and every such count,
`insert(pos, n, value)` writes past the end of the buffer instead of throwing. -/
theorem C07_insert_refuted (h : Reach T s V) {i p n : Nat} {xs : List α} (hi : V i = some xs) (hne : xs ≠ [])
    (v : α) (horc : ∀ j, s.orc j = false) (h1 : n < 2 ^ 64) (h2 : 2 ^ 64 ≤ xs.length + n) :
    (Op.insertFill i p n (.val v)).run T s = .ub .outOfBounds := by
  obtain ⟨hinv, rfl⟩ := h.inv
  obtain ⟨o, ho⟩ := vars_some hi
  have hobj := (hinv.wf.get ho).1
  obtain ⟨h3, h4⟩ := fill_overrun hinv ho hne v horc h1 h2
  show ((pure (.val v) : VM α (Arg α)) >>= _) s = _
  mstep (by rfl)
  mstep (pos_ok hobj)
  refine M.bind_ub ?_
  unfold insertFill insertImpl
  mstep (data_ok hobj)
  mstep (distance_ok (by rfl) (by exact Nat.zero_le _))
  mstep (size_ok hobj)
  mstep (capacity_ok hobj)
  rw [if_pos h3]
  refine M.bind_ub (M.bind_ub ?_)
  simpa [Ptr.add] using h4

/-- C07 fails likewise for `assign(n, value)`. -/
theorem C07_assign_refuted (h : Reach T s V) {i n : Nat} {xs : List α} (hi : V i = some xs) (hne : xs ≠ [])
    (v : α) (horc : ∀ j, s.orc j = false) (h1 : n < 2 ^ 64) (h2 : 2 ^ 64 ≤ xs.length + n) :
    (Op.assignFill i n (.val v)).run T s = .ub .outOfBounds := by
  obtain ⟨hinv, rfl⟩ := h.inv
  obtain ⟨o, ho⟩ := vars_some hi
  have hobj := (hinv.wf.get ho).1
  obtain ⟨h3, h4⟩ := fill_overrun hinv ho hne v horc h1 h2
  show ((pure (.val v) : VM α (Arg α)) >>= _) s = _
  mstep (by rfl)
  refine M.bind_ub ?_
  unfold assignFill assignImpl
  mstep (size_ok hobj)
  mstep (capacity_ok hobj)
  rw [if_pos h3]
  mstep (data_ok hobj)
  refine M.bind_ub ?_
  simpa [Ptr.add] using h4

-- such a state and count exist
example : ∃ s V, Reach natElem s V ∧
    (Op.insertFill 0 0 (2 ^ 64 - 1) (.val 9)).run natElem s = .ub .outOfBounds := by
  obtain ⟨s, h, ho⟩ := demo
  exact ⟨s, demoV, h, C07_insert_refuted h (xs := [1, 2, 3]) rfl (by simp) 9 ho (by decide) (by decide)⟩

end Ptl.Vector

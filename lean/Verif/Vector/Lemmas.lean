import Verif.Vector.Model

/-! # Equations for the primitive steps and loops of the vector model -/

namespace Ptl.Vector

variable {α : Type} {T : Elem α}

/-- live slots -/
abbrev lv (xs : List α) : List (Option α) := xs.map some
/-- raw slots -/
abbrev raw (n : Nat) : List (Option α) := List.replicate n none

section lists
theorem get_mid {β : Type} (pre : List β) (x : β) (post : List β) {k : Nat} (hk : k = pre.length) :
    (pre ++ x :: post)[k]? = some x := by
  subst hk; simp
theorem set_mid {β : Type} (pre : List β) (x y : β) (post : List β) {k : Nat} (hk : k = pre.length) :
    (pre ++ x :: post).set k y = pre ++ y :: post := by
  subst hk; simp
end lists

/-! ### single slots -/

theorem readAt_ok {s : St α Storage} {b k : Nat} {l : List (Option α)} {v : α}
    (hb : s.blk b = some l) (hk : l[k]? = some (some v)) :
    readAt ⟨some b, k⟩ s = .ok v s := by
  unfold readAt
  rw [M.bind_ok (slotAt_ok hb hk)]; rfl

theorem initAt_ok {s : St α Storage} {b k : Nat} {l : List (Option α)} {v : α}
    (hb : s.blk b = some l) (hk : l[k]? = some none) :
    initAt ⟨some b, k⟩ v s = .ok () { s with blk := upd s.blk b (some (l.set k (some v))) } := by
  unfold initAt
  rw [M.bind_ok (slotAt_ok hb hk)]
  have : k < l.length := by
    rcases Nat.lt_or_ge k l.length with h | h
    · exact h
    · rw [List.getElem?_eq_none h] at hk; cases hk
  exact setSlot_ok hb this

theorem destroyAt_ok {s : St α Storage} {b k : Nat} {l : List (Option α)} {v : α}
    (hb : s.blk b = some l) (hk : l[k]? = some (some v)) :
    destroyAt ⟨some b, k⟩ s = .ok () { s with blk := upd s.blk b (some (l.set k none)) } := by
  unfold destroyAt
  rw [M.bind_ok (slotAt_ok hb hk)]
  have : k < l.length := by
    rcases Nat.lt_or_ge k l.length with h | h
    · exact h
    · rw [List.getElem?_eq_none h] at hk; cases hk
  exact setSlot_ok hb this

/-! ### destroy_n -/

@[simp] theorem destroyN_zero (p : Ptr) (s : St α Storage) : destroyN p 0 s = .ok () s := rfl

theorem destroyN_ok (xs : List α) : ∀ {s : St α Storage} {b k : Nat} (pre post : List (Option α)),
    s.blk b = some (pre ++ lv xs ++ post) → k = pre.length →
    destroyN ⟨some b, k⟩ xs.length s =
      .ok () { s with blk := upd s.blk b (some (pre ++ raw xs.length ++ post)) } := by
  induction xs with
  | nil =>
    intro s b k pre post hb hk
    simp only [lv, raw, List.map_nil, List.length_nil, List.replicate_zero, destroyN_zero] at hb ⊢
    rw [upd_eq _ _ _ hb]
  | cons x xs ih =>
    intro s b k pre post hb hk
    have hb' : s.blk b = some (pre ++ some x :: (lv xs ++ post)) := by simpa using hb
    show destroyN _ (xs.length + 1) s = _
    unfold destroyN
    rw [M.bind_ok (destroyAt_ok hb' (get_mid _ _ _ hk)), set_mid _ _ _ _ hk]
    have := ih (s := { s with blk := upd s.blk b (some (pre ++ none :: (lv xs ++ post))) }) (b := b)
      (k := k + 1) (pre ++ [none]) post (by simp) (by simp [hk])
    simp only [Ptr.add] at this ⊢
    rw [this]
    simp [raw, List.replicate_succ]

/-! ### uninitialized_move_n -/

theorem uninitializedMoveN_ok (xs : List α) : ∀ {s : St α Storage} {a b ka kb : Nat}
    (pre post pre' post' : List (Option α)), a ≠ b →
    s.blk a = some (pre ++ lv xs ++ post) → ka = pre.length →
    s.blk b = some (pre' ++ raw xs.length ++ post') → kb = pre'.length →
    uninitializedMoveN T ⟨some a, ka⟩ xs.length ⟨some b, kb⟩ s =
      .ok () { s with
        blk := upd (upd s.blk a (some (pre ++ lv (xs.map T.moved) ++ post))) b (some (pre' ++ lv xs ++ post')),
        moves := s.moves + xs.length } := by
  induction xs with
  | nil =>
    intro s a b ka kb pre post pre' post' hab ha hka hb hkb
    simp only [lv, raw, List.map_nil, List.length_nil, List.replicate_zero] at ha hb ⊢
    rw [upd_eq _ _ _ ha, upd_eq _ _ _ hb]; rfl
  | cons x xs ih =>
    intro s a b ka kb pre post pre' post' hab ha hka hb hkb
    have ha' : s.blk a = some (pre ++ some x :: (lv xs ++ post)) := by simpa using ha
    have hb' : s.blk b = some (pre' ++ none :: (raw xs.length ++ post')) := by
      simpa [raw, List.replicate_succ] using hb
    show uninitializedMoveN T _ (xs.length + 1) _ s = _
    unfold uninitializedMoveN constructAt
    simp only [M.bind_assoc']
    rw [M.bind_ok (readAt_ok ha' (get_mid _ _ _ hka)), M.bind_ok (initAt_ok hb' (get_mid _ _ _ hkb)),
      set_mid _ _ _ _ hkb]
    rw [M.bind_ok (setSlot_ok (l := pre ++ some x :: (lv xs ++ post)) (by simp [upd_ne _ _ hab, ha'])
      (by simp [hka])), set_mid _ _ _ _ hka]
    rw [M.bind_ok countMove_ok]
    have := ih (s := { s with
        blk := upd (upd s.blk b (some (pre' ++ some x :: (raw xs.length ++ post')))) a
          (some (pre ++ some (T.moved x) :: (lv xs ++ post))), moves := s.moves + 1 })
      (a := a) (b := b) (ka := ka + 1) (kb := kb + 1)
      (pre ++ [some (T.moved x)]) post (pre' ++ [some x]) post' hab (by simp) (by simp [hka])
      (by simp [upd_ne _ _ (Ne.symm hab)]) (by simp [hkb])
    simp only [Ptr.add] at this ⊢
    rw [this]
    congr 2
    · rw [upd_upd, upd_comm _ _ _ (Ne.symm hab), upd_upd]
      simp
    · simp; omega

/-! ### std::move (algorithm) within one block -/

theorem moveN_gap (tail : List α) : ∀ {s : St α Storage} {b kd ks : Nat} (pre post : List (Option α))
    (gap : List α), gap ≠ [] → s.blk b = some (pre ++ lv gap ++ lv tail ++ post) →
    kd = pre.length → ks = pre.length + gap.length →
    ∃ gap' : List α, gap'.length = gap.length ∧
      moveN T ⟨some b, ks⟩ tail.length ⟨some b, kd⟩ s =
        .ok () { s with blk := upd s.blk b (some (pre ++ lv tail ++ lv gap' ++ post)) } := by
  induction tail with
  | nil =>
    intro s b kd ks pre post gap hg hb hkd hks
    refine ⟨gap, rfl, ?_⟩
    rw [upd_eq _ _ _ (by simpa using hb)]; rfl
  | cons t tail ih =>
    intro s b kd ks pre post gap hg hb hkd hks
    obtain ⟨y, gap, rfl⟩ := List.exists_cons_of_ne_nil hg
    have hb1 : s.blk b = some ((pre ++ some y :: lv gap) ++ some t :: (lv tail ++ post)) := by simpa using hb
    have hb2 : s.blk b = some (pre ++ some y :: (lv gap ++ some t :: (lv tail ++ post))) := by simpa using hb
    have hks' : ks = (pre ++ some y :: lv gap).length := by simp [hks]
    have hne : kd ≠ ks := by simp at hks; omega
    show ∃ _, _ ∧ moveN T _ (tail.length + 1) _ s = _
    unfold moveN moveAssignAt
    simp only [M.bind_assoc']
    rw [M.bind_ok (readAt_ok hb1 (get_mid _ _ _ hks')), M.bind_ok (readAt_ok hb2 (get_mid _ _ _ hkd))]
    rw [if_neg (by simpa [Ptr.mk.injEq] using hne)]
    simp only [M.bind_assoc']
    rw [M.bind_ok (setSlot_ok hb2 (by simp [hkd])), set_mid _ _ _ _ hkd]
    rw [M.bind_ok (setSlot_ok (l := (pre ++ some t :: lv gap) ++ some t :: (lv tail ++ post))
      (by simp) (by simp [hks]))]
    rw [set_mid _ _ _ _ (by simp [hks])]
    obtain ⟨g', hg', h⟩ := ih (s := { s with
        blk := upd (upd s.blk b (some (pre ++ some t :: (lv gap ++ some t :: (lv tail ++ post))))) b
          (some (pre ++ some t :: lv gap ++ some (T.moved t) :: (lv tail ++ post))) })
      (b := b) (kd := kd + 1) (ks := ks + 1) (pre ++ [some t]) post (gap ++ [T.moved t]) (by simp)
      (by simp) (by simp [hkd]) (by simp [hks, Nat.add_assoc, Nat.add_comm, Nat.add_left_comm])
    refine ⟨g', by simpa using hg', ?_⟩
    simp only [Ptr.add] at h ⊢
    rw [h]
    simp

theorem moveN_self (tail : List α) : ∀ {s : St α Storage} {b k : Nat} (pre post : List (Option α)),
    s.blk b = some (pre ++ lv tail ++ post) → k = pre.length →
    moveN T ⟨some b, k⟩ tail.length ⟨some b, k⟩ s =
        .ok () { s with blk := upd s.blk b (some (pre ++ lv (tail.map T.selfMove) ++ post)) } := by
  induction tail with
  | nil =>
    intro s b k pre post hb hk
    rw [upd_eq _ _ _ (by simpa using hb)]; rfl
  | cons t tail ih =>
    intro s b k pre post hb hk
    have hb1 : s.blk b = some (pre ++ some t :: (lv tail ++ post)) := by simpa using hb
    show moveN T _ (tail.length + 1) _ s = _
    unfold moveN moveAssignAt
    simp only [M.bind_assoc']
    rw [M.bind_ok (readAt_ok hb1 (get_mid _ _ _ hk)), M.bind_ok (readAt_ok hb1 (get_mid _ _ _ hk))]
    rw [if_pos trivial, M.bind_ok (setSlot_ok hb1 (by simp [hk])), set_mid _ _ _ _ hk]
    have h := ih (s := { s with blk := upd s.blk b (some (pre ++ some (T.selfMove t) :: (lv tail ++ post))) })
      (b := b) (k := k + 1) (pre ++ [some (T.selfMove t)]) post (by simp) (by simp [hk])
    simp only [Ptr.add] at h ⊢
    rw [h]
    simp

/-! ### rotate -/

theorem rotate_ok {s : St α Storage} {b f m l : Nat} (pre post : List (Option α)) (xs ys : List α)
    (hb : s.blk b = some (pre ++ lv xs ++ lv ys ++ post)) (hf : f = pre.length)
    (hm : m = pre.length + xs.length) (hl : l = pre.length + xs.length + ys.length) :
    rotate ⟨some b, f⟩ ⟨some b, m⟩ ⟨some b, l⟩ s =
      .ok () { s with blk := upd s.blk b (some (pre ++ lv ys ++ lv xs ++ post)) } := by
  unfold rotate
  rw [if_pos ⟨rfl, rfl, by simp; omega, by simp; omega⟩]
  by_cases h0 : f = l
  · have hx : xs = [] := List.length_eq_zero_iff.1 (by omega)
    have hy : ys = [] := List.length_eq_zero_iff.1 (by omega)
    simp only [h0, if_true]
    subst hx hy
    rw [upd_eq _ _ _ (by simpa using hb)]
  · simp only [h0, if_false, hb]
    have hlen : ¬ (pre ++ lv xs ++ lv ys ++ post).length < l := by simp [lv]; omega
    have h1 : ((pre ++ lv xs ++ lv ys ++ post).drop f) = lv xs ++ lv ys ++ post := by
      subst hf; simp [List.append_assoc]
    have h2 : ((pre ++ lv xs ++ lv ys ++ post).drop m) = lv ys ++ post := by
      have : (pre ++ lv xs ++ lv ys ++ post) = (pre ++ lv xs) ++ (lv ys ++ post) := by simp
      rw [this]; apply List.drop_left'; simp [lv, hm]
    have h3 : ((pre ++ lv xs ++ lv ys ++ post).drop l) = post := by
      apply List.drop_left'; simp [lv, hl]; omega
    have h4 : ((pre ++ lv xs ++ lv ys ++ post).take f) = pre := by
      subst hf; simp [List.append_assoc]
    have h5 : (lv xs ++ lv ys ++ post).take (l - f) = lv xs ++ lv ys := by
      apply List.take_left'; simp [lv]; omega
    have h6 : (lv ys ++ post).take (l - m) = lv ys := by
      apply List.take_left'; simp [lv]; omega
    have h7 : (lv xs ++ lv ys ++ post).take (m - f) = lv xs := by
      rw [List.append_assoc]; apply List.take_left'; simp [lv]; omega
    rw [if_neg hlen, h1, h2, h3, h4, h5, h6, h7]
    rw [if_pos (by simp [lv])]
    simp [List.append_assoc]

theorem rotate_null {s : St α Storage} {k : Nat} (b : Option Nat) :
    rotate ⟨b, k⟩ ⟨b, k⟩ ⟨b, k⟩ s = .ok () s := by
  unfold rotate
  simp

/-! ### free -/

theorem free_ok {s : St α Storage} {b n : Nat} (hb : s.blk b = some (raw n)) :
    free b (some b) s = .ok () { s with blk := upd s.blk b none } := by
  simp [free, hb, raw]

theorem distance_ok {s : St α Storage} {p q : Ptr} (h1 : p.blk = q.blk) (h2 : p.off ≤ q.off) :
    distance p q s = .ok (q.off - p.off) s := by
  simp [distance, h1, h2]

/-! ### accessors -/

theorem data_ok {s : St α Storage} {i : Id} {o : Storage} (h : s.obj i = some o) :
    data i s = .ok ⟨o.ptr, 0⟩ s := by unfold data; rw [M.bind_ok (getObj_ok h)]; rfl
theorem size_ok {s : St α Storage} {i : Id} {o : Storage} (h : s.obj i = some o) :
    size i s = .ok o.siz s := by unfold size; rw [M.bind_ok (getObj_ok h)]; rfl
theorem capacity_ok {s : St α Storage} {i : Id} {o : Storage} (h : s.obj i = some o) :
    capacity i s = .ok o.cap s := by unfold capacity; rw [M.bind_ok (getObj_ok h)]; rfl
theorem empty_ok {s : St α Storage} {i : Id} {o : Storage} (h : s.obj i = some o) :
    empty i s = .ok (o.siz == 0) s := by unfold empty; rw [M.bind_ok (size_ok h)]; rfl
theorem end_ok {s : St α Storage} {i : Id} {o : Storage} (h : s.obj i = some o) :
    end_ i s = .ok ⟨o.ptr, o.siz⟩ s := by
  unfold end_; rw [M.bind_ok (data_ok h), M.bind_ok (size_ok h)]; simp [Ptr.add]
theorem setSize_ok {s : St α Storage} {i : Id} {o : Storage} {n : Nat} (h : s.obj i = some o) :
    setSize i n s = .ok () { s with obj := upd s.obj i (some { o with siz := n }) } := by
  unfold setSize; rw [M.bind_ok (getObj_ok h)]; exact setObj_ok h

/-! ### destruction and move-assignment of storage -/

/-- the storage of `o` can be released: it is null, or owns a block with `siz` live elements first -/
def Releasable (blk : Nat → Option (List (Option α))) (o : Storage) : Prop :=
  o = {} ∨ ∃ b zs r, o.dealloc = some b ∧ o.ptr = some b ∧ o.siz = List.length zs ∧ blk b = some (lv zs ++ raw r)

/-- heap after releasing the storage of `o` -/
def freed (o : Storage) (blk : Nat → Option (List (Option α))) : Nat → Option (List (Option α)) :=
  match o.ptr with
  | none => blk
  | some b => upd blk b none

theorem release_ok {s : St α Storage} {o : Storage} (h : Releasable s.blk o) :
    o.release s = .ok () { s with blk := freed o s.blk } := by
  unfold Storage.release
  rcases h with rfl | ⟨b, zs, r, hd, hp, hs, hb⟩
  · simp [freed]
  · have hd' := destroyN_ok zs (s := s) (b := b) (k := 0) [] (raw r) (by simpa using hb) rfl
    have hraw : ([] ++ raw zs.length ++ raw r : List (Option α)) = raw (zs.length + r) := by
      simp [raw, List.replicate_append_replicate]
    rw [hraw] at hd'
    simp only [hd, hp, hs]
    rw [M.bind_ok hd', free_ok (n := zs.length + r) (by simp)]
    simp [freed, hp]

theorem dtor_ok {s : St α Storage} {i : Id} {o : Storage} (ho : s.obj i = some o) (h : Releasable s.blk o) :
    Storage.dtor i s = .ok () { s with blk := freed o s.blk, obj := upd s.obj i none } := by
  unfold Storage.dtor
  mstep (getObj_ok ho)
  mstep (release_ok h)
  exact killObj_ok ho

theorem moveAssign_ok {s : St α Storage} {i t : Id} {o ot : Storage} (hit : i ≠ t)
    (ho : s.obj i = some o) (ht : s.obj t = some ot) (h : Releasable s.blk o) :
    Storage.moveAssign i t s = .ok () { s with
      blk := freed o s.blk, obj := upd (upd s.obj i (some ot)) t (some {}) } := by
  unfold Storage.moveAssign
  rw [if_pos hit]
  mstep (getObj_ok ho)
  mstep (release_ok h)
  mstep (getObj_ok ht)
  mstep (setObj_ok ho)
  exact setObj_ok (o := ot) (by simp [upd_ne _ _ (Ne.symm hit), ht])

theorem moveAssign_self (i : Id) (s : St α Storage) : Storage.moveAssign i i s = .ok () s := by
  simp [Storage.moveAssign]

end Ptl.Vector

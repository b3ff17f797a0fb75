import Verif.Vector.Demo

/-!
# C01–C05: histories of vector calls

`Reach T s V`: `s` is a state a client can be in, `V` the contents of its variables according to the list
specification `Spec` (Client.lean).  `Shows s i d c xs`: what the client observes of variable `i`.
-/

namespace Ptl.Vector

variable {α : Type} {T : Elem α} {s s' : St α Storage} {V V' : Vars α} {op : Op α} {r : Option Nat}

/-! ## C01 -/

/-- C01: after every history, what the client reads from each live vector is exactly the list the specification says,
and vectors that are not alive according to the specification are not alive. -/
theorem C01_contents (h : Reach T s V) (i : Nat) :
    (∀ xs, V i = some xs → ∃ d c, Shows s i d c xs) ∧ (V i = none → s.obj (.var i) = none) := by
  refine ⟨fun xs hi => h.shows hi, fun hi => ?_⟩
  obtain ⟨_, rfl⟩ := h.inv
  exact vars_none hi

/-- what the client sees of all vectors is what the specification says: which ones are alive, and the contents of those -/
def Agrees (s : St α Storage) (V : Vars α) : Prop :=
  ∀ i, (∀ xs, V i = some xs → ∃ d c, Shows s i d c xs) ∧ (V i = none → s.obj (.var i) = none)

theorem Reach.agrees (h : Reach T s V) : Agrees s V := C01_contents h

theorem Reach.call (h : Reach T s V) (hs : Spec T op V V' r) :
    match op.run T s with
    | .ok r' s' => r' = r ∧ Reach T s' V'
    | .exc _ s' => Reach T s' V
    | .ub _ => False
    | .term => (∃ i, op = .shrinkToFit i) ∧ s.orc s.tick = true := by
  obtain ⟨hinv, rfl⟩ := h.inv
  have := step hinv hs
  cases hr : op.run T s with
  | ok r' s' =>
    rw [hr] at this
    exact ⟨this.2.2.2.2, h.ok hs hr⟩
  | exc e s' => exact h.thrown hs hr
  | ub => rw [hr] at this; exact this.elim
  | term => rw [hr] at this; exact this

/-- C01: every call within its precondition, in every reachable state, either returns normally, with the specified
result and the specified contents, or throws and the contents are as before, or (`shrink_to_fit` only) terminates
because an allocation failed inside a `noexcept` function.  It is never undefined. -/
theorem C01_call (h : Reach T s V) (hs : Spec T op V V' r) :
    match op.run T s with
    | .ok r' s' => r' = r ∧ Reach T s' V' ∧ Agrees s' V'
    | .exc _ s' => Reach T s' V ∧ Agrees s' V
    | .ub _ => False
    | .term => (∃ i, op = .shrinkToFit i) ∧ s.orc s.tick = true := by
  have := h.call hs
  cases hr : op.run T s with
  | ok r' s' => rw [hr] at this; exact ⟨this.1, this.2, this.2.agrees⟩
  | exc e s' => rw [hr] at this; exact ⟨this, this.agrees⟩
  | ub => rw [hr] at this; exact this
  | term => rw [hr] at this; exact this

/-- C01: exceptions have a reason: a call throws only if an allocation or element construction during the call failed,
or the request is too long. -/
theorem C01_throws_only_for_a_reason (h : Reach T s V) (hs : Spec T op V V' r) {e : Exc}
    (hr : op.run T s = .exc e s') :
    (e = .lengthError ∧ TooLong T op V') ∨
      ((e = .badAlloc ∨ e = .user) ∧ ∃ k, s.tick ≤ k ∧ k < s'.tick ∧ s.orc k = true) := by
  obtain ⟨hinv, rfl⟩ := h.inv
  have := step hinv hs
  rw [hr] at this
  exact this.2

/-- C01: calls do not disturb other vectors, not even their buffer address or capacity -/
theorem C01_frame (h : Reach T s V) (hs : Spec T op V V' r) {r' : Option Nat} (hr : op.run T s = .ok r' s')
    {j : Nat} (hj : ¬ op.Targets j) (hV : V' j = V j) {d : Ptr} {c : Nat} {xs : List α} (hsh : Shows s j d c xs) :
    Shows s' j d c xs := by
  have h' := h.ok hs hr
  obtain ⟨hinv, rfl⟩ := h.inv
  have := step hinv hs
  rw [hr] at this
  obtain ⟨o, ho, rfl, rfl⟩ := hinv.of_shows hsh
  have hv : vars s' j = some xs := by rw [this.2.2.2.1, hV]; exact vars_of_abs ho
  obtain ⟨o', ho'⟩ := vars_some hv
  have e := this.1.2 j hj
  rw [(hinv.wf.get ho).1, (this.1.1.wf.get ho').1] at e
  cases e
  exact this.1.1.shows ho'

/-- the specification gives exactly one result per call: it is a function of the contents -/
theorem C01_spec_deterministic {V1 V2 : Vars α} {r1 r2 : Option Nat} (h : Reach T s V) (h1 : Spec T op V V1 r1)
    (h2 : Spec T op V V2 r2) (horc : ∀ k, s.orc k = false) (hl : ¬ TooLong T op V1) : V1 = V2 ∧ r1 = r2 := by
  obtain ⟨s', hr, h', _⟩ := h.next h1 horc hl
  have k2 := Reach.call h h2
  rw [hr] at k2
  have e1 := (h'.inv).2
  have e2 := (k2.2.inv).2
  exact ⟨e1.symm.trans e2, k2.1⟩

-- a reachable state in which the calls below are within their preconditions
example : ∃ s V V' r, Reach natElem s V ∧ Spec natElem (.insertFill 0 1 2 (.elem 0 2)) V V' r ∧
    V' 0 = some [1, 3, 3, 2, 3] ∧ V' 1 = some [7] := by
  obtain ⟨s, h, _⟩ := demo
  exact ⟨s, demoV, _, _, h, .insertFill (pre := [1]) (post := [2, 3]) (.elem (ys := [1, 2, 3]) rfl rfl) rfl (by decide),
    rfl, rfl⟩

/-! ## C02 -/

/-- C02: along every history no call runs into undefined behaviour (out-of-range access, use of raw or destroyed
elements, construction over live elements, double destruction, double free, release of a buffer with live elements). -/
theorem C02_no_undefined_behaviour (h : Reach T s V) (hs : Spec T op V V' r) (f : Fault) : op.run T s ≠ .ub f := by
  intro hr
  have := Reach.call h hs
  rw [hr] at this
  exact this

/-- C02: after every history each allocated buffer belongs to exactly one live vector; it has room for `capacity()`
elements, and the live elements in it are exactly the elements of that vector. -/
theorem C02_every_buffer_is_owned (h : Reach T s V) {b : Nat} {l : List (Option α)} (hb : s.blk b = some l) :
    ∃ i, (∃ c xs, Shows s i ⟨some b, 0⟩ c xs ∧ l = xs.map some ++ List.replicate (c - xs.length) none ∧ l.length = c) ∧
      ∀ j c xs, Shows s j ⟨some b, 0⟩ c xs → j = i := by
  obtain ⟨hinv, rfl⟩ := h.inv
  obtain ⟨i, o, ho, hp⟩ := hinv.wf.owned b l hb
  cases i with
  | tmp k => rw [hinv.tmp k] at ho; cases ho
  | var i =>
    obtain ⟨xs, hg⟩ := hinv.wf.good _ _ ho
    have ha : abs s (.var i) = some (o, xs) := by rw [abs_of_obj ho, hg.contents]
    refine ⟨i, ⟨o.cap, xs, by rw [← hp]; exact hinv.shows ha, ?_⟩, ?_⟩
    · have hb' := (hg.own hp).2.2.2.2.2
      have hle := (hg.own hp).2.2.1
      rw [hb] at hb'; cases hb'
      exact ⟨rfl, by simp [lv, raw]; omega⟩
    · intro j c ys hj
      obtain ⟨o', ho', hd, _⟩ := hinv.of_shows hj
      have hp' : o'.ptr = some b := by cases o'; cases hd; rfl
      have := hinv.wf.inj _ _ _ _ b (hinv.wf.get ho').1 ho hp' hp
      cases this; rfl

/-- C02: when all vectors are gone, so are all buffers: no leak, whatever happened before. -/
theorem C02_no_leak (h : Reach T s V) (hV : ∀ i, V i = none) (b : Nat) : s.blk b = none := by
  cases hb : s.blk b with
  | none => rfl
  | some l =>
    obtain ⟨i, ⟨c, xs, hsh, _⟩, _⟩ := C02_every_buffer_is_owned h hb
    have := h.of_shows hsh
    rw [hV] at this; cases this

-- a history that ends with all vectors destroyed after buffers had been in use
example : ∃ s V, Reach natElem s V ∧ (∀ i, V i = none) ∧ s.nblk ≠ 0 := by
  obtain ⟨s, h, ho⟩ := demo
  obtain ⟨s1, hr1, h1, o1⟩ := h.next (Spec.dtor (i := 0) rfl) ho (demo_short (by
    intro i xs h; simp only [upd] at h; split at h
    · cases h
    · exact demoV_len _ _ h) (by intro i n h; cases h))
  obtain ⟨s2, hr2, h2, o2⟩ := h1.next (Spec.dtor (i := 1) rfl) o1 (demo_short (by
    intro i xs h; simp only [upd] at h; split at h
    · cases h
    · split at h
      · cases h
      · exact demoV_len _ _ h) (by intro i n h; cases h))
  refine ⟨s2, _, h2, ?_, ?_⟩
  · intro i; simp only [upd, demoV]
    split
    · rfl
    · split
      · rfl
      · rfl
  · have hinv := h.inv.1
    obtain ⟨d, c, hsh⟩ := h.shows (i := 0) (xs := [1, 2, 3]) rfl
    obtain ⟨o, hoo, _, _⟩ := hinv.of_shows hsh
    have hg := hinv.wf.get hoo
    cases hp : o.ptr with
    | none => have := (hg.2.null hp).2; cases this
    | some b =>
      have hlt := hg.2.lt hinv.wf hp
      have a1 : s.nblk ≤ s1.nblk := by
        have hst := step hinv (op := .dtor 0) (by rw [h.inv.2]; exact Spec.dtor rfl)
        rw [hr1] at hst; exact hst.2.1.nblk
      have a2 : s1.nblk ≤ s2.nblk := by
        have hst := step h1.inv.1 (op := .dtor 1) (by rw [h1.inv.2]; exact Spec.dtor rfl)
        rw [hr2] at hst; exact hst.2.1.nblk
      omega

/-! ## C03 -/

/-- C03: a call that throws leaves every object (address, size, capacity of every vector, and which vectors exist) and
every buffer with all its elements exactly as they were. -/
theorem C03_strong_guarantee (h : Reach T s V) (hs : Spec T op V V' r) {e : Exc} (hr : op.run T s = .exc e s') :
    s'.obj = s.obj ∧ s'.blk = s.blk := by
  obtain ⟨hinv, rfl⟩ := h.inv
  have := step hinv hs
  rw [hr] at this
  exact ⟨this.1.obj, this.1.blk⟩

/-- C03 in terms of what the client sees -/
theorem C03_observation (h : Reach T s V) (hs : Spec T op V V' r) {e : Exc} (hr : op.run T s = .exc e s')
    {i : Nat} {d : Ptr} {c : Nat} {xs : List α} (hsh : Shows s i d c xs) : Shows s' i d c xs := by
  obtain ⟨ho, hb⟩ := C03_strong_guarantee h hs hr
  have hinv := h.inv.1
  have hinv' := (h.thrown hs hr).inv.1
  obtain ⟨o, ha, rfl, rfl⟩ := hinv.of_shows hsh
  apply hinv'.shows
  rw [← ha]
  unfold abs contents
  rw [ho, hb]

-- a call that throws half-way: the second of three element copies fails, in a reachable state
example : ∃ (s s' : St Nat Storage) (V V' : Vars Nat) (r : Option Nat), Reach natElem s V ∧ V 0 = some [] ∧
    Spec natElem (.insertFill 0 0 3 (.val 9)) V V' r ∧
    (Op.insertFill 0 0 3 (.val 9)).run natElem s = .exc .user s' ∧ s'.tick = 3 := by
  let s : St Nat Storage := { start Nat (fun k => k == 2) with obj := upd (fun _ => none) (.var 0) (some {}) }
  have hs : Reach natElem s (upd (fun _ => none) 0 (some [])) :=
    .ok (op := .ctorDefault 0) (.start fun k => k == 2) (.ctorDefault rfl) rfl
  have hr : (match (Op.insertFill 0 0 3 (.val 9)).run natElem s with
      | .exc .user s' => s'.tick == 3 | _ => false) = true := by decide +kernel
  cases h : (Op.insertFill 0 0 3 (.val 9)).run natElem s with
  | exc e s' =>
    rw [h] at hr
    cases e <;> simp at hr
    exact ⟨s, s', _, _, _, hs, rfl, .insertFill (pre := []) (post := []) (.val 9) rfl (by decide), h, hr⟩
  | ok _ _ => rw [h] at hr; cases hr
  | ub _ => rw [h] at hr; cases hr
  | term => rw [h] at hr; cases hr

/-! ## C04 -/

/-- C04: inserting copies of an element of the vector itself (or of any other vector) -/
theorem C04_insert_fill (h : Reach T s V) {i j k n : Nat} {pre post ys : List α} {v : α}
    (hi : V i = some (pre ++ post)) (hj : V j = some ys) (hk : ys[k]? = some v) (hn : (pre ++ post).length + n < 2 ^ 64)
    (hr : (Op.insertFill i pre.length n (.elem j k)).run T s = .ok r s') :
    r = some pre.length ∧ ∃ d c, Shows s' i d c (pre ++ List.replicate n v ++ post) := by
  have hs : Spec T (.insertFill i pre.length n (.elem j k)) V _ _ := .insertFill (.elem hj hk) hi hn
  have := Reach.call h hs
  rw [hr] at this
  exact ⟨this.1, this.2.shows (upd_same _ _ _)⟩

/-- C04: inserting a forward range of elements of the vector itself (`begin()+f .. begin()+f+vs.length`) -/
theorem C04_insert_range (h : Reach T s V) {i : Nat} {pre post a b vs : List α}
    (hi : V i = some (pre ++ post)) (ha : pre ++ post = a ++ vs ++ b)
    (hn : (pre ++ post).length + vs.length < 2 ^ 64)
    (hr : (Op.insertRange i pre.length
      (.refs ((List.range vs.length).map fun k => .elem i (a.length + k)))).run T s = .ok r s') :
    r = some pre.length ∧ ∃ d c, Shows s' i d c (pre ++ vs ++ post) := by
  have hall : ∀ (vs a b : List α), V i = some (a ++ vs ++ b) →
      Src.AreAll V ((List.range vs.length).map fun k => .elem i (a.length + k)) vs := by
    intro vs
    induction vs with
    | nil => intro _ _ _; exact .nil
    | cons v vs ih =>
      intro a b hv
      rw [List.length_cons, List.range_succ_eq_map, List.map_cons, List.map_map]
      refine .cons (.elem hv (by simp)) ?_
      have := ih (a ++ [v]) b (by rw [hv]; simp)
      have e : (fun k => Src.elem (α := α) i ((a ++ [v]).length + k)) =
          (fun k => Src.elem i (a.length + k)) ∘ Nat.succ := by
        funext k; simp [Nat.add_assoc, Nat.add_comm 1]
      rw [← e]; exact this
  have hs : Spec T (.insertRange i pre.length (.refs ((List.range vs.length).map fun k => .elem i (a.length + k)))) V _ _ :=
    .insertRange (.refs (hall vs a b (by rw [hi, ha]))) hi hn
  have := Reach.call h hs
  rw [hr] at this
  exact ⟨this.1, this.2.shows (upd_same _ _ _)⟩

/-- C04: assigning a sub-range of the vector itself -/
theorem C04_assign_range (h : Reach T s V) {i : Nat} {l : List (Src α)} {xs vs : List α}
    (hi : V i = some xs) (hl : Src.AreAll V l vs) (hn : xs.length + vs.length < 2 ^ 64)
    (hr : (Op.assignRange i (.refs l)).run T s = .ok r s') : ∃ d c, Shows s' i d c vs := by
  have hs : Spec T (.assignRange i (.refs l)) V _ _ := .assignRange hi (.refs hl) hn
  have := Reach.call h hs
  rw [hr] at this
  exact this.2.shows (upd_same _ _ _)

/-- C04: assigning copies of an element of the vector itself -/
theorem C04_assign_fill (h : Reach T s V) {i j k n : Nat} {xs ys : List α} {v : α}
    (hi : V i = some xs) (hj : V j = some ys) (hk : ys[k]? = some v) (hn : xs.length + n < 2 ^ 64)
    (hr : (Op.assignFill i n (.elem j k)).run T s = .ok r s') : ∃ d c, Shows s' i d c (List.replicate n v) := by
  have hs : Spec T (.assignFill i n (.elem j k)) V _ _ := .assignFill hi (.elem hj hk) hn
  have := Reach.call h hs
  rw [hr] at this
  exact this.2.shows (upd_same _ _ _)

/-- C04: `v.push_back(v[k])` / `v.emplace(pos, v[k])`, with or without reallocation -/
theorem C04_emplace (h : Reach T s V) {i k : Nat} {pre post : List α} {v : α}
    (hi : V i = some (pre ++ post)) (hk : (pre ++ post)[k]? = some v)
    (hr : (Op.emplace i pre.length (.ref (.elem i k))).run T s = .ok r s') :
    r = some pre.length ∧ ∃ d c, Shows s' i d c (pre ++ [v] ++ post) := by
  have hs : Spec T (.emplace i pre.length (.ref (.elem i k))) V _ _ := .emplace (.ref (.elem hi hk)) hi
  have := Reach.call h hs
  rw [hr] at this
  exact ⟨this.1, this.2.shows (upd_same _ _ _)⟩

/-- C04: push_back of an element of the vector itself -/
theorem C04_push_back (h : Reach T s V) {i k : Nat} {xs : List α} {v : α}
    (hi : V i = some xs) (hk : xs[k]? = some v)
    (hr : (Op.pushBack i (.ref (.elem i k))).run T s = .ok r s') :
    r = some xs.length ∧ ∃ d c, Shows s' i d c (xs ++ [v]) := by
  have hs : Spec T (.pushBack i (.ref (.elem i k))) V _ _ := .pushBack (.ref (.elem hi hk)) hi
  have := Reach.call h hs
  rw [hr] at this
  exact ⟨this.1, this.2.shows (upd_same _ _ _)⟩

/-- C04: `v.push_back(std::move(v[k]))`: the value arrives, its old slot is left moved-from, nothing else changes -/
theorem C04_push_back_move (h : Reach T s V) {i k : Nat} {xs : List α} {v : α}
    (hi : V i = some xs) (hk : xs[k]? = some v)
    (hr : (Op.pushBack i (.mv i k)).run T s = .ok r s') :
    r = some xs.length ∧ ∃ d c, Shows s' i d c (xs.set k (T.moved v) ++ [v]) := by
  have hs : Spec T (.pushBack i (.mv i k)) V _ _ := .pushBack (.mv hi hk) (upd_same _ _ _)
  have := Reach.call h hs
  rw [hr] at this
  exact ⟨by rw [this.1, List.length_set], this.2.shows (upd_same _ _ _)⟩

/-- C04: `v.emplace(pos, std::move(v[k]))` / `v.insert(pos, std::move(v[k]))`, likewise: the old slot is left moved-from, wherever it is then -/
theorem C04_emplace_move (h : Reach T s V) {i k : Nat} {xs pre post : List α} {v : α}
    (hi : V i = some xs) (hk : xs[k]? = some v) (hp : xs.set k (T.moved v) = pre ++ post)
    (hr : (Op.emplace i pre.length (.mv i k)).run T s = .ok r s') :
    r = some pre.length ∧ ∃ d c, Shows s' i d c (pre ++ [v] ++ post) := by
  have hs : Spec T (.emplace i pre.length (.mv i k)) V _ _ := .emplace (.mv hi hk) (by rw [upd_same, hp])
  have := Reach.call h hs
  rw [hr] at this
  exact ⟨this.1, this.2.shows (upd_same _ _ _)⟩

/-- C04: growing `resize` filling with an element of the vector itself -/
theorem C04_resize (h : Reach T s V) {i k n : Nat} {xs : List α} {v : α}
    (hi : V i = some xs) (hk : xs[k]? = some v) (hn : xs.length + n < 2 ^ 64)
    (hr : (Op.resizeFill i (xs.length + n) (.elem i k)).run T s = .ok r s') :
    ∃ d c, Shows s' i d c (xs ++ List.replicate n v) := by
  have hs : Spec T (.resizeFill i (xs.length + n) (.elem i k)) V _ _ := .resizeFillGrow hi (.elem hi hk) hn
  have := Reach.call h hs
  rw [hr] at this
  exact this.2.shows (upd_same _ _ _)

-- the calls succeed in the demo state (so the theorems above are not vacuous); here for an aliasing push_back by move
example : ∃ s s' r, Reach natElem s demoV ∧ (Op.pushBack 0 (.mv 0 1)).run natElem s = .ok r s' ∧
    ∃ d c, Shows s' 0 d c [1, 0, 3, 2] := by
  obtain ⟨s, h, ho⟩ := demo
  obtain ⟨s', hr, _, _⟩ := h.next (Spec.pushBack (x := .mv 0 1) (i := 0) (.mv (ys := [1, 2, 3]) rfl rfl) (upd_same _ _ _)) ho
    (demo_short (by
      intro i xs h; simp only [upd] at h; split at h
      · cases h; decide
      · exact demoV_len _ _ h) (by intro i n h; cases h))
  exact ⟨s, s', _, h, hr, (C04_push_back_move h (xs := [1, 2, 3]) rfl rfl hr).2⟩

/-! ## C05 -/

/-- C05: after every history `size() ≤ capacity() ≤ max_size()`, and `capacity()` is 0 (no buffer) or at least 10. -/
theorem C05_capacity (h : Reach T s V) {i : Nat} {d : Ptr} {c : Nat} {xs : List α} (hsh : Shows s i d c xs) :
    xs.length ≤ c ∧ c ≤ T.maxCapacity ∧ ((c = 0 ∧ d.blk = none) ∨ (10 ≤ c ∧ ∃ b, d.blk = some b)) := by
  obtain ⟨o, ho, rfl, rfl⟩ := h.inv.1.of_shows hsh
  have hg := (h.inv.1.wf.get ho).2
  cases hp : o.ptr with
  | none =>
    obtain ⟨rfl, rfl⟩ := hg.null hp
    exact ⟨Nat.le_refl _, Nat.zero_le _, .inl ⟨rfl, rfl⟩⟩
  | some b =>
    obtain ⟨_, _, h1, h2, h3, _⟩ := hg.own hp
    exact ⟨h1, h3, .inr ⟨h2, b, rfl⟩⟩

example : ∃ s V d c, Reach natElem s V ∧ Shows s 0 d c [1, 2, 3] := by
  obtain ⟨s, h, _⟩ := demo
  obtain ⟨d, c, hsh⟩ := h.shows (i := 0) (xs := [1, 2, 3]) rfl
  exact ⟨s, _, d, c, h, hsh⟩

end Ptl.Vector

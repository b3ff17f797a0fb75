import Verif.Vector.Lemmas

/-! # What can be observed of a vector, the invariant, and how it is re-established -/

namespace Ptl.Vector

variable {α : Type} {T : Elem α}

/-- the live objects in the range `[data(), data() + size())` of a vector with storage `o` -/
def contents (s : St α Storage) (o : Storage) : List α :=
  match o.ptr with
  | none => []
  | some b => match s.blk b with
    | none => []
    | some l => (l.take o.siz).filterMap id

/-- everything observable about all vectors: `data()`, `size()`, `capacity()` and the elements -/
def abs (s : St α Storage) (i : Id) : Option (Storage × List α) :=
  (s.obj i).map fun o => (o, contents s o)

/-- a single storage is well-formed: null, or it owns a block whose first `size` slots are exactly the live ones -/
def Good (T : Elem α) (blk : Nat → Option (List (Option α))) (o : Storage) (xs : List α) : Prop :=
  (o = {} ∧ xs = []) ∨ ∃ b, o.dealloc = some b ∧ o.ptr = some b ∧ o.siz = xs.length ∧ xs.length ≤ o.cap ∧
    10 ≤ o.cap ∧ o.cap ≤ T.maxCapacity ∧ blk b = some (lv xs ++ raw (o.cap - xs.length))

/-- the invariant of the whole program state -/
structure WF (T : Elem α) (s : St α Storage) : Prop where
  good : ∀ i o, s.obj i = some o → ∃ xs, Good T s.blk o xs
  inj : ∀ i j o o' b, s.obj i = some o → s.obj j = some o' → o.ptr = some b → o'.ptr = some b → i = j
  owned : ∀ b l, s.blk b = some l → ∃ i o, s.obj i = some o ∧ o.ptr = some b
  freshB : ∀ b, s.nblk ≤ b → s.blk b = none
  freshT : ∀ k, s.ntmp ≤ k → s.obj (.tmp k) = none

theorem filterMap_lv (xs : List α) : (lv xs).filterMap id = xs := by
  induction xs with
  | nil => rfl
  | cons x xs ih => simpa [lv] using ih

theorem Good.contents {s : St α Storage} {o : Storage} {xs : List α} (h : Good T s.blk o xs) :
    contents s o = xs := by
  rcases h with ⟨rfl, rfl⟩ | ⟨b, _, hp, hs, hc, _, _, hb⟩
  · rfl
  · simp only [Vector.contents, hp, hb]
    rw [List.take_left' (by simp [lv, hs])]
    exact filterMap_lv xs

theorem Good.siz {blk : Nat → Option (List (Option α))} {o : Storage} {xs : List α} (h : Good T blk o xs) :
    o.siz = xs.length := by
  rcases h with ⟨rfl, rfl⟩ | ⟨b, _, hp, hs, hc, _, _, hb⟩
  · rfl
  · exact hs

theorem Good.releasable {blk : Nat → Option (List (Option α))} {o : Storage} {xs : List α} (h : Good T blk o xs) :
    Releasable blk o := by
  rcases h with ⟨rfl, rfl⟩ | ⟨b, hd, hp, hs, hc, _, _, hb⟩
  · exact .inl rfl
  · exact .inr ⟨b, xs, _, hd, hp, hs, hb⟩

theorem abs_some {s : St α Storage} {i : Id} {o : Storage} {xs : List α} (h : abs s i = some (o, xs)) :
    s.obj i = some o ∧ contents s o = xs := by
  unfold abs at h
  cases ho : s.obj i with
  | none => rw [ho] at h; cases h
  | some o' =>
    rw [ho] at h
    simp only [Option.map_some, Option.some.injEq, Prod.mk.injEq] at h
    obtain ⟨rfl, rfl⟩ := h
    exact ⟨rfl, rfl⟩

theorem abs_of_obj {s : St α Storage} {i : Id} {o : Storage} (h : s.obj i = some o) :
    abs s i = some (o, contents s o) := by simp [abs, h]

theorem WF.get {s : St α Storage} (hw : WF T s) {i : Id} {o : Storage} {xs : List α}
    (h : abs s i = some (o, xs)) : s.obj i = some o ∧ Good T s.blk o xs := by
  obtain ⟨ho, hc⟩ := abs_some h
  obtain ⟨ys, hg⟩ := hw.good i o ho
  have := hg.contents
  rw [hc] at this
  subst this
  exact ⟨ho, hg⟩

/-- pointer held by a (possibly dead) object -/
def ptrOf (o : Option Storage) : Option Nat := o.bind (·.ptr)

/-- General commit: object `i` goes from `o1` (possibly dead) to `o2` (possibly dead) with contents `ys`; the old
block, unless kept, is released; a newly owned block was fresh. -/
theorem commit {s s' : St α Storage} (hw : WF T s) (i : Id) (o2 : Option Storage) (ys : List α)
    (hobj : s'.obj = upd s.obj i o2)
    (hgood : ∀ o, o2 = some o → Good T s'.blk o ys)
    (hframe : ∀ c, ptrOf (s.obj i) ≠ some c → ptrOf o2 ≠ some c → s'.blk c = s.blk c)
    (hnew : ∀ c, ptrOf o2 = some c → (ptrOf (s.obj i) = some c ∨ s.nblk ≤ c) ∧ c < s'.nblk)
    (hold : ∀ c, ptrOf (s.obj i) = some c → ptrOf o2 ≠ some c → s'.blk c = none)
    (hnb : s.nblk ≤ s'.nblk) (hnt : s.ntmp ≤ s'.ntmp) (hi : ∀ k, i = .tmp k → o2 ≠ none → k < s'.ntmp) :
    WF T s' ∧ abs s' = upd (abs s) i (o2.map fun o => (o, ys)) := by
  -- blocks of other objects are untouched
  have hother : ∀ j o c, j ≠ i → s.obj j = some o → o.ptr = some c →
      s'.blk c = s.blk c ∧ ptrOf o2 ≠ some c ∧ ptrOf (s.obj i) ≠ some c := by
    intro j o c hj ho hp
    have h1 : ptrOf (s.obj i) ≠ some c := by
      intro hc
      cases hoi : s.obj i with
      | none => rw [hoi] at hc; cases hc
      | some oi =>
        rw [hoi] at hc
        exact hj (hw.inj j i o oi c ho hoi hp hc)
    have hlt : s.blk c ≠ none := by
      obtain ⟨xs, hg⟩ := hw.good j o ho
      rcases hg with ⟨rfl, _⟩ | ⟨b, _, hp', _, _, _, _, hb⟩
      · cases hp
      · rw [hp] at hp'; cases hp'; rw [hb]; simp
    have h2 : ptrOf o2 ≠ some c := by
      intro hc
      rcases (hnew c hc).1 with h | h
      · exact h1 h
      · exact hlt (hw.freshB c h)
    exact ⟨hframe c h1 h2, h2, h1⟩
  have hobj' : ∀ j, j ≠ i → s'.obj j = s.obj j := fun j hj => by rw [hobj, upd_ne _ _ hj]
  have hobji : s'.obj i = o2 := by rw [hobj, upd_same]
  refine ⟨⟨?_, ?_, ?_, ?_, ?_⟩, ?_⟩
  · intro j o ho
    by_cases hj : j = i
    · subst hj; rw [hobji] at ho; exact ⟨ys, hgood o ho⟩
    · rw [hobj' j hj] at ho
      obtain ⟨xs, hg⟩ := hw.good j o ho
      refine ⟨xs, ?_⟩
      rcases hg with h | ⟨b, hd, hp, hs, hc, h10, hm, hb⟩
      · exact .inl h
      · exact .inr ⟨b, hd, hp, hs, hc, h10, hm, by rw [(hother j o b hj ho hp).1, hb]⟩
  · intro j k o o' b hj hk hpj hpk
    by_cases h1 : j = i <;> by_cases h2 : k = i
    · rw [h1, h2]
    · subst h1
      rw [hobji] at hj; rw [hobj' k h2] at hk
      exact absurd (by rw [hj]; exact hpj) (hother k o' b h2 hk hpk).2.1
    · subst h2
      rw [hobji] at hk; rw [hobj' j h1] at hj
      exact absurd (by rw [hk]; exact hpk) (hother j o b h1 hj hpj).2.1
    · rw [hobj' j h1] at hj; rw [hobj' k h2] at hk
      exact hw.inj j k o o' b hj hk hpj hpk
  · intro b l hb
    by_cases h2 : ptrOf o2 = some b
    · cases ho2 : o2 with
      | none => rw [ho2] at h2; cases h2
      | some o => rw [ho2] at h2; exact ⟨i, o, by rw [hobji, ho2], h2⟩
    · by_cases h1 : ptrOf (s.obj i) = some b
      · rw [hold b h1 h2] at hb; cases hb
      · rw [hframe b h1 h2] at hb
        obtain ⟨j, o, ho, hp⟩ := hw.owned b l hb
        have hj : j ≠ i := by
          intro hj; subst hj; apply h1; rw [ho]; exact hp
        exact ⟨j, o, by rw [hobj' j hj, ho], hp⟩
  · intro b hb
    by_cases h2 : ptrOf o2 = some b
    · have := (hnew b h2).2; omega
    · by_cases h1 : ptrOf (s.obj i) = some b
      · exact hold b h1 h2
      · rw [hframe b h1 h2]; exact hw.freshB b (by omega)
  · intro k hk
    by_cases h : Id.tmp k = i
    · rw [h, hobji]
      cases ho2 : o2 with
      | none => rfl
      | some o => have := hi k h.symm (by rw [ho2]; simp); omega
    · rw [hobj' _ h]; exact hw.freshT k (by omega)
  · funext j
    by_cases hj : j = i
    · subst hj
      rw [upd_same]
      unfold abs
      rw [hobji]
      cases ho2 : o2 with
      | none => rfl
      | some o => simp [(hgood o ho2).contents]
    · rw [upd_ne _ _ hj]
      unfold abs
      rw [hobj' j hj]
      cases ho : s.obj j with
      | none => rfl
      | some o =>
        simp only [Option.map_some, Option.some.injEq, Prod.mk.injEq, true_and]
        unfold contents
        cases hp : o.ptr with
        | none => rfl
        | some c => simp only [(hother j o c hj ho hp).1]

/-- `s'` shows exactly what `s` shows: same objects, same memory.  Only the failure oracle's position, the ghost
counter and the supply of fresh names may have advanced. -/
structure Same (s s' : St α Storage) : Prop where
  blk : s'.blk = s.blk
  obj : s'.obj = s.obj
  nblk : s.nblk ≤ s'.nblk
  ntmp : s.ntmp ≤ s'.ntmp
  orc : s'.orc = s.orc
  tick : s.tick ≤ s'.tick
  moves : s.moves ≤ s'.moves

theorem Same.refl (s : St α Storage) : Same s s := ⟨rfl, rfl, Nat.le_refl _, Nat.le_refl _, rfl, Nat.le_refl _, Nat.le_refl _⟩

theorem Same.trans {s s' s'' : St α Storage} (h : Same s s') (h' : Same s' s'') : Same s s'' :=
  ⟨h'.blk.trans h.blk, h'.obj.trans h.obj, Nat.le_trans h.nblk h'.nblk, Nat.le_trans h.ntmp h'.ntmp,
    h'.orc.trans h.orc, Nat.le_trans h.tick h'.tick, Nat.le_trans h.moves h'.moves⟩

theorem Same.wf {s s' : St α Storage} (h : Same s s') (hw : WF T s) : WF T s' := by
  refine ⟨?_, ?_, ?_, ?_, ?_⟩
  · rw [h.blk, h.obj]; exact hw.good
  · rw [h.obj]; exact hw.inj
  · rw [h.blk, h.obj]; exact hw.owned
  · intro b hb; rw [h.blk]; exact hw.freshB b (Nat.le_trans h.nblk hb)
  · intro b hb; rw [h.obj]; exact hw.freshT b (Nat.le_trans h.ntmp hb)

theorem Same.abs {s s' : St α Storage} (h : Same s s') : abs s' = abs s := by
  funext i
  unfold Vector.abs contents
  rw [h.blk, h.obj]

/-- some fallible step between `s` and `s'` failed -/
def Failed (s s' : St α Storage) : Prop := ∃ k, s.tick ≤ k ∧ k < s'.tick ∧ s.orc k = true

/-- bookkeeping that every successful call respects -/
structure Adv (s s' : St α Storage) : Prop where
  nblk : s.nblk ≤ s'.nblk
  ntmp : s.ntmp ≤ s'.ntmp
  orc : s'.orc = s.orc
  tick : s.tick ≤ s'.tick

theorem Adv.refl (s : St α Storage) : Adv s s := ⟨Nat.le_refl _, Nat.le_refl _, rfl, Nat.le_refl _⟩
theorem Adv.trans {s s' s'' : St α Storage} (h : Adv s s') (h' : Adv s' s'') : Adv s s'' :=
  ⟨Nat.le_trans h.nblk h'.nblk, Nat.le_trans h.ntmp h'.ntmp, h'.orc.trans h.orc, Nat.le_trans h.tick h'.tick⟩
theorem Same.adv {s s' : St α Storage} (h : Same s s') : Adv s s' := ⟨h.nblk, h.ntmp, h.orc, h.tick⟩
theorem Failed.mono {s s' t t' : St α Storage} (h : Failed s s') (h1 : t.tick ≤ s.tick) (ho : t.orc = s.orc)
    (h2 : s'.tick ≤ t'.tick) : Failed t t' := by
  obtain ⟨k, a, b, c⟩ := h
  exact ⟨k, by omega, by omega, by rw [ho]; exact c⟩

end Ptl.Vector

import Verif.Vector.Fill
import Verif.Vector.Members

/-! # Specification lemmas: constructors, destructor, copy, move, swap, input ranges -/

namespace Ptl.Vector

variable {α : Type} {T : Elem α}

/-- the memory of a well-formed state is determined by what is observable -/
theorem blk_ext {s s' : St α Storage} (hw : WF T s) (hw' : WF T s') (h : abs s' = abs s) : s'.blk = s.blk := by
  have key : ∀ {a b : St α Storage}, WF T a → WF T b → abs b = abs a → ∀ c l, a.blk c = some l → b.blk c = some l := by
    intro a b ha hb he c l hl
    obtain ⟨i, o, ho, hp⟩ := ha.owned c l hl
    have h1 : abs a i = some (o, contents a o) := abs_of_obj ho
    obtain ⟨_, hg⟩ := ha.get h1
    obtain ⟨_, hg'⟩ := hb.get (by rw [he]; exact h1)
    have e1 := (hg.own hp).2.2.2.2.2
    have e2 := (hg'.own hp).2.2.2.2.2
    rw [e2, ← e1, hl]
  funext c
  cases h1 : s.blk c with
  | some l => exact key hw hw' h c l h1
  | none =>
    cases h2 : s'.blk c with
    | none => rfl
    | some l =>
      have := key hw' hw h.symm c l h2
      rw [h1] at this; cases this

theorem obj_ext {s s' : St α Storage} (h : abs s' = abs s) : s'.obj = s.obj := by
  funext i
  have := congrArg (Option.map Prod.fst) (congrFun h i)
  simpa [abs, Function.comp_def] using this

theorem Same.of_abs {s s' : St α Storage} (hw : WF T s) (hw' : WF T s') (h : Vector.abs s' = Vector.abs s) (ha : Adv s s')
    (hm : s.moves ≤ s'.moves) : Same s s' :=
  ⟨blk_ext hw hw' h, obj_ext h, ha.nblk, ha.ntmp, ha.orc, ha.tick, hm⟩

theorem WF.tmp_lt {s : St α Storage} (hw : WF T s) {k : Nat} {o : Storage} (h : s.obj (.tmp k) = some o) : k < s.ntmp := by
  rcases Nat.lt_or_ge k s.ntmp with h' | h'
  · exact h'
  · rw [hw.freshT k h'] at h; cases h

/-- releasing the storage of `i`, which ends up empty or dead -/
theorem release_commit {s : St α Storage} (hw : WF T s) {i : Id} {o : Storage} (hi : s.obj i = some o)
    {o2 : Option Storage} (h2 : ∀ o', o2 = some o' → o' = {}) :
    WF T { s with blk := freed o s.blk, obj := upd s.obj i o2 } ∧
    abs { s with blk := freed o s.blk, obj := upd s.obj i o2 } = upd (abs s) i (o2.map fun o' => (o', [])) := by
  have hp2 : ∀ c, ptrOf o2 ≠ some c := by
    intro c h
    cases o2 with
    | none => cases h
    | some o' => rw [h2 o' rfl] at h; cases h
  apply commit (s' := { s with blk := freed o s.blk, obj := upd s.obj i o2 }) hw i o2 [] rfl
  · intro o' ho'; exact .inl ⟨h2 o' ho', rfl⟩
  · intro c h1 _
    have h1' : o.ptr ≠ some c := by simpa [ptrOf, hi] using h1
    show freed o s.blk c = _
    unfold freed
    cases hp : o.ptr with
    | none => rfl
    | some d => simp only; rw [upd_ne]; rintro rfl; exact h1' hp
  · intro c h; exact absurd h (hp2 c)
  · intro c h _
    have h1' : o.ptr = some c := by simpa [ptrOf, hi] using h
    show freed o s.blk c = none
    simp [freed, h1']
  · exact Nat.le_refl _
  · exact Nat.le_refl _
  · rintro k rfl _; exact hw.tmp_lt hi

theorem dtor_spec {s : St α Storage} (hw : WF T s) {i : Id} {o : Storage} {xs : List α}
    (habs : abs s i = some (o, xs)) :
    ∃ s', dtor i s = .ok () s' ∧ WF T s' ∧ Adv s s' ∧ s'.moves = s.moves ∧ s'.tick = s.tick ∧ s'.nblk = s.nblk ∧
      s'.ntmp = s.ntmp ∧ abs s' = upd (abs s) i none := by
  obtain ⟨hi, hg⟩ := hw.get habs
  have h := dtor_ok hi hg.releasable
  have hc := release_commit hw hi (o2 := none) (by simp)
  exact ⟨_, h, hc.1, ⟨Nat.le_refl _, Nat.le_refl _, rfl, Nat.le_refl _⟩, rfl, rfl, rfl, rfl, hc.2⟩

/-- exchanging the storage of two objects -/
theorem swap_commit {s : St α Storage} (hw : WF T s) {i j : Id} {oi oj : Storage} (hi : s.obj i = some oi)
    (hj : s.obj j = some oj) :
    WF T { s with obj := upd (upd s.obj i (some oj)) j (some oi) } ∧
    abs { s with obj := upd (upd s.obj i (some oj)) j (some oi) } = upd (upd (abs s) i (abs s j)) j (abs s i) := by
  by_cases hij : i = j
  · subst hij
    rw [hi] at hj; cases hj
    rw [upd_upd, upd_upd, upd_eq _ _ _ hi, upd_self]
    exact ⟨hw, rfl⟩
  -- the object table seen through the transposition of `i` and `j`
  let σ : Id → Id := fun k => if k = i then j else if k = j then i else k
  have hσ : ∀ k, (upd (upd s.obj i (some oj)) j (some oi)) k = s.obj (σ k) := by
    intro k
    by_cases h1 : k = j
    · subst h1; simp [σ, Ne.symm hij, hi]
    · by_cases h2 : k = i
      · subst h2; rw [upd_ne _ _ h1]; simp [σ, hj]
      · rw [upd_ne _ _ h1, upd_ne _ _ h2]; simp [σ, h1, h2]
  have hσσ : ∀ k, σ (σ k) = k := by
    intro k
    by_cases h1 : k = j
    · subst h1; simp [σ, Ne.symm hij]
    · by_cases h2 : k = i
      · subst h2; simp [σ, Ne.symm hij]
      · simp [σ, h1, h2]
  have hinj : ∀ a b, σ a = σ b → a = b := fun a b h => by rw [← hσσ a, h, hσσ]
  refine ⟨⟨?_, ?_, ?_, hw.freshB, ?_⟩, ?_⟩
  · intro k o h; simp only [hσ] at h; exact hw.good _ _ h
  · intro k l o o' b h1 h2 h3 h4
    simp only [hσ] at h1 h2
    exact hinj _ _ (hw.inj _ _ _ _ _ h1 h2 h3 h4)
  · intro b l hb
    obtain ⟨k, o, ho, hp⟩ := hw.owned b l hb
    exact ⟨σ k, o, by simp only [hσ, hσσ]; exact ho, hp⟩
  · intro k hk
    have h1 : Id.tmp k ≠ i := by rintro rfl; rw [hw.freshT k hk] at hi; cases hi
    have h2 : Id.tmp k ≠ j := by rintro rfl; rw [hw.freshT k hk] at hj; cases hj
    show upd (upd s.obj i (some oj)) j (some oi) (.tmp k) = none
    rw [upd_ne _ _ h2, upd_ne _ _ h1]; exact hw.freshT k hk
  · funext k
    show Option.map _ (upd (upd s.obj i (some oj)) j (some oi) k) = _
    by_cases h1 : k = j
    · subst h1; simp [abs, hi]; rfl
    · by_cases h2 : k = i
      · subst h2; rw [upd_ne _ _ h1, upd_ne _ _ h1]; simp [abs, hj]; rfl
      · rw [upd_ne _ _ h1, upd_ne _ _ h1, upd_ne _ _ h2, upd_ne _ _ h2]; rfl

theorem swap_spec {s : St α Storage} (hw : WF T s) {i j : Id} {p q : Storage × List α}
    (hi : abs s i = some p) (hj : abs s j = some q) :
    ∃ s', swap i j s = .ok () s' ∧ WF T s' ∧ Adv s s' ∧ s'.moves = s.moves ∧ s'.tick = s.tick ∧ s'.nblk = s.nblk ∧
      abs s' = upd (upd (abs s) i (some q)) j (some p) := by
  obtain ⟨oi, xi⟩ := p; obtain ⟨oj, xj⟩ := q
  have h1 := (hw.get hi).1
  have h2 := (hw.get hj).1
  have hc := swap_commit hw h1 h2
  refine ⟨_, ?_, hc.1, ⟨Nat.le_refl _, Nat.le_refl _, rfl, Nat.le_refl _⟩, rfl, rfl, rfl, by rw [hc.2, hi, hj]⟩
  unfold swap
  mstep (getObj_ok h1)
  mstep (getObj_ok h2)
  mstep (setObj_ok h1)
  by_cases hij : i = j
  · subst hij; exact setObj_ok (o := oj) (by simp)
  · exact setObj_ok (o := oj) (by simp [upd_ne _ _ (Ne.symm hij), h2])

theorem moveAssign_spec {s : St α Storage} (hw : WF T s) {i j : Id} {p q : Storage × List α} (hij : i ≠ j)
    (hi : abs s i = some p) (hj : abs s j = some q) :
    ∃ s', assignMove i j s = .ok () s' ∧ WF T s' ∧ Adv s s' ∧ s'.moves = s.moves ∧ s'.tick = s.tick ∧
      s'.nblk = s.nblk ∧ abs s' = upd (upd (abs s) i (some q)) j (some ({}, [])) := by
  obtain ⟨oi, xi⟩ := p; obtain ⟨oj, xj⟩ := q
  obtain ⟨h1, hg1⟩ := hw.get hi
  have h2 := (hw.get hj).1
  have hr := release_commit hw h1 (o2 := some {}) (by intro o' h; cases h; rfl)
  have hj' : (abs { s with blk := freed oi s.blk, obj := upd s.obj i (some {}) }) j = some (oj, xj) := by
    rw [hr.2, upd_ne _ _ (Ne.symm hij), hj]
  have hc := swap_commit (i := i) (j := j) (oi := {}) (oj := oj) hr.1 (by simp) (by simp [upd_ne _ _ (Ne.symm hij), h2])
  have hobj : upd (upd (upd s.obj i (some {})) i (some oj)) j (some {}) = upd (upd s.obj i (some oj)) j (some {}) := by
    rw [upd_upd]
  refine ⟨_, moveAssign_ok hij h1 h2 hg1.releasable, ?_, ⟨Nat.le_refl _, Nat.le_refl _, rfl, Nat.le_refl _⟩,
    rfl, rfl, rfl, ?_⟩
  · simp only [hobj] at hc; exact hc.1
  · have := hc.2
    simp only [hobj] at this
    rw [this, hj', hr.2, upd_upd, upd_same]
    rfl

/-- bringing an empty vector to life -/
theorem new_commit {s : St α Storage} (hw : WF T s) {i : Id} (hi : s.obj i = none) {n : Nat} (hn : s.ntmp ≤ n)
    (hk : ∀ k, i = .tmp k → k < n) :
    WF T { s with obj := upd s.obj i (some {}), ntmp := n } ∧
    abs { s with obj := upd s.obj i (some {}), ntmp := n } = upd (abs s) i (some ({}, [])) := by
  apply commit (s' := { s with obj := upd s.obj i (some {}), ntmp := n }) hw i (some {}) [] rfl
  · intro o' ho'; cases ho'; exact .inl ⟨rfl, rfl⟩
  · intro c _ _; rfl
  · intro c h; cases h
  · intro c h; rw [hi] at h; cases h
  · exact Nat.le_refl _
  · exact hn
  · intro k h _; exact hk k h

theorem ctorDefault_spec {s : St α Storage} (hw : WF T s) {n : Nat} (hi : s.obj (.var n) = none) :
    ∃ s', ctorDefault (.var n) s = .ok () s' ∧ WF T s' ∧ Adv s s' ∧ s'.moves = s.moves ∧ s'.tick = s.tick ∧
      s'.nblk = s.nblk ∧ abs s' = upd (abs s) (.var n) (some ({}, [])) := by
  have hc := new_commit hw hi (Nat.le_refl _) (by intro k h; cases h)
  exact ⟨_, newObj_ok hi, hc.1, ⟨Nat.le_refl _, Nat.le_refl _, rfl, Nat.le_refl _⟩, rfl, rfl, rfl, hc.2⟩

theorem ctorMove_spec {s : St α Storage} (hw : WF T s) {n : Nat} {j : Id} {q : Storage × List α}
    (hi : s.obj (.var n) = none) (hj : abs s j = some q) :
    ∃ s', ctorMove (.var n) j s = .ok () s' ∧ WF T s' ∧ Adv s s' ∧ s'.moves = s.moves ∧ s'.tick = s.tick ∧
      s'.nblk = s.nblk ∧ abs s' = upd (upd (abs s) (.var n) (some q)) j (some ({}, [])) := by
  obtain ⟨oj, xj⟩ := q
  have h2 := (hw.get hj).1
  have hij : Id.var n ≠ j := by rintro rfl; rw [hi] at h2; cases h2
  have hr := new_commit hw hi (Nat.le_refl _) (by intro k h; cases h)
  have hj' : (abs { s with obj := upd s.obj (.var n) (some {}) }) j = some (oj, xj) := by
    rw [hr.2, upd_ne _ _ (Ne.symm hij), hj]
  have hc := swap_commit (i := .var n) (j := j) (oi := {}) (oj := oj) hr.1 (by simp)
    (by simp [upd_ne _ _ (Ne.symm hij), h2])
  simp only [upd_upd] at hc
  refine ⟨{ s with obj := upd (upd s.obj (.var n) (some oj)) j (some {}) }, ?_, hc.1,
    ⟨Nat.le_refl _, Nat.le_refl _, rfl, Nat.le_refl _⟩, rfl, rfl, rfl, ?_⟩
  · unfold ctorMove Storage.ctorMove
    mstep (getObj_ok h2)
    mstep (newObj_ok hi)
    exact setObj_ok (o := oj) (by simp [upd_ne _ _ (Ne.symm hij), h2])
  · rw [hc.2, hj', hr.2, upd_upd, upd_same]

/-- `Thrown` only looks at the oracle, its position and the ghost counter -/
theorem Thrown.transport {s s1 s' s1' : St α Storage} {len alc : Prop} {e : Exc} (h : Thrown s1 len alc e s1')
    (ho : s.orc = s1.orc) (ht : s.tick ≤ s1.tick) (ht' : s1'.tick ≤ s'.tick)
    (hm : s'.moves = s1'.moves) (hm' : s1.moves = s.moves) : Thrown s len alc e s' := by
  refine ⟨by rw [hm, h.1, hm'], ?_⟩
  rcases h.2 with h | ⟨h1, h2, h3⟩ | ⟨h1, h3⟩
  · exact .inl h
  · exact .inr (.inl ⟨h1, h2, h3.mono ht ho ht'⟩)
  · exact .inr (.inr ⟨h1, h3.mono ht ho ht'⟩)

/-- A constructor whose body, run on an empty vector, gives the strong guarantee: on an exception no vector is left
behind. -/
theorem construct_spec {s : St α Storage} (hw : WF T s) {n : Nat} (hi : s.obj (.var n) = none) {body : VM α Unit}
    {Q : Unit → St α Storage → Prop} {len alc : Prop}
    (h : ∀ s1, WF T s1 → abs s1 = upd (abs s) (.var n) (some ({}, [])) → s1.orc = s.orc → s1.tick = s.tick →
      s1.moves = s.moves → s1 = { s with obj := upd s.obj (.var n) (some {}) } → s1.blk = s.blk → Adv s s1 → Res T s1 (body s1) Q (Thrown s1 len alc)) :
    Res T s (construct (.var n) body s) Q (Thrown s len alc) := by
  have hc := new_commit hw hi (Nat.le_refl _) (by intro k h; cases h)
  have ha : Adv s { s with obj := upd s.obj (.var n) (some {}) } := ⟨Nat.le_refl _, Nat.le_refl _, rfl, Nat.le_refl _⟩
  have hb := h _ hc.1 hc.2 rfl rfl rfl rfl rfl ha
  refine Res.bind_ok (newObj_ok hi) ?_
  cases hr : body { s with obj := upd s.obj (.var n) (some {}) } with
  | ok a s' =>
    rw [hr] at hb
    rw [M.onExc_ok hr]
    exact ⟨hb.1, ha.trans hb.2.1, hb.2.2⟩
  | exc e s' =>
    rw [hr] at hb
    have hw' := hb.1.wf hc.1
    obtain ⟨s'', hd, hw'', ha'', hm, ht, _, _, habs⟩ := dtor_spec (i := .var n) (o := {}) (xs := []) hw'
      (by rw [hb.1.abs, hc.2, upd_same])
    refine Res.of_eq (M.onExc_exc hr hd) ?_
    refine ⟨Same.of_abs hw hw'' ?_ ((ha.trans hb.1.adv).trans ha'') (by rw [hm]; exact hb.1.moves), ?_⟩
    · rw [habs, hb.1.abs, hc.2, upd_upd, upd_eq]
      simp [abs, hi]
    · exact hb.2.transport rfl (Nat.le_refl _) (by omega) hm rfl
  | ub f => rw [hr] at hb; exact hb.elim
  | term => rw [hr] at hb; exact hb.elim

end Ptl.Vector

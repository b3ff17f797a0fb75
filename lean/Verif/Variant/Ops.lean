import Verif.Variant.Lemmas

/-! # Assignment, emplace, swap and access -/

set_option linter.unusedSectionVars false

namespace Ptl.Variant

variable {τ ν β : Type} [DecidableEq τ] {E : Elem τ ν} {ts : List τ} {T T' : τ} {s s' : St ν} {i j : Id} {k k' t t' : Nat}
  {x y v : ν} {a : Arg τ ν} {ob ob' : Id → Option (Obj ν)}

/-- the object that holds `x` as alternative number `k` -/
abbrev full (k : Nat) (x : ν) : Option (Obj ν) := some ⟨some (k, x), k⟩

theorem assignMove_ok (hE : E.Plain) (ha : Alts ts) (hp : ∀ i, s.part i = []) (hne : i ≠ j) (hk : ts[k]? = some T)
    (hk' : ts[k']? = some T') (hi : s.obj i = full k x) (hj : s.obj j = full k' y) :
    Done s (assignMove E ts i j s) () (upd (upd s.obj j (full k' (E.moved T' y))) i (full k' y)) := by
  unfold assignMove
  apply Done.noexcept
  rw [if_pos hne]
  rw [M.bind_ok (getObj_ok hi), M.bind_ok (destroyImpl_ok hk hi (hp i)),
    M.bind_ok (getObj_ok (o := ⟨some (k', y), k'⟩) (by simp only; rw [upd_ne _ _ hne.symm]; exact hj))]
  have h1 := assignMoveImpl_ok hE (E := E) (s := { s with obj := upd s.obj i (some ⟨none, k⟩) }) (i := i) (j := j) (t := k')
    (t' := k) (x := y) hk' (by simp only; rw [upd_ne _ _ hne.symm]; exact hj) (by simp)
  obtain ⟨s1, e1, n1⟩ := h1.elim
  rw [M.bind_ok e1, M.bind_ok (getObj_ok (o := ⟨some (k', E.moved T' y), k'⟩) (by
    rw [n1.obj, upd_ne _ _ hne.symm]; simp))]
  refine Done.intro (setType_ok (o := ⟨some (k', E.braced T' y), k⟩) (by rw [n1.obj]; simp) (Nat.lt_trans (ha.lt hk') (by decide)))
    ⟨?_, n1.part, n1.orc, n1.tick, n1.ntmp⟩
  simp only
  rw [n1.obj, upd_upd, hE.braced]
  simp only
  rw [upd_comm _ _ _ hne, upd_upd]

theorem assignMove_self : assignMove E ts i i s = .ok () s := by
  unfold assignMove
  apply M.noexcept_ok
  simp

theorem assignCopy_self : assignCopy E ts i i s = .ok () s := by
  unfold assignCopy
  simp

theorem assignCopy_ok (hE : E.Plain) (ha : Alts ts) (hp : ∀ i, s.part i = []) (ht : ∀ n, s.obj (.tmp n) = none)
    (hne : i ≠ j) (hk : ts[k]? = some T) (hk' : ts[k']? = some T') (hi : s.obj i = full k x) (hj : s.obj j = full k' y) :
    Done s (assignCopy E ts i j s) () (upd s.obj i (full k' y)) ∨ Failed s (assignCopy E ts i j s) := by
  unfold assignCopy
  rw [if_pos hne]
  have hti : i ≠ .tmp s.ntmp := by intro e; rw [e, ht] at hi; cases hi
  have htj : j ≠ .tmp s.ntmp := by intro e; rw [e, ht] at hj; cases hj
  rcases (ctorCopy_ok (E := E) (s := { s with ntmp := s.ntmp + 1 }) hE hk' (ht s.ntmp) hj) with hd | hf
  · left
    have hc : ∀ n s1, Next s s.obj s1 → n = s.ntmp → True := fun _ _ _ _ => trivial
    have h0 : Next s s.obj { s with ntmp := s.ntmp + 1 } := ⟨rfl, rfl, rfl, Nat.le_refl _, Nat.le_succ _⟩
    obtain ⟨s1, e1, n1⟩ := hd.elim
    have n01 := h0.trans n1
    have o1i : s1.obj i = full k x := by rw [n1.obj]; simp only; rw [upd_ne _ _ hti]; exact hi
    have o1j : s1.obj j = full k' y := by rw [n1.obj]; simp only; rw [upd_ne _ _ htj]; exact hj
    have o1t : s1.obj (.tmp s.ntmp) = full k' y := by rw [n1.obj]; simp
    have p1 : ∀ i, s1.part i = [] := fun i => by rw [n01.part]; exact hp i
    have h2 := assignMoveImpl_ok hE (E := E) (s := { s1 with obj := upd s1.obj i (some ⟨none, k⟩) }) (i := i)
      (j := .tmp s.ntmp) (t := k') (t' := k) (x := y) hk' (by simp only; rw [upd_ne _ _ hti.symm]; exact o1t) (by simp)
    obtain ⟨s2, e2, n2⟩ := h2.elim
    have o2j : s2.obj j = if i = j then some ⟨some (k', E.braced T' y), k⟩ else full k' y := by
      rw [n2.obj, if_neg hne, upd_ne _ _ hne.symm, upd_ne _ _ htj]; simp only; rw [upd_ne _ _ hne.symm]; exact o1j
    rw [if_neg hne] at o2j
    have o2i : s2.obj i = some ⟨some (k', E.braced T' y), k⟩ := by rw [n2.obj]; simp
    have hb : (do
        let o ← getObj i
        destroyImpl ts o.type i
        let t ← getObj (.tmp s.ntmp)
        assignMoveImpl E ts t.type i (.tmp s.ntmp)
        let o ← getObj j
        setType i o.type : VM ν Unit) s1 = .ok () { s2 with obj := upd s2.obj i (full k' y) } := by
      rw [M.bind_ok (getObj_ok o1i), M.bind_ok (destroyImpl_ok hk o1i (p1 i)),
        M.bind_ok (getObj_ok (o := ⟨some (k', y), k'⟩) (by simp only; rw [upd_ne _ _ hti.symm]; exact o1t)),
        M.bind_ok e2, M.bind_ok (getObj_ok o2j), setType_ok o2i (Nat.lt_trans (ha.lt hk') (by decide)), hE.braced]
    have o2t : upd s2.obj i (full k' y) (.tmp s.ntmp) = full k' (E.moved T' y) := by
      rw [upd_ne _ _ hti.symm, n2.obj, upd_ne _ _ hti.symm]; simp
    refine Done.intro (s' := { s2 with obj := upd (upd s2.obj i (full k' y)) (.tmp s.ntmp) none }) ?_ ⟨?_, ?_, ?_, ?_, ?_⟩
    · unfold withTmp
      simp only
      rw [M.bind_ok e1]
      refine M.withDtor_ok hb (dtor_ok (k := k') (T := T') hk' o2t ?_)
      show s2.part _ = []
      rw [n2.part]; exact p1 _
    · simp only
      funext q
      by_cases hq : q = .tmp s.ntmp
      · subst hq; rw [upd_same, upd_ne _ _ hti.symm, ht]
      · rw [upd_ne _ _ hq]
        by_cases hqi : q = i
        · subst hqi; rw [upd_same, upd_same]
        · rw [upd_ne _ _ hqi, upd_ne _ _ hqi, n2.obj, upd_ne _ _ hqi, upd_ne _ _ hq]
          simp only
          rw [upd_ne _ _ hqi, n1.obj]
          simp only
          rw [upd_ne _ _ hq]
    · exact n2.part.trans n01.part
    · exact n2.orc.trans n01.orc
    · exact Nat.le_trans n01.tick n2.tick
    · exact Nat.le_trans n01.ntmp n2.ntmp
  · right
    have h0 : Next s s.obj { s with ntmp := s.ntmp + 1 } := ⟨rfl, rfl, rfl, Nat.le_refl _, Nat.le_succ _⟩
    obtain ⟨s1, e1, n1, m, h1, h2, h3⟩ := (h0.fail hf).elim
    refine Failed.intro (m := m) ?_ n1 h1 h2 h3
    unfold withTmp
    simp only
    rw [M.bind_exc e1]

/-- the objects an argument refers to are not temporaries -/
theorem Gives.tmp (h : a.Gives ob v ob') (hn : ob i = none) : ob' i = none := by
  cases h with
  | val => exact hn
  | thr => exact hn
  | ref hx =>
    rw [upd_ne]
    · exact hn
    · intro e; rw [← e, hn] at hx; cases hx

/-- a variant that was alive still holds the same alternative after its value was used by a constructor -/
theorem Gives.full (h : a.Gives ob v ob') (hi : ob i = full k x) : ∃ x', ob' i = full k x' := by
  cases h with
  | val => exact ⟨x, hi⟩
  | thr => exact ⟨x, hi⟩
  | @ref p f g nt _ z t hx =>
    by_cases e : i = p.obj
    · subst e; rw [hi] at hx; cases hx; exact ⟨g x, by rw [upd_same]⟩
    · exact ⟨x, by rw [upd_ne _ _ e]; exact hi⟩

/-- `variant tmp{…}; *this = std::move(tmp);` -/
theorem tmpAssign_ok (hE : E.Plain) (ha : Alts ts) (hp : ∀ i, s.part i = []) (ht : ∀ n, s.obj (.tmp n) = none)
    (hk : ts[k]? = some T) (hT : T' ∈ ts) (hi : s.obj i = full k x) (hg : a.Gives s.obj v ob) :
    Done s (withTmp ts (fun t => ctorValue ts t T' a) (fun tmp => assignMove E ts i tmp) s) ()
        (upd ob i (full (idx ts T') v)) ∨
      (Failed s (withTmp ts (fun t => ctorValue ts t T' a) (fun tmp => assignMove E ts i tmp) s) ∧
        a.canThrow = true) := by
  have hk' := ha.at_ hT
  have hti : i ≠ .tmp s.ntmp := by intro e; rw [e, ht] at hi; cases hi
  rcases ctorIndex_ok (s := { s with ntmp := s.ntmp + 1 }) hk' (ht s.ntmp) hg with hd | ⟨hf, hc⟩
  · left
    have h0 : Next s s.obj { s with ntmp := s.ntmp + 1 } := ⟨rfl, rfl, rfl, Nat.le_refl _, Nat.le_succ _⟩
    obtain ⟨s1, e1, n1⟩ := hd.elim
    have n01 := h0.trans n1
    obtain ⟨x', hx'⟩ := Gives.full hg hi
    have p1 : ∀ i, s1.part i = [] := fun i => by rw [n01.part]; exact hp i
    have hb := assignMove_ok (s := s1) (i := i) (j := .tmp s.ntmp) (x := x') (y := v) hE ha p1 hti hk hk'
      (by rw [n1.obj, upd_ne _ _ hti]; exact hx') (by rw [n1.obj]; simp)
    obtain ⟨s2, e2, n2⟩ := hb.elim
    refine Done.intro (s' := { s2 with obj := upd s2.obj (.tmp s.ntmp) none }) ?_ ⟨?_, ?_, ?_, ?_, ?_⟩
    · unfold withTmp
      simp only
      rw [M.bind_ok (show ctorValue ts (.tmp s.ntmp) T' a _ = _ from e1)]
      refine M.withDtor_ok e2 (dtor_ok hk' (x := E.moved T' v) (by rw [n2.obj, upd_ne _ _ hti.symm, upd_same])
        (by rw [n2.part]; exact p1 _))
    · simp only
      rw [n2.obj, n1.obj, upd_upd, upd_comm _ _ _ hti, upd_upd, upd_eq ob _ _ (Gives.tmp hg (ht _))]
    · exact n2.part.trans n01.part
    · exact n2.orc.trans n01.orc
    · exact Nat.le_trans n01.tick n2.tick
    · exact Nat.le_trans n01.ntmp n2.ntmp
  · right
    have h0 : Next s s.obj { s with ntmp := s.ntmp + 1 } := ⟨rfl, rfl, rfl, Nat.le_refl _, Nat.le_succ _⟩
    obtain ⟨s1, e1, n1, m, h1, h2, h3⟩ := (h0.fail hf).elim
    refine ⟨Failed.intro (m := m) ?_ n1 h1 h2 h3, hc⟩
    unfold withTmp
    simp only
    rw [M.bind_exc (show ctorValue ts (.tmp s.ntmp) T' a _ = _ from e1)]

/-! ### access -/

theorem holds_ok (ha : Alts ts) (hk : ts[k]? = some T) (hi : s.obj i = full k x) (hT : T' ∈ ts) :
    holds ts i T' s = .ok (decide (T' = T)) s := by
  unfold holds
  rw [M.bind_ok (getObj_ok hi)]
  have hm : T ∈ ts := List.mem_of_getElem? hk
  have e : k = idx ts T := (idx_get ha hk).symm
  show Out.ok (k == idx ts T') s = _
  congr 1
  rw [e]
  by_cases h : T' = T
  · subst h; simp
  · rw [decide_eq_false h, beq_false_of_ne]
    intro q; exact h (idx_inj ha hT hm q.symm)

theorem getIf_held (ha : Alts ts) (hk : ts[k]? = some T) (hi : s.obj i = full k x) :
    getIf ts i T s = .ok (some ⟨i, k, T⟩) s := by
  have hm : T ∈ ts := List.mem_of_getElem? hk
  unfold getIf
  rw [M.bind_ok (holds_ok ha hk hi hm)]
  simp only [decide_true, Bool.not_true, Bool.false_eq_true, if_false]
  rw [idx_get ha hk, Storage.get_at hk, Nat.zero_add]
  rfl

theorem getIf_other (ha : Alts ts) (hk : ts[k]? = some T) (hi : s.obj i = full k x) (hT : T' ∈ ts) (hne : T' ≠ T) :
    getIf ts i T' s = .ok none s := by
  unfold getIf
  rw [M.bind_ok (holds_ok ha hk hi hT), decide_eq_false hne]
  rfl

theorem get_held (ha : Alts ts) (hk : ts[k]? = some T) (hi : s.obj i = full k x) :
    get ts i T s = .ok ⟨i, k, T⟩ s := by
  unfold get
  rw [M.bind_ok (getIf_held ha hk hi)]
  rfl

theorem get_other (ha : Alts ts) (hk : ts[k]? = some T) (hi : s.obj i = full k x) (hT : T' ∈ ts) (hne : T' ≠ T) :
    get ts i T' s = .exc .badVariantAccess s := by
  unfold get
  rw [M.bind_ok (getIf_other ha hk hi hT hne)]
  rfl

theorem visit_ok {conv : τ → τ → β → β} {vis : Ptr τ → VM ν β} {H : τ} {rest : List τ} (hts : ts = H :: rest)
    (hk : ts[k]? = some T) (hi : s.obj i = full k x) :
    visit ts conv i vis s = (do let r ← vis ⟨i, k, T⟩; pure (conv T H r) : VM ν β) s := by
  unfold visit
  rw [M.bind_ok (getObj_ok hi)]
  unfold visitImpl
  rw [dispatch_at hk, Storage.get_at hk, Nat.zero_add]
  subst hts
  rfl

/-! ### emplace -/

/-- the argument of a construction that is taken not to throw does not refer to object `i` -/
def Arg.Clear : Arg τ ν → Id → Prop
  | .val _, _ => True
  | .thr _ trait, _ => trait = false
  | .ref p _ _ nt, i => nt = true → p.obj ≠ i

theorem Arg.Clear.swap_upd (h : a.Clear i) (hnt : a.nothrow = true) (hg : a.Gives ob v ob') (w : Option (Obj ν)) :
    a.Gives (upd ob i w) v (upd ob' i w) := by
  cases hg with
  | val => exact .val _ _
  | thr => exact .thr _ _ _
  | @ref p f g nt _ x t hx =>
    have hne : p.obj ≠ i := h hnt
    rw [upd_comm _ _ _ hne]
    exact .ref (by rw [upd_ne _ _ hne]; exact hx)

theorem emplace_ok (hE : E.Plain) (ha : Alts ts) (hp : ∀ i, s.part i = []) (ht : ∀ n, s.obj (.tmp n) = none)
    (hk : ts[k]? = some T) (hT : T' ∈ ts) (hi : s.obj i = full k x) (hg : a.Gives s.obj v ob) (hc : a.Clear i) :
    Done s (emplace E ts i T' a s) ⟨i, idx ts T', T'⟩ (upd ob i (full (idx ts T') v)) ∨
      (Failed s (emplace E ts i T' a s) ∧ a.nothrow = false) := by
  have hk' := ha.at_ hT
  have hmain : Done s ((if a.nothrow then do
        let o ← getObj i
        destroyImpl ts o.type i
        emplaceImpl ts (idx ts T') i a
        setType i (idx ts T')
      else withTmp ts (fun t => ctorValue ts t T' a) fun tmp => assignMove E ts i tmp : VM ν Unit) s) ()
        (upd ob i (full (idx ts T') v)) ∨
      (Failed s ((if a.nothrow then do
        let o ← getObj i
        destroyImpl ts o.type i
        emplaceImpl ts (idx ts T') i a
        setType i (idx ts T')
      else withTmp ts (fun t => ctorValue ts t T' a) fun tmp => assignMove E ts i tmp : VM ν Unit) s) ∧
        a.nothrow = false) := by
    cases hnt : a.nothrow with
    | false =>
      simp only [Bool.false_eq_true, if_false]
      rcases tmpAssign_ok hE ha hp ht hk hT hi hg with h | ⟨h, _⟩
      · exact .inl h
      · exact .inr ⟨h, trivial⟩
    | true =>
      left
      simp only [if_true]
      rw [M.bind_ok (getObj_ok hi), M.bind_ok (destroyImpl_ok hk hi (hp i))]
      have hg' := hc.swap_upd hnt hg (some ⟨none, k⟩)
      have hnc : a.canThrow = false := by
        cases a with
        | val => rfl
        | thr v tr =>
          have h1 : tr = false := hc
          have h2 : tr = true := hnt
          rw [h1] at h2; cases h2
        | ref p f g nt =>
          have h2 : nt = true := hnt
          subst h2; rfl
      rcases set_gives (s := { s with obj := upd s.obj i (some ⟨none, k⟩) }) (i := i) (t := k) hk' hg' (by simp) with
        hd | ⟨_, h⟩
      · obtain ⟨s1, e1, n1⟩ := hd.elim
        have e1' : emplaceImpl ts (idx ts T') i a { s with obj := upd s.obj i (some ⟨none, k⟩) } = .ok () s1 := by
          unfold emplaceImpl
          rw [dispatch_at hk']
          exact e1
        rw [M.bind_ok e1', setType_ok (o := ⟨some (idx ts T', v), k⟩) (by rw [n1.obj]; simp)
          (Nat.lt_trans (ha.idx_lt hT) (by decide))]
        refine Done.intro rfl ⟨?_, n1.part, n1.orc, n1.tick, n1.ntmp⟩
        simp only
        rw [n1.obj, upd_upd, upd_upd]
      · rw [hnc] at h; cases h
  unfold emplace
  rcases hmain with hd | ⟨hf, hnt⟩
  · left
    obtain ⟨s1, e1, n1⟩ := hd.elim
    rw [M.bind_ok e1]
    exact Done.intro (get_held ha hk' (x := v) (by rw [n1.obj, upd_same])) n1
  · right
    obtain ⟨s1, e1, n1, m, h1, h2, h3⟩ := hf.elim
    exact ⟨Failed.intro (by rw [M.bind_exc e1]) n1 h1 h2 h3, hnt⟩

/-! ### swap -/

theorem swap_self : swap E ts i i s = .ok () s := by
  unfold swap
  apply M.noexcept_ok
  simp

theorem swap_ok (hE : E.Plain) (ha : Alts ts) (hp : ∀ i, s.part i = []) (ht : ∀ n, s.obj (.tmp n) = none)
    (hne : i ≠ j) (hk : ts[k]? = some T) (hk' : ts[k']? = some T') (hi : s.obj i = full k x) (hj : s.obj j = full k' y) :
    Done s (swap E ts i j s) () (upd (upd s.obj i (full k' y)) j (full k x)) := by
  unfold swap
  apply Done.noexcept
  rw [if_neg hne, M.bind_ok (getObj_ok hi), M.bind_ok (getObj_ok hj)]
  simp only
  by_cases hkk : k = k'
  · subst hkk
    rw [if_pos rfl]
    unfold swapImpl
    apply Done.noexcept
    rw [dispatch_at hk, Storage.get_at hk, Storage.get_at hk, Nat.zero_add]
    show Done s ((do
      let x ← readAt (⟨i, k, T⟩ : Ptr τ)
      let y ← readAt (⟨j, k, T⟩ : Ptr τ)
      writeAt (⟨i, k, T⟩ : Ptr τ) y
      writeAt (⟨j, k, T⟩ : Ptr τ) x : VM ν Unit) s) _ _
    rw [M.bind_ok (readAt_ok (p := ⟨i, k, T⟩) hi), M.bind_ok (readAt_ok (p := ⟨j, k, T⟩) hj),
      M.bind_ok (writeAt_ok (p := ⟨i, k, T⟩) hi),
      writeAt_ok (p := ⟨j, k, T⟩) (x := y) (t := k) (by simp only; rw [upd_ne _ _ hne.symm]; exact hj)]
    exact Done.of_eq rfl
  · rw [if_neg hkk]
    have hti : i ≠ .tmp s.ntmp := by intro e; rw [e, ht] at hi; cases hi
    have htj : j ≠ .tmp s.ntmp := by intro e; rw [e, ht] at hj; cases hj
    have h0 : Next s s.obj { s with ntmp := s.ntmp + 1 } := ⟨rfl, rfl, rfl, Nat.le_refl _, Nat.le_succ _⟩
    obtain ⟨s1, e1, n1⟩ := (ctorMove_ok (s := { s with ntmp := s.ntmp + 1 }) hE hk (ht s.ntmp) hi).elim
    have n01 := h0.trans n1
    have p1 : ∀ i, s1.part i = [] := fun i => by rw [n01.part]; exact hp i
    obtain ⟨s2, e2, n2⟩ := (assignMove_ok (s := s1) (i := i) (j := j) (x := E.moved T x) (y := y) hE ha p1 hne hk hk'
      (by rw [n1.obj, upd_ne _ _ hti]; simp) (by rw [n1.obj, upd_ne _ _ htj, upd_ne _ _ hne.symm]; exact hj)).elim
    have p2 : ∀ i, s2.part i = [] := fun i => by rw [n2.part]; exact p1 i
    obtain ⟨s3, e3, n3⟩ := (assignMove_ok (s := s2) (i := j) (j := .tmp s.ntmp) (x := E.moved T' y) (y := x) hE ha p2 htj
      hk' hk (by rw [n2.obj, upd_ne _ _ hne.symm, upd_same])
      (by rw [n2.obj, upd_ne _ _ hti.symm, upd_ne _ _ htj.symm, n1.obj, upd_same])).elim
    have n03 := (n01.trans n2).trans n3
    refine Done.intro (s' := { s3 with obj := upd s3.obj (.tmp s.ntmp) none }) ?_
      ⟨?_, n03.part, n03.orc, n03.tick, n03.ntmp⟩
    · unfold withTmp
      simp only
      rw [M.bind_ok e1]
      refine M.withDtor_ok (s' := s3) (by rw [M.bind_ok e2]; exact e3) (dtor_ok hk (x := E.moved T x)
        (by rw [n3.obj, upd_ne _ _ htj.symm, upd_same]) (by rw [n3.part]; exact p2 _))
    · simp only
      funext q
      by_cases hq : q = .tmp s.ntmp
      · subst hq; rw [upd_same, upd_ne _ _ htj.symm, upd_ne _ _ hti.symm, ht]
      · rw [upd_ne _ _ hq, n3.obj]
        by_cases hqj : q = j
        · subst hqj; rw [upd_same, upd_same]
        · rw [upd_ne _ _ hqj, upd_ne _ _ hq, upd_ne _ _ hqj, n2.obj]
          by_cases hqi : q = i
          · subst hqi; rw [upd_same, upd_same]
          · rw [upd_ne _ _ hqi, upd_ne _ _ hqj, upd_ne _ _ hqi, n1.obj, upd_ne _ _ hq, upd_ne _ _ hqi]

end Ptl.Variant

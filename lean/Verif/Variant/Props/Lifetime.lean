import Verif.Variant.Props.Limits

/-!
# C114: a variant that keeps its alternative does not keep the object

`std::variant` assigns the value if both sides hold the same alternative.  `ptl::variant` destroys the value and makes a new one, so
references to it, and to what is stored in it, are dead.  That is visible in the model through the variants that are part of the
value (`St.part`).
-/

set_option linter.unusedSectionVars false

namespace Ptl.Variant

variable {τ ν : Type} [DecidableEq τ] {E : Elem τ ν} {ts : List τ} {T T' : τ} {s s' : St ν} {i j : Id} {k k' : Nat} {x y v : ν}

/-- C114, full statement (for variants): if variant `i` holds a `T`, and is assigned another `T`, the objects that are part of the
value it holds do not go away -/
def KeepsObject : Prop :=
  ∀ (s s' : St Nat) (i j : Id) (T : Ty) (x v : Nat), T ∈ demoTs → s.obj i = full (idx demoTs T) x → s.part i = [j] →
    (∀ n, s.obj (.tmp n) = none) → (s.obj j).isSome = true →
    assignValue demoE demoTs i T (.val v) s = .ok () s' → (s'.obj j).isSome = true

/-- variable 0 is a node (a `str` here), of which variable 1, an `int`, is a part -/
def nodeSt : St Nat :=
  ⟨fun q => if q = .var 0 then full 1 5 else if q = .var 1 then full 0 7 else none,
    fun q => if q = .var 0 then [.var 1] else [], 0, fun _ => false, 0⟩

/-- C114 is false for variants -/
theorem C114_variant_refuted : ¬ KeepsObject := by
  intro h
  have := h nodeSt _ (.var 0) (.var 1) .str 5 6 (by decide) rfl rfl (fun _ => rfl) rfl rfl
  exact absurd this (by decide)

/-- the objects after the value of `i` and what is part of it have been destroyed -/
def without (s : St ν) (i : Id) (k : Nat) : Id → Option (Obj ν) :=
  fun q => if q ∈ s.part i then none else upd s.obj i (some ⟨none, k⟩) q

theorem destroyImpl_parts (hk : ts[k]? = some T) (h : s.obj i = full k x) :
    destroyImpl ts k i s = .ok () { s with obj := without s i k } := by
  unfold destroyImpl
  rw [dispatch_at hk, Storage.destroy_at hk, Nat.zero_add]
  apply M.noexcept_ok
  unfold destroyAt
  rw [h]
  simp
  rfl

/-- C114: move assignment – in every state and for all alternatives – destroys what is part of the value -/
theorem C114_variant_assignMove (hE : E.Plain) (ha : Alts ts) (hne : i ≠ j) (hk : ts[k]? = some T) (hk' : ts[k']? = some T')
    (hi : s.obj i = full k x) (hj : s.obj j = full k' y) (hpi : i ∉ s.part i) (hpj : j ∉ s.part i) :
    ∃ s', assignMove E ts i j s = .ok () s' ∧ s'.obj i = full k' y ∧ s'.obj j = full k' (E.moved T' y) ∧ s'.part = s.part ∧
      ∀ q ∈ s.part i, s'.obj q = none := by
  have h1 := assignMoveImpl_ok hE (E := E)
    (s := { s with obj := without s i k }) (i := i) (j := j) (t := k')
    (t' := k) (x := y) hk' (by simp only [without, hpj, if_false]; rw [upd_ne _ _ hne.symm]; exact hj) (by simp [without, hpi])
  obtain ⟨s1, e1, n1⟩ := h1.elim
  refine ⟨{ s1 with obj := upd s1.obj i (some ⟨some (k', E.braced T' y), k'⟩) }, ?_, ?_, ?_, n1.part, ?_⟩
  · unfold assignMove
    apply M.noexcept_ok
    rw [if_pos hne]
    rw [M.bind_ok (getObj_ok hi), M.bind_ok (destroyImpl_parts hk hi),
      M.bind_ok (getObj_ok (o := ⟨some (k', y), k'⟩) (by simp only [without, hpj, if_false]; rw [upd_ne _ _ hne.symm]; exact hj)),
      M.bind_ok e1, M.bind_ok (getObj_ok (o := ⟨some (k', E.moved T' y), k'⟩) (by
        rw [n1.obj, upd_ne _ _ hne.symm]; simp))]
    exact setType_ok (o := ⟨some (k', E.braced T' y), k⟩) (by rw [n1.obj]; simp) (Nat.lt_trans (ha.lt hk') (by decide))
  · simp [hE.braced, full]
  · simp only
    rw [upd_ne _ _ hne.symm, n1.obj, upd_ne _ _ hne.symm]
    simp [full]
  · intro q hq
    have h1 : q ≠ i := fun e => hpi (e ▸ hq)
    have h2 : q ≠ j := fun e => hpj (e ▸ hq)
    simp only
    rw [upd_ne _ _ h1, n1.obj, upd_ne _ _ h1, upd_ne _ _ h2]
    simp [without, hq]

/-- C114: so does the assignment of a value, also of the alternative that the variant holds (`T' = T`) -/
theorem C114_variant_assignValue (hE : E.Plain) (ha : Alts ts) (hk : ts[k]? = some T) (hT : T' ∈ ts) (hi : s.obj i = full k x)
    (ht : ∀ n, s.obj (.tmp n) = none) (hpi : i ∉ s.part i) (hpt : Id.tmp s.ntmp ∉ s.part i) (hp : s.part (.tmp s.ntmp) = []) :
    ∃ s', assignValue E ts i T' (.val v) s = .ok () s' ∧ s'.obj i = full (idx ts T') v ∧ ∀ q ∈ s.part i, s'.obj q = none := by
  have hti : i ≠ .tmp s.ntmp := by intro e; rw [e, ht] at hi; cases hi
  have hk' := ha.at_ hT
  rcases ctorIndex_ok (s := { s with ntmp := s.ntmp + 1 }) (a := .val v) hk' (ht s.ntmp) (.val v _) with hd | ⟨_, hc⟩
  · obtain ⟨s1, e1, n1⟩ := hd.elim
    have p1 : s1.part = s.part := n1.part
    obtain ⟨s2, e2, oi, oj, p2, hq⟩ := C114_variant_assignMove (E := E) (s := s1) (i := i) (j := .tmp s.ntmp) (x := x) (y := v)
      hE ha hti hk hk' (by rw [n1.obj, upd_ne _ _ hti]; exact hi) (by rw [n1.obj]; simp [full]) (by rw [p1]; exact hpi)
      (by rw [p1]; exact hpt)
    refine ⟨{ s2 with obj := upd s2.obj (.tmp s.ntmp) none }, ?_, ?_, ?_⟩
    · unfold assignValue withTmp
      simp only
      rw [M.bind_ok (show ctorValue ts (.tmp s.ntmp) T' (.val v) _ = _ from e1)]
      exact M.withDtor_ok e2 (dtor_ok hk' oj (by rw [p2, p1]; exact hp))
    · simp only; rw [upd_ne _ _ hti]; exact oi
    · intro q h
      rw [p1] at hq
      by_cases e : q = .tmp s.ntmp
      · rw [e]; simp
      · simp only; rw [upd_ne _ _ e]; exact hq q h
  · cases hc

/-- C114: and `emplace` -/
theorem C114_variant_emplace (ha : Alts ts) (hk : ts[k]? = some T) (hT : T' ∈ ts) (hi : s.obj i = full k x)
    (hpi : i ∉ s.part i) :
    ∃ s' p, emplace E ts i T' (.val v) s = .ok p s' ∧ s'.obj i = full (idx ts T') v ∧ ∀ q ∈ s.part i, s'.obj q = none := by
  have hk' := ha.at_ hT
  have e1 : emplaceImpl ts (idx ts T') i (.val v) { s with obj := without s i k } = .ok ()
      { s with obj := upd (without s i k) i (some ⟨some (idx ts T', v), k⟩) } := by
    unfold emplaceImpl
    rw [dispatch_at hk', Storage.set_at hk', Nat.zero_add]
    show placeAt _ _ _ = _
    unfold placeAt
    simp [without, hpi]
  refine ⟨{ s with obj := upd (upd (without s i k) i (some ⟨some (idx ts T', v), k⟩)) i (full (idx ts T') v) },
    ⟨i, idx ts T', T'⟩, ?_, by simp, ?_⟩
  · have h1 : (do
        let o ← getObj i
        destroyImpl ts o.type i
        emplaceImpl ts (idx ts T') i (.val v)
        setType i (idx ts T') : VM ν Unit) s =
        .ok () { s with obj := upd (upd (without s i k) i (some ⟨some (idx ts T', v), k⟩)) i (full (idx ts T') v) } := by
      rw [M.bind_ok (getObj_ok hi), M.bind_ok (destroyImpl_parts hk hi), M.bind_ok e1,
        setType_ok (o := ⟨some (idx ts T', v), k⟩) (by simp) (Nat.lt_trans (ha.idx_lt hT) (by decide))]
    exact (M.bind_ok h1).trans (get_held ha hk' (x := v) (by simp))
  · intro q hq
    have h1 : q ≠ i := fun e => hpi (e ▸ hq)
    simp only
    rw [upd_ne _ _ h1, upd_ne _ _ h1]
    simp [without, hq]

/-- C114 (part): `swap` of two variants that hold the same alternative exchanges the values; no object goes away, nor do its parts.
Missing: assignment and `emplace`, see `C114_variant_refuted`. -/
theorem C114_variant_partial (hk : ts[k]? = some T) (hi : s.obj i = full k x) (hj : s.obj j = full k y) :
    (∃ s', swap E ts i j s = .ok () s' ∧ s'.obj i = full k y ∧ s'.obj j = full k x ∧
      ∀ q, q ≠ i → q ≠ j → s'.obj q = s.obj q) ∨ i = j ∧ swap E ts i j s = .ok () s := by
  by_cases hne : i = j
  · subst hne; exact .inr ⟨rfl, swap_self⟩
  · left
    refine ⟨{ s with obj := upd (upd s.obj i (full k y)) j (full k x) }, ?_, ?_, by simp, ?_⟩
    · unfold swap
      apply M.noexcept_ok
      rw [if_neg hne, M.bind_ok (getObj_ok hi), M.bind_ok (getObj_ok hj)]
      simp only
      rw [if_pos True.intro]
      unfold swapImpl
      apply M.noexcept_ok
      rw [dispatch_at hk, Storage.get_at hk, Storage.get_at hk, Nat.zero_add]
      show (do
        let x ← readAt (⟨i, k, T⟩ : Ptr τ)
        let y ← readAt (⟨j, k, T⟩ : Ptr τ)
        writeAt (⟨i, k, T⟩ : Ptr τ) y
        writeAt (⟨j, k, T⟩ : Ptr τ) x : VM ν Unit) s = _
      rw [M.bind_ok (readAt_ok (p := ⟨i, k, T⟩) hi), M.bind_ok (readAt_ok (p := ⟨j, k, T⟩) hj),
        M.bind_ok (writeAt_ok (p := ⟨i, k, T⟩) hi),
        writeAt_ok (p := ⟨j, k, T⟩) (x := y) (t := k) (by simp only; rw [upd_ne _ _ (Ne.symm hne)]; exact hj)]
    · simp only; rw [upd_ne _ _ hne]; simp
    · intro q h1 h2
      simp only
      rw [upd_ne _ _ h2, upd_ne _ _ h1]

/-- the node is swapped with another `str`; its part is still there, while `v0 = str{6}` destroys it -/
example :
    let s : St Nat := { nodeSt with obj := upd nodeSt.obj (.var 2) (full 1 8) }
    (∃ s', swap demoE demoTs (.var 0) (.var 2) s = .ok () s' ∧ s'.obj (.var 0) = full 1 8 ∧ s'.obj (.var 1) = full 0 7) ∧
    ∃ s', assignValue demoE demoTs (.var 0) .str (.val 6) s = .ok () s' ∧ s'.obj (.var 0) = full 1 6 ∧ s'.obj (.var 1) = none :=
  ⟨⟨_, rfl, rfl, rfl⟩, ⟨_, rfl, rfl, rfl⟩⟩

end Ptl.Variant

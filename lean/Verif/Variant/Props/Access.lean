import Verif.Variant.Props.History

/-! # C42, C43, C45: access, comparison and the numbering of alternatives -/

set_option linter.unusedSectionVars false

namespace Ptl.Variant

variable {τ ν β : Type} [DecidableEq τ] {E : Elem τ ν} {ts : List τ} {T T' : τ} {s s' : St ν} {i j : Nat}
  {x y v : ν} {V V' : Vars τ ν} {op : Op τ ν}

/-! ## C42 -/

/-- C42: of the alternatives exactly one is held -/
theorem C42_holds_one (hE : E.Plain) (ha : Alts ts) (h : Reach E ts s V) (hi : V i ≠ none) :
    ∃ T ∈ ts, holds ts (.var i) T s = .ok true s ∧ ∀ T' ∈ ts, T' ≠ T → holds ts (.var i) T' s = .ok false s := by
  cases hv : V i with
  | none => exact (hi hv).elim
  | some p =>
    obtain ⟨T, x⟩ := p
    obtain ⟨hT, hsh⟩ := (C39_contents hE ha h i).1 T x hv
    exact ⟨T, hT, by simpa using hsh.holds T hT, fun T' hT' hne => by simpa [hne] using hsh.holds T' hT'⟩

/-- C42: `get_if<T>()` returns a pointer, to the held value, if and only if `holds<T>()` -/
theorem C42_get_if (hE : E.Plain) (ha : Alts ts) (h : Reach E ts s V) (hi : V i = some (T, x)) (hT' : T' ∈ ts) :
    (holds ts (.var i) T' s = .ok true s ∧ ∃ p, getIf ts (.var i) T' s = .ok (some p) s ∧ readAt p s = .ok x s ∧ p.ty = T') ∨
    (holds ts (.var i) T' s = .ok false s ∧ getIf ts (.var i) T' s = .ok none s) := by
  obtain ⟨hT, ho⟩ := (h.inv hE ha).live i T x hi
  have hh := holds_ok ha (ha.at_ hT) ho hT'
  by_cases e : T' = T
  · subst e
    exact .inl ⟨by simpa using hh, _, getIf_held ha (ha.at_ hT) ho, readAt_ok (p := ⟨.var i, idx ts T', T'⟩) ho, rfl⟩
  · exact .inr ⟨by simpa [e] using hh, getIf_other ha (ha.at_ hT) ho hT' e⟩

/-- C42: `get<T>()` refers to the object `get_if<T>()` points to, or throws `bad_variant_access`; nothing changes -/
theorem C42_get (hE : E.Plain) (ha : Alts ts) (h : Reach E ts s V) (hi : V i = some (T, x)) (hT' : T' ∈ ts) :
    (∃ p, T' = T ∧ getIf ts (.var i) T' s = .ok (some p) s ∧ get ts (.var i) T' s = .ok p s ∧ readAt p s = .ok x s) ∨
    (T' ≠ T ∧ getIf ts (.var i) T' s = .ok none s ∧ get ts (.var i) T' s = .exc .badVariantAccess s) := by
  obtain ⟨hT, ho⟩ := (h.inv hE ha).live i T x hi
  by_cases e : T' = T
  · subst e
    exact .inl ⟨_, rfl, getIf_held ha (ha.at_ hT) ho, get_held ha (ha.at_ hT) ho,
      readAt_ok (p := ⟨.var i, idx ts T', T'⟩) ho⟩
  · exact .inr ⟨e, getIf_other ha (ha.at_ hT) ho hT' e, get_other ha (ha.at_ hT) ho hT' e⟩

/-- C42: `visit` is one call of the visitor with the object that `get<T>()` refers to, `T` being the type held – whatever
the visitor does, including modifying the variant's value and throwing.  (`conv` is a conversion of the visitor's result,
see C67.) -/
theorem C42_visit (hE : E.Plain) (ha : Alts ts) (h : Reach E ts s V) (hi : V i = some (T, x))
    (conv : τ → τ → β → β) (vis : Ptr τ → VM ν β) :
    ∃ p H, get ts (.var i) T s = .ok p s ∧ p.ty = T ∧ ts.head? = some H ∧
      visit ts conv (.var i) vis s =
        match vis p s with
        | .ok r s' => .ok (conv T H r) s'
        | .exc e s' => .exc e s'
        | .ub f => .ub f
        | .term => .term := by
  obtain ⟨hT, ho⟩ := (h.inv hE ha).live i T x hi
  cases hts : ts with
  | nil => rw [hts] at hT; cases hT
  | cons H rest =>
    rw [← hts]
    refine ⟨_, H, get_held ha (ha.at_ hT) ho, rfl, by rw [hts]; rfl, ?_⟩
    rw [visit_ok hts (ha.at_ hT) ho]
    show M.bind _ _ _ = _
    unfold M.bind
    cases vis ⟨.var i, idx ts T, T⟩ s <;> rfl

-- the `int` 7 in variable 0
example : ∃ s, Reach demoE demoTs s demoV ∧ demoV 0 = some (.int, 7) ∧ Ty.str ∈ demoTs ∧
    get demoTs (.var 0) .str s = .exc .badVariantAccess s := by
  obtain ⟨s, h, _⟩ := demo
  refine ⟨s, h, rfl, by decide, ?_⟩
  rcases C42_get demoE_plain demo_alts h (i := 0) rfl (show Ty.str ∈ demoTs by decide) with ⟨_, e, _⟩ | ⟨_, _, e⟩
  · cases e
  · exact e
example : ∃ s s', Reach demoE demoTs s demoV ∧
    visit (β := Nat) demoTs (fun _ _ r => r) (.var 0) (fun p => do let v ← readAt p; writeAt p (v + 1); pure (2 * v)) s =
      .ok 14 s' := by
  obtain ⟨s, h, _⟩ := demo
  obtain ⟨p, H, e, _, _, ev⟩ := C42_visit demoE_plain demo_alts h (i := 0) rfl (fun _ _ r => r)
    (fun p => do let v ← readAt p; writeAt p (v + 1); pure (2 * v))
  obtain ⟨_, ho⟩ := (h.inv demoE_plain demo_alts).live 0 .int 7 rfl
  rw [get_held demo_alts (demo_alts.at_ (by decide)) ho] at e
  cases e
  have hr : readAt (⟨.var 0, idx demoTs .int, .int⟩ : Ptr Ty) s = .ok 7 s := readAt_ok ho
  have hw := writeAt_ok (p := (⟨.var 0, idx demoTs .int, .int⟩ : Ptr Ty)) (v := 8) ho
  refine ⟨s, { s with obj := upd s.obj (.var 0) (full (idx demoTs .int) 8) }, h, ?_⟩
  rw [ev]
  have h2 : (do let v ← readAt (⟨.var 0, idx demoTs Ty.int, Ty.int⟩ : Ptr Ty); writeAt (⟨.var 0, idx demoTs Ty.int, Ty.int⟩ : Ptr Ty) (v + 1); pure (2 * v) :
      VM Nat Nat) s = .ok 14 { s with obj := upd s.obj (.var 0) (full (idx demoTs .int) 8) } := by
    rw [M.bind_ok hr, M.bind_ok hw]
    rfl
  rw [h2]

/-! ## C43 -/

/-- what comparing two variants should mean: values of the same alternative compare by value, other values by the
position of their alternative in the list -/
def cmpSpec (E : Elem τ ν) (ts : List τ) (c : Cmp) (a b : τ × ν) : Bool :=
  if a.1 = b.1 then E.cmp c a.1 a.2 b.2 else natCmp c (ts.idxOf a.1) (ts.idxOf b.1)

theorem Inv.compare (ha : Alts ts) (h : Inv ts s V) {a b : τ × ν} (hi : V i = some a) (hj : V j = some b)
    (c : Cmp) : Variant.compare E ts c (.var i) (.var j) s = .ok (cmpSpec E ts c a b) s := by
  obtain ⟨T, x⟩ := a
  obtain ⟨T', y⟩ := b
  obtain ⟨hT, ho⟩ := h.live i T x hi
  obtain ⟨hT', ho'⟩ := h.live j T' y hj
  unfold Variant.compare
  apply M.noexcept_ok
  rw [M.bind_ok (getObj_ok ho), M.bind_ok (getObj_ok ho')]
  simp only
  by_cases e : T = T'
  · subst e
    have hc : ∀ c, compareImpl E ts c (idx ts T) (.var i) (.var j) s = .ok (E.cmp c T x y) s := by
      intro c
      unfold compareImpl
      apply M.noexcept_ok
      rw [dispatch_at (ha.at_ hT), Storage.get_at (ha.at_ hT), Storage.get_at (ha.at_ hT)]
      have h1 : readAt (⟨.var i, 0 + idx ts T, T⟩ : Ptr τ) s = .ok x s := readAt_ok (by rw [Nat.zero_add]; exact ho)
      have h2 : readAt (⟨.var j, 0 + idx ts T, T⟩ : Ptr τ) s = .ok y s := readAt_ok (by rw [Nat.zero_add]; exact ho')
      show ((readAt (⟨.var i, 0 + idx ts T, T⟩ : Ptr τ)) >>= fun x => readAt (⟨.var j, 0 + idx ts T, T⟩ : Ptr τ) >>= fun y =>
        pure (E.cmp c T x y)) s = _
      rw [M.bind_ok h1, M.bind_ok h2]
      rfl
    cases c <;> simp [cmpSpec, hc]
  · have hne : idx ts T ≠ idx ts T' := fun h => e (idx_inj ha hT hT' h)
    have e1 := idx_eq ha hT
    have e2 := idx_eq ha hT'
    simp only [cmpSpec, if_neg e, ← e1, ← e2]
    cases c
    all_goals simp only [natCmp]
    · by_cases hl : idx ts T < idx ts T'
      · rw [if_pos hl, decide_eq_true hl]; rfl
      · rw [if_neg hl, if_pos (show idx ts T > idx ts T' by omega), decide_eq_false hl]; rfl
    · by_cases hl : idx ts T < idx ts T'
      · rw [if_pos hl, decide_eq_true (by omega)]; rfl
      · rw [if_neg hl, if_pos (show idx ts T > idx ts T' by omega), decide_eq_false (by omega)]; rfl
    · by_cases hl : idx ts T > idx ts T'
      · rw [if_pos hl, decide_eq_true (by omega)]; rfl
      · rw [if_neg hl, if_pos (show idx ts T < idx ts T' by omega), decide_eq_false (by omega)]; rfl
    · by_cases hl : idx ts T > idx ts T'
      · rw [if_pos hl, decide_eq_true (by omega)]; rfl
      · rw [if_neg hl, if_pos (show idx ts T < idx ts T' by omega), decide_eq_false (by omega)]; rfl
    · rw [if_pos hne, decide_eq_false hne]; rfl
    · rw [if_pos hne, decide_eq_false hne]; rfl

/-- C43: all six operators compute the specified comparison, and change nothing -/
theorem C43_compare (hE : E.Plain) (ha : Alts ts) (h : Reach E ts s V) {a b : τ × ν} (hi : V i = some a) (hj : V j = some b)
    (c : Cmp) : compare E ts c (.var i) (.var j) s = .ok (cmpSpec E ts c a b) s := (h.inv hE ha).compare ha hi hj c

/-- the things a variant can hold, `val T` being the values of type `T` -/
abbrev Held (ts : List τ) (val : τ → ν → Prop) := { p : τ × ν // p.1 ∈ ts ∧ val p.1 p.2 }

theorem idxOf_ne (hT : T ∈ ts) (hT' : T' ∈ ts) (hne : T ≠ T') : ts.idxOf T ≠ ts.idxOf T' := by
  intro e
  apply hne
  have h1 := List.getElem_idxOf (List.idxOf_lt_length_iff.mpr hT)
  have h2 := List.getElem_idxOf (List.idxOf_lt_length_iff.mpr hT')
  simp only [e] at h1
  rw [← h1, h2]

theorem cmpSpec_weak {val : τ → ν → Prop}
    (hw : ∀ T ∈ ts, WeakOps fun c (a b : { x // val T x }) => E.cmp c T a.1 b.1) :
    WeakOps fun c (a b : Held ts val) => cmpSpec E ts c a.1 b.1 := by
  have hw' : ∀ {T}, T ∈ ts → WeakOps fun c (a b : { x // val T x }) => E.cmp c T a.1 b.1 := fun h => hw _ h
  refine ⟨⟨?_, ?_, ?_⟩, ?_, ?_, ?_, ?_, ?_⟩
  · rintro ⟨⟨T, x⟩, hT, hx⟩
    simpa [cmpSpec] using (hw' hT).strict.irrefl ⟨x, hx⟩
  · rintro ⟨⟨T, x⟩, hT, hx⟩ ⟨⟨T', y⟩, hT', hy⟩ ⟨⟨T'', z⟩, hT'', hz⟩
    dsimp only [cmpSpec] at *
    by_cases e1 : T = T'
    · subst e1
      by_cases e2 : T = T''
      · subst e2
        simpa using (hw' hT).strict.trans ⟨x, hx⟩ ⟨y, hy⟩ ⟨z, hz⟩
      · simp only [e2, if_false]
        exact fun _ h => h
    · by_cases e2 : T' = T''
      · subst e2
        simp only [e1, if_false]
        exact fun h _ => h
      · by_cases e3 : T = T''
        · subst e3
          simp only [e1, e2, if_false, natCmp, decide_eq_true_eq]
          intro h1 h2; omega
        · simp only [e1, e2, e3, if_false, natCmp, decide_eq_true_eq]
          intro h1 h2; omega
  · rintro ⟨⟨T, x⟩, hT, hx⟩ ⟨⟨T', y⟩, hT', hy⟩ ⟨⟨T'', z⟩, hT'', hz⟩
    dsimp only [cmpSpec] at *
    by_cases e1 : T = T'
    · subst e1
      by_cases e2 : T = T''
      · subst e2
        simpa using (hw' hT).strict.incomp ⟨x, hx⟩ ⟨y, hy⟩ ⟨z, hz⟩
      · simp only [e2, Ne.symm e2, if_false]
        exact fun _ _ h1 h2 => ⟨h1, h2⟩
    · by_cases e2 : T' = T''
      · subst e2
        simp only [e1, Ne.symm e1, if_false]
        exact fun h1 h2 _ _ => ⟨h1, h2⟩
      · have : ts.idxOf T ≠ ts.idxOf T' := idxOf_ne hT hT' e1
        simp only [e1, Ne.symm e1, if_false, natCmp, decide_eq_false_iff_not]
        intro h1 h2; omega
  · rintro ⟨⟨T, x⟩, hT, hx⟩ ⟨⟨T', y⟩, hT', hy⟩
    dsimp only [cmpSpec]
    by_cases e : T = T'
    · subst e; simpa using (hw' hT).gt ⟨x, hx⟩ ⟨y, hy⟩
    · simp only [e, Ne.symm e, if_false]; rfl
  · rintro ⟨⟨T, x⟩, hT, hx⟩ ⟨⟨T', y⟩, hT', hy⟩
    dsimp only [cmpSpec]
    by_cases e : T = T'
    · subst e; simpa using (hw' hT).le ⟨x, hx⟩ ⟨y, hy⟩
    · simp only [e, Ne.symm e, if_false]; exact natCmp_total.le _ _
  · rintro ⟨⟨T, x⟩, hT, hx⟩ ⟨⟨T', y⟩, hT', hy⟩
    dsimp only [cmpSpec]
    by_cases e : T = T'
    · subst e; simpa using (hw' hT).ge ⟨x, hx⟩ ⟨y, hy⟩
    · simp only [e, if_false]; exact natCmp_total.ge _ _
  · rintro ⟨⟨T, x⟩, hT, hx⟩ ⟨⟨T', y⟩, hT', hy⟩
    dsimp only [cmpSpec]
    by_cases e : T = T'
    · subst e; simpa using (hw' hT).eq ⟨x, hx⟩ ⟨y, hy⟩
    · simp only [e, Ne.symm e, if_false]; exact natCmp_total.eq _ _
  · rintro ⟨⟨T, x⟩, hT, hx⟩ ⟨⟨T', y⟩, hT', hy⟩
    dsimp only [cmpSpec]
    by_cases e : T = T'
    · subst e; simpa using (hw' hT).ne ⟨x, hx⟩ ⟨y, hy⟩
    · simp only [e, if_false]; exact natCmp_total.ne _ _

theorem cmpSpec_total {val : τ → ν → Prop}
    (hw : ∀ T ∈ ts, TotalOps fun c (a b : { x // val T x }) => E.cmp c T a.1 b.1) :
    TotalOps fun c (a b : Held ts val) => cmpSpec E ts c a.1 b.1 := by
  refine ⟨cmpSpec_weak fun T h => (hw T h).toWeakOps, ?_⟩
  rintro ⟨⟨T, x⟩, hT, hx⟩ ⟨⟨T', y⟩, hT', hy⟩
  dsimp only [cmpSpec] at *
  by_cases e : T = T'
  · subst e; simpa using (hw T hT).same ⟨x, hx⟩ ⟨y, hy⟩
  · have := idxOf_ne hT hT' e
    simp [e, natCmp, this]

/-- the answer of an operator applied to variants `i` and `j` in state `s` -/
def answer (E : Elem τ ν) (ts : List τ) (s : St ν) (c : Cmp) (i j : Nat) : Bool :=
  match compare E ts c (.var i) (.var j) s with
  | .ok b _ => b
  | _ => false

/-- C43: after every history, the operators applied to the live variants are consistent, and a strict weak order, if those of all
alternatives are (for the values held, `val`) -/
theorem C43_weak_order (hE : E.Plain) (ha : Alts ts) (h : Reach E ts s V) {val : τ → ν → Prop}
    (hval : ∀ i T x, V i = some (T, x) → val T x)
    (hw : ∀ T ∈ ts, WeakOps fun c (a b : { x // val T x }) => E.cmp c T a.1 b.1) :
    (∀ c i j, V i ≠ none → V j ≠ none → compare E ts c (.var i) (.var j) s = .ok (answer E ts s c i j) s) ∧
    WeakOps fun c (i j : { i // V i ≠ none }) => answer E ts s c i.1 j.1 := by
  have hv : ∀ i : { i // V i ≠ none }, ∃ p : Held ts val, V i.1 = some p.1 := fun ⟨i, hi⟩ => by
    cases hp : V i with
    | none => exact absurd hp hi
    | some p => exact ⟨⟨p, ((C39_contents hE ha h i).1 p.1 p.2 hp).1, hval i p.1 p.2 hp⟩, rfl⟩
  let f : { i // V i ≠ none } → Held ts val := fun i => (hv i).choose
  have hf : ∀ i, V i.1 = some (f i).1 := fun i => (hv i).choose_spec
  have key : ∀ c (i j : { i // V i ≠ none }), answer E ts s c i.1 j.1 = cmpSpec E ts c (f i).1 (f j).1 := fun c i j => by
    rw [answer, C43_compare hE ha h (hf i) (hf j)]
  constructor
  · intro c i j hi hj
    rw [key c ⟨i, hi⟩ ⟨j, hj⟩, C43_compare hE ha h (hf ⟨i, hi⟩) (hf ⟨j, hj⟩)]
  · have e : (fun c (i j : { i // V i ≠ none }) => answer E ts s c i.1 j.1) = fun c i j => cmpSpec E ts c (f i).1 (f j).1 := by
      funext c i j; exact key c i j
    rw [e]
    exact (cmpSpec_weak hw).comap f

/-- C43: if the operators of all alternatives are consistent with total orders, `==` of two variants is equality of alternative and
value, and so is being `<` neither way -/
theorem C43_total_order (hE : E.Plain) (ha : Alts ts) (h : Reach E ts s V) {val : τ → ν → Prop}
    (hval : ∀ i T x, V i = some (T, x) → val T x)
    (hw : ∀ T ∈ ts, TotalOps fun c (a b : { x // val T x }) => E.cmp c T a.1 b.1) {a b : τ × ν} (hi : V i = some a) (hj : V j = some b) :
    (compare E ts .eq (.var i) (.var j) s = .ok true s ↔ a = b) ∧
    (compare E ts .lt (.var i) (.var j) s = .ok false s ∧ compare E ts .lt (.var j) (.var i) s = .ok false s ↔ a = b) := by
  have ht := cmpSpec_total hw
  have hh : ∀ k p, V k = some p → p.1 ∈ ts ∧ val p.1 p.2 := fun k p hp =>
    ⟨((C39_contents hE ha h k).1 p.1 p.2 hp).1, hval k p.1 p.2 hp⟩
  have hsame := ht.same ⟨a, hh i a hi⟩ ⟨b, hh j b hj⟩
  have heq := ht.eq ⟨a, hh i a hi⟩ ⟨b, hh j b hj⟩
  simp only [Subtype.mk.injEq] at hsame heq
  rw [C43_compare hE ha h hi hj, C43_compare hE ha h hi hj, C43_compare hE ha h hj hi]
  constructor
  · rw [← hsame]; simp
  · rw [← hsame, heq]; simp

theorem demo_total (T : Ty) (_ : T ∈ demoTs) : TotalOps fun c (a b : { _x : Nat // True }) => demoE.cmp c T a.1 b.1 := by
  have h := natCmp_total
  exact ⟨⟨⟨fun a => h.strict.irrefl _, fun a b c => h.strict.trans _ _ _, fun a b c => h.strict.incomp _ _ _⟩,
    fun _ _ => h.gt _ _, fun _ _ => h.le _ _, fun _ _ => h.ge _ _, fun _ _ => h.eq _ _, fun _ _ => h.ne _ _⟩,
    fun a b => (h.same _ _).trans Subtype.ext_iff.symm⟩

-- the hypotheses hold for the demo, where the `int` 7 is less than the `str` 5
example : ∃ s, Reach demoE demoTs s demoV ∧ ¬ compare demoE demoTs .eq (.var 0) (.var 1) s = .ok true s := by
  obtain ⟨s, h, _⟩ := demo
  refine ⟨s, h, fun he => ?_⟩
  have := (C43_total_order demoE_plain demo_alts h (val := fun _ _ => True) (fun _ _ _ _ => trivial) demo_total
    (i := 0) (j := 1) rfl rfl).1.1 he
  cases this
example : ∃ s, Reach demoE demoTs s demoV ∧ compare demoE demoTs .lt (.var 0) (.var 1) s = .ok true s := by
  obtain ⟨s, h, _⟩ := demo
  exact ⟨s, h, by
    have := C43_compare demoE_plain demo_alts h (i := 0) (j := 1) rfl rfl .lt
    exact this⟩

/-! ## C45 -/

/-- C45: the index computed for an alternative is its position in the list -/
theorem C45_position (hl : ts.length ≤ 254) (hn : ts.Nodup) {k : Nat} (hk : ts[k]? = some T) :
    (determineIndex T ts 0).toNat = k := by
  have hne : ts ≠ [] := by rintro rfl; cases hk
  exact idx_get ⟨hne, hl, hn⟩ hk

/-- C45: distinct alternatives get distinct indices -/
theorem C45_distinct (hl : ts.length ≤ 254) (hT : T ∈ ts) (hT' : T' ∈ ts) (hne : T ≠ T') :
    determineIndex T ts 0 ≠ determineIndex T' ts 0 := by
  intro e
  rw [determineIndex_eq, determineIndex_eq, if_pos hT, if_pos hT'] at e
  have h1 := List.idxOf_lt_length_iff.mpr hT
  have h2 := List.idxOf_lt_length_iff.mpr hT'
  have := congrArg BitVec.toNat e
  have h0 : (0 : BitVec 8).toNat = 0 := rfl
  simp only [BitVec.toNat_add, BitVec.toNat_ofNat, h0] at this
  exact idxOf_ne hT hT' hne (by omega)

theorem found_iff (hl : ts.length ≤ 255) : determineIndex T ts 0 = notFound ↔ T ∉ ts := by
  rw [determineIndex_eq]
  by_cases hT : T ∈ ts
  · simp only [hT, if_true, not_true, iff_false]
    intro e
    have h1 := List.idxOf_lt_length_iff.mpr hT
    have := congrArg BitVec.toNat e
    have h0 : (0 : BitVec 8).toNat = 0 := rfl
    have h3 : (notFound).toNat = 255 := rfl
    simp only [BitVec.toNat_add, BitVec.toNat_ofNat, h0, h3] at this
    omega
  · simp [hT]

/-- C45: exactly the types that are not alternatives get the not-found marker (so `can_store` is exact) -/
theorem C45_not_found (hl : ts.length ≤ 254) : determineIndex T ts 0 = notFound ↔ T ∉ ts := found_iff (by omega)

/-- C45: a list of alternatives is accepted if and only if it is not empty, has at most 254 entries and no duplicates -/
theorem C45_accepted : wellFormed ts = true ↔ ts ≠ [] ∧ ts.length ≤ 254 ∧ ts.Nodup := by
  have hv : ∀ ts : List τ, ts.length ≤ 255 → (validateUnique ts = true ↔ ts.Nodup) := by
    intro ts
    induction ts with
    | nil => intro _; simp [validateUnique]
    | cons h tl ih =>
      intro hl
      simp only [List.length_cons] at hl
      have ih := ih (by omega)
      have hf := found_iff (T := h) (ts := tl) (by omega)
      rw [List.nodup_cons]
      simp only [validateUnique, ne_eq, hf]
      cases tl with
      | nil => simp
      | cons h' tl' =>
        simp only [List.length_cons, Nat.add_eq_zero_iff, Nat.one_ne_zero, and_false, if_false]
        by_cases hm : h ∈ h' :: tl'
        · simp [hm]
        · simp only [hm, not_false_iff, not_true, if_false, true_and, ih]
  simp only [wellFormed, Bool.and_eq_true, decide_eq_true_eq]
  constructor
  · rintro ⟨⟨h1, h2⟩, h3⟩
    have : ts.length ≠ 0 := by simpa using h2
    exact ⟨h2, by omega, (hv ts (by omega)).mp h3⟩
  · rintro ⟨h1, h2, h3⟩
    exact ⟨⟨by omega, h1⟩, (hv ts (by omega)).mpr h3⟩

/-- C45: `in_place_index`/`emplace<Index>` name the alternative at that position, so index and type are interchangeable -/
theorem C45_type_of_index (hl : ts.length ≤ 254) (hn : ts.Nodup) (k : Nat) (T : τ) :
    determineType k ts = some T ↔ T ∈ ts ∧ (determineIndex T ts 0).toNat = k := by
  rw [determineType_eq]
  constructor
  · intro h
    exact ⟨List.mem_of_getElem? h, C45_position hl hn h⟩
  · rintro ⟨hT, rfl⟩
    have hne : ts ≠ [] := by rintro rfl; cases hT
    exact Alts.at_ ⟨hne, hl, hn⟩ hT

/-- C45: the limit is not superfluous: with 256 alternatives the last one would have the not-found marker as its index -/
theorem C45_limit_needed : determineIndex 255 (List.range 256) 0 = notFound ∧ 255 ∈ List.range 256 := by
  constructor
  · rw [determineIndex_eq]
    have : List.idxOf 255 (List.range 256) = 255 := by
      have h := (List.nodup_range (n := 256)).idxOf_getElem 255 (by simp)
      simpa using h
    rw [if_pos (by simp), this]
    rfl
  · simp

-- the largest list admitted
example : wellFormed (List.range 254) = true := C45_accepted.mpr ⟨by simp, by simp, List.nodup_range⟩
example : (determineIndex 253 (List.range 254) 0).toNat = 253 :=
  C45_position (by simp) List.nodup_range (by simp)

end Ptl.Variant

import Verif.Variant.Props.Access

/-!
# C63–C67: what a variant does not guarantee

Each `*_refuted` theorem is a concrete program for which the property is false; the `*_partial` theorem says what holds.
-/

set_option linter.unusedSectionVars false

namespace Ptl.Variant

variable {τ ν β : Type} [DecidableEq τ] {E : Elem τ ν} {ts : List τ} {T T' : τ} {s s' : St ν} {i j : Nat}
  {x y v : ν} {V V' : Vars τ ν} {op : Op τ ν}

/-! ## C63: construction uses braces -/

/-- an alternative `lst` with a constructor from `std::initializer_list<lst>` (say, a JSON value, or a list of `std::any`):
`lst{x}` is a list with the one element `x`.  Values are numbers: the depth of nesting. -/
def greedyE : Elem Ty Nat where
  dflt _ := 0
  braced T x := if T = .lst then x + 1 else x
  moveThrows _ := false
  moved _ x := x
  cmp c _ := natCmp c

/-- C63, full statement (for variants): a copy of a variant shows the value of the original, whatever the alternatives -/
def CopiesEqual : Prop :=
  ∀ (E : Elem Ty Nat) (ts : List Ty) (s s1 s2 : St Nat) (T : Ty) (x : Nat), Alts ts → T ∈ ts →
    s = start Nat (fun _ => false) → Op.run E ts (.ctorValue 0 T (.val x)) s = .ok () s1 →
    Op.run E ts (.ctorCopy 1 0) s1 = .ok () s2 → Shows ts s2 1 T x

/-- C63 is false: `variant v{lst}; variant w{v};` makes `w` hold a list that contains a copy of the list -/
theorem C63_copy_refuted : ¬ CopiesEqual := by
  intro h
  have := h greedyE [.lst] (start Nat fun _ => false) _ _ .lst 3 ⟨by decide, by decide, by decide⟩ (by decide) rfl rfl rfl
  obtain ⟨p, hp, hv, _⟩ := this.get
  cases hp
  cases hv

/-- C63 is false for move assignment, too: after `a = std::move(b);`, `a` holds something else than `b` did -/
theorem C63_assign_refuted : ∃ s1 s2 s3 : St Nat,
    Op.run greedyE [.int, .lst] (.ctorValue 0 .lst (.val 3)) (start Nat fun _ => false) = .ok () s1 ∧
    Op.run greedyE [.int, .lst] (.ctorValue 1 .int (.val 7)) s1 = .ok () s2 ∧
    Op.run greedyE [.int, .lst] (.assignMove 1 0) s2 = .ok () s3 ∧
    ∃ p, get [.int, .lst] (.var 1) Ty.lst s3 = .ok p s3 ∧ readAt p s3 = .ok 4 s3 :=
  ⟨_, _, _, rfl, rfl, rfl, _, rfl, rfl⟩

/-- C63 is false for `emplace`: it asks whether `T(args...)` can throw but runs `T{args...}`.  If the latter throws after
all, the old value is already destroyed: the variant holds nothing (neither the old value nor a new one), and its
destruction destroys an object that does not exist. -/
theorem C63_emplace_refuted : ∃ s1 s2 : St Nat,
    Op.run demoE demoTs (.ctorValue 0 .int (.val 7)) (start Nat fun _ => true) = .ok () s1 ∧
    emplace demoE demoTs (.var 0) .str (.thr 5 true) s1 = .exc .user s2 ∧
    (∃ o, s2.obj (.var 0) = some o ∧ o.slot = none) ∧
    Op.run demoE demoTs (.dtor 0) s2 = .ub .destroyRaw := by
  exact ⟨_, _, rfl, rfl, ⟨_, rfl, rfl⟩, rfl⟩

/-- C63 (part): if `T{x}` copies (or moves) an `x` of type `T` for all alternatives, copies are equal, throughout every
history.  Missing: alternatives for which it does not, see `C63_copy_refuted`; and constructors of which `T(args...)` is
declared not to throw while `T{args...}` throws, see `C63_emplace_refuted` (in `Spec` the trait is accurate). -/
theorem C63_copy_partial (hE : E.Plain) (ha : Alts ts) (h : Reach E ts s V) (hi : V i = none) (hj : V j = some (T, x))
    (hr : Op.run E ts (.ctorCopy i j) s = .ok () s') : Shows ts s' i T x ∧ Shows ts s' j T x :=
  C44_copy_construct hE ha h hi hj hr

/-! ## C64: `emplace` from the variant's own value -/

/-- C64, full statement: `v.emplace<T>(std::get<T'>(v))` is the same as `auto x = std::get<T'>(v); v.emplace<T>(x);` -/
def EmplaceOwn : Prop :=
  ∀ (s : St Nat) (V : Vars Ty Nat) (i : Nat) (T T' : Ty) (x : Nat) (f g : Nat → Nat) (nt : Bool),
    Reach demoE demoTs s V → V i = some (T', x) → T ∈ demoTs →
    match Op.run demoE demoTs (.emplace i T (.ref i T' f g nt)) s with
    | .ok _ s' => Shows demoTs s' i T (f x)
    | .exc _ s' => Shows demoTs s' i T' x
    | .ub _ => False
    | .term => False

/-- C64 is false: when the construction cannot throw, the old value is destroyed before it is used -/
theorem C64_refuted : ¬ EmplaceOwn := by
  intro h
  have h1 : Reach demoE demoTs _ _ := .ok (.start fun _ => false)
    (Spec.ctorValue (i := 0) (T := .int) rfl (by decide) (.val 7)) rfl
  have := h _ _ 0 .int .int 7 id id true h1 rfl (by decide)
  exact this

/-- C64: this is so in all states and for all alternatives -/
theorem C64_own_value_is_destroyed_first (hE : E.Plain) (ha : Alts ts) (h : Reach E ts s V) (hi : V i = some (T', x))
    (hT : T ∈ ts) (f g : ν → ν) : Op.run E ts (.emplace i T (.ref i T' f g true)) s = .ub .readRaw := by
  obtain ⟨hT', ho⟩ := (h.inv hE ha).live i T' x hi
  have hd := destroyImpl_ok (ha.at_ hT') ho ((h.inv hE ha).part _)
  have hres : (Src.ref i T' f g true).resolve ts s = .ok (.ref ⟨.var i, idx ts T', T'⟩ f g true) s :=
    M.bind_ok (get_held ha (ha.at_ hT') ho)
  refine Eq.trans (M.bind_ok hres) ?_
  show M.bind (M.bind _ _) _ _ = _
  unfold M.bind
  have : (do
      let o ← getObj (.var i)
      destroyImpl ts o.type (.var i)
      emplaceImpl ts (idx ts T) (.var i) (.ref ⟨.var i, idx ts T', T'⟩ f g true)
      setType (.var i) (idx ts T) : VM ν Unit) s = .ub .readRaw := by
    rw [M.bind_ok (getObj_ok ho), M.bind_ok hd]
    unfold emplaceImpl
    rw [dispatch_at (ha.at_ hT), Storage.set_at (ha.at_ hT)]
    show M.bind (M.bind (M.bind _ _) _) _ _ = _
    unfold M.bind
    simp [readAt]
  have this' : (if (Arg.ref (⟨.var i, idx ts T', T'⟩ : Ptr τ) f g true).nothrow then do
      let o ← getObj (.var i)
      destroyImpl ts o.type (.var i)
      emplaceImpl ts (idx ts T) (.var i) (.ref ⟨.var i, idx ts T', T'⟩ f g true)
      setType (.var i) (idx ts T)
    else withTmp ts (fun t => ctorValue ts t T (.ref ⟨.var i, idx ts T', T'⟩ f g true)) fun tmp =>
      assignMove E ts (.var i) tmp : VM ν Unit) s = .ub .readRaw := this
  rw [this']

/-- C64 (part): `emplace` from the variant's own value works if the construction is one that may throw.  Missing: other
constructions, see `C64_own_value_is_destroyed_first`. -/
theorem C64_partial (hE : E.Plain) (ha : Alts ts) (h : Reach E ts s V) (hi : V i = some (T', x)) (hT : T ∈ ts)
    (f g : ν → ν) :
    match Op.run E ts (.emplace i T (.ref i T' f g false)) s with
    | .ok _ s' => Shows ts s' i T (f x)
    | .exc _ s' => Shows ts s' i T' x
    | .ub _ => False
    | .term => False := by
  have hs : Spec E ts (.emplace i T (.ref i T' f g false)) V _ :=
    .emplace hi hT (.ref hi) (by simp [Src.Overlaps])
  have hc := h.call hE ha hs
  cases hr : Op.run E ts (.emplace i T (.ref i T' f g false)) s with
  | ok u s' => rw [hr] at hc; exact ((C39_contents hE ha hc i).1 T (f x) (by simp)).2
  | exc e s' => rw [hr] at hc; exact ((C39_contents hE ha hc i).1 T' x hi).2
  | ub => rw [hr] at hc; exact hc
  | term => rw [hr] at hc; exact hc

-- a reachable state for it
example : ∃ s, Reach demoE demoTs s demoV ∧ demoV 1 = some (.str, 5) ∧ Ty.int ∈ demoTs := by
  obtain ⟨s, h, _⟩ := demo
  exact ⟨s, h, rfl, by decide⟩

/-! ## C65: assignment from a part of the variant's own value -/

/-- C65 is false, in every state: if `other` is stored in the value that `*this` holds (a tree node that is assigned one of
its own children), copy assignment – although it first makes a copy – reads `other.type` after having destroyed `other` -/
theorem C65_copy_from_part_refuted (hE : E.Plain) {i j : Id} {k k' : Nat} (hk : ts[k]? = some T)
    (hk' : ts[k']? = some T') (hne : i ≠ j) (hi : s.obj i = full k x) (hj : s.obj j = full k' y) (hpart : s.part i = [j])
    (ht : ∀ n, s.obj (.tmp n) = none) (ho : s.orc = fun _ => false) :
    assignCopy E ts i j s = .ub .deadObject := by
  have hti : i ≠ .tmp s.ntmp := by intro e; rw [e, ht] at hi; cases hi
  have htj : j ≠ .tmp s.ntmp := by intro e; rw [e, ht] at hj; cases hj
  unfold assignCopy
  rw [if_pos hne]
  rcases (ctorCopy_ok (E := E) (s := { s with ntmp := s.ntmp + 1 }) hE hk' (ht s.ntmp) hj) with hd | hf
  · obtain ⟨s1, e1, n1⟩ := hd.elim
    have o1i : s1.obj i = full k x := by rw [n1.obj]; simp only; rw [upd_ne _ _ hti]; exact hi
    have o1t : s1.obj (.tmp s.ntmp) = full k' y := by rw [n1.obj]; simp
    have p1 : s1.part i = [j] := by rw [n1.part]; exact hpart
    have e2 : destroyImpl ts k i s1 = .ok () { s1 with obj := fun q => if q = j then none else (upd s1.obj i (some ⟨none, k⟩)) q } := by
      unfold destroyImpl
      rw [dispatch_at hk, Storage.destroy_at hk, Nat.zero_add]
      apply M.noexcept_ok
      unfold destroyAt
      rw [o1i]
      simp [p1]
    have h2 := assignMoveImpl_ok hE (E := E) (s := { s1 with obj := fun q => if q = j then none else (upd s1.obj i (some ⟨none, k⟩)) q }) (i := i) (j := .tmp s.ntmp) (t := k') (t' := k) (x := y) hk'
        (by simp only [Ne.symm htj, if_false]; rw [upd_ne _ _ hti.symm]; exact o1t) (by simp [hne])
    obtain ⟨s2, e3, n2⟩ := h2.elim
    have o2j : s2.obj j = none := by
      rw [n2.obj, upd_ne _ _ hne.symm, upd_ne _ _ htj]; simp
    have hb : (do
        let o ← getObj i
        destroyImpl ts o.type i
        let t ← getObj (.tmp s.ntmp)
        assignMoveImpl E ts t.type i (.tmp s.ntmp)
        let o ← getObj j
        setType i o.type : VM ν Unit) s1 = .ub .deadObject := by
      rw [M.bind_ok (getObj_ok o1i), M.bind_ok e2,
        M.bind_ok (getObj_ok (o := ⟨some (k', y), k'⟩) (by
          simp only [Ne.symm htj, if_false]; rw [upd_ne _ _ hti.symm]; exact o1t)), M.bind_ok e3]
      show M.bind _ _ _ = _
      unfold M.bind getObj
      rw [o2j]
    unfold withTmp
    simp only
    rw [M.bind_ok e1]
    unfold M.withDtor
    rw [hb]
  · exfalso
    obtain ⟨s1, _, _, m, _, _, h3⟩ := hf.elim
    simp only [ho] at h3
    cases h3

-- such a state: variable 0 is a node (a `str` here), of which variable 1, an `int`, is a part
example : ∃ s : St Nat, s.obj (.var 0) = full 1 5 ∧ s.obj (.var 1) = full 0 7 ∧ s.part (.var 0) = [.var 1] ∧
    assignCopy demoE demoTs (.var 0) (.var 1) s = .ub .deadObject := by
  exact ⟨⟨fun q => if q = .var 0 then full 1 5 else if q = .var 1 then full 0 7 else none,
    fun q => if q = .var 0 then [.var 1] else [], 0, fun _ => false, 0⟩, rfl, rfl, rfl, rfl⟩

/-- C65 (part): copy assignment between variants of which neither is a part of the other, along every history of such
calls.  Missing: assignment from a part, see `C65_copy_from_part_refuted`. -/
theorem C65_copy_partial (hE : E.Plain) (ha : Alts ts) (h : Reach E ts s V) (hi : V i = some (T, x)) (hj : V j = some (T', y))
    (hr : Op.run E ts (.assignCopy i j) s = .ok () s') : Shows ts s' i T' y ∧ Shows ts s' j T' y :=
  C44_copy_assign hE ha h hi hj hr

/-! ## C66: `holds` with a const-qualified type -/

/-- types with a `const` qualifier -/
structure CTy where
  const : Bool
  ty : Ty
  deriving DecidableEq

/-- `std::remove_const_t` -/
def CTy.removeConst (T : CTy) : CTy := { T with const := false }

/-- C66, full statement: for every type that `holds` accepts (variant.hpp:198-201, 279: `can_store` removes `const`),
`holds<T>()` says whether the value held has that type, up to `const` -/
def HoldsExact : Prop :=
  ∀ (ts : List CTy) (s : St Nat) (i k : Nat) (T T' : CTy) (x : Nat), Alts ts → (∀ T ∈ ts, T.const = false) →
    ts[k]? = some T → s.obj (.var i) = full k x → canStore ts T'.removeConst = true →
    holds ts (.var i) T' s = .ok (decide (T'.removeConst = T)) s

/-- C66 is false: `holds<const int>()` is accepted, and `false`, although an `int` is held -/
theorem C66_refuted : ¬ HoldsExact := by
  intro h
  have := h [⟨false, .int⟩] { start Nat (fun _ => false) with obj := fun q => if q = .var 0 then full 0 7 else none } 0 0
    ⟨false, .int⟩ ⟨true, .int⟩ 7 ⟨by decide, by decide, by decide⟩ (by decide) rfl rfl (by decide)
  cases this

/-- C66: it is `false` for every `const`-qualified type and every variant -/
theorem C66_const_never_held {ts : List CTy} {s : St Nat} {i k : Nat} {T : CTy} {x : Nat} (ha : Alts ts)
    (hc : ∀ T ∈ ts, T.const = false) (hk : ts[k]? = some T) (hi : s.obj (.var i) = full k x) (T' : CTy) (hT' : T'.const = true) :
    holds ts (.var i) T' s = .ok false s := by
  have hn : T' ∉ ts := fun h => by rw [hc T' h] at hT'; cases hT'
  unfold holds
  rw [M.bind_ok (getObj_ok hi)]
  have h1 : idx ts T' = 255 := by
    unfold idx
    rw [determineIndex_eq, if_neg hn]
    rfl
  have := ha.lt hk
  show Out.ok (k == idx ts T') s = _
  rw [h1]
  have : (k == 255) = false := by simp; omega
  rw [this]

/-- C66 (part): for types without `const`.  Missing: `const`-qualified types, see `C66_const_never_held`. -/
theorem C66_partial {ts : List CTy} {s : St Nat} {i k : Nat} {T : CTy} {x : Nat} (ha : Alts ts)
    (hk : ts[k]? = some T) (hi : s.obj (.var i) = full k x) (T' : CTy) (hT' : T'.const = false)
    (hs : canStore ts T'.removeConst = true) : holds ts (.var i) T' s = .ok (decide (T'.removeConst = T)) s := by
  have e : T'.removeConst = T' := by cases T'; cases hT'; rfl
  rw [e] at hs ⊢
  refine holds_ok ha hk hi ?_
  by_cases hm : T' ∈ ts
  · exact hm
  · have := (C45_not_found (T := T') ha.short).mpr hm
    unfold canStore at hs
    rw [this] at hs
    exact absurd hs (by decide)

-- a variant for it
example : ∃ s : St Nat, s.obj (.var 0) = full 0 7 ∧ canStore [(⟨false, .int⟩ : CTy)] (CTy.removeConst ⟨true, .int⟩) = true :=
  ⟨{ start Nat (fun _ => false) with obj := fun _ => full 0 7 }, rfl, by decide⟩

/-! ## C67: the result of `visit` -/

/-- C67, full statement: `visit` returns what the visitor returns -/
def VisitReturns : Prop :=
  ∀ (conv : Ty → Ty → Int → Int) (s : St Nat) (V : Vars Ty Nat) (i : Nat) (T : Ty) (x : Nat) (f : Ty → Nat → Int),
    Reach demoE demoTs s V → V i = some (T, x) →
    visit demoTs conv (.var i) (fun p => do let v ← readAt p; pure (f p.ty v)) s = .ok (f T x) s

/-- C67: exactly: the result is converted to the visitor's result type for the first alternative -/
theorem C67_result (hE : E.Plain) (ha : Alts ts) (h : Reach E ts s V) (hi : V i = some (T, x)) {H : τ} {rest : List τ}
    (hts : ts = H :: rest) (conv : τ → τ → β → β) (f : τ → ν → β) :
    visit ts conv (.var i) (fun p => do let v ← readAt p; pure (f p.ty v)) s = .ok (conv T H (f T x)) s := by
  obtain ⟨hT, ho⟩ := (h.inv hE ha).live i T x hi
  rw [visit_ok hts (ha.at_ hT) ho]
  have hr : readAt (⟨.var i, idx ts T, T⟩ : Ptr τ) s = .ok x s := readAt_ok ho
  have h2 : (do let v ← readAt (⟨.var i, idx ts T, T⟩ : Ptr τ); pure (f T v) : VM ν β) s = .ok (f T x) s := M.bind_ok hr
  exact M.bind_ok h2

/-- C67 is false: a visitor that returns `unsigned char` for the first alternative and `int` for the second gets its `int`
results converted to `unsigned char` (modelled by `conv`), whatever alternative is held -/
theorem C67_refuted : ¬ VisitReturns := by
  intro h
  have h1 : Reach demoE demoTs _ _ := .ok (.start fun _ => false)
    (Spec.ctorValue (i := 0) (T := .str) rfl (by decide) (.val 300)) rfl
  have := h (fun T H r => if T = H then r else r % 256) _ _ 0 .str 300 (fun _ x => x) h1 rfl
  have h2 := C67_result demoE_plain demo_alts h1 (i := 0) (T := .str) (x := 300) rfl (H := .int) (rest := [.str]) rfl
    (fun T H r => if T = H then r else r % 256) (fun _ x => (x : Int))
  exact absurd (Out.ok.inj (h2.symm.trans this)).1 (by decide)

/-- C67 (part): visitors whose results for all alternatives have the same type (the conversion is trivial).  Missing: other
visitors, see `C67_result`. -/
theorem C67_partial (hE : E.Plain) (ha : Alts ts) (h : Reach E ts s V) (hi : V i = some (T, x))
    {conv : τ → τ → β → β} (hc : ∀ T T' r, conv T T' r = r) (f : τ → ν → β) :
    visit ts conv (.var i) (fun p => do let v ← readAt p; pure (f p.ty v)) s = .ok (f T x) s := by
  cases hts : ts with
  | nil => exact (ha.nonempty hts).elim
  | cons H rest => rw [← hts, C67_result hE ha h hi hts, hc]

end Ptl.Variant

import Verif.Basic

/-!
# C104: what the library's classes have in common as values

The special member functions, `swap` and the destructor of a class, what is expected of them, and proofs that families of classes pass it on.  The classes themselves are
in `Verif/Nested/Leaves.lean` and `Verif/Nested/Model.lean`.
-/

namespace Ptl.Nested

/-- The functions of a class through which other classes treat its objects as values; objects are numbered.  `copy i j` constructs object `i` from object `j`. -/
structure Class (σ : Type) where
  copy : Nat → Nat → M σ Unit
  move : Nat → Nat → M σ Unit
  assign : Nat → Nat → M σ Unit
  moveAssign : Nat → Nat → M σ Unit
  swap : Nat → Nat → M σ Unit
  dtor : Nat → M σ Unit

/-- returns with `P`, or throws with `E` -/
def Res {σ : Type} (r : Out σ Unit) (P E : σ → Prop) : Prop := (∃ s, r = .ok () s ∧ P s) ∨ ∃ e s, r = .exc e s ∧ E s

/-- **What is expected.**  `Rep s V`: in state `s` the live objects and their values are as told by `V`.  Copies have the value of their source; a copy constructor that throws
leaves everything as it was, a copy assignment that throws leaves the target some value.  Moves give the value and leave the source some value.  Nothing
but copies throws, nothing is undefined, nothing ends the program, no other object is touched. -/
structure Laws {σ ν : Type} (C : Class σ) (Rep : σ → (Nat → Option ν) → Prop) : Prop where
  copy {s V i j y} : Rep s V → V i = none → V j = some y → Res (C.copy i j s) (fun s' => Rep s' (upd V i (some y))) (fun s' => Rep s' V)
  move {s V i j y} : Rep s V → V i = none → V j = some y → ∃ s' y', C.move i j s = .ok () s' ∧ Rep s' (upd (upd V j (some y')) i (some y))
  assign {s V i j x y} : Rep s V → i ≠ j → V i = some x → V j = some y →
    Res (C.assign i j s) (fun s' => Rep s' (upd V i (some y))) (fun s' => ∃ x', Rep s' (upd V i (some x')))
  assignSelf {s V i x} : Rep s V → V i = some x → Res (C.assign i i s) (fun s' => Rep s' V) (fun s' => ∃ x', Rep s' (upd V i (some x')))
  moveAssign {s V i j x y} : Rep s V → i ≠ j → V i = some x → V j = some y →
    ∃ s' y', C.moveAssign i j s = .ok () s' ∧ Rep s' (upd (upd V j (some y')) i (some y))
  moveAssignSelf {s V i x} : Rep s V → V i = some x → ∃ s' x', C.moveAssign i i s = .ok () s' ∧ Rep s' (upd V i (some x'))
  swap {s V i j x y} : Rep s V → V i = some x → V j = some y → ∃ s', C.swap i j s = .ok () s' ∧ Rep s' (upd (upd V i (some y)) j (some x))
  dtor {s V i x} : Rep s V → V i = some x → ∃ s', C.dtor i s = .ok () s' ∧ Rep s' (upd V i none)

/-- … and `Rep` means something: the state determines which objects there are and their values, and once all are destroyed nothing is left over -/
structure Regular {σ ν : Type} (C : Class σ) (Rep : σ → (Nat → Option ν) → Prop) (Clean : σ → Prop) : Prop extends Laws C Rep where
  determ {s V V'} : Rep s V → Rep s V' → V = V'
  clean {s} : Rep s (fun _ => none) → Clean s

theorem Res.mono {σ : Type} {r : Out σ Unit} {P P' E E' : σ → Prop} (h : Res r P E) (hp : ∀ s, P s → P' s) (he : ∀ s, E s → E' s) : Res r P' E' := by
  rcases h with ⟨s, h1, h2⟩ | ⟨e, s, h1, h2⟩
  · exact .inl ⟨s, h1, hp s h2⟩
  · exact .inr ⟨e, s, h1, he s h2⟩

theorem Res.ok {σ : Type} {r : Out σ Unit} {P E : σ → Prop} {s : σ} (h : r = .ok () s) (hp : P s) : Res r P E := .inl ⟨s, h, hp⟩

/-! ### several members -/

section Family

variable {κ : Type} [DecidableEq κ] {ν : κ → Type}

/-- point update of a family -/
def put {ν : κ → Type} (W : ∀ k, ν k) (k : κ) (x : ν k) : ∀ k, ν k := fun k' => if h : k' = k then h ▸ x else W k'

@[simp] theorem put_same {ν : κ → Type} (W : ∀ k, ν k) (k : κ) (x : ν k) : put W k x k = x := by simp [put]
theorem put_ne {ν : κ → Type} (W : ∀ k, ν k) {k k' : κ} (x : ν k) (h : k' ≠ k) : put W k x k' = W k' := by simp [put, h]
theorem put_self {ν : κ → Type} (W : ∀ k, ν k) (k : κ) : put W k (W k) = W := by
  funext k'
  by_cases h : k' = k
  · subst h; simp
  · rw [put_ne _ _ h]
theorem put_put {ν : κ → Type} (W : ∀ k, ν k) (k : κ) (x y : ν k) : put (put W k x) k y = put W k y := by
  funext k'
  by_cases h : k' = k
  · subst h; simp
  · rw [put_ne _ _ h, put_ne _ _ h, put_ne _ _ h]

/-- which objects there are, for every member -/
abbrev Maps (ν : κ → Type) := ∀ k, Nat → Option (ν k)

variable {σ : Type} {comp : κ → Class σ} {Rep : σ → Maps ν → Prop}

/-- the laws for each member, whatever the others are -/
def Family (comp : κ → Class σ) (Rep : σ → Maps ν → Prop) : Prop := ∀ k W, Laws (comp k) fun s U => Rep s (put W k U)

/-- one member after the other -/
def each (op : κ → M σ Unit) : List κ → M σ Unit
  | [] => pure ()
  | k :: l => do op k; each op l

/-- one member after the other; if one throws, those before are undone in reverse order -/
def eachUndo (op undo : κ → M σ Unit) : List κ → M σ Unit
  | [] => pure ()
  | k :: l => do op k; M.onExc (eachUndo op undo l) (undo k)

theorem each_ok {op : κ → M σ Unit} {Pre : ∀ k, (Nat → Option (ν k)) → Prop} {Q : ∀ k, (Nat → Option (ν k)) → (Nat → Option (ν k)) → Prop}
    (h : ∀ k s W, Rep s W → Pre k (W k) → ∃ s' U, op k s = .ok () s' ∧ Rep s' (put W k U) ∧ Q k (W k) U) :
    ∀ (l : List κ) (_ : l.Nodup) (s : σ) (W : Maps ν), Rep s W → (∀ k ∈ l, Pre k (W k)) →
      ∃ s' W', each op l s = .ok () s' ∧ Rep s' W' ∧ (∀ k ∈ l, Q k (W k) (W' k)) ∧ ∀ k, k ∉ l → W' k = W k
  | [], _, s, W, hr, _ => ⟨s, W, rfl, hr, by simp, fun _ _ => rfl⟩
  | k :: l, hl, s, W, hr, hp => by
    obtain ⟨s1, U, h1, h2, h3⟩ := h k s W hr (hp k List.mem_cons_self)
    have hk : ∀ k' ∈ l, k' ≠ k := fun k' hk' he => (List.nodup_cons.1 hl).1 (he ▸ hk')
    obtain ⟨s2, W2, h4, h5, h6, h7⟩ := each_ok h l (List.nodup_cons.1 hl).2 s1 (put W k U) h2 fun k' hk' => by
      rw [put_ne _ _ (hk k' hk')]; exact hp k' (List.mem_cons_of_mem _ hk')
    refine ⟨s2, W2, (M.bind_ok h1).trans h4, h5, fun k' hk' => ?_, fun k' hk' => ?_⟩
    · rcases List.mem_cons.1 hk' with rfl | hk'
      · rw [h7 k' (List.nodup_cons.1 hl).1, put_same]; exact h3
      · have := h6 k' hk'
        rwa [put_ne _ _ (hk k' hk')] at this
    · rw [h7 k' fun h => hk' (List.mem_cons_of_mem _ h), put_ne _ _ fun h => hk' (by rw [h]; exact List.mem_cons_self)]

theorem each_res {op : κ → M σ Unit} {Pre : ∀ k, (Nat → Option (ν k)) → Prop} {Q E : ∀ k, (Nat → Option (ν k)) → (Nat → Option (ν k)) → Prop}
    (h : ∀ k s W, Rep s W → Pre k (W k) →
      Res (op k s) (fun s' => ∃ U, Rep s' (put W k U) ∧ Q k (W k) U) (fun s' => ∃ U, Rep s' (put W k U) ∧ E k (W k) U))
    (hE : ∀ k U, Pre k U → E k U U) (hQ : ∀ k U U', Q k U U' → E k U U') :
    ∀ (l : List κ) (_ : l.Nodup) (s : σ) (W : Maps ν), Rep s W → (∀ k ∈ l, Pre k (W k)) →
      Res (each op l s) (fun s' => ∃ W', Rep s' W' ∧ (∀ k ∈ l, Q k (W k) (W' k)) ∧ ∀ k, k ∉ l → W' k = W k)
        (fun s' => ∃ W', Rep s' W' ∧ (∀ k ∈ l, E k (W k) (W' k)) ∧ ∀ k, k ∉ l → W' k = W k)
  | [], _, s, W, hr, _ => .ok rfl ⟨W, hr, by simp, fun _ _ => rfl⟩
  | k :: l, hl, s, W, hr, hp => by
    have hk : ∀ k' ∈ l, k' ≠ k := fun k' hk' he => (List.nodup_cons.1 hl).1 (he ▸ hk')
    rcases h k s W hr (hp k List.mem_cons_self) with ⟨s1, h1, U, h2, h3⟩ | ⟨e, s1, h1, U, h2, h3⟩
    · have ih := each_res h hE hQ l (List.nodup_cons.1 hl).2 s1 (put W k U) h2 fun k' hk' => by
        rw [put_ne _ _ (hk k' hk')]; exact hp k' (List.mem_cons_of_mem _ hk')
      show Res ((op k >>= fun _ => each op l) s) _ _
      rw [M.bind_ok h1]
      refine ih.mono ?_ ?_
      · rintro s2 ⟨W2, h5, h6, h7⟩
        refine ⟨W2, h5, fun k' hk' => ?_, fun k' hk' => ?_⟩
        · rcases List.mem_cons.1 hk' with rfl | hk'
          · rw [h7 k' (List.nodup_cons.1 hl).1, put_same]; exact h3
          · have := h6 k' hk'
            rwa [put_ne _ _ (hk k' hk')] at this
        · rw [h7 k' fun h => hk' (List.mem_cons_of_mem _ h), put_ne _ _ fun h => hk' (by rw [h]; exact List.mem_cons_self)]
      · rintro s2 ⟨W2, h5, h6, h7⟩
        refine ⟨W2, h5, fun k' hk' => ?_, fun k' hk' => ?_⟩
        · rcases List.mem_cons.1 hk' with rfl | hk'
          · rw [h7 k' (List.nodup_cons.1 hl).1, put_same]; exact hQ _ _ _ h3
          · have := h6 k' hk'
            rwa [put_ne _ _ (hk k' hk')] at this
        · rw [h7 k' fun h => hk' (List.mem_cons_of_mem _ h), put_ne _ _ fun h => hk' (by rw [h]; exact List.mem_cons_self)]
    · refine .inr ⟨e, s1, M.bind_exc h1, put W k U, h2, fun k' hk' => ?_, fun k' hk' => ?_⟩
      · rcases List.mem_cons.1 hk' with rfl | hk''
        · rw [put_same]; exact h3
        · rw [put_ne _ _ (hk k' hk'')]; exact hE k' _ (hp k' hk')
      · exact put_ne _ _ fun h => hk' (h ▸ List.mem_cons_self)

theorem eachUndo_res {op undo : κ → M σ Unit} {Pre : ∀ k, (Nat → Option (ν k)) → Prop} {Q : ∀ k, (Nat → Option (ν k)) → (Nat → Option (ν k)) → Prop}
    (h : ∀ k s W, Rep s W → Pre k (W k) → Res (op k s) (fun s' => ∃ U, Rep s' (put W k U) ∧ Q k (W k) U) (fun s' => Rep s' W))
    (hu : ∀ k s W U, Rep s (put W k U) → Pre k (W k) → Q k (W k) U → ∃ s', undo k s = .ok () s' ∧ Rep s' W) :
    ∀ (l : List κ) (_ : l.Nodup) (s : σ) (W : Maps ν), Rep s W → (∀ k ∈ l, Pre k (W k)) →
      Res (eachUndo op undo l s) (fun s' => ∃ W', Rep s' W' ∧ (∀ k ∈ l, Q k (W k) (W' k)) ∧ ∀ k, k ∉ l → W' k = W k) (fun s' => Rep s' W)
  | [], _, s, W, hr, _ => .ok rfl ⟨W, hr, by simp, fun _ _ => rfl⟩
  | k :: l, hl, s, W, hr, hp => by
    have hk : ∀ k' ∈ l, k' ≠ k := fun k' hk' he => (List.nodup_cons.1 hl).1 (he ▸ hk')
    rcases h k s W hr (hp k List.mem_cons_self) with ⟨s1, h1, U, h2, h3⟩ | ⟨e, s1, h1, h2⟩
    · have ih := eachUndo_res h hu l (List.nodup_cons.1 hl).2 s1 (put W k U) h2 fun k' hk' => by
        rw [put_ne _ _ (hk k' hk')]; exact hp k' (List.mem_cons_of_mem _ hk')
      show Res ((op k >>= fun _ => M.onExc (eachUndo op undo l) (undo k)) s) _ _
      rw [M.bind_ok h1]
      rcases ih with ⟨s2, h4, W2, h5, h6, h7⟩ | ⟨e, s2, h4, h5⟩
      · refine .ok (M.onExc_ok h4) ⟨W2, h5, fun k' hk' => ?_, fun k' hk' => ?_⟩
        · rcases List.mem_cons.1 hk' with rfl | hk'
          · rw [h7 k' (List.nodup_cons.1 hl).1, put_same]; exact h3
          · have := h6 k' hk'
            rwa [put_ne _ _ (hk k' hk')] at this
        · rw [h7 k' fun h => hk' (List.mem_cons_of_mem _ h), put_ne _ _ fun h => hk' (by rw [h]; exact List.mem_cons_self)]
      · obtain ⟨s3, h6, h7⟩ := hu k s2 W U h5 (hp k List.mem_cons_self) h3
        exact .inr ⟨e, s3, M.onExc_exc h4 h6, h7⟩
    · exact .inr ⟨e, s1, M.bind_exc h1, h2⟩

/-! ### classes with several members -/

/-- A class whose special member functions are implicit, with members of the classes `comp`.  `fwd` is the order of construction and assignment (first to last), `swp` the
order in which `swap` goes through the members; the destructor goes through them in reverse order of construction. -/
def product (comp : κ → Class σ) (fwd swp : List κ) : Class σ where
  copy i j := eachUndo (fun k => (comp k).copy i j) (fun k => (comp k).dtor i) fwd
  move i j := M.noexcept (eachUndo (fun k => (comp k).move i j) (fun k => (comp k).dtor i) fwd)
  assign i j := each (fun k => (comp k).assign i j) fwd
  moveAssign i j := M.noexcept (each (fun k => (comp k).moveAssign i j) fwd)
  swap i j := M.noexcept (each (fun k => (comp k).swap i j) swp)
  dtor i := M.noexcept (each (fun k => (comp k).dtor i) fwd.reverse)

/-- its objects have a value for every member -/
def members (V : Nat → Option (∀ k, ν k)) : Maps ν := fun k i => (V i).map fun f => f k

omit [DecidableEq κ] in
theorem members_upd (V : Nat → Option (∀ k, ν k)) (i : Nat) (f : ∀ k, ν k) : members (upd V i (some f)) = fun k => upd (members V k) i (some (f k)) := by
  funext k p
  by_cases h : p = i <;> simp [members, upd, h]

omit [DecidableEq κ] in
theorem members_none (V : Nat → Option (∀ k, ν k)) (i : Nat) : members (upd V i none) = fun k => upd (members V k) i none := by
  funext k p
  by_cases h : p = i <;> simp [members, upd, h]

/-- a step of one member, seen from the family -/
theorem Family.at (hF : Family comp Rep) (k : κ) {s : σ} {W : Maps ν} (h : Rep s W) : Laws (comp k) (fun s U => Rep s (put W k U)) ∧ Rep s (put W k (W k)) :=
  ⟨hF k W, by rw [put_self]; exact h⟩

theorem move_undo {op undo : κ → M σ Unit} {Pre : ∀ k, (Nat → Option (ν k)) → Prop} {Q : ∀ k, (Nat → Option (ν k)) → (Nat → Option (ν k)) → Prop}
    (h : ∀ k s W, Rep s W → Pre k (W k) → ∃ s' U, op k s = .ok () s' ∧ Rep s' (put W k U) ∧ Q k (W k) U) :
    ∀ (l : List κ) (_ : l.Nodup) (s : σ) (W : Maps ν), Rep s W → (∀ k ∈ l, Pre k (W k)) → eachUndo op undo l s = each op l s
  | [], _, _, _, _, _ => rfl
  | k :: l, hl, s, W, hr, hp => by
    obtain ⟨s1, U, h1, h2, h3⟩ := h k s W hr (hp k List.mem_cons_self)
    have hk : ∀ k' ∈ l, k' ≠ k := fun k' hk' he => (List.nodup_cons.1 hl).1 (he ▸ hk')
    have hp' : ∀ k' ∈ l, Pre k' (put W k U k') := fun k' hk' => by
      rw [put_ne _ _ (hk k' hk')]; exact hp k' (List.mem_cons_of_mem _ hk')
    obtain ⟨s2, _, h4, _⟩ := each_ok h l (List.nodup_cons.1 hl).2 s1 (put W k U) h2 hp'
    have ih := move_undo (undo := undo) h l (List.nodup_cons.1 hl).2 s1 (put W k U) h2 hp'
    show (op k >>= fun _ => M.onExc (eachUndo op undo l) (undo k)) s = (op k >>= fun _ => each op l) s
    rw [M.bind_ok h1, M.bind_ok h1, h4, M.onExc_ok (ih.trans h4)]

theorem product_laws (hF : Family comp Rep) {fwd swp : List κ} (hn : fwd.Nodup) (hn' : swp.Nodup) (hall : ∀ k, k ∈ fwd) (hall' : ∀ k, k ∈ swp) :
    Laws (product comp fwd swp) fun s V => Rep s (members V) := by
  have live : ∀ {V : Nat → Option (∀ k, ν k)} {i y}, V i = some y → ∀ k, members V k i = some (y k) := fun h k => by simp [members, h]
  have dead : ∀ {V : Nat → Option (∀ k, ν k)} {i}, V i = none → ∀ k, members V k i = none := fun h k => by simp [members, h]
  constructor
  case copy =>
    intro s V i j y hr hi hj
    have := eachUndo_res (Rep := Rep) (op := fun k => (comp k).copy i j) (undo := fun k => (comp k).dtor i)
      (Pre := fun k U => U i = none ∧ U j = some (y k)) (Q := fun k U U' => U' = upd U i (some (y k)))
      (fun k s W h hp => by
        obtain ⟨L, h'⟩ := hF.at k h
        refine (L.copy h' hp.1 hp.2).mono (fun s' hs => ⟨_, hs, rfl⟩) fun s' hs => ?_
        rwa [put_self] at hs)
      (fun k s W U h hp hq => by
        subst hq
        obtain ⟨s', h1, h2⟩ := (hF k W).dtor h (i := i) (upd_same _ _ _)
        rw [upd_upd, upd_eq _ _ _ hp.1, put_self] at h2
        exact ⟨s', h1, h2⟩)
      fwd hn s (members V) hr fun k _ => ⟨dead hi k, live hj k⟩
    refine this.mono (fun s' hs => ?_) fun s' hs => hs
    obtain ⟨W', h1, h2, _⟩ := hs
    rw [members_upd]
    rwa [show W' = _ from funext fun k => h2 k (hall k)] at h1
  case move =>
    intro s V i j y hr hi hj
    have hij : j ≠ i := fun h => by rw [h, hi] at hj; cases hj
    have step : ∀ k s W, Rep s W → (W k i = none ∧ W k j = some (y k)) →
        ∃ s' U, (comp k).move i j s = .ok () s' ∧ Rep s' (put W k U) ∧ ∃ y', U = upd (upd (W k) j (some y')) i (some (y k)) := fun k s W h hp => by
      obtain ⟨L, h'⟩ := hF.at k h
      obtain ⟨s', y', h1, h2⟩ := L.move h' hp.1 hp.2
      exact ⟨s', _, h1, h2, y', rfl⟩
    have hp : ∀ k ∈ fwd, members V k i = none ∧ members V k j = some (y k) := fun k _ => ⟨dead hi k, live hj k⟩
    obtain ⟨s', W', h1, h2, h3, _⟩ := each_ok (Pre := fun k U => U i = none ∧ U j = some (y k))
      (Q := fun k U U' => ∃ y', U' = upd (upd U j (some y')) i (some (y k))) step fwd hn s (members V) hr hp
    have h4 := move_undo (undo := fun k => (comp k).dtor i) (Pre := fun k U => U i = none ∧ U j = some (y k))
      (Q := fun k U U' => ∃ y', U' = upd (upd U j (some y')) i (some (y k))) step fwd hn s (members V) hr hp
    refine ⟨s', fun k => (h3 k (hall k)).choose, M.noexcept_ok (h4.trans h1), ?_⟩
    rw [members_upd, members_upd]
    rwa [show W' = _ from funext fun k => (h3 k (hall k)).choose_spec] at h2
  case assign =>
    intro s V i j x y hr hij hi hj
    have := each_res (Rep := Rep) (op := fun k => (comp k).assign i j)
      (Pre := fun k U => (∃ x, U i = some x) ∧ U j = some (y k)) (Q := fun k U U' => U' = upd U i (some (y k)))
      (E := fun k U U' => ∃ x', U' = upd U i (some x'))
      (fun k s W h hp => by
        obtain ⟨L, h'⟩ := hF.at k h
        obtain ⟨⟨x, hx⟩, hy⟩ := hp
        exact (L.assign h' hij hx hy).mono (fun s' hs => ⟨_, hs, rfl⟩) fun s' ⟨x', hs⟩ => ⟨_, hs, x', rfl⟩)
      (fun k U hp => ⟨hp.1.choose, (upd_eq _ _ _ hp.1.choose_spec).symm⟩) (fun k U U' h => ⟨_, h⟩)
      fwd hn s (members V) hr fun k _ => ⟨⟨_, live hi k⟩, live hj k⟩
    refine this.mono (fun s' hs => ?_) fun s' hs => ?_
    · obtain ⟨W', h1, h2, _⟩ := hs
      rw [members_upd]
      rwa [show W' = _ from funext fun k => h2 k (hall k)] at h1
    · obtain ⟨W', h1, h2, _⟩ := hs
      refine ⟨fun k => (h2 k (hall k)).choose, ?_⟩
      rw [members_upd]
      rwa [show W' = _ from funext fun k => (h2 k (hall k)).choose_spec] at h1
  case assignSelf =>
    intro s V i x hr hi
    have := each_res (Rep := Rep) (op := fun k => (comp k).assign i i)
      (Pre := fun k U => ∃ x, U i = some x) (Q := fun k U U' => U' = U ∧ ∃ x, U i = some x)
      (E := fun k U U' => ∃ x', U' = upd U i (some x'))
      (fun k s W h hp => by
        obtain ⟨L, h'⟩ := hF.at k h
        obtain ⟨x, hx⟩ := hp
        exact (L.assignSelf h' hx).mono (fun s' hs => ⟨_, hs, rfl, x, hx⟩) fun s' ⟨x', hs⟩ => ⟨_, hs, x', rfl⟩)
      (fun k U hp => ⟨hp.choose, (upd_eq _ _ _ hp.choose_spec).symm⟩)
      (fun k U U' h => ⟨h.2.choose, h.1.trans (upd_eq _ _ _ h.2.choose_spec).symm⟩)
      fwd hn s (members V) hr fun k _ => ⟨_, live hi k⟩
    refine this.mono (fun s' hs => ?_) fun s' hs => ?_
    · obtain ⟨W', h1, h2, _⟩ := hs
      rwa [show W' = members V from funext fun k => (h2 k (hall k)).1] at h1
    · obtain ⟨W', h1, h2, _⟩ := hs
      refine ⟨fun k => (h2 k (hall k)).choose, ?_⟩
      rw [members_upd]
      rwa [show W' = _ from funext fun k => (h2 k (hall k)).choose_spec] at h1
  case moveAssign =>
    intro s V i j x y hr hij hi hj
    obtain ⟨s', W', h1, h2, h3, _⟩ := each_ok (Rep := Rep) (op := fun k => (comp k).moveAssign i j)
      (Pre := fun k U => (∃ x, U i = some x) ∧ U j = some (y k)) (Q := fun k U U' => ∃ y', U' = upd (upd U j (some y')) i (some (y k)))
      (fun k s W h hp => by
        obtain ⟨L, h'⟩ := hF.at k h
        obtain ⟨⟨x, hx⟩, hy⟩ := hp
        obtain ⟨s', y', h1, h2⟩ := L.moveAssign h' hij hx hy
        exact ⟨s', _, h1, h2, y', rfl⟩)
      fwd hn s (members V) hr fun k _ => ⟨⟨_, live hi k⟩, live hj k⟩
    refine ⟨s', fun k => (h3 k (hall k)).choose, M.noexcept_ok h1, ?_⟩
    rw [members_upd, members_upd]
    rwa [show W' = _ from funext fun k => (h3 k (hall k)).choose_spec] at h2
  case moveAssignSelf =>
    intro s V i x hr hi
    obtain ⟨s', W', h1, h2, h3, _⟩ := each_ok (Rep := Rep) (op := fun k => (comp k).moveAssign i i)
      (Pre := fun k U => ∃ x, U i = some x) (Q := fun k U U' => ∃ x', U' = upd U i (some x'))
      (fun k s W h hp => by
        obtain ⟨L, h'⟩ := hF.at k h
        obtain ⟨x, hx⟩ := hp
        obtain ⟨s', y', h1, h2⟩ := L.moveAssignSelf h' hx
        exact ⟨s', _, h1, h2, y', rfl⟩)
      fwd hn s (members V) hr fun k _ => ⟨_, live hi k⟩
    refine ⟨s', fun k => (h3 k (hall k)).choose, M.noexcept_ok h1, ?_⟩
    rw [members_upd]
    rwa [show W' = _ from funext fun k => (h3 k (hall k)).choose_spec] at h2
  case swap =>
    intro s V i j x y hr hi hj
    obtain ⟨s', W', h1, h2, h3, _⟩ := each_ok (Rep := Rep) (op := fun k => (comp k).swap i j)
      (Pre := fun k U => U i = some (x k) ∧ U j = some (y k)) (Q := fun k U U' => U' = upd (upd U i (some (y k))) j (some (x k)))
      (fun k s W h hp => by
        obtain ⟨L, h'⟩ := hF.at k h
        obtain ⟨s', h1, h2⟩ := L.swap h' hp.1 hp.2
        exact ⟨s', _, h1, h2, rfl⟩)
      swp hn' s (members V) hr fun k _ => ⟨live hi k, live hj k⟩
    refine ⟨s', M.noexcept_ok h1, ?_⟩
    rw [members_upd, members_upd]
    rwa [show W' = _ from funext fun k => h3 k (hall' k)] at h2
  case dtor =>
    intro s V i x hr hi
    obtain ⟨s', W', h1, h2, h3, _⟩ := each_ok (Rep := Rep) (op := fun k => (comp k).dtor i)
      (Pre := fun k U => ∃ x, U i = some x) (Q := fun k U U' => U' = upd U i none)
      (fun k s W h hp => by
        obtain ⟨L, h'⟩ := hF.at k h
        obtain ⟨x, hx⟩ := hp
        obtain ⟨s', h1, h2⟩ := L.dtor h' hx
        exact ⟨s', _, h1, h2, rfl⟩)
      fwd.reverse ((List.reverse_perm fwd).nodup_iff.2 hn) s (members V) hr fun k _ => ⟨_, live hi k⟩
    refine ⟨s', M.noexcept_ok h1, ?_⟩
    rw [members_none]
    rwa [show W' = _ from funext fun k => h3 k (List.mem_reverse.2 (hall k))] at h2

end Family

end Ptl.Nested

import Verif.Nested.Model

/-!
# C104: arrays, tuples, optionals and variants of regular objects are regular
-/

namespace Ptl.Nested

/-! ### calls of members -/

section inner
variable {τ σ α : Type} {m : M σ α} {s : With τ σ} {t : σ} {a : α} {e : Exc}
theorem inner_ok (h : m s.mem = .ok a t) : inner m s = .ok a { s with mem := t } := by simp [inner, h]
theorem inner_exc (h : m s.mem = .exc e t) : inner m s = .exc e { s with mem := t } := by simp [inner, h]
theorem inner_res {m : M σ Unit} {P E : σ → Prop} (h : Res (m s.mem) P E) :
    Res (inner m s) (fun s' => s'.own = s.own ∧ P s'.mem) (fun s' => s'.own = s.own ∧ E s'.mem) := by
  rcases h with ⟨t, h1, h2⟩ | ⟨e, t, h1, h2⟩
  · exact .ok (inner_ok h1) ⟨rfl, h2⟩
  · exact .inr ⟨e, _, inner_exc h1, rfl, h2⟩
end inner

section nth
variable {κ : Type} [DecidableEq κ] {σ : κ → Type} {k : κ} {s : ∀ k, σ k}
theorem nth_ok {α : Type} {m : M (σ k) α} {a : α} {t : σ k} (h : m (s k) = .ok a t) : nth k m s = .ok a (put s k t) := by simp [nth, h]
theorem nth_res {m : M (σ k) Unit} {P E : σ k → Prop} (h : Res (m (s k)) P E) :
    Res (nth k m s) (fun s' => ∃ t, s' = put s k t ∧ P t) (fun s' => ∃ t, s' = put s k t ∧ E t) := by
  rcases h with ⟨t, h1, h2⟩ | ⟨e, t, h1, h2⟩
  · exact .ok (nth_ok h1) ⟨t, rfl, h2⟩
  · exact .inr ⟨e, _, by simp only [nth, h1], t, rfl, h2⟩
end nth

/-! ### families -/

/-- a family of which the state determines all objects, and which leaves nothing over -/
structure RegularFamily {κ σ : Type} [DecidableEq κ] {ν : κ → Type} (comp : κ → Class σ) (Rep : σ → Maps ν → Prop) (Clean : σ → Prop) : Prop where
  laws : Family comp Rep
  determ {s W W'} : Rep s W → Rep s W' → W = W'
  clean {s} : Rep s (fun _ _ => none) → Clean s

theorem product_regular {κ σ : Type} [DecidableEq κ] {ν : κ → Type} {comp : κ → Class σ} {Rep : σ → Maps ν → Prop} {Clean : σ → Prop} (hF : RegularFamily comp Rep Clean)
    {fwd swp : List κ} (hn : fwd.Nodup) (hn' : swp.Nodup) (hall : ∀ k, k ∈ fwd) (hall' : ∀ k, k ∈ swp) (k : κ) :
    Regular (product comp fwd swp) (fun s V => Rep s (members V)) Clean where
  toLaws := product_laws hF.laws hn hn' hall hall'
  determ {s V V'} h h' := by
    have := hF.determ h h'
    funext i
    have hk : ∀ k, (V i).map (fun f => f k) = (V' i).map (fun f => f k) := fun k => congrFun (congrFun this k) i
    cases hV : V i with
    | none => cases hV' : V' i with
      | none => rfl
      | some f' => have := hk k; rw [hV, hV'] at this; cases this
    | some f => cases hV' : V' i with
      | none => have := hk k; rw [hV, hV'] at this; cases this
      | some f' =>
        congr 1
        funext k
        have := hk k
        rw [hV, hV'] at this
        exact Option.some.inj this
  clean h := hF.clean h

/-- members with states of their own -/
theorem nth_family {κ : Type} [DecidableEq κ] {σ ν : κ → Type} {C : ∀ k, Class (σ k)} {Rep : ∀ k, σ k → (Nat → Option (ν k)) → Prop} {Clean : ∀ k, σ k → Prop}
    (h : ∀ k, Regular (C k) (Rep k) (Clean k)) :
    RegularFamily (fun k => (C k).nth k) (fun s W => ∀ k, Rep k (s k) (W k)) (fun s => ∀ k, Clean k (s k)) where
  determ h1 h2 := funext fun k => (h k).determ (h1 k) (h2 k)
  clean h1 k := (h k).clean (h1 k)
  laws k W := by
    have at' : ∀ {s : ∀ k, σ k} {U}, (∀ k', Rep k' (s k') (put W k U k')) → Rep k (s k) U := fun h => by have := h k; rwa [put_same] at this
    have to : ∀ {s : ∀ k, σ k} {t : σ k} {U U'}, (∀ k', Rep k' (s k') (put W k U k')) → Rep k t U' → ∀ k', Rep k' (put s k t k') (put W k U' k') := fun {s t U U'} h h' k' => by
      by_cases hk : k' = k
      · subst hk; rwa [put_same, put_same]
      · rw [put_ne _ _ hk, put_ne _ _ hk]
        have := h k'
        rwa [put_ne _ _ hk] at this
    have L := (h k).toLaws
    constructor
    case copy =>
      intro s V i j y hr hi hj
      exact (nth_res (L.copy (at' hr) hi hj)).mono (fun s' ⟨t, h1, h2⟩ => h1 ▸ to hr h2) fun s' ⟨t, h1, h2⟩ => h1 ▸ to hr h2
    case move =>
      intro s V i j y hr hi hj
      obtain ⟨t, y', h1, h2⟩ := L.move (at' hr) hi hj
      exact ⟨_, y', nth_ok h1, to hr h2⟩
    case assign =>
      intro s V i j x y hr hij hi hj
      exact (nth_res (L.assign (at' hr) hij hi hj)).mono (fun s' ⟨t, h1, h2⟩ => h1 ▸ to hr h2) fun s' ⟨t, h1, x', h2⟩ => ⟨x', h1 ▸ to hr h2⟩
    case assignSelf =>
      intro s V i x hr hi
      exact (nth_res (L.assignSelf (at' hr) hi)).mono (fun s' ⟨t, h1, h2⟩ => h1 ▸ to hr h2) fun s' ⟨t, h1, x', h2⟩ => ⟨x', h1 ▸ to hr h2⟩
    case moveAssign =>
      intro s V i j x y hr hij hi hj
      obtain ⟨t, y', h1, h2⟩ := L.moveAssign (at' hr) hij hi hj
      exact ⟨_, y', nth_ok h1, to hr h2⟩
    case moveAssignSelf =>
      intro s V i x hr hi
      obtain ⟨t, y', h1, h2⟩ := L.moveAssignSelf (at' hr) hi
      exact ⟨_, y', nth_ok h1, to hr h2⟩
    case swap =>
      intro s V i j x y hr hi hj
      obtain ⟨t, h1, h2⟩ := L.swap (at' hr) hi hj
      exact ⟨_, nth_ok h1, to hr h2⟩
    case dtor =>
      intro s V i x hr hi
      obtain ⟨t, h1, h2⟩ := L.dtor (at' hr) hi
      exact ⟨_, nth_ok h1, to hr h2⟩

theorem tuple_regular {n : Nat} {σ ν : Fin (n + 1) → Type} {C : ∀ k, Class (σ k)} {Rep : ∀ k, σ k → (Nat → Option (ν k)) → Prop} {Clean : ∀ k, σ k → Prop}
    (h : ∀ k, Regular (C k) (Rep k) (Clean k)) :
    Regular (tuple C) (fun s (V : Nat → Option (∀ k, ν k)) => ∀ k, Rep k (s k) (members V k)) (fun s => ∀ k, Clean k (s k)) :=
  product_regular (nth_family h) ((List.reverse_perm _).nodup_iff.2 (List.nodup_finRange _)) (List.nodup_finRange _)
    (fun k => List.mem_reverse.2 (List.mem_finRange k)) List.mem_finRange 0

/-- the objects of an array, numbered as in memory -/
def flat {n : Nat} {ν : Type} (W : Maps fun _ : Fin (n + 1) => ν) : Nat → Option ν := fun p => W ⟨p % (n + 1), Nat.mod_lt _ (Nat.succ_pos n)⟩ (p / (n + 1))

theorem mod_at {n : Nat} (k : Fin (n + 1)) (i : Nat) : (i * (n + 1) + k) % (n + 1) = k := by
  rw [Nat.add_comm, Nat.add_mul_mod_self_right, Nat.mod_eq_of_lt k.2]

theorem flat_at {n : Nat} {ν : Type} (W : Maps fun _ : Fin (n + 1) => ν) (k : Fin (n + 1)) (i : Nat) : flat W (i * (n + 1) + k) = W k i := by
  have h2 : (i * (n + 1) + k) / (n + 1) = i := by
    rw [Nat.add_comm, Nat.add_mul_div_right _ _ (Nat.succ_pos n), Nat.div_eq_of_lt k.2, Nat.zero_add]
  have h3 : (⟨(i * (n + 1) + k) % (n + 1), Nat.mod_lt _ (Nat.succ_pos n)⟩ : Fin (n + 1)) = k := Fin.ext (mod_at k i)
  rw [flat, h3, h2]

theorem flat_put {n : Nat} {ν : Type} (W : Maps fun _ : Fin (n + 1) => ν) (k : Fin (n + 1)) (U : Nat → Option ν) (i : Nat) (v : Option ν) :
    flat (put W k (upd U i v)) = upd (flat (put W k U)) (i * (n + 1) + k) v := by
  funext p
  obtain ⟨q, r, rfl⟩ : ∃ (q : Nat) (r : Fin (n + 1)), p = q * (n + 1) + r :=
    ⟨p / (n + 1), ⟨p % (n + 1), Nat.mod_lt _ (Nat.succ_pos n)⟩, by rw [Nat.mul_comm]; exact (Nat.div_add_mod p (n + 1)).symm⟩
  by_cases hk : r = k
  · subst hk
    rw [flat_at, put_same]
    by_cases hq : q = i
    · subst hq; simp
    · have : q * (n + 1) + (r : Nat) ≠ i * (n + 1) + r := fun h => hq (Nat.eq_of_mul_eq_mul_right (Nat.succ_pos n) (Nat.add_right_cancel h))
      rw [upd_ne _ _ hq, upd_ne _ _ this, flat_at, put_same]
  · have : q * (n + 1) + (r : Nat) ≠ i * (n + 1) + k := fun h => hk <| by
      have h' : (q * (n + 1) + (r : Nat)) % (n + 1) = (i * (n + 1) + k) % (n + 1) := congrArg (· % (n + 1)) h
      rw [mod_at, mod_at] at h'
      exact Fin.ext h'
    rw [upd_ne _ _ this, flat_at, flat_at, put_ne _ _ hk, put_ne _ _ hk]

/-- the elements of arrays -/
theorem array_family {σ ν : Type} {C : Class σ} {Rep : σ → (Nat → Option ν) → Prop} {Clean : σ → Prop} (h : Regular C Rep Clean) (n : Nat) :
    RegularFamily (fun k : Fin (n + 1) => C.at fun i => i * (n + 1) + k) (fun s W => Rep s (flat W)) Clean where
  determ {s W W'} h1 h2 := by
    funext k i
    rw [← flat_at W, ← flat_at W', h.determ h1 h2]
  clean h1 := h.clean h1
  laws k W := by
    have L := h.toLaws
    have g : ∀ {U : Nat → Option ν} {i v}, U i = v → flat (put W k U) (i * (n + 1) + k) = v := fun h => by rw [flat_at, put_same, h]
    have hne : ∀ {i j : Nat}, i ≠ j → i * (n + 1) + (k : Nat) ≠ j * (n + 1) + k := fun h h' => h (Nat.eq_of_mul_eq_mul_right (Nat.succ_pos n) (Nat.add_right_cancel h'))
    constructor
    case copy =>
      intro s V i j y hr hi hj
      exact (L.copy hr (g hi) (g hj)).mono (fun s' hs => by show Rep _ (flat _); rw [flat_put]; exact hs) fun s' hs => hs
    case move =>
      intro s V i j y hr hi hj
      obtain ⟨t, y', h1, h2⟩ := L.move hr (g hi) (g hj)
      exact ⟨t, y', h1, by show Rep _ (flat _); rw [flat_put, flat_put]; exact h2⟩
    case assign =>
      intro s V i j x y hr hij hi hj
      exact (L.assign hr (hne hij) (g hi) (g hj)).mono (fun s' hs => by show Rep _ (flat _); rw [flat_put]; exact hs) fun s' ⟨x', hs⟩ => ⟨x', by show Rep _ (flat _); rw [flat_put]; exact hs⟩
    case assignSelf =>
      intro s V i x hr hi
      exact (L.assignSelf hr (g hi)).mono (fun s' hs => hs) fun s' ⟨x', hs⟩ => ⟨x', by show Rep _ (flat _); rw [flat_put]; exact hs⟩
    case moveAssign =>
      intro s V i j x y hr hij hi hj
      obtain ⟨t, y', h1, h2⟩ := L.moveAssign hr (hne hij) (g hi) (g hj)
      exact ⟨t, y', h1, by show Rep _ (flat _); rw [flat_put, flat_put]; exact h2⟩
    case moveAssignSelf =>
      intro s V i x hr hi
      obtain ⟨t, y', h1, h2⟩ := L.moveAssignSelf hr (g hi)
      exact ⟨t, y', h1, by show Rep _ (flat _); rw [flat_put]; exact h2⟩
    case swap =>
      intro s V i j x y hr hi hj
      obtain ⟨t, h1, h2⟩ := L.swap hr (g hi) (g hj)
      exact ⟨t, h1, by show Rep _ (flat _); rw [flat_put, flat_put]; exact h2⟩
    case dtor =>
      intro s V i x hr hi
      obtain ⟨t, h1, h2⟩ := L.dtor hr (g hi)
      exact ⟨t, h1, by show Rep _ (flat _); rw [flat_put]; exact h2⟩

theorem array_regular {σ ν : Type} {C : Class σ} {Rep : σ → (Nat → Option ν) → Prop} {Clean : σ → Prop} (h : Regular C Rep Clean) (n : Nat) :
    Regular (array C n) (fun s (V : Nat → Option (Fin (n + 1) → ν)) => Rep s (flat (members V))) Clean :=
  product_regular (array_family h n) (List.nodup_finRange _) (List.nodup_finRange _) List.mem_finRange List.mem_finRange 0

/-! ### numbers -/

theorem scalar_regular (ν : Type) : Regular (scalar ν) (fun s V => s = V) (fun s => ∀ i, s i = none) where
  determ h h' := h.symm.trans h'
  clean h i := by rw [h]
  copy {s V i j y} h hi hj := by subst h; exact .ok (by simp only [scalar, hj]) rfl
  move {s V i j y} h hi hj := by
    subst h
    refine ⟨_, y, ?_, rfl⟩
    simp only [scalar, hj]
    rw [upd_eq s j (some y) hj]
  assign {s V i j x y} h _ hi hj := by subst h; exact .ok (by simp only [scalar, hi, hj]) rfl
  assignSelf {s V i x} h hi := by subst h; exact .ok (s := s) (by simp only [scalar, hi]; rw [upd_eq _ _ _ hi]) rfl
  moveAssign {s V i j x y} h _ hi hj := by
    subst h
    refine ⟨_, y, ?_, rfl⟩
    simp only [scalar, hi, hj]
    rw [upd_eq s j (some y) hj]
  moveAssignSelf {s V i x} h hi := by subst h; exact ⟨_, x, by simp only [scalar, hi], rfl⟩
  swap {s V i j x y} h hi hj := by subst h; exact ⟨_, by simp only [scalar, hi, hj], rfl⟩
  dtor {s V i x} h hi := by subst h; exact ⟨_, by simp only [scalar, hi], rfl⟩

/-! ### optionals -/

/-- which optionals there are, in terms of the objects inside and the flags -/
def OptRep {σ ν : Type} (Rep : σ → (Nat → Option ν) → Prop) (s : With Flags σ) (V : Nat → Option (Option ν)) : Prop :=
  Rep s.mem (fun i => (V i).join) ∧ s.own = fun i => (V i).map Option.isSome

section Optional
variable {σ ν : Type} {C : Class σ} {Rep : σ → (Nat → Option ν) → Prop} {Clean : σ → Prop} {s : With Flags σ} {V : Nat → Option (Option ν)} {i j : Nat}

theorem initialized_run (h : OptRep Rep s V) {x : Option ν} (hi : V i = some x) : initialized i s = .ok x.isSome s := by
  simp [initialized, h.2, hi]

theorem join_upd (V : Nat → Option (Option ν)) (i : Nat) (x : Option (Option ν)) : (fun p => (upd V i x p).join) = upd (fun p => (V p).join) i x.join := by
  funext p; by_cases h : p = i <;> simp [upd, h]
theorem isSome_upd (V : Nat → Option (Option ν)) (i : Nat) (x : Option (Option ν)) : (fun p => (upd V i x p).map Option.isSome) = upd (fun p => (V p).map Option.isSome) i (x.map Option.isSome) := by
  funext p; by_cases h : p = i <;> simp [upd, h]

/-- after a call that changes object `i` and flag `i` -/
theorem OptRep.upd {t : σ} {f : Flags} {x : Option (Option ν)} (hm : Rep t (upd (fun p => (V p).join) i x.join)) (hf : f = upd (fun p => (V p).map Option.isSome) i (x.map Option.isSome)) :
    OptRep Rep ⟨f, t⟩ (upd V i x) := ⟨by rw [join_upd]; exact hm, by rw [isSome_upd]; exact hf⟩

theorem reset_run (L : Laws C Rep) (h : OptRep Rep s V) {x : Option ν} (hi : V i = some x) : ∃ s', reset C i s = .ok () s' ∧ OptRep Rep s' (upd V i (some none)) := by
  cases x with
  | none =>
    refine ⟨s, M.noexcept_ok ?_, by rw [upd_eq _ _ _ hi]; exact h⟩
    rw [M.bind_ok (initialized_run h hi)]
    rfl
  | some x =>
    obtain ⟨t, h1, h2⟩ := L.dtor (i := i) h.1 (x := x) (by simp [hi])
    refine ⟨⟨upd s.own i (some false), t⟩, M.noexcept_ok ?_, .upd h2 (by rw [h.2]; rfl)⟩
    rw [M.bind_ok (initialized_run h hi)]
    simp only [Option.isSome_some, if_true]
    rw [M.bind_ok (inner_ok h1)]
    rfl

theorem optional_regular (h : Regular C Rep Clean) : Regular (optional C) (OptRep Rep) (fun s => Clean s.mem ∧ ∀ i, s.own i = none) where
  determ {s V V'} h1 h2 := by
    have hm := h.determ h1.1 h2.1
    have hf := h1.2.symm.trans h2.2
    funext i
    have hm := congrFun hm i
    have hf := congrFun hf i
    rcases hV : V i with _ | _ | x <;> rcases hV' : V' i with _ | _ | x' <;> simp_all
  clean {s} h1 := ⟨h.clean h1.1, fun i => by rw [h1.2]; rfl⟩
  copy {s V i j y} hr hi hj := by
    have hij : j ≠ i := fun he => by rw [he, hi] at hj; cases hj
    show Res ((initialized j >>= _) s) _ _
    rw [M.bind_ok (initialized_run hr hj), M.bind_ok (show setInitialized i (some y.isSome) s = .ok () ⟨upd s.own i (some y.isSome), s.mem⟩ from rfl)]
    have hini : initialized (σ := σ) j ⟨upd s.own i (some y.isSome), s.mem⟩ = .ok y.isSome ⟨upd s.own i (some y.isSome), s.mem⟩ := by
      simp [initialized, upd_ne _ _ hij, hr.2, hj]
    cases y with
    | none =>
      refine .ok (M.onExc_ok (by rw [M.bind_ok hini]; rfl)) (.upd ?_ (by rw [hr.2]; rfl))
      rw [upd_eq _ _ _ (by simp [hi])]
      exact hr.1
    | some y =>
      rcases h.copy (i := i) (j := j) hr.1 (by simp [hi]) (show (V j).join = some y by simp [hj]) with ⟨t, h1, h2⟩ | ⟨e, t, h1, h2⟩
      · exact .ok (M.onExc_ok (by rw [M.bind_ok hini]; exact inner_ok h1)) (.upd h2 (by rw [hr.2]; rfl))
      · refine .inr ⟨e, ⟨s.own, t⟩, M.onExc_exc (s' := ⟨upd s.own i (some true), t⟩) (by rw [M.bind_ok hini]; exact inner_exc h1) ?_, h2, hr.2⟩
        simp only [setInitialized, upd_upd]
        rw [upd_eq _ _ _ (by rw [hr.2]; simp [hi])]
  move {s V i j y} hr hi hj := by
    have hij : j ≠ i := fun he => by rw [he, hi] at hj; cases hj
    have hini : initialized (σ := σ) j ⟨upd s.own i (some y.isSome), s.mem⟩ = .ok y.isSome ⟨upd s.own i (some y.isSome), s.mem⟩ := by
      simp [initialized, upd_ne _ _ hij, hr.2, hj]
    cases y with
    | none =>
      refine ⟨⟨upd s.own i (some false), s.mem⟩, none, M.noexcept_ok ?_, ?_⟩
      · rw [M.bind_ok (initialized_run hr hj), M.bind_ok (show setInitialized i _ s = .ok () _ from rfl), M.bind_ok hini]; rfl
      · rw [upd_eq V j _ hj]
        refine .upd ?_ (by rw [hr.2]; rfl)
        rw [upd_eq _ _ _ (by simp [hi])]
        exact hr.1
    | some y =>
      obtain ⟨t, y', h1, h2⟩ := h.move (i := i) (j := j) hr.1 (by simp [hi]) (show (V j).join = some y by simp [hj])
      refine ⟨⟨upd s.own i (some true), t⟩, some y', M.noexcept_ok ?_, ?_⟩
      · rw [M.bind_ok (initialized_run hr hj), M.bind_ok (show setInitialized i _ s = .ok () _ from rfl), M.bind_ok hini]; exact inner_ok h1
      · refine .upd ?_ ?_
        · rw [join_upd]; exact h2
        · rw [isSome_upd, hr.2, upd_eq (fun p => (V p).map Option.isSome) j _ (by simp [hj])]; rfl
  assign {s V i j x y} hr hij hi hj := by
    show Res ((if i ≠ j then _ else _ : M (With Flags σ) Unit) s) _ _
    rw [if_pos hij, M.bind_ok (initialized_run hr hj)]
    cases y with
    | none =>
      obtain ⟨s', h1, h2⟩ := reset_run h.toLaws hr hi
      exact .ok h1 h2
    | some y =>
      show Res ((initialized i >>= _) s) _ _
      rw [M.bind_ok (initialized_run hr hi)]
      have hy : (V j).join = some y := by simp [hj]
      cases x with
      | none =>
        show Res ((inner (C.copy i j) >>= _) s) _ _
        rcases h.copy (i := i) (j := j) hr.1 (by simp [hi]) hy with ⟨t, h1, h2⟩ | ⟨e, t, h1, h2⟩
        · rw [M.bind_ok (inner_ok h1)]
          exact .ok rfl (.upd h2 (by show upd s.own _ _ = _; rw [hr.2]; rfl))
        · rw [M.bind_exc (inner_exc h1)]
          exact .inr ⟨e, _, rfl, none, by rw [upd_eq _ _ _ hi]; exact ⟨h2, hr.2⟩⟩
      | some x =>
        have hf : s.own = upd (fun p => (V p).map Option.isSome) i (some true) := by rw [hr.2, upd_eq _ _ _ (by simp [hi])]
        refine (inner_res (h.assign (i := i) (j := j) hr.1 hij (by simp [hi]; rfl) hy)).mono ?_ ?_
        · rintro ⟨f, t⟩ ⟨rfl, h2⟩
          exact .upd h2 hf
        · rintro ⟨f, t⟩ ⟨rfl, x', h2⟩
          exact ⟨some x', .upd h2 hf⟩
  assignSelf {s V i x} hr hi := by
    refine .ok (s := s) ?_ hr
    show (if i ≠ i then _ else _ : M (With Flags σ) Unit) s = _
    rw [if_neg (fun h => h rfl)]
    rfl
  moveAssign {s V i j x y} hr hij hi hj := by
    have run : ∀ {s'}, (if y.isSome = true then assignRvalue C i j else reset C i) s = .ok () s' → (optional C).moveAssign i j s = .ok () s' := fun h => by
      refine M.noexcept_ok ?_
      rw [if_pos hij, M.bind_ok (initialized_run hr hj)]
      exact h
    cases y with
    | none =>
      obtain ⟨s', h1, h2⟩ := reset_run h.toLaws hr hi
      exact ⟨s', none, run h1, by rw [upd_eq V j _ hj]; exact h2⟩
    | some y =>
      have hy : (V j).join = some y := by simp [hj]
      have hf' : ∀ y', (fun p => (upd V j (some (some y')) p).map Option.isSome) = fun p => (V p).map Option.isSome := fun y' => by
        rw [isSome_upd, upd_eq _ _ _ (by simp [hj])]
      cases x with
      | none =>
        obtain ⟨t, y', h1, h2⟩ := h.move (i := i) (j := j) hr.1 (by simp [hi]) hy
        refine ⟨⟨upd s.own i (some true), t⟩, some y', run (M.noexcept_ok ?_), .upd (by rw [join_upd]; exact h2) (by rw [hf', hr.2]; rfl)⟩
        rw [M.bind_ok (initialized_run hr hi)]
        show (inner (C.move i j) >>= _) s = _
        rw [M.bind_ok (inner_ok h1)]
        rfl
      | some x =>
        obtain ⟨t, y', h1, h2⟩ := h.moveAssign (i := i) (j := j) hr.1 hij (by simp [hi]; rfl) hy
        refine ⟨⟨s.own, t⟩, some y', run (M.noexcept_ok ?_), .upd (by rw [join_upd]; exact h2) ?_⟩
        · rw [M.bind_ok (initialized_run hr hi)]
          exact inner_ok h1
        · rw [hf', hr.2]
          exact (upd_eq _ _ _ (by simp [hi])).symm
  moveAssignSelf {s V i x} hr hi := by
    refine ⟨s, x, M.noexcept_ok ?_, by rw [upd_eq _ _ _ hi]; exact hr⟩
    rw [if_neg (fun h => h rfl)]
    rfl
  swap {s V i j x y} hr hi hj := by
    by_cases hij : i = j
    · subst hij
      rw [hi] at hj; cases hj
      refine ⟨s, M.noexcept_ok ?_, by rw [upd_upd, upd_eq _ _ _ hi]; exact hr⟩
      rw [if_pos rfl]
      rfl
    · have run : ∀ {s'}, (if (!x.isSome && !y.isSome) = true then pure () else if (x.isSome && !y.isSome) = true then do
            inner (C.move j i); setInitialized j (some true); inner (C.dtor i); setInitialized i (some false)
          else if (!x.isSome && y.isSome) = true then do
            inner (C.move i j); setInitialized i (some true); inner (C.dtor j); setInitialized j (some false)
          else inner (C.swap i j) : M (With Flags σ) Unit) s = .ok () s' → (optional C).swap i j s = .ok () s' := fun h => by
        refine M.noexcept_ok ?_
        rw [if_neg hij, M.bind_ok (initialized_run hr hi), M.bind_ok (initialized_run hr hj)]
        exact h
      rcases x with _ | x <;> rcases y with _ | y
      · exact ⟨s, run rfl, by rw [upd_eq _ _ _ hi, upd_eq _ _ _ hj]; exact hr⟩
      · have hy : (V j).join = some y := by simp [hj]
        obtain ⟨t, y', h1, h2⟩ := h.move (i := i) (j := j) hr.1 (by simp [hi]) hy
        obtain ⟨t', h3, h4⟩ := h.dtor (i := j) h2 (x := y') (by rw [upd_ne _ _ (Ne.symm hij), upd_same])
        refine ⟨⟨upd (upd s.own i (some true)) j (some false), t'⟩, run ?_, ?_⟩
        · show (inner (C.move i j) >>= _) s = _
          rw [M.bind_ok (inner_ok h1), M.bind_ok (show setInitialized i _ _ = .ok () _ from rfl), M.bind_ok (inner_ok h3)]
          rfl
        · rw [upd_comm _ _ _ (Ne.symm hij), upd_upd] at h4
          rw [upd_comm _ _ _ hij]
          refine .upd ?_ ?_
          · rw [join_upd]; exact h4
          · rw [isSome_upd, hr.2, upd_comm _ _ _ hij]; rfl
      · have hx : (V i).join = some x := by simp [hi]
        obtain ⟨t, y', h1, h2⟩ := h.move (i := j) (j := i) hr.1 (by simp [hj]) hx
        obtain ⟨t', h3, h4⟩ := h.dtor (i := i) h2 (x := y') (by rw [upd_ne _ _ hij, upd_same])
        refine ⟨⟨upd (upd s.own j (some true)) i (some false), t'⟩, run ?_, ?_⟩
        · show (inner (C.move j i) >>= _) s = _
          rw [M.bind_ok (inner_ok h1), M.bind_ok (show setInitialized j _ _ = .ok () _ from rfl), M.bind_ok (inner_ok h3)]
          rfl
        · rw [upd_comm _ _ _ hij, upd_upd, upd_comm _ _ _ (Ne.symm hij)] at h4
          refine .upd ?_ ?_
          · rw [join_upd]; exact h4
          · rw [isSome_upd, hr.2, upd_comm _ _ _ (Ne.symm hij)]; rfl
      · obtain ⟨t, h1, h2⟩ := h.swap (i := i) (j := j) hr.1 (show (V i).join = some x by simp [hi]) (show (V j).join = some y by simp [hj])
        refine ⟨⟨s.own, t⟩, run (inner_ok h1), .upd (by rw [join_upd]; exact h2) ?_⟩
        rw [isSome_upd, hr.2, upd_eq (fun p => (V p).map Option.isSome) i _ (by simp [hi]), upd_eq _ _ _ (by simp [hj])]
  dtor {s V i x} hr hi := by
    obtain ⟨s', h1, h2⟩ := reset_run h.toLaws hr hi
    refine ⟨⟨upd s'.own i none, s'.mem⟩, M.noexcept_ok ?_, ?_⟩
    · rw [M.bind_ok h1]; rfl
    · have := OptRep.upd (Rep := Rep) (V := upd V i (some none)) (i := i) (t := s'.mem) (f := upd s'.own i none) (x := none)
        (by rw [upd_eq _ _ _ (by simp)]; exact h2.1) (by rw [h2.2]; rfl)
      rwa [upd_upd] at this

end Optional

/-! ### variants -/

section Variant
variable {κ σ : Type} [DecidableEq κ] {ν : κ → Type} {C : κ → Class σ} {Rep : σ → Maps ν → Prop} {Clean : σ → Prop}

/-- the value, if it is alternative `k` -/
def alt (k : κ) (x : Σ k, ν k) : Option (ν k) := if h : x.1 = k then some (h ▸ x.2) else none

theorem alt_same {k : κ} {y : ν k} : alt k ⟨k, y⟩ = some y := by simp [alt]
theorem alt_ne {k k' : κ} {y : ν k} (h : k' ≠ k) : alt k' ⟨k, y⟩ = none := by simp [alt, Ne.symm h]
theorem alt_inj {x x' : Σ k, ν k} (h : ∀ k, alt k x = alt k x') : x = x' := by
  have h1 := h x.1
  obtain ⟨k, y⟩ := x
  obtain ⟨k', y'⟩ := x'
  rw [alt_same] at h1
  by_cases hk : k' = k
  · subst hk; rw [alt_same] at h1; cases h1; rfl
  · rw [alt_ne (Ne.symm hk)] at h1; cases h1

/-- the objects of the alternatives -/
def alts (V : Nat → Option (Σ k, ν k)) : Maps ν := fun k i => (V i).bind (alt k)

/-- which variants (with the local ones) there are -/
def RawRep (Rep : σ → Maps ν → Prop) (s : With (Types κ) σ) (V : Nat → Option (Σ k, ν k)) : Prop :=
  Rep s.mem (alts V) ∧ s.own = fun i => (V i).map Sigma.fst

theorem alts_upd (V : Nat → Option (Σ k, ν k)) (i : Nat) (k : κ) (y : ν k) (hi : ∀ k', k' ≠ k → alts V k' i = none) :
    alts (upd V i (some ⟨k, y⟩)) = put (alts V) k (upd (alts V k) i (some y)) := by
  funext k' p
  by_cases hk : k' = k
  · subst hk
    rw [put_same]
    by_cases hp : p = i <;> simp [alts, upd, hp, alt_same]
  · rw [put_ne _ _ hk]
    by_cases hp : p = i
    · subst hp; rw [hi k' hk]; simp [alts, alt_ne hk]
    · simp [alts, upd, hp]

theorem alts_none (V : Nat → Option (Σ k, ν k)) (i : Nat) (k : κ) (y : ν k) (hi : V i = some ⟨k, y⟩) :
    alts (upd V i none) = put (alts V) k (upd (alts V k) i none) := by
  funext k' p
  by_cases hk : k' = k
  · subst hk
    rw [put_same]
    by_cases hp : p = i <;> simp [alts, upd, hp]
  · rw [put_ne _ _ hk]
    by_cases hp : p = i
    · subst hp; simp [alts, hi, alt_ne hk]
    · simp [alts, upd, hp]

omit [DecidableEq κ] in
theorem types_upd (V : Nat → Option (Σ k, ν k)) (i : Nat) (x : Option (Σ k, ν k)) :
    (fun p => (upd V i x p).map Sigma.fst) = upd (fun p => (V p).map Sigma.fst) i (x.map Sigma.fst) := by
  funext p; by_cases h : p = i <;> simp [upd, h]

variable {s : With (Types κ) σ} {V : Nat → Option (Σ k, ν k)} {i j : Nat}

theorem type_run (h : RawRep Rep s V) {k : κ} {y : ν k} (hi : V i = some ⟨k, y⟩) : type i s = .ok k s := by simp [type, h.2, hi]

theorem alts_dead (hi : V i = none) (k : κ) : alts V k i = none := by simp [alts, hi]
theorem alts_live {k : κ} {y : ν k} (hi : V i = some ⟨k, y⟩) : alts V k i = some y := by simp [alts, hi, alt_same]
theorem alts_other {k k' : κ} {y : ν k} (hi : V i = some ⟨k, y⟩) (h : k' ≠ k) : alts V k' i = none := by simp [alts, hi, alt_ne h]

theorem move_upd {k : κ} {y y' : ν k} (hi : V i = none) (hj : V j = some ⟨k, y⟩) :
    alts (upd (upd V j (some ⟨k, y'⟩)) i (some ⟨k, y⟩)) = put (alts V) k (upd (upd (alts V k) j (some y')) i (some y)) := by
  have hij : i ≠ j := fun he => by rw [he, hj] at hi; cases hi
  rw [alts_upd _ i k y (fun k' hk => by rw [alts_upd V j k y' fun k' hk => alts_other hj hk, put_ne _ _ hk]; exact alts_dead hi k'),
    alts_upd V j k y' fun k' hk => alts_other hj hk, put_put, put_same]

theorem destroy_run (hF : Family C Rep) (h : RawRep Rep s V) {k : κ} {x : ν k} (hi : V i = some ⟨k, x⟩) :
    ∃ t, destroy C k i s = .ok () ⟨s.own, t⟩ ∧ Rep t (alts (upd V i none)) := by
  obtain ⟨L, h'⟩ := hF.at k h.1
  obtain ⟨t, h1, h2⟩ := L.dtor h' (alts_live hi)
  exact ⟨t, M.noexcept_ok (inner_ok h1), by rw [alts_none V i k x hi]; exact h2⟩

theorem moveFrom_run (hF : Family C Rep) (h : Rep s.mem (alts V)) (hi : V i = none) {k : κ} {y : ν k} (hj : V j = some ⟨k, y⟩) :
    ∃ t y', assignFrom C true k i j s = .ok () ⟨s.own, t⟩ ∧ Rep t (alts (upd (upd V j (some ⟨k, y'⟩)) i (some ⟨k, y⟩))) := by
  obtain ⟨L, h'⟩ := hF.at k h
  obtain ⟨t, y', h1, h2⟩ := L.move h' (alts_dead hi k) (alts_live hj)
  exact ⟨t, y', M.noexcept_ok (inner_ok h1), by rw [move_upd hi hj]; exact h2⟩

theorem dtorVariant_run (hF : Family C Rep) (h : RawRep Rep s V) {x : Σ k, ν k} (hi : V i = some x) : ∃ s', dtorVariant C i s = .ok () s' ∧ RawRep Rep s' (upd V i none) := by
  obtain ⟨k, x⟩ := x
  obtain ⟨t, h1, h2⟩ := destroy_run hF h hi
  refine ⟨⟨upd s.own i none, t⟩, M.noexcept_ok ?_, h2, by rw [types_upd, h.2]; rfl⟩
  rw [M.bind_ok (type_run h hi), M.bind_ok h1]
  rfl

theorem copyVariant_res (hF : Family C Rep) (h : RawRep Rep s V) (hi : V i = none) {y : Σ k, ν k} (hj : V j = some y) :
    Res (copyVariant C i j s) (fun s' => RawRep Rep s' (upd V i (some y))) (fun s' => RawRep Rep s' V) := by
  obtain ⟨k, y⟩ := y
  obtain ⟨L, h'⟩ := hF.at k h.1
  unfold copyVariant
  rw [M.bind_ok (type_run h hj), M.bind_ok (show setType i (some k) s = .ok () ⟨upd s.own i (some k), s.mem⟩ from rfl)]
  rcases L.copy h' (alts_dead hi k) (alts_live hj) with ⟨t, h1, h2⟩ | ⟨e, t, h1, h2⟩
  · refine .ok (M.onExc_ok (inner_ok h1)) ⟨?_, by rw [types_upd, h.2]; rfl⟩
    rw [alts_upd V i k y fun k' _ => alts_dead hi k']
    exact h2
  · refine .inr ⟨e, ⟨s.own, t⟩, M.onExc_exc (inner_exc h1) ?_, by rw [put_self] at h2; exact h2, h.2⟩
    simp only [setType, upd_upd]
    rw [upd_eq _ _ _ (by rw [h.2]; simp [hi])]

theorem moveVariant_run (hF : Family C Rep) (h : RawRep Rep s V) (hi : V i = none) {k : κ} {y : ν k} (hj : V j = some ⟨k, y⟩) :
    ∃ s' y', moveVariant C i j s = .ok () s' ∧ RawRep Rep s' (upd (upd V j (some ⟨k, y'⟩)) i (some ⟨k, y⟩)) := by
  obtain ⟨t, y', h1, h2⟩ := moveFrom_run (s := ⟨upd s.own i (some k), s.mem⟩) hF h.1 hi hj
  refine ⟨⟨upd s.own i (some k), t⟩, y', M.noexcept_ok ?_, h2, ?_⟩
  · rw [M.bind_ok (type_run h hj), M.bind_ok (show setType i (some k) s = .ok () ⟨upd s.own i (some k), s.mem⟩ from rfl), h1]
  · rw [types_upd, types_upd, h.2, upd_eq (fun p => (V p).map Sigma.fst) j _ (by simp [hj])]; rfl

/-- the steps that destroy the value of variant `i` and move that of variant `j` there -/
theorem replace_run (hF : Family C Rep) (h : RawRep Rep s V) (hij : i ≠ j) {x : Σ k, ν k} {k : κ} {y : ν k} (hi : V i = some x) (hj : V j = some ⟨k, y⟩) :
    ∃ t t' y', type i s = .ok x.1 s ∧ destroy C x.1 i s = .ok () ⟨s.own, t⟩ ∧ type j (⟨s.own, t⟩ : With (Types κ) σ) = .ok k ⟨s.own, t⟩ ∧
      assignFrom C true k i j ⟨s.own, t⟩ = .ok () ⟨s.own, t'⟩ ∧
      RawRep Rep ⟨upd s.own i (some k), t'⟩ (upd (upd V j (some ⟨k, y'⟩)) i (some ⟨k, y⟩)) := by
  obtain ⟨kx, x⟩ := x
  obtain ⟨t, h1, h2⟩ := destroy_run hF h hi
  obtain ⟨t', y', h3, h4⟩ := moveFrom_run (s := ⟨s.own, t⟩) (i := i) (j := j) hF h2 (upd_same _ _ _) (by rw [upd_ne _ _ (Ne.symm hij)]; exact hj)
  refine ⟨t, t', y', type_run h hi, h1, by simp [type, h.2, hj], h3, ?_, ?_⟩
  · rw [upd_comm _ _ _ hij, upd_upd] at h4; exact h4
  · rw [types_upd, types_upd, h.2, upd_eq (fun p => (V p).map Sigma.fst) j _ (by simp [hj])]; rfl

theorem moveAssignVariant_run (hF : Family C Rep) (h : RawRep Rep s V) (hij : i ≠ j) {x : Σ k, ν k} {k : κ} {y : ν k} (hi : V i = some x) (hj : V j = some ⟨k, y⟩) :
    ∃ s' y', moveAssignVariant C i j s = .ok () s' ∧ RawRep Rep s' (upd (upd V j (some ⟨k, y'⟩)) i (some ⟨k, y⟩)) := by
  obtain ⟨t, t', y', h1, h2, h3, h4, h5⟩ := replace_run hF h hij hi hj
  refine ⟨_, y', M.noexcept_ok ?_, h5⟩
  rw [if_pos hij, M.bind_ok h1, M.bind_ok h2, M.bind_ok h3, M.bind_ok h4,
    M.bind_ok (show type j (⟨s.own, t'⟩ : With (Types κ) σ) = .ok k ⟨s.own, t'⟩ by simp [type, h.2, hj])]
  rfl

theorem assignVariant_res (hF : Family C Rep) (h : RawRep Rep s V) (h0 : V 0 = none) (hij : i ≠ j) {x y : Σ k, ν k} (hi : V i = some x) (hj : V j = some y) :
    Res (assignVariant C i j s) (fun s' => RawRep Rep s' (upd V i (some y))) (fun s' => RawRep Rep s' V) := by
  have hi0 : i ≠ 0 := fun he => by rw [he, h0] at hi; cases hi
  have hj0 : j ≠ 0 := fun he => by rw [he, h0] at hj; cases hj
  unfold assignVariant
  rw [if_pos hij]
  rcases copyVariant_res hF h h0 hj with ⟨s1, h1, h2⟩ | ⟨e, s1, h1, h2⟩
  · rw [M.bind_ok h1]
    obtain ⟨k, y⟩ := y
    obtain ⟨t, t', y', h3, h4, h5, h6, h7⟩ := replace_run (i := i) (j := 0) hF h2 hi0 (by rw [upd_ne _ _ hi0]; exact hi) (upd_same _ _ _)
    have h8 : type j (⟨s1.own, t'⟩ : With (Types κ) σ) = .ok k ⟨s1.own, t'⟩ := by simp [type, h2.2, upd_ne _ _ hj0, hj]
    obtain ⟨s2, h9, h10⟩ := dtorVariant_run (i := 0) hF h7 (by rw [upd_ne _ _ (Ne.symm hi0), upd_same])
    refine .ok (s := s2) (M.withDtor_ok (s' := ⟨upd s1.own i (some k), t'⟩) ?_ h9) ?_
    · rw [M.bind_ok h3, M.bind_ok h4, M.bind_ok h5, M.bind_ok h6, M.bind_ok h8]
      rfl
    · rw [upd_upd, upd_comm _ _ _ hi0, upd_upd, upd_eq V 0 none h0] at h10
      exact h10
  · rw [M.bind_exc h1]
    exact .inr ⟨e, s1, rfl, h2⟩

theorem stdSwap_run (hF : Family C Rep) (h : RawRep Rep s V) (h0 : V 0 = none) (hij : i ≠ j) {x y : Σ k, ν k} (hi : V i = some x) (hj : V j = some y) :
    ∃ s', stdSwap C i j s = .ok () s' ∧ RawRep Rep s' (upd (upd V i (some y)) j (some x)) := by
  have hi0 : i ≠ 0 := fun he => by rw [he, h0] at hi; cases hi
  have hj0 : j ≠ 0 := fun he => by rw [he, h0] at hj; cases hj
  obtain ⟨kx, x⟩ := x
  obtain ⟨ky, y⟩ := y
  obtain ⟨s1, x1, h1, h2⟩ := moveVariant_run (i := 0) (j := i) hF h h0 hi
  obtain ⟨s2, y1, h3, h4⟩ := moveAssignVariant_run (i := i) (j := j) (x := ⟨kx, x1⟩) (k := ky) (y := y) hF h2 hij
    (by rw [upd_ne _ _ hi0, upd_same]) (by rw [upd_ne _ _ hj0, upd_ne _ _ (Ne.symm hij)]; exact hj)
  obtain ⟨s3, x2, h5, h6⟩ := moveAssignVariant_run (i := j) (j := 0) (x := ⟨ky, y1⟩) (k := kx) (y := x) hF h4 hj0
    (by rw [upd_ne _ _ (Ne.symm hij), upd_same]) (by rw [upd_ne _ _ (Ne.symm hi0), upd_ne _ _ (Ne.symm hj0), upd_same])
  obtain ⟨s4, h7, h8⟩ := dtorVariant_run (i := 0) hF h6 (by rw [upd_ne _ _ (Ne.symm hj0), upd_same])
  refine ⟨s4, M.noexcept_ok ?_, ?_⟩
  · rw [M.bind_ok h1]
    refine M.withDtor_ok ?_ h7
    rw [M.bind_ok h3, h5]
  · refine cast (congrArg (RawRep Rep s4) ?_) h8
    funext p
    by_cases hp0 : p = 0
    · subst hp0; simp [upd, h0, hj0.symm, hi0.symm]
    · by_cases hpj : p = j
      · subst hpj; simp [upd, hj0]
      · by_cases hpi : p = i <;> simp [upd, hp0, hpj, hpi, hi0]

theorem swapVariant_run (hF : Family C Rep) (h : RawRep Rep s V) (h0 : V 0 = none) {x y : Σ k, ν k} (hi : V i = some x) (hj : V j = some y) :
    ∃ s', swapVariant C i j s = .ok () s' ∧ RawRep Rep s' (upd (upd V i (some y)) j (some x)) := by
  by_cases hij : i = j
  · subst hij
    rw [hi] at hj; cases hj
    refine ⟨s, M.noexcept_ok ?_, by rw [upd_upd, upd_eq _ _ _ hi]; exact h⟩
    rw [if_pos rfl]
    rfl
  · obtain ⟨kx, x⟩ := x
    obtain ⟨ky, y⟩ := y
    by_cases hk : kx = ky
    · subst hk
      obtain ⟨L, h'⟩ := hF.at kx h.1
      obtain ⟨t, h1, h2⟩ := L.swap h' (alts_live hi) (alts_live hj)
      refine ⟨⟨s.own, t⟩, M.noexcept_ok ?_, ?_, ?_⟩
      · rw [if_neg hij, M.bind_ok (type_run h hi), M.bind_ok (type_run h hj), if_pos rfl]
        exact M.noexcept_ok (inner_ok h1)
      · rw [alts_upd _ j kx x fun k' hk => by
            rw [alts_upd V i kx y fun k' hk => alts_other hi hk, put_ne _ _ hk]; exact alts_other hj hk,
          alts_upd V i kx y fun k' hk => alts_other hi hk, put_put, put_same]
        exact h2
      · rw [types_upd, types_upd, h.2, upd_eq (fun p => (V p).map Sigma.fst) i _ (by simp [hi]), upd_eq _ _ _ (by simp [hj])]
    · obtain ⟨s', h1, h2⟩ := stdSwap_run hF h h0 hij hi hj
      refine ⟨s', M.noexcept_ok ?_, h2⟩
      rw [if_neg hij, M.bind_ok (type_run h hi), M.bind_ok (type_run h hj), if_neg hk]
      exact h1

/-- there are no local variables between calls -/
def outer {α : Type} (V : Nat → Option α) : Nat → Option α
  | 0 => none
  | i + 1 => V i

theorem outer_upd {α : Type} (V : Nat → Option α) (i : Nat) (x : Option α) : outer (upd V i x) = upd (outer V) (i + 1) x := by
  funext p
  cases p with
  | zero => simp [outer, upd]
  | succ p => by_cases h : p = i <;> simp [outer, upd, h]

/-- which variants there are -/
def VarRep (Rep : σ → Maps ν → Prop) (s : With (Types κ) σ) (V : Nat → Option (Σ k, ν k)) : Prop := RawRep Rep s (outer V)

theorem variant_regular (h : RegularFamily C Rep Clean) : Regular (variant C) (VarRep (ν := ν) Rep) (fun s => Clean s.mem ∧ ∀ i, s.own i = none) where
  determ {s V V'} h1 h2 := by
    have hm := h.determ h1.1 h2.1
    have hf := h1.2.symm.trans h2.2
    funext i
    have hm : ∀ k, (V i).bind (alt k) = (V' i).bind (alt k) := fun k => congrFun (congrFun hm k) (i + 1)
    have hf : (V i).map Sigma.fst = (V' i).map Sigma.fst := congrFun hf (i + 1)
    cases hV : V i with
    | none => cases hV' : V' i with
      | none => rfl
      | some x => simp [hV, hV'] at hf
    | some x => cases hV' : V' i with
      | none => simp [hV, hV'] at hf
      | some x' =>
        rw [hV, hV'] at hm
        exact congrArg some (alt_inj hm)
  clean {s} h1 := by
    have : outer (fun _ => none : Nat → Option (Σ k, ν k)) = fun _ => none := by funext p; cases p <;> rfl
    rw [VarRep, this] at h1
    exact ⟨h.clean h1.1, fun i => by rw [h1.2]; rfl⟩
  copy {s V i j y} hr hi hj := (copyVariant_res (i := i + 1) (j := j + 1) h.laws hr hi hj).mono (fun s' hs => by rw [VarRep, outer_upd]; exact hs) fun s' hs => hs
  move {s V i j y} hr hi hj := by
    obtain ⟨k, y⟩ := y
    obtain ⟨s', y', h1, h2⟩ := moveVariant_run (i := i + 1) (j := j + 1) h.laws hr hi hj
    exact ⟨s', ⟨k, y'⟩, h1, by rw [VarRep, outer_upd, outer_upd]; exact h2⟩
  assign {s V i j x y} hr hij hi hj :=
    (assignVariant_res (i := i + 1) (j := j + 1) h.laws hr rfl (fun he => hij (Nat.succ.inj he)) hi hj).mono (fun s' hs => by rw [VarRep, outer_upd]; exact hs)
      fun s' hs => ⟨x, by rw [upd_eq _ _ _ hi]; exact hs⟩
  assignSelf {s V i x} hr hi := by
    refine .ok (s := s) ?_ hr
    show assignVariant C (i + 1) (i + 1) s = _
    rw [assignVariant, if_neg (fun h => h rfl)]
    rfl
  moveAssign {s V i j x y} hr hij hi hj := by
    obtain ⟨k, y⟩ := y
    obtain ⟨s', y', h1, h2⟩ := moveAssignVariant_run (i := i + 1) (j := j + 1) h.laws hr (fun he => hij (Nat.succ.inj he)) hi hj
    exact ⟨s', ⟨k, y'⟩, h1, by rw [VarRep, outer_upd, outer_upd]; exact h2⟩
  moveAssignSelf {s V i x} hr hi := by
    refine ⟨s, x, M.noexcept_ok ?_, by rw [upd_eq _ _ _ hi]; exact hr⟩
    rw [if_neg (fun h => h rfl)]
    rfl
  swap {s V i j x y} hr hi hj := by
    obtain ⟨s', h1, h2⟩ := swapVariant_run (i := i + 1) (j := j + 1) h.laws hr rfl hi hj
    exact ⟨s', h1, by rw [VarRep, outer_upd, outer_upd]; exact h2⟩
  dtor {s V i x} hr hi := by
    obtain ⟨s', h1, h2⟩ := dtorVariant_run (i := i + 1) h.laws hr hi
    exact ⟨s', h1, by rw [VarRep, outer_upd]; exact h2⟩

end Variant

end Ptl.Nested

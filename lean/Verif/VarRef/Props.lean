import Verif.VarRef.Client

/-!
# C52 (and C67 for `variant_ref`): binding, rebinding, access
-/

set_option linter.unusedSectionVars false

namespace Ptl.VarRef

variable {τ ν β : Type} [DecidableEq τ] {ts : List (CT τ)} {s s' : St τ ν} {w w' : View τ ν} {r q p k : Nat} {T T' U : CT τ}
  {op : Op τ ν} {e : Expr τ} {x : Option Exc} {b : Ob τ ν} {v : ν}

/-! ### the compile-time functions -/

/-- position of a type in the list -/
theorem determineIndex_spec (T : CT τ) : ∀ (ts : List (CT τ)) (n : Int),
    determineIndex T ts n = if T ∈ ts then n + ts.idxOf T else -1
  | [], n => by simp [determineIndex]
  | head :: tail, n => by
    unfold determineIndex
    by_cases h : T = head
    · subst h; simp
    · rw [if_neg h]
      by_cases ht : tail.length ≠ 0
      · rw [if_pos ht, determineIndex_spec T tail (n + 1)]
        by_cases hm : T ∈ tail
        · rw [if_pos hm, if_pos (List.mem_cons_of_mem _ hm), List.idxOf_cons]
          have : (head == T) = false := by simp [Ne.symm h]
          rw [this]
          simp only [cond_false]
          push_cast
          omega
        · rw [if_neg hm, if_neg (by simp [h, hm])]
      · rw [if_neg ht]
        have : tail = [] := by
          cases tail with
          | nil => rfl
          | cons _ _ => simp at ht
        subst this
        simp [h]

theorem determineIndex_mem (h : T ∈ ts) : determineIndex T ts 0 = (ts.idxOf T : Int) := by
  rw [determineIndex_spec, if_pos h]; simp
theorem determineIndex_not (h : T ∉ ts) : determineIndex T ts 0 = -1 := by
  rw [determineIndex_spec, if_neg h]

theorem canStore_iff : canStore ts T = true ↔ T ∈ ts := by
  unfold canStore
  by_cases h : T ∈ ts
  · rw [determineIndex_mem h]
    simp only [h, iff_true, bne_iff_ne]
    omega
  · rw [determineIndex_not h]; simp [h]

theorem validateUnique_iff : ∀ {ts : List (CT τ)}, validateUnique ts = true ↔ ts.Nodup
  | [] => by simp [validateUnique]
  | head :: tail => by
    unfold validateUnique
    by_cases ht : tail.length = 0
    · have : tail = [] := List.length_eq_zero_iff.mp ht
      subst this; simp
    · rw [if_neg ht]
      by_cases h : head ∈ tail
      · have : determineIndex head tail 0 ≠ -1 := by rw [determineIndex_mem h]; omega
        rw [if_pos this]; simp [h]
      · rw [determineIndex_not h]
        simp [h, validateUnique_iff]

theorem idx_at (h : T ∈ ts) : ts[ts.idxOf T]? = some T := by
  have hl : ts.idxOf T < ts.length := List.idxOf_lt_length_of_mem h
  rw [List.getElem?_eq_getElem hl, List.getElem_idxOf hl]

theorem idx_inj (h : T ∈ ts) (h' : T' ∈ ts) (he : ts.idxOf T = ts.idxOf T') : T = T' := by
  have := idx_at h
  rw [he, idx_at h'] at this
  exact (Option.some.inj this).symm

/-! ### running the model -/

theorem getRef_ok {x : Ref} (h : s.ref r = some x) : getRef r s = .ok x s := by simp [getRef, h]
theorem getType_ok {x : Ref} {t : Nat} (h : s.ref r = some x) (ht : x.type = some t) : getType r s = .ok t s := by
  unfold getType
  rw [M.bind_ok (getRef_ok h), ht]
  rfl
theorem setType_ok {x : Ref} {t : Nat} (h : s.ref r = some x) :
    setType r t s = .ok () { s with ref := upd s.ref r (some { x with type := some t }) } := by simp [setType, h]
theorem lvalue_ok (h : s.obj p = some b) (ha : b.alive = true) : lvalue p s = .ok () s := by simp [lvalue, h, ha]

theorem Storage.get_at : ∀ {I d : Nat} {ts : List (CT τ)} {x : Ref}, ts[I]? = some T → s.ref r = some x →
    x.slot = some (d + I, p) → Storage.get r I d ts s = .ok (T, p) s
  | 0, d, head :: tail, x, hT, hr, hx => by
    have hT : head = T := by simpa using hT
    subst hT
    unfold Storage.get
    rw [M.bind_ok (getRef_ok hr)]
    simp only [hx, Nat.add_zero, ↓reduceIte]
    rfl
  | I + 1, d, head :: tail, x, hT, hr, hx => by
    have hT : tail[I]? = some T := by simpa using hT
    exact Storage.get_at (d := d + 1) hT hr (by rw [hx]; simp; omega)
  | 0, d, [], x, hT, hr, hx => by simp at hT
  | I + 1, d, [], x, hT, hr, hx => by simp at hT

theorem Storage.set_at : ∀ {I d : Nat} {ts : List (CT τ)} {x : Ref}, ts[I]? = some T → s.ref r = some x →
    U.base = T.base → (U.const → T.const) →
    Storage.set r U p I d ts s = .ok () { s with ref := upd s.ref r (some { x with slot := some (d + I, p) }) }
  | 0, d, head :: tail, x, hT, hr, hb, hc => by
    have hT : head = T := by simpa using hT
    subst hT
    unfold Storage.set
    rw [if_pos ⟨hb, hc⟩]
    exact M.bind_ok (getRef_ok hr)
  | I + 1, d, head :: tail, x, hT, hr, hb, hc => by
    have hT : tail[I]? = some T := by simpa using hT
    rw [show d + (I + 1) = d + 1 + I from by omega]
    exact Storage.set_at (d := d + 1) hT hr hb hc
  | 0, d, [], x, hT, _, _, _ => by simp at hT
  | I + 1, d, [], x, hT, _, _, _ => by simp at hT

/-- the representation of a reference -/
def rep (ts : List (CT τ)) (a : CT τ × Nat) : Ref := ⟨some (ts.idxOf a.1, a.2), some (ts.idxOf a.1)⟩

/-- the model state is what the client knows; and references respect types and `const` -/
structure Inv (ts : List (CT τ)) (s : St τ ν) (w : View τ ν) : Prop where
  obj : s.obj = w.P
  ref : ∀ r, s.ref r = (w.R r).map (rep ts)
  mem : ∀ r T p, w.R r = some (T, p) → T ∈ ts
  typed : ∀ r T p, w.R r = some (T, p) → ∃ b, w.P p = some b ∧ b.ty.base = T.base ∧ (b.ty.const = true → T.const = true)

theorem Inv.at (h : Inv ts s w) (hr : w.R r = some (T, p)) : s.ref r = some (rep ts (T, p)) := by
  rw [h.ref, hr]; rfl
theorem Inv.none (h : Inv ts s w) (hr : w.R r = none) : s.ref r = none := by
  rw [h.ref, hr]; rfl

theorem Inv.rebind (h : Inv ts s w) {s' : St τ ν} {a : CT τ × Nat}
    (ho : s'.obj = s.obj) (hs : s'.ref = upd s.ref r (some (rep ts a))) (hm : a.1 ∈ ts)
    (ht : ∃ b, w.P a.2 = some b ∧ b.ty.base = a.1.base ∧ (b.ty.const = true → a.1.const = true)) :
    Inv ts s' { w with R := upd w.R r (some a) } := by
  refine ⟨by rw [ho, h.obj], fun q => ?_, fun q T p hq => ?_, fun q T p hq => ?_⟩
  · rw [hs]
    show _ = (upd w.R r (some a) q).map _
    by_cases e : q = r
    · subst e; simp
    · rw [upd_ne _ _ e, upd_ne _ _ e, h.ref]
  · have hq : upd w.R r (some a) q = some (T, p) := hq
    by_cases e : q = r
    · subst e; rw [upd_same] at hq; cases hq; exact hm
    · rw [upd_ne _ _ e] at hq; exact h.mem q T p hq
  · have hq : upd w.R r (some a) q = some (T, p) := hq
    by_cases e : q = r
    · subst e; rw [upd_same] at hq; cases hq; exact ht
    · rw [upd_ne _ _ e] at hq; exact h.typed q T p hq

/-- changing an object but not its type -/
theorem Inv.change (h : Inv ts s w) {b b' : Ob τ ν} (hk : w.P k = some b) (ht : b'.ty = b.ty) :
    Inv ts { s with obj := upd s.obj k (some b') } { w with P := upd w.P k (some b') } := by
  refine ⟨by show upd s.obj k _ = upd w.P k _; rw [h.obj], h.ref, h.mem, fun r T p hr => ?_⟩
  obtain ⟨c, hc, h1, h2⟩ := h.typed r T p hr
  by_cases e : p = k
  · subst e
    rw [hk] at hc; cases hc
    exact ⟨b', upd_same _ _ _, by rw [ht]; exact h1, by rw [ht]; exact h2⟩
  · exact ⟨c, by show upd w.P k _ p = _; rw [upd_ne _ _ e]; exact hc, h1, h2⟩

theorem Inv.write (h : Inv ts s w) (hr : w.R r = some (T, p)) (hc : T.const = false) (hp : w.P p = some b)
    (ha : b.alive = true) : writePtr T p v s = .ok () { s with obj := upd s.obj p (some { b with val := v }) } := by
  obtain ⟨b', hb', h1, h2⟩ := h.typed r T p hr
  rw [hp] at hb'; cases hb'
  have h2 : b.ty.const = false := by
    cases hbc : b.ty.const with
    | false => rfl
    | true => rw [h2 hbc] at hc; cases hc
  unfold writePtr
  rw [h.obj, hp]
  simp [ha, h1, h2, hc]

theorem Inv.read (h : Inv ts s w) (hr : w.R r = some (T, p)) (hp : w.P p = some b)
    (ha : b.alive = true) : readPtr T p s = .ok b.val s := by
  obtain ⟨b', hb', h1, h2⟩ := h.typed r T p hr
  rw [hp] at hb'; cases hb'
  unfold readPtr
  rw [h.obj, hp]
  simp [ha, h1]

theorem dispatch_at {f : Nat → RM τ ν β} (h : T ∈ ts) : dispatch ts (ts.idxOf T) f = f (ts.idxOf T) := by
  unfold dispatch
  rw [if_pos (List.idxOf_lt_length_of_mem h)]

theorem storage_get (h : Inv ts s w) (hr : w.R r = some (T, p)) : Storage.get r (ts.idxOf T) 0 ts s = .ok (T, p) s :=
  Storage.get_at (idx_at (h.mem r T p hr)) (h.at hr) (by simp [rep])

theorem Inv.shows (h : Inv ts s w) (hr : w.R r = some (T, p)) : Shows ts s r T p := by
  have hm := h.mem r T p hr
  have ht : getType r s = .ok (ts.idxOf T) s := getType_ok (h.at hr) rfl
  have hh : holds ts T r s = .ok true s := by
    unfold holds
    rw [M.bind_ok ht, determineIndex_mem hm]
    simp only [decide_true]
    rfl
  have hgi : getIf ts T r s = .ok (some p) s := by
    unfold getIf
    rw [M.bind_ok hh]
    simp only [Bool.not_true, Bool.false_eq_true, ↓reduceIte]
    rw [M.bind_ok ht]
    have : getImpl ts T (ts.idxOf T) r s = .ok p s := by
      unfold getImpl
      rw [dispatch_at hm, M.bind_ok (storage_get h hr)]
      simp only [↓reduceIte]
      rfl
    exact M.bind_ok this
  refine ⟨hh, hgi, M.bind_ok hgi, fun T' hT' hne => ?_⟩
  have hh' : holds ts T' r s = .ok false s := by
    unfold holds
    rw [M.bind_ok ht, determineIndex_mem hT']
    have : ¬ ((ts.idxOf T : Int) = ts.idxOf T') := by
      intro e
      exact hne (idx_inj hm hT' (by exact_mod_cast e)).symm
    simp only [this, decide_false]
    rfl
  have hgi' : getIf ts T' r s = .ok Option.none s := by
    unfold getIf
    rw [M.bind_ok hh']
    rfl
  exact ⟨hh', hgi', M.bind_ok hgi'⟩

theorem visit_ok (h : Inv ts s w) (hr : w.R r = some (T, p)) (hp : w.P p = some b) (ha : b.alive = true)
    {H : CT τ} {rest : List (CT τ)} (hts : ts = H :: rest) (conv : CT τ → CT τ → β → β) (vis : CT τ → Nat → RM τ ν β) :
    visit ts conv r vis s = (do
      let y ← vis T p
      pure (conv T H y)) s := by
  have hm := h.mem r T p hr
  unfold visit
  rw [M.bind_ok (getType_ok (h.at hr) rfl : getType r s = .ok (ts.idxOf T) s)]
  unfold visitImpl
  rw [dispatch_at hm, M.bind_ok (storage_get h hr)]
  show ((lvalue p >>= fun _ => vis T p >>= fun b => pure _) : RM τ ν β) s = _
  rw [M.bind_ok (lvalue_ok (by rw [h.obj]; exact hp) ha)]
  subst hts
  rfl

theorem accepts_iff : accepts ts e = true ↔ ∃ T, Binds ts e T := by
  unfold accepts
  rw [Bool.or_eq_true, Bool.and_eq_true, canStore_iff, canStore_iff]
  constructor
  · rintro (⟨h1, h2⟩ | h)
    · exact ⟨_, .exact h1 h2⟩
    · by_cases hb : e.lval = true ∧ (⟨e.base, e.const⟩ : CT τ) ∈ ts
      · exact ⟨_, .exact hb.1 hb.2⟩
      · refine ⟨_, .toConst ?_ h⟩
        cases hl : e.lval with
        | false => exact .inl rfl
        | true => exact .inr fun h' => hb ⟨hl, h'⟩
  · rintro ⟨T, h⟩
    cases h with
    | exact h1 h2 => exact .inl ⟨h1, h2⟩
    | toConst _ h2 => exact .inr h2

theorem Binds.mem (h : Binds ts e T) : T ∈ ts := by
  cases h with
  | exact _ h => exact h
  | toConst _ h => exact h

theorem ctor_ok (h : Inv ts s w) (hr : w.R r = none) (hb : Binds ts e T) :
    ctor ts r e p s = .ok () { s with ref := upd s.ref r (some (rep ts (T, p))) } := by
  have hm := hb.mem
  have h0 : newRef r s = .ok () { s with ref := upd s.ref r (some ⟨none, none⟩) } := by
    simp [newRef, h.none hr]
  unfold ctor
  rw [M.bind_ok h0]
  have fin : ∀ (n : Int), n = ts.idxOf T → e.base = T.base → (e.const → T.const) →
      ((setType r n.toNat >>= fun _ => Storage.set r ⟨e.base, e.const⟩ p n.toNat 0 ts : RM τ ν Unit))
        { s with ref := upd s.ref r (some ⟨none, none⟩) } = .ok () { s with ref := upd s.ref r (some (rep ts (T, p))) } := by
    intro n hn h1 h2
    subst hn
    rw [Int.toNat_natCast]
    rw [M.bind_ok (setType_ok (s := { s with ref := upd s.ref r (some ⟨none, none⟩) }) (upd_same _ _ _))]
    rw [Storage.set_at (s := { s with ref := _ }) (idx_at hm) (upd_same _ _ _) h1 h2]
    simp [rep]
  cases hb with
  | exact h1 h2 =>
    have : (determineIndex ⟨e.base, e.const⟩ ts 0) ≠ -1 := by rw [determineIndex_mem h2]; omega
    rw [if_pos ⟨h1, this⟩]
    exact fin _ (determineIndex_mem h2) rfl id
  | toConst h1 h2 =>
    have : ¬ (e.lval = true ∧ (determineIndex ⟨e.base, e.const⟩ ts 0) ≠ -1) := by
      rintro ⟨ha, hb⟩
      rcases h1 with h1 | h1
      · rw [h1] at ha; cases ha
      · exact hb (determineIndex_not h1)
    rw [if_neg this]
    exact fin _ (determineIndex_mem h2) rfl fun _ => rfl

theorem assignImpl_ok (h : Inv ts s w) (hq : w.R q = some (T, p)) (hp : w.P p = some b) (ha : b.alive = true)
    {s1 : St τ ν} (ho : s1.obj = s.obj) {sl : Option (Nat × Nat)} (hr : s1.ref r = some ⟨sl, some (ts.idxOf T)⟩)
    (hsrc : ∃ t, s1.ref q = some ⟨some (ts.idxOf T, p), t⟩) :
    assignImpl ts (ts.idxOf T) r q s1 = .ok () { s1 with ref := upd s1.ref r (some (rep ts (T, p))) } := by
  have hm := h.mem q T p hq
  obtain ⟨t, hsrc⟩ := hsrc
  unfold assignImpl
  rw [dispatch_at hm, M.bind_ok (Storage.get_at (p := p) (idx_at hm) hsrc (by simp))]
  show ((lvalue p >>= fun _ => Storage.set r T p _ 0 ts) : RM τ ν Unit) s1 = _
  rw [M.bind_ok (lvalue_ok (by rw [ho, h.obj]; exact hp) ha), Storage.set_at (idx_at hm) hr rfl id]
  simp [rep]

theorem ctorCopy_ok (h : Inv ts s w) (hr : w.R r = none) (hq : w.R q = some (T, p)) (hp : w.P p = some b)
    (ha : b.alive = true) : ctorCopy ts r q s = .ok () { s with ref := upd s.ref r (some (rep ts (T, p))) } := by
  have hqr : q ≠ r := by intro e; subst e; rw [hr] at hq; cases hq
  have h0 : newRef r s = .ok () { s with ref := upd s.ref r (some ⟨none, none⟩) } := by
    simp [newRef, h.none hr]
  have hq' : upd s.ref r (some ⟨none, none⟩) q = some (rep ts (T, p)) := by rw [upd_ne _ _ hqr]; exact h.at hq
  unfold ctorCopy
  rw [M.bind_ok h0, M.bind_ok (getType_ok (s := { s with ref := _ }) hq' rfl),
    M.bind_ok (setType_ok (s := { s with ref := _ }) (upd_same _ _ _))]
  simp only [upd_upd]
  show assignImpl ts (ts.idxOf T) r q { s with ref := upd s.ref r (some ⟨none, some (ts.idxOf T)⟩) } = _
  rw [assignImpl_ok (r := r) (s1 := { s with ref := upd s.ref r (some ⟨none, some (ts.idxOf T)⟩) }) h hq hp ha rfl (upd_same _ _ _)
    ⟨some (ts.idxOf T), by show upd s.ref r _ q = _; rw [upd_ne _ _ hqr]; exact h.at hq⟩]
  simp

theorem assign_ok (h : Inv ts s w) (hr : w.R r = some (T', k)) (hq : w.R q = some (T, p)) (hp : w.P p = some b)
    (ha : b.alive = true) : assign ts r q s = .ok () { s with ref := upd s.ref r (some (rep ts (T, p))) } := by
  unfold assign
  rw [M.bind_ok (getType_ok (h.at hq) rfl), M.bind_ok (setType_ok (h.at hr))]
  have hsrc : ∃ t, (upd s.ref r (some { rep ts (T', k) with type := some (ts.idxOf (T, p).1) })) q =
      some ⟨some (ts.idxOf T, p), t⟩ := by
    by_cases e : q = r
    · subst e
      rw [hr] at hq; cases hq
      exact ⟨_, upd_same _ _ _⟩
    · exact ⟨some (ts.idxOf T), by rw [upd_ne _ _ e]; exact h.at hq⟩
  have := assignImpl_ok (r := r)
    (s1 := { s with ref := upd s.ref r (some { rep ts (T', k) with type := some (ts.idxOf (T, p).1) }) })
    h hq hp ha rfl (upd_same _ _ _) hsrc
  rw [this]
  simp

/-- the outcome of a call that should turn `w` into `w'` and throw `x`, if anything -/
def Meets (ts : List (CT τ)) (x : Option Exc) (w' : View τ ν) : Out (St τ ν) Unit → Prop
  | .ok _ s' => x = none ∧ Inv ts s' w'
  | .exc e s' => x = some e ∧ Inv ts s' w'
  | .ub _ => False
  | .term => False

theorem Meets.of_ok {out : Out (St τ ν) Unit} (e : out = .ok () s') (h : Inv ts s' w') : Meets ts none w' out := by
  subst e; exact ⟨rfl, h⟩
theorem Meets.of_exc {out : Out (St τ ν) Unit} {x : Exc} (e : out = .exc x s') (h : Inv ts s' w') :
    Meets ts (some x) w' out := by
  subst e; exact ⟨rfl, h⟩

theorem step (h : Inv ts s w) (hs : Spec ts op w x w') : Meets ts x w' (op.run ts s) := by
  cases hs with
  | @newObj k T v _ hk =>
    refine .of_ok (s' := { s with obj := upd s.obj k (some ⟨T, v, true⟩) }) (by simp [Op.run, newObj, h.obj, hk]) ?_
    refine ⟨by show upd s.obj k _ = upd w.P k _; rw [h.obj], h.ref, h.mem, fun r U p hr => ?_⟩
    obtain ⟨c, hc, h1, h2⟩ := h.typed r U p hr
    have : p ≠ k := by intro e; subst e; rw [hk] at hc; cases hc
    exact ⟨c, by show upd w.P k _ p = _; rw [upd_ne _ _ this]; exact hc, h1, h2⟩
  | @setObj k v b _ hk ha hc =>
    refine .of_ok (s' := { s with obj := upd s.obj k (some { b with val := v }) }) ?_ (h.change hk rfl)
    show setObj k v s = _
    unfold setObj writePtr
    rw [h.obj, hk]
    simp [ha, hc]
  | @killObj k b _ hk ha =>
    refine .of_ok (s' := { s with obj := upd s.obj k (some { b with alive := false }) }) ?_ (h.change hk rfl)
    simp [Op.run, killObj, h.obj, hk, ha]
  | @ctor r e p b T _ hr hp ha hb hc hbind =>
    refine .of_ok (ctor_ok h hr hbind) (h.rebind rfl rfl hbind.mem ⟨b, hp, ?_, ?_⟩)
    · cases hbind with
      | exact => exact hb
      | toConst => exact hb
    · intro hbc
      cases hbind with
      | exact => exact hc hbc
      | toConst => rfl
  | @ctorCopy r q T p b _ hr hq hp ha =>
    exact .of_ok (ctorCopy_ok h hr hq hp ha) (h.rebind rfl rfl (h.mem q T p hq) (h.typed q T p hq))
  | @assign r q T T' p p' b _ hr hq hp ha =>
    exact .of_ok (assign_ok h hr hq hp ha) (h.rebind rfl rfl (h.mem q T p hq) (h.typed q T p hq))
  | @dtor r x _ hr =>
    refine .of_ok (s' := { s with ref := upd s.ref r none }) (M.bind_ok (getRef_ok (h.at hr))) ⟨h.obj, fun q => ?_, fun q T p hq => ?_, fun q T p hq => ?_⟩
    · show upd s.ref r none q = (upd w.R r none q).map _
      by_cases e : q = r
      · subst e; simp
      · rw [upd_ne _ _ e, upd_ne _ _ e, h.ref]
    · have hq : upd w.R r none q = some (T, p) := hq
      by_cases e : q = r
      · subst e; simp at hq
      · rw [upd_ne _ _ e] at hq; exact h.mem q T p hq
    · have hq : upd w.R r none q = some (T, p) := hq
      by_cases e : q = r
      · subst e; simp at hq
      · rw [upd_ne _ _ e] at hq; exact h.typed q T p hq
  | @write r T p b v _ hr hc hp ha =>
    exact .of_ok (M.bind_ok (h.shows hr).get |>.trans (h.write hr hc hp ha)) (h.change hp rfl)
  | @writeOther r T T' p v _ hr hT hne =>
    exact .of_exc (M.bind_exc ((h.shows hr).other T hT hne).2.2) h
  | @writeIf r T p b v _ hr hc hp ha =>
    exact .of_ok (M.bind_ok (h.shows hr).getIf |>.trans (h.write hr hc hp ha)) (h.change hp rfl)
  | @writeIfOther r T T' p v _ hr hT hne =>
    exact .of_ok (M.bind_ok ((h.shows hr).other T hT hne).2.1) h
  | @visitWrite r T p b f _ hr hc hp ha =>
    cases hts : ts with
    | nil => have := h.mem r T p hr; rw [hts] at this; cases this
    | cons H rest =>
      rw [← hts]
      refine .of_ok (s' := { s with obj := upd s.obj p (some { b with val := f T.base b.val }) }) ?_ (h.change hp rfl)
      refine (visit_ok h hr hp ha hts _ _).trans ?_
      rw [if_neg (by simp [hc])]
      have : (readPtr T p >>= fun v => writePtr T p (f T.base v) : RM τ ν Unit) s =
          .ok () { s with obj := upd s.obj p (some { b with val := f T.base b.val }) } :=
        M.bind_ok (h.read hr hp ha) |>.trans (h.write hr hc hp ha)
      exact M.bind_ok this
  | @visitConst r T p b f _ hr hc hp ha =>
    cases hts : ts with
    | nil => have := h.mem r T p hr; rw [hts] at this; cases this
    | cons H rest =>
      rw [← hts]
      refine .of_ok ((visit_ok h hr hp ha hts _ _).trans ?_) h
      rw [if_pos hc]
      rfl

theorem Reach.inv (h : Reach ts s w) : Inv ts s w := by
  induction h with
  | start => exact ⟨rfl, fun _ => rfl, (fun _ _ _ h => by cases h), (fun _ _ _ h => by cases h)⟩
  | ok _ hs hr ih => have := step ih hs; rw [hr] at this; exact this.2
  | thrown _ hs hr ih => have := step ih hs; rw [hr] at this; exact this.2

theorem Reach.next (h : Reach ts s w) (hs : Spec ts op w none w') : ∃ s', op.run ts s = .ok () s' ∧ Reach ts s' w' := by
  have := step h.inv hs
  cases hr : op.run ts s with
  | ok u s' => exact ⟨s', rfl, h.ok hs hr⟩
  | exc e s' => rw [hr] at this; cases this.1
  | ub => rw [hr] at this; exact this.elim
  | term => rw [hr] at this; exact this.elim

/-! ### a concrete program: alternatives `int`, `const int`, `const str` -/

/-- two types -/
inductive Ty where
  | int | str
  deriving DecidableEq, Repr

/-- the alternatives -/
def demoTs : List (CT Ty) := [⟨.int, false⟩, ⟨.int, true⟩, ⟨.str, true⟩]

/-- objects: 0 an `int`, 1 a `const int`, 2 a (non-const) `str`; references to them, as lvalues -/
def demoW : View Ty Nat where
  P := upd (upd (upd (fun _ => none) 0 (some ⟨⟨.int, false⟩, 7, true⟩)) 1 (some ⟨⟨.int, true⟩, 8, true⟩))
    2 (some ⟨⟨.str, false⟩, 9, true⟩)
  R := upd (upd (upd (fun _ => none) 0 (some (⟨.int, false⟩, 0))) 1 (some (⟨.int, true⟩, 1))) 2 (some (⟨.str, true⟩, 2))

/-- the program runs -/
theorem demo : ∃ s, Reach demoTs s demoW := by
  obtain ⟨s1, _, h1⟩ := (Reach.start (ts := demoTs) (ν := Nat)).next (.newObj (k := 0) (T := ⟨.int, false⟩) (v := 7) rfl)
  obtain ⟨s2, _, h2⟩ := h1.next (.newObj (k := 1) (T := ⟨.int, true⟩) (v := 8) rfl)
  obtain ⟨s3, _, h3⟩ := h2.next (.newObj (k := 2) (T := ⟨.str, false⟩) (v := 9) rfl)
  obtain ⟨s4, _, h4⟩ := h3.next (.ctor (r := 0) (e := ⟨.int, false, true⟩) (p := 0) (T := ⟨.int, false⟩) rfl rfl rfl rfl
    (by decide) (.exact rfl (by decide)))
  obtain ⟨s5, _, h5⟩ := h4.next (.ctor (r := 1) (e := ⟨.int, true, true⟩) (p := 1) (T := ⟨.int, true⟩) rfl rfl rfl rfl
    (by decide) (.exact rfl (by decide)))
  obtain ⟨s6, _, h6⟩ := h5.next (.ctor (r := 2) (e := ⟨.str, false, true⟩) (p := 2) (T := ⟨.str, true⟩) rfl rfl rfl rfl
    (by decide) (.toConst (.inr (by decide)) (by decide)))
  exact ⟨s6, h6⟩

/-! ## C52 -/

/-- C52: the static assertion accepts exactly the lists without duplicates -/
theorem C52_alternatives : wellFormed ts = true ↔ Alts ts := by
  unfold wellFormed
  rw [Bool.and_eq_true, validateUnique_iff, decide_eq_true_iff]
  exact ⟨fun h => ⟨h.1, h.2⟩, fun h => ⟨h.1, h.2⟩⟩

/-- C52: the constructor exists exactly for the expressions that can be bound to an alternative -/
theorem C52_accepts : accepts ts e = true ↔ ∃ T, Binds ts e T := accepts_iff

/-- C52: … that is: for an lvalue if the exact type or its const version is an alternative, for an rvalue if the const
version is -/
theorem C52_rejects : accepts ts e = false ↔
    (⟨e.base, true⟩ : CT τ) ∉ ts ∧ (e.lval = true → (⟨e.base, e.const⟩ : CT τ) ∉ ts) := by
  rw [← Bool.not_eq_true, accepts, Bool.or_eq_true, Bool.and_eq_true, canStore_iff, canStore_iff]
  exact ⟨fun h => ⟨fun h1 => h (.inr h1), fun h1 h2 => h (.inl ⟨h1, h2⟩)⟩,
    fun h => fun | .inl h1 => h.2 h1.1 h1.2 | .inr h1 => h.1 h1⟩

theorem Binds.unique (h : Binds ts e T) (h' : Binds ts e T') : T = T' := by
  cases h with
  | exact h1 h2 =>
    cases h' with
    | exact => rfl
    | toConst h3 _ =>
      rcases h3 with h3 | h3
      · rw [h1] at h3; cases h3
      · exact (h3 h2).elim
  | toConst h1 h2 =>
    cases h' with
    | exact h3 h4 =>
      rcases h1 with h1 | h1
      · rw [h1] at h3; cases h3
      · exact (h1 h4).elim
    | toConst => rfl

theorem Binds.mutable (h : Binds ts e T) (hT : T.const = false) : e.lval = true ∧ e.const = false := by
  cases h with
  | exact h1 _ => exact ⟨h1, hT⟩
  | toConst => cases hT

/-- C52: construction binds the reference to the alternative and the object -/
theorem C52_binds (h : Reach ts s w) (hr : w.R r = none) (hp : w.P p = some b) (ha : b.alive = true)
    (hb : b.ty.base = e.base) (hc : b.ty.const = true → e.const = true) (hbind : Binds ts e T) :
    ∃ s', Op.run ts (.ctor r e p) s = .ok () s' ∧ Shows ts s' r T p ∧ s'.obj = s.obj :=
  ⟨_, ctor_ok h.inv hr hbind,
    (h.ok (.ctor hr hp ha hb hc hbind) (ctor_ok h.inv hr hbind)).inv.shows (by show upd w.R r _ r = _; simp), rfl⟩

/-- C52: an expression is bound to one alternative: `holds` says so of that one and of no other -/
theorem C52_unique (h : Reach ts s w) (hr : w.R r = none) (hp : w.P p = some b) (ha : b.alive = true)
    (hb : b.ty.base = e.base) (hc : b.ty.const = true → e.const = true) (hbind : Binds ts e T) :
    ∃ s', Op.run ts (.ctor r e p) s = .ok () s' ∧ ∀ T' ∈ ts, holds ts T' r s' = .ok (decide (T' = T)) s' := by
  obtain ⟨s', hrun, hsh, _⟩ := C52_binds h hr hp ha hb hc hbind
  refine ⟨s', hrun, fun T' hT' => ?_⟩
  by_cases hT : T' = T
  · subst hT; rw [hsh.holds]; simp
  · rw [(hsh.other T' hT' hT).1]; simp [hT]

/-- C52: a mutable alternative is bound to a mutable lvalue only -/
theorem C52_const_safe (h : Reach ts s w) (hs : Spec ts (.ctor r e p) w x w') (hrun : Op.run ts (.ctor r e p) s = .ok () s')
    (hT : T ∈ ts) (hm : T.const = false) (hh : holds ts T r s' = .ok true s') : e.lval = true ∧ e.const = false := by
  cases hs with
  | ctor hr hp ha hb hc hbind =>
    obtain ⟨s'', hrun', hall⟩ := C52_unique h hr hp ha hb hc hbind
    rw [hrun] at hrun'; cases hrun'
    have := (hall T hT).symm.trans hh
    simp only [Out.ok.injEq, decide_eq_true_eq, and_true] at this
    subst this
    exact hbind.mutable hm

/-- C52: after every history, each reference shows the alternative and object it was last bound to -/
theorem C52_refers (h : Reach ts s w) (hr : w.R r = some (T, p)) : Shows ts s r T p := h.inv.shows hr

/-- what the client sees is what the specification says: of all objects and references -/
def Agrees (ts : List (CT τ)) (s : St τ ν) (w : View τ ν) : Prop :=
  s.obj = w.P ∧ ∀ r, (∀ T p, w.R r = some (T, p) → Shows ts s r T p) ∧ (w.R r = none → s.ref r = none)

theorem Reach.agrees (h : Reach ts s w) : Agrees ts s w :=
  ⟨h.inv.obj, fun _ => ⟨fun _ _ hr => C52_refers h hr, fun hr => h.inv.none hr⟩⟩

/-- C52: every call within its precondition has the specified outcome; it is never undefined and never terminates -/
theorem C52_call (h : Reach ts s w) (hs : Spec ts op w x w') :
    match op.run ts s with
    | .ok _ s' => x = none ∧ Reach ts s' w' ∧ Agrees ts s' w'
    | .exc e s' => x = some e ∧ Reach ts s' w' ∧ Agrees ts s' w'
    | .ub _ => False
    | .term => False := by
  have := step h.inv hs
  cases hr : op.run ts s with
  | ok u s' => rw [hr] at this; exact ⟨this.1, h.ok hs hr, (h.ok hs hr).agrees⟩
  | exc e s' => rw [hr] at this; exact ⟨this.1, h.thrown hs hr, (h.thrown hs hr).agrees⟩
  | ub => rw [hr] at this; exact this
  | term => rw [hr] at this; exact this

/-- C52: throughout, a reference to a const object is one to a const alternative; types agree -/
theorem C52_typed (h : Reach ts s w) (hr : w.R r = some (T, p)) :
    T ∈ ts ∧ ∃ b, s.obj p = some b ∧ b.ty.base = T.base ∧ (b.ty.const = true → T.const = true) := by
  obtain ⟨b, hb⟩ := h.inv.typed r T p hr
  exact ⟨h.inv.mem r T p hr, b, by rw [h.inv.obj]; exact hb⟩

theorem Spec.const_object (hs : Spec ts op w x w') (hp : w.P p = some b) (hc : b.ty.const = true) (h : Reach ts s w) :
    ∃ b', w'.P p = some b' ∧ b'.val = b.val ∧ b'.ty = b.ty := by
  have hput : ∀ {k : Nat} {c : Ob τ ν} {v : ν}, w.P k = some c → c.ty.const = false →
      ∃ b', (w.put k c v).P p = some b' ∧ b'.val = b.val ∧ b'.ty = b.ty := by
    intro k c v hk hcc
    have : p ≠ k := by intro e; subst e; rw [hp] at hk; cases hk; rw [hc] at hcc; cases hcc
    exact ⟨b, by show upd w.P k _ p = _; rw [upd_ne _ _ this]; exact hp, rfl, rfl⟩
  have hmut : ∀ {r k : Nat} {U : CT τ} {c : Ob τ ν}, w.R r = some (U, k) → U.const = false → w.P k = some c →
      c.ty.const = false := by
    intro r k U c hr hU hk
    obtain ⟨b', hb', _, h2⟩ := h.inv.typed r U k hr
    rw [hk] at hb'; cases hb'
    cases hcc : c.ty.const with
    | false => rfl
    | true => rw [h2 hcc] at hU; cases hU
  cases hs with
  | @newObj k T v _ hk =>
    have : p ≠ k := by intro e; subst e; rw [hp] at hk; cases hk
    exact ⟨b, by show upd w.P k _ p = _; rw [upd_ne _ _ this]; exact hp, rfl, rfl⟩
  | setObj hk _ hcc => exact hput hk hcc
  | @killObj k c _ hk _ =>
    by_cases e : p = k
    · subst e
      rw [hp] at hk; cases hk
      exact ⟨_, upd_same _ _ _, rfl, rfl⟩
    · exact ⟨b, by show upd w.P k _ p = _; rw [upd_ne _ _ e]; exact hp, rfl, rfl⟩
  | ctor => exact ⟨b, hp, rfl, rfl⟩
  | ctorCopy => exact ⟨b, hp, rfl, rfl⟩
  | assign => exact ⟨b, hp, rfl, rfl⟩
  | dtor => exact ⟨b, hp, rfl, rfl⟩
  | write hr hU hk _ => exact hput hk (hmut hr hU hk)
  | writeOther => exact ⟨b, hp, rfl, rfl⟩
  | writeIf hr hU hk _ => exact hput hk (hmut hr hU hk)
  | writeIfOther => exact ⟨b, hp, rfl, rfl⟩
  | visitWrite hr hU hk _ => exact hput hk (hmut hr hU hk)
  | visitConst => exact ⟨b, hp, rfl, rfl⟩

/-- C52: no call changes a const object's value (calls do not write to const objects) -/
theorem C52_const_object (h : Reach ts s w) (hs : Spec ts op w x w') (hp : s.obj p = some b) (hc : b.ty.const = true)
    (hrun : op.run ts s = .ok () s' ∨ ∃ e, op.run ts s = .exc e s') :
    ∃ b', s'.obj p = some b' ∧ b'.val = b.val ∧ b'.ty = b.ty := by
  rw [h.inv.obj] at hp
  have h' : Reach ts s' w' := by
    rcases hrun with hrun | ⟨e, hrun⟩
    · exact h.ok hs hrun
    · exact h.thrown hs hrun
  rw [h'.inv.obj]
  exact hs.const_object hp hc h

/-- C52: assignment rebinds: both references then refer to the same object and alternative; no object changes; other
references stay as they are -/
theorem C52_assign (h : Reach ts s w) (hr : w.R r = some (T', k)) (hq : w.R q = some (T, p)) (hp : w.P p = some b)
    (ha : b.alive = true) : ∃ s', Op.run ts (.assign r q) s = .ok () s' ∧ Shows ts s' r T p ∧ Shows ts s' q T p ∧
      s'.obj = s.obj ∧ ∀ r', r' ≠ r → s'.ref r' = s.ref r' := by
  have h' := h.ok (.assign hr hq hp ha) (assign_ok h.inv hr hq hp ha)
  refine ⟨_, assign_ok h.inv hr hq hp ha, h'.inv.shows (upd_same _ _ _), h'.inv.shows ?_, rfl, fun r' hne => upd_ne _ _ hne⟩
  show upd w.R r _ q = _
  by_cases e : q = r
  · subst e; simp
  · rw [upd_ne _ _ e]; exact hq

/-- C52: copy construction -/
theorem C52_copy (h : Reach ts s w) (hr : w.R r = none) (hq : w.R q = some (T, p)) (hp : w.P p = some b)
    (ha : b.alive = true) : ∃ s', Op.run ts (.ctorCopy r q) s = .ok () s' ∧ Shows ts s' r T p ∧ Shows ts s' q T p ∧
      s'.obj = s.obj := by
  have h' := h.ok (.ctorCopy hr hq hp ha) (ctorCopy_ok h.inv hr hq hp ha)
  refine ⟨_, ctorCopy_ok h.inv hr hq hp ha, h'.inv.shows (upd_same _ _ _), h'.inv.shows ?_, rfl⟩
  show upd w.R r _ q = _
  rw [upd_ne]
  · exact hq
  · intro e; subst e; rw [hr] at hq; cases hq

/-- C52: reads give the object's current value, by whatever handle it was written -/
theorem C52_reads (h : Reach ts s w) (hr : w.R r = some (T, p)) (hp : w.P p = some b) (ha : b.alive = true) :
    (get ts T r >>= readPtr T) s = .ok b.val s :=
  M.bind_ok (h.inv.shows hr).get |>.trans (h.inv.read hr hp ha)

/-- C52: writing through a reference changes that object, nothing else, and is seen through every reference to it -/
theorem C52_writes (h : Reach ts s w) (hr : w.R r = some (T, p)) (hT : T.const = false) (hp : w.P p = some b)
    (ha : b.alive = true) (v : ν) : ∃ s', Op.run ts (.write r T v) s = .ok () s' ∧
      (∀ q U, w.R q = some (U, p) → (get ts U q >>= readPtr U) s' = .ok v s') ∧
      (∀ k, k ≠ p → s'.obj k = s.obj k) ∧ s'.ref = s.ref := by
  have hrun : Op.run ts (.write r T v) s = .ok () { s with obj := upd s.obj p (some { b with val := v }) } :=
    M.bind_ok (h.inv.shows hr).get |>.trans (h.inv.write hr hT hp ha)
  have h' := h.ok (.write hr hT hp ha) hrun
  exact ⟨_, hrun, fun q U hq => C52_reads h' hq (upd_same _ _ _) ha, fun k hk => upd_ne _ _ hk, rfl⟩

/-- C52: `visit` calls the visitor with exactly the bound object, as the bound type; its result is converted to the result
type for the first alternative -/
theorem C52_visit (h : Reach ts s w) (hr : w.R r = some (T, p)) (hp : w.P p = some b) (ha : b.alive = true)
    {H : CT τ} {rest : List (CT τ)} (hts : ts = H :: rest) (conv : CT τ → CT τ → β → β) (vis : CT τ → Nat → RM τ ν β) :
    visit ts conv r vis s = (do
      let y ← vis T p
      pure (conv T H y)) s := visit_ok h.inv hr hp ha hts conv vis

/-- C52: copying a reference whose object is gone is undefined (`*ptr` is evaluated, unlike for a pointer) -/
theorem C52_copy_dangling (h : Reach ts s w) (hr : w.R r = some (T', k)) (hq : w.R q = some (T, p)) (hp : w.P p = some b)
    (ha : b.alive = false) (hne : q ≠ r) : Op.run ts (.assign r q) s = .ub .deadObject := by
  have hm := h.inv.mem q T p hq
  show assign ts r q s = _
  unfold assign
  rw [M.bind_ok (getType_ok (h.inv.at hq) rfl), M.bind_ok (setType_ok (h.inv.at hr))]
  unfold assignImpl
  show dispatch ts (ts.idxOf T) _ _ = _
  rw [dispatch_at hm]
  rw [M.bind_ok (Storage.get_at (s := { s with ref := _ }) (p := p) (idx_at hm)
    (by show upd s.ref r _ q = _; rw [upd_ne _ _ hne]; exact h.inv.at hq) (by simp [rep]))]
  show M.bind _ _ _ = _
  unfold M.bind
  simp [lvalue, h.inv.obj, hp, ha]

-- which alternative of `int`, `const int`, `const str` do expressions bind to?
example : Binds demoTs ⟨.int, false, true⟩ ⟨.int, false⟩ := .exact rfl (by decide)
example : Binds demoTs ⟨.int, true, true⟩ ⟨.int, true⟩ := .exact rfl (by decide)
example : Binds demoTs ⟨.int, false, false⟩ ⟨.int, true⟩ := .toConst (.inl rfl) (by decide)
example : Binds demoTs ⟨.str, false, true⟩ ⟨.str, true⟩ := .toConst (.inr (by decide)) (by decide)
-- with `int` only, rvalues and const lvalues are rejected
example : accepts [(⟨Ty.int, false⟩ : CT Ty)] ⟨.int, false, false⟩ = false := by decide
example : accepts [(⟨Ty.int, false⟩ : CT Ty)] ⟨.int, true, true⟩ = false := by decide
example : accepts [(⟨Ty.int, false⟩ : CT Ty)] ⟨.int, false, true⟩ = true := by decide
-- in the demo: assign reference 2 to reference 0; then 0 refers to the `str` and the `int` still has its value
example : ∃ s s', Reach demoTs s demoW ∧ Op.run demoTs (.assign 0 2) s = .ok () s' ∧ Shows demoTs s' 0 ⟨.str, true⟩ 2 ∧
    s'.obj 0 = some ⟨⟨.int, false⟩, 7, true⟩ := by
  obtain ⟨s, h⟩ := demo
  obtain ⟨s', h1, h2, _, h4, _⟩ := C52_assign h (r := 0) (q := 2) rfl rfl rfl rfl
  exact ⟨s, s', h, h1, h2, by rw [h4, h.inv.obj]; rfl⟩

/-! ## C67 for `variant_ref` -/

/-- C67, full statement for `variant_ref`: `visit` returns what the visitor returns -/
def VisitReturns : Prop :=
  ∀ (conv : CT Ty → CT Ty → Int → Int) (s : St Ty Nat) (w : View Ty Nat) (r : Nat) (T : CT Ty) (p : Nat) (b : Ob Ty Nat)
    (f : CT Ty → Nat → Int), Reach demoTs s w → w.R r = some (T, p) → w.P p = some b → b.alive = true →
    visit demoTs conv r (fun U p => do let v ← readPtr U p; pure (f U v)) s = .ok (f T b.val) s

/-- C67 is false for `variant_ref`: as for `variant` -/
theorem C67_ref_refuted : ¬ VisitReturns := by
  intro h
  obtain ⟨s, hs⟩ := demo
  obtain ⟨s', hr, hs'⟩ := hs.next (.newObj (k := 3) (T := ⟨.str, false⟩) (v := 300) rfl)
  obtain ⟨s2, hr2, hs2⟩ := hs'.next (.ctor (r := 3) (e := ⟨.str, false, true⟩) (p := 3) (T := ⟨.str, true⟩) rfl rfl rfl rfl
    (by decide) (.toConst (.inr (by decide)) (by decide)))
  have h1 := h (fun T H y => if T = H then y else y % 256) _ _ 3 ⟨.str, true⟩ 3 _ (fun _ x => x) hs2 rfl rfl rfl
  rw [C52_visit hs2 (r := 3) (T := ⟨.str, true⟩) (p := 3) rfl rfl rfl (H := ⟨.int, false⟩) rfl] at h1
  have h2 : (do let v ← readPtr (⟨.str, true⟩ : CT Ty) 3; pure (v : Int) : RM Ty Nat Int) s2 = .ok 300 s2 :=
    M.bind_ok (hs2.inv.read (r := 3) rfl rfl rfl)
  rw [M.bind_ok h2] at h1
  exact absurd (Out.ok.inj h1).1 (by decide)

/-- C67 (part), `variant_ref`: visitors whose results for all alternatives have the same type.  Missing: other visitors,
see `C52_visit` for what they return. -/
theorem C67_ref_partial (h : Reach ts s w) (hr : w.R r = some (T, p)) (hp : w.P p = some b) (ha : b.alive = true)
    {conv : CT τ → CT τ → β → β} (hc : ∀ T T' y, conv T T' y = y) (f : CT τ → ν → β) :
    visit ts conv r (fun U p => do let v ← readPtr U p; pure (f U v)) s = .ok (f T b.val) s := by
  cases hts : ts with
  | nil => have := h.inv.mem r T p hr; rw [hts] at this; cases this
  | cons H rest =>
    rw [← hts, C52_visit h hr hp ha hts]
    have h2 : (do let v ← readPtr T p; pure (f T v) : RM τ ν β) s = .ok (f T b.val) s := M.bind_ok (h.inv.read hr hp ha)
    rw [M.bind_ok h2, hc]
    rfl

end Ptl.VarRef

import Verif.Variant.Client

/-! # What the members of `variant` do to the objects -/

set_option linter.unusedSectionVars false

namespace Ptl.Variant

variable {τ ν β γ : Type} [DecidableEq τ] {E : Elem τ ν} {ts : List τ} {T T' : τ} {s s' : St ν} {i j : Id} {k k' t t' : Nat}
  {x y v : ν} {a : Arg τ ν} {ob ob' : Id → Option (Obj ν)}

/-! ### compile-time functions -/

theorem determineIndex_eq (T : τ) (ts : List τ) (b : BitVec 8) :
    determineIndex T ts b = if T ∈ ts then b + BitVec.ofNat 8 (ts.idxOf T) else notFound := by
  induction ts generalizing b with
  | nil => rfl
  | cons h tl ih =>
    unfold determineIndex
    by_cases e : T = h
    · subst e; simp
    · rw [if_neg e]
      by_cases ht : tl.length ≠ 0
      · rw [if_pos ht, ih]
        have e' : ¬ h = T := fun q => e q.symm
        by_cases hm : T ∈ tl
        · rw [if_pos hm, if_pos (List.mem_cons_of_mem _ hm), show (h :: tl).idxOf T = tl.idxOf T + 1 by rw [List.idxOf_cons, beq_false_of_ne e']; rfl]
          apply BitVec.eq_of_toNat_eq
          have h1 : (1 : BitVec 8).toNat = 1 := rfl
          simp only [BitVec.toNat_add, BitVec.toNat_ofNat, h1]
          omega
        · rw [if_neg hm, if_neg (by simp [e, hm])]
      · rw [if_neg ht]
        have : tl = [] := List.length_eq_zero_iff.mp (by omega)
        subst this
        rw [if_neg (by simp [e])]

theorem idx_eq (h : Alts ts) (hT : T ∈ ts) : idx ts T = ts.idxOf T := by
  unfold idx
  rw [determineIndex_eq, if_pos hT]
  have := List.idxOf_lt_length_iff.mpr hT
  have := h.short
  have h0 : (0 : BitVec 8).toNat = 0 := rfl
  simp only [BitVec.toNat_add, BitVec.toNat_ofNat, h0]
  omega

theorem idx_get (h : Alts ts) (hk : ts[k]? = some T) : idx ts T = k := by
  obtain ⟨hlt, e⟩ := List.getElem?_eq_some_iff.mp hk
  have hm : T ∈ ts := e ▸ List.getElem_mem hlt
  rw [idx_eq h hm, ← e, h.nodup.idxOf_getElem]

theorem Alts.at_ (h : Alts ts) (hT : T ∈ ts) : ts[idx ts T]? = some T := by
  obtain ⟨k, hk, e⟩ := List.getElem_of_mem hT
  have : ts[k]? = some T := by rw [List.getElem?_eq_getElem hk, e]
  rw [idx_get h this, this]

theorem Alts.idx_lt (h : Alts ts) (hT : T ∈ ts) : idx ts T < 254 := by
  obtain ⟨hlt, _⟩ := List.getElem?_eq_some_iff.mp (h.at_ hT)
  have := h.short
  omega

theorem Alts.lt (h : Alts ts) (hk : ts[k]? = some T) : k < 254 := by
  obtain ⟨hlt, _⟩ := List.getElem?_eq_some_iff.mp hk
  have := h.short
  omega

theorem idx_inj (h : Alts ts) (hT : T ∈ ts) (hT' : T' ∈ ts) (e : idx ts T = idx ts T') : T = T' := by
  have h1 := h.at_ hT
  rw [e, h.at_ hT'] at h1
  exact (Option.some.inj h1).symm

theorem determineType_eq (k : Nat) (ts : List τ) : determineType k ts = ts[k]? := by
  induction ts generalizing k with
  | nil => cases k <;> rfl
  | cons h tl ih => cases k with
    | zero => rfl
    | succ k => simp only [determineType, ih, List.getElem?_cons_succ]

/-! ### storage -/

theorem Storage.get_at {d : Nat} (hk : ts[k]? = some T) : Storage.get (ν := ν) i k d ts = pure ⟨i, d + k, T⟩ := by
  induction ts generalizing k d with
  | nil => cases hk
  | cons h tl ih => cases k with
    | zero => cases hk; rfl
    | succ k =>
      simp only [Storage.get]
      rw [ih (by simpa using hk)]
      have : d + 1 + k = d + (k + 1) := by omega
      rw [this]

theorem Storage.set_at {d : Nat} (hk : ts[k]? = some T) : Storage.set i k d ts a = construct ⟨i, d + k, T⟩ a := by
  induction ts generalizing k d with
  | nil => cases hk
  | cons h tl ih => cases k with
    | zero => cases hk; rfl
    | succ k =>
      simp only [Storage.set]
      rw [ih (by simpa using hk)]
      have : d + 1 + k = d + (k + 1) := by omega
      rw [this]

theorem Storage.destroy_at {d : Nat} (hk : ts[k]? = some T) :
    Storage.destroy (ν := ν) i k d ts = M.noexcept (destroyAt ⟨i, d + k, T⟩) := by
  induction ts generalizing k d with
  | nil => cases hk
  | cons h tl ih => cases k with
    | zero => cases hk; rfl
    | succ k =>
      simp only [Storage.destroy]
      rw [ih (by simpa using hk)]
      have : d + 1 + k = d + (k + 1) := by omega
      rw [this]

theorem dispatch_at (hk : ts[k]? = some T) (f : Nat → VM ν β) : dispatch ts k f = f k := by
  unfold dispatch
  rw [if_pos (List.getElem?_eq_some_iff.mp hk).1]

/-! ### primitives -/

theorem getObj_ok {o : Obj ν} (h : s.obj i = some o) : getObj i s = .ok o s := by
  unfold getObj; rw [h]

theorem newObj_ok (h : s.obj i = none) : newObj i t s = .ok () { s with obj := upd s.obj i (some ⟨none, t⟩) } := by
  unfold newObj; rw [h]

theorem killObj_ok (h : s.obj i = some ⟨none, t⟩) : killObj i s = .ok () { s with obj := upd s.obj i none } := by
  unfold killObj; rw [h]

theorem setType_ok {o : Obj ν} (h : s.obj i = some o) (ht : t < 256) :
    setType i t s = .ok () { s with obj := upd s.obj i (some { o with type := t }) } := by
  unfold setType; rw [h]; simp [Nat.mod_eq_of_lt ht]

theorem readAt_ok {p : Ptr τ} (h : s.obj p.obj = some ⟨some (p.alt, x), t⟩) : readAt p s = .ok x s := by
  unfold readAt; rw [h]; simp

theorem writeAt_ok {p : Ptr τ} (h : s.obj p.obj = some ⟨some (p.alt, x), t⟩) :
    writeAt p v s = .ok () { s with obj := upd s.obj p.obj (some ⟨some (p.alt, v), t⟩) } := by
  unfold writeAt; rw [h]; simp

theorem placeAt_ok {p : Ptr τ} (h : s.obj p.obj = some ⟨none, t⟩) :
    placeAt p v s = .ok () { s with obj := upd s.obj p.obj (some ⟨some (p.alt, v), t⟩) } := by
  unfold placeAt; rw [h]

theorem destroyAt_ok {p : Ptr τ} (h : s.obj p.obj = some ⟨some (p.alt, x), t⟩) (hp : s.part p.obj = []) :
    destroyAt p s = .ok () { s with obj := upd s.obj p.obj (some ⟨none, t⟩) } := by
  unfold destroyAt; rw [h]; simp [hp]

/-! ### constructing an alternative -/

/-- on the objects `ob`, the constructor called with `a` yields the value `v` and leaves the objects `ob'` -/
inductive Arg.Gives : Arg τ ν → (Id → Option (Obj ν)) → ν → (Id → Option (Obj ν)) → Prop
  | val (v : ν) (ob : Id → Option (Obj ν)) : Arg.Gives (.val v) ob v ob
  | thr (v : ν) (b : Bool) (ob : Id → Option (Obj ν)) : Arg.Gives (.thr v b) ob v ob
  | ref {p : Ptr τ} {f g : ν → ν} {nt : Bool} {ob : Id → Option (Obj ν)} {x : ν} {t : Nat} :
      ob p.obj = some ⟨some (p.alt, x), t⟩ →
      Arg.Gives (.ref p f g nt) ob (f x) (upd ob p.obj (some ⟨some (p.alt, g x), t⟩))

/-- the constructor called with `a` may throw -/
def Arg.canThrow : Arg τ ν → Bool
  | .val _ => false
  | .thr _ _ => true
  | .ref _ _ _ nt => !nt

/-- normal return with result `r`, leaving the objects `ob` -/
def Done (s : St ν) (out : Out (St ν) β) (r : β) (ob : Id → Option (Obj ν)) : Prop :=
  ∃ n t, out = .ok r { s with obj := ob, ntmp := n, tick := t } ∧ s.tick ≤ t ∧ s.ntmp ≤ n

/-- an exception because a construction that consulted the oracle during the call failed; objects as before -/
def Failed (s : St ν) (out : Out (St ν) β) : Prop :=
  ∃ n t, out = .exc .user { s with ntmp := n, tick := t } ∧ s.ntmp ≤ n ∧ ∃ m, s.tick ≤ m ∧ m < t ∧ s.orc m = true

theorem eval_gives (h : a.Gives s.obj v ob) : Done s (a.eval s) v ob ∨ (Failed s (a.eval s) ∧ a.canThrow = true) := by
  cases h with
  | val => exact .inl ⟨s.ntmp, s.tick, rfl, Nat.le_refl _, Nat.le_refl _⟩
  | thr =>
    cases ho : s.orc s.tick with
    | true =>
      refine .inr ⟨⟨s.ntmp, s.tick + 1, ?_, Nat.le_refl _, s.tick, Nat.le_refl _, Nat.lt_succ_self _, ho⟩, rfl⟩
      show ((fallible : VM ν Unit) >>= fun _ => pure v) s = _
      rw [M.bind_exc (s' := { s with tick := s.tick + 1 }) (e := .user)]
      simp [fallible, ho]
    | false =>
      refine .inl ⟨s.ntmp, s.tick + 1, ?_, Nat.le_succ _, Nat.le_refl _⟩
      show ((fallible : VM ν Unit) >>= fun _ => pure v) s = _
      rw [M.bind_ok (s' := { s with tick := s.tick + 1 }) (a := ())]
      · rfl
      · simp [fallible, ho]
  | @ref p f g nt _ x t hx =>
    unfold Arg.eval
    cases nt with
    | true =>
      refine .inl ⟨s.ntmp, s.tick, ?_, Nat.le_refl _, Nat.le_refl _⟩
      mstep (readAt_ok hx)
      mstep (show (if true = true then (pure () : VM ν Unit) else fallible) s = .ok () s from rfl)
      mstep (writeAt_ok hx)
      rfl
    | false =>
      cases ho : s.orc s.tick with
      | true =>
        refine .inr ⟨⟨s.ntmp, s.tick + 1, ?_, Nat.le_refl _, s.tick, Nat.le_refl _, Nat.lt_succ_self _, ho⟩, rfl⟩
        mstep (readAt_ok hx)
        exact M.bind_exc (show (if false = true then (pure () : VM ν Unit) else fallible) s = _ by simp [fallible, ho])
      | false =>
        refine .inl ⟨s.ntmp, s.tick + 1, ?_, Nat.le_succ _, Nat.le_refl _⟩
        mstep (readAt_ok hx)
        mstep (show (if false = true then (pure () : VM ν Unit) else fallible) s = .ok () { s with tick := s.tick + 1 } by
          simp [fallible, ho])
        mstep (writeAt_ok (s := { s with tick := s.tick + 1 }) hx)
        rfl

theorem Gives.other (h : a.Gives ob v ob') (hi : ob i = some ⟨none, t⟩) : ob' i = ob i := by
  cases h with
  | val => rfl
  | thr => rfl
  | ref hx =>
    rw [upd_ne]
    intro e; rw [e, hx] at hi; cases hi

theorem construct_gives {p : Ptr τ} (h : a.Gives s.obj v ob) (hp : s.obj p.obj = some ⟨none, t⟩) :
    Done s (construct p a s) () (upd ob p.obj (some ⟨some (p.alt, v), t⟩)) ∨
      (Failed s (construct p a s) ∧ a.canThrow = true) := by
  unfold construct
  have ho := Gives.other h hp
  rcases eval_gives h with ⟨n, tk, e, h1, h2⟩ | ⟨⟨n, tk, e, h1⟩, h2⟩
  · refine .inl ⟨n, tk, ?_, h1, h2⟩
    mstep e
    exact placeAt_ok (s := { s with obj := ob, ntmp := n, tick := tk }) (by simpa [ho] using hp)
  · exact .inr ⟨⟨n, tk, by rw [M.bind_exc e], h1⟩, h2⟩

theorem set_gives (hk : ts[k]? = some T) (h : a.Gives s.obj v ob) (hp : s.obj i = some ⟨none, t⟩) :
    Done s (Storage.set i k 0 ts a s) () (upd ob i (some ⟨some (k, v), t⟩)) ∨
      (Failed s (Storage.set i k 0 ts a s) ∧ a.canThrow = true) := by
  rw [Storage.set_at hk, Nat.zero_add]
  exact construct_gives (p := ⟨i, k, T⟩) h hp

/-! ### `destroy`, `assign` -/

theorem destroyImpl_ok (hk : ts[k]? = some T) (h : s.obj i = some ⟨some (k, x), t⟩) (hp : s.part i = []) :
    destroyImpl ts k i s = .ok () { s with obj := upd s.obj i (some ⟨none, t⟩) } := by
  unfold destroyImpl
  rw [dispatch_at hk, Storage.destroy_at hk, Nat.zero_add]
  exact M.noexcept_ok (destroyAt_ok (p := ⟨i, k, T⟩) h hp)

theorem assignMoveImpl_ok (hE : E.Plain) (hk : ts[k]? = some T) (hr : s.obj j = some ⟨some (k, x), t⟩) (hl : s.obj i = some ⟨none, t'⟩) :
    Done s (assignMoveImpl E ts k i j s) ()
      (upd (upd s.obj j (some ⟨some (k, E.moved T x), t⟩)) i (some ⟨some (k, E.braced T x), t'⟩)) := by
  have hg : (Arg.move E ⟨j, k, T⟩).Gives s.obj (E.braced T x) (upd s.obj j (some ⟨some (k, E.moved T x), t⟩)) :=
    Arg.Gives.ref (p := ⟨j, k, T⟩) hr
  rcases set_gives hk hg hl with ⟨n, tk, e, h1⟩ | ⟨_, h⟩
  · refine ⟨n, tk, ?_, h1⟩
    unfold assignMoveImpl
    apply M.noexcept_ok
    rw [dispatch_at hk, Storage.get_at hk, Nat.zero_add]
    exact e
  · simp [Arg.move, Arg.canThrow, hE.nothrow] at h

/-! ### putting outcomes together -/

theorem Done.ok {out : Out (St ν) β} {r : β} (h : Done s out r ob) : ∃ s', out = .ok r s' := by
  obtain ⟨n, t, e, _⟩ := h; exact ⟨_, e⟩

theorem Done.pure {r : β} : Done s (.ok r s) r s.obj := ⟨s.ntmp, s.tick, rfl, Nat.le_refl _, Nat.le_refl _⟩

theorem Done.of_eq {out : Out (St ν) β} {r : β} (h : out = .ok r { s with obj := ob }) : Done s out r ob :=
  ⟨s.ntmp, s.tick, h, Nat.le_refl _, Nat.le_refl _⟩

/-- a state that differs from `s` only in the objects (which are `ob`) and the counters -/
structure Next (s : St ν) (ob : Id → Option (Obj ν)) (s' : St ν) : Prop where
  obj : s'.obj = ob
  part : s'.part = s.part
  orc : s'.orc = s.orc
  tick : s.tick ≤ s'.tick
  ntmp : s.ntmp ≤ s'.ntmp

theorem Done.elim {out : Out (St ν) β} {r : β} (h : Done s out r ob) : ∃ s', out = .ok r s' ∧ Next s ob s' := by
  obtain ⟨n, t, e, h1, h2⟩ := h; exact ⟨_, e, rfl, rfl, rfl, h1, h2⟩

theorem Done.intro {out : Out (St ν) β} {r : β} (e : out = .ok r s') (h : Next s ob s') : Done s out r ob := by
  refine ⟨s'.ntmp, s'.tick, ?_, h.tick, h.ntmp⟩
  rw [e]; congr 1
  cases s'; cases s
  obtain ⟨rfl, rfl, rfl, _, _⟩ := h
  rfl

theorem Failed.elim {out : Out (St ν) β} (h : Failed s out) : ∃ s', out = .exc .user s' ∧ Next s s.obj s' ∧
    ∃ m, s.tick ≤ m ∧ m < s'.tick ∧ s.orc m = true := by
  obtain ⟨n, t, e, h1, m, h2, h3⟩ := h
  exact ⟨_, e, ⟨rfl, rfl, rfl, Nat.le_of_lt (Nat.lt_of_le_of_lt h2 h3.1), h1⟩, m, h2, h3⟩

theorem Failed.intro {out : Out (St ν) β} {m : Nat} (e : out = .exc .user s') (h : Next s s.obj s') (h1 : s.tick ≤ m)
    (h2 : m < s'.tick) (h3 : s.orc m = true) : Failed s out := by
  refine ⟨s'.ntmp, s'.tick, ?_, h.ntmp, m, h1, h2, h3⟩
  rw [e]; congr 1
  cases s'; cases s
  obtain ⟨rfl, rfl, rfl, _, _⟩ := h
  rfl

theorem Next.trans {s1 s2 : St ν} {ob1 ob2 : Id → Option (Obj ν)} (h : Next s ob1 s1) (h' : Next s1 ob2 s2) :
    Next s ob2 s2 :=
  ⟨h'.obj, h'.part.trans h.part, h'.orc.trans h.orc, Nat.le_trans h.tick h'.tick, Nat.le_trans h.ntmp h'.ntmp⟩

theorem Done.bind {m : VM ν β} {f : β → VM ν γ} {r : β} {q : γ} (h : Done s (m s) r ob)
    (hf : ∀ s1, Next s ob s1 → Done s1 (f r s1) q ob') : Done s ((m >>= f) s) q ob' := by
  obtain ⟨s1, e, h1⟩ := h.elim
  obtain ⟨s2, e2, h2⟩ := (hf s1 h1).elim
  exact Done.intro (by rw [M.bind_ok e, e2]) (h1.trans h2)

theorem Done.noexcept {m : VM ν β} {r : β} (h : Done s (m s) r ob) : Done s (M.noexcept m s) r ob := by
  obtain ⟨s1, e, h1⟩ := h.elim
  exact Done.intro (M.noexcept_ok e) h1

theorem Next.fail {out : Out (St ν) β} (h : Next s s.obj s') (h' : Failed s' out) : Failed s out := by
  obtain ⟨s2, e, hn, m, h1, h2, h3⟩ := h'.elim
  refine Failed.intro e ?_ (Nat.le_trans h.tick h1) h2 (by rw [← h.orc]; exact h3)
  have := h.trans hn
  rw [h.obj] at this
  exact this

/-! ### constructors and destructor -/

theorem construct'_gives (hk : ts[k]? = some T) (hi : s.obj i = none) (h : a.Gives s.obj v ob) :
    Done s (construct' i k (Storage.set i k 0 ts a) s) () (upd ob i (some ⟨some (k, v), k⟩)) ∨
      (Failed s (construct' i k (Storage.set i k 0 ts a) s) ∧ a.canThrow = true) := by
  unfold construct'
  have hg : a.Gives (upd s.obj i (some ⟨none, k⟩)) v (upd ob i (some ⟨none, k⟩)) := by
    cases h with
    | val => exact .val _ _
    | thr => exact .thr _ _ _
    | @ref p f g nt _ x t hx =>
      have hne : p.obj ≠ i := by intro e; rw [e, hi] at hx; cases hx
      have := Arg.Gives.ref (p := p) (f := f) (g := g) (nt := nt) (ob := upd s.obj i (some ⟨none, k⟩)) (x := x) (t := t)
        (by rw [upd_ne _ _ hne]; exact hx)
      rw [upd_comm _ _ _ hne]
      exact this
  rcases set_gives (s := { s with obj := upd s.obj i (some ⟨none, k⟩) }) (t := k) hk hg (i := i) (by simp) with hd | ⟨hf, hc⟩
  · left
    obtain ⟨s1, e, h1⟩ := hd.elim
    refine Done.intro (s' := s1) ?_ ⟨?_, h1.part, h1.orc, h1.tick, h1.ntmp⟩
    · mstep (newObj_ok hi)
      exact M.onExc_ok e
    · rw [h1.obj, upd_upd]
  · right
    obtain ⟨s1, e, h1, m, h2, h3, h4⟩ := hf.elim
    refine ⟨Failed.intro (s' := { s1 with obj := s.obj }) (m := m) ?_ ⟨rfl, h1.part, h1.orc, h1.tick, h1.ntmp⟩ h2 h3 h4, hc⟩
    mstep (newObj_ok hi)
    refine M.onExc_exc e ?_
    rw [killObj_ok (t := k) (by rw [h1.obj]; simp), h1.obj]
    simp only [upd_upd]
    rw [upd_eq _ _ _ hi]

theorem ctorIndex_ok (hk : ts[k]? = some T) (hi : s.obj i = none) (h : a.Gives s.obj v ob) :
    Done s (ctorIndex ts i k a s) () (upd ob i (some ⟨some (k, v), k⟩)) ∨
      (Failed s (ctorIndex ts i k a s) ∧ a.canThrow = true) := construct'_gives hk hi h

theorem ctorCopy_ok (hE : E.Plain) (hk : ts[k]? = some T) (hi : s.obj i = none) (hj : s.obj j = some ⟨some (k, x), k⟩) :
    Done s (ctorCopy E ts i j s) () (upd s.obj i (some ⟨some (k, x), k⟩)) ∨ Failed s (ctorCopy E ts i j s) := by
  have hg : (Arg.copy E ⟨j, k, T⟩).Gives s.obj x s.obj := by
    have := Arg.Gives.ref (p := ⟨j, k, T⟩) (f := E.braced T) (g := id) (nt := false) hj
    rw [hE.braced] at this
    simp only [id] at this
    rw [upd_eq _ _ _ hj] at this
    exact this
  have e : ctorCopy E ts i j s = construct' i k (Storage.set i k 0 ts (Arg.copy E ⟨j, k, T⟩)) s := by
    unfold ctorCopy assignCopyImpl
    mstep (getObj_ok hj)
    simp only
    rw [dispatch_at hk, Storage.get_at hk, Nat.zero_add]
    rfl
  rw [e]
  rcases construct'_gives hk hi hg with h | ⟨h, _⟩
  · exact .inl h
  · exact .inr h

theorem ctorMove_ok (hE : E.Plain) (hk : ts[k]? = some T) (hi : s.obj i = none) (hj : s.obj j = some ⟨some (k, x), k⟩) :
    Done s (ctorMove E ts i j s) () (upd (upd s.obj j (some ⟨some (k, E.moved T x), k⟩)) i (some ⟨some (k, x), k⟩)) := by
  have hg : (Arg.move E ⟨j, k, T⟩).Gives s.obj x (upd s.obj j (some ⟨some (k, E.moved T x), k⟩)) := by
    have := Arg.Gives.ref (p := ⟨j, k, T⟩) (f := E.braced T) (g := E.moved T) (nt := !E.moveThrows T) hj
    rw [hE.braced] at this
    exact this
  rcases construct'_gives hk hi hg with h | ⟨_, h⟩
  · obtain ⟨s1, e, h1⟩ := h.elim
    refine Done.intro ?_ h1
    unfold ctorMove
    apply M.noexcept_ok
    mstep (getObj_ok hj)
    simp only
    unfold construct' at e ⊢
    rw [M.bind_ok (newObj_ok hi)] at e ⊢
    unfold M.onExc at e ⊢
    unfold assignMoveImpl
    rw [dispatch_at hk, Storage.get_at hk, Nat.zero_add]
    unfold M.noexcept
    have : ((pure (⟨j, k, T⟩ : Ptr τ) : VM ν (Ptr τ)) >>= fun ptr => Storage.set i k 0 ts (Arg.move E ptr)) =
      Storage.set i k 0 ts (Arg.move E ⟨j, k, T⟩) := rfl
    rw [this]
    generalize Storage.set i k 0 ts (Arg.move E ⟨j, k, T⟩) _ = o at e ⊢
    cases o with
    | ok => exact e
    | exc a b =>
      simp only at e
      split at e <;> cases e
    | ub => cases e
    | term => cases e
  · simp [Arg.move, Arg.canThrow, hE.nothrow] at h

theorem dtor_ok (hk : ts[k]? = some T) (hi : s.obj i = some ⟨some (k, x), k⟩) (hp : s.part i = []) :
    dtor ts i s = .ok () { s with obj := upd s.obj i none } := by
  unfold dtor
  apply M.noexcept_ok
  mstep (getObj_ok hi)
  mstep (destroyImpl_ok hk hi hp)
  rw [killObj_ok (t := k) (by simp)]
  simp

end Ptl.Variant

import Verif.Optional.Client

/-! # Every optional call meets its specification; histories -/

set_option linter.unusedSectionVars false

namespace Ptl.Optional

variable {α : Type} {E : Elem α} {s s' : St α} {i j : Nat} {x y v w : α} {o o' : Option α} {b : Bool} {V V' V1 : Vars α}
  {op : Op α} {src : Src α} {a : Args α}

/-- the object that represents an optional value -/
def rep (o : Option α) : Obj α := ⟨o, o.isSome⟩

/-- the model state `s` is what the client's view `V` says -/
def Inv (s : St α) (V : Vars α) : Prop := ∀ i, s.obj i = (V i).map rep

theorem Inv.at (h : Inv s V) (hi : V i = some o) : s.obj i = some (rep o) := by rw [h i, hi]; rfl
theorem Inv.dead (h : Inv s V) (hi : V i = none) : s.obj i = none := by rw [h i, hi]; rfl

theorem Inv.upd (h : Inv s V) (o : Option (Option α)) (ho : s'.obj = upd s.obj i (o.map rep)) : Inv s' (upd V i o) := by
  intro j
  rw [ho]
  by_cases e : j = i
  · subst e; simp
  · rw [upd_ne _ _ e, upd_ne _ _ e]; exact h j

theorem Inv.same (h : Inv s V) (ho : s'.obj = s.obj) : Inv s' V := by intro j; rw [ho]; exact h j

/-! ### primitives -/

theorem flag_ok {ob : Obj α} (h : s.obj i = some ob) : flag i s = .ok ob.initialized s := by simp [flag, h]
theorem setFlag_ok {ob : Obj α} (h : s.obj i = some ob) :
    setFlag i b s = .ok () { s with obj := Ptl.upd s.obj i (some { ob with initialized := b }) } := by simp [setFlag, h]
theorem newObj_ok (h : s.obj i = none) : newObj i b s = .ok () { s with obj := Ptl.upd s.obj i (some ⟨none, b⟩) } := by
  simp [newObj, h]
theorem killObj_ok (h : s.obj i = some ⟨none, b⟩) : killObj i s = .ok () { s with obj := Ptl.upd s.obj i none } := by
  simp [killObj, h]
theorem readVal_ok (h : s.obj i = some ⟨some x, b⟩) : readVal i s = .ok x s := by simp [readVal, h]
theorem writeVal_ok (h : s.obj i = some ⟨some x, b⟩) :
    writeVal i v s = .ok () { s with obj := Ptl.upd s.obj i (some ⟨some v, b⟩) } := by simp [writeVal, h]
theorem placeVal_ok (h : s.obj i = some ⟨none, b⟩) :
    placeVal i v s = .ok () { s with obj := Ptl.upd s.obj i (some ⟨some v, b⟩), born := Ptl.upd s.born i (s.born i + 1) } := by
  simp [placeVal, h]
theorem destroyVal_ok (h : s.obj i = some ⟨some x, b⟩) :
    destroyVal i s = .ok () { s with obj := Ptl.upd s.obj i (some ⟨none, b⟩) } := by simp [destroyVal, h]

/-- the oracle's answer -/
theorem fallible_cases (s : St α) :
    (fallible s = .ok () { s with tick := s.tick + 1 } ∧ s.orc s.tick = false) ∨
    (fallible s = .exc .user { s with tick := s.tick + 1 } ∧ s.orc s.tick = true) := by
  unfold fallible
  cases h : s.orc s.tick <;> simp

/-- a state that differs from `s` only in the objects (which are `ob`) and the counter -/
structure Next (s : St α) (ob : Nat → Option (Obj α)) (s' : St α) : Prop where
  obj : s'.obj = ob
  orc : s'.orc = s.orc
  tick : s.tick ≤ s'.tick

/-- an exception because an operation that consulted the oracle during the call failed; the objects are `ob` -/
structure Failed {β : Type} (s : St α) (out : Out (St α) β) (ob : Nat → Option (Obj α)) : Prop where
  ex : ∃ s', out = .exc .user s' ∧ Next s ob s' ∧ ∃ m, s.tick ≤ m ∧ m < s'.tick ∧ s.orc m = true

/-- a normal return -/
def Done {β : Type} (s : St α) (out : Out (St α) β) (r : β) (ob : Nat → Option (Obj α)) : Prop :=
  ∃ s', out = .ok r s' ∧ Next s ob s'

theorem Next.refl (s : St α) : Next s s.obj s := ⟨rfl, rfl, Nat.le_refl _⟩
theorem Next.trans {s1 s2 : St α} {ob1 ob2} (h : Next s ob1 s1) (h' : Next s1 ob2 s2) : Next s ob2 s2 :=
  ⟨h'.obj, h'.orc.trans h.orc, Nat.le_trans h.tick h'.tick⟩

theorem Done.of_ok {β : Type} {r : β} {out : Out (St α) β} (e : out = .ok r s') (h : s'.orc = s.orc) (ht : s'.tick = s.tick) :
    Done s out r s'.obj := ⟨s', e, rfl, h, by rw [ht]; exact Nat.le_refl _⟩

theorem Done.noexcept {β : Type} {r : β} {m : OM α β} {ob} (h : Done s (m s) r ob) : Done s (M.noexcept m s) r ob := by
  obtain ⟨s1, e, n⟩ := h; exact ⟨s1, M.noexcept_ok e, n⟩

theorem Done.bind {β γ : Type} {m : OM α β} {f : β → OM α γ} {r : β} {q : γ} {ob ob'} (h : Done s (m s) r ob)
    (hf : ∀ s1, Next s ob s1 → Done s1 (f r s1) q ob') : Done s ((m >>= f) s) q ob' := by
  obtain ⟨s1, e, n⟩ := h
  obtain ⟨s2, e2, n2⟩ := hf s1 n
  exact ⟨s2, by rw [M.bind_ok e, e2], n.trans n2⟩

theorem Failed.bind {β γ : Type} {m : OM α β} {f : β → OM α γ} {ob} (h : Failed s (m s) ob) : Failed s ((m >>= f) s) ob := by
  obtain ⟨s1, e, n, hm⟩ := h.ex
  exact ⟨s1, M.bind_exc e, n, hm⟩

/-- fails after a normally returning step -/
theorem Done.fail {β γ : Type} {m : OM α β} {f : β → OM α γ} {r : β} {ob ob'} (h : Done s (m s) r ob)
    (hf : ∀ s1, Next s ob s1 → Failed s1 (f r s1) ob') : Failed s ((m >>= f) s) ob' := by
  obtain ⟨s1, e, n⟩ := h
  obtain ⟨s2, e2, n2, k, h1, h2, h3⟩ := (hf s1 n).ex
  exact ⟨s2, by rw [M.bind_ok e, e2], n.trans n2, k, Nat.le_trans n.tick h1, h2, by rw [← n.orc]; exact h3⟩

/-- `src` denotes an existing object with value `v` -/
def Src.In (ob : Nat → Option (Obj α)) : Src α → α → Prop
  | .ext w, v => w = v
  | .own j, v => ∃ b, ob j = some ⟨some v, b⟩

theorem Inv.hasIn (h : Inv s V) (hx : src.Has V v) : src.In s.obj v := by
  cases src with
  | ext w => exact hx
  | own j => exact ⟨true, h.at (show V j = some (some v) from hx)⟩

theorem read_ok (h : src.In s.obj v) : src.read s = .ok v s := by
  cases src with
  | ext w => cases h; rfl
  | own j => obtain ⟨b, h⟩ := h; exact readVal_ok h

/-- the objects after leaving `f` of the value of `src` behind -/
def Src.leftIn (ob : Nat → Option (Obj α)) (f : α → α) : Src α → Nat → Option (Obj α)
  | .ext _ => ob
  | .own j => Ptl.upd ob j ((ob j).map fun q => { q with val := q.val.map f })

theorem leave_ok (h : src.In s.obj v) (f : α → α) :
    src.leave f s = .ok () { s with obj := src.leftIn s.obj f } := by
  cases src with
  | ext w => rfl
  | own j =>
    obtain ⟨b, h⟩ := h
    show (readVal j >>= fun v => writeVal j (f v)) s = _
    rw [M.bind_ok (readVal_ok h), writeVal_ok h]
    simp [Src.leftIn, h]

theorem Inv.left (h : Inv s V) (f : α → α) (ho : s'.obj = src.leftIn s.obj f) : Inv s' (src.left V f) := by
  cases src with
  | ext w => exact h.same ho
  | own j =>
    refine h.upd _ ?_
    rw [ho]
    show Ptl.upd _ _ _ = _
    rw [h j]
    cases V j with
    | none => rfl
    | some o => cases o <;> rfl

theorem leftIn_ne (f : α → α) (h : ∀ j, src = .own j → j ≠ i) {ob : Nat → Option (Obj α)} : src.leftIn ob f i = ob i := by
  cases src with
  | ext => rfl
  | own j => exact upd_ne _ _ (h j rfl).symm

theorem In.ne (h : src.In s.obj v) (hi : s.obj i = none ∨ s.obj i = some ⟨none, b⟩) (j : Nat) (e : src = .own j) : j ≠ i := by
  intro e'
  subst e e'
  obtain ⟨c, h⟩ := h
  rcases hi with hi | hi <;> rw [hi] at h <;> cases h

theorem In.upd (h : src.In s.obj v) (hn : ∀ j, src = .own j → j ≠ i) (q : Option (Obj α)) : src.In (Ptl.upd s.obj i q) v := by
  cases src with
  | ext => exact h
  | own j =>
    obtain ⟨b, h⟩ := h
    exact ⟨b, by rw [upd_ne _ _ (hn j rfl)]; exact h⟩

/-! ### the building blocks -/

theorem copyInto_ok (hE : E.Plain) (hx : src.In s.obj v) (hi : s.obj i = some ⟨none, b⟩) :
    Done s (copyInto E i src s) () (Ptl.upd s.obj i (some ⟨some v, b⟩)) ∨ Failed s (copyInto E i src s) s.obj := by
  unfold copyInto
  rw [M.bind_ok (read_ok hx)]
  rcases fallible_cases s with ⟨e, h⟩ | ⟨e, h⟩
  · left
    rw [M.bind_ok e, placeVal_ok (s := { s with tick := s.tick + 1 }) hi, hE.braced]
    exact ⟨_, rfl, rfl, rfl, Nat.le_succ _⟩
  · right
    rw [M.bind_exc e]
    exact ⟨_, rfl, ⟨rfl, rfl, Nat.le_succ _⟩, s.tick, Nat.le_refl _, Nat.lt_succ_self _, h⟩

theorem moveInto_ok (hE : E.Plain) (hx : src.In s.obj v) (hi : s.obj i = some ⟨none, b⟩) :
    moveInto E i src s = .ok () { s with
      obj := Ptl.upd (src.leftIn s.obj E.moved) i (some ⟨some v, b⟩), born := Ptl.upd s.born i (s.born i + 1) } := by
  unfold moveInto
  rw [M.bind_ok (read_ok hx), hE.nothrow, if_neg Bool.false_ne_true, M.bind_ok (m := pure ()) (a := ()) (s' := s) rfl, M.bind_ok (leave_ok hx _), placeVal_ok (b := b), hE.braced]
  simp only
  rw [leftIn_ne _ (fun j e => In.ne hx (.inr hi) j e)]
  exact hi

theorem copyOver_ok (hx : src.In s.obj v) (hi : s.obj i = some ⟨some x, b⟩) :
    Done s (copyOver E i src s) () (Ptl.upd s.obj i (some ⟨some v, b⟩)) ∨
      Failed s (copyOver E i src s) (Ptl.upd s.obj i (some ⟨some (E.torn x v), b⟩)) := by
  unfold copyOver
  rw [M.bind_ok (readVal_ok hi), M.bind_ok (read_ok hx)]
  rcases fallible_cases s with ⟨e, h⟩ | ⟨e, h⟩
  · left
    rw [M.bind_ok (M.onExc_ok e), writeVal_ok (s := { s with tick := s.tick + 1 }) hi]
    exact ⟨_, rfl, rfl, rfl, Nat.le_succ _⟩
  · right
    rw [M.bind_exc (M.onExc_exc e (writeVal_ok (s := { s with tick := s.tick + 1 }) (x := x) (b := b) hi))]
    exact ⟨_, rfl, ⟨rfl, rfl, Nat.le_succ _⟩, s.tick, Nat.le_refl _, Nat.lt_succ_self _, h⟩

theorem moveOver_ok (hx : src.In s.obj v) (hi : s.obj i = some ⟨some x, b⟩) :
    moveOver E i src s =
      .ok () { s with obj := Ptl.upd (src.leftIn s.obj E.movedAssign) i (some ⟨some (src.overwrites E i v), b⟩) } := by
  unfold moveOver
  rw [M.bind_ok (readVal_ok hi), M.bind_ok (read_ok hx)]
  cases src with
  | ext w => exact writeVal_ok hi
  | own j =>
    simp only
    by_cases e : j = i
    · subst e
      rw [if_pos rfl, writeVal_ok hi]
      simp [Src.leftIn, Src.overwrites]
    · rw [if_neg e, M.bind_ok (leave_ok hx _), writeVal_ok (x := x) (b := b)]
      · simp [Src.overwrites, e]
      · simp only
        rw [leftIn_ne _ (fun k h => by cases h; exact e)]
        exact hi

theorem construct_ok {body : OM α Unit} {ob} (hi : s.obj i = none)
    (h : Done { s with obj := Ptl.upd s.obj i (some ⟨none, b⟩) }
      (body { s with obj := Ptl.upd s.obj i (some ⟨none, b⟩) }) () ob) : Done s (construct i b body s) () ob := by
  unfold construct
  obtain ⟨s1, e, n⟩ := h
  rw [M.bind_ok (newObj_ok hi)]
  exact ⟨s1, M.onExc_ok e, n.obj, n.orc, n.tick⟩

theorem construct_failed {body : OM α Unit} (hi : s.obj i = none)
    (h : Failed { s with obj := Ptl.upd s.obj i (some ⟨none, b⟩) }
      (body { s with obj := Ptl.upd s.obj i (some ⟨none, b⟩) }) (Ptl.upd s.obj i (some ⟨none, b⟩))) :
    Failed s (construct i b body s) s.obj := by
  unfold construct
  obtain ⟨s1, e, n, hm⟩ := h.ex
  rw [M.bind_ok (newObj_ok hi)]
  refine ⟨_, M.onExc_exc e (killObj_ok (b := b) (by rw [n.obj]; simp)), ⟨?_, n.orc, n.tick⟩, hm⟩
  simp only
  rw [n.obj, upd_upd]
  exact upd_eq _ _ _ hi

theorem reset_ok (hi : s.obj i = some (rep o)) : reset i s = .ok () { s with obj := Ptl.upd s.obj i (some (rep none)) } := by
  unfold reset
  apply M.noexcept_ok
  rw [M.bind_ok (flag_ok hi)]
  cases o with
  | none =>
    show Out.ok () s = _
    rw [upd_eq _ _ _ hi]
  | some x =>
    show (destroyVal i >>= fun _ => setFlag i false) s = _
    rw [M.bind_ok (destroyVal_ok (x := x) (b := true) hi), setFlag_ok (ob := ⟨none, true⟩) (by simp)]
    simp [rep]

/-- on the objects `ob`, the constructor called with `a` yields the value `v` and leaves the objects `ob'` -/
inductive Args.In : Args α → (Nat → Option (Obj α)) → α → (Nat → Option (Obj α)) → Prop
  | val (v : α) (ob) : Args.In (.val v) ob v ob
  | thr (v : α) (ob) : Args.In (.thr v) ob v ob
  | ref {j : Nat} {f g : α → α} {nt : Bool} {ob} {x : α} {b : Bool} : ob j = some ⟨some x, b⟩ →
      Args.In (.ref j f g nt) ob (f x) (Ptl.upd ob j (some ⟨some (g x), b⟩))

theorem Inv.args (h : Inv s V) (ha : a.Gives V v V1) :
    ∃ ob, a.In s.obj v ob ∧ ∀ s', s'.obj = ob → Inv s' V1 := by
  cases ha with
  | val => exact ⟨_, .val _ _, fun s' e => h.same e⟩
  | thr => exact ⟨_, .thr _ _, fun s' e => h.same e⟩
  | ref hj => exact ⟨_, .ref (h.at hj), fun s' e => h.upd _ e⟩

theorem eval_ok {ob} (ha : a.In s.obj v ob) : Done s (a.eval s) v ob ∨ Failed s (a.eval s) s.obj := by
  cases ha with
  | val => exact .inl ⟨s, rfl, Next.refl s⟩
  | thr =>
    show Done s ((fallible >>= fun _ => pure v) s) v _ ∨ Failed s ((fallible >>= fun _ => pure v) s) _
    rcases fallible_cases s with ⟨e, h⟩ | ⟨e, h⟩
    · rw [M.bind_ok e]
      exact .inl ⟨_, rfl, rfl, rfl, Nat.le_succ _⟩
    · rw [M.bind_exc e]
      exact .inr ⟨_, rfl, ⟨rfl, rfl, Nat.le_succ _⟩, s.tick, Nat.le_refl _, Nat.lt_succ_self _, h⟩
  | @ref j f g nt _ x b hj =>
    have e0 : (Args.ref j f g nt).eval = (readVal j >>= fun v => (if nt then pure () else fallible) >>= fun _ =>
      writeVal j (g v) >>= fun _ => pure (f v)) := rfl
    rw [e0, M.bind_ok (readVal_ok hj)]
    cases nt with
    | true =>
      left
      simp only [if_true]
      rw [M.bind_ok (m := (pure () : OM α Unit)) rfl, M.bind_ok (writeVal_ok hj)]
      exact ⟨_, rfl, rfl, rfl, Nat.le_refl _⟩
    | false =>
      simp only [Bool.false_eq_true, if_false]
      rcases fallible_cases s with ⟨e, h⟩ | ⟨e, h⟩
      · left
        rw [M.bind_ok e, M.bind_ok (writeVal_ok (s := { s with tick := s.tick + 1 }) hj)]
        exact ⟨_, rfl, rfl, rfl, Nat.le_succ _⟩
      · right
        rw [M.bind_exc e]
        exact ⟨_, rfl, ⟨rfl, rfl, Nat.le_succ _⟩, s.tick, Nat.le_refl _, Nat.lt_succ_self _, h⟩

theorem Args.In.none {ob} (ha : a.In s.obj v ob) (hi : s.obj i = some ⟨none, b⟩) : ob i = some ⟨none, b⟩ := by
  cases ha with
  | val => exact hi
  | thr => exact hi
  | @ref j f g nt _ x b hj =>
    rw [upd_ne]
    · exact hi
    · intro e; subst e; rw [hi] at hj; cases hj

theorem Args.In.some {ob} (ha : a.In s.obj v ob) (hi : s.obj i = some ⟨some x, b⟩) : ∃ x', ob i = some ⟨some x', b⟩ := by
  cases ha with
  | val => exact ⟨x, hi⟩
  | thr => exact ⟨x, hi⟩
  | @ref j f g nt _ z c hj =>
    by_cases e : i = j
    · subst e
      rw [hi] at hj; cases hj
      exact ⟨g x, by rw [upd_same]⟩
    · exact ⟨x, by rw [upd_ne _ _ e]; exact hi⟩

/-! ### the calls -/

/-- the outcome of the call `op` that should turn `V` into `V'` -/
def Meets (E : Elem α) (op : Op α) (s : St α) (V V' : Vars α) : Out (St α) Unit → Prop
  | .ok _ s' => Inv s' V' ∧ s'.orc = s.orc ∧ s.tick ≤ s'.tick
  | .exc e s' => e = .user ∧ (∃ V'', Torn E op V V'' ∧ Inv s' V'') ∧ s'.orc = s.orc ∧
      ∃ m, s.tick ≤ m ∧ m < s'.tick ∧ s.orc m = true
  | .ub _ => False
  | .term => False

theorem Meets.done {out : Out (St α) Unit} {ob} (h : Done s out () ob) (hi : ∀ s', s'.obj = ob → Inv s' V') :
    Meets E op s V V' out := by
  obtain ⟨s', e, n⟩ := h
  subst e
  exact ⟨hi s' n.obj, n.orc, n.tick⟩

theorem Meets.failed {out : Out (St α) Unit} {ob} {V'' : Vars α} (hf : Failed s out ob) (ht : Torn E op V V'')
    (hi : ∀ s', s'.obj = ob → Inv s' V'') : Meets E op s V V' out := by
  obtain ⟨s', e, n, hm⟩ := hf.ex
  subst e
  exact ⟨rfl, ⟨V'', ht, hi s' n.obj⟩, n.orc, hm⟩

theorem Meets.of_ok {out : Out (St α) Unit} (e : out = .ok () s') (hi : Inv s' V') (ho : s'.orc = s.orc)
    (ht : s'.tick = s.tick) : Meets E op s V V' out := by
  subst e; exact ⟨hi, ho, by rw [ht]; exact Nat.le_refl _⟩

/-- the objects after a failed copy-assignment of `v` to object `i` with contents `o` -/
def tornObj (E : Elem α) (ob : Nat → Option (Obj α)) (i : Nat) (v : α) : Option α → Nat → Option (Obj α)
  | none => ob
  | some x => Ptl.upd ob i (some (rep (some (E.torn x v))))

/-- `o = x` for a const lvalue `x` -/
theorem assignFrom_ok (hE : E.Plain) (h : Inv s V) (hi : V i = some o) (hx : src.Has V v) :
    Done s (assignFrom E i src s) () (Ptl.upd s.obj i (some (rep (some v)))) ∨
      Failed s (assignFrom E i src s) (tornObj E s.obj i v o) := by
  have ho := h.at hi
  have hin := h.hasIn hx
  unfold assignFrom
  rw [M.bind_ok (flag_ok ho)]
  cases o with
  | none =>
    show Done s ((copyInto E i src >>= fun _ => setFlag i true) s) _ _ ∨ Failed s ((copyInto E i src >>= fun _ => setFlag i true) s) _
    rcases copyInto_ok hE hin ho with hd | hf
    · left
      refine hd.bind fun s1 n => ?_
      rw [setFlag_ok (ob := ⟨some v, false⟩) (by rw [n.obj]; simp)]
      refine ⟨_, rfl, ?_, rfl, Nat.le_refl _⟩
      simp only [n.obj]
      simp [rep]
    · exact .inr hf.bind
  | some x => exact copyOver_ok (x := x) (b := true) hin ho

/-- every call within its preconditions does what the specification says, or throws and leaves what it should -/
theorem step (hE : E.Plain) (h : Inv s V) (hs : Spec E op V V') : Meets E op s V V' (op.run E s) := by
  cases hs with
  | @ctorNull i _ hi =>
    refine .done (construct_ok (b := false) (h.dead hi) ⟨_, rfl, Next.refl _⟩) fun s' e => h.upd (some none) e
  | @ctorCopy i j o _ hi hj =>
    have hne : j ≠ i := by intro e; rw [e, hi] at hj; cases hj
    show Meets E _ s V _ (ctorCopy E i j s)
    unfold ctorCopy
    rw [M.bind_ok (flag_ok (h.at hj))]
    have hj' : ({ s with obj := Ptl.upd s.obj i (some ⟨none, (rep o).initialized⟩) } : St α).obj j = some (rep o) := by
      simp only; rw [upd_ne _ _ hne]; exact h.at hj
    cases o with
    | none =>
      refine .done (ob := Ptl.upd s.obj i (some (rep none))) (construct_ok (h.dead hi) ?_) fun s' e => h.upd (some none) e
      rw [M.bind_ok (flag_ok hj')]
      exact ⟨_, rfl, Next.refl _⟩
    | some x =>
      rcases copyInto_ok (src := .own j) hE (v := x) (i := i) (b := true) (s := { s with obj := Ptl.upd s.obj i (some ⟨none, (rep (some x)).initialized⟩) })
        ⟨true, hj'⟩ (by simp; rfl) with hd | hf
      · refine .done (ob := Ptl.upd s.obj i (some (rep (some x)))) (construct_ok (h.dead hi) ?_) fun s' e => h.upd (some (some x)) e
        rw [M.bind_ok (flag_ok hj')]
        simpa [rep] using hd
      · refine .failed (construct_failed (h.dead hi) ?_) (.same (by simp) (by simp)) fun s' e => h.same e
        rw [M.bind_ok (flag_ok hj')]
        simpa [rep] using hf
  | @ctorMove i j o _ hi hj =>
    have hne : j ≠ i := by intro e; rw [e, hi] at hj; cases hj
    show Meets E _ s V _ (ctorMove E i j s)
    unfold ctorMove
    have hj' : ({ s with obj := Ptl.upd s.obj i (some ⟨none, (rep o).initialized⟩) } : St α).obj j = some (rep o) := by
      simp only; rw [upd_ne _ _ hne]; exact h.at hj
    cases o with
    | none =>
      have : upd V j (some ((none : Option α).map E.moved)) = V := upd_eq _ _ _ hj
      rw [this]
      refine .done (ob := Ptl.upd s.obj i (some (rep none))) (.noexcept ?_) fun s' e => h.upd (some none) e
      rw [M.bind_ok (flag_ok (h.at hj))]
      refine construct_ok (h.dead hi) ?_
      rw [M.bind_ok (flag_ok hj')]
      exact ⟨_, rfl, Next.refl _⟩
    | some x =>
      have hm := moveInto_ok (src := .own j) hE (v := x) (i := i) (b := true)
        (s := { s with obj := Ptl.upd s.obj i (some ⟨none, (rep (some x)).initialized⟩) })
        ⟨true, hj'⟩ (by simp; rfl)
      refine .done (ob := Ptl.upd (Ptl.upd s.obj j (some (rep (some (E.moved x))))) i (some (rep (some x)))) (.noexcept ?_) fun s' e => ?_
      · rw [M.bind_ok (flag_ok (h.at hj))]
        refine construct_ok (h.dead hi) ?_
        rw [M.bind_ok (flag_ok hj')]
        refine ⟨_, hm, ?_, rfl, Nat.le_refl _⟩
        simp only [Src.leftIn]
        rw [show upd s.obj i _ j = _ from hj', upd_comm _ _ _ hne.symm, upd_upd]
        rfl
      · exact (h.upd (s' := { s with obj := Ptl.upd s.obj j (some (rep (some (E.moved x)))) }) (some (some (E.moved x))) rfl).upd
          (some (some x)) e
  | @ctorFrom i src v _ hi hx =>
    have hin := h.hasIn hx
    have hin' := In.upd hin (fun j e => In.ne (b := true) hin (.inl (h.dead hi)) j e) (some ⟨none, true⟩)
    show Meets E _ s V _ (construct i true (copyInto E i src) s)
    rcases copyInto_ok hE (s := { s with obj := Ptl.upd s.obj i (some ⟨none, true⟩) }) (i := i) (b := true) hin' (by simp) with hd | hf
    · refine .done (construct_ok (h.dead hi) hd) fun s' e => h.upd (some (some v)) ?_
      rw [e]; simp [rep]
    · exact .failed (construct_failed (h.dead hi) hf) (.same (by simp) (by simp)) fun s' e => h.same e
  | @ctorFromMove i src v _ hi hx =>
    have hin := h.hasIn hx
    have hn := fun j e => In.ne (b := true) hin (.inl (h.dead hi)) j e
    have hin' := In.upd hin hn (some ⟨none, true⟩)
    show Meets E _ s V _ (M.noexcept (construct i true (moveInto E i src)) s)
    have hm := moveInto_ok hE (s := { s with obj := Ptl.upd s.obj i (some ⟨none, true⟩) }) (i := i) (b := true) hin' (by simp)
    refine .done (ob := Ptl.upd (src.leftIn s.obj E.moved) i (some (rep (some v)))) (.noexcept (construct_ok (h.dead hi) ⟨_, hm, ?_, rfl, Nat.le_refl _⟩))
      fun s' e => ?_
    · simp only
      cases src with
      | ext => simp [Src.leftIn, rep]
      | own j =>
        have := hn j rfl
        simp only [Src.leftIn]
        rw [upd_ne _ _ this, upd_comm _ _ _ this.symm, upd_upd]
        rfl
    · exact (h.left (s' := { s with obj := src.leftIn s.obj E.moved }) E.moved rfl).upd (some (some v)) e
  | @ctorInPlace i a v _ V1 hi ha =>
    have h0 : s.obj i = none := h.dead hi
    obtain ⟨ob, hin, hinv⟩ := h.args ha
    have hin' : ∃ ob', a.In (Ptl.upd s.obj i (some ⟨none, true⟩)) v ob' ∧ ob' i = some ⟨none, true⟩ ∧
        ∀ q, Ptl.upd ob' i q = Ptl.upd ob i q := by
      cases hin with
      | val => exact ⟨_, .val _ _, by simp, fun q => by simp⟩
      | thr => exact ⟨_, .thr _ _, by simp, fun q => by simp⟩
      | @ref j f g nt _ x b hj =>
        have hne : j ≠ i := by intro e; rw [e, h0] at hj; cases hj
        refine ⟨_, .ref (b := b) (x := x) (by rw [upd_ne _ _ hne]; exact hj), ?_, fun q => ?_⟩
        · rw [upd_ne _ _ hne.symm]; simp
        · rw [upd_comm _ _ _ hne.symm, upd_upd]
    obtain ⟨ob', hin', h1, h2⟩ := hin'
    show Meets E _ s V _ (construct i true (a.eval >>= fun v => placeVal i v) s)
    rcases eval_ok (s := { s with obj := Ptl.upd s.obj i (some ⟨none, true⟩) }) hin' with hd | hf
    · refine .done (ob := Ptl.upd ob i (some (rep (some v)))) (construct_ok h0 (hd.bind fun s1 n => ?_)) fun s' e => ?_
      · rw [placeVal_ok (b := true) (by rw [n.obj]; exact h1)]
        refine ⟨_, rfl, ?_, rfl, Nat.le_refl _⟩
        simp only [n.obj]
        exact h2 _
      · exact (hinv { s with obj := ob } rfl).upd (some (some v)) e
    · exact .failed (construct_failed h0 hf.bind) (.same (by simp) (by simp)) fun s' e => h.same e
  | @dtor i o _ hi =>
    show Meets E _ s V _ (dtor i s)
    unfold dtor
    have hr := reset_ok (h.at hi)
    refine .of_ok (M.noexcept_ok ?_) (h.upd (s' := { s with obj := Ptl.upd s.obj i none }) none rfl) rfl rfl
    rw [M.bind_ok hr, killObj_ok (b := false) (by simp [rep])]
    simp
  | @assignNull i o _ hi => exact .of_ok (M.noexcept_ok (reset_ok (h.at hi))) (h.upd (some none) rfl) rfl rfl
  | @reset i o _ hi => exact .of_ok (reset_ok (h.at hi)) (h.upd (some none) rfl) rfl rfl
  | @assignCopy i j o o' _ hi hj =>
    show Meets E _ s V _ (assignCopy E i j s)
    unfold assignCopy
    by_cases e : i = j
    · subst e
      rw [hi] at hj; cases hj
      rw [if_neg (by simp), upd_eq _ _ _ hi]
      exact .of_ok (s' := s) rfl h rfl rfl
    · rw [if_pos e, M.bind_ok (flag_ok (h.at hj))]
      cases o' with
      | none => exact .of_ok (reset_ok (h.at hi)) (h.upd (some none) rfl) rfl rfl
      | some y =>
        show Meets E _ s V _ (assignFrom E i (.own j) s)
        rcases assignFrom_ok (src := .own j) hE h hi hj with hd | hf
        · exact .done hd fun s' e => h.upd (some (some y)) e
        · cases o with
          | none => exact .failed hf (.copyEmpty hi) fun s' e => h.same e
          | some x => exact .failed hf (.copyFull hi hj) fun s' e => h.upd (some (some (E.torn x y))) e
  | @assignMoveSelf i o _ hi =>
    show Meets E _ s V _ (assignMove E i i s)
    unfold assignMove
    rw [if_neg (by simp)]
    exact .of_ok (s' := s) rfl h rfl rfl
  | @assignMove i j o o' _ hne hi hj =>
    show Meets E _ s V _ (assignMove E i j s)
    unfold assignMove
    rw [if_pos hne]
    refine .done (ob := match o' with
      | none => Ptl.upd s.obj i (some (rep none))
      | some y => Ptl.upd (Ptl.upd s.obj j (some (rep (some ((if o.isSome then E.movedAssign else E.moved) y))))) i
          (some (rep (some y)))) (.noexcept ?_) fun s' e => ?_
    · rw [M.bind_ok (flag_ok (h.at hj))]
      cases o' with
      | none => exact Done.of_ok (s' := { s with obj := Ptl.upd s.obj i (some (rep none)) }) (reset_ok (h.at hi)) rfl rfl
      | some y =>
        show Done s (assignFromMove E i (.own j) s) () _
        unfold assignFromMove
        refine .noexcept ?_
        have hoi := h.at hi
        have hoj := h.at hj
        rw [M.bind_ok (flag_ok hoi)]
        cases o with
        | none =>
          show Done s ((moveInto E i (.own j) >>= fun _ => setFlag i true) s) _ _
          rw [M.bind_ok (moveInto_ok hE (src := .own j) (v := y) (b := false) ⟨true, hoj⟩ hoi),
            setFlag_ok (ob := ⟨some y, false⟩) (by simp)]
          refine ⟨_, rfl, ?_, rfl, Nat.le_refl _⟩
          simp [Src.leftIn, hoj, rep]
        | some x =>
          show Done s (moveOver E i (.own j) s) _ _
          rw [moveOver_ok (src := .own j) (v := y) (x := x) (b := true) ⟨true, hoj⟩ hoi]
          refine ⟨_, rfl, ?_, rfl, Nat.le_refl _⟩
          simp [Src.leftIn, hoj, rep, Src.overwrites, hne.symm]
    · cases o' with
      | none =>
        have : upd V j (some ((none : Option α).map (if o.isSome then E.movedAssign else E.moved))) = V := upd_eq _ _ _ hj
        rw [this]
        exact h.upd (some none) e
      | some y =>
        exact (h.upd (s' := { s with obj := Ptl.upd s.obj j (some (rep (some ((if o.isSome then E.movedAssign else E.moved) y)))) })
          (some (some _)) rfl).upd (some (some y)) e
  | @assignFrom i src o v _ hi hx =>
    show Meets E _ s V _ (assignFrom E i src s)
    rcases assignFrom_ok hE h hi hx with hd | hf
    · exact .done hd fun s' e => h.upd (some (some v)) e
    · cases o with
      | none => exact .failed hf (.fromEmpty hi) fun s' e => h.same e
      | some x => exact .failed hf (.fromFull hi hx) fun s' e => h.upd (some (some (E.torn x v))) e
  | @assignFromMove i src o v _ hi hx =>
    show Meets E _ s V _ (assignFromMove E i src s)
    unfold assignFromMove
    have hin := h.hasIn hx
    have hoi := h.at hi
    refine .done (ob := Ptl.upd (src.leftIn s.obj (if o.isSome then E.movedAssign else E.moved)) i
      (some (rep (some (src.overwrites E i v))))) (.noexcept ?_) fun s' e => ?_
    · rw [M.bind_ok (flag_ok hoi)]
      cases o with
      | none =>
        show Done s ((moveInto E i src >>= fun _ => setFlag i true) s) _ _
        rw [M.bind_ok (moveInto_ok hE (b := false) hin hoi), setFlag_ok (ob := ⟨some v, false⟩) (by simp)]
        refine ⟨_, rfl, ?_, rfl, Nat.le_refl _⟩
        have : src.overwrites E i v = v := by
          cases src with
          | ext => rfl
          | own j =>
            have := In.ne (b := false) hin (.inr hoi) j rfl
            simp [Src.overwrites, this]
        simp [rep, this]
      | some x =>
        show Done s (moveOver E i src s) _ _
        rw [moveOver_ok (x := x) (b := true) hin hoi]
        exact ⟨_, rfl, rfl, rfl, Nat.le_refl _⟩
    · exact (h.left (s' := { s with obj := src.leftIn s.obj _ }) _ rfl).upd (some (some _)) e
  | @emplace i a o v _ V1 hi ha =>
    show Meets E _ s V _ ((emplace E i a >>= fun _ => pure ()) s)
    obtain ⟨ob, hin, hinv⟩ := h.args ha
    have hoi := h.at hi
    have main : Done s (emplace E i a s) i (Ptl.upd ob i (some (rep (some v)))) ∨ Failed s (emplace E i a s) s.obj := by
      unfold emplace
      rw [M.bind_ok (flag_ok hoi)]
      cases o with
      | none =>
        show Done s (((a.eval >>= fun v => placeVal i v >>= fun _ => setFlag i true) >>= fun _ => pure i) s) _ _ ∨
          Failed s (((a.eval >>= fun v => placeVal i v >>= fun _ => setFlag i true) >>= fun _ => pure i) s) _
        rcases eval_ok hin with hd | hf
        · left
          refine (hd.bind (q := ()) (ob' := Ptl.upd ob i (some (rep (some v)))) fun s1 n => ?_).bind fun s1 n => ⟨_, rfl, n.obj, rfl, Nat.le_refl _⟩
          have h1 : s1.obj i = some ⟨none, false⟩ := by rw [n.obj]; exact hin.none hoi
          rw [M.bind_ok (placeVal_ok h1), setFlag_ok (ob := ⟨some v, false⟩) (by simp)]
          refine ⟨_, rfl, ?_, rfl, Nat.le_refl _⟩
          simp only [n.obj, upd_upd]
          rfl
        · exact .inr (hf.bind).bind
      | some x =>
        show Done s (((a.eval >>= fun v => moveOver E i (.ext v)) >>= fun _ => pure i) s) _ _ ∨
          Failed s (((a.eval >>= fun v => moveOver E i (.ext v)) >>= fun _ => pure i) s) _
        rcases eval_ok hin with hd | hf
        · left
          obtain ⟨x', hx'⟩ := hin.some hoi
          refine (hd.bind (q := ()) (ob' := Ptl.upd ob i (some (rep (some v)))) fun s1 n => ?_).bind fun s1 n => ⟨_, rfl, n.obj, rfl, Nat.le_refl _⟩
          rw [moveOver_ok (src := .ext v) (v := v) rfl (by rw [n.obj]; exact hx')]
          refine ⟨_, rfl, ?_, rfl, Nat.le_refl _⟩
          simp only [n.obj]
          rfl
        · exact .inr (hf.bind).bind
    rcases main with hd | hf
    · exact .done (hd.bind fun s1 n => ⟨_, rfl, n.obj, rfl, Nat.le_refl _⟩)
        fun s' e => (hinv { s with obj := ob } rfl).upd (some (some v)) e
    · exact .failed hf.bind (.same (by simp) (by simp)) fun s' e => h.same e
  | @swap i j o o' _ hi hj =>
    show Meets E _ s V _ (swap E i j s)
    unfold swap
    by_cases e : i = j
    · subst e
      rw [hi] at hj; cases hj
      rw [if_pos rfl, upd_upd, upd_eq _ _ _ hi]
      exact .of_ok (s' := s) rfl h rfl rfl
    · rw [if_neg e]
      have hoi := h.at hi
      have hoj := h.at hj
      refine .done (ob := Ptl.upd (Ptl.upd s.obj i (some (rep o'))) j (some (rep o))) (.noexcept ?_) fun s' e =>
        (h.upd (s' := { s with obj := Ptl.upd s.obj i (some (rep o')) }) (some o') rfl).upd (some o) e
      rw [M.bind_ok (flag_ok hoi), M.bind_ok (flag_ok hoj)]
      cases o with
      | none =>
        cases o' with
        | none =>
          refine ⟨s, rfl, ?_, rfl, Nat.le_refl _⟩
          rw [upd_eq s.obj _ _ hoi, upd_eq s.obj _ _ hoj]
        | some y =>
          show Done s ((moveInto E i (.own j) >>= fun _ => setFlag i true >>= fun _ => destroyVal j >>= fun _ =>
            setFlag j false) s) _ _
          rw [M.bind_ok (moveInto_ok hE (src := .own j) (v := y) (b := false) ⟨true, hoj⟩ hoi),
            M.bind_ok (setFlag_ok (ob := ⟨some y, false⟩) (by simp)),
            M.bind_ok (destroyVal_ok (x := E.moved y) (b := true) (by simp [Src.leftIn, hoj, upd_ne _ _ (Ne.symm e), rep])),
            setFlag_ok (ob := ⟨none, true⟩) (by simp)]
          refine ⟨_, rfl, ?_, rfl, Nat.le_refl _⟩
          simp only [Src.leftIn, upd_upd]
          rw [upd_comm _ _ _ e, upd_upd, upd_comm _ _ _ (Ne.symm e)]
          rfl
      | some x =>
        cases o' with
        | none =>
          show Done s ((moveInto E j (.own i) >>= fun _ => setFlag j true >>= fun _ => destroyVal i >>= fun _ =>
            setFlag i false) s) _ _
          rw [M.bind_ok (moveInto_ok hE (src := .own i) (v := x) (b := false) ⟨true, hoi⟩ hoj),
            M.bind_ok (setFlag_ok (ob := ⟨some x, false⟩) (by simp)),
            M.bind_ok (destroyVal_ok (x := E.moved x) (b := true) (by simp [Src.leftIn, hoi, upd_ne _ _ e, rep])),
            setFlag_ok (ob := ⟨none, true⟩) (by simp)]
          refine ⟨_, rfl, ?_, rfl, Nat.le_refl _⟩
          simp only [Src.leftIn, upd_upd]
          rw [upd_comm _ _ _ (Ne.symm e), upd_upd]
          rfl
        | some y =>
          show Done s ((readVal i >>= fun x => readVal j >>= fun y => writeVal i y >>= fun _ => writeVal j x) s) _ _
          rw [M.bind_ok (readVal_ok (b := true) hoi), M.bind_ok (readVal_ok (b := true) hoj),
            M.bind_ok (writeVal_ok (b := true) hoi),
            writeVal_ok (x := y) (b := true) (by simp only; rw [upd_ne _ _ (Ne.symm e)]; exact hoj)]
          exact ⟨_, rfl, rfl, rfl, Nat.le_refl _⟩
  | @write i x v _ hi =>
    exact .of_ok (M.bind_ok (s' := s) (a := i) rfl |>.trans (writeVal_ok (b := true) (h.at hi))) (h.upd (some (some v)) rfl) rfl rfl
  | @writeValue i x v _ hi =>
    have hv : value i s = .ok i s := by
      unfold value
      rw [M.bind_ok (flag_ok (h.at hi))]
      rfl
    exact .of_ok (M.bind_ok hv |>.trans (writeVal_ok (b := true) (h.at hi))) (h.upd (some (some v)) rfl) rfl rfl
  | @takeValueOr i a x _ hi =>
    have hv : valueOrMove E i a s = .ok x { s with obj := Ptl.upd s.obj i (some (rep (some (E.moved x)))) } := by
      unfold valueOrMove
      rw [M.bind_ok (flag_ok (h.at hi))]
      show (readVal i >>= fun v => writeVal i (E.moved v) >>= fun _ => pure v) s = _
      rw [M.bind_ok (readVal_ok (b := true) (h.at hi)), M.bind_ok (writeVal_ok (b := true) (h.at hi))]
      rfl
    exact .of_ok (M.bind_ok hv) (h.upd (some (some _)) rfl) rfl rfl
  | @takeDefault i a v _ V1 hi ha =>
    obtain ⟨ob, hin, hinv⟩ := h.args ha
    have hv : valueOrMove E i a s = a.eval s := by
      unfold valueOrMove
      rw [M.bind_ok (flag_ok (h.at hi))]
      rfl
    have hv' : Op.run E (.takeValueOr i a) s = (a.eval >>= fun _ => pure ()) s := M.bind_congr hv
    rw [hv']
    rcases eval_ok hin with hd | hf
    · exact .done (hd.bind fun s1 n => ⟨_, rfl, n.obj, rfl, Nat.le_refl _⟩) hinv
    · exact .failed hf.bind (.same (by simp) (by simp)) fun s' e => h.same e

  | @getValueOr i a x _ hi =>
    have hv : valueOr i a s = (fallible >>= fun _ => pure x) s := by
      unfold valueOr
      rw [M.bind_ok (flag_ok (h.at hi))]
      exact M.bind_ok (readVal_ok (b := true) (h.at hi))
    have hv' : Op.run E (.getValueOr i a) s = ((fallible >>= fun _ => pure x) >>= fun _ => pure ()) s := M.bind_congr hv
    rw [hv', M.bind_assoc']
    rcases fallible_cases s with ⟨e, hk⟩ | ⟨e, hk⟩
    · rw [M.bind_ok e]
      exact .done (ob := s.obj) ⟨_, rfl, rfl, rfl, Nat.le_succ _⟩ fun s' e => h.same e
    · rw [M.bind_exc e]
      exact .failed (ob := s.obj) ⟨_, rfl, ⟨rfl, rfl, Nat.le_succ _⟩, s.tick, Nat.le_refl _, Nat.lt_succ_self _, hk⟩
        (.same (by simp) (by simp)) fun s' e => h.same e
  | @getDefault i a v _ V1 hi ha =>
    obtain ⟨ob, hin, hinv⟩ := h.args ha
    have hv : valueOr i a s = a.eval s := by
      unfold valueOr
      rw [M.bind_ok (flag_ok (h.at hi))]
      rfl
    have hv' : Op.run E (.getValueOr i a) s = (a.eval >>= fun _ => pure ()) s := M.bind_congr hv
    rw [hv']
    rcases eval_ok hin with hd | hf
    · exact .done (hd.bind fun s1 n => ⟨_, rfl, n.obj, rfl, Nat.le_refl _⟩) hinv
    · exact .failed hf.bind (.same (by simp) (by simp)) fun s' e => h.same e

theorem start_inv (orc : Nat → Bool) : Inv (start α orc) (fun _ => none) := fun _ => rfl

theorem Has.unique (h : src.Has V v) (h' : src.Has V w) : v = w := by
  cases src with
  | ext => exact Eq.trans (Eq.symm h) h'
  | own j =>
    have h : V j = some (some v) := h
    have h' : V j = some (some w) := h'
    rw [h] at h'; cases h'; rfl

theorem Torn.unique {V'' : Vars α} (h : Torn E op V V') (h' : Torn E op V V'') : V' = V'' := by
  cases h with
  | same h1 h2 =>
    cases h' with
    | same => rfl
    | copyEmpty => exact (h1 _ _ rfl).elim
    | copyFull => exact (h1 _ _ rfl).elim
    | fromEmpty => exact (h2 _ _ rfl).elim
    | fromFull => exact (h2 _ _ rfl).elim
  | copyEmpty h1 =>
    cases h' with
    | same h _ => exact (h _ _ rfl).elim
    | copyEmpty => rfl
    | copyFull h2 => rw [h1] at h2; cases h2
  | copyFull h1 h2 =>
    cases h' with
    | same h _ => exact (h _ _ rfl).elim
    | copyEmpty h3 => rw [h1] at h3; cases h3
    | copyFull h3 h4 => rw [h1] at h3; rw [h2] at h4; cases h3; cases h4; rfl
  | fromEmpty h1 =>
    cases h' with
    | same _ h => exact (h _ _ rfl).elim
    | fromEmpty => rfl
    | fromFull h2 => rw [h1] at h2; cases h2
  | fromFull h1 h2 =>
    cases h' with
    | same _ h => exact (h _ _ rfl).elim
    | fromEmpty h3 => rw [h1] at h3; cases h3
    | fromFull h3 h4 => rw [h1] at h3; cases h3; rw [Has.unique h2 h4]

theorem Reach.inv (hE : E.Plain) (h : Reach E s V) : Inv s V := by
  induction h with
  | start orc => exact start_inv orc
  | ok _ hs hr ih =>
    have := step hE ih hs
    rw [hr] at this
    exact this.1
  | thrown _ hs hr ht ih =>
    have := step hE ih hs
    rw [hr] at this
    obtain ⟨_, ⟨V'', ht', hi⟩, _⟩ := this
    rw [ht.unique ht']
    exact hi

/-- a call in a program in which nothing fails returns normally -/
theorem Reach.next (hE : E.Plain) (h : Reach E s V) (hs : Spec E op V V') (ho : ∀ k, s.orc k = false) :
    ∃ s', op.run E s = .ok () s' ∧ Reach E s' V' ∧ ∀ k, s'.orc k = false := by
  have := step hE (h.inv hE) hs
  cases hr : op.run E s with
  | ok u s' =>
    rw [hr] at this
    exact ⟨s', rfl, h.ok hs hr, fun k => by rw [this.2.1]; exact ho k⟩
  | exc e s' =>
    rw [hr] at this
    obtain ⟨_, _, _, m, _, _, hm⟩ := this
    rw [ho] at hm; cases hm
  | ub => rw [hr] at this; exact this.elim
  | term => rw [hr] at this; exact this.elim

theorem Inv.shows (h : Inv s V) (hi : V i = some o) : Shows s i o := by
  have ho := h.at hi
  have hf : flag i s = .ok o.isSome s := flag_ok ho
  cases o with
  | none =>
    refine .empty hf ?_
    unfold value
    rw [M.bind_ok hf]
    rfl
  | some x =>
    refine .full (p := i) hf ?_ rfl (readVal_ok (b := true) ho)
    unfold value
    rw [M.bind_ok hf]
    rfl

end Ptl.Optional

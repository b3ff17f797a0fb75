import Verif.OptRef.Client
import Verif.Optional.Demo
import Verif.Optional.Props.History

/-!
# C51: `optional_ref` refers to the object its source has

`Reach E s w`: `s` is a state a client can be in, `w` what it knows according to `Spec` (Client.lean).  `Shows s r p`: what
the client sees of reference `r`.
-/

set_option linter.unusedSectionVars false

namespace Ptl.OptRef

open Optional (Elem)

variable {α β : Type} {E : Elem α} {s s' : St α} {w w' : View α} {r q i k : Nat} {l : Loc} {p p' : Option Loc} {x v : α}
  {op : Op α} {a : Optional.Args α} {e : Exc} {src : Src}

/-! ### running the model -/

/-- the model state is what the client knows -/
structure Inv (s : St α) (w : View α) : Prop where
  opt : Optional.Inv s.opt w.V
  obj : s.obj = w.P
  ref : s.ref = w.R

theorem onOpt_ok {m : Optional.OM α β} {b : β} {o : Optional.St α} (h : m s.opt = .ok b o) :
    onOpt m s = .ok b { s with opt := o } := by simp [onOpt, h]
theorem onOpt_exc {m : Optional.OM α β} {o : Optional.St α} (h : m s.opt = .exc e o) :
    onOpt m s = .exc e { s with opt := o } := by simp [onOpt, h]

theorem fallible_ok {o : Optional.St α} (h : Optional.fallible s.opt = .ok () o) :
    fallible s = .ok () { s with opt := o } := onOpt_ok h
theorem fallible_exc {o : Optional.St α} (h : Optional.fallible s.opt = .exc e o) :
    fallible s = .exc e { s with opt := o } := onOpt_exc h

theorem ptr_ok (h : s.ref r = some p) : ptr r s = .ok p s := by simp [ptr, h]
theorem newRef_ok (h : s.ref r = none) : newRef r p s = .ok () { s with ref := upd s.ref r (some p) } := by simp [newRef, h]
theorem hasValue_ok (h : s.ref r = some p) : hasValue r s = .ok p.isSome s := M.bind_ok (ptr_ok h)
theorem deref_ok (h : s.ref r = some (some l)) : deref r s = .ok l s := M.bind_ok (ptr_ok h)
theorem value_ok (h : s.ref r = some (some l)) : value r s = .ok l s :=
  M.bind_ok (hasValue_ok h) |>.trans (deref_ok h)
theorem value_none (h : s.ref r = some none) : value r s = .exc .badOptionalAccess s := M.bind_ok (hasValue_ok h)

theorem Inv.full (h : Inv s w) {i : Nat} (hi : (w.V i).bind id = some x) : s.opt.obj i = some ⟨some x, true⟩ := by
  cases hv : w.V i with
  | none => rw [hv] at hi; cases hi
  | some o =>
    rw [hv] at hi
    have hi : o = some x := hi
    subst hi
    exact h.opt.at hv

theorem Inv.read (h : Inv s w) (hl : w.at l = some x) : readLoc l s = .ok x s := by
  cases l with
  | plain k =>
    have hl : w.P k = some x := hl
    rw [← h.obj] at hl
    simp [readLoc, hl]
  | inOpt i => exact onOpt_ok (Optional.readVal_ok (h.full hl))

theorem Inv.write (h : Inv s w) (hl : w.at l = some x) : ∃ s', writeLoc l v s = .ok () s' ∧ Inv s' (w.put l v) ∧
    s'.opt.orc = s.opt.orc ∧ s'.opt.tick = s.opt.tick := by
  cases l with
  | plain k =>
    have hl : w.P k = some x := hl
    rw [← h.obj] at hl
    refine ⟨{ s with obj := upd s.obj k (some v) }, by simp [writeLoc, hl], ⟨h.opt, ?_, h.ref⟩, rfl, rfl⟩
    show upd s.obj k (some v) = upd w.P k (some v)
    rw [h.obj]
  | inOpt i =>
    have ho := h.full hl
    exact ⟨_, onOpt_ok (Optional.writeVal_ok ho), ⟨h.opt.upd (some (some v)) rfl, h.obj, h.ref⟩, rfl, rfl⟩

theorem Inv.test (h : Inv s w) (hm : src.Means w p) : src.test s = .ok p.isSome s := by
  cases hm with
  | full hi => exact onOpt_ok (Optional.flag_ok (h.opt.at hi))
  | empty hi => exact onOpt_ok (Optional.flag_ok (h.opt.at hi))
  | ref hq => exact hasValue_ok (by rw [h.ref]; exact hq)
  | ptr p => rfl

theorem Inv.addr (h : Inv s w) (hm : src.Means w (some l)) : src.addr s = .ok l s := by
  cases hm with
  | full hi => rfl
  | ref hq => exact deref_ok (by rw [h.ref]; exact hq)
  | ptr p => rfl

theorem Inv.rebind (h : Inv s w) (p : Option (Option Loc)) :
    Inv { s with ref := upd s.ref r p } { w with R := upd w.R r p } :=
  ⟨h.opt, h.obj, by show upd s.ref r p = upd w.R r p; rw [h.ref]⟩

theorem ctorFrom_ok (h : Inv s w) (hr : w.R r = none) (hm : src.Means w p) :
    ctorFrom r src s = .ok () { s with ref := upd s.ref r (some p) } := by
  unfold ctorFrom
  rw [M.bind_ok (h.test hm)]
  have hp : (if p.isSome then do
      let l ← src.addr
      pure (some l)
    else pure none : RM α (Option Loc)) s = .ok p s := by
    cases p with
    | none => rfl
    | some l => exact M.bind_ok (h.addr hm)
  rw [M.bind_ok hp]
  exact newRef_ok (by rw [h.ref]; exact hr)

/-- the outcome of a call that should turn `w` into `w'` -/
def Meets (E : Elem α) (op : Op α) (s : St α) (w w' : View α) : Out (St α) Unit → Prop
  | .ok _ s' => Inv s' w' ∧ s'.opt.orc = s.opt.orc ∧ s.opt.tick ≤ s'.opt.tick
  | .exc e s' => e = .user ∧ (∃ w'', Torn E op w w'' ∧ Inv s' w'') ∧ s'.opt.orc = s.opt.orc ∧
      ∃ m, s.opt.tick ≤ m ∧ m < s'.opt.tick ∧ s.opt.orc m = true
  | .ub _ => False
  | .term => False

theorem Meets.of_ok {out : Out (St α) Unit} (e : out = .ok () s') (hi : Inv s' w') (ho : s'.opt.orc = s.opt.orc)
    (ht : s'.opt.tick = s.opt.tick) : Meets E op s w w' out := by
  subst e; exact ⟨hi, ho, by rw [ht]; exact Nat.le_refl _⟩

theorem step (hE : E.Plain) (h : Inv s w) (hs : Spec E op w w') : Meets E op s w w' (op.run E s) := by
  cases hs with
  | @opt op V' _ hs =>
    have := Optional.step hE h.opt hs
    show Meets E _ s w _ (onOpt (op.run E) s)
    unfold onOpt
    cases hr : op.run E s.opt with
    | ok u o => rw [hr] at this; exact ⟨⟨this.1, h.obj, h.ref⟩, this.2⟩
    | exc e o =>
      rw [hr] at this
      obtain ⟨he, ⟨V'', ht, hi⟩, h3, h4⟩ := this
      exact ⟨he, ⟨{ w with V := V'' }, .opt ht, ⟨hi, h.obj, h.ref⟩⟩, h3, h4⟩
    | ub f => rw [hr] at this; exact this
    | term => rw [hr] at this; exact this
  | @newObj k v _ hk =>
    rw [← h.obj] at hk
    refine .of_ok (s' := { s with obj := upd s.obj k (some v) }) (by simp [Op.run, newObj, hk]) ⟨h.opt, ?_, h.ref⟩ rfl rfl
    show upd s.obj k (some v) = upd w.P k (some v)
    rw [h.obj]
  | @setObj k v x _ hk =>
    obtain ⟨s', e, hi, h1, h2⟩ := h.write (l := .plain k) (v := v) hk
    exact .of_ok e hi h1 h2
  | @killObj k x _ hk =>
    rw [← h.obj] at hk
    refine .of_ok (s' := { s with obj := upd s.obj k none }) (by simp [Op.run, killObj, hk]) ⟨h.opt, ?_, h.ref⟩ rfl rfl
    show upd s.obj k none = upd w.P k none
    rw [h.obj]
  | @ctorNull r _ hr => exact .of_ok (newRef_ok (by rw [h.ref]; exact hr)) (h.rebind _) rfl rfl
  | @ctorObj r l x _ hr hl => exact .of_ok (newRef_ok (by rw [h.ref]; exact hr)) (h.rebind _) rfl rfl
  | @ctorFrom r src p _ hr hm => exact .of_ok (ctorFrom_ok h hr hm) (h.rebind _) rfl rfl
  | @ctorCopy r q p _ hr hq =>
    refine .of_ok (M.bind_ok (ptr_ok (by rw [h.ref]; exact hq)) |>.trans (newRef_ok (by rw [h.ref]; exact hr))) (h.rebind _) rfl rfl
  | @assign r q p p' _ hr hq =>
    exact .of_ok (M.bind_ok (ptr_ok (by rw [h.ref]; exact hq)) |>.trans (M.bind_ok (ptr_ok (by rw [h.ref]; exact hr))))
      (h.rebind _) rfl rfl
  | @dtor r p _ hr => exact .of_ok (M.bind_ok (ptr_ok (by rw [h.ref]; exact hr))) (h.rebind _) rfl rfl
  | @write r l v x _ hr hl =>
    obtain ⟨s', e, hi, h1, h2⟩ := h.write (v := v) hl
    exact .of_ok (M.bind_ok (deref_ok (by rw [h.ref]; exact hr)) |>.trans e) hi h1 h2
  | @writeValue r l v x _ hr hl =>
    obtain ⟨s', e, hi, h1, h2⟩ := h.write (v := v) hl
    exact .of_ok (M.bind_ok (value_ok (by rw [h.ref]; exact hr)) |>.trans e) hi h1 h2
  | @valueOr r l a x _ hr hl =>
    have hr' : s.ref r = some (some l) := by rw [h.ref]; exact hr
    have hv : valueOr r a s = (fallible >>= fun _ => pure x) s := by
      unfold valueOr
      rw [M.bind_ok (hasValue_ok hr')]
      exact M.bind_ok (deref_ok hr') |>.trans (M.bind_ok (h.read hl))
    show Meets E _ s w _ ((valueOr r a >>= fun _ => pure ()) s)
    rw [M.bind_congr hv, M.bind_assoc']
    rcases Optional.fallible_cases s.opt with ⟨e, hk⟩ | ⟨e, hk⟩
    · rw [M.bind_ok (fallible_ok e)]
      exact ⟨⟨h.opt.same rfl, h.obj, h.ref⟩, rfl, Nat.le_succ _⟩
    · rw [M.bind_exc (fallible_exc e)]
      exact ⟨rfl, ⟨w, .same (by simp), h.opt.same rfl, h.obj, h.ref⟩, rfl, s.opt.tick, Nat.le_refl _, Nat.lt_succ_self _, hk⟩
  | @valueOrDefault r a v V' _ hr ha =>
    have hr' : s.ref r = some none := by rw [h.ref]; exact hr
    have hv : valueOr r a s = onOpt a.eval s := by
      unfold valueOr
      rw [M.bind_ok (hasValue_ok hr')]
      rfl
    show Meets E _ s w _ ((valueOr r a >>= fun _ => pure ()) s)
    rw [M.bind_congr hv]
    obtain ⟨ob, hin, hinv⟩ := h.opt.args ha
    rcases Optional.eval_ok hin with ⟨s1, e, n⟩ | hf
    · rw [M.bind_ok (onOpt_ok e)]
      exact ⟨⟨hinv s1 n.obj, h.obj, h.ref⟩, n.orc, n.tick⟩
    · obtain ⟨s1, e, n, hm⟩ := hf.ex
      rw [M.bind_exc (onOpt_exc e)]
      exact ⟨rfl, ⟨w, .same (by simp), h.opt.same n.obj, h.obj, h.ref⟩, n.orc, hm⟩

theorem Torn.unique {w1 w2 : View α} (h : Torn E op w w1) (h' : Torn E op w w2) : w1 = w2 := by
  cases h with
  | opt h1 =>
    cases h' with
    | opt h2 => rw [Optional.Torn.unique h1 h2]
    | same h => exact (h _ rfl).elim
  | same h =>
    cases h' with
    | opt => exact (h _ rfl).elim
    | same => rfl

theorem Reach.inv (hE : E.Plain) (h : Reach E s w) : Inv s w := by
  induction h with
  | start orc => exact ⟨Optional.start_inv orc, rfl, rfl⟩
  | ok _ hs hr ih => have := step hE ih hs; rw [hr] at this; exact this.1
  | thrown _ hs hr ht ih =>
    have := step hE ih hs
    rw [hr] at this
    obtain ⟨_, ⟨w1, ht', hi⟩, _⟩ := this
    rw [ht.unique ht']; exact hi

theorem Reach.next (hE : E.Plain) (h : Reach E s w) (hs : Spec E op w w') (ho : ∀ k, s.opt.orc k = false) :
    ∃ s', op.run E s = .ok () s' ∧ Reach E s' w' ∧ ∀ k, s'.opt.orc k = false := by
  have := step hE (h.inv hE) hs
  cases hr : op.run E s with
  | ok u s' =>
    rw [hr] at this
    exact ⟨s', rfl, h.ok hs hr, fun k => by rw [this.2.1]; exact ho k⟩
  | exc e s' =>
    rw [hr] at this
    obtain ⟨_, _, _, m, _, _, hm⟩ := this
    rw [ho] at hm; cases hm
  | ub => rw [hr] at this; exact this.elim
  | term => rw [hr] at this; exact this.elim

/-! ### a concrete program: optional 0 holds 7, optional 1 is empty; references 0, 1 and 2 refer to optional 0, optional 1
and a plain object 5 -/

/-- what the client knows then -/
def demoW : View Nat where
  V := upd (upd (fun _ => none) 0 (some (some 7))) 1 (some none)
  P := upd (fun _ => none) 0 (some 5)
  R := upd (upd (upd (fun _ => none) 0 (some (some (.inOpt 0)))) 1 (some none)) 2 (some (some (.plain 0)))

/-- the program runs -/
theorem demo : ∃ s, Reach Optional.demoE s demoW ∧ ∀ k, s.opt.orc k = false := by
  have hE := Optional.demoE_plain
  obtain ⟨s1, _, h1, o1⟩ := (Reach.start (E := Optional.demoE) fun _ => false).next hE
    (.opt (.ctorInPlace (i := 0) rfl (.thr 7))) (fun _ => rfl)
  obtain ⟨s2, _, h2, o2⟩ := h1.next hE (.opt (.ctorNull (i := 1) rfl)) o1
  obtain ⟨s3, _, h3, o3⟩ := h2.next hE (.newObj (k := 0) (v := 5) rfl) o2
  obtain ⟨s4, _, h4, o4⟩ := h3.next hE (.ctorFrom (r := 0) rfl (.full (i := 0) (x := 7) rfl)) o3
  obtain ⟨s5, _, h5, o5⟩ := h4.next hE (.ctorFrom (r := 1) rfl (.empty (i := 1) rfl)) o4
  obtain ⟨s6, _, h6, o6⟩ := h5.next hE (.ctorObj (r := 2) (l := .plain 0) (x := 5) rfl rfl) o5
  exact ⟨s6, h6, o6⟩

/-! ## C51 -/

/-- C51: after every history, each live reference refers to the object (or nothing) that the specification says -/
theorem C51_refers (hE : E.Plain) (h : Reach E s w) (hr : w.R r = some p) : Shows s r p := by
  have hr' : s.ref r = some p := by rw [(h.inv hE).ref]; exact hr
  cases p with
  | none => exact .empty (hasValue_ok hr') (value_none hr')
  | some l => exact .full (hasValue_ok hr') (value_ok hr') (deref_ok hr')

/-- what the client sees is what the specification says: of all optionals, plain objects and references -/
def Agrees (s : St α) (w : View α) : Prop :=
  Optional.Agrees s.opt w.V ∧ s.obj = w.P ∧ ∀ r, (∀ p, w.R r = some p → Shows s r p) ∧ (w.R r = none → s.ref r = none)

theorem Reach.agrees (h : Reach E s w) (hE : E.Plain) : Agrees s w :=
  ⟨fun _ => ⟨fun _ hi => (h.inv hE).opt.shows hi, fun hi => (h.inv hE).opt.dead hi⟩, (h.inv hE).obj,
    fun r => ⟨fun _ hr => C51_refers hE h hr, fun hr => by rw [(h.inv hE).ref]; exact hr⟩⟩

/-- C51: every call within its precondition behaves: it returns with what is specified, or throws with what is specified
for that case; it is never undefined -/
theorem C51_call (hE : E.Plain) (h : Reach E s w) (hs : Spec E op w w') :
    match op.run E s with
    | .ok _ s' => Reach E s' w' ∧ Agrees s' w'
    | .exc _ s' => ∃ w'', Torn E op w w'' ∧ Reach E s' w'' ∧ Agrees s' w''
    | .ub _ => False
    | .term => False := by
  have := step hE (h.inv hE) hs
  cases hr : op.run E s with
  | ok r s' => exact ⟨h.ok hs hr, (h.ok hs hr).agrees hE⟩
  | exc e s' =>
    rw [hr] at this
    obtain ⟨_, ⟨w'', ht, _⟩, _⟩ := this
    exact ⟨w'', ht, h.thrown hs hr ht, (h.thrown hs hr ht).agrees hE⟩
  | ub => rw [hr] at this; exact this.elim
  | term => rw [hr] at this; exact this.elim

/-- C51: a new reference refers to something if and only if its source has a value: the same object that the source's
`operator*` gives.  Binding does not fail and changes nothing else. -/
theorem C51_bind (hE : E.Plain) (h : Reach E s w) (hr : w.R r = none) (hm : src.Means w p) :
    ∃ s', Op.run E (.ctorFrom r src) s = .ok () s' ∧ src.test s = .ok p.isSome s ∧
      (∀ l, p = some l → src.addr s = .ok l s) ∧ Shows s' r p ∧ s'.opt = s.opt ∧ s'.obj = s.obj := by
  have hi := h.inv hE
  refine ⟨_, ctorFrom_ok hi hr hm, hi.test hm, fun l hl => hi.addr (hl ▸ hm), ?_, rfl, rfl⟩
  exact C51_refers hE (h.ok (.ctorFrom hr hm) (ctorFrom_ok hi hr hm)) (by show upd w.R r (some p) r = _; simp)

/-- C51: what is read through a reference to the value of an optional is what the optional holds at that time, and
conversely: after whatever has been done to the optional, through whatever handle -/
theorem C51_reads (hE : E.Plain) (h : Reach E s w) (hr : w.R r = some (some (.inOpt i))) (hi : w.V i = some (some x)) :
    (∃ l, value r s = .ok l s ∧ readLoc l s = .ok x s) ∧ Optional.Shows s.opt i (some x) :=
  ⟨⟨_, value_ok (by rw [(h.inv hE).ref]; exact hr), (h.inv hE).read (by simp [View.at, hi])⟩, (h.inv hE).opt.shows hi⟩

/-- C51: the same for plain objects -/
theorem C51_reads_plain (hE : E.Plain) (h : Reach E s w) (hr : w.R r = some (some (.plain k))) (hk : w.P k = some x) :
    (∃ l, value r s = .ok l s ∧ readLoc l s = .ok x s) ∧ s.obj k = some x :=
  ⟨⟨_, value_ok (by rw [(h.inv hE).ref]; exact hr), (h.inv hE).read (l := .plain k) hk⟩, by rw [(h.inv hE).obj]; exact hk⟩

/-- C51: writing through the reference changes the optional's value and no other optional's -/
theorem C51_writes (hE : E.Plain) (h : Reach E s w) (hr : w.R r = some (some (.inOpt i))) (hi : w.V i = some (some x))
    (v : α) : ∃ s', Op.run E (.writeValue r v) s = .ok () s' ∧ Optional.Shows s'.opt i (some v) ∧
      ∀ j o, j ≠ i → w.V j = some o → Optional.Shows s'.opt j o := by
  have hs : Spec E (.writeValue r v) w _ := .writeValue hr (by simp [View.at, hi] : w.at (.inOpt i) = some x)
  obtain ⟨s1, e, hin, _⟩ := (h.inv hE).write (l := .inOpt i) (v := v) (by simp [View.at, hi] : w.at (.inOpt i) = some x)
  refine ⟨s1, M.bind_ok (value_ok (by rw [(h.inv hE).ref]; exact hr)) |>.trans e, hin.opt.shows ?_, fun j o hj ho => hin.opt.shows ?_⟩
  · exact upd_same _ _ _
  · show upd w.V i _ j = _
    rw [upd_ne _ _ hj]; exact ho

/-- C51: an empty reference: `value()` throws; what the source does later makes no difference -/
theorem C51_empty (hE : E.Plain) (h : Reach E s w) (hr : w.R r = some none) :
    hasValue r s = .ok false s ∧ value r s = .exc .badOptionalAccess s := by
  cases C51_refers hE h hr with
  | empty h1 h2 => exact ⟨h1, h2⟩

/-- C51: `value()` throws only if the reference is empty -/
theorem C51_full (hE : E.Plain) (h : Reach E s w) (hr : w.R r = some (some l)) :
    hasValue r s = .ok true s ∧ value r s = .ok l s ∧ deref r s = .ok l s := by
  cases C51_refers hE h hr with
  | full h1 h2 h3 => exact ⟨h1, h2, h3⟩

theorem Spec.stable (hs : Spec E op w w') (hr : w.R r = some p)
    (h1 : ∀ q, op ≠ .assign r q) (h2 : op ≠ .dtor r) : w'.R r = some p := by
  have hn : ∀ {q : Nat} {p' : Option (Option Loc)}, w.R q = none → upd w.R q p' r = some p := by
    intro q p' hq
    rw [upd_ne]
    · exact hr
    · intro e; subst e; rw [hr] at hq; cases hq
  cases hs with
  | opt => exact hr
  | newObj => exact hr
  | setObj => exact hr
  | killObj => exact hr
  | ctorNull h => exact hn h
  | ctorObj h => exact hn h
  | ctorFrom h => exact hn h
  | ctorCopy h => exact hn h
  | @assign q _ _ _ _ _ _ =>
    show upd w.R q _ r = _
    rw [upd_ne]
    · exact hr
    · intro e; subst e; exact h1 _ rfl
  | @dtor q _ _ _ =>
    show upd w.R q _ r = _
    rw [upd_ne]
    · exact hr
    · intro e; subst e; exact h2 rfl
  | @write _ l _ _ _ _ _ => cases l <;> exact hr
  | @writeValue _ l _ _ _ _ _ => cases l <;> exact hr
  | valueOr => exact hr
  | valueOrDefault => exact hr

/-- C51: operations on optionals, plain objects and other references do not change what a reference refers to, whether they succeed
or throw -/
theorem C51_stable (hE : E.Plain) (h : Reach E s w) (hs : Spec E op w w') (hsh : Shows s r p) (hr : w.R r ≠ none)
    (h1 : ∀ q, op ≠ .assign r q) (h2 : op ≠ .dtor r) (hrun : op.run E s = .ok () s' ∨ ∃ e, op.run E s = .exc e s') : Shows s' r p := by
  cases hp : w.R r with
  | none => exact absurd hp hr
  | some p' =>
    have hpp : p' = p := by
      cases C51_refers hE h hp with
      | empty a1 _ => cases hsh with
        | empty => rfl
        | full b1 => rw [a1] at b1; cases b1
      | full a1 a2 _ => cases hsh with
        | empty b1 => rw [a1] at b1; cases b1
        | full _ b2 _ => rw [a2] at b2; cases b2; rfl
    subst hpp
    rcases hrun with hrun | ⟨e, hrun⟩
    · exact C51_refers hE (h.ok hs hrun) (hs.stable hp h1 h2)
    · have := step hE (h.inv hE) hs
      rw [hrun] at this
      obtain ⟨_, ⟨w'', ht, _⟩, _⟩ := this
      refine C51_refers hE (h.thrown hs hrun ht) ?_
      cases ht <;> exact hp

/-- C51: copying and assigning references makes them refer to the same object; no object is touched -/
theorem C51_assign (hE : E.Plain) (h : Reach E s w) (hr : w.R r = some p') (hq : w.R q = some p) :
    ∃ s', Op.run E (.assign r q) s = .ok () s' ∧ Shows s' r p ∧ Shows s' q p ∧ s'.opt = s.opt ∧ s'.obj = s.obj := by
  have hi := h.inv hE
  have hrun : Op.run E (.assign r q) s = .ok () { s with ref := upd s.ref r (some p) } :=
    M.bind_ok (ptr_ok (by rw [hi.ref]; exact hq)) |>.trans (M.bind_ok (ptr_ok (by rw [hi.ref]; exact hr)))
  have h' := h.ok (.assign hr hq) hrun
  refine ⟨_, hrun, C51_refers hE h' (upd_same _ _ _), C51_refers hE h' ?_, rfl, rfl⟩
  show upd w.R r (some p) q = _
  by_cases e : q = r
  · subst e; simp
  · rw [upd_ne _ _ e]; exact hq

/-- C51: `value_or` gives a copy of the object, or the default if there is none -/
theorem C51_value_or (hE : E.Plain) (h : Reach E s w) (hr : w.R r = some (some l)) (hl : w.at l = some x)
    (hv : valueOr r a s = .ok v s') : v = x ∧ s'.obj = s.obj ∧ s'.opt.obj = s.opt.obj := by
  have hr' : s.ref r = some (some l) := by rw [(h.inv hE).ref]; exact hr
  have hv' : valueOr r a s = (fallible >>= fun _ => pure x) s := by
    unfold valueOr
    rw [M.bind_ok (hasValue_ok hr')]
    exact M.bind_ok (deref_ok hr') |>.trans (M.bind_ok ((h.inv hE).read hl))
  rw [hv'] at hv
  rcases Optional.fallible_cases s.opt with ⟨e, hk⟩ | ⟨e, hk⟩
  · rw [M.bind_ok (fallible_ok e)] at hv
    cases hv
    exact ⟨rfl, rfl, rfl⟩
  · rw [M.bind_exc (fallible_exc e)] at hv
    cases hv

/-- C51: the default -/
theorem C51_value_or_default (hE : E.Plain) (h : Reach E s w) (hr : w.R r = some none) (d : α) :
    valueOr r (.val d) s = .ok d s := by
  have hr' : s.ref r = some none := by rw [(h.inv hE).ref]; exact hr
  unfold valueOr
  rw [M.bind_ok (hasValue_ok hr')]
  rfl

/-- C51: a reference does not notice that its object is gone (reading through it is then outside of its precondition): it
still claims to have a value, and reading is undefined -/
theorem C51_dangles (hE : E.Plain) (h : Reach E s w) (hr : w.R r = some (some (.inOpt i))) (hi : w.V i = some none) :
    hasValue r s = .ok true s ∧ ∃ l, value r s = .ok l s ∧ readLoc l s = .ub .readRaw := by
  refine ⟨(C51_full hE h hr).1, _, (C51_full hE h hr).2.1, ?_⟩
  show onOpt _ s = _
  unfold onOpt
  have := (h.inv hE).opt.at hi
  simp [Optional.readVal, this, Optional.rep]

-- in the demo: write 9 through reference 0 and see it in optional 0; emplace 8 there and see it through reference 0; give
-- optional 1 a value: reference 1 stays empty
example : ∃ s s', Reach Optional.demoE s demoW ∧ Op.run Optional.demoE (.writeValue 0 9) s = .ok () s' ∧
    Optional.Shows s'.opt 0 (some 9) := by
  obtain ⟨s, h, _⟩ := demo
  obtain ⟨s', h1, h2, _⟩ := C51_writes Optional.demoE_plain h (r := 0) (i := 0) (x := 7) rfl rfl 9
  exact ⟨s, s', h, h1, h2⟩
example : ∃ s s', Reach Optional.demoE s demoW ∧ Op.run Optional.demoE (.opt (.emplace 0 (.val 8))) s = .ok () s' ∧
    ∃ l, value 0 s' = .ok l s' ∧ readLoc l s' = .ok 8 s' := by
  obtain ⟨s, h, ho⟩ := demo
  obtain ⟨s', h1, h2, _⟩ := h.next Optional.demoE_plain (.opt (.emplace (i := 0) (o := some 7) rfl (.val 8))) ho
  exact ⟨s, s', h, h1, (C51_reads Optional.demoE_plain h2 (r := 0) (i := 0) (x := 8) rfl rfl).1⟩
example : ∃ s s', Reach Optional.demoE s demoW ∧ Op.run Optional.demoE (.opt (.emplace 1 (.val 8))) s = .ok () s' ∧
    hasValue 1 s' = .ok false s' ∧ hasValue 2 s' = .ok true s' := by
  obtain ⟨s, h, ho⟩ := demo
  obtain ⟨s', h1, h2, _⟩ := h.next Optional.demoE_plain (.opt (.emplace (i := 1) (o := none) rfl (.val 8))) ho
  exact ⟨s, s', h, h1, (C51_empty Optional.demoE_plain h2 (r := 1) rfl).1, (C51_full Optional.demoE_plain h2 (r := 2) rfl).1⟩

end Ptl.OptRef

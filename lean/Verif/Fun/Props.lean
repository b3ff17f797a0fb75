import Verif.Fun.Model

/-!
# C58, C59, C68: `function_ref`

Client programs over function_refs, and what they mean: `V r` is the callable that `r` is bound to.
-/

set_option linter.unusedSectionVars false

namespace Ptl.Fun

variable {σ ν : Type} (E : Env σ ν) (G : Sig)

/-- what the client does.  `direct`: call a callable without function_ref; `world`: anything that changes functors and other
objects, including creating and destroying them. -/
inductive Op (σ ν : Type) where
  | ctorFn (r f : Nat)
  | ctorObj (r n c : Nat) (const : Bool)
  | ctorCopy (r q : Nat)
  | assign (r q : Nat)
  | assignFn (r f : Nat)
  | dtor (r : Nat)
  | call (r : Nat) (args : List ν)
  | direct (t : Callee) (args : List ν)
  | world (w : World σ ν)

/-- the call -/
def Op.run : Op σ ν → FM σ ν (Res ν)
  | .ctorFn r f => do Fun.ctorFn E G r f; pure .unit
  | .ctorObj r n c k => do Fun.ctorObj E G r n c k; pure .unit
  | .ctorCopy r q => do Fun.ctorCopy r q; pure .unit
  | .assign r q => do Fun.assign r q; pure .unit
  | .assignFn r f => do Fun.assignFn E G r f; pure .unit
  | .dtor r => do Fun.dtor r; pure .unit
  | .call r args => Fun.call E G r args
  | .direct t args => invoke E t args
  | .world w => fun s => .ok .unit { s with w := w }

/-! ### what the calls mean (no reference to the model's functions) -/

/-- the callables that the function_refs are bound to -/
abbrev Vars := Nat → Option Callee

/-- the callable exists -/
def Live (w : World σ ν) : Callee → Prop
  | .fn _ => True
  | .obj n c _ => ∃ x, w.fct n = some (c, x)

/-- the callable fits the signature: a function, or a functor object as a const object if the signature is const -/
def Fits : Callee → Prop
  | .fn f => E.fnInv f = true ∧ (G.noexcept = true → E.fnNx f = true)
  | .obj _ c k => E.clsInv c (G.const || k) = true ∧ (G.noexcept = true → E.clsNx c (G.const || k) = true)

/-- `Spec op V V'`: the call is within its preconditions when the function_refs are bound as in `V`; after it they are bound as
in `V'` -/
inductive Spec (w : World σ ν) : Op σ ν → Vars → Vars → Prop
  | ctorFn {r f V} : V r = none → Fits E G (.fn f) → Spec w (.ctorFn r f) V (upd V r (some (.fn f)))
  | ctorObj {r n c k V} : V r = none → Fits E G (.obj n c k) → Spec w (.ctorObj r n c k) V (upd V r (some (.obj n c k)))
  | ctorCopy {r q t V} : V r = none → V q = some t → Spec w (.ctorCopy r q) V (upd V r (some t))
  | assign {r q t u V} : V r = some u → V q = some t → Spec w (.assign r q) V (upd V r (some t))
  | assignFn {r f u V} : V r = some u → Fits E G (.fn f) → Spec w (.assignFn r f) V (upd V r (some (.fn f)))
  | dtor {r u V} : V r = some u → Spec w (.dtor r) V (upd V r none)
  | call {r t args V} : V r = some t → Live w t → Spec w (.call r args) V V
  | direct {t args V} : Live w t → Spec w (.direct t args) V V
  | world {w' V} : Spec w (.world w') V V

/-- the state at program start -/
def start (w : World σ ν) : St σ ν := ⟨w, fun _ => none, []⟩

/-- `s` is reached from program start by calls within their preconditions; the function_refs are bound as in `V` -/
inductive Reach : St σ ν → Vars → Prop
  | start (w) : Reach (start w) (fun _ => none)
  | ok {s s' V V' op x} : Reach s V → Spec E G s.w op V V' → op.run E G s = .ok x s' → Reach s' V'
  | thrown {s s' V V' op e} : Reach s V → Spec E G s.w op V V' → op.run E G s = .exc e s' → Reach s' V'

/-- binding, copying, rebinding and destroying -/
inductive Binds : Op σ ν → Prop
  | ctorFn {r f} : Binds (.ctorFn r f)
  | ctorObj {r n c k} : Binds (.ctorObj r n c k)
  | ctorCopy {r q} : Binds (.ctorCopy r q)
  | assign {r q} : Binds (.assign r q)
  | assignFn {r f} : Binds (.assignFn r f)
  | dtor {r} : Binds (.dtor r)

variable {E G} {s s' : St σ ν} {V V' : Vars} {op : Op σ ν} {t u : Callee} {r q n c f k : Nat} {args : List ν} {x : Res ν} {e : Exc} {v : ν}

/-! ### the invariant -/

/-- the data members of a function_ref bound to `t` -/
def repOf : Callee → Rep
  | .fn f => ⟨.ptr (.fn f), .fn⟩
  | .obj n c true => ⟨.cptr (.obj n), .cls c true⟩
  | .obj n c false => ⟨.ptr (.obj n), .cls c false⟩

theorem mk_fn (f : Nat) : (⟨mkStorage .fn (.fn f), .fn⟩ : Rep) = repOf (.fn f) := rfl
theorem mk_obj (n c : Nat) (k : Bool) : (⟨mkStorage (.cls c k) (.obj n), .cls c k⟩ : Rep) = repOf (.obj n c k) := by cases k <;> rfl

theorem get_repOf (t : Callee) (s : St σ ν) : storageGet (repOf t).dispatch (repOf t).storage s = .ok t s := by
  rcases t with f | ⟨n, c, _ | _⟩ <;> rfl

def Inv (s : St σ ν) (V : Vars) : Prop := ∀ r, s.ref r = (V r).map repOf

theorem Inv.upd (h : Inv s V) (r : Nat) (t : Option Callee) (hs' : s'.ref = Ptl.upd s.ref r (t.map repOf)) : Inv s' (Ptl.upd V r t) := by
  intro q
  rw [hs']
  by_cases e : q = r
  · subst e; simp
  · rw [upd_ne _ _ e, upd_ne _ _ e, h q]

theorem rep_ok (h : Inv s V) (hr : V r = some t) : rep r s = .ok (repOf t) s := by
  have := h r
  rw [hr] at this
  simp [rep, this]

theorem newRef_ok (h : Inv s V) (hr : V r = none) (x : Rep) : newRef r x s = .ok () { s with ref := upd s.ref r (some x) } := by
  have := h r
  rw [hr] at this
  simp [newRef, this]

/-- what a call through a function_ref amounts to: a call of the callable, and the conversion of the result -/
def deliver (E : Env σ ν) (G : Sig) (t : Callee) (args : List ν) : FM σ ν (Res ν) :=
  let body : FM σ ν (Res ν) := do
    let r ← invokeR E G t args
    toResult E G r
  if G.noexcept then M.noexcept body else body

theorem noexcept_idem {m : FM σ ν (Res ν)} : M.noexcept (M.noexcept m) = M.noexcept m := by
  funext s
  unfold M.noexcept
  cases m s <;> rfl

theorem call_eq (h : Inv s V) (hr : V r = some t) : call E G r args s = deliver E G t args s := by
  have e : ∀ s : St σ ν, (storageGet (repOf t).dispatch (repOf t).storage >>= fun t => invokeR E G t args >>= fun r => toResult E G r) s =
      (invokeR E G t args >>= fun r => toResult E G r) s := fun s => M.bind_ok (get_repOf t s)
  unfold call deliver
  cases hn : G.noexcept with
  | false =>
    simp only [Bool.false_eq_true, if_false]
    rw [M.bind_ok (rep_ok h hr)]
    unfold functor
    simp only [hn, Bool.false_eq_true, if_false]
    exact e s
  | true =>
    simp only [if_true]
    unfold M.noexcept
    rw [M.bind_ok (rep_ok h hr)]
    unfold functor
    simp only [hn, if_true]
    unfold M.noexcept
    rw [e s]
    cases (invokeR E G t args >>= fun r => toResult E G r) s <;> rfl

theorem invoke_live (h : Live s.w t) (args : List ν) : invoke E t args s =
    match E.beh t args s.w with
    | .ok r w => .ok r { s with w := w, log := s.log ++ [(t, args)] }
    | .exc e w => if E.nx t then .term else .exc e { s with w := w, log := s.log ++ [(t, args)] }
    | .ub f => .ub f
    | .term => .term := by
  cases t with
  | fn f => rfl
  | obj n c k =>
    obtain ⟨x, hx⟩ := h
    simp only [invoke, hx, beq_self_eq_true, if_true]
    cases E.beh (.obj n c k) args s.w <;> rfl

theorem invoke_dead (h : ¬ Live s.w t) (args : List ν) : invoke E t args s = .ub .deadObject := by
  cases t with
  | fn f => exact absurd trivial h
  | obj n c k =>
    cases hf : s.w.fct n with
    | none => simp [invoke, hf]
    | some p =>
      obtain ⟨c', x⟩ := p
      have : c' ≠ c := by rintro rfl; exact h ⟨x, hf⟩
      simp [invoke, hf, this]

/-- a call of a callable does not touch the function_refs, and is logged -/
theorem invoke_frame (hl : Live s.w t) : (∀ x s', invoke E t args s = .ok x s' →
      s'.ref = s.ref ∧ s'.log = s.log ++ [(t, args)] ∧ E.beh t args s.w = .ok x s'.w) ∧
    (∀ e s', invoke E t args s = .exc e s' → s'.ref = s.ref ∧ s'.log = s.log ++ [(t, args)] ∧ E.beh t args s.w = .exc e s'.w) := by
  rw [invoke_live hl]
  cases hb : E.beh t args s.w with
  | ok r w =>
    refine ⟨fun x s' h => ?_, fun e s' h => ?_⟩
    · cases h; exact ⟨rfl, rfl, rfl⟩
    · cases h
  | exc e w =>
    refine ⟨fun x s' h => ?_, fun e s' h => ?_⟩ <;> dsimp only at h <;> split at h
    · cases h
    · cases h
    · cases h
    · cases h; exact ⟨rfl, rfl, rfl⟩
  | ub => exact ⟨fun x s' h => (by cases h), fun e s' h => (by cases h)⟩
  | term => exact ⟨fun x s' h => (by cases h), fun e s' h => (by cases h)⟩

/-- the rest of `invoke_r` and the conversion change nothing and do not throw -/
theorem post_state (y : Res ν) (s : St σ ν) :
    (∃ x, ((if G.rk = .void then pure .unit else decayRes y) >>= fun r => toResult E G r : FM σ ν (Res ν)) s = .ok x s) ∨
    ∃ f, ((if G.rk = .void then pure .unit else decayRes y) >>= fun r => toResult E G r : FM σ ν (Res ν)) s = .ub f := by
  have conv : ∀ z : Res ν, (∃ x, toResult E G z s = .ok x s) ∨ ∃ f, toResult E G z s = .ub f := by
    intro z
    unfold toResult
    cases G.rk <;> cases z <;> first | exact .inl ⟨_, rfl⟩ | exact .inr ⟨_, rfl⟩
  by_cases hv : G.rk = .void
  · rw [if_pos hv]; exact conv _
  · rw [if_neg hv]
    have hd : (∃ z, decayRes y s = .ok z s) ∨ ∃ f, decayRes y s = .ub f := by
      cases y with
      | ref k =>
        cases hd : s.w.dat k with
        | none => exact .inr ⟨.deadObject, by simp only [decayRes, hd]⟩
        | some v => exact .inl ⟨.val v, by simp only [decayRes, hd]⟩
      | dangling => exact .inr ⟨_, rfl⟩
      | unit => exact .inl ⟨_, rfl⟩
      | val => exact .inl ⟨_, rfl⟩
    rcases hd with ⟨z, hz⟩ | ⟨f, hf⟩
    · rw [M.bind_ok hz]; exact conv z
    · rw [M.bind_ub hf]; exact .inr ⟨f, rfl⟩

theorem body_state : (∀ x s', (invokeR E G t args >>= fun r => toResult E G r) s = .ok x s' → ∃ y, invoke E t args s = .ok y s') ∧
    (∀ e s', (invokeR E G t args >>= fun r => toResult E G r) s = .exc e s' → invoke E t args s = .exc e s') := by
  unfold invokeR
  rw [M.bind_assoc']
  cases hi : invoke E t args s with
  | ok y s1 =>
    rw [M.bind_ok hi]
    rcases post_state (E := E) (G := G) y s1 with ⟨x, hx⟩ | ⟨f, hf⟩
    · rw [hx]
      exact ⟨fun x' s' h => (by cases h; exact ⟨y, rfl⟩), fun e s' h => (by cases h)⟩
    · rw [hf]
      exact ⟨fun x' s' h => (by cases h), fun e s' h => (by cases h)⟩
  | exc e s1 =>
    rw [M.bind_exc hi]
    exact ⟨fun _ _ h => (by cases h), fun e' s' h => (by cases h; rfl)⟩
  | ub =>
    rw [M.bind_ub hi]
    exact ⟨fun x' s' h => (by cases h), fun e s' h => (by cases h)⟩
  | term =>
    rw [M.bind_term hi]
    exact ⟨fun x' s' h => (by cases h), fun e s' h => (by cases h)⟩

theorem deliver_state : (∀ x s', deliver E G t args s = .ok x s' → ∃ y, invoke E t args s = .ok y s') ∧
    (∀ e s', deliver E G t args s = .exc e s' → invoke E t args s = .exc e s') := by
  have hb := body_state (E := E) (G := G) (t := t) (args := args) (s := s)
  unfold deliver
  cases G.noexcept with
  | false => exact hb
  | true =>
    simp only [if_true]
    unfold M.noexcept
    refine ⟨fun x s' h => ?_, fun e s' h => ?_⟩
    · cases hm : (invokeR E G t args >>= fun r => toResult E G r) s with
      | ok y s1 => rw [hm] at h; cases h; exact hb.1 _ _ hm
      | exc e s1 => rw [hm] at h; cases h
      | ub => rw [hm] at h; cases h
      | term => rw [hm] at h; cases h
    · cases hm : (invokeR E G t args >>= fun r => toResult E G r) s <;> rw [hm] at h <;> cases h

theorem binds_step (h : Inv s V) (hb : Binds op) (hs : Spec E G s.w op V V') : ∃ s', op.run E G s = .ok .unit s' ∧ s'.w = s.w ∧
    s'.log = s.log ∧ Inv s' V' := by
  cases hb with
  | @ctorFn r f =>
    cases hs with
    | ctorFn h0 hf =>
      have hi : invocableFn E G f = true := by
        unfold invocableFn
        cases hn : G.noexcept with
        | false => simpa using hf.1
        | true => simp [hf.1, hf.2 hn]
      have : ctorFn E G r f s = .ok () { s with ref := upd s.ref r (some (repOf (.fn f))) } := by
        rw [ctorFn, if_pos hi]; exact newRef_ok h h0 _
      exact ⟨_, M.bind_ok this, rfl, rfl, h.upd r (some (.fn f)) rfl⟩
  | @ctorObj r n c k =>
    cases hs with
    | ctorObj h0 hf =>
      have hc : constOf G k = (G.const || k) := by unfold constOf; cases G.const <;> rfl
      have hi : invocableCls E G c (constOf G k) = true := by
        unfold invocableCls
        rw [hc]
        cases hn : G.noexcept with
        | false => simpa using hf.1
        | true => simp [hf.1, hf.2 hn]
      have : ctorObj E G r n c k s = .ok () { s with ref := upd s.ref r (some (repOf (.obj n c k))) } := by
        rw [ctorObj, if_pos hi, mk_obj]; exact newRef_ok h h0 _
      exact ⟨_, M.bind_ok this, rfl, rfl, h.upd r (some (.obj n c k)) rfl⟩
  | @ctorCopy r q =>
    cases hs with
    | @ctorCopy _ _ t _ h0 hq =>
      have : ctorCopy r q s = .ok () _ := (M.bind_ok (rep_ok h hq)).trans (newRef_ok h h0 _)
      exact ⟨_, M.bind_ok this, rfl, rfl, h.upd r (some t) rfl⟩
  | @assign r q =>
    cases hs with
    | @assign _ _ t u _ hr hq =>
      have : assign r q s = .ok () { s with ref := upd s.ref r (some (repOf t)) } :=
        (M.bind_ok (rep_ok h hq)).trans (M.bind_ok (rep_ok h hr))
      exact ⟨_, M.bind_ok this, rfl, rfl, h.upd r (some t) rfl⟩
  | @assignFn r f =>
    cases hs with
    | assignFn hr hf =>
      have hi : invocableFn E G f = true := by
        unfold invocableFn
        cases hn : G.noexcept with
        | false => simpa using hf.1
        | true => simp [hf.1, hf.2 hn]
      have : assignFn E G r f s = .ok () { s with ref := upd s.ref r (some (repOf (.fn f))) } := by
        rw [assignFn, if_pos hi]; exact M.bind_ok (rep_ok h hr)
      exact ⟨_, M.bind_ok this, rfl, rfl, h.upd r (some (.fn f)) rfl⟩
  | @dtor r =>
    cases hs with
    | dtor hr =>
      have : dtor r s = .ok () { s with ref := upd s.ref r none } := M.bind_ok (rep_ok h hr)
      exact ⟨_, M.bind_ok this, rfl, rfl, h.upd r none rfl⟩

theorem Reach.inv (h : Reach E G s V) : Inv s V := by
  have frame : ∀ {s s' : St σ ν} {V : Vars}, Inv s V → s'.ref = s.ref → Inv s' V := by
    intro s s' V hi e r
    rw [e]; exact hi r
  have other : ∀ {s s' : St σ ν} {V V' : Vars} {op : Op σ ν}, Inv s V → Spec E G s.w op V V' →
      ((∃ x, op.run E G s = .ok x s') ∨ ∃ e, op.run E G s = .exc e s') → Inv s' V' := by
    intro s s' V V' op ih hs hr
    by_cases hb : Binds op
    · obtain ⟨s1, h1, _, _, h2⟩ := binds_step ih hb hs
      rcases hr with ⟨x, hr⟩ | ⟨e, hr⟩
      · rw [h1] at hr; cases hr; exact h2
      · rw [h1] at hr; cases hr
    · cases hs with
      | @call r t args _ ht hl =>
        have e1 : Op.run E G (.call r args) s = deliver E G t args s := call_eq ih ht
        rw [e1] at hr
        rcases hr with ⟨x, hr⟩ | ⟨e, hr⟩
        · obtain ⟨y, hy⟩ := deliver_state.1 _ _ hr
          exact frame ih ((invoke_frame hl).1 _ _ hy).1
        · exact frame ih ((invoke_frame hl).2 _ _ (deliver_state.2 _ _ hr)).1
      | direct hl =>
        rcases hr with ⟨x, hr⟩ | ⟨e, hr⟩
        · exact frame ih ((invoke_frame hl).1 _ _ hr).1
        · exact frame ih ((invoke_frame hl).2 _ _ hr).1
      | world =>
        rcases hr with ⟨x, hr⟩ | ⟨e, hr⟩
        · cases hr; exact frame ih rfl
        · cases hr
      | ctorFn => exact absurd .ctorFn hb
      | ctorObj => exact absurd .ctorObj hb
      | ctorCopy => exact absurd .ctorCopy hb
      | assign => exact absurd .assign hb
      | assignFn => exact absurd .assignFn hb
      | dtor => exact absurd .dtor hb
  induction h with
  | start => intro r; rfl
  | ok _ hs hr ih => exact other ih hs (.inl ⟨_, hr⟩)
  | thrown _ hs hr ih => exact other ih hs (.inr ⟨_, hr⟩)

/-! ## C58 -/

/-- C58: binding, copying, rebinding and destroying always succeed, call nothing, change no callable, and do exactly this to what
the function_refs are bound to (in particular: copies are bound to the same callable, and rebinding one affects no other) -/
theorem C58_bind (h : Reach E G s V) (hb : Binds op) (hs : Spec E G s.w op V V') :
    ∃ s', op.run E G s = .ok .unit s' ∧ s'.w = s.w ∧ s'.log = s.log ∧ Reach E G s' V' := by
  obtain ⟨s', h1, h2, h3, _⟩ := binds_step h.inv hb hs
  exact ⟨s', h1, h2, h3, h.ok hs h1⟩

/-- C58: after every history, a call through a function_ref that returns has called the callable it is bound to exactly once, with
these arguments, and nothing else happened: the world is as that call left it -/
theorem C58_once (h : Reach E G s V) (hr : V r = some t) (hl : Live s.w t) (hc : call E G r args s = .ok x s') :
    s'.log = s.log ++ [(t, args)] ∧ s'.ref = s.ref ∧ (∃ y, E.beh t args s.w = .ok y s'.w) ∧ Reach E G s' V := by
  have hc' := hc
  rw [call_eq h.inv hr] at hc'
  obtain ⟨y, hy⟩ := deliver_state.1 _ _ hc'
  have f := (invoke_frame hl).1 _ _ hy
  exact ⟨f.2.1, f.1, ⟨y, f.2.2⟩, h.ok (.call hr hl) (op := .call r args) hc⟩

/-- C58: … and returns its result, converted to the result type -/
theorem C58_result (h : Reach E G s V) (hr : V r = some t) (hl : Live s.w t) (hk : G.rk = .value) {w : World σ ν}
    (hb : E.beh t args s.w = .ok (.val v) w) :
    call E G r args s = .ok (.val (E.conv v)) { s with w := w, log := s.log ++ [(t, args)] } := by
  have hi : invoke E t args s = .ok (.val v) { s with w := w, log := s.log ++ [(t, args)] } := by rw [invoke_live hl, hb]
  have hR : (invokeR E G t args >>= fun r => toResult E G r) s =
      .ok (.val (E.conv v)) { s with w := w, log := s.log ++ [(t, args)] } := by
    unfold invokeR
    rw [M.bind_assoc', M.bind_ok hi, if_neg (by simp [hk]), M.bind_ok (show decayRes (.val v) _ = .ok (.val v) _ from rfl)]
    simp [toResult, hk]
  rw [call_eq h.inv hr, deliver]
  cases G.noexcept with
  | false => exact hR
  | true => exact M.noexcept_ok hR

/-- C58: a callable returning a reference, and a result type that is none: the result is the value of that object -/
theorem C58_result_ref (h : Reach E G s V) (hr : V r = some t) (hl : Live s.w t) (hk : G.rk = .value) {w : World σ ν}
    (hb : E.beh t args s.w = .ok (.ref k) w) (hv : w.dat k = some v) :
    call E G r args s = .ok (.val (E.conv v)) { s with w := w, log := s.log ++ [(t, args)] } := by
  have hi : invoke E t args s = .ok (.ref k) { s with w := w, log := s.log ++ [(t, args)] } := by rw [invoke_live hl, hb]
  have hR : (invokeR E G t args >>= fun r => toResult E G r) s =
      .ok (.val (E.conv v)) { s with w := w, log := s.log ++ [(t, args)] } := by
    unfold invokeR
    rw [M.bind_assoc', M.bind_ok hi, if_neg (by simp [hk])]
    rw [M.bind_ok (s' := { s with w := w, log := s.log ++ [(t, args)] }) (a := .val v) (by simp only [decayRes, hv])]
    simp [toResult, hk]
  rw [call_eq h.inv hr, deliver]
  cases G.noexcept with
  | false => exact hR
  | true => exact M.noexcept_ok hR

/-- C58: result type `void`: the result is discarded, whatever it is -/
theorem C58_void (h : Reach E G s V) (hr : V r = some t) (hl : Live s.w t) (hk : G.rk = .void) {w : World σ ν}
    (hb : E.beh t args s.w = .ok x w) : call E G r args s = .ok .unit { s with w := w, log := s.log ++ [(t, args)] } := by
  have hi : invoke E t args s = .ok x { s with w := w, log := s.log ++ [(t, args)] } := by rw [invoke_live hl, hb]
  have hR : (invokeR E G t args >>= fun r => toResult E G r) s = .ok .unit { s with w := w, log := s.log ++ [(t, args)] } := by
    unfold invokeR
    rw [M.bind_assoc', M.bind_ok hi, if_pos hk, M.bind_ok (M.pure_run _ _)]
    simp [toResult, hk]
  rw [call_eq h.inv hr, deliver]
  cases G.noexcept with
  | false => exact hR
  | true => exact M.noexcept_ok hR

/-- C58: an exception from the callable passes through, unless the signature is `noexcept` -/
theorem C58_throws (h : Reach E G s V) (hr : V r = some t) (hl : Live s.w t) (hn : E.nx t = false) {w : World σ ν}
    (hb : E.beh t args s.w = .exc e w) :
    call E G r args s = if G.noexcept then .term else .exc e { s with w := w, log := s.log ++ [(t, args)] } := by
  have hi : invoke E t args s = .exc e { s with w := w, log := s.log ++ [(t, args)] } := by rw [invoke_live hl, hb]; simp [hn]
  have hR : (invokeR E G t args >>= fun r => toResult E G r) s = .exc e { s with w := w, log := s.log ++ [(t, args)] } := by
    unfold invokeR
    rw [M.bind_assoc', M.bind_exc hi]
  rw [call_eq h.inv hr, deliver]
  cases G.noexcept with
  | false => exact hR
  | true => exact M.noexcept_exc hR

/-- C58: a function_ref does not keep its functor alive: a call through it after the functor's end is undefined, and only then
(see the theorems above) -/
theorem C58_dangling (h : Reach E G s V) (hr : V r = some t) (hl : ¬ Live s.w t) : call E G r args s = .ub .deadObject := by
  have hR : (invokeR E G t args >>= fun r => toResult E G r) s = .ub .deadObject := by
    unfold invokeR
    rw [M.bind_assoc', M.bind_ub (invoke_dead hl args)]
  rw [call_eq h.inv hr, deliver]
  cases G.noexcept with
  | false => exact hR
  | true => simp [M.noexcept, hR]

/-- C58: with a non-const signature a functor is called as what it was bound as: two references to one functor, bound as const and
as non-const object, call it as const and as non-const object -/
theorem C58_constness (h : Reach E G s V) {b : Bool} (hr : V r = some (.obj n c b)) (hl : Live s.w (.obj n c b))
    (hc : call E G r args s = .ok x s') : s'.log = s.log ++ [(.obj n c b, args)] := (C58_once h hr hl hc).1

/-! ## C59 -/

/-- C59 for functors bound as const objects: they are only ever invoked as const objects.  Missing: functors bound as non-const
objects, see `C59_refuted`. -/
theorem C59_bound_const_partial (h : Reach E G s V) {b : Bool} (hr : V r = some (.obj n c b)) (hb : b = true)
    (hl : Live s.w (.obj n c b)) (hc : call E G r args s = .ok x s') : s'.log = s.log ++ [(.obj n c true, args)] := by
  subst hb
  exact (C58_once h hr hl hc).1

/-- C59 for functor classes that do not distinguish const and non-const objects (say, with one `operator() const`): a call through a
const-qualified function_ref does what a call of the const object does.  Missing: the others, see `C59_refuted`. -/
theorem C59_same_partial (h : Reach E G s V) {b : Bool} (hr : V r = some (.obj n c b)) (hl : Live s.w (.obj n c b))
    (hsame : ∀ args w, E.beh (.obj n c false) args w = E.beh (.obj n c true) args w) (hc : call E G r args s = .ok x s') :
    ∃ y, E.beh (.obj n c true) args s.w = .ok y s'.w := by
  obtain ⟨_, _, ⟨y, hy⟩, _⟩ := C58_once h hr hl hc
  cases b with
  | true => exact ⟨y, hy⟩
  | false => exact ⟨y, by rw [← hsame]; exact hy⟩

/-- a functor class with `auto operator()() const noexcept -> int { return 1; }` and `auto operator()() -> int`, which changes its state and
returns 2, or throws if that is 5 -/
def counter : Env Nat Nat where
  beh t _ w := match t with
    | .fn f => .ok (.val f) w
    | .obj n _ true => match w.fct n with
      | some _ => .ok (.val 1) w
      | none => .ub .deadObject
    | .obj n c false => match w.fct n with
      | some (_, x) => if x = 5 then .exc .user w else .ok (.val 2) { w with fct := upd w.fct n (some (c, x + 1)) }
      | none => .ub .deadObject
  fnInv _ := true
  fnNx _ := true
  clsInv _ _ := true
  clsNx _ k := k
  conv v := v

def world (x : Nat) : World Nat Nat := ⟨fun n => if n = 0 then some (0, x) else none, fun _ => none⟩

/-- a function_ref of any signature over that class, bound to the functor -/
theorem bound (G : Sig) (hG : G.noexcept = true → G.const = true) (x : Nat) :
    ∃ s V, Reach counter G s V ∧ V 0 = some (.obj 0 0 false) ∧ s.w = world x ∧ s.log = [] := by
  have h0 : Reach counter G (start (world x)) (fun _ => none) := .start _
  obtain ⟨s, h1, h2, h3, h4⟩ := C58_bind h0 .ctorObj (.ctorObj (r := 0) (n := 0) (c := 0) (k := false) rfl
    ⟨rfl, fun hn => by simp [counter, hG hn]⟩)
  exact ⟨s, _, h4, upd_same _ _ _, h2, h3⟩

/-- C59 fails: a function_ref with a const-qualified signature, bound to a non-const functor, invokes it as a non-const object: the
functor's state changes, and its non-const overload's result is returned -/
theorem C59_refuted : ∃ (s s' : St Nat Nat) (V : Vars), Reach counter ⟨true, false, .value⟩ s V ∧ s.w.fct 0 = some (0, 0) ∧
    call counter ⟨true, false, .value⟩ 0 [] s = .ok (.val 2) s' ∧ s'.log = [(.obj 0 0 false, [])] ∧ s'.w.fct 0 = some (0, 1) ∧
    counter.beh (.obj 0 0 true) [] s.w = .ok (.val 1) s.w := by
  obtain ⟨s, V, h, hV, hw, hlog⟩ := bound ⟨true, false, .value⟩ (by simp) 0
  have hl : Live s.w (.obj 0 0 false) := ⟨0, by rw [hw]; rfl⟩
  refine ⟨s, _, V, h, by rw [hw]; rfl, C58_result h hV hl rfl (v := 2) (w := ⟨upd (world 0).fct 0 (some (0, 1)), fun _ => none⟩)
    (by rw [hw]; rfl), ?_, rfl, by rw [hw]; rfl⟩
  simp [hlog]

/-- … and one with a const noexcept signature, which accepts the functor because its const overload is `noexcept`, invokes the other
overload: if that throws, the program is terminated -/
theorem C59_noexcept_refuted : ∃ (s : St Nat Nat) (V : Vars), Reach counter ⟨true, true, .value⟩ s V ∧
    call counter ⟨true, true, .value⟩ 0 [] s = .term ∧ counter.beh (.obj 0 0 true) [] s.w = .ok (.val 1) s.w := by
  obtain ⟨s, V, h, hV, hw, hlog⟩ := bound ⟨true, true, .value⟩ (by simp) 5
  have hl : Live s.w (.obj 0 0 false) := ⟨5, by rw [hw]; rfl⟩
  refine ⟨s, V, h, ?_, by rw [hw]; rfl⟩
  rw [C58_throws h hV hl rfl (e := .user) (w := world 5) (by rw [hw]; rfl)]
  rfl

/-! ## C68 -/

/-- C68 for result types that are no references: the client gets a value, whatever becomes of the object the callable referred to.
Missing: reference result types, see `C68_refuted`. -/
theorem C68_value_partial (h : Reach E G s V) (hr : V r = some t) (hl : Live s.w t) (hk : G.rk = .value) {w w' : World σ ν}
    (hb : E.beh t args s.w = .ok (.ref k) w) (hv : w.dat k = some v) : ∃ x s', call E G r args s = .ok x s' ∧
      useRes x { s' with w := w' } = .ok (E.conv v) { s' with w := w' } :=
  ⟨_, _, C58_result_ref h hr hl hk hb hv, rfl⟩

/-- with a reference result type (`const T &`, `T &&`), every call that returns returns a reference to a temporary that is gone -/
theorem C68_always_dangling (h : Reach E G s V) (hr : V r = some t) (hk : G.rk = .cref ∨ G.rk = .rref)
    (hc : call E G r args s = .ok x s') : x = .dangling ∧ ∀ s'' : St σ ν, useRes x s'' = .ub .deadObject := by
  have key : ∀ z (s1 : St σ ν), toResult E G z s1 = .ok x s' → x = .dangling := by
    intro z s1 hz
    unfold toResult at hz
    rcases hk with hk | hk <;> rw [hk] at hz <;> cases z <;> cases hz <;> rfl
  have hx : x = .dangling := by
    rw [call_eq h.inv hr, deliver] at hc
    have hb : (invokeR E G t args >>= fun r => toResult E G r) s = .ok x s' := by
      cases hn : G.noexcept with
      | false => rw [hn] at hc; exact hc
      | true =>
        rw [hn] at hc
        simp only [if_true] at hc
        unfold M.noexcept at hc
        cases hm : (invokeR E G t args >>= fun r => toResult E G r) s <;> rw [hm] at hc <;> simp at hc ⊢
        exact hc
    rw [M.bind_run] at hb
    cases hm : invokeR E G t args s with
    | ok z s1 => rw [hm] at hb; exact key _ _ hb
    | exc => rw [hm] at hb; cases hb
    | ub => rw [hm] at hb; cases hb
    | term => rw [hm] at hb; cases hb
  subst hx
  exact ⟨rfl, fun _ => rfl⟩

/-- a function that returns a reference to object 3 -/
def getter : Env Nat Nat where
  beh _ _ w := .ok (.ref 3) w
  fnInv _ := true
  fnNx _ := true
  clsInv _ _ := true
  clsNx _ _ := true
  conv v := v

/-- C68 fails: a function_ref with result type `const T &`, bound to a function that returns a reference to a live object: the call
returns, but its result refers to no object; using it is undefined, while the function's own result is fine to use -/
theorem C68_refuted : ∃ (s s' : St Nat Nat) (V : Vars), Reach getter ⟨false, true, .cref⟩ s V ∧ V 0 = some (.fn 0) ∧
    s'.w.dat 3 = some 42 ∧ call getter ⟨false, true, .cref⟩ 0 [] s = .ok .dangling s' ∧ useRes .dangling s' = .ub .deadObject ∧
    getter.beh (.fn 0) [] s.w = .ok (.ref 3) s.w ∧ useRes (.ref 3) s = .ok 42 s := by
  let w : World Nat Nat := ⟨fun _ => none, fun k => if k = 3 then some 42 else none⟩
  have h0 : Reach getter ⟨false, true, .cref⟩ (start w) (fun _ => none) := .start _
  have h1 := h0.ok (.ctorFn (r := 0) (f := 0) rfl ⟨rfl, fun _ => rfl⟩) rfl
  exact ⟨_, _, _, h1, rfl, rfl, rfl, rfl, rfl, rfl⟩

/-! ### concrete cases -/

/-- two references to one functor and one to a function: calls through either change the functor, rebinding does not -/
example : ∃ s1 s2 s3 V, Reach counter ⟨false, false, .value⟩ s1 V ∧ V 0 = some (.obj 0 0 false) ∧ V 1 = some (.obj 0 0 false) ∧
    s1.w.fct 0 = some (0, 0) ∧ call counter ⟨false, false, .value⟩ 0 [] s1 = .ok (.val 2) s2 ∧
    call counter ⟨false, false, .value⟩ 1 [] s2 = .ok (.val 2) s3 ∧ s3.w.fct 0 = some (0, 2) ∧
    ∃ s4 V', (Op.assignFn 1 7).run counter ⟨false, false, .value⟩ s3 = .ok .unit s4 ∧ Reach counter ⟨false, false, .value⟩ s4 V' ∧
      s4.w.fct 0 = some (0, 2) ∧ V' 0 = some (.obj 0 0 false) ∧ ∃ s5, call counter ⟨false, false, .value⟩ 1 [] s4 = .ok (.val 7) s5 := by
  let G : Sig := ⟨false, false, .value⟩
  have h0 : Reach counter G (start (world 0)) (fun _ => none) := .start _
  obtain ⟨s0, _, w0, _, g0⟩ := C58_bind h0 .ctorObj (.ctorObj (r := 0) (n := 0) (c := 0) (k := false) rfl ⟨rfl, fun hn => by cases hn⟩)
  obtain ⟨s1, _, w1, _, g1⟩ := C58_bind g0 .ctorCopy (.ctorCopy (r := 1) (q := 0) rfl rfl)
  have hw1 : s1.w = world 0 := w1.trans w0
  have c1 := C58_result g1 (r := 0) (args := []) (v := 2) (t := .obj 0 0 false) rfl ⟨0, by rw [hw1]; rfl⟩ rfl
    (w := ⟨upd (world 0).fct 0 (some (0, 1)), fun _ => none⟩) (by rw [hw1]; rfl)
  have g2 := g1.ok (.call (r := 0) (args := []) rfl ⟨0, by rw [hw1]; rfl⟩) c1
  have c2 := C58_result g2 (r := 1) (args := []) (v := 2) (t := .obj 0 0 false) rfl ⟨1, rfl⟩ rfl
    (w := ⟨upd (upd (world 0).fct 0 (some (0, 1))) 0 (some (0, 2)), fun _ => none⟩) rfl
  have g3 := g2.ok (.call (r := 1) (args := []) rfl ⟨1, rfl⟩) c2
  obtain ⟨s4, r4, w4, _, g4⟩ := C58_bind g3 .assignFn (.assignFn (r := 1) (f := 7) rfl ⟨rfl, fun _ => rfl⟩)
  have c5 := C58_result g4 (r := 1) (args := []) (v := 7) (t := .fn 7) rfl trivial rfl (w := s4.w) rfl
  exact ⟨s1, _, _, _, g1, rfl, rfl, by rw [hw1]; rfl, c1, c2, rfl, s4, _, r4, g4, by rw [w4]; rfl, rfl, _, c5⟩

end Ptl.Fun

import Verif.Basic

/-!
# C98: function_refs made from other function_refs (inc/ptl/function_ref.hpp)

A `function_ref` of another signature is just a functor: what is stored is its address.

Simplifications: functions and functors have numbers, and exist forever; all signatures considered can be converted into each other
(`is_invocable_using`, lines 55-58, see C58); arguments and results do not matter here.
-/

namespace Ptl.Fun.Chain

/-- function_ref.hpp:107-108 `storage` and `dispatch`: the callable; or the address of the function_ref `q`, where `dispatch` is
`functor<function_ref<g>>` -/
inductive Target where
  | callable (k : Nat)
  | wrap (q g : Nat)
  deriving DecidableEq, Repr

/-- the function_refs that exist, by address, with their signatures -/
structure St where
  ref : Nat → Option (Nat × Target)

abbrev CM (β : Type) := M St β

/-- the function_ref at an address -/
def obj (r : Nat) : CM (Nat × Target) := fun s =>
  match s.ref r with
  | some x => .ok x s
  | none => .ub .deadObject

/-- an object comes into existence -/
def new (r : Nat) (x : Nat × Target) : CM Unit := fun s =>
  match s.ref r with
  | some _ => .ub .constructLive
  | none => .ok () ⟨upd s.ref r (some x)⟩

/-- an object changes -/
def set (r : Nat) (x : Nat × Target) : CM Unit := fun s => .ok () ⟨upd s.ref r (some x)⟩

/-- function_ref.hpp:110-111, 113-115 from a callable -/
def bind (r g k : Nat) : CM Unit := new r (g, .callable k)

/-- what a `function_ref<g>` made from function_ref `q` stores: for the same signature what `q` stores (lines 117-118, the constraint in
line 113 excludes the other constructor); otherwise the address of `q` (lines 113-115) -/
def from_ (g q : Nat) : CM Target := do
  let x ← obj q
  if x.1 = g then pure x.2 else pure (.wrap q x.1)

/-- `function_ref<g> r{q}` -/
def conv (r g q : Nat) : CM Unit := do
  let t ← from_ g q
  new r (g, t)

/-- function_ref.hpp:119-120 `r = q` for the same signature; for other signatures (lines 122-124: deleted)
`r = function_ref<g>{q}` -/
def assign (r q : Nat) : CM Unit := do
  let x ← obj r
  let t ← from_ x.1 q
  set r (x.1, t)

/-- `r = f`, through a temporary (lines 110-111) -/
def assignFn (r k : Nat) : CM Unit := do
  let x ← obj r
  set r (x.1, .callable k)

/-- an object ceases to exist -/
def drop (r : Nat) : CM Unit := fun s => .ok () ⟨upd s.ref r none⟩

/-- the implicit destructor -/
def dtor (r : Nat) : CM Unit := do
  let _ ← obj r
  drop r

/-- what a call does -/
inductive Res where
  /-- the callable is called -/
  | calls (k : Nat)
  /-- undefined: there is no function_ref of that type any more -/
  | ub
  /-- still calling -/
  | deep
  deriving DecidableEq, Repr

/-- function_ref.hpp:65-73 `operator()`: follow the addresses, at most `n` of them -/
def call : Nat → St → Nat → Res
  | 0, _, _ => .deep
  | n + 1, s, r => match s.ref r with
    | none => .ub
    | some (_, .callable k) => .calls k
    | some (_, .wrap q g) => match s.ref q with
      | some (g', _) => if g' = g then call n s q else .ub
      | none => .ub

/-! ## specification: a function_ref refers to a callable -/

/-- operations -/
inductive Op where
  | bind (r g k : Nat)
  | conv (r g q : Nat)
  | assign (r q : Nat)
  | assignFn (r k : Nat)
  | dtor (r : Nat)
  deriving DecidableEq, Repr

/-- the operation as modelled -/
def Op.run : Op → CM Unit
  | .bind r g k => Chain.bind r g k
  | .conv r g q => Chain.conv r g q
  | .assign r q => Chain.assign r q
  | .assignFn r k => Chain.assignFn r k
  | .dtor r => Chain.dtor r

/-- the callable that each function_ref should refer to, and its signature -/
abbrev Vars := Nat → Option (Nat × Nat)

/-- the operation as it should be: callables are passed on -/
inductive Spec : Op → Vars → Vars → Prop
  | bind {V : Vars} {r g k : Nat} : V r = none → Spec (.bind r g k) V (upd V r (some (g, k)))
  | conv {V : Vars} {r g q g' k : Nat} : V r = none → V q = some (g', k) → Spec (.conv r g q) V (upd V r (some (g, k)))
  | assign {V : Vars} {r q g k g' k' : Nat} : V r = some (g, k) → V q = some (g', k') → Spec (.assign r q) V (upd V r (some (g, k')))
  | assignFn {V : Vars} {r g k k' : Nat} : V r = some (g, k) → Spec (.assignFn r k') V (upd V r (some (g, k')))
  | dtor {V : Vars} {r : Nat} {x : Nat × Nat} : V r = some x → Spec (.dtor r) V (upd V r none)

/-- states after histories, and what the function_refs should refer to -/
inductive Reach : St → Vars → Prop
  | nil : Reach ⟨fun _ => none⟩ fun _ => none
  | step {s s' : St} {V V' : Vars} {op : Op} : Reach s V → Spec op V V' → op.run s = .ok () s' → Reach s' V'

/-- does the operation change or destroy function_ref `q`? -/
inductive Changes : Op → Nat → Prop
  | assign {r q : Nat} : Changes (.assign r q) r
  | assignFn {r k : Nat} : Changes (.assignFn r k) r
  | dtor {r : Nat} : Changes (.dtor r) r

/-- a live function_ref has been made from `q`, which has another signature (and has not been assigned since) -/
def Source (s : St) (q : Nat) : Prop := ∃ r g g', s.ref r = some (g, .wrap q g')

/-- histories in which no function_ref is changed or destroyed while one of another signature made from it lives -/
inductive Careful : St → Vars → Prop
  | nil : Careful ⟨fun _ => none⟩ fun _ => none
  | step {s s' : St} {V V' : Vars} {op : Op} : Careful s V → Spec op V V' → op.run s = .ok () s' → (∀ q, Changes op q → ¬ Source s q) →
      Careful s' V'

/-! ## proofs -/

/-- the call comes to callable `k` -/
def Calls (s : St) (r k : Nat) : Prop := ∃ n, call n s r = .calls k

theorem call_mono {s : St} {x : Res} (hx : x ≠ .deep) : ∀ {n r : Nat}, call n s r = x → ∀ m, n ≤ m → call m s r = x := by
  intro n
  induction n with
  | zero => intro r h; exact absurd h.symm hx
  | succ n ih =>
    intro r h m hm
    obtain ⟨m, rfl⟩ : ∃ m', m = m' + 1 := ⟨m - 1, by omega⟩
    unfold call at h ⊢
    cases hr : s.ref r with
    | none => rw [hr] at h; exact h
    | some y =>
      obtain ⟨g, t⟩ := y
      rw [hr] at h
      cases t with
      | callable k => exact h
      | wrap q g' =>
        simp only at h ⊢
        cases hq : s.ref q with
        | none => rw [hq] at h; exact h
        | some z =>
          obtain ⟨a, b⟩ := z
          rw [hq] at h
          simp only at h ⊢
          split at h
          · next e => rw [if_pos e]; exact ih h m (by omega)
          · next e => rw [if_neg e]; exact h

/-- a call has one result -/
theorem calls_unique {s : St} {r k k' : Nat} (h : Calls s r k) (h' : Calls s r k') : k = k' := by
  obtain ⟨n, h⟩ := h
  obtain ⟨m, h'⟩ := h'
  have a := call_mono (by simp) h (max n m) (Nat.le_max_left ..)
  have b := call_mono (by simp) h' (max n m) (Nat.le_max_right ..)
  rw [a] at b
  injection b

theorem calls_callable {s : St} {r g k : Nat} (h : s.ref r = some (g, .callable k)) : Calls s r k :=
  ⟨1, by simp [call, h]⟩

theorem calls_wrap {s : St} {r g q g' k : Nat} {t : Target} (h : s.ref r = some (g, .wrap q g')) (hq : s.ref q = some (g', t)) :
    Calls s r k ↔ Calls s q k := by
  constructor
  · rintro ⟨n, hn⟩
    cases n with
    | zero => cases hn
    | succ n => simp only [call, h, hq, if_true] at hn; exact ⟨n, hn⟩
  · rintro ⟨n, hn⟩
    exact ⟨n + 1, by simp [call, h, hq, hn]⟩

/-- what holds along careful histories -/
structure Inv (s : St) (V : Vars) : Prop where
  dom : ∀ r, s.ref r = none ↔ V r = none
  sig : ∀ r g t, s.ref r = some (g, t) → ∃ k, V r = some (g, k) ∧ Calls s r k
  alive : ∀ r g q g', s.ref r = some (g, .wrap q g') → ∃ t, s.ref q = some (g', t)

/-- calls of other function_refs stay as they are when one is changed on which no other depends -/
theorem calls_upd {s : St} {r : Nat} {x : Option (Nat × Target)} (hs : ¬ Source s r) {p k : Nat} (hp : p ≠ r) (h : Calls s p k) :
    Calls ⟨upd s.ref r x⟩ p k := by
  obtain ⟨n, h⟩ := h
  refine ⟨n, ?_⟩
  induction n generalizing p with
  | zero => cases h
  | succ n ih =>
    unfold call at h ⊢
    simp only [upd_ne _ _ hp]
    cases hr : s.ref p with
    | none => rw [hr] at h; cases h
    | some y =>
      obtain ⟨g, t⟩ := y
      rw [hr] at h
      cases t with
      | callable k => exact h
      | wrap q g' =>
        have hq : q ≠ r := by
          rintro rfl
          exact hs ⟨p, g, g', hr⟩
        simp only [upd_ne _ _ hq] at h ⊢
        cases hqs : s.ref q with
        | none => rw [hqs] at h; cases h
        | some z =>
          obtain ⟨a, b⟩ := z
          rw [hqs] at h
          simp only at h ⊢
          split at h
          · next e => rw [if_pos e]; exact ih hq h
          · cases h

/-- a function_ref gets a target -/
theorem Inv.put {s : St} {V : Vars} (h : Inv s V) {r g k : Nat} {t : Target} (hs : ¬ Source s r)
    (ht : t = .callable k ∨ (∃ q, q ≠ r ∧ ∃ g', t = .wrap q g' ∧ ∃ t', s.ref q = some (g', t') ∧ Calls s q k)) :
    Inv ⟨upd s.ref r (some (g, t))⟩ (upd V r (some (g, k))) := by
  constructor
  · intro p
    by_cases e : p = r
    · subst e; simp
    · simp only [upd_ne _ _ e]; exact h.dom p
  · intro p a b hp
    by_cases e : p = r
    · subst e
      simp only [upd_same, Option.some.injEq, Prod.mk.injEq] at hp
      obtain ⟨rfl, rfl⟩ := hp
      refine ⟨k, by simp, ?_⟩
      rcases ht with rfl | ⟨q, hq, g', rfl, t', hq', hc⟩
      · exact calls_callable (g := g) (by simp)
      · exact (calls_wrap (s := ⟨upd s.ref p (some (g, .wrap q g'))⟩) (g := g) (q := q) (g' := g') (t := t') (by simp)
          (by simpa [upd_ne _ _ hq] using hq')).2 (calls_upd hs hq hc)
    · simp only [upd_ne _ _ e] at hp ⊢
      obtain ⟨k', h1, h2⟩ := h.sig p a b hp
      exact ⟨k', h1, calls_upd hs e h2⟩
  · intro p a q g' hp
    by_cases e : p = r
    · subst e
      simp only [upd_same, Option.some.injEq, Prod.mk.injEq] at hp
      obtain ⟨rfl, rfl⟩ := hp
      rcases ht with ht | ⟨q', hq, g'', ht, t', hq', hc⟩
      · cases ht
      · cases ht
        exact ⟨t', by simpa [upd_ne _ _ hq] using hq'⟩
    · simp only [upd_ne _ _ e] at hp
      obtain ⟨t', ht'⟩ := h.alive p a q g' hp
      by_cases e' : q = r
      · subst e'; exact absurd ⟨p, a, g', hp⟩ hs
      · exact ⟨t', by simpa [upd_ne _ _ e'] using ht'⟩

theorem Inv.get {s : St} {V : Vars} (h : Inv s V) {q g k : Nat} (hq : V q = some (g, k)) : ∃ t, s.ref q = some (g, t) ∧ Calls s q k := by
  cases hs : s.ref q with
  | none => rw [(h.dom q).1 hs] at hq; cases hq
  | some y =>
    obtain ⟨a, t⟩ := y
    obtain ⟨k', h1, h2⟩ := h.sig q a t hs
    rw [hq] at h1
    cases h1
    exact ⟨t, rfl, h2⟩

/-- what is stored for a function_ref made from `q`, when it is put at a place `r` that is not used by others -/
theorem from_spec {s : St} {V : Vars} (h : Inv s V) {g q g' k : Nat} (hq : V q = some (g', k)) :
    ∃ t, from_ g q s = .ok t s ∧ ∀ r, ¬ Source s r → (V r = none ∨ ∃ k, V r = some (g, k)) →
      t = .callable k ∨ (∃ q', q' ≠ r ∧ ∃ g'', t = .wrap q' g'' ∧ ∃ t', s.ref q' = some (g'', t') ∧ Calls s q' k) := by
  obtain ⟨t, ht, hc⟩ := h.get hq
  have ho : obj q s = .ok (g', t) s := by simp [obj, ht]
  unfold from_
  rw [M.bind_ok ho]
  dsimp only
  split
  · refine ⟨t, rfl, fun r hs _ => ?_⟩
    cases t with
    | callable k' => exact .inl (by rw [calls_unique (calls_callable ht) hc])
    | wrap q' g'' =>
      obtain ⟨t', ht'⟩ := h.alive _ _ _ _ ht
      refine .inr ⟨q', ?_, g'', rfl, t', ht', (calls_wrap ht ht').1 hc⟩
      rintro rfl
      exact hs ⟨q, g', g'', ht⟩
  · next hg =>
    refine ⟨.wrap q g', rfl, fun r hs hr => .inr ⟨q, ?_, g', rfl, t, ht, hc⟩⟩
    rintro rfl
    rcases hr with hr | ⟨k', hr⟩ <;> rw [hr] at hq
    · cases hq
    · cases hq; exact hg rfl

theorem Careful.inv {s : St} {V : Vars} (h : Careful s V) : Inv s V := by
  induction h with
  | nil => exact ⟨fun _ => ⟨fun _ => rfl, fun _ => rfl⟩, fun _ _ _ h => (nomatch h), fun _ _ _ _ h => (nomatch h)⟩
  | @step s s' V V' op _ hs hr hc ih =>
    have fresh : ∀ {r}, V r = none → ¬ Source s r := by
      rintro r hr ⟨p, g, g', hp⟩
      obtain ⟨t, ht⟩ := ih.alive _ _ _ _ hp
      rw [(ih.dom r).2 hr] at ht
      cases ht
    cases hs with
    | @bind _ r g k h0 =>
      have hn : s.ref r = none := (ih.dom r).2 h0
      simp only [Op.run, Chain.bind, new, hn] at hr
      cases hr
      exact ih.put (fresh h0) (.inl rfl)
    | @conv _ r g q g' k h0 hq =>
      have hn : s.ref r = none := (ih.dom r).2 h0
      obtain ⟨t, hf, ht⟩ := from_spec (g := g) ih hq
      simp only [Op.run, Chain.conv] at hr
      rw [M.bind_ok hf] at hr
      simp only [new, hn] at hr
      cases hr
      exact ih.put (fresh h0) (ht r (fresh h0) (.inl h0))
    | @assign _ r q g k g' k' h0 hq =>
      obtain ⟨t0, ht0, _⟩ := ih.get h0
      have ho : obj r s = .ok (g, t0) s := by simp [obj, ht0]
      obtain ⟨t, hf, ht⟩ := from_spec (g := g) ih hq
      simp only [Op.run, Chain.assign] at hr
      rw [M.bind_ok ho] at hr
      dsimp only at hr
      rw [M.bind_ok hf] at hr
      cases hr
      have hns := hc r .assign
      exact ih.put hns (ht r hns (.inr ⟨_, h0⟩))
    | @assignFn _ r g k k' h0 =>
      obtain ⟨t0, ht0, _⟩ := ih.get h0
      have ho : obj r s = .ok (g, t0) s := by simp [obj, ht0]
      simp only [Op.run, Chain.assignFn] at hr
      rw [M.bind_ok ho] at hr
      cases hr
      exact ih.put (hc r .assignFn) (.inl rfl)
    | @dtor _ r x h0 =>
      obtain ⟨g, k⟩ := x
      obtain ⟨t0, ht0, _⟩ := ih.get h0
      have ho : obj r s = .ok (g, t0) s := by simp [obj, ht0]
      simp only [Op.run, Chain.dtor] at hr
      rw [M.bind_ok ho] at hr
      cases hr
      have hns := hc r .dtor
      constructor
      · intro p
        by_cases e : p = r
        · subst e; simp
        · simp only [upd_ne _ _ e]; exact ih.dom p
      · intro p a b hp
        by_cases e : p = r
        · subst e; simp at hp
        · simp only [upd_ne _ _ e] at hp ⊢
          obtain ⟨k', h1, h2⟩ := ih.sig p a b hp
          exact ⟨k', h1, calls_upd hns e h2⟩
      · intro p a q g' hp
        by_cases e : p = r
        · subst e; simp at hp
        · simp only [upd_ne _ _ e] at hp
          obtain ⟨t', ht'⟩ := ih.alive p a q g' hp
          by_cases e' : q = r
          · subst e'; exact absurd ⟨p, a, g', hp⟩ hns
          · exact ⟨t', by simpa [upd_ne _ _ e'] using ht'⟩

/-! ## C98 -/

/-- **C98**: along careful histories a call comes to the callable that the function_ref was made from, directly or through others.
Missing: histories in which a function_ref is changed or destroyed while one of another signature made from it lives, see
`C98_assigned_refuted`, `C98_destroyed_refuted` and `C98_cycle_refuted`. -/
theorem C98_partial {s : St} {V : Vars} (h : Careful s V) {r g k : Nat} (hr : V r = some (g, k)) :
    ∃ n, ∀ m, n ≤ m → call m s r = .calls k := by
  obtain ⟨_, _, n, hn⟩ := h.inv.get hr
  exact ⟨n, call_mono (by simp) hn⟩

/-- all function_refs have the same signature -/
def OneSig (V : Vars) (g : Nat) : Prop := ∀ r x, V r = some x → x.1 = g

/-- histories of function_refs of one signature -/
inductive Same (g : Nat) : St → Vars → Prop
  | nil : Same g ⟨fun _ => none⟩ fun _ => none
  | step {s s' : St} {V V' : Vars} {op : Op} : Same g s V → Spec op V V' → op.run s = .ok () s' → OneSig V' g → Same g s' V'

/-- **C98** for function_refs of one signature: whatever happens to the others, a call comes to the callable -/
theorem C98_same_partial {g : Nat} {s : St} {V : Vars} (h : Same g s V) {r k : Nat} (hV : V r = some (g, k)) :
    s.ref r = some (g, .callable k) ∧ ∀ m, 1 ≤ m → call m s r = .calls k := by
  have inv : ∀ {s : St} {V : Vars}, Same g s V → OneSig V g ∧ ∀ r, s.ref r = (V r).map fun x => (x.1, .callable x.2) := by
    intro s V h
    induction h with
    | nil => exact ⟨fun _ _ h => (nomatch h), fun _ => rfl⟩
    | @step s s' V V' op _ hs hr h1 ih =>
      refine ⟨h1, ?_⟩
      obtain ⟨ih1, ih2⟩ := ih
      have hobj : ∀ {q x}, V q = some x → obj q s = .ok (x.1, .callable x.2) s := by
        intro q x hq
        have := ih2 q
        rw [hq] at this
        simp [obj, this]
      have hput : ∀ (r : Nat) (x : Option (Nat × Nat)) (p : Nat),
          upd s.ref r (x.map fun x => (x.1, Target.callable x.2)) p = (upd V r x p).map fun x => (x.1, .callable x.2) := by
        intro r x p
        by_cases e : p = r
        · subst e; simp
        · simp only [upd_ne _ _ e]; exact ih2 p
      have hfrom : ∀ {q x}, V q = some x → from_ g q s = .ok (.callable x.2) s := by
        intro q x hq
        unfold from_
        rw [M.bind_ok (hobj hq)]
        simp [ih1 _ _ hq, M.pure_run]
      cases hs with
      | @bind _ r g' k h0 =>
        have hn : s.ref r = none := by rw [ih2 r, h0]; rfl
        simp only [Op.run, Chain.bind, new, hn] at hr
        cases hr
        exact hput r (some (g', k))
      | @conv _ r g' q g'' k h0 hq =>
        have hn : s.ref r = none := by rw [ih2 r, h0]; rfl
        have hg : g' = g := h1 r (g', k) (by simp)
        subst hg
        simp only [Op.run, Chain.conv] at hr
        rw [M.bind_ok (hfrom hq)] at hr
        simp only [new, hn] at hr
        cases hr
        exact hput r (some (g', k))
      | @assign _ r q g' k g'' k' h0 hq =>
        have hg : g' = g := ih1 _ _ h0
        subst hg
        simp only [Op.run, Chain.assign] at hr
        rw [M.bind_ok (hobj h0), M.bind_ok (hfrom hq)] at hr
        cases hr
        exact hput r (some (g', k'))
      | @assignFn _ r g' k k' h0 =>
        simp only [Op.run, Chain.assignFn] at hr
        rw [M.bind_ok (hobj h0)] at hr
        cases hr
        exact hput r (some (g', k'))
      | @dtor _ r x h0 =>
        simp only [Op.run, Chain.dtor] at hr
        rw [M.bind_ok (hobj h0)] at hr
        cases hr
        exact hput r none
  have := (inv h).2 r
  rw [hV] at this
  refine ⟨this, fun m hm => ?_⟩
  obtain ⟨m, rfl⟩ : ∃ m', m = m' + 1 := ⟨m - 1, by omega⟩
  simp [call, this]

/-- **C98**, exactly: a function_ref made from one of another signature calls whatever that one calls at that time -/
theorem C98_exact {s s' : St} {r g q g' : Nat} {t : Target} (hg : g' ≠ g) (hq : s.ref q = some (g', t)) (h : conv r g q s = .ok () s') :
    s'.ref r = some (g, .wrap q g') ∧
      ∀ s'' : St, s''.ref r = s'.ref r → ∀ n, call (n + 1) s'' r = match s''.ref q with
        | none => .ub
        | some (a, _) => if a = g' then call n s'' q else .ub := by
  have hf : from_ g q s = .ok (.wrap q g') s := by
    unfold from_
    rw [M.bind_ok (show obj q s = .ok (g', t) s by simp [obj, hq])]
    simp [hg, M.pure_run]
  unfold conv at h
  rw [M.bind_ok hf] at h
  unfold new at h
  cases hr : s.ref r with
  | some y => rw [hr] at h; cases h
  | none =>
    rw [hr] at h
    injection h with _ h
    subst h
    refine ⟨by simp, fun s'' hs n => ?_⟩
    have hs' : s''.ref r = some (g, .wrap q g') := by rw [hs]; simp
    rw [call, hs']
    dsimp only
    cases s''.ref q <;> rfl

/-- run some operations -/
def runs : List Op → CM Unit
  | [] => pure ()
  | op :: ops => do
    op.run
    runs ops

/-- the function_refs 0 and 1, with the signatures `g` and `g'`, where 1 is made from 0, which is bound to `k` -/
def two (g g' k : Nat) : List Op := [.bind 0 g k, .conv 1 g' 0]

theorem two_run (g g' k : Nat) (hg : g ≠ g') : ∃ s, runs (two g g' k) ⟨fun _ => none⟩ = .ok () s ∧ s.ref 0 = some (g, .callable k) ∧
    s.ref 1 = some (g', .wrap 0 g) ∧ (∀ r, 1 < r → s.ref r = none) ∧
      Reach s (upd (upd (fun _ => none) 0 (some (g, k))) 1 (some (g', k))) := by
  have e1 : (Op.bind 0 g k).run ⟨fun _ => none⟩ = .ok () ⟨upd (fun _ => none) 0 (some (g, .callable k))⟩ := rfl
  have e2 : (Op.conv 1 g' 0).run ⟨upd (fun _ => none) 0 (some (g, .callable k))⟩ =
      .ok () ⟨upd (upd (fun _ => none) 0 (some (g, .callable k))) 1 (some (g', .wrap 0 g))⟩ := by
    have : from_ g' 0 ⟨upd (fun _ => none) 0 (some (g, .callable k))⟩ = .ok (.wrap 0 g) ⟨upd (fun _ => none) 0 (some (g, .callable k))⟩ := by
      unfold from_
      rw [M.bind_ok (show obj 0 ⟨upd (fun _ => none) 0 (some (g, .callable k))⟩ =
        .ok (g, .callable k) ⟨upd (fun _ => none) 0 (some (g, .callable k))⟩ by simp [obj])]
      simp [hg, M.pure_run]
    simp only [Op.run, conv]
    rw [M.bind_ok this]
    simp [new, upd_ne]
  refine ⟨_, ?_, ?_, ?_, ?_, .step (.step .nil (.bind rfl) e1) (.conv (by simp [upd_ne]) (by simp : _ = some (g, k))) e2⟩
  · simp only [two, runs]
    rw [M.bind_ok e1, M.bind_ok e2]
    rfl
  · simp [upd_ne]
  · simp
  · intro r hr
    simp [upd_ne _ _ (show r ≠ 1 by omega), upd_ne _ _ (show r ≠ 0 by omega)]

/-- **C98** is false for other signatures: if the function_ref that another one was made from is assigned to, the other one calls
something else, too -/
theorem C98_assigned_refuted (g g' k k' : Nat) (hg : g ≠ g') : ∃ s V, Reach s V ∧ V 1 = some (g', k) ∧ ∀ n, 2 ≤ n → call n s 1 = .calls k' := by
  obtain ⟨s, _, h0, h1, _, hr⟩ := two_run g g' k hg
  have e : (Op.assignFn 0 k').run s = .ok () ⟨upd s.ref 0 (some (g, .callable k'))⟩ := by
    simp only [Op.run, assignFn]
    rw [M.bind_ok (show obj 0 s = .ok (g, .callable k) s by simp [obj, h0])]
    rfl
  refine ⟨_, _, .step hr (.assignFn (by simp [upd_ne] : _ = some (g, k))) e, by simp [upd_ne], fun n hn => ?_⟩
  obtain ⟨n, rfl⟩ : ∃ m, n = m + 2 := ⟨n - 2, by omega⟩
  simp [call, upd_ne, h1]

/-- **C98** is false for other signatures: if the function_ref that another one was made from (a temporary, say) is gone, the other one
must not be called, though the callable still exists -/
theorem C98_destroyed_refuted (g g' k : Nat) (hg : g ≠ g') : ∃ s V, Reach s V ∧ V 1 = some (g', k) ∧ ∀ n, 1 ≤ n → call n s 1 = .ub := by
  obtain ⟨s, _, h0, h1, _, hr⟩ := two_run g g' k hg
  have e : (Op.dtor 0).run s = .ok () ⟨upd s.ref 0 none⟩ := by
    simp only [Op.run, dtor]
    rw [M.bind_ok (show obj 0 s = .ok (g, .callable k) s by simp [obj, h0])]
    rfl
  refine ⟨_, _, .step hr (.dtor (by simp [upd_ne] : _ = some (g, k))) e, by simp [upd_ne], fun n hn => ?_⟩
  obtain ⟨n, rfl⟩ : ∃ m, n = m + 1 := ⟨n - 1, by omega⟩
  simp [call, upd_ne, h1]

/-- **C98** is false for other signatures: if it is assigned back, a call does not end -/
theorem C98_cycle_refuted (g g' k : Nat) (hg : g ≠ g') :
    ∃ s V, Reach s V ∧ V 0 = some (g, k) ∧ V 1 = some (g', k) ∧ ∀ n, call n s 0 = .deep ∧ call n s 1 = .deep := by
  obtain ⟨s, _, h0, h1, _, hr⟩ := two_run g g' k hg
  have hf : from_ g 1 s = .ok (.wrap 1 g') s := by
    unfold from_
    rw [M.bind_ok (show obj 1 s = .ok (g', .wrap 0 g) s by simp [obj, h1])]
    simp [hg.symm, M.pure_run]
  have e : (Op.assign 0 1).run s = .ok () ⟨upd s.ref 0 (some (g, .wrap 1 g'))⟩ := by
    simp only [Op.run, assign]
    rw [M.bind_ok (show obj 0 s = .ok (g, .callable k) s by simp [obj, h0])]
    dsimp only
    rw [M.bind_ok hf]
    rfl
  refine ⟨_, _, .step hr (.assign (by simp [upd_ne] : _ = some (g, k)) (by simp : _ = some (g', k))) e, by simp, by simp [upd_ne], fun n => ?_⟩
  induction n with
  | zero => exact ⟨rfl, rfl⟩
  | succ n ih => constructor <;> simp [call, upd_ne, h1, ih.1, ih.2]

/-- three function_refs of two signatures; number 2 is a copy of number 1, which is made from number 0 -/
example : (match runs [.bind 0 0 7, .conv 1 1 0, .conv 2 1 1] ⟨fun _ => none⟩ with
    | .ok _ s => (List.range 3).map (call 5 s)
    | _ => []) = [.calls 7, .calls 7, .calls 7] := by decide

example : (match runs [.bind 0 0 7, .conv 1 1 0, .conv 2 1 1, .dtor 1, .assignFn 0 8] ⟨fun _ => none⟩ with
    | .ok _ s => (List.range 3).map (call 5 s)
    | _ => []) = [.calls 8, .ub, .calls 8] := by decide

end Ptl.Fun.Chain

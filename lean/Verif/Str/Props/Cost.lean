import Verif.Str.Cost
import Verif.Str.Demo

/-!
# C82: how much a call on a string allocates

`St.nblk` counts the blocks allocated since program start, `St.tick` the steps that could have failed: allocations, and
dereferences of iterators that may throw.
-/

namespace Ptl.Str

/-! ### what is claimed (no reference to the model) -/

/-- how often a string is reallocated until it has received `n` bytes one at a time: up to 22 it uses no memory from the
heap, then it has room for 48, and every further block has room for 24 more -/
def growths (n : Nat) : Nat := if n ≤ 22 then 0 else (n - 25) / 24 + 1

/-- how many blocks the call may allocate; a call taking `n` bytes from input iterators cannot know `n` beforehand -/
def Op.blocks : Op → Nat
  | .ctorDefault _ | .ctorMove _ _ | .substrMove _ _ _ | .substrNMove _ _ _ _ | .dtor _ | .assignMove _ _ | .swap _ _
  | .popBack _ | .clear _ | .shrinkToFit _ | .erase _ _ _ | .eraseOne _ _ | .write _ _ _ => 0
  | .ctorInput _ l | .assignInput _ l => growths l.length
  | .appendInput _ l | .insertInput _ _ l | .replaceInput _ _ _ l => growths l.length + 1
  | _ => 1

/-- number of iterators in the list that may throw when dereferenced -/
def Src.throwing : List Src → Nat
  | [] => 0
  | .thr _ :: l => 1 + Src.throwing l
  | .val _ :: l | .elem _ _ :: l => Src.throwing l

/-- the call, made in state `s`, ends in state `s'` (returning or throwing) -/
def Ends (op : Op) (s s' : St) : Prop := (∃ r, op.run s = .ok r s') ∨ ∃ e, op.run s = .exc e s'

/-! ### the calls -/

variable {c : Counter} {n : Nat}

theorem sp_srcResolve (x : Src) : Spends c.of n x.resolve := by cases x <;> unfold Src.resolve <;> spend
macro_rules | `(tactic| spend1) => `(tactic| apply sp_srcResolve)
theorem sp_resolveAll (l : List Src) : Spends c.of n (Src.resolveAll l) := by
  induction l with
  | nil => exact Spends.pure _
  | cons x l ih => unfold Src.resolveAll; exact Spends.bind0 (by spend) fun _ => Spends.bindR ih fun _ => by spend
macro_rules | `(tactic| spend1) => `(tactic| apply sp_resolveAll)
theorem sp_pos (i k : Nat) : Spends c.of n (pos i k) := by unfold pos; spend
macro_rules | `(tactic| spend1) => `(tactic| apply sp_pos)
theorem sp_offset (i : Nat) (p : Ptr) : Spends c.of n (offset i p) := by unfold offset; spend
macro_rules | `(tactic| spend1) => `(tactic| apply sp_offset)
theorem sp_noRet {m : SM Unit} (h : Spends c.of n m) : Spends c.of n (noRet m) := Spends.bindR h fun _ => Spends.pure _

theorem src_cost {x : Src} {l : List Src} {s s' : St} {a : Arg} (h : x.resolve s = .ok a s') :
    a.cost + Src.throwing l = Src.throwing (x :: l) := by
  cases x with
  | val v => cases h; exact Nat.zero_add _
  | thr v => cases h; rfl
  | elem j k =>
    change (data (.var j) >>= fun d => pure (Arg.at (d.add k))) s = _ at h
    rw [M.bind_run] at h
    cases hd : data (.var j) s with
    | ok d s1 => simp only [hd] at h; cases h; exact Nat.zero_add _
    | exc => simp [hd] at h
    | ub => simp [hd] at h
    | term => simp [hd] at h
theorem all_costs {l : List Src} {s s' : St} {as : List Arg} (h : Src.resolveAll l s = .ok as s') :
    Arg.costs as = Src.throwing l := by
  induction l generalizing s s' as with
  | nil => cases h; rfl
  | cons x l ih =>
    unfold Src.resolveAll at h
    rw [M.bind_run] at h
    cases hx : x.resolve s with
    | ok a s1 =>
      simp only [hx] at h
      rw [M.bind_run] at h
      cases hl : Src.resolveAll l s1 with
      | ok bs s2 => simp only [hl] at h; cases h; rw [Arg.costs, ih hl, src_cost hx]
      | exc => simp [hl] at h
      | ub => simp [hl] at h
      | term => simp [hl] at h
    | exc => simp [hx] at h
    | ub => simp [hx] at h
    | term => simp [hx] at h

theorem sp_range {β : Type} (l : List Src) {g : List Arg → SM β}
    (h : ∀ as, Arg.costs as = Src.throwing l → Spends c.of n (g as)) : Spends c.of n (Src.resolveAll l >>= g) :=
  Spends.bindK (sp_resolveAll l) (fun _ _ _ e => all_costs e) h

theorem throwing_append (l r : List Src) : Src.throwing (l ++ r) = Src.throwing l + Src.throwing r := by
  induction l with
  | nil => simp [Src.throwing]
  | cons x l ih => cases x <;> simp [Src.throwing, ih, Nat.add_assoc]

/-- the call takes input iterators -/
inductive Op.Input : Op → Prop
  | ctor {i l} : Op.Input (.ctorInput i l)
  | assign {i l} : Op.Input (.assignInput i l)
  | append {i l} : Op.Input (.appendInput i l)
  | insert {i p l} : Op.Input (.insertInput i p l)
  | replace {i f l src} : Op.Input (.replaceInput i f l src)

/-- as `Op.blocks`, for either counter -/
def Op.price (c : Counter) : Op → Nat
  | .ctorDefault _ | .ctorMove _ _ | .substrMove _ _ _ | .substrNMove _ _ _ _ | .dtor _ | .assignMove _ _ | .swap _ _
  | .popBack _ | .clear _ | .shrinkToFit _ | .erase _ _ _ | .eraseOne _ _ | .write _ _ _ => 0
  | .ctorInput _ l | .assignInput _ l => growths l.length * c.block
  | .appendInput _ l | .insertInput _ _ l | .replaceInput _ _ _ l => growths l.length * c.block + c.block
  | _ => c.block

/-- all calls but `push_back` and those with input iterators -/
theorem sp_run (op : Op) (h1 : ¬ op.Input) (h2 : ∀ i ch, op ≠ .pushBack i ch) :
    Spends c.of (op.price c + Src.throwing op.sources * c.user) op.run := by
  cases op with
  | ctorDefault i => exact sp_noRet (sp_sctor _)
  | ctorInput i l => exact absurd .ctor h1
  | ctorRange i l => exact sp_range l fun as h => sp_noRet (by have := sp_ctorRange (c := c) (.var i) as; rwa [h] at this)
  | ctorFill i n ch => exact sp_noRet ((sp_ctorFill _ _ _).mono (Nat.le_add_right _ _))
  | ctorCopy i j => exact sp_noRet ((sp_ctorCopy _ _).mono (Nat.le_add_right _ _))
  | ctorMove i j => exact sp_noRet (sp_ctorMove _ _)
  | concat i l r =>
    refine sp_range l fun as h => sp_range r fun bs h' => sp_noRet ?_
    have := sp_concat (c := c) (.var i) as bs
    rw [h, h', ← throwing_append] at this
    exact this
  | literal i lit => exact sp_noRet ((sp_literal _ _ _).mono (Nat.le_add_right _ _))
  | substr i j o => exact sp_noRet ((sp_substr _ _ _).mono (Nat.le_add_right _ _))
  | substrN i j o n => exact sp_noRet ((sp_substrN _ _ _ _).mono (Nat.le_add_right _ _))
  | substrMove i j o => exact sp_noRet (sp_substrMove _ _ _)
  | substrNMove i j o n => exact sp_noRet (sp_substrNMove _ _ _ _)
  | dtor i => exact sp_noRet (sp_sdtor _)
  | assignCopy i j => exact sp_noRet ((sp_assignCopy _ _).mono (Nat.le_add_right _ _))
  | assignMove i j => exact sp_noRet (sp_assignMove _ _)
  | assignInput i l => exact absurd .assign h1
  | assignRange i l => exact sp_range l fun as h => sp_noRet (by have := sp_assignRange (c := c) (.var i) as; rwa [h] at this)
  | assignIlist i bs => exact sp_noRet ((sp_assign _ _ (sp_putAt _ _ _)).mono (Nat.le_add_right _ _))
  | assignFill i n ch => exact sp_noRet ((sp_assign _ _ (sp_fillAt _ _ _ _)).mono (Nat.le_add_right _ _))
  | appendInput i l => exact absurd .append h1
  | appendRange i l => exact sp_range l fun as h => sp_noRet (by have := sp_appendRange (c := c) (.var i) as; rwa [h] at this)
  | appendIlist i bs => exact sp_noRet ((sp_append _ _ fun _ => sp_putAt _ _ _).mono (Nat.le_add_right _ _))
  | appendFill i n ch => exact sp_noRet ((sp_append _ _ fun _ => sp_fillAt _ _ _ _).mono (Nat.le_add_right _ _))
  | insertInput i p l => exact absurd .insert h1
  | insertRange i p l =>
    exact sp_range l fun as h => Spends.bind0 (by spend) fun q =>
      Spends.bindR (by have := sp_insertRange (c := c) (.var i) q as; rwa [h] at this) fun _ => by spend
  | insertIlist i p bs =>
    exact Spends.bind0 (by spend) fun _ =>
      Spends.bindR ((sp_insert _ _ _ fun _ => sp_putAt _ _ _).mono (Nat.le_add_right _ _)) fun _ => by spend
  | insertFill i p n ch =>
    exact Spends.bind0 (by spend) fun _ =>
      Spends.bindR ((sp_insert _ _ _ fun _ => sp_fillAt _ _ _ _).mono (Nat.le_add_right _ _)) fun _ => by spend
  | replaceInput i f l src => exact absurd .replace h1
  | replaceRange i f l src =>
    exact sp_range src fun as h => Spends.bind0 (by spend) fun p => Spends.bind0 (by spend) fun q =>
      sp_noRet (by have := sp_replaceRange (c := c) (.var i) p q as; rwa [h] at this)
  | replaceIlist i f l bs =>
    exact Spends.bind0 (by spend) fun _ => Spends.bind0 (by spend) fun _ =>
      sp_noRet ((sp_replace _ _ _ _ fun _ => sp_putAt _ _ _).mono (Nat.le_add_right _ _))
  | replaceFill i f l n ch =>
    exact Spends.bind0 (by spend) fun _ => Spends.bind0 (by spend) fun _ =>
      sp_noRet ((sp_replace _ _ _ _ fun _ => sp_fillAt _ _ _ _).mono (Nat.le_add_right _ _))
  | swap i j => exact sp_noRet (sp_swap _ _)
  | pushBack i ch => exact absurd rfl (h2 i ch)
  | popBack i => exact sp_noRet (by spend)
  | clear i => exact sp_noRet (by spend)
  | reserve i n => exact sp_noRet ((sp_reserve _ _).mono (Nat.le_add_right _ _))
  | shrinkToFit i => exact sp_noRet (by spend)
  | resize i n ch => exact sp_noRet ((sp_resize _ _ _).mono (Nat.le_add_right _ _))
  | erase i f l =>
    exact Spends.bind0 (by spend) fun _ => Spends.bind0 (by spend) fun _ => Spends.bind0 (by spend) fun _ => by spend
  | eraseOne i p => exact Spends.bind0 (by spend) fun _ => Spends.bind0 (by spend) fun _ => by spend
  | write i k ch => exact Spends.bind0 (by spend) fun _ => sp_noRet (by spend)

/-! ### `push_back`: the second `reserve` finds enough room -/

theorem resize_room {s : St} {i : Id} {sz cap k : Nat} {ch : UInt8} (h1 : size i s = .ok sz s)
    (h2 : capacity i s = .ok cap s) (h : k ≤ cap) : ∃ m : SM Unit, resize i k ch s = m s ∧ ∀ c : Counter, Spends c.of 0 m := by
  have h3 : reserve i k s = .ok () s := by
    unfold reserve
    rw [M.bind_ok h2, if_pos h]; rfl
  unfold resize
  exact ⟨_, by rw [M.bind_ok h1, M.bind_ok h3], fun c => by spend⟩

theorem pushBack_costs {s : St} (hw : WF s) {i : Id} {v : Vw} (hv : abs s i = some v) {xs : List UInt8} {t : UInt8}
    (hh : Holds v xs t) (ch : UInt8) :
    Costs c.of (if xs.length = v.cap then c.block else 0) s (pushBack i ch s) := by
  unfold pushBack
  refine Costs.of_eq ((M.bind_ok (size_ok hw hv)).trans (M.bind_ok (capacity_ok hw hv))) ?_
  have hlt := len_lt hw hv hh
  have hadd : szAdd xs.length 1 = xs.length + 1 := szAdd_eq (by unfold ptrdiffMax at hlt; unfold szMod; omega)
  have hle := hh.len (hw.gd hv)
  have last : ∀ {s1 : St} {v1 : Vw} {t1 : UInt8}, WF s1 → abs s1 i = some v1 → Holds v1 xs t1 → xs.length + 1 ≤ v1.cap →
      Costs c.of 0 s1 ((size i >>= fun sz => resize i (szAdd sz 1) ch >>= fun _ => back i) s1) := by
    intro s1 v1 t1 hw1 hv1 hh1 hfit
    refine Costs.of_eq (M.bind_ok (size_ok hw1 hv1)) ?_
    rw [hh1.1, hadd]
    obtain ⟨m, hm, hsm⟩ := resize_room (ch := ch) (size_ok hw1 hv1) (capacity_ok hw1 hv1) hfit
    exact Costs.of_eq (M.bind_congr hm) (Costs.of (Spends.bind0 (hsm c) fun _ => by spend) s1)
  by_cases hc : xs.length = v.cap
  · rw [if_pos hc, if_pos (hh.1.trans hc), hh.1, hadd]
    refine Costs.bind (k := 0) (Costs.of (sp_reserve i (xs.length + 1)) s) fun _ s1 hr => ?_
    rcases reserve_run hw hv hh (xs.length + 1) with ⟨s1, v1, t1, hr1, st1, hh1, _, hc1, _⟩ | ⟨s', e, hr', _⟩
    · rw [hr] at hr1; cases hr1
      refine last st1.wf st1.at hh1 ?_
      rw [hc1]
      split
      · assumption
      · exact capFor_ge _
    · rw [hr] at hr'; cases hr'
  · rw [if_neg hc, if_neg (by rw [hh.1]; exact hc)]
    exact last hw hv hh (by omega)

/-! ### input iterators -/

/-- reallocations until the string, of capacity `c`, holds `n` bytes -/
def growthsFrom (n c : Nat) : Nat := if n ≤ c then 0 else if c < 48 then (n - 25) / 24 + 1 else (n - c + 23) / 24

theorem growthsFrom_step {n c : Nat} (hc : c = 22 ∨ (48 ≤ c ∧ 24 ∣ c)) (h : c < n) :
    growthsFrom n c = growthsFrom n (capFor (c + 1)) + 1 := by
  unfold growthsFrom capFor
  rcases hc with rfl | ⟨h1, k, rfl⟩
  · rw [if_neg (by omega), if_pos (by omega)]
    by_cases hn : n ≤ 48
    · rw [if_pos (by omega)]; omega
    · rw [if_neg (by omega), if_neg (by omega)]; omega
  · have e : max 2 ((24 * k + 1 + 23) / 24) * 24 = 24 * k + 24 := by omega
    rw [e, if_neg (by omega), if_neg (by omega)]
    by_cases hn : n ≤ 24 * k + 24
    · rw [if_pos hn]; omega
    · rw [if_neg hn, if_neg (by omega)]; omega

/-- dereferencing an iterator changes nothing -/
theorem deref_wf {s s' : St} {a : Arg} {b : UInt8} (hw : WF s) (h : a.deref s = .ok b s') : WF s' ∧ abs s' = abs s := by
  cases a with
  | val v => cases h; exact ⟨hw, rfl⟩
  | thr v =>
    change (fallible .user >>= fun _ => pure v) s = _ at h
    rcases fallible_run .user s with ⟨s1, hr, h1, h2, h3, h4, _⟩ | ⟨s1, hr, _⟩
    · rw [M.bind_ok hr] at h; cases h
      exact ⟨hw.congr h1 h2 h3 (Nat.le_of_eq h4.symm), abs_congr h1 h2⟩
    · rw [M.bind_exc hr] at h; cases h
  | «at» p =>
    have : s' = s := by
      change readAt p s = _ at h
      unfold readAt at h
      repeat' split at h
      all_goals cases h
      rfl
    rw [this]; exact ⟨hw, rfl⟩

theorem pushAll_costs (as : List Arg) : ∀ {s : St} (_ : WF s) {i : Id} {v : Vw} (_ : abs s i = some v) {xs : List UInt8} {t : UInt8}
    (_ : Holds v xs t) (_ : v.cap = 22 ∨ (48 ≤ v.cap ∧ 24 ∣ v.cap)),
    Costs c.of (growthsFrom (xs.length + as.length) v.cap * c.block + Arg.costs as * c.user) s (pushAll i as s) := by
  induction as with
  | nil => intro s _ i v _ xs t _ _; exact Costs.of (Spends.pure ()) s
  | cons a as ih =>
    intro s hw i v hv xs t hh hcap
    unfold pushAll
    have e : growthsFrom (xs.length + (a :: as).length) v.cap * c.block + Arg.costs (a :: as) * c.user =
        a.cost * c.user + (growthsFrom (xs.length + (a :: as).length) v.cap * c.block + Arg.costs as * c.user) := by
      rw [Arg.costs, Nat.add_mul]; omega
    rw [e]
    refine Costs.bind (Costs.of (sp_deref a) s) fun b s1 h1 => ?_
    obtain ⟨hw1, ha1⟩ := deref_wf hw h1
    have hv1 : abs s1 i = some v := by rw [ha1, hv]
    have hp := pushBack_costs (c := c) hw1 hv1 hh b
    by_cases hc : xs.length = v.cap
    · rw [growthsFrom_step hcap (by rw [← hc]; simp), Nat.add_mul, Nat.one_mul, Nat.add_right_comm, Nat.add_comm _ c.block]
      rw [if_pos hc] at hp
      refine Costs.bind hp fun _ s2 h2 => ?_
      rcases pushBack_run hw1 hv1 hh b with ⟨s2', v', hr, st, hh', hc', _⟩ | ⟨s2', e, hr, _⟩
      · rw [h2] at hr; cases hr
        rw [if_pos hc] at hc'
        have := ih st.wf st.at hh' (.inr ⟨by rw [hc']; exact capFor_48 _, by rw [hc']; exact capFor_dvd _⟩)
        rw [hc', hc] at this
        refine this.mono (Nat.le_of_eq ?_)
        simp only [List.length_append, List.length_cons, List.length_nil, hc]
        rw [show v.cap + (0 + 1) + as.length = v.cap + (as.length + 1) by omega]
      · rw [h2] at hr; cases hr
    · rw [if_neg hc] at hp
      rw [← Nat.zero_add (growthsFrom _ _ * _ + _)]
      refine Costs.bind hp fun _ s2 h2 => ?_
      rcases pushBack_run hw1 hv1 hh b with ⟨s2', v', hr, st, hh', hc', _⟩ | ⟨s2', e, hr, _⟩
      · rw [h2] at hr; cases hr
        rw [if_neg hc] at hc'
        have := ih st.wf st.at hh' (by rw [hc']; exact hcap)
        rw [hc'] at this
        refine this.mono (Nat.le_of_eq ?_)
        simp only [List.length_append, List.length_cons, List.length_nil]
        rw [show xs.length + (0 + 1) + as.length = xs.length + (as.length + 1) by omega]
      · rw [h2] at hr; cases hr

theorem ctorInput_costs {s : St} (hw : WF s) {i : Id} (hd : abs s i = none) (hi : ∀ k, i = .tmp k → k < s.ntmp) (as : List Arg) :
    Costs c.of (growths as.length * c.block + Arg.costs as * c.user) s (ctorInput i as s) := by
  unfold ctorInput construct
  rw [← Nat.zero_add (growths _ * _ + _)]
  refine Costs.bind (Costs.of (sp_sctor _) s) fun _ s1 h => ?_
  obtain ⟨s1', h', q⟩ := ctor_ok hw hd hi
  rw [h] at h'; cases h'
  have := pushAll_costs (c := c) as q.wf q.at (emptySso_holds i) (.inl rfl)
  have e : growthsFrom (0 + as.length) 22 = growths as.length := by
    rw [Nat.zero_add]; rfl
  exact Costs.onExc (by rw [← e]; exact this) (by spend)

theorem withInput_costs {s : St} (hw : WF s) (as : List Arg) {body : Id → SM β} (h : ∀ t, Spends c.of n (body t)) :
    Costs c.of (growths as.length * c.block + Arg.costs as * c.user + n) s
      (withString (fun t => ctorInput t as) body s) := by
  have hw0 : WF { s with ntmp := s.ntmp + 1 } := hw.congr rfl rfl rfl (by simp)
  have h1 := ctorInput_costs (c := c) (i := .tmp s.ntmp) hw0 (tmp_dead hw) (fun k hk => by cases hk; exact Nat.lt_succ_self _) as
  have h2 := Costs.bind (g := fun _ => M.withDtor (body (.tmp s.ntmp)) (Storage.dtor (.tmp s.ntmp))) h1
    fun _ s1 _ => Costs.of (Spends.withDtor (h _) (by spend)) s1
  cases c <;> exact h2

/-! ### C82 -/

variable {s s' : St} {V V' : Vars} {op : Op} {r : Option Nat}

theorem areAll_length {l : List Src} {bs : List UInt8} (h : Src.AreAll V l bs) : l.length = bs.length := by
  induction h with
  | nil => rfl
  | cons _ _ ih => simp [ih]

/-- resolving the iterators given to a call -/
theorem input_costs {m : List Arg → SM (Option Nat)} {l : List Src} {as : List Arg} {bs : List UInt8} {i : Id} {lo k : Nat}
    (hr : Src.resolveAll l s = .ok as s) (hse : SeesAll (abs s) i lo as bs) (ha : Src.AreAll V l bs)
    (h : Costs c.of (growths as.length * c.block + Arg.costs as * c.user + k) s (m as s)) :
    Costs c.of (growths l.length * c.block + k + Src.throwing l * c.user) s ((Src.resolveAll l >>= m) s) := by
  refine Costs.of_eq (M.bind_ok hr) (h.mono (Nat.le_of_eq ?_))
  rw [all_costs hr, hse.length, ← areAll_length ha]; omega

theorem noRet_costs {m : SM Unit} (h : Costs c.of n s (m s)) : Costs c.of n s (noRet m s) :=
  Costs.bind (k := 0) h fun _ s1 _ => Costs.of (Spends.pure _) s1

theorem Reach.costs (h : Reach s V) (hs : Spec (Big s) op V V' r) :
    Costs c.of (op.price c + Src.throwing op.sources * c.user) s (op.run s) := by
  have gen : ∀ (_ : ¬ op.Input) (_ : ∀ i ch, op ≠ .pushBack i ch),
      Costs c.of (op.price c + Src.throwing op.sources * c.user) s (op.run s) := fun h1 h2 => Costs.of (sp_run op h1 h2) s
  obtain ⟨hinv, rfl⟩ := h.inv
  have hw := hinv.wf
  cases hs with
  | pushBack hV =>
    obtain ⟨v, t, hv, hh⟩ := vars_some hinv hV
    refine Costs.bind (k := 0) ((pushBack_costs (c := c) hw hv hh _).mono ?_) fun _ s1 _ => Costs.of (by spend) s1
    simp only [Op.price]; split
    · exact Nat.le_add_right _ _
    · exact Nat.zero_le _
  | ctorInput hi ha =>
    obtain ⟨as, hr, hse, _⟩ := resolveAll_ok hinv (lo_none hinv hi) ha
    exact input_costs (k := 0) hr hse ha (noRet_costs (ctorInput_costs hw (vars_none hi) var_tmp as))
  | assignInput hi ha =>
    obtain ⟨as, hr, hse, _⟩ := resolveAll_ok hinv (lo_of hinv hi) ha
    exact input_costs (k := 0) hr hse ha (noRet_costs (withInput_costs hw as fun _ => by spend))
  | appendInput hi ha hn =>
    obtain ⟨as, hr, hse, _⟩ := resolveAll_ok hinv (lo_of hinv hi) ha
    exact input_costs (k := c.block) hr hse ha (noRet_costs (withInput_costs hw as fun _ =>
      Spends.bind0 (by spend) fun _ => sp_append _ _ fun _ => sp_copyFrom _ _ _))
  | insertInput hi ha hn =>
    obtain ⟨v, t, hv, hh⟩ := vars_some hinv hi
    obtain ⟨as, hr, hse, _⟩ := resolveAll_ok hinv (lo_of hinv hi) ha
    refine input_costs (k := c.block) hr hse ha (Costs.of_eq (M.bind_ok (pos_ok hw hv _)) (Costs.bind (k := 0)
      (withInput_costs hw as fun _ => ?_) fun _ s1 _ => Costs.of (by spend) s1))
    exact Spends.bind0 (by spend) fun _ => sp_insert _ _ _ fun _ => sp_copyFrom _ _ _
  | replaceInput hi ha hn =>
    obtain ⟨v, t, hv, hh⟩ := vars_some hinv hi
    obtain ⟨as, hr, hse, _⟩ := resolveAll_ok hinv (lo_of hinv hi) ha
    refine input_costs (k := c.block) hr hse ha (Costs.of_eq ((M.bind_ok (pos_ok hw hv _)).trans
      (M.bind_ok (pos_ok hw hv _))) (noRet_costs (withInput_costs hw as fun _ => ?_)))
    exact Spends.bind0 (by spend) fun _ => sp_replace _ _ _ _ fun _ => sp_copyFrom _ _ _
  | _ => exact gen (by intro h; cases h) (by intros; simp)

/-- **C82** (string): no call allocates more blocks than `Op.blocks` says: none when moving, swapping, erasing, shrinking,
clearing, destroying, or taking a substring of an rvalue, one otherwise (more only with input iterators).  This holds
whether the call returns or throws. -/
theorem C82_blocks (h : Reach s V) (hs : Spec (Big s) op V V' r) (hE : Ends op s s') : s'.nblk ≤ s.nblk + op.blocks := by
  have key := h.costs (c := .blocks) hs
  have e : op.price .blocks = op.blocks := by cases op <;> simp [Op.price, Op.blocks, Counter.block]
  rw [e] at key
  rcases hE with ⟨r, h⟩ | ⟨x, h⟩ <;> rw [h] at key <;> simp only [Costs, Counter.of, Counter.user] at key <;> omega

/-- what is claimed of dereferences: between `s` and the end of the call there were at most `n` steps that may fail, other
than allocations that succeeded; if the call throws `std::bad_alloc`, the failed allocation comes on top -/
def Dereferenced (op : Op) (n : Nat) (s : St) : Prop :=
  (∀ r s', op.run s = .ok r s' → s'.tick + s.nblk ≤ s.tick + s'.nblk + n) ∧
  ∀ e s', op.run s = .exc e s' → s'.tick + s.nblk ≤ s.tick + s'.nblk + n + if e = .badAlloc then 1 else 0

/-- **C82** (string): apart from allocations, the only steps that may fail are the dereferences of the iterators given to
the call, and each is dereferenced at most once (input iterators cannot be dereferenced again). -/
theorem C82_derefs (h : Reach s V) (hs : Spec (Big s) op V V' r) : Dereferenced op (Src.throwing op.sources) s := by
  have key := h.costs (c := .derefs) hs
  have e : op.price .derefs = 0 := by cases op <;> simp [Op.price, Counter.block]
  rw [e] at key
  constructor
  · intro r s' h; rw [h] at key; simp only [Costs, Counter.of, Counter.user] at key; omega
  · intro x s' h; rw [h] at key; simp only [Costs, Counter.of, Counter.user] at key; split <;> simp_all <;> omega

/-- a string of 22 bytes -/
def fullV : Vars := upd (fun _ => none) 0 (some (List.replicate 22 97))

/-- A string of 22 bytes is full.  The next byte makes it allocate exactly once; a range whose iterators may throw, for
which there is room, is then dereferenced once per iterator and nothing is allocated. -/
example : ∃ s s' s'', Reach s fullV ∧ (Op.pushBack 0 98).run s = .ok (some 22) s' ∧
    s'.nblk = s.nblk + 1 ∧ s'.tick = s.tick + 1 ∧
    (Op.appendRange 0 [.thr 1, .thr 2]).run s' = .ok none s'' ∧ s''.nblk = s'.nblk ∧ s''.tick = s'.tick + 2 := by
  let s : St := after (.ctorFill 0 22 97) (start fun _ => false)
  let s' := after (.pushBack 0 98) s
  let s'' := after (.appendRange 0 [.thr 1, .thr 2]) s'
  have h0 : Reach s fullV := (Reach.start fun _ => false).ok
    (.ctorFill rfl (by decide)) (run_after (r := none) (by decide +kernel))
  exact ⟨s, s', s'', h0, run_after (by decide +kernel), by decide +kernel, by decide +kernel, run_after (by decide +kernel),
    by decide +kernel, by decide +kernel⟩

/-- 49 bytes from input iterators: two blocks (of 48 and 72 bytes), and every iterator is dereferenced once. -/
example : ∃ s s', Reach s (fun _ => none) ∧
    (Op.ctorInput 0 (List.replicate 49 (.thr 97))).run s = .ok none s' ∧
    s'.nblk = s.nblk + growths 49 ∧ s'.tick = s.tick + growths 49 + 49 ∧ growths 49 = 2 := by
  let s : St := start fun _ => false
  exact ⟨s, after (.ctorInput 0 (List.replicate 49 (.thr 97))) s, .start _, run_after (by decide +kernel),
    by decide +kernel, by decide +kernel, by decide⟩

end Ptl.Str

import Verif.Str.Copies
import Verif.Str.Client

/-! # Every client call meets its specification on byte lists -/

namespace Ptl.Str

/-- the contents -/
def Vw.bytes (v : Vw) : List UInt8 := (v.buf.take v.siz).filterMap id

theorem Holds.bytes {v : Vw} {xs : List UInt8} {t : UInt8} (h : Holds v xs t) : v.bytes = xs := by
  obtain ⟨h1, r, h2⟩ := h
  unfold Vw.bytes
  rw [h1, h2, List.take_left' (by simp)]
  simp [List.filterMap_map]

/-- contents of the client's variables -/
def varsOf (A : Id → Option Vw) : Vars := fun n => (A (.var n)).map Vw.bytes

/-- contents of the client's variables in state `s` -/
def vars (s : St) : Vars := varsOf (abs s)

/-- invariant between client calls: well-formed, no temporary is alive, all bytes up to and including index `size()`
are initialised -/
structure Inv (s : St) : Prop where
  wf : WF s
  tmp : ∀ k, abs s (.tmp k) = none
  holds : ∀ i v, abs s (.var i) = some v → ∃ xs t, Holds v xs t

/-- all strings are null-terminated -/
def Zero (s : St) : Prop := ∀ i v, abs s (.var i) = some v → ∃ xs, Holds v xs 0

theorem varsOf_upd (A : Id → Option Vw) (i : Nat) (p) : varsOf (upd A (.var i) p) = upd (varsOf A) i (p.map Vw.bytes) := by
  funext n
  unfold varsOf
  by_cases h : n = i
  · subst h; simp
  · rw [upd_ne _ _ h, upd_ne _ _ (by intro h'; cases h'; exact h rfl)]

section
variable {s : St} (hinv : Inv s)
include hinv

theorem vars_some {i : Nat} {xs : List UInt8} (h : vars s i = some xs) : ∃ v t, abs s (.var i) = some v ∧ Holds v xs t := by
  unfold vars varsOf at h
  cases ha : abs s (.var i) with
  | none => rw [ha] at h; cases h
  | some v =>
    rw [ha] at h; cases h
    obtain ⟨xs, t, hh⟩ := hinv.holds i v ha
    exact ⟨v, t, rfl, by rw [hh.bytes]; exact hh⟩

omit hinv in
theorem vars_none {i : Nat} (h : vars s i = none) : abs s (.var i) = none := by
  unfold vars varsOf at h
  cases ha : abs s (.var i) with
  | none => rfl
  | some v => rw [ha] at h; cases h

omit hinv in
theorem vars_of_abs {i : Nat} {v : Vw} {xs : List UInt8} {t : UInt8} (h : abs s (.var i) = some v) (hh : Holds v xs t) :
    vars s i = some xs := by simp [vars, varsOf, h, hh.bytes]

theorem big_iff {i : Nat} {v : Vw} (h : abs s (.var i) = some v) : Big s i ↔ 22 < v.cap := by
  have := capacity_ok hinv.wf h
  constructor
  · rintro ⟨c, h1, h2⟩
    rw [this] at h1; cases h1; exact h2
  · exact fun h => ⟨_, this, h⟩

theorem big_heap {i : Nat} {v : Vw} (h : abs s (.var i) = some v) : 22 < v.cap ↔ ∃ b, v.base = .heap b := by
  rcases (hinv.wf.gd h).shape with ⟨h1, h2⟩ | ⟨b, h1, h2, _⟩
  · constructor
    · omega
    · rintro ⟨b, hb⟩; rw [hb] at h1; cases h1
  · exact ⟨fun _ => ⟨b, h1⟩, fun _ => by omega⟩

end

/-- the oracle is the same, and ids are not reused -/
structure Adv (s s' : St) : Prop where
  orc : s'.orc = s.orc
  tick : s.tick ≤ s'.tick
  nblk : s.nblk ≤ s'.nblk

theorem Step.adv {s s' : St} {f} (h : Step s s' f) : Adv s s' := ⟨h.orc, h.tick, h.nblk⟩

/-- a legitimate reason for the exception `e` -/
def Reason (op : Op) (s s' : St) (V' : Vars) (e : Exc) : Prop :=
  (e = .lengthError ∧ ∃ n, Asks op V' n ∧ maxSize < n) ∨
  (e = .badAlloc ∧ ∃ n, Asks op V' n ∧ 22 < n ∧ (maxSize < n + 23 ∨ Hit s s')) ∨
  (e = .user ∧ (∃ b, .thr b ∈ op.sources) ∧ Hit s s')

/-- outcome of a client call -/
def Outcome (op : Op) (s : St) (V' : Vars) (r : Option Nat) (res : Out St (Option Nat)) : Prop :=
  match res with
  | .ok r' s' => Inv s' ∧ Adv s s' ∧ (∀ j, ¬ op.Targets j → abs s' (.var j) = abs s (.var j)) ∧ vars s' = V' ∧ r' = r ∧
      (Zero s → Zero s')
  | .exc e s' => Inv s' ∧ Adv s s' ∧ (∀ j, ¬ op.Targets j → abs s' (.var j) = abs s (.var j)) ∧
      (∀ j v xs t, abs s (.var j) = some v → Holds v xs t → ∃ v' t', abs s' (.var j) = some v' ∧ Holds v' xs t' ∧
        v'.base = v.base ∧ v'.cap = v.cap) ∧
      (∀ j, abs s (.var j) = none → abs s' (.var j) = none) ∧
      ((op.Forward → e ≠ .user) → abs s' = abs s) ∧ Reason op s s' V' e
  | .ub _ => False
  | .term => (∃ i lit, op = .literal i lit) ∧ ∃ n, Asks op V' n ∧ 22 < n ∧ (maxSize < n + 23 ∨ ∃ k, s.tick ≤ k ∧ s.orc k = true)

theorem Outcome.of_eq {op : Op} {s : St} {V' : Vars} {r : Option Nat} {res res'} (h : res = res') (h' : Outcome op s V' r res') :
    Outcome op s V' r res := h ▸ h'

theorem capFor_big {n : Nat} (h : ptrdiffMax ≤ capFor n) (h22 : 22 < n) : maxSize < n + 23 := by
  unfold maxSize; unfold capFor at h; unfold ptrdiffMax at *; omega

theorem Why.reason {op : Op} {s s' : St} {src : List Arg} {n : Nat} {e : Exc} {V' : Vars} (h : Why s s' src n e) (hn : Asks op V' n)
    (hs : ∀ b, .thr b ∈ src → .thr b ∈ op.sources) : Reason op s s' V' e := by
  cases h with
  | length h => exact .inl ⟨rfl, n, hn, h⟩
  | mem h k => exact .inr (.inl ⟨rfl, n, hn, h, k.imp (fun k => capFor_big k h) id⟩)
  | user h k => exact .inr (.inr ⟨rfl, ⟨_, hs _ h⟩, k⟩)

section glue
variable {s : St} (hinv : Inv s) {op : Op} {V' : Vars} {r : Option Nat}
include hinv

theorem Inv.one {s' : St} {i : Nat} {p : Option Vw} (st : Step s s' (upd (abs s) (.var i) p))
    (hp : ∀ v, p = some v → ∃ xs t, Holds v xs t) : Inv s' := by
  refine ⟨st.wf, fun k => by rw [st.ne (by simp)]; exact hinv.tmp k, fun j v hj => ?_⟩
  by_cases h : j = i
  · subst h; rw [st.at] at hj; exact hp v hj
  · rw [st.ne (by rintro ⟨⟩; exact h rfl)] at hj; exact hinv.holds j v hj

omit hinv in
theorem Zero.one {s' : St} {i : Nat} {p : Option Vw} (hz : Zero s) (st : Step s s' (upd (abs s) (.var i) p))
    (hp : ∀ v, p = some v → ∃ xs, Holds v xs 0) : Zero s' := by
  intro j v hj
  by_cases h : j = i
  · subst h; rw [st.at] at hj; exact hp v hj
  · rw [st.ne (by rintro ⟨⟩; exact h rfl)] at hj; exact hz j v hj

omit hinv in
theorem frame_one {s' : St} {i : Nat} {p : Option Vw} (st : Step s s' (upd (abs s) (.var i) p)) (hi : op.Targets i) :
    ∀ j, ¬ op.Targets j → abs s' (.var j) = abs s (.var j) :=
  fun j hj => st.ne (by rintro ⟨⟩; exact hj hi)

omit hinv in
theorem vars_one {s' : St} {i : Nat} {p : Option Vw} (st : Step s s' (upd (abs s) (.var i) p)) :
    vars s' = upd (vars s) i (p.map Vw.bytes) := by
  unfold vars; rw [st.abs, varsOf_upd]

/-- a call that throws without changing anything -/
theorem Outcome.of_exc {s' : St} {e : Exc} (st : Step s s' (abs s)) (hy : Reason op s s' V' e) :
    Outcome op s V' r (.exc e s') := by
  refine ⟨⟨st.wf, fun k => by rw [st.abs]; exact hinv.tmp k, fun i v h => by rw [st.abs] at h; exact hinv.holds i v h⟩, st.adv,
    fun j _ => by rw [st.abs], fun j v xs t h hh => ⟨v, t, by rw [st.abs, h], hh, rfl, rfl⟩, fun j h => by rw [st.abs, h], fun _ => st.abs, hy⟩

/-- normal return of a call that changes one string -/
theorem Outcome.of_ok1 {s' : St} {i : Nat} {v' : Vw} {ys : List UInt8} {t : UInt8} (hi : op.Targets i)
    (st : Step s s' (upd (abs s) (.var i) (some v'))) (hh : Holds v' ys t) (ht : Zero s → t = 0) :
    Outcome op s (upd (vars s) i (some ys)) r (.ok r s') :=
  ⟨Inv.one hinv st (fun v h => by cases h; exact ⟨_, _, hh⟩), st.adv, frame_one st hi, by rw [vars_one st]; simp [hh.bytes], rfl,
    fun hz => hz.one st (fun v h => by cases h; exact ⟨ys, ht hz ▸ hh⟩)⟩

/-- members that change nothing when they throw -/
theorem Outcome.of_runsS {β : Type} {m : SM β} {k : β → SM (Option Nat)} {i : Nat} {v : Vw} {src : List Arg} {ys : List UInt8} {stay : Prop}
    {ret : Vw → β} (hr : RunsS m s (.var i) v src ys stay ret) (hi : op.Targets i)
    (hk : ∀ s' v', WF s' → abs s' (.var i) = some v' → k (ret v') s' = .ok r s')
    (hs : ∀ b, .thr b ∈ src → .thr b ∈ op.sources) :
    Outcome op s (upd (vars s) i (some ys)) r ((m >>= k) s) := by
  rcases hr with ⟨s', v', hm, st, hh, _⟩ | ⟨s', e, hm, st, hy, _⟩
  · exact .of_eq ((M.bind_ok hm).trans (hk s' v' st.wf st.at)) (.of_ok1 hinv hi st hh fun _ => rfl)
  · exact .of_eq (M.bind_exc hm) (.of_exc hinv st (hy.reason (.inl ⟨i, ys, hi, upd_same _ _ _, rfl⟩) hs))

/-- members that may leave other bytes behind the contents when an iterator throws -/
theorem Outcome.of_runs {β : Type} {m : SM β} {k : β → SM (Option Nat)} {i : Nat} {v : Vw} {xs : List UInt8} {t : UInt8} {src : List Arg}
    {ys : List UInt8} {stay : Prop} {ret : Vw → β} (hv : abs s (.var i) = some v) (hh : Holds v xs t)
    (hr : Runs m s (.var i) v xs src ys stay ret) (hi : op.Targets i) (hf : op.Forward)
    (hk : ∀ s' v', WF s' → abs s' (.var i) = some v' → k (ret v') s' = .ok r s')
    (hs : ∀ b, .thr b ∈ src → .thr b ∈ op.sources) :
    Outcome op s (upd (vars s) i (some ys)) r ((m >>= k) s) := by
  rcases hr with ⟨s', v', hm, st, hh', _⟩ | ⟨s', e, v', hm, st, hkept, hy, _⟩
  · exact .of_eq ((M.bind_ok hm).trans (hk s' v' st.wf st.at)) (.of_ok1 hinv hi st hh' fun _ => rfl)
  · refine .of_eq (M.bind_exc hm) ?_
    obtain ⟨k1, k2, ⟨t', k3⟩, k4⟩ := hkept
    refine ⟨Inv.one hinv st (fun v h => by cases h; exact ⟨_, _, k3⟩), st.adv, frame_one st hi, fun j w zs u hj hz => ?_, fun j hj => ?_, fun he => ?_,
      hy.reason (.inl ⟨i, ys, hi, upd_same _ _ _, rfl⟩) hs⟩
    · by_cases h : j = i
      · subst h
        rw [hv] at hj; cases hj
        obtain ⟨rfl, _⟩ := hh.unique hz
        exact ⟨v', t', st.at, k3, k1, k2⟩
      · exact ⟨w, u, by rw [st.ne (by rintro ⟨⟩; exact h rfl), hj], hz, rfl, rfl⟩
    · by_cases h : j = i
      · subst h; rw [hv] at hj; cases hj
      · rw [st.ne (by rintro ⟨⟩; exact h rfl), hj]
    · obtain rfl := k4 (he hf)
      rw [st.abs, upd_eq _ _ _ hv]

/-- constructors -/
theorem Outcome.of_makes {P : Nat → Prop} {m : SM Unit} {i : Nat} {src : List Arg} {ys : List UInt8} (hr : MakesP P m s (.var i) src ys) (hi : op.Targets i)
    (hs : ∀ b, .thr b ∈ src → .thr b ∈ op.sources) :
    Outcome op s (upd (vars s) i (some ys)) none (noRet m s) := by
  rcases hr with ⟨s', v', hm, st, hh, _⟩ | ⟨s', e, hm, st, hy⟩
  · exact .of_eq (M.bind_ok hm) (.of_ok1 hinv hi st hh fun _ => rfl)
  · exact .of_eq (M.bind_exc hm) (.of_exc hinv st (hy.reason (.inl ⟨i, ys, hi, upd_same _ _ _, rfl⟩) hs))

theorem Outcome.of_step {m : SM Unit} {s' : St} {i : Nat} {v' : Vw} {ys : List UInt8} {t : UInt8} (hm : m s = .ok () s') (hi : op.Targets i)
    (st : Step s s' (upd (abs s) (.var i) (some v'))) (hh : Holds v' ys t) (ht : Zero s → t = 0) :
    Outcome op s (upd (vars s) i (some ys)) none (noRet m s) :=
  .of_eq (M.bind_ok hm) (.of_ok1 hinv hi st hh ht)

/-- a call that changes two strings and cannot fail -/
theorem Outcome.of_two {m : SM Unit} {s' : St} {i j : Nat} {v' w' : Vw} {ys zs : List UInt8} {t u : UInt8} (hm : m s = .ok () s') (hij : i ≠ j)
    (hi : op.Targets i) (hj : op.Targets j) (st : Step s s' (upd (upd (abs s) (.var i) (some v')) (.var j) (some w')))
    (hv' : Holds v' ys t) (hw' : Holds w' zs u) (ht : Zero s → t = 0 ∧ u = 0) :
    Outcome op s (upd (upd (vars s) i (some ys)) j (some zs)) none (noRet m s) := by
  have hai : abs s' (.var i) = some v' := by rw [st.abs, upd_ne _ _ (by rintro ⟨⟩; exact hij rfl), upd_same]
  have haj : abs s' (.var j) = some w' := by rw [st.abs, upd_same]
  have hak : ∀ k, k ≠ .var i → k ≠ .var j → abs s' k = abs s k := fun k h1 h2 => by rw [st.abs, upd_ne _ _ h2, upd_ne _ _ h1]
  refine .of_eq (M.bind_ok hm) ⟨⟨st.wf, fun k => by rw [hak _ (by simp) (by simp)]; exact hinv.tmp k, fun k v hk => ?_⟩, st.adv, fun k hk => ?_, ?_, rfl, fun hz k v hk => ?_⟩
  · by_cases h1 : k = i
    · subst h1; rw [hai] at hk; cases hk; exact ⟨_, _, hv'⟩
    · by_cases h2 : k = j
      · subst h2; rw [haj] at hk; cases hk; exact ⟨_, _, hw'⟩
      · rw [hak _ (by simpa using h1) (by simpa using h2)] at hk; exact hinv.holds _ _ hk
  · exact hak _ (by rintro ⟨⟩; exact hk hi) (by rintro ⟨⟩; exact hk hj)
  · unfold vars; rw [st.abs, varsOf_upd, varsOf_upd]; simp [hv'.bytes, hw'.bytes]
  · obtain ⟨rfl, rfl⟩ := ht hz
    by_cases h1 : k = i
    · subst h1; rw [hai] at hk; cases hk; exact ⟨_, hv'⟩
    · by_cases h2 : k = j
      · subst h2; rw [haj] at hk; cases hk; exact ⟨_, hw'⟩
      · rw [hak _ (by simpa using h1) (by simpa using h2)] at hk; exact hz _ _ hk

omit hinv in
theorem offset_ok {s' : St} {i k : Nat} {v' : Vw} (hw : WF s') (h : abs s' (.var i) = some v') :
    offset i ⟨some v'.base, k⟩ s' = .ok (some k) s' := by
  unfold offset
  mstep (data_ok hw h)
  mstep (distance_ok (Nat.zero_le _))
  rfl

omit hinv in
theorem pos_ok (hw : WF s) {i : Nat} {v : Vw} (h : abs s (.var i) = some v) (k : Nat) : pos i k s = .ok ⟨some v.base, k⟩ s := by
  unfold pos
  mstep (data_ok hw h)
  simp [Ptr.add]

/-- the iterators the client forms denote what the specification says -/
theorem resolveAll_ok {i : Nat} {lo : Nat} (hlo : ∀ xs, vars s i = some xs → xs.length ≤ lo) {l : List Src} {bs : List UInt8}
    (h : Src.AreAll (vars s) l bs) :
    ∃ as, Src.resolveAll l s = .ok as s ∧ SeesAll (abs s) (.var i) lo as bs ∧ ∀ b, .thr b ∈ as → .thr b ∈ l := by
  induction h with
  | nil => exact ⟨[], rfl, .nil, by simp⟩
  | @cons x b l bs hx _ ih =>
    obtain ⟨as, hr, hs, ht⟩ := ih
    have : ∃ a, x.resolve s = .ok a s ∧ Sees (abs s) (.var i) lo a b ∧ ∀ b, a = .thr b → x = .thr b := by
      cases hx with
      | val => exact ⟨_, rfl, .val _, by intro b h; cases h⟩
      | thr => exact ⟨_, rfl, .thr _, by intro b h; cases h; rfl⟩
      | @elem j k ys _ hj hk =>
        obtain ⟨w, t, hw, hh⟩ := vars_some hinv hj
        refine ⟨.at ⟨some w.base, k⟩, ?_, ?_, by intro b h; cases h⟩
        · unfold Src.resolve
          mstep (data_ok hinv.wf hw)
          simp [Ptr.add]
        · have hlt : k < ys.length := (List.getElem?_eq_some_iff.1 hk).1
          refine .ptr hw ?_ ?_
          · obtain ⟨_, rest, hb⟩ := hh
            rw [hb, List.getElem?_append_left (by simpa using hlt)]
            simp [hk]
          · rintro ⟨⟩
            exact Nat.lt_of_lt_of_le hlt (hlo _ hj)
    obtain ⟨a, hra, hsa, hta⟩ := this
    refine ⟨a :: as, ?_, .cons hsa hs, ?_⟩
    · unfold Src.resolveAll
      mstep hra
      mstep hr
      rfl
    · intro b hb
      rcases List.mem_cons.1 hb with h | h
      · rw [hta b h.symm]; exact List.mem_cons_self
      · exact List.mem_cons_of_mem _ (ht b h)

theorem lo_of {i : Nat} {xs : List UInt8} (h : vars s i = some xs) : ∀ ys, vars s i = some ys → ys.length ≤ xs.length :=
  fun ys h' => by rw [h] at h'; cases h'; exact Nat.le_refl _

theorem lo_none {i : Nat} (h : vars s i = none) : ∀ ys, vars s i = some ys → ys.length ≤ 0 :=
  fun ys h' => by rw [h] at h'; cases h'

end glue

theorem pow64 : (2 ^ 64 : Nat) = szMod := rfl

theorem var_tmp {n i : Nat} : ∀ k, Id.var i = .tmp k → k < n := fun k h => by cases h

theorem upd_self2 {β : Type} (f : Nat → Option β) {i : Nat} {x : Option β} (h : f i = x) : upd f i x = f := upd_eq _ _ _ h

/-- the consuming `substr` moves the string out after shortening it -/
theorem moveOut {s s1 : St} (hinv : Inv s) {i j : Nat} {w w1 : Vw} {ys : List UInt8} (hi : abs s (.var i) = none) (hj : abs s (.var j) = some w)
    (q1 : Quiet s s1 (upd (abs s) (.var j) (some w1))) (hh : Holds w1 ys 0) (hb : w1.base = w.base) (hc : w1.cap = w.cap) :
    ∃ s' v' w', Str.ctorMove (.var i) (.var j) s1 = .ok () s' ∧
      Step s s' (upd (upd (abs s) (.var i) (some v')) (.var j) (some w')) ∧ Holds v' ys 0 ∧
      (Big s j → Holds w' [] 0) ∧ (¬ Big s j → Holds w' ys 0) ∧ v'.cap = w.cap ∧ w'.cap ≤ max 22 w.cap := by
  have hij : Id.var i ≠ .var j := by intro h; rw [h, hj] at hi; cases hi
  obtain ⟨s', v', w', hr, q, hh', hc', hm⟩ := ctorMove_ok q1.wf (this := .var i) (other := .var j) hij var_tmp (by rw [q1.ne hij, hi]) q1.at hh
  refine ⟨s', v', w', M.noexcept_ok hr, ?_, hh', fun h => ?_, fun h => ?_, hc'.trans hc, ?_⟩
  · have := q1.step.trans q.step
    rwa [q1.abs, upd_comm _ _ _ hij.symm, upd_upd] at this
  · obtain ⟨b, hbb⟩ := (big_heap hinv hj).1 ((big_iff hinv hj).1 h)
    rcases hm with ⟨_, _, _, rfl⟩ | ⟨h, _⟩
    · exact emptySso_holds _
    · rw [hb, hbb] at h; cases h
  · rcases hm with ⟨b, h', _⟩ | ⟨_, _, _, rfl⟩
    · exact absurd ((big_iff hinv hj).2 ((big_heap hinv hj).2 ⟨b, hb ▸ h'⟩)) h
    · exact hh
  · rcases hm with ⟨_, _, _, rfl⟩ | ⟨_, _, _, rfl⟩
    · exact Nat.le_max_left _ _
    · rw [hc]; exact Nat.le_max_right _ _

theorem substrMove_ok {s : St} (hinv : Inv s) {i j : Nat} {w : Vw} {pre ys : List UInt8} {u : UInt8} (hi : abs s (.var i) = none)
    (hj : abs s (.var j) = some w) (hh : Holds w (pre ++ ys) u) :
    ∃ s' v' w', Str.substrMove (.var i) (.var j) pre.length s = .ok () s' ∧
      Step s s' (upd (upd (abs s) (.var i) (some v')) (.var j) (some w')) ∧ Holds v' ys 0 ∧
      (Big s j → Holds w' [] 0) ∧ (¬ Big s j → Holds w' ys 0) ∧ v'.cap = w.cap ∧ w'.cap ≤ max 22 w.cap := by
  obtain ⟨s1, w1, hr1, q1, hh1, hb1, hc1⟩ := erase_ok hinv.wf hj hh (pre := []) (mid := pre) (post := ys) rfl
  obtain ⟨s', v', w', hr, rest⟩ := moveOut hinv hi hj q1 (by simpa using hh1) hb1 hc1
  refine ⟨s', v', w', ?_, rest⟩
  unfold Str.substrMove
  refine M.noexcept_ok ?_
  mstep (data_ok hinv.wf hj)
  simp only [Ptr.add, Nat.zero_add]
  simp only [List.length_nil, Nat.zero_add] at hr1
  mstep hr1
  exact hr

theorem substrNMove_ok {s : St} (hinv : Inv s) {i j : Nat} {w : Vw} {pre ys post : List UInt8} {u : UInt8} (hi : abs s (.var i) = none)
    (hj : abs s (.var j) = some w) (hh : Holds w (pre ++ ys ++ post) u) :
    ∃ s' v' w', Str.substrNMove (.var i) (.var j) pre.length ys.length s = .ok () s' ∧
      Step s s' (upd (upd (abs s) (.var i) (some v')) (.var j) (some w')) ∧ Holds v' ys 0 ∧
      (Big s j → Holds w' [] 0) ∧ (¬ Big s j → Holds w' ys 0) ∧ v'.cap = w.cap ∧ w'.cap ≤ max 22 w.cap := by
  obtain ⟨s1, w1, hr1, q1, hh1, hb1, hc1⟩ := erase_ok hinv.wf hj hh (pre := pre ++ ys) (mid := post) (post := []) (by simp)
  simp only [List.append_nil] at hh1
  obtain ⟨s2, w2, hr2, q2, hh2, hb2, hc2⟩ := erase_ok q1.wf q1.at hh1 (pre := []) (mid := pre) (post := ys) rfl
  obtain ⟨s', v', w', hr, rest⟩ := moveOut hinv hi hj (q1.then q2) (by simpa using hh2) (hb2.trans hb1) (hc2.trans hc1)
  refine ⟨s', v', w', ?_, rest⟩
  unfold Str.substrNMove
  refine M.noexcept_ok ?_
  mstep (data_ok hinv.wf hj)
  mstep (size_ok hinv.wf hj)
  simp only [Ptr.add, Nat.zero_add]
  rw [hh.1, show (pre ++ ys ++ post).length = (pre ++ ys).length + post.length by simp; omega, ← List.length_append]
  mstep hr1
  mstep (data_ok q1.wf q1.at)
  simp only [List.length_nil, Nat.zero_add] at hr2 ⊢
  mstep hr2
  exact hr

/-- the call goes through its cases -/
theorem step {s : St} (hinv : Inv s) {op : Op} {V' : Vars} {r : Option Nat} (hs : Spec (Big s) op (vars s) V' r) :
    Outcome op s V' r (op.run s) := by
  have hw := hinv.wf
  cases hs with
  | ctorDefault hi =>
    obtain ⟨s', hr, q⟩ := ctorDefault_ok hw (vars_none hi) var_tmp
    exact .of_step hinv hr rfl q.step (emptySso_holds _) fun _ => rfl
  | ctorInput hi ha =>
    obtain ⟨as, hr, hse, ht⟩ := resolveAll_ok hinv (lo_none hinv hi) ha
    exact .of_eq (M.bind_ok hr) (.of_makes hinv (ctorInput_run hw (vars_none hi) var_tmp hse) rfl ht)
  | ctorRange hi ha hn =>
    obtain ⟨as, hr, hse, ht⟩ := resolveAll_ok hinv (lo_none hinv hi) ha
    exact .of_eq (M.bind_ok hr) (.of_makes hinv (ctorRange_run hw (vars_none hi) var_tmp hse hn) rfl ht)
  | ctorFill hi hn => exact .of_makes hinv (ctorFill_run hw (vars_none hi) var_tmp _ hn) rfl (by simp)
  | ctorCopy hi hj =>
    obtain ⟨w, u, hwj, hh⟩ := vars_some hinv hj
    exact .of_makes hinv (ctorCopy_run hw hwj hh (vars_none hi) var_tmp) rfl (by simp)
  | @ctorMoveBig i j ys _ hi hj hb =>
    obtain ⟨w, u, hwj, hh⟩ := vars_some hinv hj
    have hij : i ≠ j := by rintro rfl; rw [hi] at hj; cases hj
    obtain ⟨s', v', w', hr, q, hh', _, hm⟩ := ctorMove_ok hw (this := .var i) (other := .var j) (by rintro ⟨⟩; exact hij rfl) var_tmp (vars_none hi) hwj hh
    obtain ⟨b, hbb⟩ := (big_heap hinv hwj).1 ((big_iff hinv hwj).1 hb)
    rcases hm with ⟨_, _, _, rfl⟩ | ⟨h, _⟩
    · exact .of_two hinv (M.noexcept_ok hr) hij (.inl rfl) (.inr rfl) q.step hh' (emptySso_holds _) fun hz => by
        obtain ⟨_, h0⟩ := hz _ _ hwj
        exact ⟨(h0.unique hh).2.symm, rfl⟩
    · rw [hbb] at h; cases h
  | @ctorMoveSmall i j ys _ hi hj hb =>
    obtain ⟨w, u, hwj, hh⟩ := vars_some hinv hj
    have hij : i ≠ j := by rintro rfl; rw [hi] at hj; cases hj
    obtain ⟨s', v', w', hr, q, hh', _, hm⟩ := ctorMove_ok hw (this := .var i) (other := .var j) (by rintro ⟨⟩; exact hij rfl) var_tmp (vars_none hi) hwj hh
    rcases hm with ⟨b, h, _⟩ | ⟨h, _, _, rfl⟩
    · exact absurd ((big_iff hinv hwj).2 ((big_heap hinv hwj).2 ⟨b, h⟩)) hb
    · have := Outcome.of_two (op := .ctorMove i j) hinv (M.noexcept_ok hr) hij (.inl rfl) (.inr rfl) q.step hh' hh fun hz => by
        obtain ⟨_, h0⟩ := hz _ _ hwj
        exact ⟨(h0.unique hh).2.symm, (h0.unique hh).2.symm⟩
      rwa [upd_self2 (upd (vars s) i (some ys)) (by rw [upd_ne _ _ hij.symm]; exact hj)] at this
  | @concat i l r as bs _ hi hl hr hn =>
    obtain ⟨al, hrl, hsl, htl⟩ := resolveAll_ok hinv (lo_none hinv hi) hl
    obtain ⟨ar, hrr, hsr, htr⟩ := resolveAll_ok hinv (lo_none hinv hi) hr
    refine .of_eq ((M.bind_ok hrl).trans (M.bind_ok hrr)) (.of_makes hinv (concat_run hw (vars_none hi) var_tmp hsl hsr hn) rfl ?_)
    intro b hb
    rcases List.mem_append.1 hb with h | h
    · exact List.mem_append_left _ (htl b h)
    · exact List.mem_append_right _ (htr b h)
  | @literal i lit _ hi hn =>
    rcases literal_run hw (vars_none hi) var_tmp hn lit.length with ⟨s', v, hr, st, hh, _⟩ | ⟨hr, s', e, hy⟩
    · exact .of_step hinv hr rfl st hh fun _ => rfl
    · refine .of_eq (M.bind_term hr) ⟨⟨i, lit, rfl⟩, (cString lit).length, .inl ⟨i, _, rfl, upd_same _ _ _, rfl⟩, ?_⟩
      cases hy with
      | length h => exact ⟨by unfold maxSize ptrdiffMax at h; unfold cString; omega, .inl (by unfold cString; omega)⟩
      | mem h k =>
        refine ⟨h, k.imp (fun k => capFor_big k h) fun ⟨k, a, _, c⟩ => ⟨k, a, c⟩⟩
      | user h k => cases h
  | substr hi hj =>
    obtain ⟨w, u, hwj, hh⟩ := vars_some hinv hj
    exact .of_makes hinv (substr_run hw hwj hh (vars_none hi) var_tmp rfl) rfl (by simp)
  | substrN hi hj =>
    obtain ⟨w, u, hwj, hh⟩ := vars_some hinv hj
    exact .of_makes hinv (substrN_run hw hwj hh (vars_none hi) var_tmp rfl) rfl (by simp)
  | @substrMoveBig i j _ _ _ hi hj hb =>
    obtain ⟨w, u, hwj, hh⟩ := vars_some hinv hj
    have hij : i ≠ j := by rintro rfl; rw [hi] at hj; cases hj
    obtain ⟨s', v', w', hr, st, h0, h1, h2, _⟩ := substrMove_ok hinv (vars_none hi) hwj hh
    exact .of_two hinv hr hij (.inl rfl) (.inr rfl) st h0 (h1 hb) fun _ => ⟨rfl, rfl⟩
  | @substrMoveSmall i j _ _ _ hi hj hb =>
    obtain ⟨w, u, hwj, hh⟩ := vars_some hinv hj
    have hij : i ≠ j := by rintro rfl; rw [hi] at hj; cases hj
    obtain ⟨s', v', w', hr, st, h0, h1, h2, _⟩ := substrMove_ok hinv (vars_none hi) hwj hh
    exact .of_two hinv hr hij (.inl rfl) (.inr rfl) st h0 (h2 hb) fun _ => ⟨rfl, rfl⟩
  | @substrNMoveBig i j _ _ _ _ hi hj hb =>
    obtain ⟨w, u, hwj, hh⟩ := vars_some hinv hj
    have hij : i ≠ j := by rintro rfl; rw [hi] at hj; cases hj
    obtain ⟨s', v', w', hr, st, h0, h1, h2, _⟩ := substrNMove_ok hinv (vars_none hi) hwj hh
    exact .of_two hinv hr hij (.inl rfl) (.inr rfl) st h0 (h1 hb) fun _ => ⟨rfl, rfl⟩
  | @substrNMoveSmall i j _ _ _ _ hi hj hb =>
    obtain ⟨w, u, hwj, hh⟩ := vars_some hinv hj
    have hij : i ≠ j := by rintro rfl; rw [hi] at hj; cases hj
    obtain ⟨s', v', w', hr, st, h0, h1, h2, _⟩ := substrNMove_ok hinv (vars_none hi) hwj hh
    exact .of_two hinv hr hij (.inl rfl) (.inr rfl) st h0 (h2 hb) fun _ => ⟨rfl, rfl⟩
  | @dtor i xs _ hi =>
    obtain ⟨v, t, hv, hh⟩ := vars_some hinv hi
    obtain ⟨s', hr, q⟩ := dtor_ok hw hv
    refine .of_eq (M.bind_ok hr) ⟨Inv.one hinv q.step (by simp), q.step.adv, frame_one q.step rfl, by rw [vars_one q.step]; rfl, rfl,
      fun hz => hz.one q.step (by simp)⟩
  | @assignCopy i j xs ys _ hi hj =>
    obtain ⟨v, t, hv, hh⟩ := vars_some hinv hi
    obtain ⟨w, u, hwj, hy⟩ := vars_some hinv hj
    by_cases hij : i = j
    · subst hij
      rw [hi] at hj; cases hj
      have : Str.assignCopy (.var i) (.var i) s = .ok () s := by simp [Str.assignCopy]
      exact .of_step hinv this rfl (by rw [upd_eq _ _ _ hv]; exact Step.refl hw) hh fun hz => by
        obtain ⟨_, h0⟩ := hz _ _ hv
        exact (h0.unique hh).2.symm
    · exact .of_runsS hinv (assignCopy_run hw hwj hy hv hh (by rintro ⟨⟩; exact hij rfl)) rfl (fun _ _ _ _ => rfl) (by simp)
  | @assignMoveBig i j xs ys _ hi hj hij hb =>
    obtain ⟨v, t, hv, hx⟩ := vars_some hinv hi
    obtain ⟨w, u, hwj, hh⟩ := vars_some hinv hj
    obtain ⟨s', v', w', hr, q, hh', _, hm⟩ := moveAssign_ok hw (this := .var i) (other := .var j) (by rintro ⟨⟩; exact hij rfl) hv hwj hh
    obtain ⟨b, hbb⟩ := (big_heap hinv hwj).1 ((big_iff hinv hwj).1 hb)
    rcases hm with ⟨_, _, _, rfl⟩ | ⟨h, _⟩
    · exact .of_two hinv (M.noexcept_ok hr) hij (.inl rfl) (.inr rfl) q.step hh' (emptySso_holds _) fun hz => by
        obtain ⟨_, h0⟩ := hz _ _ hwj
        exact ⟨(h0.unique hh).2.symm, rfl⟩
    · rw [hbb] at h; cases h
  | @assignMoveSmall i j xs ys _ hi hj hij hb =>
    obtain ⟨v, t, hv, hx⟩ := vars_some hinv hi
    obtain ⟨w, u, hwj, hh⟩ := vars_some hinv hj
    obtain ⟨s', v', w', hr, q, hh', _, hm⟩ := moveAssign_ok hw (this := .var i) (other := .var j) (by rintro ⟨⟩; exact hij rfl) hv hwj hh
    rcases hm with ⟨b, h, _⟩ | ⟨h, _, _, rfl⟩
    · exact absurd ((big_iff hinv hwj).2 ((big_heap hinv hwj).2 ⟨b, h⟩)) hb
    · have := Outcome.of_two (op := .assignMove i j) hinv (M.noexcept_ok hr) hij (.inl rfl) (.inr rfl) q.step hh' hh fun hz => by
        obtain ⟨_, h0⟩ := hz _ _ hwj
        exact ⟨(h0.unique hh).2.symm, (h0.unique hh).2.symm⟩
      rwa [upd_self2 (upd (vars s) i (some ys)) (by rw [upd_ne _ _ hij.symm]; exact hj)] at this
  | @assignMoveSelf i xs _ hi =>
    obtain ⟨v, t, hv, hh⟩ := vars_some hinv hi
    have : Str.assignMove (.var i) (.var i) s = .ok () s := by simp [Str.assignMove, Storage.moveAssign, M.noexcept]
    have := Outcome.of_step (op := .assignMove i i) hinv this (.inl rfl) (by rw [upd_eq _ _ _ hv]; exact Step.refl hw) hh fun hz => by
        obtain ⟨_, h0⟩ := hz _ _ hv
        exact (h0.unique hh).2.symm
    rwa [upd_self2 _ hi] at this
  | assignInput hi ha =>
    obtain ⟨v, t, hv, hh⟩ := vars_some hinv hi
    obtain ⟨as, hr, hse, ht⟩ := resolveAll_ok hinv (lo_of hinv hi) ha
    exact .of_eq (M.bind_ok hr) (.of_runsS hinv (assignInput_run hw hv hse) rfl (fun _ _ _ _ => rfl) ht)
  | assignRange hi ha hn =>
    obtain ⟨v, t, hv, hh⟩ := vars_some hinv hi
    obtain ⟨as, hr, hse, ht⟩ := resolveAll_ok hinv (lo_of hinv hi) ha
    exact .of_eq (M.bind_ok hr) (.of_runs hinv hv hh (assignRange_run hw hv hh hse (fun _ => Nat.le_refl _) (by rw [← pow64]; omega) (by rw [← pow64]; omega)) rfl .assign (fun _ _ _ _ => rfl) ht)
  | assignIlist hi =>
    obtain ⟨v, t, hv, hh⟩ := vars_some hinv hi
    exact .of_runsS hinv (assignIlist_run hw hv hh _) rfl (fun _ _ _ _ => rfl) (by simp)
  | assignFill hi =>
    obtain ⟨v, t, hv, hh⟩ := vars_some hinv hi
    exact .of_runsS hinv (assignFill_run hw hv hh _ _) rfl (fun _ _ _ _ => rfl) (by simp)
  | appendInput hi ha hn =>
    obtain ⟨v, t, hv, hh⟩ := vars_some hinv hi
    obtain ⟨as, hr, hse, ht⟩ := resolveAll_ok hinv (lo_of hinv hi) ha
    exact .of_eq (M.bind_ok hr) (.of_runsS hinv (appendInput_run hw hv hh hse hn) rfl (fun _ _ _ _ => rfl) ht)
  | appendRange hi ha hn =>
    obtain ⟨v, t, hv, hh⟩ := vars_some hinv hi
    obtain ⟨as, hr, hse, ht⟩ := resolveAll_ok hinv (lo_of hinv hi) ha
    exact .of_eq (M.bind_ok hr) (.of_runs hinv hv hh (appendRange_run hw hv hh hse (fun _ => Nat.le_refl _) hn) rfl .append (fun _ _ _ _ => rfl) ht)
  | appendIlist hi hn =>
    obtain ⟨v, t, hv, hh⟩ := vars_some hinv hi
    exact .of_runsS hinv (appendIlist_run hw hv hh hn) rfl (fun _ _ _ _ => rfl) (by simp)
  | appendFill hi hn =>
    obtain ⟨v, t, hv, hh⟩ := vars_some hinv hi
    exact .of_runsS hinv (appendFill_run hw hv hh _ hn) rfl (fun _ _ _ _ => rfl) (by simp)
  | insertInput hi ha hn =>
    obtain ⟨v, t, hv, hh⟩ := vars_some hinv hi
    obtain ⟨as, hr, hse, ht⟩ := resolveAll_ok hinv (lo_of hinv hi) ha
    exact .of_eq ((M.bind_ok hr).trans (M.bind_ok (pos_ok hw hv _)))
      (.of_runsS hinv (insertInput_run hw hv hh rfl hse hn) rfl (fun _ _ hw' h => offset_ok hw' h) ht)
  | insertRange hi ha hn =>
    obtain ⟨v, t, hv, hh⟩ := vars_some hinv hi
    obtain ⟨as, hr, hse, ht⟩ := resolveAll_ok hinv (lo_of hinv hi) ha
    exact .of_eq ((M.bind_ok hr).trans (M.bind_ok (pos_ok hw hv _)))
      (.of_runs hinv hv hh (insertRange_run hw hv hh hse (fun _ => Nat.le_refl _) (by rw [← pow64]; simp at hn; omega)) rfl .insert (fun _ _ hw' h => offset_ok hw' h) ht)
  | insertIlist hi hn =>
    obtain ⟨v, t, hv, hh⟩ := vars_some hinv hi
    exact .of_eq (M.bind_ok (pos_ok hw hv _))
      (.of_runsS hinv (insertIlist_run hw hv hh rfl hn) rfl (fun _ _ hw' h => offset_ok hw' h) (by simp))
  | insertFill hi hn =>
    obtain ⟨v, t, hv, hh⟩ := vars_some hinv hi
    exact .of_eq (M.bind_ok (pos_ok hw hv _))
      (.of_runsS hinv (insertFill_run hw hv hh _ rfl hn) rfl (fun _ _ hw' h => offset_ok hw' h) (by simp))
  | replaceInput hi ha hn =>
    obtain ⟨v, t, hv, hh⟩ := vars_some hinv hi
    obtain ⟨as, hr, hse, ht⟩ := resolveAll_ok hinv (lo_of hinv hi) ha
    exact .of_eq ((M.bind_ok hr).trans ((M.bind_ok (pos_ok hw hv _)).trans (M.bind_ok (pos_ok hw hv _))))
      (.of_runsS hinv (replaceInput_run hw hv hh rfl hse (Nat.lt_of_lt_of_le hn (Nat.le_add_right _ _))) rfl (fun _ _ _ _ => rfl) ht)
  | replaceRange hi ha hn =>
    obtain ⟨v, t, hv, hh⟩ := vars_some hinv hi
    obtain ⟨as, hr, hse, ht⟩ := resolveAll_ok hinv (lo_of hinv hi) ha
    exact .of_eq ((M.bind_ok hr).trans ((M.bind_ok (pos_ok hw hv _)).trans (M.bind_ok (pos_ok hw hv _))))
      (.of_runs hinv hv hh (replaceRange_run hw hv hh hse (fun _ => Nat.le_refl _) (by rw [← pow64]; simp at hn; omega)) rfl .replace (fun _ _ _ _ => rfl) ht)
  | replaceIlist hi hn =>
    obtain ⟨v, t, hv, hh⟩ := vars_some hinv hi
    exact .of_eq ((M.bind_ok (pos_ok hw hv _)).trans (M.bind_ok (pos_ok hw hv _)))
      (.of_runsS hinv (replaceIlist_run hw hv hh rfl (by rw [← pow64]; simp at hn ⊢; omega)) rfl (fun _ _ _ _ => rfl) (by simp))
  | replaceFill hi hn =>
    obtain ⟨v, t, hv, hh⟩ := vars_some hinv hi
    exact .of_eq ((M.bind_ok (pos_ok hw hv _)).trans (M.bind_ok (pos_ok hw hv _)))
      (.of_runsS hinv (replaceFill_run hw hv hh _ rfl (by rw [← pow64]; simp at hn ⊢; omega)) rfl (fun _ _ _ _ => rfl) (by simp))
  | @swap i j xs ys _ hi hj =>
    obtain ⟨v, t, hv, hx⟩ := vars_some hinv hi
    obtain ⟨w, u, hwj, hy⟩ := vars_some hinv hj
    by_cases hij : i = j
    · subst hij
      rw [hi] at hj; cases hj
      have := Outcome.of_step (op := .swap i i) hinv (swap_self hw (i := .var i)) (.inl rfl) (by rw [upd_eq _ _ _ hv]; exact Step.refl hw) hx fun hz => by
        obtain ⟨_, h0⟩ := hz _ _ hv
        exact (h0.unique hx).2.symm
      rw [upd_upd]; exact this
    · obtain ⟨s', v', w', hr, q, h1, h2, _⟩ := swap_ok hw (i := .var i) (j := .var j) (by rintro ⟨⟩; exact hij rfl) hv hwj hx hy
      exact .of_two hinv hr hij (.inl rfl) (.inr rfl) q.step h1 h2 fun hz => by
        obtain ⟨_, h0⟩ := hz _ _ hv
        obtain ⟨_, h0'⟩ := hz _ _ hwj
        exact ⟨(h0'.unique hy).2.symm, (h0.unique hx).2.symm⟩
  | @pushBack i ch xs _ hi =>
    obtain ⟨v, t, hv, hh⟩ := vars_some hinv hi
    rcases pushBack_run hw hv hh ch with ⟨s', v', hr, st, hh', _⟩ | ⟨s', e, hr, st, hy, _⟩
    · exact .of_eq ((M.bind_ok hr).trans (offset_ok st.wf st.at)) (.of_ok1 hinv rfl st hh' fun _ => rfl)
    · exact .of_eq (M.bind_exc hr) (.of_exc hinv st (hy.reason (.inl ⟨i, _, rfl, upd_same _ _ _, by simp⟩) (by simp)))
  | popBack hi =>
    obtain ⟨v, t, hv, hh⟩ := vars_some hinv hi
    obtain ⟨s', v', hr, q, hh', _⟩ := popBack_ok hw hv hh rfl
    exact .of_step hinv hr rfl q.step hh' fun _ => rfl
  | @clear i xs _ hi =>
    obtain ⟨v, t, hv, hh⟩ := vars_some hinv hi
    obtain ⟨s', v', hr, q, hh', _⟩ := clear_any hw hv hh
    exact .of_step hinv hr rfl q.step hh' fun hz => by
      obtain ⟨_, h0⟩ := hz _ _ hv
      rw [← (h0.unique hh).2]; simp
  | @reserve i n xs _ hi =>
    obtain ⟨v, t, hv, hh⟩ := vars_some hinv hi
    rcases reserve_run hw hv hh n with ⟨s', v', t', hr, st, hh', ht, _⟩ | ⟨s', e, hr, st, hy, _⟩
    · have := Outcome.of_step (op := .reserve i n) hinv hr rfl st hh' fun hz => by
        obtain ⟨_, h0⟩ := hz _ _ hv
        exact ht (h0.unique hh).2.symm
      rwa [upd_self2 _ hi] at this
    · exact .of_eq (M.bind_exc hr) (.of_exc hinv st (hy.reason (.inr ⟨i, rfl⟩) (by simp)))
  | @shrinkToFit i xs _ hi =>
    obtain ⟨v, t, hv, hh⟩ := vars_some hinv hi
    obtain ⟨s', v', hr, q, hh', _⟩ := shrinkToFit_ok hw hv hh
    have := Outcome.of_step (op := .shrinkToFit i) hinv hr rfl q.step hh' fun hz => by
        obtain ⟨_, h0⟩ := hz _ _ hv
        exact (h0.unique hh).2.symm
    rwa [upd_self2 _ hi] at this
  | @resizeShrink i xs ys ch _ hi =>
    obtain ⟨v, t, hv, hh⟩ := vars_some hinv hi
    have hc : xs.length ≤ v.cap := by have := hh.len (hw.gd hv); simp at this; omega
    rcases resize_run hw hv hh xs.length ch with ⟨s', v', hr, st, hh', _⟩ | ⟨s', e, hr, st, hy, h⟩
    · refine .of_step hinv hr rfl st ?_ fun _ => rfl
      simpa using hh'
    · omega
  | @resizeGrow i xs n ch _ hi =>
    obtain ⟨v, t, hv, hh⟩ := vars_some hinv hi
    rcases resize_run hw hv hh (xs.length + n) ch with ⟨s', v', hr, st, hh', _⟩ | ⟨s', e, hr, st, hy, h⟩
    · refine .of_step hinv hr rfl st ?_ fun _ => rfl
      rw [List.take_of_length_le (by omega), Nat.add_sub_cancel_left] at hh'
      exact hh'
    · exact .of_eq (M.bind_exc hr) (.of_exc hinv st (hy.reason (.inl ⟨i, _, rfl, upd_same _ _ _, by simp⟩) (by simp)))
  | erase hi =>
    obtain ⟨v, t, hv, hh⟩ := vars_some hinv hi
    obtain ⟨s', v', hr, q, hh', hb, _⟩ := erase_ok hw hv hh rfl
    refine .of_eq ((M.bind_ok (pos_ok hw hv _)).trans ((M.bind_ok (pos_ok hw hv _)).trans ((M.bind_ok hr).trans ?_)))
      (.of_ok1 hinv rfl q.step hh' fun _ => rfl)
    rw [← hb]
    exact offset_ok q.wf q.at
  | eraseOne hi =>
    obtain ⟨v, t, hv, hh⟩ := vars_some hinv hi
    obtain ⟨s', v', hr, q, hh', hb, _⟩ := erase_ok hw hv hh rfl
    refine .of_eq ((M.bind_ok (pos_ok hw hv _)).trans ((M.bind_ok (by exact hr)).trans ?_))
      (.of_ok1 hinv rfl q.step hh' fun _ => rfl)
    rw [← hb]
    exact offset_ok q.wf q.at
  | @write i k ch xs _ hi hk =>
    obtain ⟨v, t, hv, hh⟩ := vars_some hinv hi
    obtain ⟨hsz, rest, hb⟩ := hh
    have hb' : v.buf = (xs.take k).map some ++ [some xs[k]] ++ ((xs.drop (k + 1)).map some ++ some t :: rest) := by
      rw [hb]
      have : xs = xs.take k ++ xs[k] :: xs.drop (k + 1) := by rw [← List.drop_eq_getElem_cons hk, List.take_append_drop]
      have h2 := congrArg (List.map some) this
      rw [List.map_append, List.map_cons] at h2
      rw [h2]
      simp
    obtain ⟨s', hr, q⟩ := writeN_ok hw hv (bs := [ch]) (off := k) hb' (by simp; omega) rfl
    refine .of_eq (M.bind_ok (a := ⟨some v.base, k⟩) (s' := s) ?_) (.of_step (op := .write i k ch) (i := i) hinv (m := writeAt ⟨some v.base, k⟩ ch) hr rfl q.step (ys := xs.set k ch) (t := t) ⟨by simpa using hsz, rest, ?_⟩ fun hz => ?_)
    · unfold index
      mstep (data_ok hw hv)
      simp [Ptr.add]
    · rw [List.set_eq_take_append_cons_drop, if_pos hk]
      simp
    · obtain ⟨_, h0⟩ := hz _ _ hv
      exact (h0.unique ⟨hsz, rest, hb⟩).2.symm

end Ptl.Str

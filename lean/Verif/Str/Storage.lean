import Verif.Str.Abs

/-! # Effect of the `storage_t` members on the observable state -/

namespace Ptl.Str

/-- capacity obtained for a request that does not wrap around -/
def capFor (n : Nat) : Nat := max 2 ((n + 23) / 24) * 24
/-- capacity of a new storage for `n` bytes -/
def fit (n : Nat) : Nat := if n ≤ 22 then 22 else capFor n
theorem fit_big {n : Nat} (h : 22 < n) : fit n = capFor n := if_neg (by omega)

theorem heapCap_eq {n : Nat} (h : n + 23 < szMod) : heapCap n = capFor n := by
  unfold heapCap capFor
  have h1 : szSub (szAdd n ssoBytes) 1 = n + 23 := by
    unfold szSub szAdd ssoBytes
    unfold szMod at *
    omega
  rw [h1]
  unfold ssoBytes
  rw [szMul_eq]
  unfold szMod at *
  omega

theorem capFor_ge (n : Nat) : n ≤ capFor n := by unfold capFor; omega
theorem capFor_48 (n : Nat) : 48 ≤ capFor n := by unfold capFor; omega
theorem capFor_dvd (n : Nat) : 24 ∣ capFor n := by unfold capFor; exact Nat.dvd_mul_left _ _
theorem capFor_lt {n : Nat} (h : n + 23 < szMod) : capFor n + 1 < szMod := by
  unfold capFor; unfold szMod at *; omega

/-- the empty small-buffer string -/
def emptySso (i : Id) : Vw := ⟨.sso i, 22, 0, some 0 :: List.replicate 22 none⟩

theorem emptySso_holds (i : Id) : Holds (emptySso i) [] 0 := ⟨rfl, List.replicate 22 none, rfl⟩

theorem mem_none_of_dead {s : St} (hw : WF s) {i : Id} (h : abs s i = none) : s.mem (.sso i) = none := by
  cases hx : s.mem (.sso i) with
  | none => rfl
  | some l =>
    obtain ⟨k, o, ho, hb⟩ := hw.owned _ _ hx
    unfold Obj.base at hb
    split at hb
    · cases hb
      rw [abs_none.1 h] at ho; cases ho
    · cases hb

theorem mem_none_of_heap {s : St} (hw : WF s) {i : Id} {d : Option Nat} {b c n : Nat}
    (h : s.obj i = some ⟨d, .heap b c n⟩) : s.mem (.sso i) = none := by
  cases hx : s.mem (.sso i) with
  | none => rfl
  | some l =>
    obtain ⟨k, o, ho, hb⟩ := hw.owned _ _ hx
    unfold Obj.base at hb
    split at hb
    · cases hb
      next hu => rw [h] at ho; cases ho; cases hu
    · cases hb

/-! ### equations of the object primitives -/

section eqs
variable {s : St} {i : Id} {o : Obj}

theorem getObj_ok (h : s.obj i = some o) : getObj i s = .ok o s := by simp [getObj, h]
theorem nextBlk_ok (s : St) : nextBlk s = .ok s.nblk s := rfl
theorem setDealloc_ok (h : s.obj i = some o) (d : Option Nat) :
    setDealloc i d s = .ok () { s with obj := upd s.obj i (some { o with dealloc := d }) } := by
  simp [setDealloc, M.bind_run, getObj, h, setObj]
theorem setHeap_ok (h : s.obj i = some o) (p c n : Nat) :
    setHeap i p c n s = .ok () { s with obj := upd s.obj i (some { o with u := .heap p c n }), mem := upd s.mem (.sso i) none } := by simp [setHeap, h]
theorem setSsoSiz_sso {m : Nat} (h : s.obj i = some o) (hu : o.u = .sso m) (n : Nat) :
    setSsoSiz i n s = .ok () { s with obj := upd s.obj i (some { o with u := .sso n }) } := by
  simp [setSsoSiz, h, hu]
theorem setSsoSiz_heap {b c m : Nat} (h : s.obj i = some o) (hu : o.u = .heap b c m) (n : Nat) :
    setSsoSiz i n s = .ok () { s with obj := upd s.obj i (some { o with u := .sso n }), mem := upd s.mem (.sso i) (some (List.replicate 23 none)) } := by
  simp [setSsoSiz, h, hu, ssoSize]
theorem heapOf_ok {b c m : Nat} (h : s.obj i = some o) (hu : o.u = .heap b c m) :
    heapOf i s = .ok (b, c, m) s := by simp [heapOf, M.bind_run, getObj, h, hu]
theorem ssoSiz_ok {m : Nat} (h : s.obj i = some o) (hu : o.u = .sso m) :
    ssoSiz i s = .ok m s := by simp [ssoSiz, M.bind_run, getObj, h, hu]
theorem newObj_ok (h : s.obj i = none) :
    newObj i s = .ok () { s with obj := upd s.obj i (some ⟨none, .sso 0⟩), mem := upd s.mem (.sso i) (some (List.replicate 23 none)) } := by
  simp [newObj, h, ssoSize]
theorem killObj_ok (h : s.obj i = some o) :
    killObj i s = .ok () { s with obj := upd s.obj i none, mem := upd s.mem (.sso i) none } := by simp [killObj, h]
theorem release_sso {u : U} (h : s.obj i = some ⟨none, u⟩) : Storage.release i s = .ok () s := by
  simp [Storage.release, M.bind_run, getObj, h]
theorem release_heap {b c n : Nat} {l : List (Option UInt8)} (h : s.obj i = some ⟨some b, .heap b c n⟩)
    (hm : s.mem (.heap b) = some l) :
    Storage.release i s = .ok () { s with mem := upd s.mem (.heap b) none } := by
  simp [Storage.release, M.bind_run, getObj, h, heapOf, deleteChar, hm]
/-- a write at the start of a region -/
theorem writeAt_head {p : Base} {x : Option UInt8} {l : List (Option UInt8)} (hm : s.mem p = some (x :: l)) (b : UInt8) :
    writeAt ⟨some p, 0⟩ b s = .ok () { s with mem := upd s.mem p (some (some b :: l)) } := by
  simp [writeAt, writeN, hm]
theorem clearToSso_sso {n : Nat} {x : Option UInt8} {l : List (Option UInt8)} (h : s.obj i = some o)
    (hu : o.u = .sso n) (hm : s.mem (.sso i) = some (x :: l)) :
    clearToSso i s = .ok () { s with obj := upd s.obj i (some ⟨none, .sso 0⟩), mem := upd s.mem (.sso i) (some (some 0 :: l)) } := by
  unfold clearToSso
  mstep (setDealloc_ok h _)
  mstep (setSsoSiz_sso (o := { o with dealloc := none }) (by exact upd_same _ _ _) hu _)
  refine (writeAt_head (p := .sso i) (by exact hm) _).trans ?_
  simp
theorem clearToSso_heap {b c n : Nat} (h : s.obj i = some o) (hu : o.u = .heap b c n) :
    clearToSso i s = .ok () { s with obj := upd s.obj i (some ⟨none, .sso 0⟩), mem := upd s.mem (.sso i) (some (some 0 :: List.replicate 22 none)) } := by
  unfold clearToSso
  mstep (setDealloc_ok h _)
  mstep (setSsoSiz_heap (o := { o with dealloc := none }) (by exact upd_same _ _ _) hu _)
  refine (writeAt_head (p := .sso i) (by exact upd_same _ _ _) _).trans ?_
  simp
end eqs

/-! ### construction and destruction -/

section ctors
variable {s : St} (hw : WF s) {i : Id}
include hw

theorem new_sso (h : abs s i = none) (hi : ∀ k, i = .tmp k → k < s.ntmp) (n : Nat) (l : List (Option UInt8))
    (hl : l.length = 23) (hn : n ≤ 22) :
    Quiet s { s with obj := upd s.obj i (some ⟨none, .sso n⟩), mem := upd s.mem (.sso i) (some l) }
      (upd (abs s) i (some ⟨.sso i, 22, n, l⟩)) := by
  have ho := abs_none.1 h
  have key := rebuild1 (s := s) (s' := { s with obj := upd s.obj i (some ⟨none, .sso n⟩), mem := upd s.mem (.sso i) (some l) })
    hw i (some ⟨none, .sso n⟩) (some ⟨.sso i, 22, n, l⟩) rfl (by simp [abs, Obj.base, Obj.cap, Obj.siz])
    ?_ ?_ ?_ ?_ (by simp) (by simp) (fun k hk _ => hi k hk)
  · exact ⟨key.1, key.2, rfl, rfl, rfl, rfl, rfl⟩
  · intro o e; cases e
    exact ⟨by simp, l, upd_same _ _ _, .inl ⟨rfl, rfl⟩, hl, hn⟩
  · intro p _ hp
    exact upd_ne _ _ (hp _ rfl)
  · intro o e; rw [ho] at e; cases e
  · intro o b e hb; cases e; cases hb

theorem new_heap (h : abs s i = none) (hi : ∀ k, i = .tmp k → k < s.ntmp) (c : Nat) (l : List (Option UInt8))
    (hl : l.length = c + 1) (h48 : 48 ≤ c) (hd : 24 ∣ c) (hc : c < ptrdiffMax) :
    Step s { s with obj := upd s.obj i (some ⟨some s.nblk, .heap s.nblk c 0⟩), mem := upd s.mem (.heap s.nblk) (some l), nblk := s.nblk + 1, tick := s.tick + 1 }
      (upd (abs s) i (some ⟨.heap s.nblk, c, 0, l⟩)) := by
  have ho := abs_none.1 h
  have key := rebuild1 (s := s) (s' := { s with obj := upd s.obj i (some ⟨some s.nblk, .heap s.nblk c 0⟩), mem := upd s.mem (.heap s.nblk) (some l), nblk := s.nblk + 1, tick := s.tick + 1 })
    hw i (some ⟨some s.nblk, .heap s.nblk c 0⟩) (some ⟨.heap s.nblk, c, 0, l⟩) rfl (by simp [abs, Obj.base, Obj.cap, Obj.siz])
    ?_ ?_ ?_ ?_ (by simp) (by simp) (fun k hk _ => hi k hk)
  · exact ⟨key.1, key.2, rfl, by simp, by simp, by simp⟩
  · intro o e; cases e
    exact ⟨by simp, l, upd_same _ _ _, .inr ⟨_, rfl, h48, hd, hc⟩, hl, Nat.zero_le _⟩
  · intro p _ hp
    exact upd_ne _ _ (hp _ rfl)
  · intro o e; rw [ho] at e; cases e
  · intro o b e hb; cases e; cases hb
    exact .inr ⟨Nat.le_refl _, Nat.lt_succ_self _⟩

theorem ctor_ok (h : abs s i = none) (hi : ∀ k, i = .tmp k → k < s.ntmp) :
    ∃ s', Storage.ctor i s = .ok () s' ∧ Quiet s s' (upd (abs s) i (some (emptySso i))) := by
  refine ⟨_, ?_, new_sso hw h hi 0 (some 0 :: List.replicate 22 none) (by simp) (by omega)⟩
  unfold Storage.ctor
  mstep (newObj_ok (abs_none.1 h))
  refine (clearToSso_sso (l := List.replicate 22 none) (upd_same _ _ _) rfl (by exact upd_same _ _ _)).trans ?_
  simp

/-- a new storage: `w` is what it looks like -/
structure Fresh (s s' : St) (i : Id) (n : Nat) (w : Vw) : Prop where
  step : Step s s' (upd (abs s) i (some w))
  cap : n ≤ w.cap
  siz : w.siz = 0
  buf : w.buf = some 0 :: List.replicate w.cap none
  small : n ≤ 22 → w.base = .sso i ∧ w.cap = 22 ∧ s'.nblk = s.nblk ∧ s'.tick = s.tick
  big : 22 < n → w.base = .heap s.nblk ∧ w.cap = capFor n
  moves : s'.moves = s.moves

omit hw in
theorem Fresh.fit {s s' : St} {i : Id} {n : Nat} {w : Vw} (h : Fresh s s' i n w) : w.cap = Str.fit n := by
  unfold Str.fit
  split
  · exact (h.small ‹_›).2.1
  · exact (h.big (by omega)).2

/-- `bad_alloc` because the request is too large, or because the oracle says so -/
structure NoMem (s s' : St) (n : Nat) : Prop where
  obj : s'.obj = s.obj
  mem : s'.mem = s.mem
  orc : s'.orc = s.orc
  nblk : s'.nblk = s.nblk
  tick : s.tick ≤ s'.tick
  moves : s'.moves = s.moves
  big : 22 < n
  why : (ptrdiffMax ≤ capFor n) ∨ (∃ k, s.tick ≤ k ∧ k < s'.tick ∧ s.orc k = true)

theorem ctorCap_run (h : abs s i = none) (hi : ∀ k, i = .tmp k → k < s.ntmp) {n : Nat} (hn : n + 23 < szMod) :
    (∃ s' w, Storage.ctorCap i n s = .ok () s' ∧ Fresh s s' i n w ∧ s'.ntmp = s.ntmp) ∨
    (∃ s', Storage.ctorCap i n s = .exc .badAlloc s' ∧ NoMem s s' n ∧ s'.ntmp = s.ntmp) := by
  by_cases hs : n > ssoSize
  · have hs' : 22 < n := hs
    have ho := abs_none.1 h
    have hm0 := mem_none_of_dead hw h
    have hcap := heapCap_eq hn
    have hadd : szAdd (capFor n) 1 = capFor n + 1 := szAdd_eq (capFor_lt hn)
    -- state in which new[] runs
    let s1 : St := { s with obj := upd s.obj i (some ⟨some s.nblk, .sso 0⟩), mem := upd s.mem (.sso i) (some (List.replicate 23 none)) }
    have e0 : Storage.ctorCap i n s = M.onExc (do
        let p ← newChar (capFor n + 1)
        setHeap i p (capFor n) 0
        writeAt (heapPtr p) 0) (killObj i) s1 := by
      unfold Storage.ctorCap
      mstep (newObj_ok ho)
      rw [if_pos hs]
      unfold M.onExc
      rw [M.bind_ok (nextBlk_ok _), M.bind_ok (setDealloc_ok (upd_same _ _ _) _)]
      simp only [hcap, hadd, upd_upd]
      rfl
    have hkill : ∀ t, killObj i { s1 with tick := t } = .ok () { s with tick := t } := by
      intro t
      refine (killObj_ok (o := ⟨some s.nblk, .sso 0⟩) (upd_same _ _ _)).trans ?_
      congr 1
      show St.mk _ _ _ _ _ _ _ = _
      simp only [s1, upd_upd]
      rw [upd_eq _ _ _ ho, upd_eq _ _ _ hm0]
    by_cases hbig : capFor n + 1 > ptrdiffMax
    · right
      refine ⟨s, ?_, ⟨rfl, rfl, rfl, rfl, Nat.le_refl _, rfl, hs', .inl (by omega)⟩, rfl⟩
      rw [e0]
      refine M.onExc_exc (s' := { s1 with tick := s.tick }) ?_ (hkill s.tick)
      exact M.bind_exc (by simp [newChar, hbig]; rfl)
    · cases hor : s.orc s.tick with
      | true =>
        right
        refine ⟨{ s with tick := s.tick + 1 }, ?_, ⟨rfl, rfl, rfl, rfl, Nat.le_succ _, rfl, hs',
          .inr ⟨s.tick, Nat.le_refl _, Nat.lt_succ_self _, hor⟩⟩, rfl⟩
        rw [e0]
        refine M.onExc_exc (s' := { s1 with tick := s.tick + 1 }) ?_ (hkill _)
        exact M.bind_exc (by simp [newChar, hbig, s1, hor])
      | false =>
        left
        have st := new_heap hw h hi (capFor n) (some 0 :: List.replicate (capFor n) none) (by simp) (capFor_48 n)
          (capFor_dvd n) (by omega)
        refine ⟨_, ⟨.heap s.nblk, capFor n, 0, some 0 :: List.replicate (capFor n) none⟩, ?_,
          ⟨st, capFor_ge n, rfl, rfl, fun hx => by omega, fun _ => ⟨rfl, rfl⟩, rfl⟩, rfl⟩
        rw [e0]
        refine M.onExc_ok ?_
        let s2 : St := { s1 with mem := upd s1.mem (.heap s.nblk) (some (List.replicate (capFor n + 1) none)), nblk := s.nblk + 1, tick := s.tick + 1 }
        refine Eq.trans (M.bind_ok (a := s.nblk) (s' := s2) (by simp [newChar, hbig, s1, hor, s2])) ?_
        mstep (setHeap_ok (o := ⟨some s.nblk, .sso 0⟩) (by exact upd_same _ _ _) _ _ _)
        have hm : (upd s2.mem (.sso i) none) (.heap s.nblk) = some (none :: List.replicate (capFor n) none) := by
          rw [upd_ne _ _ (by simp)]
          simp [s2, List.replicate_succ]
        refine (writeAt_head (p := .heap s.nblk) (by exact hm) 0).trans ?_
        congr 1
        show St.mk _ _ _ _ _ _ _ = St.mk _ _ _ _ _ _ _
        simp only [s2, s1, upd_upd]
        congr 1
        funext p
        simp only [upd]
        split
        · rfl
        · split
          · next hp => subst hp; exact hm0.symm
          · rfl
  · left
    obtain ⟨s', hr, q⟩ := ctor_ok hw h hi
    refine ⟨s', emptySso i, ?_, ⟨q.step, by simp [emptySso, ssoSize] at *; omega, rfl, rfl, fun _ => ⟨rfl, rfl, q.nblk, q.tick⟩,
      fun hx => absurd hx hs, q.moves⟩, q.ntmp⟩
    unfold Storage.ctorCap
    unfold Storage.ctor at hr
    mstep (newObj_ok (abs_none.1 h))
    rw [if_neg hs]
    rw [M.bind_ok (newObj_ok (abs_none.1 h))] at hr
    exact hr

omit hw in
theorem NoMem.abs {s s' : St} {n : Nat} (hn : NoMem s s' n) : abs s' = abs s := by
  funext i; unfold Str.abs; rw [hn.obj, hn.mem]

theorem dtor_ok {v : Vw} (h : abs s i = some v) :
    ∃ s', Storage.dtor i s = .ok () s' ∧ Quiet s s' (upd (abs s) i none) := by
  rcases hw.cases h with ⟨o1, hb, hc, hm, hg⟩ | ⟨b, o1, hb, hm, hg, hlt⟩
  · refine ⟨{ s with obj := upd s.obj i none, mem := upd s.mem (.sso i) none }, ?_, ?_⟩
    · unfold Storage.dtor
      mstep (release_sso o1)
      exact killObj_ok o1
    · have key := rebuild1 (s := s) (s' := { s with obj := upd s.obj i none, mem := upd s.mem (.sso i) none })
        hw i none none rfl (by simp [abs]) (by simp) ?_ ?_ (by simp) (by simp) (by simp) (by simp)
      · exact ⟨key.1, key.2, rfl, rfl, rfl, rfl, rfl⟩
      · intro p hp _
        exact upd_ne _ _ (hp _ o1)
      · intro o e _
        rw [o1] at e; cases e; exact upd_same _ _ _
  · have hn := mem_none_of_heap hw o1
    refine ⟨{ s with obj := upd s.obj i none, mem := upd (upd s.mem (.heap b) none) (.sso i) none }, ?_, ?_⟩
    · unfold Storage.dtor
      mstep (release_heap o1 hm)
      exact killObj_ok (by exact o1)
    · have key := rebuild1 (s := s) (s' := { s with obj := upd s.obj i none, mem := upd (upd s.mem (.heap b) none) (.sso i) none })
        hw i none none rfl (by simp [abs]) (by simp) ?_ ?_ (by simp) (by simp) (by simp) (by simp)
      · exact ⟨key.1, key.2, rfl, rfl, rfl, rfl, rfl⟩
      · intro p hp _
        show upd _ _ _ _ = _
        by_cases hpi : p = .sso i
        · subst hpi; rw [upd_same, hn]
        · rw [upd_ne _ _ hpi, upd_ne _ _ (show p ≠ Base.heap b from hp _ o1)]
      · intro o e _
        rw [o1] at e; cases e
        show upd (upd s.mem (.heap b) none) (.sso i) none (.heap b) = none
        rw [upd_ne _ _ (by simp), upd_same]

end ctors

/-! ### moving, swapping, shrinking -/

theorem rebuild2 {s s' : St} (hw : WF s) {i j : Id} {oi oj : Obj} (hij : i ≠ j)
    (hoi : s'.obj i = some oi) (hoj : s'.obj j = some oj) (hobj : ∀ k, k ≠ i → k ≠ j → s'.obj k = s.obj k)
    (hgi : GoodO s' i oi) (hgj : GoodO s' j oj) (hne : oi.base i ≠ oj.base j)
    (hframe : ∀ p, p ≠ .sso i → p ≠ .sso j → (∀ o, s.obj i = some o → p ≠ o.base i) →
      (∀ o, s.obj j = some o → p ≠ o.base j) → s'.mem p = s.mem p)
    (hold : ∀ p l, s'.mem p = some l → p = .sso i ∨ p = .sso j ∨ (∃ o, s.obj i = some o ∧ p = o.base i) ∨
      (∃ o, s.obj j = some o ∧ p = o.base j) → p = oi.base i ∨ p = oj.base j)
    (hheap : ∀ b, oi.base i = .heap b ∨ oj.base j = .heap b →
      (∃ o, s.obj i = some o ∧ o.base i = .heap b) ∨ (∃ o, s.obj j = some o ∧ o.base j = .heap b))
    (hB : s'.nblk = s.nblk) (hT : s'.ntmp = s.ntmp) (hti : ∀ k, i = .tmp k → k < s.ntmp)
    (htj : ∀ k, j = .tmp k → k < s.ntmp) :
    WF s' ∧ ∀ k, k ≠ i → k ≠ j → abs s' k = abs s k := by
  have hsso : ∀ (k : Id) (o : Obj) (m : Id), o.base k = .sso m → m = k := by
    intro k o m h
    unfold Obj.base at h; split at h
    · cases h; rfl
    · cases h
  -- regions of other objects
  have hother : ∀ k o, k ≠ i → k ≠ j → s.obj k = some o →
      o.base k ≠ .sso i ∧ o.base k ≠ .sso j ∧ (∀ o', s.obj i = some o' → o.base k ≠ o'.base i) ∧
      (∀ o', s.obj j = some o' → o.base k ≠ o'.base j) := by
    intro k o hi hj ho
    exact ⟨fun h => hi (hsso k o i h).symm, fun h => hj (hsso k o j h).symm,
      fun o' ho' hb => hi (hw.inj _ _ _ _ ho ho' hb), fun o' ho' hb => hj (hw.inj _ _ _ _ ho ho' hb)⟩
  have hnew : ∀ m o2, (m = i ∧ o2 = oi ∨ m = j ∧ o2 = oj) → ∀ k o, k ≠ i → k ≠ j → s.obj k = some o →
      o.base k ≠ o2.base m := by
    intro m o2 hm k o hi hj ho hb
    obtain ⟨h1, h2, h3, h4⟩ := hother k o hi hj ho
    cases hu : o2.base m with
    | sso x =>
      have := hsso m o2 x hu
      rw [hb, hu, this] at h1 h2
      rcases hm with ⟨rfl, _⟩ | ⟨rfl, _⟩
      · exact h1 rfl
      · exact h2 rfl
    | heap b =>
      have : oi.base i = .heap b ∨ oj.base j = .heap b := by
        rcases hm with ⟨rfl, rfl⟩ | ⟨rfl, rfl⟩
        · exact .inl hu
        · exact .inr hu
      rcases hheap b this with ⟨o', ho', hb'⟩ | ⟨o', ho', hb'⟩
      · exact h3 o' ho' (by rw [hb, hu, hb'])
      · exact h4 o' ho' (by rw [hb, hu, hb'])
  have key := rebuild (s := s) (s' := s') hw (fun k => k = i ∨ k = j)
    (fun k hk => hobj k (fun h => hk (.inl h)) (fun h => hk (.inr h)))
    (fun k o hk ho => by
      obtain ⟨h1, h2, h3, h4⟩ := hother k o (fun h => hk (.inl h)) (fun h => hk (.inr h)) ho
      exact hframe _ h1 h2 h3 h4)
    (fun k o hk ho => by
      rcases hk with rfl | rfl
      · rw [hoi] at ho; cases ho; exact hgi
      · rw [hoj] at ho; cases ho; exact hgj)
    (fun k o hk ho k' o' hk' ho' => by
      refine hnew k o ?_ k' o' (fun h => hk' (.inl h)) (fun h => hk' (.inr h)) ho'
      rcases hk with rfl | rfl
      · rw [hoi] at ho; cases ho; exact .inl ⟨rfl, rfl⟩
      · rw [hoj] at ho; cases ho; exact .inr ⟨rfl, rfl⟩)
    (fun k k' o o' hk hk' ho ho' hb => by
      rcases hk with rfl | rfl <;> rcases hk' with rfl | rfl
      · rfl
      · rw [hoi] at ho; rw [hoj] at ho'; cases ho; cases ho'; exact absurd hb hne
      · rw [hoj] at ho; rw [hoi] at ho'; cases ho; cases ho'; exact absurd hb.symm hne
      · rfl)
    (fun p l hl => ?_)
    (fun b hb => ?_)
    (fun k hk => ?_)
  · exact ⟨key.1, fun k h1 h2 => key.2 k (fun h => h.elim h1 h2)⟩
  · by_cases hc : p = .sso i ∨ p = .sso j ∨ (∃ o, s.obj i = some o ∧ p = o.base i) ∨
      (∃ o, s.obj j = some o ∧ p = o.base j)
    · rcases hold p l hl hc with h | h
      · exact .inl ⟨i, oi, .inl rfl, hoi, h.symm⟩
      · exact .inl ⟨j, oj, .inr rfl, hoj, h.symm⟩
    · right
      have : s'.mem p = s.mem p := hframe p (fun h => hc (.inl h)) (fun h => hc (.inr (.inl h)))
        (fun o ho h => hc (.inr (.inr (.inl ⟨o, ho, h⟩)))) (fun o ho h => hc (.inr (.inr (.inr ⟨o, ho, h⟩))))
      rw [this] at hl
      obtain ⟨k, o, ho, hb⟩ := hw.owned p l hl
      refine ⟨k, o, fun hk => ?_, ho, hb⟩
      rcases hk with rfl | rfl
      · exact hc (.inr (.inr (.inl ⟨o, ho, hb.symm⟩)))
      · exact hc (.inr (.inr (.inr ⟨o, ho, hb.symm⟩)))
  · cases hx : s'.mem (.heap b) with
    | none => rfl
    | some l =>
      exfalso
      have hfb := hw.freshB b (by omega)
      by_cases hc : (∃ o, s.obj i = some o ∧ Base.heap b = o.base i) ∨ (∃ o, s.obj j = some o ∧ Base.heap b = o.base j)
      · rcases hc with ⟨o, ho, hb'⟩ | ⟨o, ho, hb'⟩ <;>
        · obtain ⟨l', hl', _⟩ := (hw.good _ o ho).mem
          rw [← hb', hfb] at hl'; cases hl'
      · rw [hframe _ (by simp) (by simp) (fun o ho h => hc (.inl ⟨o, ho, h⟩)) (fun o ho h => hc (.inr ⟨o, ho, h⟩)), hfb] at hx
        cases hx
  · have h1 : Id.tmp k ≠ i := fun h => by have := hti k h.symm; omega
    have h2 : Id.tmp k ≠ j := fun h => by have := htj k h.symm; omega
    rw [hobj _ h1 h2]
    exact hw.freshT k (by omega)

/-- what a move leaves behind: a heap buffer changes hands, small-buffer bytes are copied -/
def Moved (this other : Id) (v' w w' : Vw) : Prop :=
  (∃ b, w.base = .heap b ∧ v' = w ∧ w' = emptySso other) ∨
  (w.base = .sso other ∧ v'.base = .sso this ∧ v'.cap = 22 ∧ w' = w)

theorem memmove_run {s : St} {p q : Base} {A B A' X B' : List (Option UInt8)} {bs : List UInt8} {m n k : Nat}
    (hq : s.mem q = some (A ++ bs.map some ++ B)) (hm : A.length = m)
    (hp : s.mem p = some (A' ++ X ++ B')) (hn : A'.length = n) (hX : X.length = bs.length) (hk : bs.length = k) :
    memmove ⟨some p, n⟩ ⟨some q, m⟩ k s =
      .ok () { s with mem := upd s.mem p (some (A' ++ bs.map some ++ B')) } := by
  subst hm hn hk
  have h1 : readN ⟨some q, A.length⟩ bs.length s = .ok bs s := by
    unfold readN
    split
    · next h0 => rw [List.length_eq_zero_iff] at h0; rw [h0]
    · simp only [hq]
      rw [if_neg (by simp)]
      have e : ((A ++ bs.map some ++ B).drop A.length).take bs.length = bs.map some := by
        rw [List.append_assoc, List.drop_left, List.take_left' (by simp)]
      rw [e, if_pos (by simp)]
      simp [List.filterMap_map]
  refine memmove_ok h1 ?_
  by_cases h0 : bs = []
  · have : X = [] := by rw [← List.length_eq_zero_iff, hX, h0]; rfl
    subst h0 this
    simp only [writeN, if_pos]
    rw [show upd s.mem p (some (A' ++ List.map some [] ++ B')) = s.mem from upd_eq _ _ _ (by rw [hp]; simp)]
  · unfold writeN
    rw [if_neg h0]
    simp only [hp]
    rw [if_neg (by simp; omega)]
    have e1 : (A' ++ X ++ B').take A'.length = A' := by rw [List.append_assoc, List.take_left]
    have e2 : (A' ++ X ++ B').drop (A'.length + bs.length) = B' := List.drop_left' (by simp [hX])
    rw [e1, e2]

section mv
variable {s : St} (hw : WF s) {this other : Id} {v w : Vw} {xs : List UInt8} {t : UInt8}
include hw

theorem live_tmp {i : Id} {v : Vw} (h : abs s i = some v) : ∀ k, i = .tmp k → k < s.ntmp := by
  intro k hk
  apply Classical.byContradiction; intro hn
  have := hw.freshT k (by omega)
  rw [← hk, ← abs_none, h] at this; cases this

/-- common part of move construction and move assignment: `this` is alive as an object, owning nothing but possibly
its small buffer (`l0`), and `dealloc` has already been copied -/
theorem take_over (hne : this ≠ other) (hti : ∀ k, this = .tmp k → k < s.ntmp) (ho : abs s other = some w)
    (hh : Holds w xs t) (s1 : St)
    (hobj : ∀ k, k ≠ this → s1.obj k = s.obj k)
    (hthis : ∃ u, s1.obj this = some ⟨(match w.base with | .heap b => some b | .sso _ => none), u⟩ ∧
      match u with
      | .sso _ => ∃ l0, s1.mem (.sso this) = some l0 ∧ l0.length = 23
      | .heap _ _ _ => True)
    (hmem : ∀ p, p ≠ .sso this → s1.mem p = if ∃ o, s.obj this = some o ∧ p = o.base this then none else s.mem p)
    (h1 : s1.orc = s.orc) (h2 : s1.tick = s.tick) (h3 : s1.nblk = s.nblk) (h4 : s1.ntmp = s.ntmp)
    (h5 : s1.moves = s.moves) :
    ∃ s' v' w', (if (match w.base with | .heap b => some b | .sso _ => none).isSome then moveHeap this other
        else copySso this other) s1 = .ok () s' ∧
      Quiet s s' (upd (upd (abs s) this (some v')) other (some w')) ∧ Holds v' xs t ∧ v'.cap = w.cap ∧
      Moved this other v' w w' := by
  obtain ⟨u, hthis, hu⟩ := hthis
  have htj := live_tmp hw ho
  have holdne : ∀ o, s.obj this = some o → w.base ≠ o.base this := by
    intro o hob hb
    rcases hw.cases ho with ⟨oj, hbj, _⟩ | ⟨b, oj, hbj, _⟩ <;>
    · refine hne (hw.inj _ _ _ _ hob oj ?_)
      rw [← hb, hbj]; rfl
  have hcond : ∀ p, p = w.base → ¬ ∃ o, s.obj this = some o ∧ p = o.base this := by
    rintro p rfl ⟨o, h, h'⟩; exact holdne o h h'
  rcases hw.cases ho with ⟨oj, hbj, hcj, hmj, hgj⟩ | ⟨b, oj, hbj, hmj, hgj, hltj⟩
  · -- small buffer: the bytes are copied
    rw [hbj] at hthis ⊢
    show ∃ s' v' w', copySso this other s1 = _ ∧ _
    have hsso : (Base.sso other) ≠ .sso this := fun h => by cases h; exact hne rfl
    have hmo : s1.mem (.sso other) = some w.buf := by
      rw [hmem _ hsso, if_neg (hcond _ hbj.symm), hmj]
    obtain ⟨hsz, rest, hrest⟩ := hh
    have hlen := hgj.len
    rw [hcj] at hlen
    have hxs : xs.length ≤ 22 := by have := hgj.siz; omega
    -- after assigning sso.siz
    obtain ⟨l0, hl0, s2, hs2, e2, m2, r2⟩ : ∃ l0 : List (Option UInt8), l0.length = 23 ∧ ∃ s2, setSsoSiz this w.siz s1 = .ok () s2 ∧
        s2.obj = upd s1.obj this (some ⟨none, .sso w.siz⟩) ∧ s2.mem = upd s1.mem (.sso this) (some l0) ∧
        (s2.orc = s1.orc ∧ s2.tick = s1.tick ∧ s2.nblk = s1.nblk ∧ s2.ntmp = s1.ntmp ∧ s2.moves = s1.moves) := by
      cases u with
      | sso m =>
        obtain ⟨l0, hm0, hl0⟩ := hu
        exact ⟨l0, hl0, _, setSsoSiz_sso hthis rfl _, rfl, (upd_eq _ _ _ hm0).symm, rfl, rfl, rfl, rfl, rfl⟩
      | heap b c m =>
        exact ⟨_, by simp, _, setSsoSiz_heap hthis rfl _, rfl, rfl, rfl, rfl, rfl, rfl, rfl⟩
    have hb2 : ∃ X B', l0 = X ++ B' ∧ X.length = xs.length + 1 :=
      ⟨l0.take (xs.length + 1), l0.drop (xs.length + 1), (List.take_append_drop _ _).symm, by simp; omega⟩
    obtain ⟨X, B', hX, hXl⟩ := hb2
    have hmm := memmove_run (s := s2) (p := .sso this) (q := .sso other) (A := []) (B := rest) (A' := []) (X := X)
      (B' := B') (bs := xs ++ [t]) (m := 0) (n := 0) (k := w.siz + 1)
      (by rw [m2, upd_ne _ _ hsso, hmo, hrest]; simp) rfl (by rw [m2, upd_same, hX]; simp) rfl (by simp [hXl])
      (by simp [hsz])
    have hBl : B'.length = 22 - xs.length := by
      have : l0.length = X.length + B'.length := by rw [hX]; simp
      omega
    let v' : Vw := ⟨.sso this, 22, w.siz, xs.map some ++ some t :: B'⟩
    let s' : St := { s2 with mem := upd s2.mem (.sso this) (some (xs.map some ++ some t :: B')) }
    have hm' : s'.mem (.sso this) = some (xs.map some ++ some t :: B') := upd_same _ _ _
    have hmo' : s'.mem (.sso other) = some w.buf := by
      show upd s2.mem (.sso this) _ _ = _
      rw [upd_ne _ _ hsso, m2, upd_ne _ _ hsso, hmo]
    have hoi : s'.obj this = some ⟨none, .sso w.siz⟩ := by show s2.obj _ = _; rw [e2, upd_same]
    have hoj : s'.obj other = some ⟨none, .sso w.siz⟩ := by
      show s2.obj _ = _
      rw [e2, upd_ne _ _ hne.symm, hobj _ hne.symm, oj]
    have hmemf : ∀ p, p ≠ .sso this → s'.mem p = if ∃ o, s.obj this = some o ∧ p = o.base this then none else s.mem p := by
      intro p hp
      show upd s2.mem (.sso this) _ _ = _
      rw [upd_ne _ _ hp, m2, upd_ne _ _ hp, hmem p hp]
    have key := rebuild2 (s := s) (s' := s') hw (i := this) (j := other) hne hoi hoj
      (fun k h1 _ => by show s2.obj _ = _; rw [e2, upd_ne _ _ h1, hobj k h1])
      ⟨by simp, _, hm', .inl ⟨rfl, rfl⟩, by simp [Obj.cap, hBl]; omega, by simp [Obj.siz, Obj.cap, hsz, hxs]⟩
      ⟨by simp, _, hmo', .inl ⟨rfl, rfl⟩, by simp [Obj.cap, hlen], by simp [Obj.siz, Obj.cap, hsz, hxs]⟩
      (fun h => hsso h.symm)
      (fun p hp _ hpi _ => by rw [hmemf p hp, if_neg]; rintro ⟨o, h, h'⟩; exact hpi o h h')
      (fun p l hl hp => by
        rcases hp with h | h | ⟨o, h, h'⟩ | ⟨o, h, h'⟩
        · exact .inl h
        · exact .inr h
        · by_cases hp' : p = .sso this
          · exact .inl hp'
          · rw [hmemf p hp', if_pos ⟨o, h, h'⟩] at hl; cases hl
        · rw [oj] at h; cases h; exact .inr h')
      (fun b h => by rcases h with h | h <;> cases h)
      (by show s2.nblk = _; rw [r2.2.2.1, h3]) (by show s2.ntmp = _; rw [r2.2.2.2.1, h4]) hti htj
    refine ⟨s', v', w, ?_, ⟨key.1, ?_, ?_, ?_, ?_, ?_, ?_⟩, ⟨hsz, B', rfl⟩, hcj.symm, .inr ⟨hbj, rfl, rfl, rfl⟩⟩
    · unfold copySso
      mstep (ssoSiz_ok (o := ⟨none, .sso w.siz⟩) (by rw [hobj _ hne.symm, oj]) rfl)
      mstep hs2
      refine hmm.trans ?_
      simp [s']
    · funext k
      by_cases hk : k = other
      · subst hk; rw [upd_same]; simp [abs, hoj, Obj.base, Obj.cap, Obj.siz, hmo']
        ext1 <;> simp [hbj, hcj]
      · rw [upd_ne _ _ hk]
        by_cases hk' : k = this
        · subst hk'; rw [upd_same]; simp [abs, hoi, Obj.base, Obj.cap, Obj.siz, hm', v']
        · rw [upd_ne _ _ hk']; exact key.2 k hk' hk
    · show s2.orc = _; rw [r2.1, h1]
    · show s2.tick = _; rw [r2.2.1, h2]
    · show s2.nblk = _; rw [r2.2.2.1, h3]
    · show s2.ntmp = _; rw [r2.2.2.2.1, h4]
    · show s2.moves = _; rw [r2.2.2.2.2, h5]
  · -- heap: the buffer changes hands
    rw [hbj] at hthis ⊢
    simp only [if_true]
    have hmo : s1.mem (.heap b) = some w.buf := by
      rw [hmem _ (by simp), if_neg (hcond _ hbj.symm), hmj]
    have hoo : s1.obj other = some ⟨some b, .heap b w.cap w.siz⟩ := by rw [hobj _ hne.symm, oj]
    let s' : St := { s1 with obj := upd (upd s1.obj this (some ⟨some b, .heap b w.cap w.siz⟩)) other (some ⟨none, .sso 0⟩), mem := upd (upd s1.mem (.sso this) none) (.sso other) (some (some 0 :: List.replicate 22 none)) }
    have hrun : moveHeap this other s1 = .ok () s' := by
      unfold moveHeap
      mstep (heapOf_ok hoo rfl)
      mstep (setHeap_ok hthis _ _ _)
      exact clearToSso_heap (o := ⟨some b, .heap b w.cap w.siz⟩) (by simp [upd_ne _ _ hne.symm, hoo]) rfl
    have hoi : s'.obj this = some ⟨some b, .heap b w.cap w.siz⟩ := by
      show upd (upd s1.obj _ _) _ _ _ = _
      rw [upd_ne _ _ hne, upd_same]
    have hoj : s'.obj other = some ⟨none, .sso 0⟩ := upd_same _ _ _
    have hmo' : s'.mem (.heap b) = some w.buf := by
      show upd (upd s1.mem (.sso this) none) (.sso other) (some (some 0 :: List.replicate 22 none)) (.heap b) = _
      rw [upd_ne _ _ (by simp), upd_ne _ _ (by simp), hmo]
    have hms : s'.mem (.sso other) = some (some 0 :: List.replicate 22 none) := upd_same _ _ _
    have hmemf : ∀ p, p ≠ .sso other → s'.mem p =
        if p = .sso this ∨ (∃ o, s.obj this = some o ∧ p = o.base this) then none else s.mem p := by
      intro p hp
      show upd (upd s1.mem _ _) _ _ p = _
      rw [upd_ne _ _ hp]
      by_cases hpt : p = .sso this
      · subst hpt; rw [upd_same, if_pos (.inl rfl)]
      · rw [upd_ne _ _ hpt, hmem p hpt]
        by_cases hc : ∃ o, s.obj this = some o ∧ p = o.base this
        · rw [if_pos hc, if_pos (.inr hc)]
        · rw [if_neg hc, if_neg (fun h => h.elim hpt hc)]
    have hg' := hgj.shape
    have hshape : 48 ≤ w.cap ∧ 24 ∣ w.cap ∧ w.cap < ptrdiffMax := by
      rcases hgj.shape with ⟨h, _⟩ | ⟨_, _, h⟩
      · rw [hbj] at h; cases h
      · exact h
    have key := rebuild2 (s := s) (s' := s') hw (i := this) (j := other) hne hoi hoj
      (fun k hk1 hk2 => by
        show upd (upd s1.obj _ _) _ _ _ = _
        rw [upd_ne _ _ hk2, upd_ne _ _ hk1, hobj k hk1])
      ⟨by simp, _, hmo', .inr ⟨b, rfl, hshape⟩, hgj.len, hgj.siz⟩
      ⟨by simp, _, hms, .inl ⟨rfl, rfl⟩, by simp [Obj.cap], by simp [Obj.siz]⟩
      (by simp [Obj.base])
      (fun p hp hp' hpi _ => by
        rw [hmemf p hp', if_neg]
        rintro (h | ⟨o, h, h'⟩)
        · exact hp h
        · exact hpi o h h')
      (fun p l hl hp => by
        rcases hp with h | h | ⟨o, h, h'⟩ | ⟨o, h, h'⟩
        · rw [hmemf p (by rw [h]; intro h; cases h; exact hne rfl), if_pos (.inl h)] at hl; cases hl
        · exact .inr h
        · by_cases hp' : p = .sso other
          · exact .inr hp'
          · rw [hmemf p hp', if_pos (.inr ⟨o, h, h'⟩)] at hl; cases hl
        · rw [oj] at h; cases h; exact .inl h')
      (fun b' h => by
        rcases h with h | h <;> cases h
        exact .inr ⟨_, oj, rfl⟩)
      h3 h4 hti htj
    refine ⟨s', w, emptySso other, hrun, ⟨key.1, ?_, h1, h2, h3, h4, h5⟩, hh, rfl, .inl ⟨b, hbj, rfl, rfl⟩⟩
    funext k
    by_cases hk : k = other
    · subst hk; rw [upd_same]; simp [abs, hoj, Obj.base, Obj.cap, Obj.siz, hms, emptySso]
    · rw [upd_ne _ _ hk]
      by_cases hk' : k = this
      · subst hk'; rw [upd_same]; simp [abs, hoi, Obj.base, Obj.cap, Obj.siz, hmo']
        ext1 <;> simp [hbj]
      · rw [upd_ne _ _ hk']; exact key.2 k hk' hk

theorem ctorMove_ok (hne : this ≠ other) (hti : ∀ k, this = .tmp k → k < s.ntmp) (hd : abs s this = none)
    (ho : abs s other = some w) (hh : Holds w xs t) :
    ∃ s' v' w', Storage.ctorMove this other s = .ok () s' ∧
      Quiet s s' (upd (upd (abs s) this (some v')) other (some w')) ∧ Holds v' xs t ∧ v'.cap = w.cap ∧
      Moved this other v' w w' := by
  have hdead := abs_none.1 hd
  let d := (match w.base with | .heap b => some b | .sso _ => none)
  let s1 : St := { s with obj := upd s.obj this (some ⟨d, .sso 0⟩), mem := upd s.mem (.sso this) (some (List.replicate 23 none)) }
  obtain ⟨s', v', w', hr, q, rest⟩ := take_over hw hne hti ho hh s1 (fun k hk => upd_ne _ _ hk)
    ⟨_, upd_same _ _ _, _, upd_same _ _ _, by simp⟩
    (fun p hp => by
      rw [if_neg]
      · exact upd_ne _ _ hp
      · rintro ⟨o, h, _⟩; rw [hdead] at h; cases h) rfl rfl rfl rfl rfl
  refine ⟨s', v', w', ?_, q, rest⟩
  unfold Storage.ctorMove
  mstep (newObj_ok hdead)
  have hg := getObj_abs hw ho
  have ho2 : upd s.obj this (some (⟨none, .sso 0⟩ : Obj)) other = s.obj other := upd_ne _ _ hne.symm
  refine Eq.trans (M.bind_ok (a := ⟨d, (match w.base with | .heap b => U.heap b w.cap w.siz | .sso _ => .sso w.siz)⟩)
    (s' := { s with obj := upd s.obj this (some ⟨none, .sso 0⟩), mem := upd s.mem (.sso this) (some (List.replicate 23 none)) }) ?_) ?_
  · unfold getObj at hg ⊢
    simp only [ho2]
    split at hg
    · next o e => simp only [Out.ok.injEq, and_true] at hg; rw [hg]; rfl
    · cases hg
  · mstep (setDealloc_ok (upd_same _ _ _) _)
    simp only [upd_upd]
    exact hr

theorem moveAssign_ok (hne : this ≠ other) (hv : abs s this = some v) (ho : abs s other = some w)
    (hh : Holds w xs t) :
    ∃ s' v' w', Storage.moveAssign this other s = .ok () s' ∧
      Quiet s s' (upd (upd (abs s) this (some v')) other (some w')) ∧ Holds v' xs t ∧ v'.cap = w.cap ∧
      Moved this other v' w w' := by
  have hti := live_tmp hw hv
  let d := (match w.base with | .heap b => some b | .sso _ => none)
  have hg := getObj_abs hw ho
  -- release
  obtain ⟨s0, u, hrel, hob, hme, hbk, hu⟩ : ∃ s0 u, Storage.release this s = .ok () s0 ∧
      (s0.obj = s.obj ∧ ∃ d0, s.obj this = some ⟨d0, u⟩) ∧
      (∀ p, p ≠ .sso this → s0.mem p = if ∃ o, s.obj this = some o ∧ p = o.base this then none else s.mem p) ∧
      (s0.orc = s.orc ∧ s0.tick = s.tick ∧ s0.nblk = s.nblk ∧ s0.ntmp = s.ntmp ∧ s0.moves = s.moves) ∧
      (match u with
      | .sso _ => ∃ l0, s0.mem (.sso this) = some l0 ∧ l0.length = 23
      | .heap _ _ _ => True) := by
    rcases hw.cases hv with ⟨oi, hbi, hci, hmi, hgi⟩ | ⟨b, oi, hbi, hmi, hgi, _⟩
    · refine ⟨s, _, release_sso oi, ⟨rfl, _, oi⟩, ?_, ⟨rfl, rfl, rfl, rfl, rfl⟩, v.buf, hmi, by rw [hgi.len, hci]⟩
      intro p hp
      rw [if_neg]
      rintro ⟨o, h, h'⟩
      rw [oi] at h; cases h; exact hp h'
    · refine ⟨_, _, release_heap oi hmi, ⟨rfl, _, oi⟩, ?_, ⟨rfl, rfl, rfl, rfl, rfl⟩, trivial⟩
      intro p hp
      show upd _ _ _ p = _
      by_cases hpb : p = .heap b
      · subst hpb; rw [upd_same, if_pos ⟨_, oi, rfl⟩]
      · rw [upd_ne _ _ hpb, if_neg]
        rintro ⟨o, h, h'⟩
        rw [oi] at h; cases h; exact hpb h'
  obtain ⟨hobs, d0, hoi⟩ := hob
  obtain ⟨b1, b2, b3, b4, b5⟩ := hbk
  obtain ⟨s', v', w', hr, q, rest⟩ := take_over hw hne hti ho hh
    { s0 with obj := upd s0.obj this (some ⟨d, u⟩) } (fun k hk => by show upd _ _ _ _ = _; rw [upd_ne _ _ hk, hobs])
    ⟨u, upd_same _ _ _, hu⟩ hme b1 b2 b3 b4 b5
  refine ⟨s', v', w', ?_, q, rest⟩
  unfold Storage.moveAssign
  rw [if_pos hne]
  mstep hrel
  refine Eq.trans (M.bind_ok (a := ⟨d, (match w.base with | .heap b => U.heap b w.cap w.siz | .sso _ => .sso w.siz)⟩)
    (s' := s0) ?_) ?_
  · unfold getObj at hg ⊢
    rw [hobs]
    split at hg
    · next o e => simp only [Out.ok.injEq, and_true] at hg; rw [hg]; rfl
    · cases hg
  · mstep (setDealloc_ok (o := ⟨d0, u⟩) (by rw [hobs, hoi]) _)
    exact hr

end mv

end Ptl.Str

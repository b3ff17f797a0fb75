import Verif.Vector.Inv

/-! # Specification lemmas of the `*_impl` functions and the members -/

namespace Ptl.Vector

variable {α : Type} {T : Elem α}

/-- which exceptions a call may throw, and when: `length_error` only if `len`, `bad_alloc` only if the call
allocates (`alc`) and a fallible step failed, a user exception only if a fallible step failed; no element was
relocated -/
def Thrown (s : St α Storage) (len alc : Prop) (e : Exc) (s' : St α Storage) : Prop :=
  s'.moves = s.moves ∧
  ((e = .lengthError ∧ len) ∨ (e = .badAlloc ∧ alc ∧ Failed s s') ∨ (e = .user ∧ Failed s s'))

/-- outcome of a call: no undefined behaviour, no termination; normal return re-establishes the invariant and
satisfies `Q`; an exception leaves everything as it was and satisfies `E` -/
def Res (T : Elem α) {β : Type} (s : St α Storage) (r : Out (St α Storage) β)
    (Q : β → St α Storage → Prop) (E : Exc → St α Storage → Prop) : Prop :=
  match r with
  | .ok a s' => WF T s' ∧ Adv s s' ∧ Q a s'
  | .exc e s' => Same s s' ∧ E e s'
  | .ub _ => False
  | .term => False

theorem Res.of_eq {β : Type} {s : St α Storage} {r r' : Out (St α Storage) β} {Q E}
    (h : r = r') (h' : Res T s r' Q E) : Res T s r Q E := h ▸ h'

theorem Res.bind_ok {β γ : Type} {s s0 s' : St α Storage} {m : VM α β} {f : β → VM α γ} {a : β} {Q E}
    (h : m s0 = .ok a s') (h' : Res T s (f a s') Q E) : Res T s ((m >>= f) s0) Q E := by
  rw [M.bind_ok h]; exact h'

theorem Res.mono {β : Type} {s : St α Storage} {r : Out (St α Storage) β} {Q Q' : β → St α Storage → Prop}
    {E E' : Exc → St α Storage → Prop}
    (h : Res T s r Q E) (hQ : ∀ a s', WF T s' → Adv s s' → Q a s' → Q' a s')
    (hE : ∀ e s', Same s s' → E e s' → E' e s') :
    Res T s r Q' E' := by
  cases r with
  | ok a s' => exact ⟨h.1, h.2.1, hQ a s' h.1 h.2.1 h.2.2⟩
  | exc e s' => exact ⟨h.1, hE e s' h.1 h.2⟩
  | ub => exact h
  | term => exact h

/-- sequencing when the continuation cannot throw -/
theorem Res.bind {β γ : Type} {s s0 : St α Storage} {m : VM α β} {f : β → VM α γ}
    {Q : β → St α Storage → Prop} {Q' : γ → St α Storage → Prop} {E}
    (h : Res T s (m s0) Q E)
    (h' : ∀ a s', WF T s' → Adv s s' → Q a s' → Res T s (f a s') Q' E) :
    Res T s ((m >>= f) s0) Q' E := by
  cases hm : m s0 with
  | ok a s' =>
    rw [hm] at h
    rw [M.bind_ok hm]; exact h' a s' h.1 h.2.1 h.2.2
  | exc e s' => rw [hm] at h; rw [M.bind_exc hm]; exact h
  | ub => rw [hm] at h; exact h.elim
  | term => rw [hm] at h; exact h.elim

/-! ### filling raw storage from the caller's arguments -/

/-- list `l` with the values `vs` written at `k` -/
def wr (l : List (Option α)) (k : Nat) (vs : List α) : List (Option α) :=
  l.take k ++ lv vs ++ l.drop (k + vs.length)

theorem wr_mid (pre post : List (Option α)) (vs : List α) {k : Nat} (hk : k = pre.length) :
    wr (pre ++ raw vs.length ++ post) k vs = pre ++ lv vs ++ post := by
  subst hk
  unfold wr
  congr 1
  · congr 1
    rw [List.append_assoc]; simp
  · apply List.drop_left'; simp [raw]

/-- effect of a call on the heap besides filling the destination (moving-from its arguments) -/
structure Mut (T : Elem α) (s : St α Storage) (W : (Nat → Option (List (Option α))) → Nat → Option (List (Option α))) :
    Prop where
  fresh : ∀ c, W (upd s.blk s.nblk c) = upd (W s.blk) s.nblk c
  wf : WF T { s with blk := W s.blk }

/-- `func` constructs the values `vs` in the raw slots it is given, or throws without any effect; the arguments it
reads are changed according to `W`.  It may be called in `s`, or after the allocation of one more block. -/
structure Fills (s : St α Storage) (func : Ptr → VM α Unit) (vs : List α)
    (W : (Nat → Option (List (Option α))) → Nat → Option (List (Option α))) : Prop where
  nil : vs = [] → (∀ p s', func p s' = .ok () s') ∧ W s.blk = s.blk
  run : ∀ (s' : St α Storage) (b k : Nat) (l : List (Option α)),
    (s'.blk = s.blk ∨ ∃ c, s'.blk = upd s.blk s.nblk (some c)) → s'.orc = s.orc →
    s'.blk b = some l → (∀ j, j < vs.length → l[k + j]? = some none) →
    (∃ t l1, s'.tick ≤ t ∧ W s'.blk b = some l1 ∧
      func ⟨some b, k⟩ s' = .ok () { s' with blk := upd (W s'.blk) b (some (wr l1 k vs)), tick := t }) ∨
    (∃ t, (∃ j, s'.tick ≤ j ∧ j < t ∧ s.orc j = true) ∧ func ⟨some b, k⟩ s' = .exc .user { s' with tick := t })

theorem Mut.id {s : St α Storage} (hw : WF T s) : Mut T s (fun x => x) := ⟨fun _ => rfl, hw⟩

/-! ### local storage -/

/-- capacity chosen by `storage_t(n)` -/
def capFor (n : Nat) : Nat := max 10 n

/-- the state right after `storage_t tmp{n}` succeeded, `n > 0` -/
def allocd (s : St α Storage) (n : Nat) : St α Storage :=
  { s with
    blk := upd s.blk s.nblk (some (raw (capFor n))), nblk := s.nblk + 1,
    obj := upd s.obj (.tmp s.ntmp) (some { dealloc := some s.nblk, ptr := some s.nblk, cap := capFor n, siz := 0 }),
    ntmp := s.ntmp + 1, tick := s.tick + 1 }

theorem withStorage_len {s : St α Storage} {n : Nat} {β : Type} {body : Id → VM α β} (hn : n > T.maxCapacity) :
    withStorage T n body s = .exc .lengthError { s with ntmp := s.ntmp + 1 } := by
  unfold withStorage Storage.ctorCap
  have h0 : n ≠ 0 := by omega
  simp only [h0, if_false]
  rw [if_pos hn]
  rfl

theorem withStorage_fail {s : St α Storage} {n : Nat} {β : Type} {body : Id → VM α β} (h0 : n ≠ 0)
    (hn : ¬ n > T.maxCapacity) (ho : s.orc s.tick = true) :
    withStorage T n body s = .exc .badAlloc { s with ntmp := s.ntmp + 1, tick := s.tick + 1 } := by
  unfold withStorage Storage.ctorCap
  simp only [h0, if_false, hn]
  rw [M.bind_exc]
  rw [M.bind_exc]
  exact alloc_exc ho

theorem withStorage_ok {s : St α Storage} {n : Nat} {β : Type} {body : Id → VM α β} (h0 : n ≠ 0)
    (hn : ¬ n > T.maxCapacity) (ho : s.orc s.tick = false) (hf : s.obj (.tmp s.ntmp) = none) :
    withStorage T n body s =
      M.withDtor (body (.tmp s.ntmp)) (Storage.dtor (.tmp s.ntmp)) (allocd s n) := by
  unfold withStorage Storage.ctorCap
  simp only [h0, if_false, hn]
  refine M.bind_ok (a := ()) ?_
  mstep (alloc_ok (by exact ho))
  exact newObj_ok hf

theorem withStorage_zero {s : St α Storage} {β : Type} {body : Id → VM α β} (hf : s.obj (.tmp s.ntmp) = none) :
    withStorage T 0 body s =
      M.withDtor (body (.tmp s.ntmp)) (Storage.dtor (.tmp s.ntmp))
        { s with obj := upd s.obj (.tmp s.ntmp) (some {}), ntmp := s.ntmp + 1 } := by
  unfold withStorage Storage.ctorCap
  simp only [if_true]
  exact M.bind_ok (newObj_ok hf)

/-- the temporary is destroyed when an exception leaves its scope: nothing remains of it -/
theorem abort_ok {s : St α Storage} (hw : WF T s) (n t : Nat) :
    Storage.dtor (.tmp s.ntmp) { allocd s n with tick := t } =
      .ok () { s with nblk := s.nblk + 1, ntmp := s.ntmp + 1, tick := t } := by
  have h := dtor_ok (s := { allocd s n with tick := t }) (i := .tmp s.ntmp)
    (o := { dealloc := some s.nblk, ptr := some s.nblk, cap := capFor n, siz := 0 }) (by simp [allocd])
    (.inr ⟨s.nblk, [], capFor n, rfl, rfl, rfl, by simp [allocd]⟩)
  rw [h]
  simp only [allocd, freed, upd_upd]
  rw [upd_eq _ _ _ (hw.freshB _ (Nat.le_refl _)), upd_eq _ _ _ (hw.freshT _ (Nat.le_refl _))]

theorem commit_tail {s2 : St α Storage} {i t : Id} {o ot : Storage} {m : Nat} (hit : i ≠ t)
    (ho : s2.obj i = some o) (ht : s2.obj t = some ot) (h : Releasable s2.blk o) :
    (setSize t m >>= fun _ => Storage.moveAssign i t) s2 = .ok () { s2 with
      blk := freed o s2.blk, obj := upd (upd s2.obj i (some { ot with siz := m })) t (some {}) } := by
  mstep (setSize_ok ht)
  rw [moveAssign_ok hit (o := o) (ot := { ot with siz := m }) (by simp [upd_ne _ _ hit, ho]) (by simp)
    (by exact h)]
  congr 2
  rw [upd_comm _ _ _ (Ne.symm hit), upd_upd]

/-- A reallocating member: `storage_t tmp{n}; …; tmp.set_size(m); storage = std::move(tmp);` -/
theorem realloc {s : St α Storage} (hw : WF T s) {i : Id} {o : Storage} (hi : s.obj i = some o) {n m mv : Nat}
    (hn0 : n ≠ 0) {ys : List α} (hys : ys.length = m) (hm : m ≤ capFor n)
    {W} (hW : Mut T s W) {body : Id → VM α Unit}
    (hbody : n ≤ T.maxCapacity → s.orc s.tick = false →
      (∃ tk blk', s.tick + 1 ≤ tk ∧
        body (.tmp s.ntmp) (allocd s n) = (setSize (.tmp s.ntmp) m >>= fun _ => Storage.moveAssign i (.tmp s.ntmp))
          { allocd s n with blk := blk', tick := tk, moves := s.moves + mv } ∧
        Releasable blk' o ∧ blk' s.nblk = some (lv ys ++ raw (capFor n - m)) ∧
        ∀ c, c ≠ s.nblk → o.ptr ≠ some c → blk' c = W s.blk c) ∨
      (∃ tk, (∃ j, s.tick + 1 ≤ j ∧ j < tk ∧ s.orc j = true) ∧
        body (.tmp s.ntmp) (allocd s n) = .exc .user { allocd s n with tick := tk })) :
    Res T s (withStorage T n body s)
      (fun _ s' => ¬ n > T.maxCapacity ∧
        abs s' = upd (abs { s with blk := W s.blk }) i
          (some ({ dealloc := some s.nblk, ptr := some s.nblk, cap := capFor n, siz := m }, ys)) ∧
        s'.moves = s.moves + mv)
      (Thrown s (n > T.maxCapacity) True) := by
  have hf := hw.freshT _ (Nat.le_refl _)
  have hit : i ≠ .tmp s.ntmp := by
    intro h; rw [h, hf] at hi; cases hi
  by_cases hn : n > T.maxCapacity
  · rw [withStorage_len hn]
    exact ⟨⟨rfl, rfl, Nat.le_refl _, Nat.le_succ _, rfl, Nat.le_refl _, Nat.le_refl _⟩, rfl, .inl ⟨rfl, hn⟩⟩
  cases ho : s.orc s.tick with
  | true =>
    rw [withStorage_fail hn0 hn ho]
    exact ⟨⟨rfl, rfl, Nat.le_refl _, Nat.le_succ _, rfl, Nat.le_succ _, Nat.le_refl _⟩,
      rfl, .inr (.inl ⟨rfl, trivial, s.tick, Nat.le_refl _, Nat.lt_succ_self _, ho⟩)⟩
  | false =>
    rw [withStorage_ok hn0 hn ho hf]
    rcases hbody (by omega) ho with ⟨tk, blk', htk, hb, hr, hnb, hfr⟩ | ⟨tk, ⟨j, hj1, hj2, hj3⟩, hb⟩
    · have hb2 := hb.trans (commit_tail (s2 := { allocd s n with blk := blk', tick := tk, moves := s.moves + mv })
        (i := i) (t := .tmp s.ntmp) (o := o)
        (ot := { dealloc := some s.nblk, ptr := some s.nblk, cap := capFor n, siz := 0 }) (m := m) hit
        (by simp [allocd, upd_ne _ _ hit, hi]) (by simp [allocd]) hr)
      rw [M.withDtor_ok hb2 (dtor_ok (o := {}) (by simp) (.inl rfl))]
      have hpo : ∀ c, o.ptr = some c → c < s.nblk := by
        intro c hc
        obtain ⟨xs, hg⟩ := hw.good i o hi
        rcases hg with ⟨rfl, _⟩ | ⟨b, _, hp, _, _, _, _, hb⟩
        · cases hc
        · rw [hc] at hp; cases hp
          rcases Nat.lt_or_ge c s.nblk with h | h
          · exact h
          · rw [hw.freshB c h] at hb; cases hb
      have hobj : (upd (upd (upd (allocd s n).obj i
          (some { dealloc := some s.nblk, ptr := some s.nblk, cap := capFor n, siz := m })) (.tmp s.ntmp) (some {}))
          (.tmp s.ntmp) none) = upd s.obj i
            (some { dealloc := some s.nblk, ptr := some s.nblk, cap := capFor n, siz := m }) := by
        simp only [allocd, upd_upd]
        rw [upd_comm _ _ _ (Ne.symm hit), upd_upd, upd_comm _ _ _ hit, upd_eq _ _ _ hf]
      have hc := commit (s' := ({ allocd s n with
          blk := freed o blk', tick := tk, moves := s.moves + mv,
          obj := upd s.obj i (some { dealloc := some s.nblk, ptr := some s.nblk, cap := capFor n, siz := m }) } :
            St α Storage)) hW.wf i
        (some { dealloc := some s.nblk, ptr := some s.nblk, cap := capFor n, siz := m }) ys rfl
        (by
          intro o' ho'; cases ho'
          refine .inr ⟨s.nblk, rfl, rfl, hys.symm, by simp [hys, hm], ?_, ?_, ?_⟩
          · simp [capFor]; omega
          · have := T.size_max
            have hh : 10 ≤ T.maxCapacity := Nat.le_of_lt this
            show max 10 n ≤ _
            omega
          · show freed o blk' s.nblk = _
            unfold freed
            cases hp : o.ptr with
            | none => simp only; rw [hnb, hys]
            | some c =>
              have := hpo c hp
              simp only
              rw [upd_ne _ _ (by omega), hnb, hys])
        (by
          intro c h1 h2
          have h1' : o.ptr ≠ some c := by simpa [ptrOf, hi] using h1
          have h2' : c ≠ s.nblk := by
            intro h; subst h; exact h2 rfl
          show freed o blk' c = _
          unfold freed
          cases hp : o.ptr with
          | none => exact hfr c h2' h1'
          | some d =>
            simp only
            rw [upd_ne _ _ (by rintro rfl; exact h1' hp)]; exact hfr c h2' h1')
        (by
          intro c hc
          have hc' : s.nblk = c := by simpa [ptrOf] using hc
          subst hc'
          exact ⟨.inr (Nat.le_refl _), Nat.lt_succ_self _⟩)
        (by
          intro c h1 h2
          have h1' : o.ptr = some c := by simpa [ptrOf, hi] using h1
          show freed o blk' c = none
          simp [freed, h1'])
        (Nat.le_succ _) (Nat.le_succ _)
        (by
          intro k hk _
          subst hk
          rcases Nat.lt_or_ge k s.ntmp with h | h
          · exact Nat.lt_succ_of_lt h
          · rw [hw.freshT k h] at hi; cases hi)
      simp only [hobj, freed]
      have e : ({ allocd s n with
          blk := freed o blk', tick := tk, moves := s.moves + mv,
          obj := upd s.obj i (some { dealloc := some s.nblk, ptr := some s.nblk, cap := capFor n, siz := m }) } :
            St α Storage) = { allocd s n with
          blk := freed o blk', tick := tk, moves := s.moves + mv,
          obj := upd s.obj i (some { dealloc := some s.nblk, ptr := some s.nblk, cap := capFor n, siz := m }) } := rfl
      exact ⟨hc.1, ⟨Nat.le_succ _, Nat.le_succ _, rfl, by show s.tick ≤ tk; omega⟩, hn, hc.2, rfl⟩
    · rw [M.withDtor_exc hb (abort_ok hw n tk)]
      exact ⟨⟨rfl, rfl, Nat.le_succ _, Nat.le_succ _, rfl, by show s.tick ≤ tk; omega, Nat.le_refl _⟩,
        rfl, .inr (.inr ⟨rfl, j, by omega, hj2, hj3⟩)⟩

end Ptl.Vector

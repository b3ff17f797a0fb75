import Verif.Vector.Life

/-! # Specification lemmas: push_back, input ranges, copying -/

namespace Ptl.Vector

variable {α : Type} {T : Elem α}

theorem szMod_big : 2 * (ptrdiffMax + 1) = szMod := by decide

/-- an insertion at index `off`, as `abs` sees it -/
def Inserted (s : St α Storage) (W : (Nat → Option (List (Option α))) → Nat → Option (List (Option α)))
    (i : Id) (o : Storage) (ys : List α) (off n : Nat) (T : Elem α) (r : Ptr) (s' : St α Storage) : Prop :=
  if o.siz + n ≤ o.cap then
    r = ⟨o.ptr, off⟩ ∧ (s'.moves = s.moves ∧ s'.nblk = s.nblk) ∧
    abs s' = upd (abs { s with blk := W s.blk }) i (some ({ o with siz := o.siz + n }, ys))
  else ¬ o.siz + max o.siz n > T.maxCapacity ∧ r = ⟨some s.nblk, off⟩ ∧
    s'.moves = s.moves + o.siz ∧
    abs s' = upd (abs { s with blk := W s.blk }) i
      (some ({ dealloc := some s.nblk, ptr := some s.nblk, cap := capFor (o.siz + max o.siz n), siz := o.siz + n }, ys))

theorem pushBack_spec {s : St α Storage} (hw : WF T s) {i : Id} {o : Storage} {xs xs1 : List α}
    (habs : abs s i = some (o, xs)) {a : Arg α} {v : α} {W}
    (hW : Mut T s W) (hF : Fills s (fun p => constructAt T p a) [v] W)
    (habs1 : abs { s with blk := W s.blk } i = some (o, xs1)) :
    Res T s (pushBack T i a s) (Inserted s W i o (xs1 ++ [v]) o.siz 1 T)
      (Thrown s (o.cap < o.siz + 1 ∧ o.siz + max o.siz 1 > T.maxCapacity) (o.cap < o.siz + 1)) := by
  obtain ⟨hi, hg⟩ := hw.get habs
  have hsz := hg.siz_le
  have hlen1 : xs1.length = o.siz := ((hW.wf.get habs1).2.siz).symm
  unfold pushBack emplace
  refine Res.bind_ok (end_ok hi) ?_
  have h := insertImpl_spec hw habs (off := o.siz) hW hF habs1 (Nat.le_refl _)
    (by have := szMod_big; simp only [List.length_singleton]; omega)
  refine h.mono ?_ (fun _ _ _ h => h)
  intro r s' _ _ hq
  unfold Inserted
  have e1 : xs1.take o.siz = xs1 := by rw [← hlen1]; exact List.take_length
  have e2 : xs1.drop o.siz = [] := by rw [← hlen1]; exact List.drop_length
  simpa only [List.length_singleton, e1, e2, List.append_nil] using hq

/-- exceptions of the operations on single-pass ranges -/
def ThrownI (s : St α Storage) (len : Prop) (e : Exc) (s' : St α Storage) : Prop :=
  (e = .lengthError ∧ len) ∨ ((e = .badAlloc ∨ e = .user) ∧ Failed s s')

theorem Thrown.toI {s s' : St α Storage} {len alc len' : Prop} {e : Exc} (h : Thrown s len alc e s') (hl : len → len') :
    ThrownI s len' e s' := by
  rcases h.2 with h | ⟨h1, h2, h3⟩ | ⟨h1, h3⟩
  · exact .inl ⟨h.1, hl h.2⟩
  · exact .inr ⟨.inl h1, h3⟩
  · exact .inr ⟨.inr h1, h3⟩

theorem ThrownI.transport {s s1 s' s1' : St α Storage} {len len' : Prop} {e : Exc} (h : ThrownI s1 len e s1')
    (ho : s.orc = s1.orc) (ht : s.tick ≤ s1.tick) (ht' : s1'.tick ≤ s'.tick) (hl : len → len') :
    ThrownI s len' e s' := by
  rcases h with h | ⟨h1, h3⟩
  · exact .inl ⟨h.1, hl h.2⟩
  · exact .inr ⟨h1, h3.mono ht ho ht'⟩

/-- outcome of a loop that gives only the basic guarantee for object `i` -/
def Weak (T : Elem α) (s : St α Storage) (i : Id) (ys : List α) (len : Prop) (r : Out (St α Storage) Unit) : Prop :=
  match r with
  | .ok _ s' => WF T s' ∧ Adv s s' ∧ s.moves ≤ s'.moves ∧ ∃ o', abs s' = upd (abs s) i (some (o', ys))
  | .exc e s' => WF T s' ∧ Adv s s' ∧ s.moves ≤ s'.moves ∧ (∃ p, abs s' = upd (abs s) i (some p)) ∧ ThrownI s len e s'
  | .ub _ => False
  | .term => False

theorem pushAll_spec (vs : List α) : ∀ {s : St α Storage} (_ : WF T s) {i : Id} {o : Storage} {xs : List α}
    (_ : abs s i = some (o, xs)),
    Weak T s i (xs ++ vs) (T.maxCapacity < 2 * (xs.length + vs.length)) (pushAll T i vs s) := by
  induction vs with
  | nil =>
    intro s hw i o xs habs
    refine ⟨hw, Adv.refl s, Nat.le_refl _, o, ?_⟩
    rw [List.append_nil, upd_eq _ _ _ habs]
  | cons v vs ih =>
    intro s hw i o xs habs
    have hlen : o.siz = xs.length := (hw.get habs).2.siz
    have hp := pushBack_spec hw habs (Mut.id hw) (Fills.copy hw (ArgVal.val v)) habs
    unfold pushAll
    cases hr : pushBack T i (.val v) s with
    | ok a s1 =>
      rw [hr] at hp
      obtain ⟨hw1, ha1, hq⟩ := hp
      obtain ⟨hm1, o1, habs1⟩ : s.moves ≤ s1.moves ∧ ∃ o1, abs s1 = upd (abs s) i (some (o1, xs ++ [v])) := by
        unfold Inserted at hq
        split at hq
        · exact ⟨by omega, _, hq.2.2⟩
        · exact ⟨by omega, _, hq.2.2.2⟩
      have h2 := ih hw1 (i := i) (o := o1) (xs := xs ++ [v]) (by rw [habs1, upd_same])
      rw [M.bind_ok hr]
      cases hr2 : pushAll T i vs s1 with
      | ok _ s2 =>
        rw [hr2] at h2
        obtain ⟨hw2, ha2, hm2, o2, habs2⟩ := h2
        exact ⟨hw2, ha1.trans ha2, by omega, o2, by rw [habs2, habs1, upd_upd]; simp⟩
      | exc e s2 =>
        rw [hr2] at h2
        obtain ⟨hw2, ha2, hm2, ⟨p, habs2⟩, ht⟩ := h2
        refine ⟨hw2, ha1.trans ha2, by omega, ⟨p, by rw [habs2, habs1, upd_upd]⟩, ?_⟩
        refine ht.transport ha1.orc.symm ha1.tick (Nat.le_refl _) ?_
        simp only [List.length_append, List.length_cons, List.length_nil]; omega
      | ub => rw [hr2] at h2; exact h2.elim
      | term => rw [hr2] at h2; exact h2.elim
    | exc e s1 =>
      rw [hr] at hp
      rw [M.bind_exc hr]
      refine ⟨hp.1.wf hw, hp.1.adv, hp.1.moves, ⟨(o, xs), by rw [hp.1.abs, upd_eq _ _ _ habs]⟩, ?_⟩
      refine hp.2.toI ?_
      intro h
      have := T.size_max
      have hh : 10 < T.maxCapacity := this
      simp only [List.length_cons]; omega
    | ub => rw [hr] at hp; exact hp.elim
    | term => rw [hr] at hp; exact hp.elim

/-- construction from a single-pass range, of a variable or of a fresh temporary (`n` = supply of temporaries) -/
theorem ctorInput_any {s : St α Storage} (hw : WF T s) {i : Id} (hi : s.obj i = none) {n : Nat} (hn : s.ntmp ≤ n)
    (hk : ∀ k, i = .tmp k → k < n) (vs : List α) :
    Res T s (ctorInput T i vs { s with ntmp := n })
      (fun _ s' => s.moves ≤ s'.moves ∧ ∃ o', abs s' = upd (abs s) i (some (o', vs)))
      (ThrownI s (T.maxCapacity < 2 * vs.length)) := by
  have hc := new_commit hw hi hn hk
  have ha : Adv s { s with obj := upd s.obj i (some {}), ntmp := n } := ⟨Nat.le_refl _, hn, rfl, Nat.le_refl _⟩
  have hb := pushAll_spec vs hc.1 (i := i) (o := {}) (xs := []) (by rw [hc.2, upd_same])
  simp only [List.nil_append, List.length_nil, Nat.zero_add] at hb
  refine Res.bind_ok (s' := { s with obj := upd s.obj i (some {}), ntmp := n }) (newObj_ok hi) ?_
  cases hr : pushAll T i vs { s with obj := upd s.obj i (some {}), ntmp := n } with
  | ok a s' =>
    rw [hr] at hb
    obtain ⟨h1, h2, h3, o', h4⟩ := hb
    rw [M.onExc_ok hr]
    exact ⟨h1, ha.trans h2, h3, o', by rw [h4, hc.2, upd_upd]⟩
  | exc e s' =>
    rw [hr] at hb
    obtain ⟨h1, h2, h3, ⟨p, h4⟩, h5⟩ := hb
    obtain ⟨s'', hd, hw'', ha'', hm, ht, _, _, habs⟩ := dtor_spec (i := i) (o := p.1) (xs := p.2) h1
      (by rw [h4, upd_same])
    refine Res.of_eq (M.onExc_exc hr hd) ?_
    refine ⟨Same.of_abs hw hw'' ?_ ((ha.trans h2).trans ha'') (by rw [hm]; exact h3), ?_⟩
    · rw [habs, h4, hc.2, upd_upd, upd_upd, upd_eq]
      simp [abs, hi]
    · exact h5.transport rfl (Nat.le_refl _) (by omega) id
  | ub f => rw [hr] at hb; exact hb.elim
  | term => rw [hr] at hb; exact hb.elim

theorem ctorInput_spec {s : St α Storage} (hw : WF T s) {n : Nat} (hi : s.obj (.var n) = none) (vs : List α) :
    Res T s (ctorInput T (.var n) vs s)
      (fun _ s' => s.moves ≤ s'.moves ∧ ∃ o', abs s' = upd (abs s) (.var n) (some (o', vs)))
      (ThrownI s (T.maxCapacity < 2 * vs.length)) :=
  ctorInput_any hw hi (Nat.le_refl _) (by intro k h; cases h) vs

/-- a local vector built from a single-pass range -/
theorem withVector_spec {s : St α Storage} (hw : WF T s) {β : Type} (vs : List α) {body : Id → VM α β}
    {Q : β → St α Storage → (Id → Option (Storage × List α)) → Prop} {len : Prop}
    (hlen : T.maxCapacity < 2 * vs.length → len)
    (hbody : ∀ s1 o', WF T s1 → Adv s s1 → s.moves ≤ s1.moves →
      abs s1 = upd (abs s) (.tmp s.ntmp) (some (o', vs)) →
      Res T s1 (body (.tmp s.ntmp) s1)
        (fun r s2 => s1.moves ≤ s2.moves ∧
          ∃ p A, abs s2 = upd A (.tmp s.ntmp) (some p) ∧ A (.tmp s.ntmp) = none ∧ Q r s2 A)
        (Thrown s1 len True))
    (hQ : ∀ r s2 A s3, Q r s2 A → Q r s3 A) :
    Res T s (withVector T vs body s) (fun r s' => s.moves ≤ s'.moves ∧ Q r s' (abs s')) (ThrownI s len) := by
  have hf := hw.freshT _ (Nat.le_refl _)
  have h1 := ctorInput_any hw hf (n := s.ntmp + 1) (Nat.le_succ _) (by intro k h; cases h; omega) vs
  unfold withVector
  simp only
  cases hr : ctorInput T (.tmp s.ntmp) vs { s with ntmp := s.ntmp + 1 } with
  | ok a s1 =>
    rw [hr] at h1
    obtain ⟨hw1, ha1, hm1, o', habs1⟩ := h1
    refine Res.bind_ok hr ?_
    have h2 := hbody s1 o' hw1 ha1 hm1 habs1
    cases hr2 : body (.tmp s.ntmp) s1 with
    | ok b s2 =>
      rw [hr2] at h2
      obtain ⟨hw2, ha2, hm2, p, A, hA, hA0, hq⟩ := h2
      obtain ⟨s3, hd, hw3, ha3, hm3, ht3, _, _, habs3⟩ := dtor_spec (i := .tmp s.ntmp) (o := p.1) (xs := p.2) hw2
        (by rw [hA, upd_same])
      refine Res.of_eq (M.withDtor_ok hr2 hd) ?_
      have e : abs s3 = A := by rw [habs3, hA, upd_upd, upd_eq _ _ _ hA0]
      exact ⟨hw3, (ha1.trans ha2).trans ha3, by omega, by rw [e]; exact hQ _ _ _ _ hq⟩
    | exc e s2 =>
      rw [hr2] at h2
      obtain ⟨hs, ht⟩ := h2
      obtain ⟨s3, hd, hw3, ha3, hm3, ht3, _, _, habs3⟩ := dtor_spec (i := .tmp s.ntmp) (o := o') (xs := vs)
        (hs.wf hw1) (by rw [hs.abs, habs1, upd_same])
      refine Res.of_eq (M.withDtor_exc hr2 hd) ?_
      refine ⟨Same.of_abs hw hw3 ?_ ((ha1.trans hs.adv).trans ha3) (by have := hs.moves; omega), ?_⟩
      · rw [habs3, hs.abs, habs1, upd_upd, upd_eq]; simp [abs, hf]
      · exact (ht.toI id).transport ha1.orc.symm ha1.tick (by omega) id
    | ub => rw [hr2] at h2; exact h2.elim
    | term => rw [hr2] at h2; exact h2.elim
  | exc e s1 =>
    rw [hr] at h1
    refine Res.of_eq (M.bind_exc hr) ?_
    exact ⟨h1.1, h1.2.transport rfl (Nat.le_refl _) (Nat.le_refl _) hlen⟩
  | ub => rw [hr] at h1; exact h1.elim
  | term => rw [hr] at h1; exact h1.elim

theorem assignInput_spec {s : St α Storage} (hw : WF T s) {i : Id} {p : Storage × List α} (habs : abs s i = some p)
    (vs : List α) :
    Res T s (assignInput T i vs s)
      (fun _ s' => s.moves ≤ s'.moves ∧ ∃ o', abs s' = upd (abs s) i (some (o', vs)))
      (ThrownI s (T.maxCapacity < 2 * vs.length)) := by
  have hf := hw.freshT _ (Nat.le_refl _)
  have hi := (hw.get (o := p.1) (xs := p.2) habs).1
  have hit : i ≠ .tmp s.ntmp := by rintro rfl; rw [hf] at hi; cases hi
  refine withVector_spec (Q := fun _ _ A => ∃ o', A = upd (abs s) i (some (o', vs))) hw vs id ?_
    (fun _ _ _ _ h => h)
  intro s1 o' hw1 ha1 hm1 habs1
  obtain ⟨s2, hr, hw2, ha2, hm2, _, _, habs2⟩ := moveAssign_spec hw1 (i := i) (j := .tmp s.ntmp) (p := p)
    (q := (o', vs)) hit (by rw [habs1, upd_ne _ _ hit, habs]) (by rw [habs1, upd_same])
  refine Res.of_eq hr ⟨hw2, ha2, by omega, ({}, []), upd (abs s) i (some (o', vs)), ?_, ?_, o', rfl⟩
  · rw [habs2, habs1, upd_comm _ _ _ (Ne.symm hit), upd_upd]
  · rw [upd_ne _ _ (Ne.symm hit)]; simp [abs, hf]

theorem insertInput_spec {s : St α Storage} (hw : WF T s) {i : Id} {o : Storage} {xs : List α}
    (habs : abs s i = some (o, xs)) (vs : List α) {off : Nat} (hoff : off ≤ o.siz)
    (hn : o.siz + vs.length < szMod) :
    Res T s (insertInput T i ⟨o.ptr, off⟩ vs s)
      (fun r s' => s.moves ≤ s'.moves ∧ ∃ o', r = ⟨o'.ptr, off⟩ ∧ o'.siz = o.siz + vs.length ∧
        (o.siz + vs.length ≤ o.cap → o'.ptr = o.ptr ∧ o'.cap = o.cap) ∧
        abs s' = upd (abs s) i (some (o', xs.take off ++ vs ++ xs.drop off)))
      (ThrownI s (T.maxCapacity < 2 * vs.length ∨
        (o.cap < o.siz + vs.length ∧ T.maxCapacity < o.siz + max o.siz vs.length))) := by
  have hf := hw.freshT _ (Nat.le_refl _)
  have hi := (hw.get habs).1
  have hit : i ≠ .tmp s.ntmp := by rintro rfl; rw [hf] at hi; cases hi
  refine withVector_spec (len := (T.maxCapacity < 2 * vs.length ∨
        (o.cap < o.siz + vs.length ∧ T.maxCapacity < o.siz + max o.siz vs.length)))
      (Q := fun (r : Ptr) _ A => ∃ o' : Storage, r = ⟨o'.ptr, off⟩ ∧ o'.siz = o.siz + vs.length ∧
        (o.siz + vs.length ≤ o.cap → o'.ptr = o.ptr ∧ o'.cap = o.cap) ∧
        A = upd (abs s) i (some (o', xs.take off ++ vs ++ xs.drop off))) hw vs (fun h => .inl h) ?_
    (fun _ _ _ _ h => h)
  intro s1 ot hw1 ha1 hm1 habs1
  have habst : abs s1 (.tmp s.ntmp) = some (ot, vs) := by rw [habs1, upd_same]
  obtain ⟨hit1, hgt⟩ := hw1.get habst
  refine Res.bind_ok (data_ok hit1) ?_
  refine Res.bind_ok (size_ok hit1) ?_
  have habsi : abs s1 i = some (o, xs) := by rw [habs1, upd_ne _ _ hit, habs]
  -- the heap effect of moving from the temporary
  obtain ⟨W, zs, hM, hF, hA⟩ : ∃ W zs, Mut T s1 W ∧
      Fills s1 (fun p => uninitLoop T p p (moveRange ⟨ot.ptr, 0⟩ ot.siz)) vs W ∧
      abs { s1 with blk := W s1.blk } = upd (abs s1) (.tmp s.ntmp) (some (ot, zs)) := by
    cases hp : ot.ptr with
    | none =>
      obtain ⟨rfl, rfl⟩ := hgt.null hp
      exact ⟨fun x => x, [], Mut.id hw1, Fills.copies hw1 ArgVals.nil, by rw [upd_eq _ _ _ habst]⟩
    | some c =>
      have h := movedOut_spec hw1 habst hp (kc := 0) (m := vs.length) (by omega)
      simp only [List.drop_zero, List.take_length, List.take_zero, List.nil_append, Nat.zero_add, List.drop_length,
        List.append_nil] at h
      refine ⟨_, _, h.1, ?_, h.2.2⟩
      rw [hgt.siz]
      exact Fills.moves hw1 h.2.1
  have hsz : ot.siz = vs.length := hgt.siz
  have hins := insertImpl_spec hw1 habsi (off := off) hM hF
    (xs1 := xs) (by rw [hA, upd_ne _ _ hit, habsi]) hoff hn
  unfold insertRange
  rw [show (moveRange ⟨ot.ptr, 0⟩ ot.siz : List (Arg α)).length = vs.length by simp [moveRange, hsz]]
  refine hins.mono ?_ ?_
  · intro r s2 _ _ hq
    have hfin : ∀ o', abs s2 = upd (abs { s1 with blk := W s1.blk }) i (some (o', xs.take off ++ vs ++ xs.drop off)) →
        ∃ p A, abs s2 = upd A (.tmp s.ntmp) (some p) ∧ A (.tmp s.ntmp) = none ∧
          A = upd (abs s) i (some (o', xs.take off ++ vs ++ xs.drop off)) := by
      intro o' h
      refine ⟨(ot, zs), _, ?_, ?_, rfl⟩
      · rw [h, hA, habs1, upd_upd, upd_comm _ _ _ (Ne.symm hit)]
      · rw [upd_ne _ _ (Ne.symm hit)]; simp [abs, hf]
    split at hq
    · obtain ⟨hr, hm, habs2⟩ := hq
      refine ⟨by omega, ?_⟩
      obtain ⟨p, A, h1, h2, h3⟩ := hfin _ habs2
      exact ⟨p, A, h1, h2, { o with siz := o.siz + vs.length }, hr, rfl, fun _ => ⟨rfl, rfl⟩, h3⟩
    · obtain ⟨_, hr, hm, habs2⟩ := hq
      refine ⟨by omega, ?_⟩
      obtain ⟨p, A, h1, h2, h3⟩ := hfin _ habs2
      exact ⟨p, A, h1, h2, _, hr, rfl, fun h => absurd h (by assumption), h3⟩
  · intro e s2 _ h
    refine ⟨h.1, ?_⟩
    rcases h.2 with h | ⟨h1, h2, h3⟩ | ⟨h1, h3⟩
    · exact .inl ⟨h.1, .inr h.2⟩
    · exact .inr (.inl ⟨h1, trivial, h3⟩)
    · exact .inr (.inr ⟨h1, h3⟩)

end Ptl.Vector

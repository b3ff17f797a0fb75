import Verif.Vector.Impl

/-! # Specification lemmas of the remaining members -/

namespace Ptl.Vector

variable {α : Type} {T : Elem α}

/-- all elements of `i` are relocated to the block of the fresh temporary, above which the raw tail remains -/
theorem relocate_ok {s s2 : St α Storage} (hw : WF T s) {o : Storage} {xs1 : List α} {b : Nat}
    (hg1 : Good T s.blk o xs1) (hp : o.ptr = some b) {blk : Nat → Option (List (Option α))}
    {post : List (Option α)} (hblk : blk b = s.blk b) (hnb : blk s.nblk = some (raw o.siz ++ post))
    (hs2 : s2.blk = blk) :
    uninitializedMoveN T ⟨some b, 0⟩ o.siz ⟨some s.nblk, 0⟩ s2 = .ok () { s2 with
      blk := upd (upd blk b (some (lv (xs1.map T.moved) ++ raw (o.cap - xs1.length)))) s.nblk
        (some (lv xs1 ++ post)), moves := s2.moves + o.siz } := by
  obtain ⟨_, hs1, _, _, _, hb1⟩ := hg1.own hp
  have hlt := hg1.lt hw hp
  have h := uninitializedMoveN_ok (T := T) xs1 (s := s2) (a := b) (b := s.nblk) (ka := 0) (kb := 0) []
    (raw (o.cap - xs1.length)) [] post (by omega) (by rw [hs2, hblk, hb1]; rfl) rfl
    (by rw [hs2, hnb, hs1]; rfl) rfl
  rw [hs1, h, hs2]
  rfl

/-! ### resize_impl -/

theorem resizeImpl_grow {s : St α Storage} (hw : WF T s) {i : Id} {o : Storage} {xs xs1 : List α}
    (habs : abs s i = some (o, xs)) {func : Ptr → Nat → VM α Unit} {vs : List α} {W} {n : Nat}
    (hn : o.siz < n) (hvs : vs.length = n - o.siz)
    (hW : Mut T s W) (hF : Fills s (fun p => func p (n - o.siz)) vs W)
    (habs1 : abs { s with blk := W s.blk } i = some (o, xs1)) :
    Res T s (resizeImpl T i n func s)
      (fun _ s' => ¬ n > T.maxCapacity ∧ s'.moves = s.moves + o.siz ∧
          abs s' = upd (abs { s with blk := W s.blk }) i
            (some ({ dealloc := some s.nblk, ptr := some s.nblk, cap := capFor n, siz := n }, xs1 ++ vs)))
      (Thrown s (n > T.maxCapacity) True) := by
  obtain ⟨hi, hg⟩ := hw.get habs
  obtain ⟨_, hg1⟩ := hW.wf.get habs1
  have hlen1 := hg1.siz
  unfold resizeImpl
  refine Res.bind_ok (size_ok hi) ?_
  rw [if_neg (by omega), if_neg (by omega)]
  refine (realloc hw hi (n := n) (m := n) (mv := o.siz) (by omega)
      (ys := xs1 ++ vs) (by simp only [List.length_append]; omega)
      (by simp only [capFor]; omega) hW ?_).mono ?_ ?_
  · intro hmax ho
    have hobj : (allocd s n).obj (.tmp s.ntmp) = some
        { dealloc := some s.nblk, ptr := some s.nblk, cap := capFor n, siz := 0 } := by simp [allocd]
    have hit : i ≠ .tmp s.ntmp := by
      intro h; rw [h, hw.freshT _ (Nat.le_refl _)] at hi; cases hi
    have hobji : (allocd s n).obj i = some o := by simp [allocd, upd_ne _ _ hit, hi]
    have hcf : n ≤ capFor n := by simp only [capFor]; omega
    rcases hF.fresh hw hW (n := n) (k := o.siz) (by omega) with ⟨t, ht, h⟩ | ⟨t, ht, h⟩
    · cases hp : o.ptr with
      | none =>
        obtain ⟨rfl, rfl⟩ := hg.null hp
        obtain ⟨_, rfl⟩ := hg1.null hp
        refine .inl ⟨t, upd (W s.blk) s.nblk
          (some (raw 0 ++ lv vs ++ raw (capFor n - 0 - vs.length))), ht, ?_, .inl rfl, ?_, ?_⟩
        · mstep (data_ok hobj)
          mstep h
          mstep (data_ok hobji)
          mstep rfl
          rfl
        · simp at hvs; simp [hvs]
        · intro c h1 h2
          rw [upd_ne _ _ h1]
      | some b =>
        obtain ⟨hd, hs1, _, _, _, hb1⟩ := hg1.own hp
        have hlt := hg.lt hw hp
        refine .inl ⟨t, upd (upd (W s.blk) b (some (lv (xs1.map T.moved) ++ raw (o.cap - xs1.length)))) s.nblk
            (some (lv xs1 ++ (lv vs ++ raw (capFor n - n)))), ht, ?_, ?_, ?_, ?_⟩
        · mstep (data_ok hobj)
          simp only [Ptr.add, Nat.zero_add]
          mstep h
          mstep (data_ok hobji)
          rw [hp]
          mstep (relocate_ok hW.wf hg1 hp (s2 := { allocd s n with
              blk := upd (W s.blk) s.nblk (some (raw o.siz ++ lv vs ++ raw (capFor n - o.siz - vs.length))),
              tick := t }) (by simp only; rw [upd_ne _ _ (by omega)])
              (post := lv vs ++ raw (capFor n - n)) (by
                simp only [upd_same]
                rw [show capFor n - o.siz - vs.length = capFor n - n by omega, List.append_assoc]) rfl)
          simp only
          rw [upd_comm _ _ _ (show s.nblk ≠ b by omega), upd_upd]
          rfl
        · exact .inr ⟨b, xs1.map T.moved, o.cap - xs1.length, hd, hp, by simp [hs1],
            by rw [upd_ne _ _ (by omega), upd_same]⟩
        · simp [lv]
        · intro c h1 h2
          rw [upd_ne _ _ h1, upd_ne _ _ (by rintro rfl; exact h2 rfl)]
    · refine .inr ⟨t, ht, ?_⟩
      mstep (data_ok hobj)
      simp only [Ptr.add, Nat.zero_add]
      exact M.bind_exc h
  · intro a s' hw' _ h
    exact ⟨h.1, h.2.2, h.2.1⟩
  · intro e s' _ h
    exact h

theorem resizeImpl_same {s : St α Storage} {i : Id} {o : Storage} (hi : s.obj i = some o)
    {func : Ptr → Nat → VM α Unit} : resizeImpl T i o.siz func s = .ok () s := by
  unfold resizeImpl
  mstep (size_ok hi)
  rw [if_pos rfl]; rfl

theorem resizeImpl_shrink {s : St α Storage} (hw : WF T s) {i : Id} {o : Storage} {xs : List α}
    (habs : abs s i = some (o, xs)) {func : Ptr → Nat → VM α Unit} {n : Nat} (hn : n < o.siz) :
    Res T s (resizeImpl T i n func s)
      (fun _ s' => s'.moves = s.moves ∧ (s'.tick = s.tick ∧ s'.nblk = s.nblk) ∧
          abs s' = upd (abs s) i (some ({ o with siz := n }, xs.take n)))
      (fun _ _ => False) := by
  obtain ⟨hi, hg⟩ := hw.get habs
  have hlen := hg.siz
  unfold resizeImpl
  refine Res.bind_ok (size_ok hi) ?_
  rw [if_neg (by omega), if_pos hn]
  refine Res.bind_ok (data_ok hi) ?_
  have h := erase_spec hw habs (f := n) (l := o.siz) (by omega) (Nat.le_refl _)
  refine Res.bind (Q := fun r s' => s'.moves = s.moves ∧ (s'.tick = s.tick ∧ s'.nblk = s.nblk) ∧
          abs s' = upd (abs s) i (some ({ o with siz := n }, xs.take n))) ?_ ?_
  · simp only [Ptr.add, Nat.zero_add]
    refine h.mono ?_ (fun _ _ _ h => h)
    intro a s' _ _ hq
    refine ⟨hq.2.1, ⟨hq.2.2.1, hq.2.2.2.1⟩, ?_⟩
    rw [hq.2.2.2.2]
    rw [if_neg (by omega), show o.siz - (o.siz - n) = n by omega]
    simp [hlen]
  · intro a s' hw' ha hq
    exact ⟨hw', ha, hq⟩

/-! ### reserve, shrink_to_fit, clear, pop_back -/

theorem reserve_noop {s : St α Storage} {i : Id} {o : Storage} (hi : s.obj i = some o) {n : Nat} (hn : n ≤ o.cap) :
    reserve T i n s = .ok () s := by
  unfold reserve
  mstep (capacity_ok hi)
  rw [if_pos hn]; rfl

theorem reserve_grow {s : St α Storage} (hw : WF T s) {i : Id} {o : Storage} {xs : List α}
    (habs : abs s i = some (o, xs)) {n : Nat} (hn : o.cap < n) :
    Res T s (reserve T i n s)
      (fun _ s' => ¬ n > T.maxCapacity ∧ s'.moves = s.moves + o.siz ∧
          abs s' = upd (abs s) i
            (some ({ dealloc := some s.nblk, ptr := some s.nblk, cap := capFor n, siz := o.siz }, xs)))
      (Thrown s (n > T.maxCapacity) True) := by
  obtain ⟨hi, hg⟩ := hw.get habs
  have hlen := hg.siz
  have hsz := hg.siz_le
  unfold reserve
  refine Res.bind_ok (capacity_ok hi) ?_
  rw [if_neg (by omega)]
  refine (realloc hw hi (n := n) (m := o.siz) (mv := o.siz) (by omega)
      (ys := xs) hlen.symm (by simp only [capFor]; omega) (Mut.id hw) ?_).mono ?_ ?_
  · intro hmax ho
    have hobj : (allocd s n).obj (.tmp s.ntmp) = some
        { dealloc := some s.nblk, ptr := some s.nblk, cap := capFor n, siz := 0 } := by simp [allocd]
    have hit : i ≠ .tmp s.ntmp := by
      intro h; rw [h, hw.freshT _ (Nat.le_refl _)] at hi; cases hi
    have hobji : (allocd s n).obj i = some o := by simp [allocd, upd_ne _ _ hit, hi]
    have hcf : n ≤ capFor n := by simp only [capFor]; omega
    refine .inl ?_
    by_cases h0 : o.siz = 0
    · -- empty: nothing to relocate
      have hx : xs = [] := List.length_eq_zero_iff.1 (by omega)
      refine ⟨s.tick + 1, upd s.blk s.nblk (some (raw (capFor n))), Nat.le_refl _, ?_, ?_, ?_, ?_⟩
      · mstep (empty_ok hobji)
        mstep (size_ok hobji)
        rw [h0]
        mstep rfl
        rfl
      · rcases hg.releasable with h | ⟨b, zs, r, h1, h2, h3, h4⟩
        · exact .inl h
        · have := hg.lt hw h2
          exact .inr ⟨b, zs, r, h1, h2, h3, by rw [upd_ne _ _ (by omega)]; exact h4⟩
      · simp [hx, h0]
      · intro c h1 h2
        rw [upd_ne _ _ h1]
    · cases hp : o.ptr with
      | none => rw [(hg.null hp).1] at h0; exact absurd rfl h0
      | some b =>
        obtain ⟨hd, hs1, _, _, _, hb1⟩ := hg.own hp
        have hlt := hg.lt hw hp
        refine ⟨s.tick + 1, upd (upd s.blk b (some (lv (xs.map T.moved) ++ raw (o.cap - xs.length)))) s.nblk
            (some (lv xs ++ raw (capFor n - o.siz))), Nat.le_refl _, ?_, ?_, ?_, ?_⟩
        · mstep (empty_ok hobji)
          mstep (size_ok hobji)
          have hne : (!(o.siz == 0)) = true := by simp [h0]
          rw [hne]
          simp only [if_true]
          rw [M.bind_assoc']
          mstep (data_ok hobji)
          rw [M.bind_assoc']
          mstep (data_ok hobj)
          rw [hp]
          mstep (relocate_ok hw hg hp (s2 := allocd s n)
              (blk := upd s.blk s.nblk (some (raw (capFor n)))) (by rw [upd_ne _ _ (by omega)])
              (post := raw (capFor n - o.siz)) (by
                rw [upd_same, ← raw_add]; congr 2; omega) rfl)
          rw [upd_comm _ _ _ (show s.nblk ≠ b by omega), upd_upd]
          rfl
        · exact .inr ⟨b, xs.map T.moved, o.cap - xs.length, hd, hp, by simp [hs1],
            by rw [upd_ne _ _ (by omega), upd_same]⟩
        · simp
        · intro c h1 h2
          rw [upd_ne _ _ h1, upd_ne _ _ (by rintro rfl; exact h2 rfl)]
  · intro a s' hw' _ h
    exact ⟨h.1, h.2.2, h.2.1⟩
  · intro e s' _ h
    exact h

theorem shrinkToFit_noop {s : St α Storage} (hw : WF T s) {i : Id} {o : Storage} {xs : List α}
    (habs : abs s i = some (o, xs)) (hn : o.cap ≤ o.siz * 2) : shrinkToFit T i s = .ok () s := by
  obtain ⟨hi, hg⟩ := hw.get habs
  have hsz := hg.siz_le
  have hpm : ptrdiffMax = 9223372036854775807 := rfl
  have hszm : szMod = 18446744073709551616 := rfl
  unfold shrinkToFit
  refine M.noexcept_ok ?_
  mstep (size_ok hi)
  mstep (capacity_ok hi)
  rw [szMul_eq (by omega), if_pos hn]; rfl

/-- outcome of the excess-capacity case with elements -/
theorem shrinkToFit_some {s : St α Storage} (hw : WF T s) {i : Id} {o : Storage} {xs : List α}
    (habs : abs s i = some (o, xs)) (hn : o.siz * 2 < o.cap) (h0 : o.siz ≠ 0) :
    (s.orc s.tick = true ∧ shrinkToFit T i s = .term) ∨
    (s.orc s.tick = false ∧ ∃ s', shrinkToFit T i s = .ok () s' ∧ WF T s' ∧ Adv s s' ∧
      s'.moves = s.moves + o.siz ∧
      abs s' = upd (abs s) i
            (some ({ dealloc := some s.nblk, ptr := some s.nblk, cap := capFor o.siz, siz := o.siz }, xs))) := by
  obtain ⟨hi, hg⟩ := hw.get habs
  have hlen := hg.siz
  have hsz := hg.siz_le
  have hpm : ptrdiffMax = 9223372036854775807 := rfl
  have hszm : szMod = 18446744073709551616 := rfl
  have hcf : o.siz ≤ capFor o.siz := by simp only [capFor]; omega
  have hmx : ¬ o.siz > T.maxCapacity := by
    rcases hg with ⟨rfl, _⟩ | ⟨_, _, _, _, _, _, hm, _⟩
    · simp at h0
    · omega
  cases ho : s.orc s.tick with
  | true =>
    refine .inl ⟨rfl, ?_⟩
    unfold shrinkToFit
    refine M.noexcept_exc (e := .badAlloc) (s' := { s with ntmp := s.ntmp + 1, tick := s.tick + 1 }) ?_
    mstep (size_ok hi)
    mstep (capacity_ok hi)
    rw [szMul_eq (by omega), if_neg (by omega)]
    exact withStorage_fail h0 hmx ho
  | false =>
    refine .inr ⟨rfl, ?_⟩
    have hobj : (allocd s o.siz).obj (.tmp s.ntmp) = some
        { dealloc := some s.nblk, ptr := some s.nblk, cap := capFor o.siz, siz := 0 } := by simp [allocd]
    have hit : i ≠ .tmp s.ntmp := by
      intro h; rw [h, hw.freshT _ (Nat.le_refl _)] at hi; cases hi
    have hobji : (allocd s o.siz).obj i = some o := by simp [allocd, upd_ne _ _ hit, hi]
    cases hp : o.ptr with
    | none => rw [(hg.null hp).1] at h0; exact absurd rfl h0
    | some b =>
      obtain ⟨hd, hs1, _, _, _, hb1⟩ := hg.own hp
      have hlt := hg.lt hw hp
      have hbody : ∀ body : Id → VM α Unit, body = (fun tmp => do
            let d ← data i
            let t ← data tmp
            uninitializedMoveN T d o.siz t
            setSize tmp o.siz
            Storage.moveAssign i tmp) →
          body (.tmp s.ntmp) (allocd s o.siz) =
            (setSize (.tmp s.ntmp) o.siz >>= fun _ => Storage.moveAssign i (.tmp s.ntmp))
            { allocd s o.siz with
              blk := upd (upd s.blk b (some (lv (xs.map T.moved) ++ raw (o.cap - xs.length)))) s.nblk
                (some (lv xs ++ raw (capFor o.siz - o.siz))),
              tick := s.tick + 1, moves := s.moves + o.siz } := by
        rintro body rfl
        mstep (data_ok hobji)
        mstep (data_ok hobj)
        rw [hp]
        mstep (relocate_ok hw hg hp (s2 := allocd s o.siz)
            (blk := upd s.blk s.nblk (some (raw (capFor o.siz)))) (by rw [upd_ne _ _ (by omega)])
            (post := raw (capFor o.siz - o.siz)) (by
              rw [upd_same, ← raw_add]; congr 2; omega) rfl)
        rw [upd_comm _ _ _ (show s.nblk ≠ b by omega), upd_upd]
        rfl
      have hres := realloc hw hi (n := o.siz) (m := o.siz) (mv := o.siz) h0
        (ys := xs) hlen.symm hcf (Mut.id hw) (body := fun tmp => do
            let d ← data i
            let t ← data tmp
            uninitializedMoveN T d o.siz t
            setSize tmp o.siz
            Storage.moveAssign i tmp) (by
          intro hmax _
          refine .inl ⟨s.tick + 1, _, Nat.le_refl _, hbody _ rfl, ?_, ?_, ?_⟩
          · exact .inr ⟨b, xs.map T.moved, o.cap - xs.length, hd, hp, by simp [hs1],
              by rw [upd_ne _ _ (by omega), upd_same]⟩
          · simp
          · intro c h1 h2
            rw [upd_ne _ _ h1, upd_ne _ _ (by rintro rfl; exact h2 hp)])
      have hrun : ∃ s', withStorage T o.siz (fun tmp => do
            let d ← data i
            let t ← data tmp
            uninitializedMoveN T d o.siz t
            setSize tmp o.siz
            Storage.moveAssign i tmp) s = .ok () s' := by
        rw [withStorage_ok h0 hmx ho (hw.freshT _ (Nat.le_refl _))]
        have hb2 := (hbody _ rfl).trans (commit_tail hit (o := o)
            (ot := { dealloc := some s.nblk, ptr := some s.nblk, cap := capFor o.siz, siz := 0 }) hobji hobj
            (.inr ⟨b, xs.map T.moved, o.cap - xs.length, hd, hp, by simp [hs1],
              by simp only; rw [upd_ne _ _ (by omega), upd_same]⟩))
        exact ⟨_, M.withDtor_ok hb2 (dtor_ok (o := {}) (by simp) (.inl rfl))⟩
      obtain ⟨s', hs'⟩ := hrun
      rw [hs'] at hres
      refine ⟨s', ?_, hres.1, hres.2.1, hres.2.2.2.2, hres.2.2.2.1⟩
      unfold shrinkToFit
      refine M.noexcept_ok ?_
      mstep (size_ok hi)
      mstep (capacity_ok hi)
      rw [szMul_eq (by omega), if_neg (by omega)]
      exact hs'

theorem shrinkToFit_zero {s : St α Storage} (hw : WF T s) {i : Id} {o : Storage} {xs : List α}
    (habs : abs s i = some (o, xs)) (hn : 0 < o.cap) (h0 : o.siz = 0) :
    ∃ s', shrinkToFit T i s = .ok () s' ∧ WF T s' ∧ Adv s s' ∧ s'.moves = s.moves ∧ s'.tick = s.tick ∧
      abs s' = upd (abs s) i (some (({} : Storage), [])) := by
  obtain ⟨hi, hg⟩ := hw.get habs
  have hlen := hg.siz
  have hf := hw.freshT _ (Nat.le_refl _)
  have hit : i ≠ .tmp s.ntmp := by
    intro h; rw [h, hf] at hi; cases hi
  have hrun : shrinkToFit T i s = .ok () { s with
      blk := freed o s.blk, obj := upd s.obj i (some {}), ntmp := s.ntmp + 1 } := by
    unfold shrinkToFit
    refine M.noexcept_ok ?_
    mstep (size_ok hi)
    mstep (capacity_ok hi)
    rw [h0, show szMul 0 2 = 0 by decide, if_neg (by omega)]
    rw [withStorage_zero hf]
    have hb : ((do
            let d ← data i
            let t ← data (.tmp s.ntmp)
            uninitializedMoveN T d 0 t
            setSize (.tmp s.ntmp) 0
            Storage.moveAssign i (.tmp s.ntmp) : VM α Unit))
          { s with obj := upd s.obj (.tmp s.ntmp) (some {}), ntmp := s.ntmp + 1 } = .ok () { s with
            blk := freed o s.blk, obj := upd (upd (upd s.obj (.tmp s.ntmp) (some {})) i (some {}))
              (.tmp s.ntmp) (some {}), ntmp := s.ntmp + 1 } := by
      mstep (data_ok (o := o) (by simp [upd_ne _ _ hit, hi]))
      mstep (data_ok (o := {}) (by simp))
      mstep rfl
      exact commit_tail (o := o) (ot := {}) hit (by simp [upd_ne _ _ hit, hi]) (by simp) hg.releasable
    refine (M.withDtor_ok hb (dtor_ok (o := {}) (by simp) (.inl rfl))).trans ?_
    congr 2
    simp only [upd_upd]
    rw [upd_comm _ _ _ (Ne.symm hit), upd_upd, upd_comm _ _ _ hit, upd_eq _ _ _ hf]
  have hc := commit (s' := ({ s with
      blk := freed o s.blk, obj := upd s.obj i (some {}), ntmp := s.ntmp + 1 } : St α Storage)) hw i
    (some {}) [] rfl (by intro o' ho'; cases ho'; exact .inl ⟨rfl, rfl⟩)
    (by
      intro c h1 _
      have h1' : o.ptr ≠ some c := by simpa [ptrOf, hi] using h1
      show freed o s.blk c = _
      unfold freed
      cases hp : o.ptr with
      | none => rfl
      | some d => exact upd_ne _ _ (by rintro rfl; exact h1' hp))
    (by intro c hc; cases hc)
    (by
      intro c h1 _
      have h1' : o.ptr = some c := by simpa [ptrOf, hi] using h1
      show freed o s.blk c = none
      simp [freed, h1'])
    (Nat.le_refl _) (Nat.le_succ _)
    (by
      intro k hk _
      subst hk
      rcases Nat.lt_or_ge k s.ntmp with h | h
      · exact Nat.lt_succ_of_lt h
      · rw [hw.freshT k h] at hi; cases hi)
  exact ⟨_, hrun, hc.1, ⟨Nat.le_refl _, Nat.le_succ _, rfl, Nat.le_refl _⟩, rfl, rfl, hc.2⟩

theorem clear_spec {s : St α Storage} (hw : WF T s) {i : Id} {o : Storage} {xs : List α}
    (habs : abs s i = some (o, xs)) :
    ∃ s', clear i s = .ok () s' ∧ WF T s' ∧ Adv s s' ∧ s'.moves = s.moves ∧ (s'.tick = s.tick ∧ s'.nblk = s.nblk) ∧
      abs s' = upd (abs s) i (some ({ o with siz := 0 }, [])) := by
  obtain ⟨hi, hg⟩ := hw.get habs
  cases hp : o.ptr with
  | none =>
    obtain ⟨rfl, rfl⟩ := hg.null hp
    refine ⟨s, ?_, hw, Adv.refl _, rfl, ⟨rfl, rfl⟩, ?_⟩
    · unfold clear
      refine M.noexcept_ok ?_
      mstep (data_ok hi)
      mstep (size_ok hi)
      mstep rfl
      refine (setSize_ok hi).trans ?_
      have e : ({ s with obj := upd s.obj i (some { ({} : Storage) with siz := 0 }) } : St α Storage) = s := by
        rw [upd_eq _ _ _ hi]
      exact congrArg _ e
    · show _ = upd _ _ (some (({} : Storage), []))
      rw [upd_eq _ _ _ habs]
  | some b =>
    obtain ⟨hd, hs, hle, _, _, hb⟩ := hg.own hp
    have hdes := destroyN_ok xs (s := s) (b := b) (k := 0) [] (raw (o.cap - xs.length)) (by simpa using hb) rfl
    refine ⟨{ s with blk := upd s.blk b (some (raw o.cap)), obj := upd s.obj i (some { o with siz := 0 }) }, ?_, ?_⟩
    · unfold clear
      refine M.noexcept_ok ?_
      mstep (data_ok hi)
      mstep (size_ok hi)
      rw [hp, hs]
      mstep hdes
      refine (setSize_ok (o := o) (by exact hi)).trans ?_
      have : ([] ++ raw xs.length ++ raw (o.cap - xs.length) : List (Option α)) = raw o.cap := by
        rw [List.nil_append, ← raw_add]; congr 1; omega
      rw [this, hp]
    · have hc := commit_inplace (s' := ({ s with
        blk := upd s.blk b (some (raw o.cap)), obj := upd s.obj i (some { o with siz := 0 }) } : St α Storage))
        hw hi hg hp (ys := []) (by simp) rfl (by simp) rfl rfl
      rw [← hp]
      exact ⟨hc.1, ⟨Nat.le_refl _, Nat.le_refl _, rfl, Nat.le_refl _⟩, rfl, ⟨rfl, rfl⟩, hc.2⟩

theorem popBack_spec {s : St α Storage} (hw : WF T s) {i : Id} {o : Storage} {xs : List α}
    (habs : abs s i = some (o, xs)) (hne : xs ≠ []) :
    ∃ s', popBack i s = .ok () s' ∧ WF T s' ∧ Adv s s' ∧ s'.moves = s.moves ∧ (s'.tick = s.tick ∧ s'.nblk = s.nblk) ∧
      abs s' = upd (abs s) i (some ({ o with siz := o.siz - 1 }, xs.dropLast)) := by
  obtain ⟨hi, hg⟩ := hw.get habs
  have hsz := hg.siz_le
  have hpm : ptrdiffMax = 9223372036854775807 := rfl
  have hszm : szMod = 18446744073709551616 := rfl
  have hpos : 0 < xs.length := List.length_pos_iff.2 hne
  cases hp : o.ptr with
  | none => exact absurd (hg.null hp).2 hne
  | some b =>
    obtain ⟨hd, hs, hle, _, _, hb⟩ := hg.own hp
    have hsub : szSub o.siz 1 = o.siz - 1 := szSub_eq (by omega) (by omega)
    have hxs : xs = xs.dropLast ++ [xs.getLast hne] := (List.dropLast_concat_getLast hne).symm
    have hdl : xs.dropLast.length = o.siz - 1 := by rw [List.length_dropLast]; omega
    have hb' : s.blk b = some (lv xs.dropLast ++ some (xs.getLast hne) :: raw (o.cap - xs.length)) := by
      rw [hb]
      have : lv xs = lv xs.dropLast ++ [some (xs.getLast hne)] := by
        conv => lhs; rw [hxs]
        simp only [lv, List.map_append, List.map_cons, List.map_nil]
      rw [this, List.append_assoc]; rfl
    refine ⟨{ s with
      blk := upd s.blk b (some (lv xs.dropLast ++ raw (o.cap - xs.dropLast.length))),
      obj := upd s.obj i (some { o with siz := o.siz - 1 }) }, ?_, ?_⟩
    · unfold popBack
      refine M.noexcept_ok ?_
      mstep (size_ok hi)
      rw [hsub]
      mstep (setSize_ok hi)
      mstep (data_ok (o := { o with siz := o.siz - 1 }) (by simp))
      mstep (size_ok (o := { o with siz := o.siz - 1 }) (by simp))
      simp only [Ptr.add, Nat.zero_add, hp]
      refine (destroyAt_ok (by exact hb') (get_mid _ _ _ (by simp only [lv, List.length_map]; omega))).trans ?_
      rw [set_mid _ _ _ _ (by simp only [lv, List.length_map]; omega)]
      rw [show o.cap - xs.dropLast.length = 1 + (o.cap - xs.length) by omega, raw_add]
      rfl
    · have hc := commit_inplace (s' := ({ s with
        blk := upd s.blk b (some (lv xs.dropLast ++ raw (o.cap - xs.dropLast.length))),
        obj := upd s.obj i (some { o with siz := o.siz - 1 }) } : St α Storage))
        hw hi hg hp (ys := xs.dropLast) (by omega) (by rw [hdl]) rfl rfl rfl
      rw [hdl] at hc
      rw [← hp, hdl]
      exact ⟨hc.1, ⟨Nat.le_refl _, Nat.le_refl _, rfl, Nat.le_refl _⟩, rfl, ⟨rfl, rfl⟩, hc.2⟩

end Ptl.Vector

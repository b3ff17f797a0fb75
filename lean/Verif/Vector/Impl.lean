import Verif.Vector.Ops

/-! # `assign_impl`, `insert_impl`, `resize_impl`, `erase` and the other members -/

namespace Ptl.Vector

variable {α : Type} {T : Elem α}

theorem raw_get (pre post : List (Option α)) (n : Nat) {k : Nat} (hk : k = pre.length) :
    ∀ j, j < n → (pre ++ raw n ++ post)[k + j]? = some none := by
  intro j hj
  subst hk
  rw [List.append_assoc, List.getElem?_append_right (by omega)]
  rw [List.getElem?_append_left (by simp [raw]; omega)]
  simp [raw, hj]

theorem Good.own {s : St α Storage} {o : Storage} {xs : List α} {b : Nat} (h : Good T s.blk o xs)
    (hp : o.ptr = some b) : o.dealloc = some b ∧ o.siz = xs.length ∧ xs.length ≤ o.cap ∧
    10 ≤ o.cap ∧ o.cap ≤ T.maxCapacity ∧ s.blk b = some (lv xs ++ raw (o.cap - xs.length)) := by
  rcases h with ⟨rfl, _⟩ | ⟨c, hd, hp', h⟩
  · cases hp
  · rw [hp] at hp'; cases hp'; exact ⟨hd, h⟩

theorem Good.null {s : St α Storage} {o : Storage} {xs : List α} (h : Good T s.blk o xs)
    (hp : o.ptr = none) : o = {} ∧ xs = [] := by
  rcases h with h | ⟨c, hd, hp', h⟩
  · exact h
  · rw [hp] at hp'; cases hp'

theorem Good.lt {s : St α Storage} {o : Storage} {xs : List α} {b : Nat} (hw : WF T s) (h : Good T s.blk o xs)
    (hp : o.ptr = some b) : b < s.nblk := by
  rcases Nat.lt_or_ge b s.nblk with hb | hb
  · exact hb
  · have := (h.own hp).2.2.2.2.2
    rw [hw.freshB b hb] at this; cases this

theorem Good.siz_le {blk : Nat → Option (List (Option α))} {o : Storage} {xs : List α} (h : Good T blk o xs) :
    o.siz ≤ o.cap ∧ o.cap ≤ ptrdiffMax := by
  rcases h with ⟨rfl, _⟩ | ⟨c, _, _, hs, hc, _, hm, _⟩
  · simp
  · exact ⟨by omega, Nat.le_trans hm (Nat.div_le_self _ _)⟩

/-- in-place commit: the block of `i` is rewritten, everything else stays -/
theorem commit_inplace {s s' : St α Storage} (hw : WF T s) {i : Id} {o : Storage} {b : Nat} {xs ys : List α}
    (hi : s.obj i = some o) (hg : Good T s.blk o xs) (hp : o.ptr = some b) (hys : ys.length ≤ o.cap)
    (hobj : s'.obj = upd s.obj i (some { o with siz := ys.length }))
    (hblk : s'.blk = upd s.blk b (some (lv ys ++ raw (o.cap - ys.length))))
    (hnb : s'.nblk = s.nblk) (hnt : s'.ntmp = s.ntmp) :
    WF T s' ∧ abs s' = upd (abs s) i (some ({ o with siz := ys.length }, ys)) := by
  obtain ⟨hd, hs, hc, h10, hm, hb⟩ := hg.own hp
  refine commit hw i (some { o with siz := ys.length }) ys hobj ?_ ?_ ?_ ?_ (by omega) (by omega) ?_
  · intro o' ho'; cases ho'
    exact .inr ⟨b, hd, hp, rfl, hys, h10, hm, by rw [hblk, upd_same]⟩
  · intro c h1 h2
    rw [hblk, upd_ne]
    rintro rfl
    exact h2 (by simp [ptrOf, hp])
  · intro c hc
    have : o.ptr = some c := by simpa [ptrOf] using hc
    exact ⟨.inl (by rw [hi]; exact this), by rw [hnb]; exact hg.lt hw this⟩
  · intro c h1 h2
    rw [hi] at h1
    exact absurd h1 h2
  · intro k hk _
    subst hk
    rcases Nat.lt_or_ge k s.ntmp with h | h
    · omega
    · rw [hw.freshT k h] at hi; cases hi

/-- heap after a reallocating call obtained its new elements -/
theorem Fills.fresh {s : St α Storage} (hw : WF T s) {func : Ptr → VM α Unit} {vs : List α} {W}
    (hW : Mut T s W) (hF : Fills s func vs W) {n k : Nat} (hk : k + vs.length ≤ capFor n) :
    (∃ t, s.tick + 1 ≤ t ∧
      func ⟨some s.nblk, k⟩ (allocd s n) = .ok () { allocd s n with
        blk := upd (W s.blk) s.nblk (some (raw k ++ lv vs ++ raw (capFor n - k - vs.length))), tick := t }) ∨
    (∃ t, (∃ j, s.tick + 1 ≤ j ∧ j < t ∧ s.orc j = true) ∧
      func ⟨some s.nblk, k⟩ (allocd s n) = .exc .user { allocd s n with tick := t }) := by
  have hraw : (raw (capFor n) : List (Option α)) = raw k ++ raw vs.length ++ raw (capFor n - k - vs.length) := by
    simp only [raw, List.replicate_append_replicate]; congr 1; omega
  rcases hF.run (allocd s n) s.nblk k (raw (capFor n)) (.inr ⟨_, rfl⟩) rfl (by simp [allocd])
    (by rw [hraw]; exact raw_get _ _ _ (by simp [raw])) with ⟨t, l1, ht, hl1, h⟩ | ⟨t, ht, h⟩
  · refine .inl ⟨t, ht, ?_⟩
    have hWf : W (allocd s n).blk = upd (W s.blk) s.nblk (some (raw (capFor n))) := by
      simp only [allocd]; exact hW.fresh _
    rw [hWf] at hl1 h
    rw [upd_same] at hl1
    cases hl1
    rw [h, hraw, wr_mid _ _ _ (by simp [raw])]
    simp
  · exact .inr ⟨t, ht, h⟩

theorem upd5 {ν : Type} (f : Nat → ν) {n b : Nat} (h : b ≠ n) {x y y' z w : ν} :
    upd (upd (upd (upd (upd f n x) b y) n y') b w) n z = upd (upd f b w) n z := by
  funext c
  by_cases h1 : c = n <;> by_cases h2 : c = b <;> simp_all [upd]

theorem raw_add (m n : Nat) : (raw (m + n) : List (Option α)) = raw m ++ raw n := by
  simp [raw, List.replicate_append_replicate]

/-! ### assign_impl -/

theorem assignImpl_spec {s : St α Storage} (hw : WF T s) {i : Id} {o : Storage} {xs : List α}
    (habs : abs s i = some (o, xs)) {func : Ptr → VM α Unit} {vs : List α} {W}
    (hW : Mut T s W) (hF : Fills s func vs W) (hn : o.siz + vs.length < szMod) :
    Res T s (assignImpl T i vs.length func s)
      (fun _ s' =>
        (if o.siz + vs.length ≤ o.cap then
          abs s' = upd (abs { s with blk := W s.blk }) i (some ({ o with siz := vs.length }, vs))
         else ¬ vs.length > T.maxCapacity ∧
          abs s' = upd (abs { s with blk := W s.blk }) i
            (some ({ dealloc := some s.nblk, ptr := some s.nblk, cap := capFor vs.length, siz := vs.length }, vs)))
        ∧ s'.moves = s.moves)
      (Thrown s (o.cap < o.siz + vs.length ∧ vs.length > T.maxCapacity) (o.cap < o.siz + vs.length)) := by
  obtain ⟨hi, hg⟩ := hw.get habs
  obtain ⟨xs1, hg1⟩ := hW.wf.good i o hi
  unfold assignImpl
  refine Res.bind_ok (size_ok hi) ?_
  refine Res.bind_ok (capacity_ok hi) ?_
  rw [szAdd_eq hn]
  by_cases hc : o.siz + vs.length ≤ o.cap
  · rw [if_pos hc]
    refine Res.bind_ok (data_ok hi) ?_
    simp only [hc, if_true, Ptr.add, Nat.zero_add]
    cases hp : o.ptr with
    | none =>
      obtain ⟨rfl, rfl⟩ := hg.null hp
      have hv : vs = [] := by simpa using hc
      subst hv
      refine Res.bind_ok ((hF.nil rfl).1 _ _) ?_
      refine Res.bind_ok (rotate_null none) ?_
      refine Res.bind_ok rfl ?_
      refine Res.of_eq (setSize_ok hi) ?_
      rw [(hF.nil rfl).2]
      have e : ({ s with obj := upd s.obj i (some {}) } : St α Storage) = s := by rw [upd_eq _ _ _ hi]
      simp only [List.length_nil] at e ⊢
      have e' : ({ s with obj := upd s.obj i (some { ({} : Storage) with siz := 0 }) } : St α Storage) = s := e
      rw [e']
      refine ⟨hw, Adv.refl _, ?_, rfl⟩
      rw [upd_eq _ _ _ habs]
    | some b =>
      obtain ⟨hd, hs, hle, h10, hmx, hb⟩ := hg.own hp
      obtain ⟨_, hs1, hle1, _, _, hb1⟩ := hg1.own hp
      have hb1' : W s.blk b = some (lv xs1 ++ raw (o.cap - xs1.length)) := hb1
      have hsplit : ∀ zs : List α, zs.length = o.siz →
          (lv zs ++ raw (o.cap - zs.length) : List (Option α)) =
            lv zs ++ raw vs.length ++ raw (o.cap - o.siz - vs.length) := by
        intro zs hz
        rw [List.append_assoc]; congr 1
        simp only [raw, List.replicate_append_replicate]; congr 1; omega
      rcases hF.run s b o.siz _ (.inl rfl) rfl hb
        (by rw [hsplit xs hs.symm]; exact raw_get _ _ _ (by simp [lv, hs])) with ⟨t, l1, ht, hl1, h⟩ | ⟨t, ht, h⟩
      · rw [hb1'] at hl1; cases hl1
        rw [hsplit xs1 hs1.symm, wr_mid _ _ _ (by simp [lv, hs1])] at h
        refine Res.bind_ok h ?_
        refine Res.bind_ok (rotate_ok [] (raw (o.cap - o.siz - vs.length)) xs1 vs (by simp) (by simp)
          (by simp [hs1]) (by simp [hs1])) ?_
        have hd1 := destroyN_ok xs1 (s := { s with
            blk := upd (W s.blk) b (some (lv vs ++ lv xs1 ++ raw (o.cap - o.siz - vs.length))), tick := t })
          (b := b) (k := vs.length) (lv vs) (raw (o.cap - o.siz - vs.length)) (by simp) (by simp [lv])
        rw [← hs1] at hd1
        simp only [upd_upd, List.nil_append]
        refine Res.bind_ok hd1 ?_
        refine Res.of_eq (setSize_ok hi) ?_
        have hc := commit_inplace (s' := ({ s with
            blk := upd (W s.blk) b (some (lv vs ++ raw o.siz ++ raw (o.cap - o.siz - vs.length))), tick := t,
            obj := upd s.obj i (some { o with siz := vs.length }) } : St α Storage)) hW.wf hi hg1 hp
          (ys := vs) (by omega) rfl (by
            show upd _ _ _ = upd _ _ _
            rw [List.append_assoc]
            simp only [raw, List.replicate_append_replicate]
            rw [show o.siz + (o.cap - o.siz - vs.length) = o.cap - vs.length by omega]) rfl rfl
        simp only [upd_upd]
        exact ⟨hc.1, ⟨Nat.le_refl _, Nat.le_refl _, rfl, ht⟩, by simpa only [hp] using hc.2, rfl⟩
      · refine Res.of_eq (M.bind_exc h) ?_
        exact ⟨⟨rfl, rfl, Nat.le_refl _, Nat.le_refl _, rfl, by obtain ⟨j, h1, h2, h3⟩ := ht; show _ ≤ t; omega, Nat.le_refl _⟩,
          rfl, .inr (.inr ⟨rfl, ht⟩)⟩
  · rw [if_neg hc]
    have hv0 : vs.length ≠ 0 := by
      intro h; have := hg.siz_le.1; omega
    refine (realloc hw hi (n := vs.length) (m := vs.length) (mv := 0) hv0 (ys := vs) rfl
      (by simp [capFor]; omega) hW ?_).mono ?_ ?_
    · intro hmax ho
      have hobj : (allocd s vs.length).obj (.tmp s.ntmp) = some
        { dealloc := some s.nblk, ptr := some s.nblk, cap := capFor vs.length, siz := 0 } := by simp [allocd]
      rcases hF.fresh hw hW (n := vs.length) (k := 0) (by simp [capFor]; omega) with ⟨t, ht, h⟩ | ⟨t, ht, h⟩
      · refine .inl ⟨t, upd (W s.blk) s.nblk
          (some (raw 0 ++ lv vs ++ raw (capFor vs.length - 0 - vs.length))), ht, ?_, ?_, ?_, ?_⟩
        · mstep (data_ok hobj)
          mstep h
          rfl
        · have hr := hg1.releasable
          rcases hr with hr | ⟨b, zs, r, h1, h2, h3, h4⟩
          · exact .inl hr
          · have hlt := hg.lt hw h2
            exact .inr ⟨b, zs, r, h1, h2, h3, by rw [upd_ne _ _ (by omega)]; exact h4⟩
        · simp
        · intro c h1 h2
          rw [upd_ne _ _ h1]
      · refine .inr ⟨t, ht, ?_⟩
        mstep (data_ok hobj)
        exact M.bind_exc h
    · intro a s' hw' _ h
      simp only [hc, if_false]
      exact ⟨⟨h.1, h.2.1⟩, h.2.2⟩
    · intro e s' _ h
      refine ⟨h.1, ?_⟩
      rcases h.2 with h | h | h
      · exact .inl ⟨h.1, by omega, h.2⟩
      · exact .inr (.inl ⟨h.1, by omega, h.2.2⟩)
      · exact .inr (.inr h)

/-! ### insert_impl -/

theorem insertImpl_spec {s : St α Storage} (hw : WF T s) {i : Id} {o : Storage} {xs xs1 : List α}
    (habs : abs s i = some (o, xs)) {func : Ptr → VM α Unit} {vs : List α} {W} {off : Nat}
    (hW : Mut T s W) (hF : Fills s func vs W) (habs1 : abs { s with blk := W s.blk } i = some (o, xs1))
    (hoff : off ≤ o.siz) (hn : o.siz + vs.length < szMod) :
    Res T s (insertImpl T i ⟨o.ptr, off⟩ vs.length func s)
      (fun r s' =>
        if o.siz + vs.length ≤ o.cap then
          r = ⟨o.ptr, off⟩ ∧ (s'.moves = s.moves ∧ s'.nblk = s.nblk) ∧
          abs s' = upd (abs { s with blk := W s.blk }) i
            (some ({ o with siz := o.siz + vs.length }, xs1.take off ++ vs ++ xs1.drop off))
        else ¬ o.siz + max o.siz vs.length > T.maxCapacity ∧ r = ⟨some s.nblk, off⟩ ∧
          s'.moves = s.moves + o.siz ∧
          abs s' = upd (abs { s with blk := W s.blk }) i
            (some ({ dealloc := some s.nblk, ptr := some s.nblk, cap := capFor (o.siz + max o.siz vs.length),
                     siz := o.siz + vs.length }, xs1.take off ++ vs ++ xs1.drop off)))
      (Thrown s (o.cap < o.siz + vs.length ∧ o.siz + max o.siz vs.length > T.maxCapacity)
        (o.cap < o.siz + vs.length)) := by
  obtain ⟨hi, hg⟩ := hw.get habs
  obtain ⟨_, hg1⟩ := hW.wf.get habs1
  have hsz := hg.siz_le
  have hlen1 := hg1.siz
  unfold insertImpl
  refine Res.bind_ok (data_ok hi) ?_
  refine Res.bind_ok (distance_ok rfl (Nat.zero_le _)) ?_
  refine Res.bind_ok (size_ok hi) ?_
  refine Res.bind_ok (capacity_ok hi) ?_
  simp only [Nat.sub_zero]
  rw [szAdd_eq hn]
  have hmaxlt : o.siz + max o.siz vs.length < szMod := by
    rcases Nat.le_total o.siz vs.length with h | h
    · rw [Nat.max_eq_right h]; exact hn
    · rw [Nat.max_eq_left h]
      have h2 : ptrdiffMax = 9223372036854775807 := rfl
      have h3 : szMod = 18446744073709551616 := rfl
      omega
  rw [szAdd_eq hmaxlt]
  -- the final `begin() + offset`
  refine Res.bind (Q := fun _ s' =>
        if o.siz + vs.length ≤ o.cap then
          (s'.moves = s.moves ∧ s'.nblk = s.nblk) ∧
          abs s' = upd (abs { s with blk := W s.blk }) i
            (some ({ o with siz := o.siz + vs.length }, xs1.take off ++ vs ++ xs1.drop off))
        else ¬ o.siz + max o.siz vs.length > T.maxCapacity ∧
          s'.moves = s.moves + o.siz ∧
          abs s' = upd (abs { s with blk := W s.blk }) i
            (some ({ dealloc := some s.nblk, ptr := some s.nblk, cap := capFor (o.siz + max o.siz vs.length),
                     siz := o.siz + vs.length }, xs1.take off ++ vs ++ xs1.drop off))) ?_ ?_
  rotate_left
  · intro _ s' hw' hadv hQ
    by_cases hc : o.siz + vs.length ≤ o.cap
    · simp only [hc, if_true] at hQ ⊢
      have ho := (abs_some (s := s') (i := i) (by rw [hQ.2, upd_same])).1
      refine Res.bind_ok (data_ok ho) ?_
      exact ⟨hw', hadv, by simp [Ptr.add], hQ.1, hQ.2⟩
    · simp only [hc, if_false] at hQ ⊢
      have ho := (abs_some (s := s') (i := i) (by rw [hQ.2.2, upd_same])).1
      refine Res.bind_ok (data_ok ho) ?_
      exact ⟨hw', hadv, hQ.1, by simp [Ptr.add], hQ.2.1, hQ.2.2⟩
  by_cases hc : o.siz + vs.length ≤ o.cap
  · rw [if_pos hc]
    simp only [hc, if_true, Ptr.add, Nat.zero_add]
    cases hp : o.ptr with
    | none =>
      obtain ⟨rfl, rfl⟩ := hg.null hp
      have hv : vs = [] := by simpa using hc
      subst hv
      obtain ⟨hfn, hWn⟩ := hF.nil rfl
      obtain ⟨_, rfl⟩ := hg1.null hp
      have hoff0 : off = 0 := by simpa using hoff
      subst hoff0
      refine Res.bind_ok (hfn _ _) ?_
      refine Res.bind_ok (rotate_null none) ?_
      refine Res.of_eq (setSize_ok hi) ?_
      rw [hWn]
      have e : ({ s with obj := upd s.obj i (some { ({} : Storage) with siz := 0 }) } : St α Storage) = s := by
        rw [upd_eq _ _ _ hi]
      simp only [List.length_nil, Nat.add_zero]
      rw [e]
      refine ⟨hw, Adv.refl _, ⟨rfl, rfl⟩, ?_⟩
      show abs s = upd (abs s) i (some (({} : Storage), []))
      rw [upd_eq _ _ _ habs]
    | some b =>
      obtain ⟨hd, hs, hle, h10, hmx, hb⟩ := hg.own hp
      obtain ⟨_, hs1, hle1, _, _, hb1⟩ := hg1.own hp
      have hb1' : W s.blk b = some (lv xs1 ++ raw (o.cap - xs1.length)) := hb1
      have hsplit : ∀ zs : List α, zs.length = o.siz →
          (lv zs ++ raw (o.cap - zs.length) : List (Option α)) =
            lv zs ++ raw vs.length ++ raw (o.cap - o.siz - vs.length) := by
        intro zs hz
        rw [List.append_assoc]; congr 1
        simp only [raw, List.replicate_append_replicate]; congr 1; omega
      rcases hF.run s b o.siz _ (.inl rfl) rfl hb
        (by rw [hsplit xs hs.symm]; exact raw_get _ _ _ (by simp [lv, hs])) with ⟨t, l1, ht, hl1, h⟩ | ⟨t, ht, h⟩
      · rw [hb1'] at hl1; cases hl1
        rw [hsplit xs1 hs1.symm, wr_mid _ _ _ (by simp [lv, hs1])] at h
        refine Res.bind_ok h ?_
        have hx1 : lv xs1 = lv (xs1.take off) ++ lv (xs1.drop off) := by
          simp only [lv]; rw [← List.map_append, List.take_append_drop]
        have hlt : (xs1.take off).length = off := by rw [List.length_take]; omega
        have hld : (xs1.drop off).length = o.siz - off := by rw [List.length_drop]; omega
        refine Res.bind_ok (rotate_ok (lv (xs1.take off)) (raw (o.cap - o.siz - vs.length)) (xs1.drop off) vs
          (by simp only [upd_same]; rw [hx1]) (by simp only [lv, List.length_map]; omega)
          (by simp only [lv, List.length_map]; omega) (by simp only [lv, List.length_map]; omega)) ?_
        refine Res.of_eq (setSize_ok hi) ?_
        have hylen : (xs1.take off ++ vs ++ xs1.drop off).length = o.siz + vs.length := by
          simp only [List.length_append]; omega
        have hcm := commit_inplace (s' := ({ s with
            blk := upd (W s.blk) b (some (lv (xs1.take off) ++ lv vs ++ lv (xs1.drop off) ++
              raw (o.cap - o.siz - vs.length))), tick := t,
            obj := upd s.obj i (some { o with siz := o.siz + vs.length }) } : St α Storage)) hW.wf hi hg1 hp
          (ys := xs1.take off ++ vs ++ xs1.drop off) (by omega) (by rw [hylen]) (by
            show upd _ _ _ = upd _ _ _
            rw [hylen]
            simp only [lv, List.map_append]
            rw [Nat.sub_sub]) rfl rfl
        simp only [upd_upd]
        rw [hylen] at hcm
        exact ⟨hcm.1, ⟨Nat.le_refl _, Nat.le_refl _, rfl, ht⟩, ⟨rfl, rfl⟩, by simpa only [hp] using hcm.2⟩
      · refine Res.of_eq (M.bind_exc h) ?_
        exact ⟨⟨rfl, rfl, Nat.le_refl _, Nat.le_refl _, rfl, by obtain ⟨j, h1, h2, h3⟩ := ht; show _ ≤ t; omega, Nat.le_refl _⟩,
          rfl, .inr (.inr ⟨rfl, ht⟩)⟩
  · rw [if_neg hc]
    have hv0 : vs.length ≠ 0 := by omega
    have hylen : (xs1.take off ++ vs ++ xs1.drop off).length = o.siz + vs.length := by
      simp only [List.length_append, List.length_take, List.length_drop]; omega
    refine (realloc hw hi (n := o.siz + max o.siz vs.length) (m := o.siz + vs.length) (mv := o.siz) (by omega)
      (ys := xs1.take off ++ vs ++ xs1.drop off) hylen
      (by simp only [capFor]; omega) hW ?_).mono ?_ ?_
    · intro hmax ho
      have hcap : o.siz + vs.length ≤ capFor (o.siz + max o.siz vs.length) := by simp only [capFor]; omega
      generalize hN : o.siz + max o.siz vs.length = N at *
      have hobj : (allocd s N).obj (.tmp s.ntmp) = some
        { dealloc := some s.nblk, ptr := some s.nblk, cap := capFor N, siz := 0 } := by simp [allocd]
      rcases hF.fresh hw hW (n := N) (k := off) (by omega) with ⟨t, ht, h⟩ | ⟨t, ht, h⟩
      · cases hp : o.ptr with
        | none =>
          obtain ⟨rfl, rfl⟩ := hg.null hp
          obtain ⟨_, rfl⟩ := hg1.null hp
          have hoff0 : off = 0 := by simpa using hoff
          subst hoff0
          refine .inl ⟨t, upd (W s.blk) s.nblk
            (some (raw 0 ++ lv vs ++ raw (capFor N - 0 - vs.length))), ht, ?_, .inl rfl, ?_, ?_⟩
          · mstep (data_ok hobj)
            mstep h
            mstep rfl
            mstep (distance_ok rfl (Nat.le_refl _))
            mstep rfl
            rfl
          · simp
          · intro c h1 h2
            rw [upd_ne _ _ h1]
        | some b =>
          obtain ⟨hd, hs, hle, h10, hmx, hb⟩ := hg.own hp
          obtain ⟨_, hs1, hle1, _, _, hb1⟩ := hg1.own hp
          have hb1' : W s.blk b = some (lv xs1 ++ raw (o.cap - xs1.length)) := hb1
          have hlt := hg.lt hw hp
          have hbn : b ≠ s.nblk := by omega
          have htk : (xs1.take off).length = off := by rw [List.length_take]; omega
          have hdr : (xs1.drop off).length = o.siz - off := by rw [List.length_drop]; omega
          have hx1 : lv xs1 = lv (xs1.take off) ++ lv (xs1.drop off) := by
            simp only [lv]; rw [← List.map_append, List.take_append_drop]
          have hm1 := uninitializedMoveN_ok (T := T) (xs1.take off)
            (s := { allocd s N with
              blk := upd (W s.blk) s.nblk (some (raw off ++ lv vs ++ raw (capFor N - off - vs.length))), tick := t })
            (a := b) (b := s.nblk) (ka := 0) (kb := 0) [] (lv (xs1.drop off) ++ raw (o.cap - xs1.length))
            [] (lv vs ++ raw (capFor N - off - vs.length)) hbn
            (by simp only [upd_ne _ _ hbn]; rw [hb1', hx1]; simp only [List.nil_append, List.append_assoc]) rfl (by simp only [upd_same]; rw [htk]; simp) rfl
          rw [htk] at hm1
          have hm2 := uninitializedMoveN_ok (T := T) (xs1.drop off)
            (s := { allocd s N with
              blk := upd (upd (upd (W s.blk) s.nblk
                (some (raw off ++ lv vs ++ raw (capFor N - off - vs.length)))) b
                (some ([] ++ lv ((xs1.take off).map T.moved) ++ (lv (xs1.drop off) ++ raw (o.cap - xs1.length)))))
                s.nblk (some ([] ++ lv (xs1.take off) ++ (lv vs ++ raw (capFor N - off - vs.length)))),
              tick := t, moves := s.moves + off })
            (a := b) (b := s.nblk) (ka := off) (kb := off + vs.length) (lv ((xs1.take off).map T.moved))
            (raw (o.cap - xs1.length))
            (lv (xs1.take off) ++ lv vs) (raw (capFor N - o.siz - vs.length)) hbn
            (by simp only [upd_ne _ _ hbn, upd_same]; simp) (by simp [lv]; omega)
            (by
              simp only [upd_same]
              rw [hdr, show capFor N - off - vs.length = (o.siz - off) + (capFor N - o.siz - vs.length) by omega, raw_add]
              simp only [List.nil_append, List.append_assoc]) (by simp only [lv, List.length_append, List.length_map]; omega)
          rw [hdr] at hm2
          have hzs : lv (List.map T.moved (xs1.take off)) ++ lv (List.map T.moved (xs1.drop off)) =
              lv (xs1.map T.moved) := by
            simp only [lv]; rw [← List.map_append, ← List.map_append, List.take_append_drop]
          refine .inl ⟨t, upd (upd (W s.blk) b (some (lv (xs1.map T.moved) ++ raw (o.cap - xs1.length)))) s.nblk
            (some (lv (xs1.take off) ++ lv vs ++ lv (xs1.drop off) ++ raw (capFor N - o.siz - vs.length))),
            ht, ?_, ?_, ?_, ?_⟩
          · mstep (data_ok hobj)
            simp only [Ptr.add, Nat.zero_add]
            mstep h
            mstep hm1
            mstep (distance_ok rfl hoff)
            mstep hm2
            rw [hzs]
            rw [upd5 _ hbn]
            rw [show s.moves + off + (o.siz - off) = s.moves + o.siz by omega]
          · refine .inr ⟨b, xs1.map T.moved, o.cap - xs1.length, hd, hp, by simp [hs1], ?_⟩
            rw [upd_ne _ _ hbn, upd_same]
          · simp only [upd_same, lv, List.map_append]
            rw [Nat.sub_sub]
          · intro c h1 h2
            rw [upd_ne _ _ h1, upd_ne _ _ (by rintro rfl; exact h2 rfl)]
      · refine .inr ⟨t, ht, ?_⟩
        mstep (data_ok hobj)
        simp only [Ptr.add, Nat.zero_add]
        exact M.bind_exc h
    · intro a s' hw' _ h
      simp only [hc, if_false]
      exact ⟨h.1, h.2.2, h.2.1⟩
    · intro e s' _ h
      refine ⟨h.1, ?_⟩
      rcases h.2 with h | h | h
      · exact .inl ⟨h.1, by omega, h.2⟩
      · exact .inr (.inl ⟨h.1, by omega, h.2.2⟩)
      · exact .inr (.inr h)

/-! ### erase -/

theorem erase_spec {s : St α Storage} (hw : WF T s) {i : Id} {o : Storage} {xs : List α}
    (habs : abs s i = some (o, xs)) {f l : Nat} (hfl : f ≤ l) (hl : l ≤ o.siz) :
    Res T s (erase T i ⟨o.ptr, f⟩ ⟨o.ptr, l⟩ s)
      (fun r s' => r = ⟨o.ptr, f⟩ ∧ s'.moves = s.moves ∧ s'.tick = s.tick ∧ s'.nblk = s.nblk ∧
        abs s' = upd (abs s) i (some ({ o with siz := o.siz - (l - f) },
          xs.take f ++ (if f = l then (xs.drop l).map T.selfMove else xs.drop l))))
      (fun _ _ => False) := by
  obtain ⟨hi, hg⟩ := hw.get habs
  have hsz := hg.siz_le
  have hlen := hg.siz
  have hpm : ptrdiffMax = 9223372036854775807 := rfl
  have hszm : szMod = 18446744073709551616 := rfl
  have hk : szSub o.siz (l - f) = o.siz - (l - f) := szSub_eq (by omega) (by omega)
  cases hp : o.ptr with
  | none =>
    obtain ⟨rfl, rfl⟩ := hg.null hp
    have h1 : l = 0 := by simpa using hl
    have h2 : f = 0 := by omega
    subst h1 h2
    unfold erase
    refine Res.of_eq (M.noexcept_ok (a := ⟨none, 0⟩) (s' := s) ?_) ?_
    · mstep (distance_ok rfl (Nat.le_refl _))
      mstep (data_ok hi)
      mstep (size_ok hi)
      mstep (distance_ok rfl (Nat.le_refl _))
      mstep rfl
      mstep (distance_ok rfl (Nat.le_refl _))
      mstep rfl
      mstep (setSize_ok hi)
      have e : ({ s with obj := upd s.obj i (some { ({} : Storage) with siz := szSub 0 0 }) } : St α Storage) = s := by
        have : szSub 0 0 = 0 := by decide
        rw [this, upd_eq _ _ _ hi]
      exact congrArg _ e
    · refine ⟨hw, Adv.refl _, rfl, rfl, rfl, rfl, ?_⟩
      simp only [if_true, List.take_nil, List.drop_nil, List.map_nil, List.append_nil]
      rw [upd_eq _ _ _ habs]
  | some b =>
    obtain ⟨hd, hs, hle, h10, hmx, hb⟩ := hg.own hp
    -- the element-wise move
    have hmove : ∃ g : List α, g.length = l - f ∧
        moveN T ⟨some b, l⟩ (o.siz - l) ⟨some b, f⟩ s = .ok () { s with
          blk := upd s.blk b (some (lv (xs.take f ++ (if f = l then (xs.drop l).map T.selfMove else xs.drop l)) ++
            lv g ++ raw (o.cap - xs.length))) } := by
      have hxl : (xs.drop l).length = o.siz - l := by rw [List.length_drop]; omega
      have htf : (xs.take f).length = f := by rw [List.length_take]; omega
      by_cases hfl' : f = l
      · subst hfl'
        have h := moveN_self (T := T) (xs.drop f) (s := s) (b := b) (k := f) (lv (xs.take f))
          (raw (o.cap - xs.length))
          (by rw [hb]; simp only [lv, ← List.map_append, List.take_append_drop])
          (by simp only [lv, List.length_map]; omega)
        rw [hxl] at h
        refine ⟨[], by simp, ?_⟩
        rw [h]
        simp only [if_true, lv, List.map_append, List.map_nil, List.append_nil]
      · have hgap : ((xs.drop f).take (l - f)).length = l - f := by
          rw [List.length_take, List.length_drop]; omega
        obtain ⟨g, hgl, h⟩ := moveN_gap (T := T) (xs.drop l) (s := s) (b := b) (kd := f) (ks := l) (lv (xs.take f))
          (raw (o.cap - xs.length)) ((xs.drop f).take (l - f))
          (by intro h; rw [h] at hgap; simp at hgap; omega)
          (by
            rw [hb]
            simp only [lv, ← List.map_append, List.append_assoc]
            congr 3
            rw [← List.append_assoc]
            have : xs.drop l = (xs.drop f).drop (l - f) := by rw [List.drop_drop]; congr 1; omega
            rw [this, List.append_assoc, List.take_append_drop, List.take_append_drop])
          (by simp only [lv, List.length_map]; omega) (by simp only [lv, List.length_map]; omega)
        rw [hxl] at h
        refine ⟨g, by omega, ?_⟩
        rw [h]
        simp only [hfl', if_false, lv, List.map_append]
    obtain ⟨g, hgl, hmove⟩ := hmove
    generalize hys : xs.take f ++ (if f = l then (xs.drop l).map T.selfMove else xs.drop l) = ys at hmove
    have hylen : ys.length = o.siz - (l - f) := by
      subst hys
      have htf : (xs.take f).length = f := by rw [List.length_take]; omega
      split <;> simp only [List.length_append, List.length_map, List.length_drop] <;> omega
    have hdes := destroyN_ok g (s := { s with blk := upd s.blk b (some (lv ys ++ lv g ++ raw (o.cap - xs.length))) })
      (b := b) (k := ys.length) (lv ys) (raw (o.cap - xs.length)) (by simp) (by simp [lv])
    unfold erase
    refine Res.of_eq (M.noexcept_ok (a := ⟨some b, f⟩) (s' := { s with
      blk := upd s.blk b (some (lv ys ++ raw (o.cap - ys.length))),
      obj := upd s.obj i (some { o with siz := o.siz - (l - f) }) }) ?_) ?_
    · mstep (distance_ok rfl hfl)
      mstep (data_ok hi)
      mstep (size_ok hi)
      rw [hp]
      simp only [Ptr.add, Nat.zero_add]
      mstep (distance_ok rfl hl)
      mstep hmove
      rw [hk]
      mstep (distance_ok rfl (by simp only; omega))
      simp only
      rw [show o.siz - (o.siz - (l - f)) = g.length by omega, ← hylen]
      mstep hdes
      mstep (setSize_ok hi)
      simp only [upd_upd, List.append_assoc]
      rw [← raw_add, show g.length + (o.cap - xs.length) = o.cap - ys.length by omega, hp]
      rfl
    · have hc := commit_inplace (s' := ({ s with
        blk := upd s.blk b (some (lv ys ++ raw (o.cap - ys.length))),
        obj := upd s.obj i (some { o with siz := o.siz - (l - f) }) } : St α Storage)) hw hi hg hp
        (ys := ys) (by omega) (by rw [hylen]) rfl rfl rfl
      rw [hylen] at hc
      rw [← hylen]
      exact ⟨by rw [hylen]; exact hc.1, ⟨Nat.le_refl _, Nat.le_refl _, rfl, Nat.le_refl _⟩, rfl, rfl, rfl, rfl,
        by rw [hylen]; simpa only [hp] using hc.2⟩

end Ptl.Vector

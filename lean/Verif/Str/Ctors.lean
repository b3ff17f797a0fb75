import Verif.Str.Ranges

/-! # Constructors, and the members that go through a temporary string -/

namespace Ptl.Str

/-- a constructor call for the dead object `i`, with something about the capacity of the new string -/
def MakesP (P : Nat → Prop) (m : SM Unit) (s : St) (i : Id) (src : List Arg) (bs : List UInt8) : Prop :=
  (∃ s' v, m s = .ok () s' ∧ Step s s' (upd (abs s) i (some v)) ∧ Holds v bs 0 ∧ P v.cap) ∨
  (∃ s' e, m s = .exc e s' ∧ Step s s' (abs s) ∧ Why s s' src bs.length e)

/-- a call on string `i` that changes nothing at all when it throws; it needs no memory for the string itself if `stay`, and never
leaves the string with more than what was there or its contents call for -/
def RunsS {β : Type} (m : SM β) (s : St) (i : Id) (v : Vw) (src : List Arg) (ys : List UInt8) (stay : Prop) (ret : Vw → β) : Prop :=
  (∃ s' v', m s = .ok (ret v') s' ∧ Step s s' (upd (abs s) i (some v')) ∧ Holds v' ys 0 ∧
    (stay → v'.base = v.base ∧ v'.cap = v.cap) ∧ v'.cap ≤ max v.cap (fit ys.length)) ∨
  (∃ s' e, m s = .exc e s' ∧ Step s s' (abs s) ∧ Why s s' src ys.length e ∧ (stay → src ≠ []))

theorem Runs.strong {β : Type} {m : SM β} {s : St} {i : Id} {v : Vw} {xs ys : List UInt8} {stay : Prop} {ret : Vw → β}
    (h : Runs m s i v xs [] ys stay ret) (hv : abs s i = some v) : RunsS m s i v [] ys stay ret := by
  rcases h with ⟨s', v', h1, h2, h3, h4, h5⟩ | ⟨s', e, v', hr, st, hk, hy, hu⟩
  · refine .inl ⟨s', v', h1, h2, h3, h4, ?_⟩
    by_cases h : stay
    · rw [(h4 h).2]; exact Nat.le_max_left _ _
    · rw [h5 h]; exact Nat.le_max_right _ _
  · have he : e ≠ .user := by rintro rfl; cases hy with | user h _ => cases h
    obtain rfl := hk.2.2.2 he
    refine .inr ⟨s', e, hr, ?_, hy, fun h => absurd (hu h) he⟩
    rwa [upd_eq _ _ _ hv] at st

theorem storageAssign_run {s : St} (hw : WF s) {i : Id} {v : Vw} (hv : abs s i = some v) {n : Nat} (hn : n + 23 < szMod) :
    (∃ s' v', storageAssign i n s = .ok () s' ∧ Step s s' (upd (abs s) i (some v')) ∧ Holds v' [] 0 ∧ n ≤ v'.cap ∧ v'.cap = fit n) ∨
    (∃ s', storageAssign i n s = .exc .badAlloc s' ∧ Step s s' (abs s) ∧ 22 < n ∧ (ptrdiffMax ≤ capFor n ∨ Hit s s')) := by
  rcases withStorage_run hw (fun tmp => Storage.moveAssign i tmp) hn with ⟨s1, w, hr, hf, _⟩ | ⟨s', hr, st, h1, h2, _⟩
  · left
    obtain ⟨s', v', hr', st', hh', hc'⟩ := commit (m := Storage.moveAssign i (.tmp s.ntmp)) (s1 := s1) (ys := []) (u := 0) hf.step hv
      (tmp_dead hw) ⟨hf.siz, _, hf.buf⟩ (fun _ h => h)
    exact ⟨s', v', hr.trans hr', st', hh', hc' ▸ hf.cap, hc'.trans hf.fit⟩
  · exact .inr ⟨s', hr, st, h1, h2⟩

section ctor
variable {s : St} (hw : WF s) {i : Id} (hd : abs s i = none) (hi : ∀ k, i = .tmp k → k < s.ntmp)
include hw hd hi

theorem ctorDefault_ok : ∃ s', ctorDefault i s = .ok () s' ∧ Quiet s s' (upd (abs s) i (some (emptySso i))) := ctor_ok hw hd hi

/-- the body of a constructor runs on an empty string; if it throws, nothing remains -/
theorem construct_run {P : Nat → Prop} {body : SM Unit} {src : List Arg} {bs : List UInt8}
    (hb : ∀ s1, Quiet s s1 (upd (abs s) i (some (emptySso i))) →
      (∃ s' v, body s1 = .ok () s' ∧ Step s1 s' (upd (abs s1) i (some v)) ∧ Holds v bs 0 ∧ P v.cap) ∨
      (∃ s' e v, body s1 = .exc e s' ∧ Step s1 s' (upd (abs s1) i (some v)) ∧ Why s1 s' src bs.length e)) :
    MakesP P (construct i body) s i src bs := by
  obtain ⟨s1, hr1, q1⟩ := ctor_ok hw hd hi
  rcases hb s1 q1 with ⟨s2, v, hr2, st2, hh⟩ | ⟨s2, e, v, hr2, st2, hy⟩
  · left
    refine ⟨s2, v, ?_, q1.step.then st2, hh⟩
    unfold construct
    mstep hr1
    exact M.onExc_ok hr2
  · right
    obtain ⟨s3, hr3, q3⟩ := dtor_ok st2.wf st2.at
    refine ⟨s3, e, ?_, ?_, hy.mono q1.orc (Nat.le_of_eq q1.tick.symm) (Nat.le_of_eq q3.tick.symm)⟩
    · unfold construct
      mstep hr1
      exact M.onExc_exc hr2 hr3
    · have := (q1.step.trans st2).trans q3.step
      rwa [st2.abs, q1.abs, upd_upd, upd_upd, upd_eq _ _ _ hd] at this

/-- allocation, then `set_size(n)`, then something that writes exactly `n` bytes -/
theorem construct_sized {put : Ptr → SM Unit} {src : List Arg} {bs : List UInt8} (hn : bs.length + 23 < szMod)
    (hput : ∀ s1 v X B, Step s s1 (upd (abs s) i (some v)) → v.buf = X ++ B → X.length = bs.length →
      (∃ s', put ⟨some v.base, 0⟩ s1 = .ok () s' ∧ Step s1 s' (upd (abs s1) i (some { v with buf := bs.map some ++ B }))) ∨
      (∃ s' v', put ⟨some v.base, 0⟩ s1 = .exc .user s' ∧ Step s1 s' (upd (abs s1) i (some v')) ∧ Why s1 s' src 0 .user)) :
    MakesP (· = fit bs.length) (construct i do
      storageAssign i bs.length
      setSize i bs.length
      let d ← data i
      put d) s i src bs := by
  refine construct_run hw hd hi fun s1 q1 => ?_
  rcases storageAssign_run q1.wf q1.at hn with ⟨s2, v2, hr2, st2, hh2, hc2, hf2⟩ | ⟨s2, hr2, st2, h1, h2⟩
  · obtain ⟨s3, hr3, q3⟩ := setSize_any st2.wf st2.at hc2
    have hl := (st2.wf.gd st2.at).len
    have st3 := st2.then q3.step
    rcases hput s3 _ (v2.buf.take bs.length) (some 0 :: v2.buf.drop (bs.length + 1)) (q1.step.then st3) rfl (by simp; omega) with
      ⟨s4, hr4, st4⟩ | ⟨s4, v4, hr4, st4, hy⟩
    · left
      refine ⟨s4, _, ?_, st3.then st4, ⟨rfl, _, rfl⟩, hf2⟩
      mstep hr2
      mstep hr3
      mstep (data_ok q3.wf q3.at)
      exact hr4
    · right
      refine ⟨s4, .user, v4, ?_, st3.then st4, (hy.le (Nat.zero_le _) (fun _ => id)).mono st3.orc st3.tick (Nat.le_refl _)⟩
      mstep hr2
      mstep hr3
      mstep (data_ok q3.wf q3.at)
      exact hr4
  · right
    refine ⟨s2, .badAlloc, emptySso i, M.bind_exc hr2, ?_, .mem h1 h2⟩
    rw [upd_eq _ _ _ q1.at]; exact st2

theorem ctorRange_run {src : List Arg} {bs : List UInt8} {j : Id} {lo : Nat} (hs : SeesAll (abs s) j lo src bs)
    (hn : bs.length + 23 < szMod) : MakesP (· = fit bs.length) (ctorRange i src) s i src bs := by
  unfold ctorRange
  rw [hs.length]
  refine construct_sized hw hd hi hn fun s1 v X B st hb hX => ?_
  rcases copyRange_run st.wf st.at (hs.fresh hw hd st.abs 0) (A := []) hb rfl hX (Nat.zero_le _) with
    ⟨s', hr, st', _⟩ | ⟨s', m, hr, hm, st', _, hhit, b, hbm⟩
  · exact .inl ⟨s', hr, st'⟩
  · exact .inr ⟨s', _, hr, st', .user hbm hhit⟩

theorem ctorFill_run {n : Nat} (ch : UInt8) (hn : n + 23 < szMod) : MakesP (· = fit n) (ctorFill i n ch) s i [] (List.replicate n ch) := by
  have := construct_sized hw hd hi (put := fun d => fill d n ch) (src := []) (bs := List.replicate n ch) (by simpa using hn)
    (fun s1 v X B st hb hX => by
      obtain ⟨s', hr, q⟩ := writeN_ok st.wf st.at (A := []) (X := X) (B := B) (bs := List.replicate n ch) (off := 0) hb rfl hX
      exact .inl ⟨s', hr, q.step⟩)
  simp only [List.length_replicate] at this
  exact this

theorem concat_run {l r : List Arg} {bl br : List UInt8} {j : Id} {lo : Nat} (hsl : SeesAll (abs s) j lo l bl)
    (hsr : SeesAll (abs s) j lo r br) (hn : bl.length + br.length + 23 < szMod) : MakesP (· = fit (bl ++ br).length) (concat i l r) s i (l ++ r) (bl ++ br) := by
  have hadd : szAdd l.length r.length = (bl ++ br).length := by
    rw [hsl.length, hsr.length, szAdd_eq (by omega)]; simp
  unfold concat
  simp only [hadd]
  have := construct_sized hw hd hi (src := l ++ r) (bs := bl ++ br) (put := fun d => do
      copyRange l d
      copyRange r (d.add l.length)) (by simpa using hn) (fun s1 v X B st hb hX => by
    obtain ⟨X1, X2, hX12, hX1⟩ : ∃ X1 X2, X = X1 ++ X2 ∧ X1.length = bl.length :=
      ⟨X.take bl.length, X.drop bl.length, (List.take_append_drop _ _).symm, by simp at hX; simp; omega⟩
    have hX2 : X2.length = br.length := by rw [hX12] at hX; simp at hX; omega
    rcases copyRange_run st.wf st.at (hsl.fresh hw hd st.abs 0) (A := []) (X := X1) (B := X2 ++ B) (off := 0) (by rw [hb, hX12]; simp) rfl hX1
      (Nat.zero_le _) with ⟨s2, hr2, st2, _⟩ | ⟨s2, m, hr2, hm, st2, _, hhit, b, hbm⟩
    · rcases copyRange_run st2.wf st2.at (hsr.fresh hw hd (st.then st2).abs 0) (A := bl.map some) (X := X2) (B := B) (off := bl.length)
        (by simp) (by simp) hX2 (Nat.zero_le _) with ⟨s3, hr3, st3, _⟩ | ⟨s3, m, hr3, hm, st3, _, hhit, b, hbm⟩
      · left
        refine ⟨s3, ?_, by simpa using st2.then st3⟩
        mstep hr2
        simp only [Ptr.add, Nat.zero_add]
        rw [hsl.length]
        exact hr3
      · right
        refine ⟨s3, _, ?_, st2.then st3, .user (List.mem_append_right _ hbm) (hhit.mono st2.orc st2.tick (Nat.le_refl _))⟩
        mstep hr2
        simp only [Ptr.add, Nat.zero_add]
        rw [hsl.length]
        exact hr3
    · exact .inr ⟨s2, _, M.bind_exc hr2, st2, .user (List.mem_append_left _ hbm) hhit⟩)
  exact this

end ctor

/-! ### input iterators -/

theorem pushAll_run {as : List Arg} {bs : List UInt8} : ∀ {s : St}, WF s → ∀ {i : Id} {v : Vw} {xs : List UInt8} {t : UInt8},
    abs s i = some v → Holds v xs t → SeesAll (abs s) i 0 as bs →
    (∃ s' v' t', pushAll i as s = .ok () s' ∧ Step s s' (upd (abs s) i (some v')) ∧ Holds v' (xs ++ bs) t' ∧ (t = 0 → t' = 0) ∧
      v'.cap ≤ max v.cap (fit (xs.length + bs.length))) ∨
    (∃ s' e v', pushAll i as s = .exc e s' ∧ Step s s' (upd (abs s) i (some v')) ∧ Why s s' as (xs.length + bs.length) e) := by
  induction as generalizing bs with
  | nil =>
    intro s hw i v xs t hv hh hs
    cases hs
    left
    refine ⟨s, v, t, rfl, ?_, by simpa using hh, id, Nat.le_max_left _ _⟩
    rw [upd_eq _ _ _ hv]; exact Step.refl hw
  | cons a as ih =>
    intro s hw i v xs t hv hh hs
    cases hs with
    | @cons _ b _ bs ha hs =>
    rcases deref_run hw ha with ⟨s1, hr1, st1, _⟩ | ⟨s1, hr1, st1, _, hhit, hab⟩
    · have hv1 : abs s1 i = some v := by rw [st1.abs, hv]
      rcases pushBack_run st1.wf hv1 hh b with ⟨s2, v2, hr2, st2, hh2, hc2, _⟩ | ⟨s2, e, hr2, st2, hy, _⟩
      · have st2' := st2
        rw [st1.abs] at st2
        have st12 := st1.trans st2
        have hs2 : SeesAll (abs s2) i 0 as bs := by
          refine hs.stable fun j w k c hj hk _ => ⟨w, ?_, rfl, rfl, hk⟩
          rw [st12.ne (fun h => absurd (hk h) (by omega)), hj]
        rcases ih st12.wf st12.at hh2 hs2 with ⟨s3, v3, t3, hr3, st3, hh3, ht3, hc3⟩ | ⟨s3, e, v3, hr3, st3, hy⟩
        · left
          refine ⟨s3, v3, t3, ?_, st12.then st3, by simpa using hh3, fun _ => ht3 rfl, Nat.le_trans hc3 ?_⟩
          rotate_left
          · have hg : 22 ≤ v.cap := by rcases (hw.gd hv).shape with ⟨_, h⟩ | ⟨_, _, h, _⟩ <;> omega
            simp only [List.length_append, List.length_cons, List.length_nil]
            rw [hc2]
            split
            · unfold fit capFor; split <;> split <;> omega
            · rw [Nat.add_assoc, Nat.add_comm 1]; exact Nat.le_refl _
          unfold pushAll
          mstep hr1
          mstep hr2
          exact hr3
        · right
          refine ⟨s3, e, v3, ?_, st12.then st3,
            (hy.le (by simp; omega) (fun _ h => List.mem_cons_of_mem _ h)).mono st12.orc st12.tick (Nat.le_refl _)⟩
          unfold pushAll
          mstep hr1
          mstep hr2
          exact hr3
      · right
        refine ⟨s2, e, v, ?_, ?_, (hy.le (by simp) (fun _ h => by cases h)).mono st1.orc st1.tick (Nat.le_refl _)⟩
        · unfold pushAll
          mstep hr1
          exact M.bind_exc hr2
        · rw [upd_eq _ _ _ hv]
          have := st1.trans st2
          rwa [st1.abs] at this
    · right
      refine ⟨s1, .user, v, M.bind_exc hr1, ?_, .user (by rw [hab]; exact List.mem_cons_self) hhit⟩
      rw [upd_eq _ _ _ hv]; exact st1

theorem ctorInput_run {s : St} (hw : WF s) {i : Id} (hd : abs s i = none) (hi : ∀ k, i = .tmp k → k < s.ntmp) {src : List Arg}
    {bs : List UInt8} {j : Id} {lo : Nat} (hs : SeesAll (abs s) j lo src bs) : MakesP (· ≤ fit bs.length) (ctorInput i src) s i src bs := by
  refine construct_run hw hd hi fun s1 q1 => ?_
  rcases pushAll_run q1.wf q1.at (emptySso_holds i) (hs.fresh hw hd q1.abs 0) with ⟨s2, v2, t2, hr2, st2, hh2, ht2, hc2⟩ | ⟨s2, e, v2, hr2, st2, hy⟩
  · rw [ht2 rfl] at hh2
    refine .inl ⟨s2, v2, hr2, st2, by simpa using hh2, Nat.le_trans hc2 ?_⟩
    have : (emptySso i).cap = 22 := rfl
    rw [this, List.length_nil, Nat.zero_add]
    unfold fit capFor; split <;> omega
  · exact .inr ⟨s2, e, v2, hr2, st2, by simpa using hy⟩

/-! ### a temporary string -/

theorem withString_run {P : Nat → Prop} {s : St} (hw : WF s) {β : Type} {ctor : Id → SM Unit} (body : Id → SM β) {src : List Arg} {bs : List UInt8}
    (hc : ∀ s0 : St, WF s0 → abs s0 = abs s → abs s0 (.tmp s.ntmp) = none → s0.ntmp = s.ntmp + 1 → MakesP P (ctor (.tmp s.ntmp)) s0 (.tmp s.ntmp) src bs) :
    (∃ s1 w, withString ctor body s = M.withDtor (body (.tmp s.ntmp)) (Storage.dtor (.tmp s.ntmp)) s1 ∧
      Step s s1 (upd (abs s) (.tmp s.ntmp) (some w)) ∧ Holds w bs 0 ∧ P w.cap) ∨
    (∃ s' e, withString ctor body s = .exc e s' ∧ Step s s' (abs s) ∧ Why s s' src bs.length e) := by
  have hw0 : WF { s with ntmp := s.ntmp + 1 } := hw.congr rfl rfl rfl (by simp)
  rcases hc { s with ntmp := s.ntmp + 1 } hw0 rfl (tmp_dead hw) rfl with ⟨s1, w, hr, st, hh⟩ | ⟨s', e, hr, st, hy⟩
  · exact .inl ⟨s1, w, M.bind_ok hr, ⟨st.wf, st.abs, st.orc, st.tick, st.nblk, Nat.le_trans (by simp) st.ntmp⟩, hh⟩
  · refine .inr ⟨s', e, M.bind_exc hr, ⟨st.wf, st.abs, st.orc, st.tick, st.nblk, Nat.le_trans (by simp) st.ntmp⟩, ?_⟩
    exact hy.mono rfl (Nat.le_refl _) (Nat.le_refl _)

section viaTemp
variable {s : St} (hw : WF s) {i : Id} {v : Vw} (hv : abs s i = some v) {xs : List UInt8} {t : UInt8} (hh : Holds v xs t)
  {src : List Arg} {bs : List UInt8}
include hw hv hh

omit hh in
/-- a member that constructs a temporary and then does something to `i` -/
theorem viaTemp {P : Nat → Prop} {β : Type} {ctor : Id → SM Unit} {body : Id → SM β} {ys : List UInt8} {stay : Prop} {ret : Vw → β}
    (hc : ∀ s0 : St, WF s0 → abs s0 = abs s → abs s0 (.tmp s.ntmp) = none → s0.ntmp = s.ntmp + 1 → MakesP P (ctor (.tmp s.ntmp)) s0 (.tmp s.ntmp) src bs)
    (hle : bs.length ≤ ys.length) (hlen : src.length = bs.length)
    (hb : ∀ s1 w, Step s s1 (upd (abs s) (.tmp s.ntmp) (some w)) → Holds w bs 0 → Runs (body (.tmp s.ntmp)) s1 i v xs [] ys stay ret) :
    RunsS (withString ctor body) s i v src ys stay ret := by
  have htd := tmp_dead hw
  have hni := ne_tmp hw hv
  rcases withString_run hw body hc with ⟨s1, w, hr, st, hw1, _⟩ | ⟨s', e, hr, st, hy⟩
  · rcases (hb s1 w st hw1).strong (by rw [st.ne hni, hv]) with ⟨s2, v2, hr2, st2, hh2, hstay⟩ | ⟨s2, e, hr2, st2, hy, hu⟩
    · left
      have ht2 : abs s2 (.tmp s.ntmp) = some w := by rw [st2.ne hni.symm, st.at]
      obtain ⟨s3, hr3, q3⟩ := leave_ok st2.wf hr2 ht2
      refine ⟨s3, v2, hr.trans hr3, ?_, hh2, hstay⟩
      have := (st.trans st2).trans q3.step
      rwa [st2.abs, st.abs, upd_comm _ _ _ hni, upd_upd, upd_eq _ _ _ htd] at this
    · right
      have ht2 : abs s2 (.tmp s.ntmp) = some w := by rw [st2.abs, st.at]
      obtain ⟨s3, hr3, q3⟩ := leave_exc st2.wf hr2 ht2
      refine ⟨s3, e, hr.trans hr3, ?_,
        (hy.le (Nat.le_refl _) (fun _ h => by cases h)).mono st.orc st.tick (Nat.le_of_eq q3.tick.symm), fun h => absurd rfl (hu h)⟩
      have := (st.trans st2).trans q3.step
      rwa [st2.abs, st.abs, upd_upd, upd_eq _ _ _ htd] at this
  · refine .inr ⟨s', e, hr, st, hy.le hle (fun _ => id), fun _ h => ?_⟩
    subst h
    cases hy with
    | length h => rw [← hlen] at h; cases h
    | mem h _ => rw [← hlen] at h; cases h
    | user h _ => cases h

omit hw hv hh in
/-- the temporary string is made from an input range -/
theorem fromInput (hs : SeesAll (abs s) i xs.length src bs) :
    ∀ s0 : St, WF s0 → abs s0 = abs s → abs s0 (.tmp s.ntmp) = none → s0.ntmp = s.ntmp + 1 → MakesP (· ≤ fit bs.length) (ctorInput (.tmp s.ntmp) src) s0 (.tmp s.ntmp) src bs :=
  fun s0 hw0 e hd hn => ctorInput_run hw0 hd (fun k hk => by cases hk; omega) (e ▸ hs)

omit hw hv hh in
theorem fromRange {lo : Nat} (hs : SeesAll (abs s) i lo src bs) (hn : bs.length + 23 < szMod) :
    ∀ s0 : St, WF s0 → abs s0 = abs s → abs s0 (.tmp s.ntmp) = none → s0.ntmp = s.ntmp + 1 → MakesP (· = fit bs.length) (ctorRange (.tmp s.ntmp) src) s0 (.tmp s.ntmp) src bs :=
  fun s0 hw0 e hd hn' => ctorRange_run hw0 hd (fun k hk => by cases hk; omega) (e ▸ hs) hn

omit hh in
theorem assignVia {P : Nat → Prop} {ctor : Id → SM Unit}
    (hc : ∀ s0 : St, WF s0 → abs s0 = abs s → abs s0 (.tmp s.ntmp) = none → s0.ntmp = s.ntmp + 1 → MakesP P (ctor (.tmp s.ntmp)) s0 (.tmp s.ntmp) src bs) :
    (∃ s' v', withString ctor (fun tmp => assignMove i tmp) s = .ok () s' ∧ Step s s' (upd (abs s) i (some v')) ∧ Holds v' bs 0 ∧ P v'.cap) ∨
    (∃ s' e, withString ctor (fun tmp => assignMove i tmp) s = .exc e s' ∧ Step s s' (abs s) ∧ Why s s' src bs.length e) := by
  have htd := tmp_dead hw
  rcases withString_run hw (fun tmp => assignMove i tmp) hc with ⟨s1, w, hr, st, hw1, hP⟩ | ⟨s', e, hr, st, hy⟩
  · left
    obtain ⟨s', v', hr', st', hh', hc'⟩ := commit (m := assignMove i (.tmp s.ntmp)) (s1 := s1) st hv htd hw1 (fun s' h => M.noexcept_ok h)
    exact ⟨s', v', hr.trans hr', st', hh', hc' ▸ hP⟩
  · exact .inr ⟨s', e, hr, st, hy⟩

omit hh in
theorem assignInput_run (hs : SeesAll (abs s) i xs.length src bs) : RunsS (assignInput i src) s i v src bs False (fun _ => ()) :=
  (assignVia hw hv (fromInput hs)).imp (fun ⟨s', v', h1, h2, h3, h4⟩ => ⟨s', v', h1, h2, h3, False.elim, Nat.le_trans h4 (Nat.le_max_right _ _)⟩)
    (fun ⟨s', e, h1, h2, h3⟩ => ⟨s', e, h1, h2, h3, False.elim⟩)

theorem assignRange_run {lo : Nat} (hs : SeesAll (abs s) i lo src bs)
    (hlo : xs.length + bs.length ≤ v.cap → lo ≤ xs.length) (hn : xs.length + bs.length < szMod)
    (hn' : bs.length + 23 < szMod) :
    Runs (assignRange i src) s i v xs src bs (xs.length + bs.length ≤ v.cap) (fun _ => ()) := by
  have hl := hs.length
  have hadd : szAdd src.length v.siz = xs.length + bs.length := by rw [hl, hh.1, szAdd_eq (by omega)]; omega
  by_cases hc : xs.length + bs.length ≤ v.cap
  · rcases copyBehind hw hv hh hs (hlo hc) hc with ⟨s1, v1, y, Y, hr1, st1, hb1, hc1, hz1, hbuf⟩ | ⟨s1, v1, hr1, st1, hk, hy⟩
    · left
      obtain ⟨s2, hr2, q2⟩ := rotate_ok st1.wf st1.at (A := []) (x := xs) (y := bs) (B := y :: Y) (f := 0) (m := xs.length)
        (l := xs.length + bs.length) (by rw [hbuf]; simp) rfl (by simp) rfl
      have hl2 := (st1.wf.gd st1.at).len
      obtain ⟨Z0, Z, hZ⟩ : ∃ Z0 Z, xs.map some ++ y :: Y = Z0 :: Z := by
        cases hx : xs.map some ++ y :: Y with
        | nil => have := congrArg List.length hx; simp at this
        | cons a b => exact ⟨a, b, rfl⟩
      obtain ⟨s3, hr3, q3⟩ := setSize_ok q2.wf q2.at (A := bs.map some) (x := Z0) (B := Z) (n := bs.length)
        (by simp [← hZ]) (by simp)
      refine ⟨s3, _, ?_, st1.then (q2.then q3).step, ⟨rfl, Z, rfl⟩, fun _ => ⟨hb1, hc1⟩, fun h => absurd hc h⟩
      unfold assignRange
      mstep (size_ok hw hv)
      mstep (capacity_ok hw hv)
      simp only [hadd]
      rw [if_pos hc]
      mstep (data_ok hw hv)
      simp only [Ptr.add, Nat.zero_add]
      rw [hh.1]
      mstep hr1
      rw [hl, ← hb1]
      mstep hr2
      exact hr3
    · right
      refine ⟨s1, .user, v1, ?_, st1, hk, hy.le (by omega) (fun _ => id), fun _ => rfl⟩
      unfold assignRange
      mstep (size_ok hw hv)
      mstep (capacity_ok hw hv)
      simp only [hadd]
      rw [if_pos hc]
      mstep (data_ok hw hv)
      simp only [Ptr.add, Nat.zero_add]
      rw [hh.1]
      exact M.bind_exc hr1
  · have hpre : assignRange i src s = withString (fun t => ctorRange t src) (fun tmp => assignMove i tmp) s := by
      unfold assignRange
      mstep (size_ok hw hv)
      mstep (capacity_ok hw hv)
      simp only [hadd]
      rw [if_neg hc]
    rcases assignVia hw hv (ctor := fun t => ctorRange t src) (fromRange hs hn') with ⟨s', v', hr, st, hb, hP⟩ | ⟨s', e, hr, st, hy⟩
    · exact .inl ⟨s', v', hpre.trans hr, st, hb, fun h => absurd h hc, fun _ => hP⟩
    · obtain ⟨k1, k2⟩ := kept_same hw hv hh st e
      exact .inr ⟨s', e, v, hpre.trans hr, k1, k2, hy, fun h => absurd h hc⟩

theorem appendInput_run (hs : SeesAll (abs s) i xs.length src bs) (hn : xs.length + bs.length < szMod) :
    RunsS (appendInput i src) s i v src (xs ++ bs) (xs.length + bs.length ≤ v.cap) (fun _ => ()) := by
  have hni := ne_tmp hw hv
  refine viaTemp hw hv (xs := xs) (fromInput hs) (by simp) hs.length fun s1 w st hw1 => ?_
  have hv1 : abs s1 i = some v := by rw [st.ne hni, hv]
  have := appendNoAliasing_run st.wf hv1 hh (copyFrom_puts hw1) st.at hni.symm hn
  unfold Runs at this ⊢
  rw [← hw1.1] at this
  rwa [show (do let n ← size (.tmp s.ntmp); appendNoAliasing i n fun offset => copyFrom i (.tmp s.ntmp) offset : SM Unit) s1 =
    appendNoAliasing i w.siz (fun offset => copyFrom i (.tmp s.ntmp) offset) s1 from M.bind_ok (size_ok st.wf st.at), hw1.1] at *

theorem insertInput_run {pre post : List UInt8} (he : xs = pre ++ post) (hs : SeesAll (abs s) i xs.length src bs)
    (hn : xs.length + bs.length < szMod) :
    RunsS (insertInput i ⟨some v.base, pre.length⟩ src) s i v src (pre ++ bs ++ post) (xs.length + bs.length ≤ v.cap)
      (fun v' => ⟨some v'.base, pre.length⟩) := by
  have hni := ne_tmp hw hv
  refine viaTemp hw hv (xs := xs) (fromInput hs) (by simp; omega) hs.length fun s1 w st hw1 => ?_
  have hv1 : abs s1 i = some v := by rw [st.ne hni, hv]
  have := insertNoAliasing_run st.wf hv1 hh (copyFrom_puts hw1) st.at hni.symm he hn
  unfold Runs at this ⊢
  rw [show (do let n ← size (.tmp s.ntmp); insertNoAliasing i ⟨some v.base, pre.length⟩ n fun offset => copyFrom i (.tmp s.ntmp) offset : SM Ptr) s1 =
    insertNoAliasing i ⟨some v.base, pre.length⟩ w.siz (fun offset => copyFrom i (.tmp s.ntmp) offset) s1 from M.bind_ok (size_ok st.wf st.at), hw1.1]
  exact this

theorem replaceInput_run {pre mid post : List UInt8} (he : xs = pre ++ mid ++ post) (hs : SeesAll (abs s) i xs.length src bs)
    (hn : xs.length + bs.length < szMod + mid.length) :
    RunsS (replaceInput i ⟨some v.base, pre.length⟩ ⟨some v.base, pre.length + mid.length⟩ src) s i v src (pre ++ bs ++ post)
      (pre.length + bs.length + post.length ≤ v.cap) (fun _ => ()) := by
  have hni := ne_tmp hw hv
  refine viaTemp hw hv (xs := xs) (fromInput hs) (by simp; omega) hs.length fun s1 w st hw1 => ?_
  have hv1 : abs s1 i = some v := by rw [st.ne hni, hv]
  have := replaceNoAliasing_run st.wf hv1 hh (copyFrom_puts hw1) st.at hni.symm he hn
  unfold Runs at this ⊢
  rw [show (do let n ← size (.tmp s.ntmp); replaceNoAliasing i ⟨some v.base, pre.length⟩ ⟨some v.base, pre.length + mid.length⟩ n fun offset => copyFrom i (.tmp s.ntmp) offset : SM Unit) s1 =
    replaceNoAliasing i ⟨some v.base, pre.length⟩ ⟨some v.base, pre.length + mid.length⟩ w.siz (fun offset => copyFrom i (.tmp s.ntmp) offset) s1 from M.bind_ok (size_ok st.wf st.at), hw1.1]
  exact this

end viaTemp

end Ptl.Str

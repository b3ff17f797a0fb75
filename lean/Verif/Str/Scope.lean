import Verif.Str.Swap

/-! # Local temporaries, reading source ranges, sizes, `reserve` and `resize` -/

namespace Ptl.Str

/-- the oracle made some step between `s` and `s'` fail -/
def Hit (s s' : St) : Prop := ∃ k, s.tick ≤ k ∧ k < s'.tick ∧ s.orc k = true

theorem Hit.mono {s s1 s2 s' : St} (h : Hit s1 s2) (ho : s1.orc = s.orc) (h1 : s.tick ≤ s1.tick) (h2 : s2.tick ≤ s'.tick) :
    Hit s s' := by
  obtain ⟨k, a, b, c⟩ := h
  exact ⟨k, by omega, by omega, ho ▸ c⟩

/-- why a call that needs room for `n` bytes and reads `src` may throw -/
inductive Why (s s' : St) (src : List Arg) (n : Nat) : Exc → Prop
  | length : maxSize < n → Why s s' src n .lengthError
  | mem : 22 < n → ptrdiffMax ≤ capFor n ∨ Hit s s' → Why s s' src n .badAlloc
  | user {b : UInt8} : .thr b ∈ src → Hit s s' → Why s s' src n .user

theorem Why.mono {s s1 s2 s' : St} {src : List Arg} {n : Nat} {e : Exc} (h : Why s1 s2 src n e) (ho : s1.orc = s.orc)
    (h1 : s.tick ≤ s1.tick) (h2 : s2.tick ≤ s'.tick) : Why s s' src n e := by
  cases h with
  | length h => exact .length h
  | mem h k => exact .mem h (k.imp id fun k => k.mono ho h1 h2)
  | user h k => exact .user h (k.mono ho h1 h2)

theorem WF.congr {s s' : St} (hw : WF s) (ho : s'.obj = s.obj) (hm : s'.mem = s.mem) (hn : s'.nblk = s.nblk)
    (ht : s.ntmp ≤ s'.ntmp) : WF s' := by
  refine ⟨fun i o h => ?_, fun i j o o' h h' => ?_, fun p l h => ?_, fun b h => ?_, fun k h => ?_⟩
  · rw [ho] at h
    obtain ⟨h1, h2⟩ := hw.good i o h
    exact ⟨h1, by rw [hm]; exact h2⟩
  · rw [ho] at h h'; exact hw.inj i j o o' h h'
  · rw [hm] at h; rw [ho]; exact hw.owned p l h
  · rw [hm]; exact hw.freshB b (by omega)
  · rw [ho]; exact hw.freshT k (by omega)

theorem abs_congr {s s' : St} (ho : s'.obj = s.obj) (hm : s'.mem = s.mem) : abs s' = abs s := by
  funext i; simp only [abs, ho, hm]

section scope
variable {s : St} (hw : WF s)
include hw

theorem tmp_dead : abs s (.tmp s.ntmp) = none := abs_none.2 (hw.freshT _ (Nat.le_refl _))

theorem ne_tmp {i : Id} {v : Vw} (h : abs s i = some v) : i ≠ .tmp s.ntmp := by
  rintro rfl; rw [tmp_dead hw] at h; cases h

theorem withStorage_run {β : Type} (body : Id → SM β) {n : Nat} (hn : n + 23 < szMod) :
    (∃ s1 w, withStorage n body s = M.withDtor (body (.tmp s.ntmp)) (Storage.dtor (.tmp s.ntmp)) s1 ∧
      Fresh s s1 (.tmp s.ntmp) n w ∧ s1.ntmp = s.ntmp + 1) ∨
    (∃ s', withStorage n body s = .exc .badAlloc s' ∧ Step s s' (abs s) ∧ 22 < n ∧
      (ptrdiffMax ≤ capFor n ∨ Hit s s') ∧ s'.moves = s.moves) := by
  have hw0 : WF { s with ntmp := s.ntmp + 1 } := hw.congr rfl rfl rfl (by simp)
  have e0 : abs { s with ntmp := s.ntmp + 1 } = abs s := rfl
  rcases ctorCap_run hw0 (i := .tmp s.ntmp) (tmp_dead hw) (fun k hk => by cases hk; simp) hn with
    ⟨s1, w, hr, hf, ht⟩ | ⟨s', hr, hf, ht⟩
  · left
    refine ⟨s1, w, M.bind_ok hr, ⟨⟨hf.step.wf, hf.step.abs, hf.step.orc, hf.step.tick, hf.step.nblk, ?_⟩, hf.cap, hf.siz, hf.buf,
      hf.small, hf.big, hf.moves⟩, ht⟩
    rw [ht]; simp
  · right
    refine ⟨s', M.bind_exc hr, ⟨?_, hf.abs, hf.orc, hf.tick, Nat.le_of_eq hf.nblk.symm, by rw [ht]; simp⟩, hf.big, hf.why, hf.moves⟩
    exact hw0.congr hf.obj hf.mem hf.nblk (Nat.le_of_eq ht.symm)

/-- normal end of the scope -/
theorem leave_ok {β : Type} {m : SM β} {t : Id} {s1 : St} {w' : Vw} {b : β} (hm : m s1 = .ok b s)
    (ht : abs s t = some w') :
    ∃ s3, M.withDtor m (Storage.dtor t) s1 = .ok b s3 ∧ Quiet s s3 (upd (abs s) t none) := by
  obtain ⟨s3, hd, q⟩ := dtor_ok hw ht
  exact ⟨s3, M.withDtor_ok hm hd, q⟩

/-- exceptional end of the scope -/
theorem leave_exc {β : Type} {m : SM β} {t : Id} {s1 : St} {w' : Vw} {e : Exc} (hm : m s1 = .exc e s)
    (ht : abs s t = some w') :
    ∃ s3, M.withDtor m (Storage.dtor t) s1 = .exc e s3 ∧ Quiet s s3 (upd (abs s) t none) := by
  obtain ⟨s3, hd, q⟩ := dtor_ok hw ht
  exact ⟨s3, M.withDtor_exc hm hd, q⟩

end scope

/-- what remains after the scope: only the change to `i` -/
theorem scope_abs {f : Id → Option Vw} {i t : Id} {w w' v' : Option Vw} (ht : f t = none) (hi : i ≠ t) :
    upd (upd (upd (upd f t w) i v') t w') t none = upd f i v' := by
  rw [upd_upd, upd_comm _ _ _ hi, upd_upd, upd_eq f t none ht]

/-! ### source ranges -/

/-- dereferencing `a` yields `b`, and still does when bytes from offset `lo` on of string `i` are overwritten -/
inductive Sees (f : Id → Option Vw) (i : Id) (lo : Nat) : Arg → UInt8 → Prop
  | val (b : UInt8) : Sees f i lo (.val b) b
  | thr (b : UInt8) : Sees f i lo (.thr b) b
  | ptr {j : Id} {w : Vw} {k : Nat} {b : UInt8} : f j = some w → w.buf[k]? = some (some b) → (j = i → k < lo) →
      Sees f i lo (.at ⟨some w.base, k⟩) b

inductive SeesAll (f : Id → Option Vw) (i : Id) (lo : Nat) : List Arg → List UInt8 → Prop
  | nil : SeesAll f i lo [] []
  | cons {a : Arg} {b : UInt8} {as : List Arg} {bs : List UInt8} : Sees f i lo a b → SeesAll f i lo as bs →
      SeesAll f i lo (a :: as) (b :: bs)

theorem SeesAll.length {f : Id → Option Vw} {i : Id} {lo : Nat} {as : List Arg} {bs : List UInt8}
    (h : SeesAll f i lo as bs) : as.length = bs.length := by
  induction h with
  | nil => rfl
  | cons _ _ ih => simp [ih]

theorem Sees.stable {f f' : Id → Option Vw} {i i' : Id} {lo lo' : Nat} {a : Arg} {b : UInt8} (h : Sees f i lo a b)
    (hne : ∀ j w k, f j = some w → (j = i → k < lo) → w.buf[k]? = some (some b) → ∃ w', f' j = some w' ∧ w'.base = w.base ∧
      w'.buf[k]? = w.buf[k]? ∧ (j = i' → k < lo')) : Sees f' i' lo' a b := by
  cases h with
  | val => exact .val _
  | thr => exact .thr _
  | ptr hf hk hlo =>
    obtain ⟨w', h1, h2, h3, h4⟩ := hne _ _ _ hf hlo hk
    rw [← h2]
    exact .ptr h1 (h3.trans hk) h4

theorem SeesAll.stable {f f' : Id → Option Vw} {i i' : Id} {lo lo' : Nat} {as : List Arg} {bs : List UInt8} (h : SeesAll f i lo as bs)
    (hne : ∀ j w k b, f j = some w → (j = i → k < lo) → w.buf[k]? = some (some b) → ∃ w', f' j = some w' ∧ w'.base = w.base ∧
      w'.buf[k]? = w.buf[k]? ∧ (j = i' → k < lo')) : SeesAll f' i' lo' as bs := by
  induction h with
  | nil => exact .nil
  | cons ha _ ih => exact .cons (ha.stable fun j w k => hne j w k _) ih

theorem fallible_run (e : Exc) (s : St) :
    (∃ s', fallible e s = .ok () s' ∧ s'.obj = s.obj ∧ s'.mem = s.mem ∧ s'.nblk = s.nblk ∧ s'.ntmp = s.ntmp ∧ s'.orc = s.orc ∧
      s.tick ≤ s'.tick ∧ s'.moves = s.moves) ∨
    (∃ s', fallible e s = .exc e s' ∧ s'.obj = s.obj ∧ s'.mem = s.mem ∧ s'.nblk = s.nblk ∧ s'.ntmp = s.ntmp ∧ s'.orc = s.orc ∧
      s.tick ≤ s'.tick ∧ s'.moves = s.moves ∧ Hit s s') := by
  cases h : s.orc s.tick
  · left; exact ⟨{ s with tick := s.tick + 1 }, by simp [fallible, h], rfl, rfl, rfl, rfl, rfl, Nat.le_succ _, rfl⟩
  · right
    exact ⟨{ s with tick := s.tick + 1 }, by simp [fallible, h], rfl, rfl, rfl, rfl, rfl, Nat.le_succ _, rfl,
      s.tick, Nat.le_refl _, Nat.lt_succ_self _, h⟩

/-- `*it` -/
theorem deref_run {s : St} (hw : WF s) {i : Id} {lo : Nat} {a : Arg} {b : UInt8} (h : Sees (abs s) i lo a b) :
    (∃ s', a.deref s = .ok b s' ∧ Step s s' (abs s) ∧ s'.moves = s.moves) ∨
    (∃ s', a.deref s = .exc .user s' ∧ Step s s' (abs s) ∧ s'.moves = s.moves ∧ Hit s s' ∧ a = .thr b) := by
  cases h with
  | val => exact .inl ⟨s, rfl, Step.refl hw, rfl⟩
  | thr =>
    rcases fallible_run .user s with ⟨s', hr, h1, h2, h3, h4, h5, h6, h7⟩ | ⟨s', hr, h1, h2, h3, h4, h5, h6, h7, h8⟩
    · exact .inl ⟨s', M.bind_ok hr, ⟨hw.congr h1 h2 h3 (Nat.le_of_eq h4.symm), abs_congr h1 h2, h5, h6, Nat.le_of_eq h3.symm,
        Nat.le_of_eq h4.symm⟩, h7⟩
    · exact .inr ⟨s', M.bind_exc hr, ⟨hw.congr h1 h2 h3 (Nat.le_of_eq h4.symm), abs_congr h1 h2, h5, h6, Nat.le_of_eq h3.symm,
        Nat.le_of_eq h4.symm⟩, h7, h8, rfl⟩
  | ptr hf hk _ => exact .inl ⟨s, readAt_ok hw hf hk, Step.refl hw, rfl⟩

theorem copyRange_run {as : List Arg} {bs : List UInt8} : ∀ {s : St}, WF s → ∀ {i : Id} {v : Vw}, abs s i = some v → ∀ {lo : Nat},
    SeesAll (abs s) i lo as bs → ∀ {A X B : List (Option UInt8)} {off : Nat}, v.buf = A ++ X ++ B → A.length = off →
    X.length = bs.length → lo ≤ off →
    (∃ s', copyRange as ⟨some v.base, off⟩ s = .ok () s' ∧
      Step s s' (upd (abs s) i (some { v with buf := A ++ bs.map some ++ B })) ∧ s'.moves = s.moves) ∨
    (∃ s' m, copyRange as ⟨some v.base, off⟩ s = .exc .user s' ∧ m < bs.length ∧
      Step s s' (upd (abs s) i (some { v with buf := A ++ ((bs.take m).map some ++ X.drop m) ++ B })) ∧ s'.moves = s.moves ∧
      Hit s s' ∧ ∃ b, .thr b ∈ as) := by
  induction as generalizing bs with
  | nil =>
    intro s hw i v hv lo hs A X B off hb ho hX hlo
    cases hs
    have : X = [] := List.length_eq_zero_iff.1 hX
    subst this
    left
    refine ⟨s, rfl, ?_, rfl⟩
    have e : ({ v with buf := A ++ List.map some [] ++ B } : Vw) = v := by ext1 <;> simp [hb]
    rw [e, upd_eq _ _ _ hv]
    exact Step.refl hw
  | cons a as ih =>
    intro s hw i v hv lo hs A X B off hb ho hX hlo
    cases hs with
    | @cons _ b _ bs ha hs =>
    rcases X with _ | ⟨x, X⟩
    · simp at hX
    rcases deref_run hw ha with ⟨s1, hr, st, hmv⟩ | ⟨s1, hr, st, hmv, hh, ha⟩
    · have hv1 : abs s1 i = some v := by rw [st.abs, hv]
      obtain ⟨s2, hr2, q2⟩ := writeAt_ok (b := b) st.wf hv1 (A := A) (x := x) (B := X ++ B) (off := off) (by rw [hb]; simp) ho
      have st2 := q2.step
      rw [st.abs] at st2
      have hs2 : SeesAll (abs s2) i lo as bs := by
        refine hs.stable fun j w k c hj hk hc => ?_
        by_cases hji : j = i
        · subst hji
          rw [hv] at hj; cases hj
          refine ⟨_, q2.at, rfl, ?_, fun _ => hk rfl⟩
          have := hk rfl
          rw [hb]
          simp only [List.append_assoc]
          rw [List.getElem?_append_left (by omega), List.getElem?_append_left (by omega)]
        · exact ⟨w, by rw [q2.ne hji, st.abs, hj], rfl, rfl, fun h => absurd h hji⟩
      have hb2 : ({ v with buf := A ++ some b :: (X ++ B) } : Vw).buf = (A ++ [some b]) ++ X ++ B := by simp
      rcases ih st2.wf q2.at (off := off + 1) hs2 hb2 (by simp [ho]) (by simpa using hX) (by omega) with
        ⟨s3, hr3, st3, hm3⟩ | ⟨s3, m, hr3, hm, st3, hm3, hh, c, hc⟩
      · left
        refine ⟨s3, ?_, ?_, by rw [hm3, q2.moves, hmv]⟩
        · unfold copyRange
          mstep hr
          mstep hr2
          exact hr3
        · have := (st.trans st2).then st3
          simpa using this
      · right
        refine ⟨s3, m + 1, ?_, by simp; omega, ?_, by rw [hm3, q2.moves, hmv], ?_, c, List.mem_cons_of_mem _ hc⟩
        · unfold copyRange
          mstep hr
          mstep hr2
          exact hr3
        · have := (st.trans st2).then st3
          simpa using this
        · exact hh.mono (by rw [q2.orc, st.orc]) (by rw [q2.tick]; exact st.tick) (Nat.le_refl _)
    · right
      refine ⟨s1, 0, M.bind_exc hr, by simp, ?_, hmv, hh, b, by rw [ha]; simp⟩
      have e : ({ v with buf := A ++ (((b :: bs).take 0).map some ++ (x :: X).drop 0) ++ B } : Vw) = v := by ext1 <;> simp [hb]
      rw [e, upd_eq _ _ _ hv]
      exact st

/-! ### sizes -/

theorem setSize_any {s : St} (hw : WF s) {i : Id} {v : Vw} (h : abs s i = some v) {n : Nat} (hn : n ≤ v.cap) :
    ∃ s', setSize i n s = .ok () s' ∧
      Quiet s s' (upd (abs s) i (some { v with siz := n, buf := v.buf.take n ++ some 0 :: v.buf.drop (n + 1) })) := by
  have hl := (hw.gd h).len
  have hd : v.buf.drop n = v.buf[n]'(by omega) :: v.buf.drop (n + 1) := List.drop_eq_getElem_cons (by omega)
  exact setSize_ok hw h (A := v.buf.take n) (x := v.buf[n]'(by omega)) (B := v.buf.drop (n + 1))
    (by rw [← hd, List.take_append_drop]) (by simp; omega)

/-- a buffer with the first bytes known, and a zero written behind a prefix of them -/
theorem Holds.of_eq {v : Vw} {xs : List UInt8} {t : UInt8} {rest : List (Option UInt8)} (hs : v.siz = xs.length)
    (hb : v.buf = xs.map some ++ some t :: rest) : Holds v xs t := ⟨hs, rest, hb⟩

theorem Holds.len {v : Vw} {xs : List UInt8} {t : UInt8} {i : Id} (h : Holds v xs t) (hg : Good i v) : xs.length ≤ v.cap := by
  have := hg.siz; rw [h.1] at this; exact this

theorem Holds.unique {v : Vw} {xs ys : List UInt8} {t u : UInt8} (h : Holds v xs t) (k : Holds v ys u) : xs = ys ∧ t = u := by
  obtain ⟨h1, r, h2⟩ := h
  obtain ⟨k1, r', k2⟩ := k
  rw [h2] at k2
  have hl : (xs.map some).length = (ys.map some).length := by simp; omega
  obtain ⟨e1, e2⟩ := List.append_inj k2 hl
  refine ⟨(List.map_inj_right (fun a b h => Option.some.inj h)).1 e1, ?_⟩
  simp only [List.cons.injEq, Option.some.injEq] at e2
  exact e2.1

/-! ### reserve -/

theorem reserve_run {s : St} (hw : WF s) {i : Id} {v : Vw} (hv : abs s i = some v) {xs : List UInt8} {t : UInt8}
    (hh : Holds v xs t) (n : Nat) :
    (∃ s' v' t', reserve i n s = .ok () s' ∧ Step s s' (upd (abs s) i (some v')) ∧ Holds v' xs t' ∧ (t = 0 → t' = 0) ∧
      v'.cap = (if n ≤ v.cap then v.cap else capFor n) ∧ (n ≤ v.cap → s' = s ∧ v' = v) ∧
      (v.cap < n → (∃ b, v'.base = .heap b) ∧ s'.moves = s.moves + (if xs = [] then 0 else xs.length + 1))) ∨
    (∃ s' e, reserve i n s = .exc e s' ∧ Step s s' (abs s) ∧ Why s s' [] n e ∧ v.cap < n ∧ s'.moves = s.moves) := by
  have h22 : 22 ≤ v.cap := by rcases (hw.gd hv).shape with ⟨_, h⟩ | ⟨_, _, h, _⟩ <;> omega
  have hlen := hh.len (hw.gd hv)
  unfold reserve
  by_cases hc : n ≤ v.cap
  · left
    refine ⟨s, v, t, ?_, ?_, hh, id, by simp [hc], fun _ => ⟨rfl, rfl⟩, fun h => by omega⟩
    · mstep (capacity_ok hw hv)
      rw [if_pos hc]; rfl
    · rw [upd_eq _ _ _ hv]; exact Step.refl hw
  · by_cases hm : n > maxSize
    · right
      refine ⟨s, .lengthError, ?_, Step.refl hw, .length hm, by omega, rfl⟩
      mstep (capacity_ok hw hv)
      rw [if_neg hc, if_pos hm]; rfl
    · have hn : n + 23 < szMod := by
        unfold maxSize ptrdiffMax at hm; unfold szMod; omega
      have hni := ne_tmp hw hv
      have htd := tmp_dead hw
      rcases withStorage_run hw (fun tmp => do
          let sz ← size i
          setSize tmp sz
          let e ← empty i
          (if !e then do
            let d ← data i
            let t ← data tmp
            countMoves (sz + 1)
            memmove t d (sz + 1)
           else pure ())
          Storage.moveAssign i tmp) hn with ⟨s1, w, hr, hf, hnt⟩ | ⟨s', hr, st, h1, h2, h3⟩
      · left
        obtain ⟨hsz, rest, hrest⟩ := hh
        have hbig := hf.big (by omega)
        have hv1 : abs s1 i = some v := by rw [hf.step.ne hni, hv]
        have hwt : abs s1 (.tmp s.ntmp) = some w := hf.step.at
        have hwcap : v.cap < w.cap := by have := hf.cap; omega
        -- set_size on the temporary
        obtain ⟨s2, hr2, q2⟩ := setSize_any hf.step.wf hwt (n := v.siz) (by omega)
        have hv2 : abs s2 i = some v := by rw [q2.ne hni, hv1]
        -- the common ending
        have fin : ∀ s3 w3 t', Quiet s2 s3 (upd (abs s2) (.tmp s.ntmp) (some w3)) → w3.base = w.base → w3.cap = w.cap →
            Holds w3 xs t' → ∃ s5, M.withDtor (fun _ => Storage.moveAssign i (.tmp s.ntmp) s3) (Storage.dtor (.tmp s.ntmp)) s1 = .ok () s5 ∧
              Step s s5 (upd (abs s) i (some w3)) ∧ s5.moves = s3.moves := by
          intro s3 w3 t' q3 hb3 hc3 hh3
          have hv3 : abs s3 i = some v := by rw [q3.ne hni, hv2]
          obtain ⟨s4, v4, w4, hr4, q4, hh4, hc4, hmv⟩ := moveAssign_ok q3.wf hni hv3 q3.at hh3
          have e4 : v4 = w3 := by
            rcases hmv with ⟨b, _, h, _⟩ | ⟨h, _⟩
            · exact h
            · rw [hb3, hbig.1] at h; cases h
          subst e4
          have ht4 : abs s4 (.tmp s.ntmp) = some w4 := by rw [q4.abs, upd_same]
          obtain ⟨s5, hr5, q5⟩ := leave_ok q4.wf (m := fun _ => Storage.moveAssign i (.tmp s.ntmp) s3) hr4 ht4
          refine ⟨s5, hr5, ?_, by rw [q5.moves, q4.moves]⟩
          have := (((hf.step.trans q2.step).trans q3.step).trans q4.step).trans q5.step
          rw [q4.abs, q3.abs, q2.abs, hf.step.abs] at this
          simp only [upd_upd] at this
          rw [upd_comm _ _ _ hni, upd_upd, upd_eq (abs s) (.tmp s.ntmp) none htd] at this
          exact this
        by_cases hx : xs = []
        · subst hx
          have hs0 : v.siz = 0 := by rw [hsz]; rfl
          obtain ⟨s5, hr5, st5, hmv5⟩ := fin s2 ({ w with siz := v.siz, buf := w.buf.take v.siz ++ some 0 :: w.buf.drop (v.siz + 1) } : Vw) 0
            (by rw [upd_eq _ _ _ q2.at]; exact Quiet.refl q2.wf) rfl rfl
            ⟨hs0, List.drop 1 w.buf, by rw [hs0]; simp⟩
          refine ⟨s5, _, 0, ?_, st5, ⟨hs0, List.drop 1 w.buf, by rw [hs0]; simp⟩, fun _ => rfl, ?_, fun h => absurd h hc,
            fun _ => ⟨⟨_, hbig.1⟩, by rw [hmv5, q2.moves, hf.moves]; simp⟩⟩
          · mstep (capacity_ok hw hv)
            rw [if_neg hc, if_neg hm, hr]
            have : M.withDtor (fun _ => Storage.moveAssign i (.tmp s.ntmp) s2) (Storage.dtor (.tmp s.ntmp)) s1 = .ok () s5 := hr5
            unfold M.withDtor at this ⊢
            rw [← this]
            congr 1
            mstep (size_ok hf.step.wf hv1)
            mstep hr2
            mstep (empty_ok q2.wf hv2)
            simp only [hs0, BEq.rfl, Bool.not_true, Bool.false_eq_true, if_false]
            rfl
          · rw [if_neg hc]; exact hbig.2
        · have hs0 : v.siz ≠ 0 := by
            rw [hsz]; intro h; exact hx (List.length_eq_zero_iff.1 h)
          have hw2l : w.buf.length = w.cap + 1 := (hf.step.wf.gd hwt).len
          -- copy all bytes, with the terminator
          let s2' : St := { s2 with moves := s2.moves + (v.siz + 1) }
          have hw2' : WF s2' := q2.wf.congr rfl rfl rfl (Nat.le_refl _)
          have hv2' : abs s2' i = some v := hv2
          have ht2' := q2.at
          obtain ⟨s3, hr3, q3⟩ := writeN_ok hw2' (i := .tmp s.ntmp) (v := ({ w with siz := v.siz, buf := w.buf.take v.siz ++ some 0 :: w.buf.drop (v.siz + 1) } : Vw)) ht2'
            (A := []) (X := w.buf.take v.siz ++ [some 0]) (B := w.buf.drop (v.siz + 1)) (bs := xs ++ [t]) (off := 0)
            (by simp) rfl (by simp; omega)
          have hh3 : Holds ⟨w.base, w.cap, v.siz, [] ++ (xs ++ [t]).map some ++ w.buf.drop (v.siz + 1)⟩ xs t :=
            ⟨hsz, _, by simp; rfl⟩
          have q3' : Step s2 s3 (upd (abs s2) (.tmp s.ntmp) (some ⟨w.base, w.cap, v.siz, [] ++ (xs ++ [t]).map some ++ w.buf.drop (v.siz + 1)⟩)) :=
            ⟨q3.wf, q3.abs, q3.orc, Nat.le_of_eq q3.tick.symm, Nat.le_of_eq q3.nblk.symm, Nat.le_of_eq q3.ntmp.symm⟩
          have hv3 : abs s3 i = some v := by rw [q3'.ne hni, hv2]
          obtain ⟨s4, v4, w4, hr4, q4, hh4, hc4, hmv⟩ := moveAssign_ok q3.wf hni hv3 q3'.at hh3
          have ht4 : abs s4 (.tmp s.ntmp) = some w4 := by rw [q4.abs, upd_same]
          have hb4 : ∃ b, v4.base = .heap b := by
            rcases hmv with ⟨b, hb, h, _⟩ | ⟨h, _⟩
            · exact ⟨b, by rw [h]; exact hb⟩
            · rw [hbig.1] at h; cases h
          refine (fun (p : ∃ s5, _ ∧ _) => ?_) (leave_ok q4.wf (m := fun _ => Storage.moveAssign i (.tmp s.ntmp) s3) (s1 := s1) hr4 ht4)
          obtain ⟨s5, hr5, q5⟩ := p
          refine ⟨s5, v4, t, ?_, ?_, hh4, id, by rw [hc4, if_neg hc]; exact hbig.2, fun h => absurd h hc,
            fun _ => ⟨hb4, by rw [q5.moves, q4.moves, q3.moves, if_neg hx, ← hsz, ← hf.moves, ← q2.moves]⟩⟩
          · mstep (capacity_ok hw hv)
            rw [if_neg hc, if_neg hm, hr]
            unfold M.withDtor at hr5 ⊢
            rw [← hr5]
            congr 1
            mstep (size_ok hf.step.wf hv1)
            mstep hr2
            mstep (empty_ok q2.wf hv2)
            have : (v.siz == 0) = false := by simpa using hs0
            simp only [this, Bool.not_false, if_true]
            refine Eq.trans (M.bind_ok (a := ()) (s' := s3) ?_) rfl
            mstep (data_ok q2.wf hv2)
            mstep (data_ok q2.wf q2.at)
            refine Eq.trans (M.bind_ok (a := ()) (s' := s2') rfl) ?_
            exact memmove_ok (readN_ok hw2' hv2' (A := []) (B := rest) (bs := xs ++ [t]) (by rw [hrest]; simp) rfl (by simp [hsz])) hr3
          · have := (((hf.step.trans q2.step).trans q3').trans q4.step).trans q5.step
            rw [q4.abs, q3'.abs, q2.abs, hf.step.abs] at this
            simp only [upd_upd] at this
            rw [upd_comm _ _ _ hni, upd_upd, upd_eq (abs s) (.tmp s.ntmp) none htd] at this
            exact this
      · right
        refine ⟨s', .badAlloc, ?_, st, .mem h1 h2, by omega, h3⟩
        mstep (capacity_ok hw hv)
        rw [if_neg hc, if_neg hm]
        exact hr

/-! ### resize -/

theorem resize_run {s : St} (hw : WF s) {i : Id} {v : Vw} (hv : abs s i = some v) {xs : List UInt8} {t : UInt8}
    (hh : Holds v xs t) (n : Nat) (ch : UInt8) :
    (∃ s' v', resize i n ch s = .ok () s' ∧ Step s s' (upd (abs s) i (some v')) ∧
      Holds v' (xs.take n ++ List.replicate (n - xs.length) ch) 0 ∧
      v'.cap = (if n ≤ v.cap then v.cap else capFor n) ∧ (n ≤ v.cap → v'.base = v.base) ∧
      s'.moves = s.moves + (if n ≤ v.cap ∨ xs = [] then 0 else xs.length + 1)) ∨
    (∃ s' e, resize i n ch s = .exc e s' ∧ Step s s' (abs s) ∧ Why s s' [] n e ∧ v.cap < n) := by
  unfold resize
  rcases reserve_run hw hv hh n with ⟨s1, v1, t1, hr1, st1, hh1, ht1, hc1, hsame, hmoves⟩ | ⟨s', e, hr, st, hy, hc, hm⟩
  · left
    have hv1 := st1.at
    have hn : n ≤ v1.cap := by
      rw [hc1]; split
      · assumption
      · exact capFor_ge n
    have hl1 := (st1.wf.gd hv1).len
    obtain ⟨s2, hr2, q2⟩ := setSize_any st1.wf hv1 hn
    obtain ⟨hsz1, rest, hrest⟩ := hh1
    have hsz := hh.1
    have hmv : s1.moves = s.moves + (if n ≤ v.cap ∨ xs = [] then 0 else xs.length + 1) := by
      by_cases h : n ≤ v.cap
      · rw [(hsame h).1]; simp [h]
      · rw [(hmoves (by omega)).2]; simp [h]
    have hb1 : n ≤ v.cap → v1.base = v.base := fun h => by rw [(hsame h).2]
    by_cases hlt : xs.length < n
    · -- grow
      have hlr : xs.length + 1 + rest.length = v1.cap + 1 := by rw [← hl1, hrest]; simp; omega
      have htk : v1.buf.take n = xs.map some ++ (some t1 :: rest).take (n - xs.length) := by
        rw [hrest, List.take_append]; simp
        rw [List.take_of_length_le (by simp; omega)]
      obtain ⟨s3, hr3, q3⟩ := writeN_ok q2.wf q2.at (A := xs.map some) (X := (some t1 :: rest).take (n - xs.length))
        (B := some 0 :: v1.buf.drop (n + 1)) (bs := List.replicate (n - xs.length) ch) (off := xs.length)
        (by simp only []; rw [htk]) (by simp) (by simp; omega)
      refine ⟨s3, _, ?_, st1.then (q2.then q3).step, ⟨?_, v1.buf.drop (n + 1), ?_⟩, hc1, hb1, ?_⟩
      · mstep (size_ok hw hv)
        mstep hr1
        mstep hr2
        mstep (size_ok q2.wf q2.at)
        simp only []
        rw [if_pos (by rw [hsz]; exact hlt)]
        mstep (data_ok q2.wf q2.at)
        simp only [fill, Ptr.add, Nat.zero_add]
        rw [hsz]
        exact hr3
      · simp; omega
      · rw [List.take_of_length_le (l := xs) (i := n) (by omega)]; simp
      · rw [q3.moves, q2.moves, hmv]
    · have htk : v1.buf.take n = (xs.take n).map some := by
        rw [hrest, List.take_append_of_le_length (by simp; omega), List.map_take]
      refine ⟨s2, _, ?_, st1.then q2.step, ⟨?_, v1.buf.drop (n + 1), ?_⟩, hc1, hb1, ?_⟩
      · mstep (size_ok hw hv)
        mstep hr1
        mstep hr2
        mstep (size_ok q2.wf q2.at)
        simp only []
        rw [if_neg (by rw [hsz]; exact hlt)]
        rfl
      · simp; omega
      · rw [show n - xs.length = 0 by omega]; simp [htk]
      · rw [q2.moves, hmv]
  · right
    refine ⟨s', e, ?_, st, hy, hc⟩
    mstep (size_ok hw hv)
    exact M.bind_exc hr

end Ptl.Str

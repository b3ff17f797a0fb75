import Verif.Str.Ops

/-! # Effect of the members that take iterator ranges -/

namespace Ptl.Str

/-- sources as seen when a temporary is the destination -/
theorem SeesAll.fresh {s s1 : St} (hw : WF s) {i : Id} {lo : Nat} {as : List Arg} {bs : List UInt8} {w : Option Vw}
    (h : SeesAll (abs s) i lo as bs) {t : Id} (hd : abs s t = none) (hs : abs s1 = upd (abs s) t w) (lo' : Nat) :
    SeesAll (abs s1) t lo' as bs := by
  refine h.stable fun j v k b hj _ _ => ⟨v, ?_, rfl, rfl, ?_⟩
  · rw [hs, upd_ne _ _ (by rintro rfl; rw [hd] at hj; cases hj), hj]
  · rintro rfl; rw [hd] at hj; cases hj

/-- end of an allocating path: the new storage `t` replaces that of `i` -/
theorem commit {s s1 s2 : St} {i t : Id} {v w2 : Vw} {ys : List UInt8} {u : UInt8} {m : SM Unit}
    (st : Step s s2 (upd (abs s) t (some w2))) (hv : abs s i = some v) (hd : abs s t = none) (hh : Holds w2 ys u)
    (hm : ∀ s', Storage.moveAssign i t s2 = .ok () s' → m s1 = .ok () s') :
    ∃ s' v', M.withDtor m (Storage.dtor t) s1 = .ok () s' ∧ Step s s' (upd (abs s) i (some v')) ∧ Holds v' ys u ∧ v'.cap = w2.cap := by
  have hni : i ≠ t := by rintro rfl; rw [hd] at hv; cases hv
  have hv2 : abs s2 i = some v := by rw [st.ne hni, hv]
  obtain ⟨s4, v4, w4, hr4, q4, hh4, hc4, _⟩ := moveAssign_ok st.wf hni hv2 st.at hh
  have ht4 : abs s4 t = some w4 := by rw [q4.abs, upd_same]
  obtain ⟨s5, hr5, q5⟩ := leave_ok q4.wf (m := m) (s1 := s1) (hm s4 hr4) ht4
  refine ⟨s5, v4, hr5, ?_, hh4, hc4⟩
  have := (st.trans q4.step).trans q5.step
  rw [q4.abs, st.abs, scope_abs hd hni] at this
  exact this

/-- the bytes overwritten from the terminator on, after an iterator threw -/
theorem junk_head {bs : List UInt8} {X : List (Option UInt8)} {x : UInt8} {m : Nat} (hX : X.length = bs.length) (hm : m < bs.length)
    (hx : X[0]? = some (some x)) : ∃ t' r, (bs.take m).map some ++ X.drop m = some t' :: r := by
  rcases m with _ | m
  · rcases X with _ | ⟨y, X⟩
    · simp at hx
    · simp at hx; exact ⟨x, X, by simp [hx]⟩
  · rcases bs with _ | ⟨b, bs⟩
    · simp at hm
    · exact ⟨b, _, by simp; rfl⟩

/-- split a buffer behind the contents into a part of length `n` and a non-empty rest -/
theorem tail_split {i : Id} {v : Vw} {xs : List UInt8} {t : UInt8} {rest : List (Option UInt8)} (hg : Good i v)
    (hb : v.buf = xs.map some ++ some t :: rest) {n : Nat} (hn : xs.length + n ≤ v.cap) :
    ∃ X y Y, some t :: rest = X ++ y :: Y ∧ X.length = n ∧ (0 < n → X[0]? = some (some t)) := by
  have hl : xs.length + 1 + rest.length = v.cap + 1 := by rw [← hg.len, hb]; simp; omega
  have h1 : n < (some t :: rest).length := by simp; omega
  refine ⟨(some t :: rest).take n, (some t :: rest)[n], (some t :: rest).drop (n + 1), ?_, by simp; omega, fun h => ?_⟩
  · rw [← List.drop_eq_getElem_cons h1, List.take_append_drop]
  · rw [List.getElem?_take_of_lt h]; rfl

section inplace
variable {s : St} (hw : WF s) {i : Id} {v : Vw} (hv : abs s i = some v) {xs : List UInt8} {t : UInt8} (hh : Holds v xs t)
  {src : List Arg} {bs : List UInt8} {lo : Nat} (hs : SeesAll (abs s) i lo src bs)
include hw hv hh hs

/-- the common start of all in-place paths: the new bytes are copied behind the contents -/
theorem copyBehind (hlo : lo ≤ xs.length) (hn : xs.length + bs.length ≤ v.cap) :
    (∃ s' v' y Y, copyRange src ⟨some v.base, xs.length⟩ s = .ok () s' ∧ Step s s' (upd (abs s) i (some v')) ∧
      v'.base = v.base ∧ v'.cap = v.cap ∧ v'.siz = v.siz ∧ v'.buf = xs.map some ++ bs.map some ++ y :: Y) ∨
    (∃ s' v', copyRange src ⟨some v.base, xs.length⟩ s = .exc .user s' ∧ Step s s' (upd (abs s) i (some v')) ∧
      Kept v v' xs .user ∧ Why s s' src 0 .user) := by
  obtain ⟨hsz, rest, hrest⟩ := hh
  obtain ⟨X, y, Y, hXY, hXl, hX0⟩ := tail_split (hw.gd hv) hrest hn
  rcases copyRange_run hw hv hs (A := xs.map some) (X := X) (B := y :: Y) (off := xs.length) (by rw [hrest, hXY]; simp) (by simp) hXl
    hlo with ⟨s', hr, st, _⟩ | ⟨s', m, hr, hm, st, _, hh, b, hb⟩
  · left
    exact ⟨s', _, y, Y, hr, st, rfl, rfl, rfl, rfl⟩
  · right
    obtain ⟨t', r, htr⟩ := junk_head hXl hm (hX0 (by omega))
    refine ⟨s', _, hr, st, ⟨rfl, rfl, ⟨t', hsz, r ++ y :: Y, ?_⟩, fun h => absurd rfl h⟩, .user hb hh⟩
    simp only []
    rw [htr]; simp

end inplace

section append
variable {s : St} (hw : WF s) {i : Id} {v : Vw} (hv : abs s i = some v) {xs : List UInt8} {t : UInt8} (hh : Holds v xs t)
  {src : List Arg} {bs : List UInt8} {lo : Nat} (hs : SeesAll (abs s) i lo src bs)
include hw hv hh hs

theorem appendRange_run (hlo : xs.length + bs.length ≤ v.cap → lo ≤ xs.length) (hn : xs.length + bs.length + 23 < szMod) :
    Runs (appendRange i src) s i v xs src (xs ++ bs) (xs.length + bs.length ≤ v.cap) (fun _ => ()) := by
  have hl := hs.length
  have hadd : szAdd src.length xs.length = xs.length + bs.length := by rw [hl, szAdd_eq (by omega)]; omega
  have hadd' : szAdd xs.length src.length = xs.length + bs.length := by rw [hl, szAdd_eq (by omega)]
  unfold appendRange
  by_cases hc : xs.length + bs.length ≤ v.cap
  · rcases copyBehind hw hv hh hs (hlo hc) hc with ⟨s1, v1, y, Y, hr1, st1, hb1, hc1, hz1, hbuf⟩ | ⟨s1, v1, hr1, st1, hk, hy⟩
    · left
      obtain ⟨s2, hr2, q2⟩ := setSize_ok st1.wf st1.at (n := xs.length + bs.length) hbuf (by simp)
      refine ⟨s2, _, ?_, st1.then q2.step, ⟨by simp, Y, by simp⟩, fun _ => ⟨hb1, hc1⟩, fun h => absurd hc h⟩
      mstep (size_ok hw hv)
      mstep (capacity_ok hw hv)
      rw [hh.1]
      simp only [hadd]
      rw [if_pos hc]
      mstep (data_ok hw hv)
      simp only [Ptr.add, Nat.zero_add]
      mstep hr1
      mstep (size_ok st1.wf st1.at)
      rw [hz1, hh.1, hadd']
      exact hr2
    · right
      refine ⟨s1, .user, v1, ?_, st1, hk, hy.le (by omega) (fun _ => id), fun _ => rfl⟩
      mstep (size_ok hw hv)
      mstep (capacity_ok hw hv)
      rw [hh.1]
      simp only [hadd]
      rw [if_pos hc]
      mstep (data_ok hw hv)
      simp only [Ptr.add, Nat.zero_add]
      exact M.bind_exc hr1
  · have htd := tmp_dead hw
    have hni := ne_tmp hw hv
    have key := withStorage_run hw (fun tmp => (do
      let t ← data tmp
      copyRange src (t.add xs.length)
      let d ← data i
      memmove t d xs.length
      setSize tmp (xs.length + bs.length)
      Storage.moveAssign i tmp : SM Unit)) hn
    have hpre : ∀ r, withStorage (xs.length + bs.length) (fun tmp => (do
      let t ← data tmp
      copyRange src (t.add xs.length)
      let d ← data i
      memmove t d xs.length
      setSize tmp (xs.length + bs.length)
      Storage.moveAssign i tmp : SM Unit)) s = r → appendRange i src s = r := by
      intro r hr
      unfold appendRange
      mstep (size_ok hw hv)
      mstep (capacity_ok hw hv)
      rw [hh.1]
      simp only [hadd, hadd']
      rw [if_neg hc]
      exact hr
    rcases key with ⟨s1, w, hr, hf, hnt⟩ | ⟨s', hr, st, h1, h2, _⟩
    · have hwl := hf.buf
      have hcap := hf.cap
      have hwt := hf.step.at
      obtain ⟨A, X, y, Y, hAX, hAl, hXl⟩ : ∃ A X y Y, w.buf = A ++ X ++ y :: Y ∧ A.length = xs.length ∧ X.length = bs.length := by
        have hl := (hf.step.wf.gd hwt).len
        have hlt : xs.length + bs.length < w.buf.length := by omega
        refine ⟨w.buf.take xs.length, (w.buf.drop xs.length).take bs.length, w.buf[xs.length + bs.length], w.buf.drop (xs.length + bs.length + 1), ?_,
          by simp; omega, by simp; omega⟩
        rw [← List.drop_eq_getElem_cons hlt, ← List.take_add, List.take_append_drop]
      rcases copyRange_run hf.step.wf hwt (hs.fresh hw htd hf.step.abs 0) hAX hAl hXl (Nat.zero_le _) with
        ⟨s2, hr2, st2, _⟩ | ⟨s2, m, hr2, hm, st2, _, hhit, b, hb⟩
      · left
        have hv2 : abs s2 i = some v := by rw [st2.ne hni, hf.step.ne hni, hv]
        obtain ⟨hsz, rest, hrest⟩ := hh
        obtain ⟨s3, hr3, q3⟩ := writeN_ok st2.wf st2.at (A := []) (X := A) (B := bs.map some ++ y :: Y) (bs := xs) (off := 0) (by simp) rfl hAl
        obtain ⟨s4, hr4, q4⟩ := setSize_ok q3.wf q3.at (A := xs.map some ++ bs.map some) (x := y) (B := Y) (n := xs.length + bs.length)
          (by simp) (by simp)
        have st4 := (hf.step.then st2).then (q3.then q4).step
        obtain ⟨s5, v5, hr5, st5, hh5, hc5⟩ := commit (ys := xs ++ bs) (u := 0) st4 hv htd ⟨by simp, Y, by simp⟩ (m := (do
            let t ← data (.tmp s.ntmp)
            copyRange src (t.add xs.length)
            let d ← data i
            memmove t d xs.length
            setSize (.tmp s.ntmp) (xs.length + bs.length)
            Storage.moveAssign i (.tmp s.ntmp) : SM Unit)) (s1 := s1) (by
            intro s' h
            mstep (data_ok hf.step.wf hwt)
            simp only [Ptr.add, Nat.zero_add]
            mstep hr2
            mstep (data_ok st2.wf hv2)
            mstep (memmove_ok (readN_ok st2.wf hv2 (A := []) (B := some t :: rest) (bs := xs) (by rw [hrest]; rfl) rfl rfl) hr3)
            mstep hr4
            exact h)
        exact ⟨s5, v5, hpre _ (by rw [hr, hr5]), st5, hh5, fun h => absurd h hc, fun _ => by
          rw [hc5]; simp only []; rw [hf.fit]; simp⟩
      · right
        obtain ⟨s3, hr3, q3⟩ := leave_exc st2.wf (m := (do
            let t ← data (.tmp s.ntmp)
            copyRange src (t.add xs.length)
            let d ← data i
            memmove t d xs.length
            setSize (.tmp s.ntmp) (xs.length + bs.length)
            Storage.moveAssign i (.tmp s.ntmp) : SM Unit)) (s1 := s1) (e := .user) (by
            mstep (data_ok hf.step.wf hwt)
            simp only [Ptr.add, Nat.zero_add]
            exact M.bind_exc hr2) st2.at
        have st3 : Step s s3 (abs s) := by
          have := (hf.step.trans st2).trans q3.step
          rwa [st2.abs, hf.step.abs, upd_upd, upd_upd, upd_eq _ _ _ htd] at this
        obtain ⟨k1, k2⟩ := kept_same hw hv hh st3 .user
        exact ⟨s3, .user, v, hpre _ (by rw [hr, hr3]), k1, k2, .user hb (hhit.mono hf.step.orc hf.step.tick (Nat.le_of_eq q3.tick.symm)), fun _ => rfl⟩
    · right
      obtain ⟨k1, k2⟩ := kept_same hw hv hh st .badAlloc
      exact ⟨s', .badAlloc, v, hpre _ hr, k1, k2, .mem (by simpa using h1) (by simpa using h2), fun h => absurd h (by omega)⟩

end append

/-- the steps that assemble `pre ++ bs ++ post` in a fresh storage `tm`, where string `i` holds `pre ++ mid ++ post` -/
theorem assemble {s s1 : St} (hw : WF s) {i tm : Id} {v w : Vw} {n : Nat} (hf : Fresh s s1 tm n w) (htd : abs s tm = none)
    (hv : abs s i = some v) {pre mid post : List UInt8} {t : UInt8} (hh : Holds v (pre ++ mid ++ post) t) {src : List Arg} {bs : List UInt8}
    {lo : Nat} (hs : SeesAll (abs s) i lo src bs) (hn : pre.length + bs.length + post.length ≤ n) :
    (∃ s2 s3 s4 s5 w5, copyRange src ⟨some w.base, pre.length⟩ s1 = .ok () s2 ∧
      data i s2 = .ok ⟨some v.base, 0⟩ s2 ∧
      memmove ⟨some w.base, 0⟩ ⟨some v.base, 0⟩ pre.length s2 = .ok () s3 ∧
      memmove ⟨some w.base, pre.length + bs.length⟩ ⟨some v.base, pre.length + mid.length⟩ post.length s3 = .ok () s4 ∧
      setSize tm (pre.length + bs.length + post.length) s4 = .ok () s5 ∧
      Step s s5 (upd (abs s) tm (some w5)) ∧ Holds w5 (pre ++ bs ++ post) 0 ∧ w5.cap = w.cap) ∨
    (∃ s2 w2, copyRange src ⟨some w.base, pre.length⟩ s1 = .exc .user s2 ∧ Step s s2 (upd (abs s) tm (some w2)) ∧
      Why s s2 src 0 .user) := by
  have hni : i ≠ tm := by rintro rfl; rw [htd] at hv; cases hv
  have hcap := hf.cap
  have hwt := hf.step.at
  obtain ⟨A, X, Z, y, Y, hAX, hAl, hXl, hZl⟩ : ∃ A X Z y Y, w.buf = A ++ X ++ (Z ++ y :: Y) ∧ A.length = pre.length ∧ X.length = bs.length ∧
      Z.length = post.length := by
    have hl := (hf.step.wf.gd hwt).len
    have hlt : pre.length + bs.length + post.length < w.buf.length := by omega
    refine ⟨w.buf.take pre.length, (w.buf.drop pre.length).take bs.length, (w.buf.drop (pre.length + bs.length)).take post.length,
      w.buf[pre.length + bs.length + post.length], w.buf.drop (pre.length + bs.length + post.length + 1), ?_,
      by simp; omega, by simp; omega, by simp; omega⟩
    rw [← List.drop_eq_getElem_cons hlt, ← List.take_add, ← List.append_assoc, ← List.take_add, List.take_append_drop]
  rcases copyRange_run hf.step.wf hwt (hs.fresh hw htd hf.step.abs 0) hAX hAl hXl (Nat.zero_le _) with
    ⟨s2, hr2, st2, _⟩ | ⟨s2, m, hr2, hm, st2, _, hhit, b, hb⟩
  · left
    have hv2 : abs s2 i = some v := by rw [st2.ne hni, hf.step.ne hni, hv]
    obtain ⟨hsz, rest, hrest⟩ := hh
    obtain ⟨s3, hr3, q3⟩ := writeN_ok st2.wf st2.at (A := []) (X := A) (B := bs.map some ++ (Z ++ y :: Y)) (bs := pre) (off := 0)
      (by simp) rfl hAl
    have hv3 : abs s3 i = some v := by rw [q3.ne hni, hv2]
    obtain ⟨s4, hr4, q4⟩ := writeN_ok q3.wf q3.at (A := pre.map some ++ bs.map some) (X := Z) (B := y :: Y) (bs := post)
      (off := pre.length + bs.length) (by simp) (by simp) hZl
    obtain ⟨s5, hr5, q5⟩ := setSize_ok q4.wf q4.at (A := pre.map some ++ bs.map some ++ post.map some) (x := y) (B := Y)
      (n := pre.length + bs.length + post.length) (by simp) (by simp; omega)
    refine ⟨s2, s3, s4, s5, _, hr2, data_ok st2.wf hv2, ?_, ?_, hr5, (hf.step.then st2).then ((q3.then q4).then q5).step, ⟨?_, Y, ?_⟩, rfl⟩
    · exact memmove_ok (readN_ok st2.wf hv2 (A := []) (B := mid.map some ++ post.map some ++ some t :: rest) (bs := pre)
        (by rw [hrest]; simp) rfl rfl) hr3
    · exact memmove_ok (readN_ok q3.wf hv3 (A := pre.map some ++ mid.map some) (B := some t :: rest) (bs := post)
        (by rw [hrest]; simp) (by simp) rfl) hr4
    · simp; omega
    · simp
  · right
    exact ⟨s2, _, hr2, hf.step.then st2, .user hb (hhit.mono hf.step.orc hf.step.tick (Nat.le_refl _))⟩

/-- an exception on the allocating path leaves everything as it was -/
theorem discard {s s1 s2 : St} {tm : Id} {w2 : Vw} {m : SM Unit} {e : Exc} (hm : m s1 = .exc e s2)
    (st : Step s s2 (upd (abs s) tm (some w2))) (htd : abs s tm = none) :
    ∃ s3, M.withDtor m (Storage.dtor tm) s1 = .exc e s3 ∧ Step s s3 (abs s) ∧ s3.tick = s2.tick := by
  obtain ⟨s3, hr3, q3⟩ := leave_exc st.wf hm st.at
  refine ⟨s3, hr3, ?_, q3.tick⟩
  have := st.trans q3.step
  rwa [st.abs, upd_upd, upd_eq _ _ _ htd] at this

section insert
variable {s : St} (hw : WF s) {i : Id} {v : Vw} (hv : abs s i = some v) {pre mid post : List UInt8} {t : UInt8}
  {src : List Arg} {bs : List UInt8}
include hw hv

theorem insertRange_run (hh : Holds v (pre ++ post) t) {lo : Nat} (hs : SeesAll (abs s) i lo src bs)
    (hlo : (pre ++ post).length + bs.length ≤ v.cap → lo ≤ (pre ++ post).length) (hn : pre.length + post.length + bs.length + 23 < szMod) :
    Runs (insertRange i ⟨some v.base, pre.length⟩ src) s i v (pre ++ post) src (pre ++ bs ++ post)
      (pre.length + post.length + bs.length ≤ v.cap) (fun v' => ⟨some v'.base, pre.length⟩) := by
  have hl := hs.length
  have hsz : v.siz = pre.length + post.length := by rw [hh.1]; simp
  have hadd : szAdd src.length v.siz = pre.length + post.length + bs.length := by rw [hl, hsz, szAdd_eq (by omega)]; omega
  have hadd' : szAdd v.siz src.length = pre.length + post.length + bs.length := by rw [hl, hsz, szAdd_eq (by omega)]
  have hdist : distance ⟨some v.base, 0⟩ ⟨some v.base, pre.length⟩ s = .ok pre.length s := distance_ok (by omega)
  by_cases hc : pre.length + post.length + bs.length ≤ v.cap
  · rcases copyBehind hw hv hh hs (hlo (by simpa using hc)) (by simpa using hc) with ⟨s1, v1, y, Y, hr1, st1, hb1, hc1, hz1, hbuf⟩ | ⟨s1, v1, hr1, st1, hk, hy⟩
    · left
      obtain ⟨s2, hr2, q2⟩ := rotate_ok st1.wf st1.at (A := pre.map some) (x := post) (y := bs) (B := y :: Y) (f := pre.length)
        (m := pre.length + post.length) (l := pre.length + post.length + bs.length) (by rw [hbuf]; simp) (by simp) rfl rfl
      obtain ⟨s3, hr3, q3⟩ := setSize_ok q2.wf q2.at (A := pre.map some ++ bs.map some ++ post.map some) (x := y) (B := Y)
        (n := pre.length + post.length + bs.length) (by simp) (by simp; omega)
      refine ⟨s3, _, ?_, st1.then (q2.then q3).step, ⟨by simp; omega, Y, by simp⟩, fun _ => ⟨hb1, hc1⟩, fun h => absurd hc h⟩
      unfold insertRange
      mstep (data_ok hw hv)
      mstep hdist
      mstep (size_ok hw hv)
      mstep (capacity_ok hw hv)
      simp only [hadd]
      rw [if_pos hc]
      refine Eq.trans (M.bind_ok (a := ()) (s' := s3) ?_) ?_
      · simp only [Ptr.add, Nat.zero_add]
        rw [hh.1]
        mstep hr1
        rw [hl, hb1] at *
        simp only [List.length_append]
        mstep hr2
        mstep (size_ok q2.wf q2.at)
        simp only []
        rw [hz1, hadd']
        exact hr3
      · mstep (data_ok q3.wf q3.at)
        simp [Ptr.add]
    · right
      refine ⟨s1, .user, v1, ?_, st1, hk, hy.le (by omega) (fun _ => id), fun _ => rfl⟩
      unfold insertRange
      mstep (data_ok hw hv)
      mstep hdist
      mstep (size_ok hw hv)
      mstep (capacity_ok hw hv)
      simp only [hadd]
      rw [if_pos hc]
      refine M.bind_exc ?_
      simp only [Ptr.add, Nat.zero_add]
      rw [hh.1]
      exact M.bind_exc hr1
  · have htd := tmp_dead hw
    have hni := ne_tmp hw hv
    let body : Id → SM Unit := fun tmp => do
      let t ← data tmp
      copyRange src (t.add pre.length)
      let d ← data i
      memmove t d pre.length
      let n ← distance (d.add pre.length) (d.add v.siz)
      memmove (t.add (pre.length + src.length)) (d.add pre.length) n
      setSize tmp (szAdd v.siz src.length)
      Storage.moveAssign i tmp
    have hpre : insertRange i ⟨some v.base, pre.length⟩ src s =
        (withStorage (pre.length + post.length + bs.length) body >>= fun _ => (do
          let d ← data i
          pure (d.add pre.length))) s := by
      unfold insertRange
      mstep (data_ok hw hv)
      mstep hdist
      mstep (size_ok hw hv)
      mstep (capacity_ok hw hv)
      simp only [hadd]
      rw [if_neg hc]
      simp only [body, hadd']
    rcases withStorage_run hw body (n := pre.length + post.length + bs.length) hn with ⟨s1, w, hr, hf, hnt⟩ | ⟨s', hr, st, h1, h2, _⟩
    · rcases assemble (mid := []) hw hf htd hv (by simpa using hh) hs (by omega) with
        ⟨s2, s3, s4, s5, w5, hr2, hd2, hr3, hr4, hr5, st5, hh5, hc5⟩ | ⟨s2, w2, hr2, st2, hy⟩
      · left
        obtain ⟨s6, v6, hr6, st6, hh6, hc6⟩ := commit st5 hv htd hh5 (m := body (.tmp s.ntmp)) (s1 := s1) (by
            intro s' h
            simp only [body]
            mstep (data_ok hf.step.wf hf.step.at)
            simp only [Ptr.add, Nat.zero_add]
            mstep hr2
            mstep hd2
            mstep hr3
            simp only [Nat.zero_add]
            have hle : pre.length ≤ v.siz := by omega
            mstep (distance_ok hle)
            rw [show v.siz - pre.length = post.length by omega, hl]
            mstep hr4
            rw [show szAdd v.siz bs.length = pre.length + bs.length + post.length by rw [← hl, hadd']; omega]
            mstep hr5
            exact h)
        refine ⟨s6, v6, ?_, st6, hh6, fun h => absurd h hc, fun _ => by
          rw [hc6, hc5, hf.fit]; congr 1; simp; omega⟩
        rw [hpre]
        mstep (hr.trans hr6)
        mstep (data_ok st6.wf st6.at)
        simp [Ptr.add]
      · right
        obtain ⟨s3, hr3, st3, ht3⟩ := discard (m := body (.tmp s.ntmp)) (s1 := s1) (e := .user) (by
            simp only [body]
            mstep (data_ok hf.step.wf hf.step.at)
            simp only [Ptr.add, Nat.zero_add]
            exact M.bind_exc hr2) st2 htd
        obtain ⟨k1, k2⟩ := kept_same hw hv hh st3 .user
        refine ⟨s3, .user, v, ?_, k1, k2, (hy.le (by omega) (fun _ => id)).mono rfl (Nat.le_refl _) (Nat.le_of_eq ht3.symm), fun _ => rfl⟩
        rw [hpre]
        exact M.bind_exc (hr.trans hr3)
    · right
      obtain ⟨k1, k2⟩ := kept_same hw hv hh st .badAlloc
      have e : (pre ++ bs ++ post).length = pre.length + post.length + bs.length := by simp; omega
      refine ⟨s', .badAlloc, v, ?_, k1, k2, .mem (by rw [e]; exact h1) (by rw [e]; exact h2), fun h => absurd h (by omega)⟩
      rw [hpre]
      exact M.bind_exc hr

theorem replaceRange_run (hh : Holds v (pre ++ mid ++ post) t) {lo : Nat} (hs : SeesAll (abs s) i lo src bs)
    (hlo : (pre ++ mid ++ post).length + bs.length ≤ v.cap → lo ≤ (pre ++ mid ++ post).length)
    (hn : pre.length + mid.length + post.length + bs.length + 23 < szMod) :
    Runs (replaceRange i ⟨some v.base, pre.length⟩ ⟨some v.base, pre.length + mid.length⟩ src) s i v (pre ++ mid ++ post) src
      (pre ++ bs ++ post) (pre.length + mid.length + post.length + bs.length ≤ v.cap) (fun _ => ()) := by
  have hl := hs.length
  have hsz : v.siz = pre.length + mid.length + post.length := by rw [hh.1]; simp; omega
  have hadd : szAdd src.length v.siz = pre.length + mid.length + post.length + bs.length := by rw [hl, hsz, szAdd_eq (by omega)]; omega
  have hadd' : szAdd v.siz src.length = pre.length + mid.length + post.length + bs.length := by rw [hl, hsz, szAdd_eq (by omega)]
  have hdist : ∀ s : St, distance ⟨some v.base, 0⟩ ⟨some v.base, pre.length⟩ s = .ok pre.length s := fun s => distance_ok (by omega)
  have hdist2 : ∀ s : St, distance ⟨some v.base, pre.length⟩ ⟨some v.base, pre.length + mid.length⟩ s = .ok mid.length s := fun s => by
    rw [distance_ok (by omega)]; congr 1; omega
  have hsub : szSub v.siz mid.length = pre.length + post.length := by
    rw [szSub_eq (by omega) (by omega)]; omega
  by_cases hc : pre.length + mid.length + post.length + bs.length ≤ v.cap
  · rcases copyBehind hw hv hh hs (hlo (by simp; omega)) (by simp; omega) with ⟨s1, v1, y, Y, hr1, st1, hb1, hc1, hz1, hbuf⟩ | ⟨s1, v1, hr1, st1, hk, hy⟩
    · left
      obtain ⟨s2, hr2, q2⟩ := setSize_ok st1.wf st1.at (n := pre.length + mid.length + post.length + bs.length) hbuf (by simp; omega)
      have hh2 : Holds { v1 with siz := pre.length + mid.length + post.length + bs.length, buf := (pre ++ mid ++ post).map some ++ bs.map some ++ some 0 :: Y }
          (pre ++ mid ++ (post ++ bs)) 0 := ⟨by simp; omega, Y, by simp⟩
      obtain ⟨s3, v3, hr3, q3, hh3, hb3, hc3⟩ := erase_ok q2.wf q2.at hh2 rfl
      obtain ⟨hsz3, Y3, hbuf3⟩ := hh3
      obtain ⟨s4, hr4, q4⟩ := rotate_ok q3.wf q3.at (A := pre.map some) (x := post) (y := bs) (B := some 0 :: Y3) (f := pre.length)
        (m := pre.length + post.length) (l := pre.length + post.length + bs.length) (by rw [hbuf3]; simp) (by simp) rfl rfl
      refine ⟨s4, _, ?_, st1.then ((q2.then q3).then q4).step, ⟨?_, Y3, by simp⟩, fun _ => ⟨?_, ?_⟩, fun h => absurd hc h⟩
      · unfold replaceRange
        mstep (size_ok hw hv)
        mstep (capacity_ok hw hv)
        simp only [hadd]
        rw [if_pos hc]
        mstep (data_ok hw hv)
        simp only [Ptr.add, Nat.zero_add]
        rw [show v.siz = (pre ++ mid ++ post).length from hh.1]
        mstep hr1
        mstep (hdist s1)
        mstep (hdist2 s1)
        rw [← show v.siz = (pre ++ mid ++ post).length from hh.1]
        simp only [hadd', hsub]
        mstep hr2
        simp only [hb1] at hr3 hr4 hb3
        rw [hb3] at hr4
        mstep hr3
        mstep (data_ok q3.wf q3.at)
        mstep (size_ok q3.wf q3.at)
        rw [hsz3, hb3]
        simp only [List.length_append, Nat.zero_add]
        rw [show pre.length + (post.length + bs.length) = pre.length + post.length + bs.length by omega]
        exact hr4
      · simp [hsz3]; omega
      · simp only []; rw [hb3]; exact hb1
      · simp only []; rw [hc3]; exact hc1
    · right
      refine ⟨s1, .user, v1, ?_, st1, hk, hy.le (by omega) (fun _ => id), fun _ => rfl⟩
      unfold replaceRange
      mstep (size_ok hw hv)
      mstep (capacity_ok hw hv)
      simp only [hadd]
      rw [if_pos hc]
      mstep (data_ok hw hv)
      simp only [Ptr.add, Nat.zero_add]
      rw [show v.siz = (pre ++ mid ++ post).length from hh.1]
      exact M.bind_exc hr1
  · have htd := tmp_dead hw
    have hni := ne_tmp hw hv
    have hadd2 : szAdd (pre.length + post.length) src.length = pre.length + post.length + bs.length := by
      rw [hl, szAdd_eq (by omega)]
    let body : Id → SM Unit := fun tmp => do
      let t ← data tmp
      let d ← data i
      let offsetFirst ← distance d ⟨some v.base, pre.length⟩
      copyRange src (t.add offsetFirst)
      memmove t d offsetFirst
      let n ← distance ⟨some v.base, pre.length + mid.length⟩ (d.add v.siz)
      memmove (t.add (offsetFirst + src.length)) ⟨some v.base, pre.length + mid.length⟩ n
      setSize tmp (szAdd (szSub v.siz mid.length) src.length)
      Storage.moveAssign i tmp
    have hpre : replaceRange i ⟨some v.base, pre.length⟩ ⟨some v.base, pre.length + mid.length⟩ src s =
        withStorage (pre.length + post.length + bs.length) body s := by
      unfold replaceRange
      mstep (size_ok hw hv)
      mstep (capacity_ok hw hv)
      simp only [hadd]
      rw [if_neg hc]
      mstep (hdist2 s)
      simp only [body, hsub, hadd2]
    rcases withStorage_run hw body (n := pre.length + post.length + bs.length) (by omega) with ⟨s1, w, hr, hf, hnt⟩ | ⟨s', hr, st, h1, h2, _⟩
    · have hv1 : abs s1 i = some v := by rw [hf.step.ne hni, hv]
      rcases assemble hw hf htd hv hh hs (by omega) with
        ⟨s2, s3, s4, s5, w5, hr2, hd2, hr3, hr4, hr5, st5, hh5, hc5⟩ | ⟨s2, w2, hr2, st2, hy⟩
      · left
        obtain ⟨s6, v6, hr6, st6, hh6, hc6⟩ := commit st5 hv htd hh5 (m := body (.tmp s.ntmp)) (s1 := s1) (by
            intro s' h
            simp only [body]
            mstep (data_ok hf.step.wf hf.step.at)
            mstep (data_ok hf.step.wf hv1)
            mstep (hdist s1)
            simp only [Ptr.add, Nat.zero_add]
            mstep hr2
            mstep hr3
            have hle : pre.length + mid.length ≤ v.siz := by omega
            mstep (distance_ok hle)
            rw [show v.siz - (pre.length + mid.length) = post.length by omega, hl]
            mstep hr4
            rw [hsub, ← hl, hadd2, show pre.length + post.length + bs.length = pre.length + bs.length + post.length by omega]
            mstep hr5
            exact h)
        exact ⟨s6, v6, by rw [hpre, hr, hr6], st6, hh6, fun h => absurd h hc, fun _ => by
          rw [hc6, hc5, hf.fit]; congr 1; simp; omega⟩
      · right
        obtain ⟨s3, hr3, st3, ht3⟩ := discard (m := body (.tmp s.ntmp)) (s1 := s1) (e := .user) (by
            simp only [body]
            mstep (data_ok hf.step.wf hf.step.at)
            mstep (data_ok hf.step.wf hv1)
            mstep (hdist s1)
            simp only [Ptr.add, Nat.zero_add]
            exact M.bind_exc hr2) st2 htd
        obtain ⟨k1, k2⟩ := kept_same hw hv hh st3 .user
        exact ⟨s3, .user, v, by rw [hpre, hr, hr3], k1, k2,
          (hy.le (by omega) (fun _ => id)).mono rfl (Nat.le_refl _) (Nat.le_of_eq ht3.symm), fun _ => rfl⟩
    · right
      obtain ⟨k1, k2⟩ := kept_same hw hv hh st .badAlloc
      have e : (pre ++ bs ++ post).length = pre.length + post.length + bs.length := by simp; omega
      exact ⟨s', .badAlloc, v, by rw [hpre, hr], k1, k2, .mem (by rw [e]; exact h1) (by rw [e]; exact h2), fun h => absurd h (by omega)⟩

end insert

end Ptl.Str

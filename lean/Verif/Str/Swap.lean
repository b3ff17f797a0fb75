import Verif.Str.Storage

/-! # Effect of `shrink_to_fit` and `swap` -/

namespace Ptl.Str

theorem deleteChar_ok {s : St} {b : Nat} {l : List (Option UInt8)} (h : s.mem (.heap b) = some l) :
    deleteChar b b s = .ok () { s with mem := upd s.mem (.heap b) none } := by simp [deleteChar, h]

theorem readN_run {s : St} {q : Base} {A B : List (Option UInt8)} {bs : List UInt8} {m k : Nat}
    (hq : s.mem q = some (A ++ bs.map some ++ B)) (hm : A.length = m) (hk : bs.length = k) :
    readN ⟨some q, m⟩ k s = .ok bs s := by
  subst hm hk
  unfold readN
  split
  · next h0 => rw [List.length_eq_zero_iff] at h0; rw [h0]
  · simp only [hq]
    rw [if_neg (by simp)]
    have e : ((A ++ bs.map some ++ B).drop A.length).take bs.length = bs.map some := by
      rw [List.append_assoc, List.drop_left, List.take_left' (by simp)]
    rw [e, if_pos (by simp)]
    simp [List.filterMap_map]

theorem writeN_run {s : St} {p : Base} {A' X B' : List (Option UInt8)} {bs : List UInt8} {n : Nat}
    (hp : s.mem p = some (A' ++ X ++ B')) (hn : A'.length = n) (hX : X.length = bs.length) :
    writeN ⟨some p, n⟩ bs s = .ok () { s with mem := upd s.mem p (some (A' ++ bs.map some ++ B')) } := by
  subst hn
  by_cases h0 : bs = []
  · have : X = [] := by rw [← List.length_eq_zero_iff, hX, h0]; rfl
    subst h0 this
    simp only [writeN, if_pos]
    rw [show upd s.mem p (some (A' ++ List.map some [] ++ B')) = s.mem from upd_eq _ _ _ (by rw [hp]; simp)]
  · unfold writeN
    rw [if_neg h0]
    simp only [hp]
    rw [if_neg (by simp; omega)]
    have e1 : (A' ++ X ++ B').take A'.length = A' := by rw [List.append_assoc, List.take_left]
    have e2 : (A' ++ X ++ B').drop (A'.length + bs.length) = B' := List.drop_left' (by simp [hX])
    rw [e1, e2]

section
variable {s : St} (hw : WF s)
include hw

theorem heap_shape {i : Id} {v : Vw} {b : Nat} (hv : abs s i = some v) (hb : v.base = .heap b) :
    48 ≤ v.cap ∧ 24 ∣ v.cap ∧ v.cap < ptrdiffMax := by
  rcases (hw.gd hv).shape with ⟨h, _⟩ | ⟨_, _, h⟩
  · rw [hb] at h; cases h
  · exact h

theorem shrinkToFit_ok {i : Id} {v : Vw} {xs : List UInt8} {t : UInt8} (hv : abs s i = some v) (hh : Holds v xs t) :
    ∃ s' v', shrinkToFit i s = .ok () s' ∧ Quiet s s' (upd (abs s) i (some v')) ∧ Holds v' xs t ∧
      (xs.length ≤ 22 → v'.base = .sso i ∧ v'.cap = 22) ∧ (22 < xs.length → s' = s ∧ v' = v) ∧
      (v.base = .sso i → s' = s ∧ v' = v) := by
  have e0 : upd (abs s) i (some v) = abs s := upd_eq _ _ _ hv
  obtain ⟨hsz, rest, hrest⟩ := hh
  rcases hw.cases hv with ⟨o1, hb, hc, hm, hg⟩ | ⟨b, o1, hb, hm, hg, hlt⟩
  · refine ⟨s, v, ?_, e0.symm ▸ Quiet.refl hw, ⟨hsz, rest, hrest⟩, fun _ => ⟨hb, hc⟩, fun _ => ⟨rfl, rfl⟩, fun _ => ⟨rfl, rfl⟩⟩
    unfold shrinkToFit
    refine M.noexcept_ok ?_
    mstep (getObj_ok o1)
    rfl
  · by_cases hx : xs.length ≤ 22
    · have hn := mem_none_of_heap hw o1
      have hmod : v.siz % 256 = v.siz := by omega
      have hX : ∃ X B', List.replicate 23 (none : Option UInt8) = X ++ B' ∧ X.length = xs.length + 1 ∧
          B'.length = 22 - xs.length :=
        ⟨List.replicate (xs.length + 1) none, List.replicate (22 - xs.length) none,
          by rw [List.replicate_append_replicate]; congr 1; omega, by simp, by simp⟩
      obtain ⟨X, B', hX, hXl, hBl⟩ := hX
      let l' := xs.map some ++ some t :: B'
      let s' : St := { s with obj := upd s.obj i (some ⟨none, .sso v.siz⟩),
                              mem := upd (upd s.mem (.sso i) (some l')) (.heap b) none }
      have hm' : s'.mem (.sso i) = some l' := by
        show upd (upd s.mem (.sso i) (some l')) (.heap b) none (.sso i) = _
        rw [upd_ne _ _ (by simp), upd_same]
      have hoi : s'.obj i = some ⟨none, .sso v.siz⟩ := upd_same _ _ _
      have key := rebuild1 (s := s) (s' := s') hw i (some ⟨none, .sso v.siz⟩) (some ⟨.sso i, 22, v.siz, l'⟩) rfl
        (by simp [abs, hoi, Obj.base, Obj.cap, Obj.siz, hm']) ?_ ?_ ?_ ?_ (Nat.le_refl _) (Nat.le_refl _)
        (fun k hk _ => live_tmp hw hv k hk)
      · refine ⟨s', ⟨.sso i, 22, v.siz, l'⟩, ?_, ⟨key.1, key.2, rfl, rfl, rfl, rfl, rfl⟩, ⟨hsz, B', rfl⟩,
          fun _ => ⟨rfl, rfl⟩, fun h => by omega, fun h => by rw [hb] at h; cases h⟩
        unfold shrinkToFit
        refine M.noexcept_ok ?_
        mstep (getObj_ok o1)
        simp only [Bool.not_true, Bool.false_eq_true, if_false]
        mstep (heapOf_ok o1 rfl)
        simp only
        rw [if_neg (by rw [hsz]; unfold ssoSize; omega), hmod]
        mstep (setSsoSiz_heap o1 rfl _)
        refine Eq.trans (M.bind_ok (memmove_run (s := { s with obj := upd s.obj i (some ⟨some b, .sso v.siz⟩), mem := upd s.mem (.sso i) (some (List.replicate 23 none)) })
          (p := .sso i) (q := .heap b) (A := []) (B := rest) (A' := []) (X := X)
          (B' := B') (bs := xs ++ [t]) ?_ rfl ?_ rfl (by simp [hXl]) (by simp [hsz]))) ?_
        · simp only []
          rw [upd_ne _ _ (by simp), hm, hrest]; simp
        · simp only []
          rw [upd_same, hX]; simp
        · refine Eq.trans (M.bind_ok (deleteChar_ok (l := v.buf) ?_)) ?_
          · simp only [upd_upd]
            rw [upd_ne _ _ (by simp), hm]
          · refine (setDealloc_ok (o := ⟨some b, .sso v.siz⟩) (by simp) _).trans ?_
            simp [s', l']
      · intro o e; cases e
        refine ⟨by simp, l', hm', .inl ⟨rfl, rfl⟩, ?_, ?_⟩
        · simp [l', Obj.cap, hBl]; omega
        · simp [Obj.siz, Obj.cap, hsz, hx]
      · intro p hp hp'
        show upd (upd s.mem (.sso i) _) (.heap b) none p = _
        rw [upd_ne _ _ (show p ≠ .heap b from hp _ o1), upd_ne _ _ (show p ≠ .sso i from hp' _ rfl)]
      · intro o e _
        rw [o1] at e; cases e
        exact upd_same (upd s.mem (.sso i) (some l')) (.heap b) none
      · intro o b' e hb'; cases e; cases hb'
    · refine ⟨s, v, ?_, e0.symm ▸ Quiet.refl hw, ⟨hsz, rest, hrest⟩, fun h => absurd h hx, fun _ => ⟨rfl, rfl⟩,
        fun h => by rw [hb] at h; cases h⟩
      unfold shrinkToFit
      refine M.noexcept_ok ?_
      mstep (getObj_ok o1)
      simp only [Bool.not_true, Bool.false_eq_true, if_false]
      mstep (heapOf_ok o1 rfl)
      simp only
      rw [if_pos (by rw [hsz]; unfold ssoSize; omega)]
      rfl

/-- what each side of a swap becomes -/
def Swapped (this : Id) (v' w : Vw) : Prop :=
  (∃ b, w.base = .heap b ∧ v' = w) ∨ ((∃ j, w.base = .sso j) ∧ v'.base = .sso this ∧ v'.cap = 22)

theorem swap_ok {i j : Id} {v w : Vw} {xs ys : List UInt8} {t u : UInt8} (hij : i ≠ j) (hv : abs s i = some v)
    (hw' : abs s j = some w) (hx : Holds v xs t) (hy : Holds w ys u) :
    ∃ s' v' w', swap i j s = .ok () s' ∧ Quiet s s' (upd (upd (abs s) i (some v')) j (some w')) ∧
      Holds v' ys u ∧ Holds w' xs t ∧ Swapped i v' w ∧ Swapped j w' v := by
  have hti := live_tmp hw hv
  have htj := live_tmp hw hw'
  have hssoij : Base.sso i ≠ .sso j := fun h => by cases h; exact hij rfl
  obtain ⟨hsx, rx, hrx⟩ := hx
  obtain ⟨hsy, ry, hry⟩ := hy
  -- assemble the result
  have fin : ∀ (s' : St) (v' w' : Vw) (oi oj : Obj), s'.obj i = some oi → s'.obj j = some oj →
      s'.mem (oi.base i) = some v'.buf → s'.mem (oj.base j) = some w'.buf →
      oi.base i = v'.base → oi.cap = v'.cap → oi.siz = v'.siz → oj.base j = w'.base → oj.cap = w'.cap →
      oj.siz = w'.siz → (∀ k, k ≠ i → k ≠ j → abs s' k = abs s k) →
      abs s' = upd (upd (abs s) i (some v')) j (some w') := by
    intro s' v' w' oi oj hoi hoj hmi hmj e1 e2 e3 e4 e5 e6 hk
    funext k
    by_cases h : k = j
    · subst h; rw [upd_same]; simp only [abs, hoj, hmj, Option.map_some, Option.getD_some]; exact congrArg some (Vw.ext e4 e5 e6 rfl)
    · rw [upd_ne _ _ h]
      by_cases h' : k = i
      · subst h'; rw [upd_same]; simp only [abs, hoi, hmi, Option.map_some, Option.getD_some]; exact congrArg some (Vw.ext e1 e2 e3 rfl)
      · rw [upd_ne _ _ h']; exact hk k h' h
  rcases hw.cases hv with ⟨oi, hbi, hci, hmi, hgi⟩ | ⟨bi, oi, hbi, hmi, hgi, hlti⟩ <;>
  rcases hw.cases hw' with ⟨oj, hbj, hcj, hmj, hgj⟩ | ⟨bj, oj, hbj, hmj, hgj, hltj⟩
  · -- both small
    have hlx : xs.length ≤ 22 := by have := hgi.siz; omega
    have hly : ys.length ≤ 22 := by have := hgj.siz; omega
    have hleni : v.buf.length = 23 := by rw [hgi.len, hci]
    have hlenj : w.buf.length = 23 := by rw [hgj.len, hcj]
    obtain ⟨X, B, hXB, hXl⟩ : ∃ X B, v.buf = X ++ B ∧ X.length = ys.length + 1 :=
      ⟨v.buf.take (ys.length + 1), v.buf.drop (ys.length + 1), (List.take_append_drop _ _).symm, by simp; omega⟩
    obtain ⟨Y, C, hYC, hYl⟩ : ∃ Y C, w.buf = Y ++ C ∧ Y.length = xs.length + 1 :=
      ⟨w.buf.take (xs.length + 1), w.buf.drop (xs.length + 1), (List.take_append_drop _ _).symm, by simp; omega⟩
    have hBl : B.length = 22 - ys.length := by have := hleni; rw [hXB] at this; simp at this; omega
    have hCl : C.length = 22 - xs.length := by have := hlenj; rw [hYC] at this; simp at this; omega
    let v' : Vw := ⟨.sso i, 22, w.siz, ys.map some ++ some u :: B⟩
    let w' : Vw := ⟨.sso j, 22, v.siz, xs.map some ++ some t :: C⟩
    let s' : St := { s with obj := upd (upd s.obj i (some ⟨none, .sso w.siz⟩)) j (some ⟨none, .sso v.siz⟩),
                            mem := upd (upd s.mem (.sso i) (some v'.buf)) (.sso j) (some w'.buf) }
    have hoi : s'.obj i = some ⟨none, .sso w.siz⟩ := by
      show upd (upd s.obj i _) j _ i = _
      rw [upd_ne _ _ hij, upd_same]
    have hoj : s'.obj j = some ⟨none, .sso v.siz⟩ := upd_same _ _ _
    have hm1 : s'.mem (.sso i) = some v'.buf := by
      show upd (upd s.mem (.sso i) (some v'.buf)) (.sso j) (some w'.buf) (.sso i) = _
      rw [upd_ne _ _ hssoij, upd_same]
    have hm2 : s'.mem (.sso j) = some w'.buf := upd_same _ _ _
    have key := rebuild2 (s := s) (s' := s') hw hij hoi hoj
      (fun k h1 h2 => by
        show upd (upd s.obj i _) j _ k = _
        rw [upd_ne _ _ h2, upd_ne _ _ h1])
      ⟨by simp, _, hm1, .inl ⟨rfl, rfl⟩, by simp [Obj.cap, v', hBl]; omega, by simp [Obj.siz, Obj.cap, hsy, hly]⟩
      ⟨by simp, _, hm2, .inl ⟨rfl, rfl⟩, by simp [Obj.cap, w', hCl]; omega, by simp [Obj.siz, Obj.cap, hsx, hlx]⟩
      hssoij
      (fun p h1 h2 _ _ => by
        show upd (upd s.mem (.sso i) (some v'.buf)) (.sso j) (some w'.buf) p = _
        rw [upd_ne _ _ h2, upd_ne _ _ h1])
      (fun p l _ h => by
        rcases h with h | h | ⟨o, h, h'⟩ | ⟨o, h, h'⟩
        · exact .inl h
        · exact .inr h
        · rw [oi] at h; cases h; exact .inl h'
        · rw [oj] at h; cases h; exact .inr h')
      (fun b h => by rcases h with h | h <;> cases h)
      rfl rfl hti htj
    refine ⟨s', v', w', ?_, ⟨key.1, fin s' v' w' _ _ hoi hoj hm1 hm2 rfl rfl rfl rfl rfl rfl key.2, rfl, rfl, rfl, rfl, rfl⟩,
      ⟨hsy, B, rfl⟩, ⟨hsx, C, rfl⟩, .inr ⟨⟨j, hbj⟩, rfl, rfl⟩, .inr ⟨⟨i, hbi⟩, rfl, rfl⟩⟩
    unfold swap
    refine M.noexcept_ok ?_
    rw [if_neg hij]
    mstep (getObj_ok oi)
    mstep (getObj_ok oj)
    simp only [Bool.false_and, Bool.false_eq_true, if_false, Bool.not_false, Bool.true_and, if_true]
    mstep (ssoSiz_ok oi rfl)
    mstep (ssoSiz_ok oj rfl)
    mstep (readN_run (q := .sso i) (A := []) (B := rx) (bs := xs ++ [t]) (by rw [hmi, hrx]; simp) rfl (by simp [hsx]))
    mstep (memmove_run (p := .sso i) (q := .sso j) (A := []) (B := ry) (A' := []) (X := X) (B' := B) (bs := ys ++ [u])
      (by rw [hmj, hry]; simp) rfl (by rw [hmi, hXB]; simp) rfl (by simp [hXl]) (by simp [hsy]))
    mstep (writeN_run (p := .sso j) (A' := []) (X := Y) (B' := C) (bs := xs ++ [t])
      (by simp only []; rw [upd_ne _ _ hssoij.symm, hmj, hYC]; simp) rfl (by simp [hYl]))
    mstep (setSsoSiz_sso (o := ⟨none, .sso v.siz⟩) (by exact oi) rfl _)
    refine (setSsoSiz_sso (o := ⟨none, .sso w.siz⟩) (by simp only []; rw [upd_ne _ _ hij.symm, oj]) rfl _).trans ?_
    simp [s', v', w']
  · -- `i` small, `j` on the heap
    have hlx : xs.length ≤ 22 := by have := hgi.siz; omega
    have hleni : v.buf.length = 23 := by rw [hgi.len, hci]
    have hn := mem_none_of_heap hw oj
    have hshj := heap_shape hw hw' hbj
    obtain ⟨X, B, hXB, hXl, hBl⟩ : ∃ X B, List.replicate 23 (none : Option UInt8) = X ++ B ∧ X.length = xs.length + 1 ∧
        B.length = 22 - xs.length :=
      ⟨List.replicate (xs.length + 1) none, List.replicate (22 - xs.length) none,
        by rw [List.replicate_append_replicate]; congr 1; omega, by simp, by simp⟩
    let w' : Vw := ⟨.sso j, 22, v.siz, xs.map some ++ some t :: B⟩
    let s' : St := { s with obj := upd (upd s.obj i (some ⟨some bj, .heap bj w.cap w.siz⟩)) j (some ⟨none, .sso v.siz⟩),
                            mem := upd (upd s.mem (.sso j) (some w'.buf)) (.sso i) none }
    have hoi : s'.obj i = some ⟨some bj, .heap bj w.cap w.siz⟩ := by
      show upd (upd s.obj i _) j _ i = _
      rw [upd_ne _ _ hij, upd_same]
    have hoj : s'.obj j = some ⟨none, .sso v.siz⟩ := upd_same _ _ _
    have hm1 : s'.mem (.heap bj) = some w.buf := by
      show upd (upd s.mem (.sso j) (some w'.buf)) (.sso i) none (.heap bj) = _
      rw [upd_ne _ _ (by simp), upd_ne _ _ (by simp), hmj]
    have hm2 : s'.mem (.sso j) = some w'.buf := by
      show upd (upd s.mem (.sso j) (some w'.buf)) (.sso i) none (.sso j) = _
      rw [upd_ne _ _ hssoij.symm, upd_same]
    have key := rebuild2 (s := s) (s' := s') hw hij hoi hoj
      (fun k h1 h2 => by
        show upd (upd s.obj i _) j _ k = _
        rw [upd_ne _ _ h2, upd_ne _ _ h1])
      ⟨by simp, _, hm1, .inr ⟨bj, rfl, hshj⟩, hgj.len, hgj.siz⟩
      ⟨by simp, _, hm2, .inl ⟨rfl, rfl⟩, by simp [Obj.cap, w', hBl]; omega, by simp [Obj.siz, Obj.cap, hsx, hlx]⟩
      (by simp [Obj.base])
      (fun p h1 h2 _ _ => by
        show upd (upd s.mem (.sso j) (some w'.buf)) (.sso i) none p = _
        rw [upd_ne _ _ h1, upd_ne _ _ h2])
      (fun p l hl h => by
        have hpi : p ≠ .sso i := by
          rintro rfl
          rw [show s'.mem (.sso i) = none from upd_same _ _ _] at hl; cases hl
        rcases h with h | h | ⟨o, h, h'⟩ | ⟨o, h, h'⟩
        · exact absurd h hpi
        · exact .inr h
        · rw [oi] at h; cases h; exact absurd h' hpi
        · rw [oj] at h; cases h; exact .inl h')
      (fun b h => by
        rcases h with h | h <;> cases h
        exact .inr ⟨_, oj, rfl⟩)
      rfl rfl hti htj
    refine ⟨s', w, w', ?_, ⟨key.1, fin s' w w' _ _ hoi hoj hm1 hm2 hbj.symm rfl rfl rfl rfl rfl key.2, rfl, rfl, rfl, rfl, rfl⟩,
      ⟨hsy, ry, hry⟩, ⟨hsx, B, rfl⟩, .inl ⟨bj, hbj, rfl⟩, .inr ⟨⟨i, hbi⟩, rfl, rfl⟩⟩
    unfold swap
    refine M.noexcept_ok ?_
    rw [if_neg hij]
    mstep (getObj_ok oi)
    mstep (getObj_ok oj)
    simp only [Option.isSome_none, Option.isSome_some, Option.isNone_none, Option.isNone_some, Bool.false_and, Bool.and_false,
      Bool.true_and, Bool.and_true, Bool.false_eq_true, if_false, if_true]
    mstep (heapOf_ok oj rfl)
    simp only
    mstep (ssoSiz_ok oi rfl)
    mstep (setSsoSiz_heap oj rfl _)
    mstep (memmove_run (p := .sso j) (q := .sso i) (A := []) (B := rx) (A' := []) (X := X) (B' := B) (bs := xs ++ [t])
      (by simp only []; rw [upd_ne _ _ hssoij, hmi, hrx]; simp) rfl (by simp [hXB]) rfl (by simp [hXl]) (by simp [hsx]))
    mstep (setHeap_ok (o := ⟨none, .sso v.siz⟩) (by simp only []; rw [upd_ne _ _ hij, oi]) _ _ _)
    mstep (setDealloc_ok (o := ⟨none, .heap bj w.cap w.siz⟩) (by exact upd_same _ _ _) _)
    refine (setDealloc_ok (o := ⟨some bj, .sso v.siz⟩) (by simp only [upd_upd]; rw [upd_ne _ _ hij.symm, upd_same]) _).trans ?_
    simp only [upd_upd, s', w']
    rw [upd_comm s.obj _ _ hij.symm, upd_upd]
    simp
  · -- `i` on the heap, `j` small
    have hly : ys.length ≤ 22 := by have := hgj.siz; omega
    have hn := mem_none_of_heap hw oi
    have hshi := heap_shape hw hv hbi
    obtain ⟨X, B, hXB, hXl, hBl⟩ : ∃ X B, List.replicate 23 (none : Option UInt8) = X ++ B ∧ X.length = ys.length + 1 ∧
        B.length = 22 - ys.length :=
      ⟨List.replicate (ys.length + 1) none, List.replicate (22 - ys.length) none,
        by rw [List.replicate_append_replicate]; congr 1; omega, by simp, by simp⟩
    let v' : Vw := ⟨.sso i, 22, w.siz, ys.map some ++ some u :: B⟩
    let s' : St := { s with obj := upd (upd s.obj i (some ⟨none, .sso w.siz⟩)) j (some ⟨some bi, .heap bi v.cap v.siz⟩),
                            mem := upd (upd s.mem (.sso i) (some v'.buf)) (.sso j) none }
    have hoi : s'.obj i = some ⟨none, .sso w.siz⟩ := by
      show upd (upd s.obj i _) j _ i = _
      rw [upd_ne _ _ hij, upd_same]
    have hoj : s'.obj j = some ⟨some bi, .heap bi v.cap v.siz⟩ := upd_same _ _ _
    have hm1 : s'.mem (.sso i) = some v'.buf := by
      show upd (upd s.mem (.sso i) (some v'.buf)) (.sso j) none (.sso i) = _
      rw [upd_ne _ _ hssoij, upd_same]
    have hm2 : s'.mem (.heap bi) = some v.buf := by
      show upd (upd s.mem (.sso i) (some v'.buf)) (.sso j) none (.heap bi) = _
      rw [upd_ne _ _ (by simp), upd_ne _ _ (by simp), hmi]
    have key := rebuild2 (s := s) (s' := s') hw hij hoi hoj
      (fun k h1 h2 => by
        show upd (upd s.obj i _) j _ k = _
        rw [upd_ne _ _ h2, upd_ne _ _ h1])
      ⟨by simp, _, hm1, .inl ⟨rfl, rfl⟩, by simp [Obj.cap, v', hBl]; omega, by simp [Obj.siz, Obj.cap, hsy, hly]⟩
      ⟨by simp, _, hm2, .inr ⟨bi, rfl, hshi⟩, hgi.len, hgi.siz⟩
      (by simp [Obj.base])
      (fun p h1 h2 _ _ => by
        show upd (upd s.mem (.sso i) (some v'.buf)) (.sso j) none p = _
        rw [upd_ne _ _ h2, upd_ne _ _ h1])
      (fun p l hl h => by
        have hpj : p ≠ .sso j := by
          rintro rfl
          rw [show s'.mem (.sso j) = none from upd_same _ _ _] at hl; cases hl
        rcases h with h | h | ⟨o, h, h'⟩ | ⟨o, h, h'⟩
        · exact .inl h
        · exact absurd h hpj
        · rw [oi] at h; cases h; exact .inr h'
        · rw [oj] at h; cases h; exact absurd h' hpj)
      (fun b h => by
        rcases h with h | h <;> cases h
        exact .inl ⟨_, oi, rfl⟩)
      rfl rfl hti htj
    refine ⟨s', v', v, ?_, ⟨key.1, fin s' v' v _ _ hoi hoj hm1 hm2 rfl rfl rfl hbi.symm rfl rfl key.2, rfl, rfl, rfl, rfl, rfl⟩,
      ⟨hsy, B, rfl⟩, ⟨hsx, rx, hrx⟩, .inr ⟨⟨j, hbj⟩, rfl, rfl⟩, .inl ⟨bi, hbi, rfl⟩⟩
    unfold swap
    refine M.noexcept_ok ?_
    rw [if_neg hij]
    mstep (getObj_ok oi)
    mstep (getObj_ok oj)
    simp only [Option.isSome_none, Option.isSome_some, Option.isNone_none, Option.isNone_some, Bool.false_and, Bool.and_false,
      Bool.true_and, Bool.and_true, Bool.false_eq_true, if_false, if_true]
    mstep (heapOf_ok oi rfl)
    simp only
    mstep (ssoSiz_ok oj rfl)
    mstep (setSsoSiz_heap oi rfl _)
    mstep (memmove_run (p := .sso i) (q := .sso j) (A := []) (B := ry) (A' := []) (X := X) (B' := B) (bs := ys ++ [u])
      (by simp only []; rw [upd_ne _ _ hssoij.symm, hmj, hry]; simp) rfl (by simp [hXB]) rfl (by simp [hXl]) (by simp [hsy]))
    mstep (setHeap_ok (o := ⟨none, .sso w.siz⟩) (by simp only []; rw [upd_ne _ _ hij.symm, oj]) _ _ _)
    mstep (setDealloc_ok (o := ⟨some bi, .sso w.siz⟩) (by simp only []; rw [upd_ne _ _ hij, upd_same]) _)
    refine (setDealloc_ok (o := ⟨none, .heap bi v.cap v.siz⟩) (by simp only []; rw [upd_ne _ _ hij.symm, upd_same]) _).trans ?_
    simp only [upd_upd, s', v']
    rw [upd_comm (upd s.obj i _) _ _ hij.symm, upd_upd, upd_upd]
    simp
  · -- both on the heap
    have hni := mem_none_of_heap hw oi
    have hshi := heap_shape hw hv hbi
    have hshj := heap_shape hw hw' hbj
    have hnj := mem_none_of_heap hw oj
    have hbb : bi ≠ bj := fun h => hw.base_ne hv hw' hij (by rw [hbi, hbj, h])
    let s' : St := { s with obj := upd (upd s.obj i (some ⟨some bj, .heap bj w.cap w.siz⟩)) j (some ⟨some bi, .heap bi v.cap v.siz⟩) }
    have hoi : s'.obj i = some ⟨some bj, .heap bj w.cap w.siz⟩ := by
      show upd (upd s.obj i _) j _ i = _
      rw [upd_ne _ _ hij, upd_same]
    have hoj : s'.obj j = some ⟨some bi, .heap bi v.cap v.siz⟩ := upd_same _ _ _
    have key := rebuild2 (s := s) (s' := s') hw hij hoi hoj
      (fun k h1 h2 => by
        show upd (upd s.obj i _) j _ k = _
        rw [upd_ne _ _ h2, upd_ne _ _ h1])
      ⟨by simp, _, hmj, .inr ⟨bj, rfl, hshj⟩, hgj.len, hgj.siz⟩
      ⟨by simp, _, hmi, .inr ⟨bi, rfl, hshi⟩, hgi.len, hgi.siz⟩
      (by simp [Obj.base]; exact fun h => hbb h.symm)
      (fun _ _ _ _ _ => rfl)
      (fun p l hl h => by
        rcases h with h | h | ⟨o, h, h'⟩ | ⟨o, h, h'⟩
        · rw [h, hni] at hl; cases hl
        · rw [h, hnj] at hl; cases hl
        · rw [oi] at h; cases h; exact .inr h'
        · rw [oj] at h; cases h; exact .inl h')
      (fun b h => by
        rcases h with h | h <;> cases h
        · exact .inr ⟨_, oj, rfl⟩
        · exact .inl ⟨_, oi, rfl⟩)
      rfl rfl hti htj
    refine ⟨s', w, v, ?_, ⟨key.1, fin s' w v _ _ hoi hoj hmj hmi hbj.symm rfl rfl hbi.symm rfl rfl key.2, rfl, rfl, rfl, rfl, rfl⟩,
      ⟨hsy, ry, hry⟩, ⟨hsx, rx, hrx⟩, .inl ⟨bj, hbj, rfl⟩, .inl ⟨bi, hbi, rfl⟩⟩
    unfold swap
    refine M.noexcept_ok ?_
    rw [if_neg hij]
    mstep (getObj_ok oi)
    mstep (getObj_ok oj)
    simp only [Bool.and_self, if_true]
    mstep (heapOf_ok oi rfl)
    simp only
    mstep (heapOf_ok oj rfl)
    simp only
    mstep (setHeap_ok oi _ _ _)
    mstep (setHeap_ok (o := ⟨some bj, .heap bj w.cap w.siz⟩) (by simp only []; rw [upd_ne _ _ hij.symm, oj]) _ _ _)
    mstep (setDealloc_ok (o := ⟨some bi, .heap bj w.cap w.siz⟩) (by simp only []; rw [upd_ne _ _ hij, upd_same]) _)
    refine (setDealloc_ok (o := ⟨some bj, .heap bi v.cap v.siz⟩) (by simp only []; rw [upd_ne _ _ hij.symm, upd_same]) _).trans ?_
    simp only [s']
    congr 2
    · rw [upd_eq _ _ _ hni, upd_eq _ _ _ hnj]
    · rw [upd_comm (upd s.obj i _) _ _ hij.symm, upd_upd, upd_upd]

theorem swap_self {i : Id} : swap i i s = .ok () s := by
  simp [swap, M.noexcept]

end

end Ptl.Str

import Verif.Bitset.Queries

/-! # Every bitset call meets its specification; histories -/

namespace Ptl.Bitset

variable {n : Nat} {s s' : St} {V V' : View n} {i j k : Nat} {xs ys : List Byte} {f g : Bits n} {op : Op}
  {r : Except Exc Res}

/-- the model state `s` is what the client's view `V` says -/
structure Inv (s : St) (V : View n) : Prop where
  is : s.is = V.is
  os : s.os = V.os
  dead : ∀ i, V.var i = none → s.obj i = none
  live : ∀ i f, V.var i = some f → ∃ xs, s.obj i = some xs ∧ Rep n xs f

/-- a normal return or an exception -/
def outcome (r : Except Exc Res) (s : St) : Out St Res :=
  match r with
  | .ok a => .ok a s
  | .error e => .exc e s

theorem Inv.put (h : Inv s V) (hr : Rep n xs f) (i : Nat) : Inv (s.put i xs) (V.put i f) := by
  refine ⟨h.is, h.os, fun j hj => ?_, fun j g hj => ?_⟩
  · by_cases hji : j = i
    · subst hji; simp [View.put] at hj
    · rw [put_obj_ne hji]
      exact h.dead j (by simpa [View.put, upd_ne _ _ hji] using hj)
  · by_cases hji : j = i
    · subst hji
      simp only [View.put, upd_same, Option.some.injEq] at hj
      subst hj
      exact ⟨xs, put_obj_same, hr⟩
    · rw [put_obj_ne hji]
      exact h.live j g (by simpa [View.put, upd_ne _ _ hji] using hj)

/-- the call returns as specified -/
def Meets (n : Nat) (m : BM Res) (s : St) (r : Except Exc Res) (V' : View n) : Prop :=
  ∃ s', m s = outcome r s' ∧ Inv s' V'

theorem use_some {k : Bits n → Option (Except Exc Res × View n)} {x : Except Exc Res × View n} (h : V.use i k = some x) :
    ∃ f, V.var i = some f ∧ k f = some x := by
  unfold View.use at h
  cases hv : V.var i with
  | none => rw [hv] at h; cases h
  | some f => rw [hv] at h; exact ⟨f, rfl, h⟩

theorem Meets.act {m : BM Unit} (h : Inv s V) (ha : Act n m s i f) : Meets n (do m; pure .unit) s (.ok .unit) (V.put i f) := by
  obtain ⟨zs, e, hr⟩ := ha
  exact ⟨_, by rw [M.bind_ok e]; rfl, h.put hr i⟩

theorem Meets.create {m : BM Unit} (h : Inv s V) (hc : V.create i f = some (r, V')) (ha : s.obj i = none → Act n m s i f) :
    Meets n (do m; pure .unit) s r V' := by
  unfold View.create at hc
  cases hv : V.var i with
  | some g => rw [hv] at hc; cases hc
  | none => rw [hv] at hc; cases hc; exact Meets.act h (ha (h.dead i hv))

theorem Meets.modify {m : BM Unit} {q : Bits n → Bits n} (h : Inv s V) (hc : V.modify i q = some (r, V'))
    (ha : ∀ f xs, V.var i = some f → s.obj i = some xs → Rep n xs f → Act n m s i (q f)) : Meets n (do m; pure .unit) s r V' := by
  obtain ⟨f, hv, hf⟩ := use_some hc
  cases hf
  obtain ⟨xs, h1, h2⟩ := h.live i f hv
  exact Meets.act h (ha f xs hv h1 h2)

theorem Meets.checked {m : BM Unit} {q : Bits n → Bits n} (h : Inv s V) (hc : V.checked i k q = some (r, V'))
    (ha : k < n → ∀ f xs, V.var i = some f → s.obj i = some xs → Rep n xs f → Act n m s i (q f))
    (he : ¬ k < n → m s = .exc .outOfRange s) : Meets n (do m; pure .unit) s r V' := by
  obtain ⟨f, hv, hf⟩ := use_some hc
  obtain ⟨xs, h1, h2⟩ := h.live i f hv
  by_cases hk : k < n
  · simp only [if_pos hk] at hf
    cases hf
    exact Meets.act h (ha hk f xs hv h1 h2)
  · simp only [if_neg hk] at hf
    cases hf
    exact ⟨s, by rw [M.bind_exc (he hk)]; rfl, h⟩

theorem Meets.unchecked {m : BM Unit} {q : Bits n → Bits n} (h : Inv s V) (hc : V.unchecked i k q = some (r, V'))
    (ha : k < n → ∀ f xs, V.var i = some f → s.obj i = some xs → Rep n xs f → Act n m s i (q f)) :
    Meets n (do m; pure .unit) s r V' := by
  obtain ⟨f, hv, hf⟩ := use_some hc
  obtain ⟨xs, h1, h2⟩ := h.live i f hv
  by_cases hk : k < n
  · simp only [if_pos hk] at hf
    cases hf
    exact Meets.act h (ha hk f xs hv h1 h2)
  · simp only [if_neg hk] at hf
    cases hf

theorem Meets.query {β : Type} {m : BM β} {b : β} {q : β → Res} (h : Inv s V) (hm : m s = .ok b s) :
    Meets n (do let b ← m; pure (q b)) s (.ok (q b)) V :=
  ⟨s, by rw [M.bind_ok hm]; rfl, h⟩

theorem Act.noexcept {m : BM Unit} (h : Act n m s i f) : Act n (M.noexcept m) s i f := by
  obtain ⟨zs, e, hr⟩ := h
  exact ⟨zs, M.noexcept_ok e, hr⟩

theorem Act.after {m : Ref → BM Unit} {l : BM Ref} {x : Ref} (h : Act n (m x) s i f) (hl : l s = .ok x s) : Act n (l >>= m) s i f := by
  obtain ⟨zs, e, hr⟩ := h
  exact ⟨zs, by rw [M.bind_ok hl, e], hr⟩

theorem indexRef_ok (h : s.obj i = some xs) (k : Nat) : indexRef i k s = .ok ⟨i, k⟩ s := by
  unfold indexRef
  mstep (getObj_ok h)
  rfl

theorem atRef_ok (h : s.obj i = some xs) (hk : k < n) : atRef n i k s = .ok ⟨i, k⟩ s := by
  unfold atRef
  rw [if_neg (by omega)]
  exact indexRef_ok h k

theorem atRef_exc (hk : ¬ k < n) : atRef n i k s = .exc .outOfRange s := by
  unfold atRef
  rw [if_pos (by omega)]; rfl

theorem atConst_exc (hk : ¬ k < n) : atConst n i k s = .exc .outOfRange s := by
  unfold atConst
  rw [if_pos (by omega)]; rfl

theorem step (h : Inv s V) (hs : op.spec V = some (r, V')) : Meets n (op.run n) s r V' := by
  cases op with
  | ctor i => exact Meets.create h hs ctorDefault_act
  | ctorVal i v => exact Meets.create h hs (ctorValue_act v)
  | copy i j =>
    obtain ⟨g, hg, hs⟩ := use_some hs
    obtain ⟨ys, h1, h2⟩ := h.live j g hg
    exact Meets.create h hs fun hi => ⟨ys, ctorCopy_ok hi h1, h2⟩
  | assign i j =>
    obtain ⟨g, hg, hs⟩ := use_some hs
    obtain ⟨ys, h1, h2⟩ := h.live j g hg
    exact Meets.modify h hs fun f xs _ hx _ => ⟨ys, assignCopy_ok hx h1, h2⟩
  | dtor i =>
    obtain ⟨f, hf, hs⟩ := use_some hs
    cases hs
    obtain ⟨xs, h1, h2⟩ := h.live i f hf
    refine ⟨{ s with obj := upd s.obj i none }, ?_, h.is, h.os, fun j hj => ?_, fun j g hj => ?_⟩
    · exact M.bind_ok (show Bitset.dtor i s = .ok () { s with obj := upd s.obj i none } by
        unfold Bitset.dtor; mstep (getObj_ok h1); rfl)
    · by_cases hji : j = i
      · subst hji; simp
      · simp only [upd_ne _ _ hji] at hj ⊢; exact h.dead j hj
    · by_cases hji : j = i
      · subst hji; simp at hj
      · simp only [upd_ne _ _ hji] at hj ⊢; exact h.live j g hj
  | andA i j =>
    obtain ⟨g, hg, hs⟩ := use_some hs
    obtain ⟨ys, h1, h2⟩ := h.live j g hg
    exact Meets.modify h hs fun f xs _ hx hr => andAssign_act hx hr h1 h2
  | orA i j =>
    obtain ⟨g, hg, hs⟩ := use_some hs
    obtain ⟨ys, h1, h2⟩ := h.live j g hg
    exact Meets.modify h hs fun f xs _ hx hr => orAssign_act hx hr h1 h2
  | xorA i j =>
    obtain ⟨g, hg, hs⟩ := use_some hs
    obtain ⟨ys, h1, h2⟩ := h.live j g hg
    exact Meets.modify h hs fun f xs _ hx hr => xorAssign_act hx hr h1 h2
  | shlA i c => exact Meets.modify h hs fun f xs _ hx hr => shlAssign_act hx hr c
  | shrA i c => exact Meets.modify h hs fun f xs _ hx hr => shrAssign_act hx hr c
  | opAnd i j k =>
    obtain ⟨f, hf, hs⟩ := use_some hs
    obtain ⟨g, hg, hs⟩ := use_some hs
    obtain ⟨xs, h1, h2⟩ := h.live j f hf
    obtain ⟨ys, h3, h4⟩ := h.live k g hg
    exact Meets.create h hs fun hi => Act.copied hi h1 (andAssign_act put_obj_same h2
      (by rw [put_obj_ne (by rintro rfl; rw [hi] at h3; cases h3)]; exact h3) h4)
  | opOr i j k =>
    obtain ⟨f, hf, hs⟩ := use_some hs
    obtain ⟨g, hg, hs⟩ := use_some hs
    obtain ⟨xs, h1, h2⟩ := h.live j f hf
    obtain ⟨ys, h3, h4⟩ := h.live k g hg
    exact Meets.create h hs fun hi => Act.copied hi h1 (orAssign_act put_obj_same h2
      (by rw [put_obj_ne (by rintro rfl; rw [hi] at h3; cases h3)]; exact h3) h4)
  | opXor i j k =>
    obtain ⟨f, hf, hs⟩ := use_some hs
    obtain ⟨g, hg, hs⟩ := use_some hs
    obtain ⟨xs, h1, h2⟩ := h.live j f hf
    obtain ⟨ys, h3, h4⟩ := h.live k g hg
    exact Meets.create h hs fun hi => Act.copied hi h1 (xorAssign_act put_obj_same h2
      (by rw [put_obj_ne (by rintro rfl; rw [hi] at h3; cases h3)]; exact h3) h4)
  | opNot i j =>
    obtain ⟨f, hf, hs⟩ := use_some hs
    obtain ⟨xs, h1, h2⟩ := h.live j f hf
    exact Meets.create h hs fun hi => Act.copied hi h1 (flipAll_act put_obj_same h2)
  | opShl i j c =>
    obtain ⟨f, hf, hs⟩ := use_some hs
    obtain ⟨xs, h1, h2⟩ := h.live j f hf
    exact Meets.create h hs fun hi => Act.copied hi h1 (shlAssign_act put_obj_same h2 c)
  | opShr i j c =>
    obtain ⟨f, hf, hs⟩ := use_some hs
    obtain ⟨xs, h1, h2⟩ := h.live j f hf
    exact Meets.create h hs fun hi => Act.copied hi h1 (shrAssign_act put_obj_same h2 c)
  | setAll i => exact Meets.modify h hs fun f xs _ hx hr => setAll_act hx hr
  | resetAll i => exact Meets.modify h hs fun f xs _ hx hr => resetAll_act hx hr
  | flipAll i => exact Meets.modify h hs fun f xs _ hx hr => flipAll_act hx hr
  | setAt i k v => exact Meets.checked h hs (fun hk f xs _ hx hr => setAt_act hx hr hk v) (fun hk => setAt_exc hk v)
  | resetAt i k => exact Meets.checked h hs (fun hk f xs _ hx hr => resetAt_act hx hr hk) resetAt_exc
  | flipAt i k => exact Meets.checked h hs (fun hk f xs _ hx hr => flipAt_act hx hr hk) flipAt_exc
  | swap i j =>
    obtain ⟨f, hf, hs⟩ := use_some hs
    obtain ⟨g, hg, hs⟩ := use_some hs
    cases hs
    obtain ⟨xs, h1, h2⟩ := h.live i f hf
    obtain ⟨ys, h3, h4⟩ := h.live j g hg
    exact ⟨_, M.bind_ok (swap_ok h1 h2 h3 h4), (h.put h4 i).put h2 j⟩
  | refSet i k v =>
    have := Meets.unchecked (m := indexRef i k >>= fun r => refAssign n r v) h hs fun hk f xs _ hx hr =>
      (setAt_act hx hr hk v).noexcept.after (indexRef_ok hx k)
    rw [M.bind_assoc'] at this
    exact this
  | refFlip i k =>
    have := Meets.unchecked (m := indexRef i k >>= fun r => Bitset.refFlip n r) h hs fun hk f xs _ hx hr =>
      (flipAt_act hx hr hk).noexcept.after (indexRef_ok hx k)
    rw [M.bind_assoc'] at this
    exact this
  | atSet i k v =>
    have := Meets.checked (m := atRef n i k >>= fun r => refAssign n r v) h hs (fun hk f xs _ hx hr =>
      (setAt_act hx hr hk v).noexcept.after (atRef_ok hx hk)) fun hk => M.bind_exc (atRef_exc hk)
    rw [M.bind_assoc'] at this
    exact this
  | atFlip i k =>
    have := Meets.checked (m := atRef n i k >>= fun r => Bitset.refFlip n r) h hs (fun hk f xs _ hx hr =>
      (flipAt_act hx hr hk).noexcept.after (atRef_ok hx hk)) fun hk => M.bind_exc (atRef_exc hk)
    rw [M.bind_assoc'] at this
    exact this
  | index i k =>
    obtain ⟨f, hf, hs⟩ := use_some hs
    obtain ⟨xs, h1, h2⟩ := h.live i f hf
    by_cases hk : k < n
    · simp only [if_pos hk] at hs
      cases hs
      exact Meets.query (q := .bool) h (index_ok h1 h2 hk)
    · simp only [if_neg hk] at hs; cases hs
  | atConst i k =>
    obtain ⟨f, hf, hs⟩ := use_some hs
    obtain ⟨xs, h1, h2⟩ := h.live i f hf
    by_cases hk : k < n
    · simp only [if_pos hk] at hs
      cases hs
      exact Meets.query (q := .bool) h (test_ok h1 h2 hk)
    · simp only [if_neg hk] at hs; cases hs
      exact ⟨s, M.bind_exc (atConst_exc hk), h⟩
  | test i k =>
    obtain ⟨f, hf, hs⟩ := use_some hs
    obtain ⟨xs, h1, h2⟩ := h.live i f hf
    by_cases hk : k < n
    · simp only [if_pos hk] at hs
      cases hs
      exact Meets.query (q := .bool) h (test_ok h1 h2 hk)
    · simp only [if_neg hk] at hs; cases hs
      exact ⟨s, M.bind_exc (atConst_exc hk), h⟩
  | allSet i =>
    obtain ⟨f, hf, hs⟩ := use_some hs
    cases hs
    obtain ⟨xs, h1, h2⟩ := h.live i f hf
    exact Meets.query (q := .bool) h (allSet_ok h1 h2)
  | anySet i =>
    obtain ⟨f, hf, hs⟩ := use_some hs
    cases hs
    obtain ⟨xs, h1, h2⟩ := h.live i f hf
    exact Meets.query (q := .bool) h (anySet_ok h1 h2)
  | noneSet i =>
    obtain ⟨f, hf, hs⟩ := use_some hs
    cases hs
    obtain ⟨xs, h1, h2⟩ := h.live i f hf
    exact Meets.query (q := .bool) h (noneSet_ok h1 h2)
  | count i =>
    obtain ⟨f, hf, hs⟩ := use_some hs
    cases hs
    obtain ⟨xs, h1, h2⟩ := h.live i f hf
    exact Meets.query (q := .nat) h (count_ok h1 h2)
  | opEq i j =>
    obtain ⟨f, hf, hs⟩ := use_some hs
    obtain ⟨g, hg, hs⟩ := use_some hs
    cases hs
    obtain ⟨xs, h1, h2⟩ := h.live i f hf
    obtain ⟨ys, h3, h4⟩ := h.live j g hg
    exact Meets.query (q := .bool) h (opEq_ok h1 h2 h3 h4)
  | opNe i j =>
    obtain ⟨f, hf, hs⟩ := use_some hs
    obtain ⟨g, hg, hs⟩ := use_some hs
    cases hs
    obtain ⟨xs, h1, h2⟩ := h.live i f hf
    obtain ⟨ys, h3, h4⟩ := h.live j g hg
    exact Meets.query (q := .bool) h (opNe_ok h1 h2 h3 h4)
  | insert i =>
    obtain ⟨f, hf, hs⟩ := use_some hs
    cases hs
    obtain ⟨xs, h1, h2⟩ := h.live i f hf
    refine ⟨_, M.bind_ok (insert_ok h1 h2), h.is, ?_, h.dead, h.live⟩
    rw [h.os]
  | extract i =>
    obtain ⟨f, hf, hs⟩ := use_some hs
    cases hs
    obtain ⟨xs, h1, h2⟩ := h.live i f hf
    obtain ⟨zs, e, hz⟩ := extract_ok h1 h2
    rw [h.is] at e hz
    have hp := h.put hz i
    exact ⟨_, M.bind_ok e, rfl, hp.os, hp.dead, hp.live⟩
  | openIn is =>
    cases hs
    exact ⟨_, M.bind_ok rfl, rfl, h.os, h.dead, h.live⟩
  | openOut os =>
    cases hs
    exact ⟨_, M.bind_ok rfl, h.is, rfl, h.dead, h.live⟩

/-! ### histories -/

theorem Inv.start (sp : UInt8 → Bool) : Inv (n := n) (start sp) ⟨fun _ => none, { past := [], rest := [], isspace := sp }, { out := [] }⟩ :=
  ⟨rfl, rfl, fun _ _ => rfl, fun _ _ h => by cases h⟩

theorem Reach.inv (h : Reach n s V) : Inv s V := by
  induction h with
  | start sp => exact Inv.start sp
  | ok _ hs hr ih =>
    obtain ⟨s', e, hi⟩ := step ih hs
    rw [hr] at e
    cases e
    exact hi
  | thrown _ hs hr ih =>
    obtain ⟨s', e, hi⟩ := step ih hs
    rw [hr] at e
    cases e
    exact hi

/-- every specified call can be made -/
theorem Reach.next (h : Reach n s V) (hs : op.spec V = some (r, V')) : ∃ s', op.run n s = outcome r s' ∧ Reach n s' V' := by
  obtain ⟨s', e, _⟩ := step h.inv hs
  cases r with
  | ok a => exact ⟨s', e, h.ok hs e⟩
  | error x => exact ⟨s', e, h.thrown hs e⟩

end Ptl.Bitset

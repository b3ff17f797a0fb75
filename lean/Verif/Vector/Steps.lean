import Verif.Vector.Input
import Verif.Vector.Client

/-! # Every client call meets its list specification -/

namespace Ptl.Vector

variable {α : Type} {T : Elem α}

/-- contents of the client's variables -/
def varsOf (A : Id → Option (Storage × List α)) : Vars α := fun n => (A (.var n)).map Prod.snd

/-- contents of the client's variables in state `s` -/
def vars (s : St α Storage) : Vars α := varsOf (abs s)

/-- invariant between client calls: well-formed, and no temporary is alive -/
structure Inv (T : Elem α) (s : St α Storage) : Prop where
  wf : WF T s
  tmp : ∀ k, s.obj (.tmp k) = none

theorem varsOf_upd (A : Id → Option (Storage × List α)) (i : Nat) (p) :
    varsOf (upd A (.var i) p) = upd (varsOf A) i (p.map Prod.snd) := by
  funext n
  unfold varsOf
  by_cases h : n = i
  · subst h; simp
  · rw [upd_ne _ _ h, upd_ne _ _ (by intro h'; cases h'; exact h rfl)]

theorem vars_some {s : St α Storage} {i : Nat} {xs : List α} (h : vars s i = some xs) :
    ∃ o, abs s (.var i) = some (o, xs) := by
  unfold vars varsOf at h
  cases ha : abs s (.var i) with
  | none => rw [ha] at h; cases h
  | some p => rw [ha] at h; cases h; exact ⟨p.1, rfl⟩

theorem vars_none {s : St α Storage} {i : Nat} (h : vars s i = none) : s.obj (.var i) = none := by
  unfold vars varsOf abs at h
  cases ho : s.obj (.var i) with
  | none => rfl
  | some o => rw [ho] at h; cases h

theorem vars_of_abs {s : St α Storage} {i : Nat} {p : Storage × List α} (h : abs s (.var i) = some p) :
    vars s i = some p.2 := by simp [vars, varsOf, h]

/-- the invariant holds again, and only the targets of the call changed their storage -/
def InvF (T : Elem α) (op : Op α) (s s' : St α Storage) : Prop :=
  Inv T s' ∧ ∀ j, ¬ op.Targets j → s'.obj (.var j) = s.obj (.var j)

/-- outcome of a client call -/
def Outcome (T : Elem α) (op : Op α) (s : St α Storage) (V' : Vars α) (r : Option Nat)
    (res : Out (St α Storage) (Option Nat)) : Prop :=
  match res with
  | .ok r' s' => InvF T op s s' ∧ Adv s s' ∧ s.moves ≤ s'.moves ∧ vars s' = V' ∧ r' = r
  | .exc e s' => Same s s' ∧ ((e = .lengthError ∧ TooLong T op V') ∨ ((e = .badAlloc ∨ e = .user) ∧ Failed s s'))
  | .ub _ => False
  | .term => (∃ i, op = .shrinkToFit i) ∧ s.orc s.tick = true

theorem Inv.of_abs {s s' : St α Storage} {W} {op : Op α} {i : Nat} (hinv : Inv T s) (hop : op.Targets i)
    (hw' : WF T s') {p} (h : abs s' = upd (abs { s with blk := W }) (.var i) p) : InvF T op s s' := by
  refine ⟨⟨hw', fun k => ?_⟩, fun j hj => ?_⟩
  · have := congrFun h (.tmp k)
    rw [upd_ne _ _ (by simp)] at this
    simp only [abs, hinv.tmp k, Option.map_none] at this
    simpa using this
  · have := congrFun h (.var j)
    rw [upd_ne _ _ (by rintro ⟨⟩; exact hj hop)] at this
    have := congrArg (Option.map Prod.fst) this
    simpa [abs, Function.comp_def] using this

theorem Inv.of_abs2 {s s' : St α Storage} {op : Op α} {i j : Nat} (hinv : Inv T s) (hi : op.Targets i)
    (hj : op.Targets j) (hw' : WF T s') {p q} (h : abs s' = upd (upd (abs s) (.var i) p) (.var j) q) :
    InvF T op s s' := by
  refine ⟨⟨hw', fun k => ?_⟩, fun l hl => ?_⟩
  · have := congrFun h (.tmp k)
    rw [upd_ne _ _ (by simp), upd_ne _ _ (by simp)] at this
    simp only [abs, hinv.tmp k, Option.map_none] at this
    simpa using this
  · have := congrFun h (.var l)
    rw [upd_ne _ _ (by rintro ⟨⟩; exact hl hj), upd_ne _ _ (by rintro ⟨⟩; exact hl hi)] at this
    have := congrArg (Option.map Prod.fst) this
    simpa [abs, Function.comp_def] using this

theorem Inv.refl {s : St α Storage} {op : Op α} (hinv : Inv T s) : InvF T op s s := ⟨hinv, fun _ _ => rfl⟩

theorem vars_of_upd {s s' : St α Storage} {V1 : Vars α} {W} (h1 : vars { s with blk := W } = V1) {i : Nat} {p}
    (h : abs s' = upd (abs { s with blk := W }) (.var i) p) : vars s' = upd V1 i (p.map Prod.snd) := by
  unfold vars at *
  rw [h, varsOf_upd, h1]

/-- glue: from the outcome of a member to the outcome of the client call -/
theorem Outcome.of_res {op : Op α} {s : St α Storage} {V' : Vars α} {r : Option Nat} {m : VM α Unit}
    {Q : Unit → St α Storage → Prop} {E} (h : Res T s (m s) Q E)
    (hQ : ∀ s', WF T s' → Adv s s' → Q () s' → InvF T op s s' ∧ s.moves ≤ s'.moves ∧ vars s' = V')
    (hE : ∀ e s', E e s' → (e = .lengthError ∧ TooLong T op V') ∨ ((e = .badAlloc ∨ e = .user) ∧ Failed s s')) (hr : r = none) :
    Outcome T op s V' r (noRet m s) := by
  subst hr
  unfold noRet
  cases hm : m s with
  | ok a s' =>
    rw [hm] at h
    rw [M.bind_ok hm]
    have := hQ s' h.1 h.2.1 h.2.2
    exact ⟨this.1, h.2.1, this.2.1, this.2.2, rfl⟩
  | exc e s' =>
    rw [hm] at h
    rw [M.bind_exc hm]
    exact ⟨h.1, hE e s' h.2⟩
  | ub => rw [hm] at h; exact h.elim
  | term => rw [hm] at h; exact h.elim

theorem Outcome.of_eq {op : Op α} {s : St α Storage} {V' : Vars α} {r : Option Nat} {res res'}
    (h : res = res') (h' : Outcome T op s V' r res') : Outcome T op s V' r res := h ▸ h'

theorem Outcome.of_ok {op : Op α} {s s' : St α Storage} {V' : Vars α} {m : VM α Unit}
    (h : m s = .ok () s') (hinv : InvF T op s s') (ha : Adv s s') (hm : s.moves ≤ s'.moves) (hv : vars s' = V') :
    Outcome T op s V' none (noRet m s) :=
  Outcome.of_eq (M.bind_ok h) ⟨hinv, ha, hm, hv, rfl⟩

/-- glue for members that return an iterator -/
theorem Outcome.of_res_it {op : Op α} {s : St α Storage} {V' : Vars α} {k i : Nat} {m : VM α Ptr}
    {Q : Ptr → St α Storage → Prop} {E} (h : Res T s (m s) Q E)
    (hQ : ∀ r s', WF T s' → Adv s s' → Q r s' → InvF T op s s' ∧ s.moves ≤ s'.moves ∧ vars s' = V' ∧
      ∃ o, s'.obj (.var i) = some o ∧ r = ⟨o.ptr, k⟩)
    (hE : ∀ e s', E e s' → (e = .lengthError ∧ TooLong T op V') ∨ ((e = .badAlloc ∨ e = .user) ∧ Failed s s')) :
    Outcome T op s V' (some k) ((m >>= offset i) s) := by
  cases hm : m s with
  | ok a s' =>
    rw [hm] at h
    rw [M.bind_ok hm]
    obtain ⟨h1, h2, h3, o, ho, rfl⟩ := hQ a s' h.1 h.2.1 h.2.2
    have e : offset i ⟨o.ptr, k⟩ s' = .ok (some k) s' := by
      unfold offset
      mstep (data_ok ho)
      mstep (distance_ok (by rfl) (by exact Nat.zero_le _))
      rfl
    rw [e]
    exact ⟨h1, h.2.1, h2, h3, rfl⟩
  | exc e s' =>
    rw [hm] at h
    rw [M.bind_exc hm]
    exact ⟨h.1, hE e s' h.2⟩
  | ub => rw [hm] at h; exact h.elim
  | term => rw [hm] at h; exact h.elim

theorem Thrown.weaken {s s' : St α Storage} {len alc P : Prop} {e : Exc} (h : Thrown s len alc e s')
    (hl : len → P) : (e = .lengthError ∧ P) ∨ ((e = .badAlloc ∨ e = .user) ∧ Failed s s') := by
  rcases h.2 with h | ⟨h1, h2, h3⟩ | ⟨h1, h3⟩
  · exact .inl ⟨h.1, hl h.2⟩
  · exact .inr ⟨.inl h1, h3⟩
  · exact .inr ⟨.inr h1, h3⟩

theorem ThrownI.weaken {s s' : St α Storage} {len P : Prop} {e : Exc} (h : ThrownI s len e s')
    (hl : len → P) : (e = .lengthError ∧ P) ∨ ((e = .badAlloc ∨ e = .user) ∧ Failed s s') := by
  rcases h with h | h
  · exact .inl ⟨h.1, hl h.2⟩
  · exact .inr h

/-! ### arguments -/

theorem Src.resolve_spec {s : St α Storage} (hw : WF T s) {x : Src α} {v : α} (h : x.Is (vars s) v) :
    ∃ a, x.resolve s = .ok a s ∧ ArgVal s.blk a v := by
  cases h with
  | val => exact ⟨.val v, rfl, .val v⟩
  | @elem j k ys _ hj hk =>
    obtain ⟨o, habs⟩ := vars_some hj
    obtain ⟨ho, hg⟩ := hw.get habs
    have hlt : k < ys.length := by
      rcases Nat.lt_or_ge k ys.length with h | h
      · exact h
      · rw [List.getElem?_eq_none h] at hk; cases hk
    cases hp : o.ptr with
    | none => obtain ⟨_, rfl⟩ := hg.null hp; cases hk
    | some b =>
      have hb := (hg.own hp).2.2.2.2.2
      refine ⟨.copy ⟨some b, k⟩, ?_, .copy b k _ v hb ?_⟩
      · unfold Src.resolve
        mstep (data_ok ho)
        rw [hp]; simp [Ptr.add]
      · rw [List.getElem?_append_left (by simpa [lv] using hlt)]; simp [lv, hk]

theorem Src.resolveAll_spec {s : St α Storage} (hw : WF T s) {l : List (Src α)} {vs : List α}
    (h : Src.AreAll (vars s) l vs) : ∃ as, Src.resolveAll l s = .ok as s ∧ ArgVals s.blk as vs := by
  induction h with
  | nil => exact ⟨[], rfl, .nil⟩
  | @cons x v l vs hx _ ih =>
    obtain ⟨a, ha, hav⟩ := Src.resolve_spec hw hx
    obtain ⟨as, has, havs⟩ := ih
    refine ⟨a :: as, ?_, .cons hav havs⟩
    unfold Src.resolveAll
    mstep ha
    mstep has
    rfl

theorem vars_movedOut {s : St α Storage} {j : Nat} {o : Storage} {ys : List α} {W}
    (h : abs { s with blk := W } = upd (abs s) (.var j) (some (o, ys))) :
    vars { s with blk := W } = upd (vars s) j (some ys) := by
  unfold vars
  rw [h, varsOf_upd]; rfl

theorem Rng.resolve_spec {s : St α Storage} (hw : WF T s) {r : Rng α} {vs : List α} {V1 : Vars α}
    (h : r.Takes T.moved (vars s) vs V1) :
    ∃ as W, r.resolve s = .ok as s ∧ as.length = vs.length ∧ Mut T s W ∧
      Fills s (fun p => uninitLoop T p p as) vs W ∧ vars { s with blk := W s.blk } = V1 := by
  cases h with
  | refs h =>
    obtain ⟨as, has, hav⟩ := Src.resolveAll_spec hw h
    exact ⟨as, fun x => x, has, hav.length, Mut.id hw, Fills.copies hw hav, rfl⟩
  | @mvs j pre _ post hj =>
    obtain ⟨o, habs⟩ := vars_some hj
    obtain ⟨ho, hg⟩ := hw.get habs
    cases hp : o.ptr with
    | none =>
      obtain ⟨rfl, hn⟩ := hg.null hp
      simp only [List.append_eq_nil_iff] at hn
      obtain ⟨⟨rfl, rfl⟩, rfl⟩ := hn
      refine ⟨[], fun x => x, ?_, rfl, Mut.id hw, Fills.copies hw .nil, ?_⟩
      · unfold Rng.resolve
        mstep (data_ok ho)
        rfl
      · show vars s = _
        rw [upd_eq _ _ _ (by simpa using hj)]
    | some c =>
      have hm := movedOut_spec hw habs hp (kc := pre.length) (m := vs.length) (by simp)
      have e1 : (pre ++ vs ++ post).drop pre.length = vs ++ post := by
        rw [List.append_assoc]; exact List.drop_left
      have e2 : (vs ++ post).take vs.length = vs := List.take_left
      have e3 : (pre ++ vs ++ post).take pre.length = pre := by
        rw [List.append_assoc]; exact List.take_left
      have e4 : (pre ++ vs ++ post).drop (pre.length + vs.length) = post := by
        apply List.drop_left'; simp
      rw [e1, e2, e3, e4] at hm
      refine ⟨moveRange ⟨some c, pre.length⟩ vs.length, _, ?_, by simp [moveRange], hm.1, Fills.moves hw hm.2.1,
        vars_movedOut hm.2.2⟩
      unfold Rng.resolve
      mstep (data_ok ho)
      rw [hp]; simp [Ptr.add]

theorem Src1.resolve_spec {s : St α Storage} (hw : WF T s) {x : Src1 α} {v : α} {V1 : Vars α}
    (h : x.Takes T.moved (vars s) v V1) :
    ∃ a W, x.resolve s = .ok a s ∧ Mut T s W ∧ Fills s (fun p => constructAt T p a) [v] W ∧
      vars { s with blk := W s.blk } = V1 := by
  cases h with
  | ref h =>
    obtain ⟨a, ha, hav⟩ := Src.resolve_spec hw h
    exact ⟨a, fun x => x, ha, Mut.id hw, Fills.copy hw hav, rfl⟩
  | @mv j k ys _ hj hk =>
    have hlt : k < ys.length := by
      rcases Nat.lt_or_ge k ys.length with h | h
      · exact h
      · rw [List.getElem?_eq_none h] at hk; cases hk
    obtain ⟨o, habs⟩ := vars_some hj
    obtain ⟨ho, hg⟩ := hw.get habs
    cases hp : o.ptr with
    | none => obtain ⟨_, rfl⟩ := hg.null hp; cases hk
    | some c =>
      have hm := movedOut_spec hw habs hp (kc := k) (m := 1) (by omega)
      have hv : ys[k] = v := by
        rw [List.getElem?_eq_getElem hlt] at hk; exact Option.some.inj hk
      have e1 : (ys.drop k).take 1 = [v] := by
        rw [List.drop_eq_getElem_cons hlt, hv]; rfl
      rw [e1] at hm
      refine ⟨.move ⟨some c, k⟩, _, ?_, hm.1, Fills.move hw hm.2.1, ?_⟩
      · unfold Src1.resolve
        mstep (data_ok ho)
        rw [hp]; simp [Ptr.add]
      · rw [vars_movedOut hm.2.2]
        congr 2
        rw [List.set_eq_take_append_cons_drop, if_pos hlt]
        simp

/-- `n` copies of one argument -/
theorem ArgVals.replicate {blk : Nat → Option (List (Option α))} {a : Arg α} {v : α} (h : ArgVal blk a v) :
    ∀ n, ArgVals blk (List.replicate n a) (List.replicate n v)
  | 0 => .nil
  | n + 1 => .cons h (ArgVals.replicate h n)

/-- the elements `[0, n)` of a block as arguments -/
theorem ArgVals.ptrRange {blk : Nat → Option (List (Option α))} {b : Nat} {l : List (Option α)} (hb : blk b = some l) :
    ∀ (ys : List α) (k : Nat), (∀ j v, ys[j]? = some v → l[k + j]? = some (some v)) →
      ArgVals blk (Vector.ptrRange ⟨some b, k⟩ ys.length) ys := by
  have hsucc : ∀ (k n : Nat), (Vector.ptrRange ⟨some b, k⟩ (n + 1) : List (Arg α)) =
      .copy ⟨some b, k⟩ :: Vector.ptrRange ⟨some b, k + 1⟩ n := by
    intro k n
    unfold Vector.ptrRange
    rw [List.range_succ_eq_map]
    simp only [List.map_cons, List.map_map, Ptr.add]
    congr 1
    apply List.map_congr_left
    intro j _
    simp only [Function.comp]
    rw [show k + 1 + j = k + j.succ by omega]
  intro ys
  induction ys with
  | nil => intro k _; exact .nil
  | cons y ys ih =>
    intro k h
    rw [List.length_cons, hsucc]
    refine .cons (.copy b k l y hb (h 0 y rfl)) (ih (k + 1) ?_)
    intro j v hv
    have := h (j + 1) v (by simpa using hv)
    rw [show k + 1 + j = k + (j + 1) by omega]; exact this

theorem ArgVals.ofVector {s : St α Storage} (hw : WF T s) {j : Id} {o : Storage} {ys : List α}
    (habs : abs s j = some (o, ys)) : ArgVals s.blk (Vector.ptrRange ⟨o.ptr, 0⟩ o.siz) ys := by
  obtain ⟨ho, hg⟩ := hw.get habs
  cases hp : o.ptr with
  | none => obtain ⟨rfl, rfl⟩ := hg.null hp; exact .nil
  | some b =>
    have hb := (hg.own hp).2.2.2.2.2
    rw [hg.siz]
    refine ArgVals.ptrRange hb ys 0 ?_
    intro j v hv
    rw [Nat.zero_add]
    have hlt : j < ys.length := by
      rcases Nat.lt_or_ge j ys.length with h | h
      · exact h
      · rw [List.getElem?_eq_none h] at hv; cases hv
    rw [List.getElem?_append_left (by simpa [lv] using hlt)]; simp [lv, hv]

/-- moving from arguments does not change the storage of any vector -/
theorem abs_of_vars {s : St α Storage} {W} {V1 : Vars α} (h : vars { s with blk := W } = V1) {i : Nat} {xs1 : List α}
    (hi : V1 i = some xs1) {o : Storage} (ho : s.obj (.var i) = some o) :
    abs { s with blk := W } (.var i) = some (o, xs1) := by
  subst h
  obtain ⟨o', h'⟩ := vars_some hi
  have : s.obj (.var i) = some o' := (abs_some h').1
  rw [ho] at this; cases this
  exact h'

theorem takes_len {moved : α → α} {V V1 : Vars α} {r : Rng α} {vs : List α} (h : r.Takes moved V vs V1) (i : Nat) :
    (V i).map List.length = (V1 i).map List.length := by
  cases h with
  | refs => rfl
  | @mvs j pre _ post hj =>
    by_cases hij : i = j
    · subst hij; simp [hj]
    · rw [upd_ne _ _ hij]

theorem takes1_len {moved : α → α} {V V1 : Vars α} {x : Src1 α} {v : α} (h : x.Takes moved V v V1) (i : Nat) :
    (V i).map List.length = (V1 i).map List.length := by
  cases h with
  | ref => rfl
  | @mv j k ys _ hj hk =>
    by_cases hij : i = j
    · subst hij; simp [hj]
    · rw [upd_ne _ _ hij]

theorem alive_of_len {V V1 : Vars α} {i : Nat} (h : (V i).map List.length = (V1 i).map List.length) {xs1 : List α}
    (h1 : V1 i = some xs1) : ∃ xs, V i = some xs ∧ xs.length = xs1.length := by
  rw [h1] at h
  cases hv : V i with
  | none => rw [hv] at h; cases h
  | some xs => rw [hv] at h; exact ⟨xs, rfl, by simpa using h⟩

/-! ### the calls -/

section calls
variable {s : St α Storage} (hinv : Inv T s)
include hinv

theorem step_ctorDefault {i : Nat} (h : vars s i = none) :
    Outcome T (.ctorDefault i) s (upd (vars s) i (some [])) none ((Op.ctorDefault i).run T s) := by
  obtain ⟨s', hr, hw, ha, hm, _, _, habs⟩ := ctorDefault_spec hinv.wf (vars_none h)
  exact Outcome.of_ok hr (hinv.of_abs rfl (W := s.blk) hw habs) ha (by omega) (vars_of_upd (W := s.blk) rfl habs)

theorem construct_resize {i n : Nat} {func : Ptr → Nat → VM α Unit} {v : α} {op : Op α}
    (hop : op.Targets i) (hrm : ∀ n, n ≤ op.room n) (h : vars s i = none)
    (hF : ∀ s1, WF T s1 → s1.blk = s.blk → Fills s1 (fun p => func p n) (List.replicate n v) (fun x => x)) :
    Outcome T op s (upd (vars s) i (some (List.replicate n v))) none
      (noRet (construct (.var i) (resizeImpl T (.var i) n func)) s) := by
  refine Outcome.of_res (E := Thrown s (n > T.maxCapacity) True)
    (Q := fun _ s' => ∃ o, s.moves ≤ s'.moves ∧ abs s' = upd (abs s) (.var i) (some (o, List.replicate n v)))
    (construct_spec hinv.wf (vars_none h) ?_) ?_ (fun _ _ h => h.weaken fun hl => .inl ⟨i, _, hop, upd_same _ _ _, Nat.lt_of_lt_of_le (by first | (simp at hl ⊢; omega) | (simp; omega) | omega) (hrm _)⟩) rfl
  · intro s1 hw1 habs1 _ _ hm1 _ hblk ha
    have hi1 : abs s1 (.var i) = some ({}, []) := by rw [habs1, upd_same]
    by_cases hn : n = 0
    · subst hn
      refine Res.of_eq (resizeImpl_same (hw1.get hi1).1) ⟨hw1, Adv.refl _, {}, by omega, ?_⟩
      simpa using habs1
    · refine (resizeImpl_grow hw1 hi1 (vs := List.replicate n v) (by simp; omega) (by simp) (Mut.id hw1) (by simpa using hF s1 hw1 hblk) hi1).mono ?_
        (fun _ _ _ h => h)
      intro _ s' _ _ hq
      refine ⟨_, ?_, by rw [hq.2.2]; simp only [List.nil_append]; rw [habs1, upd_upd]⟩
      have := hq.2.1; simp at this; omega
  · rintro s' hw ha ⟨o, hm, habs⟩
    exact ⟨hinv.of_abs hop (W := s.blk) hw habs, hm, vars_of_upd (W := s.blk) rfl habs⟩

theorem step_ctorCount {i n : Nat} (h : vars s i = none) :
    Outcome T (.ctorCount i n) s (upd (vars s) i (some (List.replicate n T.dflt))) none
      ((Op.ctorCount i n).run T s) :=
  construct_resize hinv rfl (fun _ => Nat.le_refl _) h fun _ hw1 _ => Fills.copies hw1 (ArgVals.replicate (.val _) n)

theorem step_ctorFill {i n : Nat} {x : Src α} {v : α} (h : vars s i = none) (hx : x.Is (vars s) v) :
    Outcome T (.ctorFill i n x) s (upd (vars s) i (some (List.replicate n v))) none ((Op.ctorFill i n x).run T s) := by
  obtain ⟨a, ha, hav⟩ := Src.resolve_spec hinv.wf hx
  refine Outcome.of_eq (M.bind_ok ha) ?_
  exact construct_resize hinv rfl (fun _ => Nat.le_refl _) h fun _ hw1 hb => Fills.copies hw1 (ArgVals.replicate (by rw [hb]; exact hav) n)

omit hinv in
theorem Fills.transport {s s1 : St α Storage} {f : Ptr → VM α Unit} {vs : List α} {W} (h : Fills s f vs W)
    (hb : s1.blk = s.blk) (ho : s1.orc = s.orc) (hn : s1.nblk = s.nblk) : Fills s1 f vs W := by
  refine ⟨by rw [hb]; exact h.nil, ?_⟩
  rw [hb, ho, hn]; exact h.run

omit hinv in
theorem construct_range {i : Nat} {as : List (Arg α)} {vs : List α} {V1 : Vars α} {W} {op : Op α} (hop : op.Targets i) (hrm : ∀ n, n ≤ op.room n) (hinv : Inv T s)
    (h : vars s i = none) (hlen : as.length = vs.length) (hW : Mut T s W)
    (hF : Fills s (fun p => uninitLoop T p p as) vs W) (hV : vars { s with blk := W s.blk } = V1)
    (hfit : Fits vs 0) :
    Outcome T op s (upd V1 i (some vs)) none (noRet (ctorRange T (.var i) as) s) := by
  refine Outcome.of_res (E := Thrown s (vs.length > T.maxCapacity) True)
    (Q := fun _ s' => s'.moves = s.moves ∧ ∃ o, abs s' = upd (abs { s with blk := W s.blk }) (.var i) (some (o, vs)))
    (construct_spec hinv.wf (vars_none h) ?_) ?_ (fun _ _ h => h.weaken fun hl => .inl ⟨i, _, hop, upd_same _ _ _, Nat.lt_of_lt_of_le (by first | (simp at hl ⊢; omega) | (simp; omega) | omega) (hrm _)⟩) rfl
  · intro s1 hw1 habs1 _ _ hm1 hs1 hblk ha
    have hi1 : abs s1 (.var i) = some ({}, []) := by rw [habs1, upd_same]
    subst hs1
    have hnew := new_commit (s := { s with blk := W s.blk }) hW.wf (i := .var i) (show s.obj (.var i) = none from vars_none h) (Nat.le_refl _)
      (by intro k h; cases h)
    have hM : Mut T { s with obj := upd s.obj (.var i) (some {}) } W := ⟨hW.fresh, hnew.1⟩
    have ha := assignImpl_spec hw1 hi1 hM (hF.transport rfl rfl rfl) (by
      simp only [Nat.zero_add]; exact hfit)
    rw [← hlen] at ha
    unfold assignRange uninitializedCopy
    refine ha.mono ?_ ?_
    · intro _ s' _ _ hq
      refine ⟨hq.2, ?_⟩
      have hq := hq.1
      split at hq
      · exact ⟨_, by rw [hq]; exact (congrArg (fun f => upd f _ _) hnew.2).trans (upd_upd _ _ _ _)⟩
      · exact ⟨_, by rw [hq.2]; exact (congrArg (fun f => upd f _ _) hnew.2).trans (upd_upd _ _ _ _)⟩
    · intro e s' _ h
      refine ⟨h.1, ?_⟩
      rcases h.2 with h | ⟨h1, h2, h3⟩ | ⟨h1, h3⟩
      · exact .inl ⟨h.1, by rw [← hlen]; exact h.2.2⟩
      · exact .inr (.inl ⟨h1, trivial, h3⟩)
      · exact .inr (.inr ⟨h1, h3⟩)
  · rintro s' hw ha ⟨hm, o, habs⟩
    exact ⟨hinv.of_abs hop hw habs, by omega, vars_of_upd hV habs⟩

theorem step_ctorRange {i : Nat} {r : Rng α} {vs : List α} {V1 : Vars α} (h : vars s i = none)
    (hr : r.Takes T.moved (vars s) vs V1) (hfit : Fits vs 0) :
    Outcome T (.ctorRange i r) s (upd V1 i (some vs)) none ((Op.ctorRange i r).run T s) := by
  obtain ⟨as, W, hres, hlen, hW, hF, hV⟩ := Rng.resolve_spec hinv.wf hr
  refine Outcome.of_eq (M.bind_ok hres) ?_
  exact construct_range rfl (fun _ => Nat.le_refl _) hinv h hlen hW hF hV hfit

theorem step_ctorInput {i : Nat} {vs : List α} (h : vars s i = none) :
    Outcome T (.ctorInput i vs) s (upd (vars s) i (some vs)) none ((Op.ctorInput i vs).run T s) := by
  refine Outcome.of_res (ctorInput_spec hinv.wf (vars_none h) vs) ?_ (fun _ _ h => h.weaken fun hl => .inl ⟨i, _, rfl, upd_same _ _ _, hl⟩) rfl
  rintro s' hw ha ⟨hm, o, habs⟩
  exact ⟨hinv.of_abs rfl (W := s.blk) hw habs, hm, vars_of_upd (W := s.blk) rfl habs⟩

theorem fits_contents {i : Nat} {xs : List α} (h : vars s i = some xs) : 2 * xs.length < 2 ^ 64 := by
  obtain ⟨o, habs⟩ := vars_some h
  have hg := (hinv.wf.get habs).2
  have := hg.siz_le
  have := hg.siz
  have := szMod_big
  have h2 : szMod = 2 ^ 64 := rfl
  omega

theorem step_ctorCopy {i j : Nat} {ys : List α} (h : vars s i = none) (hj : vars s j = some ys) :
    Outcome T (.ctorCopy i j) s (upd (vars s) i (some ys)) none ((Op.ctorCopy i j).run T s) := by
  obtain ⟨o, habs⟩ := vars_some hj
  obtain ⟨ho, hg⟩ := hinv.wf.get habs
  have hav := ArgVals.ofVector hinv.wf habs
  have := construct_range (op := .ctorCopy i j) rfl (fun _ => Nat.le_refl _) hinv h hav.length (Mut.id hinv.wf) (Fills.copies hinv.wf hav) rfl
    (by have := fits_contents hinv hj; unfold Fits; omega)
  refine Outcome.of_eq ?_ this
  show noRet (ctorCopy T (.var i) (.var j)) s = _
  unfold noRet ctorCopy
  have e : (do let p ← data (α := α) (.var j); let n ← size (.var j); ctorRange T (.var i) (ptrRange p n)) s =
      ctorRange T (.var i) (ptrRange ⟨o.ptr, 0⟩ o.siz) s := by
    mstep (data_ok ho)
    mstep (size_ok ho)
    rfl
  exact M.bind_congr e

theorem step_ctorMove {i j : Nat} {ys : List α} (h : vars s i = none) (hj : vars s j = some ys) :
    Outcome T (.ctorMove i j) s (upd (upd (vars s) i (some ys)) j (some [])) none ((Op.ctorMove i j).run T s) := by
  obtain ⟨o, habs⟩ := vars_some hj
  obtain ⟨s', hr, hw, ha, hm, _, _, habs'⟩ := ctorMove_spec hinv.wf (vars_none h) habs
  refine Outcome.of_ok hr (hinv.of_abs2 (.inl rfl) (.inr rfl) hw habs') ha (by omega) ?_
  · unfold vars; rw [habs', varsOf_upd, varsOf_upd]; rfl

theorem step_dtor {i : Nat} {xs : List α} (h : vars s i = some xs) :
    Outcome T (.dtor i) s (upd (vars s) i none) none ((Op.dtor i).run T s) := by
  obtain ⟨o, habs⟩ := vars_some h
  obtain ⟨s', hr, hw, ha, hm, _, _, _, habs'⟩ := dtor_spec hinv.wf habs
  exact Outcome.of_ok hr (hinv.of_abs rfl (W := s.blk) hw habs') ha (by omega) (vars_of_upd (W := s.blk) rfl habs')

theorem step_assign {i : Nat} {xs : List α} {func : Ptr → VM α Unit} {vs : List α} {V1 : Vars α} {W} {op : Op α} (hop : op.Targets i) (hrm : ∀ n, n ≤ op.room n)
    (h : vars s i = some xs) (hW : Mut T s W) (hF : Fills s func vs W) (hV : vars { s with blk := W s.blk } = V1)
    (hfit : Fits xs vs.length) :
    Outcome T op s (upd V1 i (some vs)) none (noRet (assignImpl T (.var i) vs.length func) s) := by
  obtain ⟨o, habs⟩ := vars_some h
  have hsz := (hinv.wf.get habs).2.siz
  refine Outcome.of_res (assignImpl_spec hinv.wf habs hW hF (by rw [hsz]; exact hfit)) ?_ (fun _ _ h => h.weaken fun hl => .inl ⟨i, _, hop, upd_same _ _ _, Nat.lt_of_lt_of_le (by first | (simp at hl ⊢; omega) | (simp; omega) | omega) (hrm _)⟩) rfl
  rintro s' hw ha ⟨hq, hm⟩
  split at hq
  · exact ⟨hinv.of_abs hop hw hq, by omega, vars_of_upd hV hq⟩
  · exact ⟨hinv.of_abs hop hw hq.2, by omega, vars_of_upd hV hq.2⟩

theorem step_assignRange {i : Nat} {xs : List α} {r : Rng α} {vs : List α} {V1 : Vars α} (h : vars s i = some xs)
    (hr : r.Takes T.moved (vars s) vs V1) (hfit : Fits xs vs.length) :
    Outcome T (.assignRange i r) s (upd V1 i (some vs)) none ((Op.assignRange i r).run T s) := by
  obtain ⟨as, W, hres, hlen, hW, hF, hV⟩ := Rng.resolve_spec hinv.wf hr
  refine Outcome.of_eq (M.bind_ok hres) ?_
  have := step_assign (op := .assignRange i r) hinv rfl (fun _ => Nat.le_refl _) h hW hF hV hfit
  rw [← hlen] at this
  exact this

theorem step_assignFill {i n : Nat} {xs : List α} {x : Src α} {v : α} (h : vars s i = some xs)
    (hx : x.Is (vars s) v) (hfit : Fits xs n) :
    Outcome T (.assignFill i n x) s (upd (vars s) i (some (List.replicate n v))) none
      ((Op.assignFill i n x).run T s) := by
  obtain ⟨a, ha, hav⟩ := Src.resolve_spec hinv.wf hx
  refine Outcome.of_eq (M.bind_ok ha) ?_
  have := step_assign (op := .assignFill i n x) hinv rfl (fun _ => Nat.le_refl _) h (Mut.id hinv.wf)
    (Fills.copies hinv.wf (ArgVals.replicate hav n)) rfl (by simpa using hfit)
  rw [List.length_replicate] at this
  exact this

theorem step_assignCopy {i j : Nat} {xs ys : List α} (h : vars s i = some xs) (hj : vars s j = some ys) :
    Outcome T (.assignCopy i j) s (upd (vars s) i (some ys)) none ((Op.assignCopy i j).run T s) := by
  by_cases hij : i = j
  · subst hij
    rw [h] at hj; cases hj
    refine Outcome.of_ok (s' := s) ?_ hinv.refl (Adv.refl _) (Nat.le_refl _) (upd_eq _ _ _ h).symm
    unfold assignCopy; simp
  · obtain ⟨o, habs⟩ := vars_some hj
    obtain ⟨ho, hg⟩ := hinv.wf.get habs
    have hav := ArgVals.ofVector hinv.wf habs
    have := step_assign (op := .assignCopy i j) hinv rfl (fun _ => Nat.le_refl _) h (Mut.id hinv.wf) (Fills.copies hinv.wf hav) rfl
      (by have := fits_contents hinv hj; have := fits_contents hinv h; unfold Fits; omega)
    rw [← hav.length] at this
    refine Outcome.of_eq ?_ this
    show noRet (assignCopy T (.var i) (.var j)) s = _
    unfold noRet assignCopy
    rw [if_pos (by simpa using hij)]
    have e : (do let p ← data (α := α) (.var j); let n ← size (.var j); assignRange T (.var i) (ptrRange p n)) s =
        assignRange T (.var i) (ptrRange ⟨o.ptr, 0⟩ o.siz) s := by
      mstep (data_ok ho)
      mstep (size_ok ho)
      rfl
    exact M.bind_congr e

theorem step_assignMove {i j : Nat} {xs ys : List α} (h : vars s i = some xs) (hj : vars s j = some ys) (hij : i ≠ j) :
    Outcome T (.assignMove i j) s (upd (upd (vars s) i (some ys)) j (some [])) none ((Op.assignMove i j).run T s) := by
  obtain ⟨o, habs⟩ := vars_some h
  obtain ⟨o', habs2⟩ := vars_some hj
  obtain ⟨s', hr, hw, ha, hm, _, _, habs'⟩ := moveAssign_spec hinv.wf (by intro h; cases h; exact hij rfl) habs habs2
  refine Outcome.of_ok hr (hinv.of_abs2 (.inl rfl) (.inr rfl) hw habs') ha (by omega) ?_
  · unfold vars; rw [habs', varsOf_upd, varsOf_upd]; rfl

theorem step_assignMoveSelf {i : Nat} :
    Outcome T (.assignMove i i) s (vars s) none ((Op.assignMove i i).run T s) := by
  refine Outcome.of_ok (s' := s) ?_ hinv.refl (Adv.refl _) (Nat.le_refl _) rfl
  unfold assignMove Storage.moveAssign; simp

theorem step_swap {i j : Nat} {xs ys : List α} (h : vars s i = some xs) (hj : vars s j = some ys) :
    Outcome T (.swap i j) s (upd (upd (vars s) i (some ys)) j (some xs)) none ((Op.swap i j).run T s) := by
  obtain ⟨o, habs⟩ := vars_some h
  obtain ⟨o', habs2⟩ := vars_some hj
  obtain ⟨s', hr, hw, ha, hm, _, _, habs'⟩ := swap_spec hinv.wf habs habs2
  refine Outcome.of_ok hr (hinv.of_abs2 (.inl rfl) (.inr rfl) hw habs') ha (by omega) ?_
  · unfold vars; rw [habs', varsOf_upd, varsOf_upd]; rfl

theorem step_assignInput {i : Nat} {xs vs : List α} (h : vars s i = some xs) :
    Outcome T (.assignInput i vs) s (upd (vars s) i (some vs)) none ((Op.assignInput i vs).run T s) := by
  obtain ⟨o, habs⟩ := vars_some h
  refine Outcome.of_res (assignInput_spec hinv.wf habs vs) ?_ (fun _ _ h => h.weaken fun hl => .inl ⟨i, _, rfl, upd_same _ _ _, hl⟩) rfl
  rintro s' hw ha ⟨hm, o, habs⟩
  exact ⟨hinv.of_abs rfl (W := s.blk) hw habs, hm, vars_of_upd (W := s.blk) rfl habs⟩

omit hinv in
theorem obj_of_upd {s' : St α Storage} {A} {i : Id} {o : Storage} {ys : List α}
    (h : abs s' = upd A i (some (o, ys))) : s'.obj i = some o :=
  (abs_some (show abs s' i = some (o, ys) by rw [h, upd_same])).1

/-- all insertions -/
theorem step_insert {i : Nat} {pre post vs : List α} {func : Ptr → VM α Unit} {V1 : Vars α} {W} {op : Op α} (hop : op.Targets i) (hrm : ∀ n, op.room n = 2 * n)
    (hW : Mut T s W) (hF : Fills s func vs W) (hV : vars { s with blk := W s.blk } = V1)
    (h1 : V1 i = some (pre ++ post)) (hfit : Fits (pre ++ post) vs.length) {p : Ptr} {o : Storage}
    (ho : s.obj (.var i) = some o) (hp : p = ⟨o.ptr, pre.length⟩) :
    Outcome T op s (upd V1 i (some (pre ++ vs ++ post))) (some pre.length)
      ((insertImpl T (.var i) p vs.length func >>= offset i) s) := by
  subst hp
  have habs1 := abs_of_vars hV h1 ho
  obtain ⟨xs, hg⟩ := hinv.wf.good _ _ ho
  have habs : abs s (.var i) = some (o, xs) := by rw [abs_of_obj ho, hg.contents]
  have hsz : o.siz = (pre ++ post).length := (hW.wf.get habs1).2.siz
  have hins := insertImpl_spec hinv.wf habs (off := pre.length) hW hF habs1 (by rw [hsz]; simp)
    (by rw [hsz]; exact hfit)
  rw [List.take_left, List.drop_left] at hins
  refine Outcome.of_res_it hins ?_ (fun _ _ h => h.weaken fun hl => .inl ⟨i, _, hop, upd_same _ _ _, by rw [hrm]; simp only [List.length_append] at *; omega⟩)
  intro r s' hw' ha' hq
  split at hq
  · obtain ⟨hr, hm, habs'⟩ := hq
    exact ⟨hinv.of_abs hop hw' habs', by omega, vars_of_upd hV habs', _,
      obj_of_upd habs', hr⟩
  · obtain ⟨_, hr, hm, habs'⟩ := hq
    exact ⟨hinv.of_abs hop hw' habs', by omega, vars_of_upd hV habs', _,
      obj_of_upd habs', hr⟩

omit hinv in
theorem pos_ok {i k : Nat} {o : Storage} (ho : s.obj (.var i) = some o) : pos i k s = .ok ⟨o.ptr, k⟩ s := by
  unfold pos
  mstep (data_ok ho)
  simp [Ptr.add]

theorem step_pushBack {i : Nat} {x : Src1 α} {v : α} {xs : List α} {V1 : Vars α} (hx : x.Takes T.moved (vars s) v V1)
    (h1 : V1 i = some xs) :
    Outcome T (.pushBack i x) s (upd V1 i (some (xs ++ [v]))) (some xs.length) ((Op.pushBack i x).run T s) := by
  obtain ⟨a, W, hres, hW, hF, hV⟩ := Src1.resolve_spec hinv.wf hx
  obtain ⟨xs0, hx0, hlen⟩ := alive_of_len (takes1_len hx i) h1
  obtain ⟨o, habs⟩ := vars_some hx0
  obtain ⟨ho, hg⟩ := hinv.wf.get habs
  have hfit := fits_contents hinv hx0
  refine Outcome.of_eq (M.bind_ok hres) ?_
  have := step_insert (op := .pushBack i x) (i := i) (pre := xs) (post := []) hinv rfl (fun _ => rfl) hW hF hV (by simpa using h1)
    (by unfold Fits; simp; omega) ho rfl
  simp only [List.append_nil] at this
  refine Outcome.of_eq ?_ this
  have e : pushBack T (.var i) a s = insertImpl T (.var i) ⟨o.ptr, xs.length⟩ [v].length
      (fun p => constructAt T p a) s := by
    unfold pushBack
    mstep (end_ok ho)
    rw [hg.siz, hlen]; rfl
  exact M.bind_congr e

theorem step_emplace {i : Nat} {x : Src1 α} {v : α} {pre post : List α} {V1 : Vars α}
    (hx : x.Takes T.moved (vars s) v V1) (h1 : V1 i = some (pre ++ post)) :
    Outcome T (.emplace i pre.length x) s (upd V1 i (some (pre ++ [v] ++ post))) (some pre.length)
      ((Op.emplace i pre.length x).run T s) := by
  obtain ⟨a, W, hres, hW, hF, hV⟩ := Src1.resolve_spec hinv.wf hx
  obtain ⟨xs0, hx0, hlen⟩ := alive_of_len (takes1_len hx i) h1
  obtain ⟨o, habs⟩ := vars_some hx0
  obtain ⟨ho, hg⟩ := hinv.wf.get habs
  have hfit := fits_contents hinv hx0
  refine Outcome.of_eq (M.bind_ok hres) ?_
  refine Outcome.of_eq (M.bind_ok (pos_ok ho)) ?_
  exact step_insert (op := .emplace i pre.length x) hinv rfl (fun _ => rfl) hW hF hV h1
    (by unfold Fits; simp only [List.length_singleton]; omega) ho rfl

theorem step_insertFill {i n : Nat} {x : Src α} {v : α} {pre post : List α} (hx : x.Is (vars s) v)
    (h1 : vars s i = some (pre ++ post)) (hfit : Fits (pre ++ post) n) :
    Outcome T (.insertFill i pre.length n x) s (upd (vars s) i (some (pre ++ List.replicate n v ++ post)))
      (some pre.length) ((Op.insertFill i pre.length n x).run T s) := by
  obtain ⟨a, ha, hav⟩ := Src.resolve_spec hinv.wf hx
  obtain ⟨o, habs⟩ := vars_some h1
  obtain ⟨ho, hg⟩ := hinv.wf.get habs
  refine Outcome.of_eq (M.bind_ok ha) ?_
  refine Outcome.of_eq (M.bind_ok (pos_ok ho)) ?_
  have := step_insert (op := .insertFill i pre.length n x) hinv rfl (fun _ => rfl) (Mut.id hinv.wf)
    (Fills.copies hinv.wf (ArgVals.replicate hav n)) rfl h1 (by simpa using hfit) ho rfl
  rw [List.length_replicate] at this
  exact this

theorem step_insertRange {i : Nat} {r : Rng α} {vs pre post : List α} {V1 : Vars α}
    (hr : r.Takes T.moved (vars s) vs V1) (h1 : V1 i = some (pre ++ post)) (hfit : Fits (pre ++ post) vs.length) :
    Outcome T (.insertRange i pre.length r) s (upd V1 i (some (pre ++ vs ++ post))) (some pre.length)
      ((Op.insertRange i pre.length r).run T s) := by
  obtain ⟨as, W, hres, hlen, hW, hF, hV⟩ := Rng.resolve_spec hinv.wf hr
  obtain ⟨xs0, hx0, _⟩ := alive_of_len (takes_len hr i) h1
  obtain ⟨o, habs⟩ := vars_some hx0
  obtain ⟨ho, hg⟩ := hinv.wf.get habs
  refine Outcome.of_eq (M.bind_ok hres) ?_
  refine Outcome.of_eq (M.bind_ok (pos_ok ho)) ?_
  have := step_insert (op := .insertRange i pre.length r) hinv rfl (fun _ => rfl) hW hF hV h1 hfit ho rfl
  rw [← hlen] at this
  exact this

theorem step_insertInput {i : Nat} {vs pre post : List α} (h1 : vars s i = some (pre ++ post))
    (hfit : Fits (pre ++ post) vs.length) :
    Outcome T (.insertInput i pre.length vs) s (upd (vars s) i (some (pre ++ vs ++ post))) (some pre.length)
      ((Op.insertInput i pre.length vs).run T s) := by
  obtain ⟨o, habs⟩ := vars_some h1
  obtain ⟨ho, hg⟩ := hinv.wf.get habs
  have hsz := hg.siz
  refine Outcome.of_eq (M.bind_ok (pos_ok ho)) ?_
  have hins := insertInput_spec hinv.wf habs vs (off := pre.length) (by rw [hsz]; simp) (by rw [hsz]; exact hfit)
  rw [List.take_left, List.drop_left] at hins
  refine Outcome.of_res_it hins ?_ (fun _ _ h => h.weaken fun hl => .inl ⟨i, _, rfl, upd_same _ _ _, by show _ < 2 * _; simp only [List.length_append] at *; omega⟩)
  rintro r s' hw' ha' ⟨hm, o', hr, _, _, habs'⟩
  exact ⟨hinv.of_abs rfl (W := s.blk) hw' habs', hm, vars_of_upd (W := s.blk) rfl habs', _,
      obj_of_upd habs', hr⟩

theorem step_erase {i : Nat} {pre mid post : List α} (h : vars s i = some (pre ++ mid ++ post))
    (hm : mid ≠ [] ∨ ∀ x ∈ post, T.selfMove x = x) :
    Outcome T (.erase i pre.length (pre.length + mid.length)) s (upd (vars s) i (some (pre ++ post)))
      (some pre.length) ((Op.erase i pre.length (pre.length + mid.length)).run T s) := by
  obtain ⟨o, habs⟩ := vars_some h
  obtain ⟨ho, hg⟩ := hinv.wf.get habs
  have hsz : o.siz = _ := hg.siz
  simp only [List.length_append] at hsz
  refine Outcome.of_eq (M.bind_ok (pos_ok ho)) ?_
  refine Outcome.of_eq (M.bind_ok (pos_ok ho)) ?_
  have he := erase_spec hinv.wf habs (f := pre.length) (l := pre.length + mid.length) (by omega) (by omega)
  have e1 : (pre ++ mid ++ post).take pre.length = pre := by rw [List.append_assoc]; exact List.take_left
  have e2 : (pre ++ mid ++ post).drop (pre.length + mid.length) = post := by apply List.drop_left'; simp
  have e3 : (if pre.length = pre.length + mid.length then post.map T.selfMove else post) = post := by
    split
    · rename_i h0
      have : mid = [] := List.length_eq_zero_iff.1 (by omega)
      rcases hm with h | h
      · exact absurd this h
      · rw [List.map_congr_left h, List.map_id']
    · rfl
  rw [e1, e2, e3] at he
  refine Outcome.of_res_it he ?_ (fun _ _ h => h.elim)
  rintro r s' hw' ha' ⟨hr, hm', _, _, habs'⟩
  exact ⟨hinv.of_abs rfl (W := s.blk) hw' habs', by omega, vars_of_upd (W := s.blk) rfl habs', _,
      obj_of_upd habs', hr⟩

theorem step_eraseOne {i : Nat} {pre post : List α} {x : α} (h : vars s i = some (pre ++ [x] ++ post)) :
    Outcome T (.eraseOne i pre.length) s (upd (vars s) i (some (pre ++ post)))
      (some pre.length) ((Op.eraseOne i pre.length).run T s) := by
  have := step_erase hinv h (.inl (by simp))
  obtain ⟨o, habs⟩ := vars_some h
  obtain ⟨ho, hg⟩ := hinv.wf.get habs
  have e : (Op.eraseOne i pre.length).run T s = (Op.erase i pre.length (pre.length + [x].length)).run T s := by
    show (pos i pre.length >>= _) s = (pos i pre.length >>= _) s
    rw [M.bind_ok (pos_ok ho), M.bind_ok (pos_ok ho)]
    show _ = (pos i (pre.length + [x].length) >>= _) s
    rw [M.bind_ok (pos_ok ho)]
    rfl
  rw [e]
  unfold Outcome at *
  split <;> rename_i h' <;> rw [h'] at this
  · exact this
  · refine ⟨this.1, this.2.imp (fun h => ⟨h.1, ?_⟩) id⟩
    rcases h.2 with ⟨i, xs, h1, h2, h3⟩ | ⟨i, n, h, _⟩
    · exact absurd h3 (Nat.not_lt_zero _)
    · cases h
  · exact this
  · obtain ⟨⟨k, hk⟩, _⟩ := this; cases hk

theorem step_popBack {i : Nat} {xs : List α} {x : α} (h : vars s i = some (xs ++ [x])) :
    Outcome T (.popBack i) s (upd (vars s) i (some xs)) none ((Op.popBack i).run T s) := by
  obtain ⟨o, habs⟩ := vars_some h
  obtain ⟨s', hr, hw, ha, hm, _, habs'⟩ := popBack_spec hinv.wf habs (by simp)
  rw [List.dropLast_concat] at habs'
  exact Outcome.of_ok hr (hinv.of_abs rfl (W := s.blk) hw habs') ha (by omega) (vars_of_upd (W := s.blk) rfl habs')

theorem step_clear {i : Nat} {xs : List α} (h : vars s i = some xs) :
    Outcome T (.clear i) s (upd (vars s) i (some [])) none ((Op.clear i).run T s) := by
  obtain ⟨o, habs⟩ := vars_some h
  obtain ⟨s', hr, hw, ha, hm, _, habs'⟩ := clear_spec hinv.wf habs
  exact Outcome.of_ok hr (hinv.of_abs rfl (W := s.blk) hw habs') ha (by omega) (vars_of_upd (W := s.blk) rfl habs')

theorem step_reserve {i n : Nat} {xs : List α} (h : vars s i = some xs) :
    Outcome T (.reserve i n) s (vars s) none ((Op.reserve i n).run T s) := by
  obtain ⟨o, habs⟩ := vars_some h
  by_cases hn : n ≤ o.cap
  · exact Outcome.of_ok (reserve_noop (hinv.wf.get habs).1 hn) hinv.refl (Adv.refl _) (Nat.le_refl _) rfl
  · refine Outcome.of_res (reserve_grow hinv.wf habs (by omega)) ?_ (fun _ _ h => h.weaken fun hl => .inr ⟨i, n, rfl, hl⟩) rfl
    rintro s' hw ha ⟨_, hm, habs'⟩
    refine ⟨hinv.of_abs rfl (W := s.blk) hw habs', by omega, ?_⟩
    rw [vars_of_upd (W := s.blk) rfl habs']
    exact upd_eq _ _ _ h

theorem step_shrinkToFit {i : Nat} {xs : List α} (h : vars s i = some xs) :
    Outcome T (.shrinkToFit i) s (vars s) none ((Op.shrinkToFit i).run T s) := by
  obtain ⟨o, habs⟩ := vars_some h
  have hsz := (hinv.wf.get habs).2.siz
  by_cases hn : o.cap ≤ o.siz * 2
  · exact Outcome.of_ok (shrinkToFit_noop hinv.wf habs hn) hinv.refl (Adv.refl _) (Nat.le_refl _) rfl
  by_cases h0 : o.siz = 0
  · obtain ⟨s', hr, hw, ha, hm, _, habs'⟩ := shrinkToFit_zero hinv.wf habs (by omega) h0
    refine Outcome.of_ok hr (hinv.of_abs rfl (W := s.blk) hw habs') ha (by omega) ?_
    rw [vars_of_upd (W := s.blk) rfl habs']
    refine upd_eq _ _ _ ?_
    have : xs = [] := List.length_eq_zero_iff.1 (by omega)
    subst this
    exact h
  · rcases shrinkToFit_some hinv.wf habs (by omega) h0 with ⟨ho, hr⟩ | ⟨ho, s', hr, hw, ha, hm, habs'⟩
    · exact Outcome.of_eq (M.bind_term hr) ⟨⟨i, rfl⟩, ho⟩
    · refine Outcome.of_ok hr (hinv.of_abs rfl (W := s.blk) hw habs') ha (by omega) ?_
      rw [vars_of_upd (W := s.blk) rfl habs']
      exact upd_eq _ _ _ h

theorem step_resizeImpl_shrink {i : Nat} {xs ys : List α} {func : Ptr → Nat → VM α Unit} {op : Op α} (hop : op.Targets i)
    (h : vars s i = some (xs ++ ys)) :
    Outcome T op s (upd (vars s) i (some xs)) none (noRet (resizeImpl T (.var i) xs.length func) s) := by
  obtain ⟨o, habs⟩ := vars_some h
  obtain ⟨ho, hg⟩ := hinv.wf.get habs
  have hsz := hg.siz
  simp only [List.length_append] at hsz
  by_cases h0 : ys.length = 0
  · have : ys = [] := List.length_eq_zero_iff.1 h0
    subst this
    refine Outcome.of_ok (s' := s) ?_ hinv.refl (Adv.refl _) (Nat.le_refl _) ?_
    · rw [show xs.length = o.siz by simpa using hsz.symm]; exact resizeImpl_same ho
    · rw [upd_eq _ _ _ (by simpa using h)]
  · refine Outcome.of_res (resizeImpl_shrink hinv.wf habs (by omega)) ?_ (fun _ _ h => h.elim) rfl
    rintro s' hw ha ⟨hm, _, habs'⟩
    rw [List.take_left] at habs'
    exact ⟨hinv.of_abs hop (W := s.blk) hw habs', by omega, vars_of_upd (W := s.blk) rfl habs'⟩

theorem step_resizeImpl_grow {i n : Nat} {xs : List α} {v : α} {func : Ptr → Nat → VM α Unit} {op : Op α} (hop : op.Targets i) (hrm : ∀ n, n ≤ op.room n)
    (h : vars s i = some xs) (hF : Fills s (fun p => func p n) (List.replicate n v) (fun x => x)) :
    Outcome T op s (upd (vars s) i (some (xs ++ List.replicate n v))) none
      (noRet (resizeImpl T (.var i) (xs.length + n) func) s) := by
  obtain ⟨o, habs⟩ := vars_some h
  obtain ⟨ho, hg⟩ := hinv.wf.get habs
  have hsz := hg.siz
  by_cases h0 : n = 0
  · subst h0
    refine Outcome.of_ok (s' := s) ?_ hinv.refl (Adv.refl _) (Nat.le_refl _) ?_
    · rw [show xs.length + 0 = o.siz by omega]; exact resizeImpl_same ho
    · rw [upd_eq _ _ _ (by simpa using h)]
  · have e : xs.length + n - o.siz = n := by omega
    refine Outcome.of_res (resizeImpl_grow hinv.wf habs (n := xs.length + n) (vs := List.replicate n v) (by omega)
      (by rw [List.length_replicate]; omega) (Mut.id hinv.wf) (by rw [e]; exact hF) habs) ?_ (fun _ _ h => h.weaken fun hl => .inl ⟨i, _, hop, upd_same _ _ _, Nat.lt_of_lt_of_le (by first | (simp at hl ⊢; omega) | (simp; omega) | omega) (hrm _)⟩) rfl
    rintro s' hw ha ⟨_, hm, habs'⟩
    exact ⟨hinv.of_abs hop (W := s.blk) hw habs', by omega, vars_of_upd (W := s.blk) rfl habs'⟩

theorem step_resizeGrow {i n : Nat} {xs : List α} (h : vars s i = some xs) :
    Outcome T (.resize i (xs.length + n)) s (upd (vars s) i (some (xs ++ List.replicate n T.dflt))) none
      ((Op.resize i (xs.length + n)).run T s) :=
  step_resizeImpl_grow hinv rfl (fun _ => Nat.le_refl _) h (Fills.copies hinv.wf (ArgVals.replicate (.val _) n))

theorem step_resizeFillShrink {i : Nat} {xs ys : List α} {x : Src α} {v : α} (h : vars s i = some (xs ++ ys))
    (hx : x.Is (vars s) v) :
    Outcome T (.resizeFill i xs.length x) s (upd (vars s) i (some xs)) none
      ((Op.resizeFill i xs.length x).run T s) := by
  obtain ⟨a, ha, hav⟩ := Src.resolve_spec hinv.wf hx
  refine Outcome.of_eq (M.bind_ok ha) ?_
  exact step_resizeImpl_shrink hinv rfl h

theorem step_resizeFillGrow {i n : Nat} {xs : List α} {x : Src α} {v : α} (h : vars s i = some xs)
    (hx : x.Is (vars s) v) :
    Outcome T (.resizeFill i (xs.length + n) x) s (upd (vars s) i (some (xs ++ List.replicate n v))) none
      ((Op.resizeFill i (xs.length + n) x).run T s) := by
  obtain ⟨a, ha, hav⟩ := Src.resolve_spec hinv.wf hx
  refine Outcome.of_eq (M.bind_ok ha) ?_
  exact step_resizeImpl_grow hinv rfl (fun _ => Nat.le_refl _) h (Fills.copies hinv.wf (ArgVals.replicate hav n))

theorem step_write {i k : Nat} {v : α} {xs : List α} (h : vars s i = some xs) (hk : k < xs.length) :
    Outcome T (.write i k v) s (upd (vars s) i (some (xs.set k v))) none ((Op.write i k v).run T s) := by
  obtain ⟨o, habs⟩ := vars_some h
  obtain ⟨ho, hg⟩ := hinv.wf.get habs
  have hidx : index (.var i) k s = .ok ⟨o.ptr, k⟩ s := by
    unfold index
    mstep (data_ok ho)
    simp [Ptr.add]
  refine Outcome.of_eq (M.bind_ok hidx) ?_
  cases hp : o.ptr with
  | none => obtain ⟨_, rfl⟩ := hg.null hp; cases hk
  | some b =>
    obtain ⟨hd, hs, hle, h10, hmx, hb⟩ := hg.own hp
    have hrd : readAt ⟨some b, k⟩ s = .ok xs[k] s := by
      refine readAt_ok hb ?_
      rw [List.getElem?_append_left (by simpa [lv] using hk)]; simp [lv, hk]
    cases ho' : s.orc s.tick with
    | true =>
      have e : writeAt ⟨some b, k⟩ v s = .exc .user { s with tick := s.tick + 1 } := by
        unfold writeAt
        mstep hrd
        exact M.bind_exc (fallible_exc ho')
      refine Outcome.of_eq (M.bind_exc e) ⟨⟨rfl, rfl, Nat.le_refl _, Nat.le_refl _, rfl, Nat.le_succ _, Nat.le_refl _⟩,
        .inr ⟨.inr rfl, s.tick, Nat.le_refl _, Nat.lt_succ_self _, ho'⟩⟩
    | false =>
      have e : writeAt ⟨some b, k⟩ v s = .ok () { s with
          blk := upd s.blk b (some (lv (xs.set k v) ++ raw (o.cap - xs.length))), tick := s.tick + 1 } := by
        unfold writeAt
        mstep hrd
        mstep (fallible_ok ho')
        refine (setSlot_ok (by exact hb) (by simp [lv]; omega)).trans ?_
        rw [List.set_append_left _ _ (by simpa [lv] using hk)]
        simp [lv, List.map_set]
      have hc := commit_inplace (s' := ({ s with
          blk := upd s.blk b (some (lv (xs.set k v) ++ raw (o.cap - xs.length))), tick := s.tick + 1 } : St α Storage))
        hinv.wf ho hg hp (ys := xs.set k v) (by simpa using hle)
        (by simp only [List.length_set]; rw [← hs, upd_eq]; exact ho) (by simp) rfl rfl
      exact Outcome.of_ok e (hinv.of_abs rfl (W := s.blk) hc.1 hc.2) ⟨Nat.le_refl _, Nat.le_refl _, rfl, Nat.le_succ _⟩
        (Nat.le_refl _) (vars_of_upd (W := s.blk) rfl hc.2)

theorem step_put {i k : Nat} {v : α} {xs : List α} (h : vars s i = some xs) (hk : k < xs.length) :
    Outcome T (.put i k v) s (upd (vars s) i (some (xs.set k v))) none ((Op.put i k v).run T s) := by
  obtain ⟨o, habs⟩ := vars_some h
  obtain ⟨ho, hg⟩ := hinv.wf.get habs
  have hidx : index (.var i) k s = .ok ⟨o.ptr, k⟩ s := by
    unfold index
    mstep (data_ok ho)
    simp [Ptr.add]
  refine Outcome.of_eq (M.bind_ok hidx) ?_
  cases hp : o.ptr with
  | none => obtain ⟨_, rfl⟩ := hg.null hp; cases hk
  | some b =>
    obtain ⟨hd, hs, hle, h10, hmx, hb⟩ := hg.own hp
    have hrd : readAt ⟨some b, k⟩ s = .ok xs[k] s := by
      refine readAt_ok hb ?_
      rw [List.getElem?_append_left (by simpa [lv] using hk)]; simp [lv, hk]
    have e : putAt ⟨some b, k⟩ v s = .ok () { s with
        blk := upd s.blk b (some (lv (xs.set k v) ++ raw (o.cap - xs.length))) } := by
      unfold putAt
      mstep hrd
      refine (setSlot_ok hb (by simp [lv]; omega)).trans ?_
      rw [List.set_append_left _ _ (by simpa [lv] using hk)]
      simp [lv, List.map_set]
    have hc := commit_inplace (s' := ({ s with
        blk := upd s.blk b (some (lv (xs.set k v) ++ raw (o.cap - xs.length))) } : St α Storage))
      hinv.wf ho hg hp (ys := xs.set k v) (by simpa using hle)
      (by simp only [List.length_set]; rw [← hs, upd_eq]; exact ho) (by simp) rfl rfl
    exact Outcome.of_ok e (hinv.of_abs rfl (W := s.blk) hc.1 hc.2) ⟨Nat.le_refl _, Nat.le_refl _, rfl, Nat.le_refl _⟩
      (Nat.le_refl _) (vars_of_upd (W := s.blk) rfl hc.2)

/-- **Every call within its preconditions meets its list specification.** -/
theorem step {op : Op α} {V' : Vars α} {r : Option Nat} (hs : Spec T op (vars s) V' r) :
    Outcome T op s V' r (op.run T s) := by
  cases hs with
  | ctorDefault h => exact step_ctorDefault hinv h
  | ctorCount h _ => exact step_ctorCount hinv h
  | ctorFill h _ hx => exact step_ctorFill hinv h hx
  | ctorRange h hr hf => exact step_ctorRange hinv h hr hf
  | ctorInput h => exact step_ctorInput hinv h
  | ctorCopy h hj => exact step_ctorCopy hinv h hj
  | ctorMove h hj => exact step_ctorMove hinv h hj
  | dtor h => exact step_dtor hinv h
  | assignCopy h hj => exact step_assignCopy hinv h hj
  | assignMove h hj hij => exact step_assignMove hinv h hj hij
  | assignMoveSelf h => exact step_assignMoveSelf hinv
  | assignRange h hr hf => exact step_assignRange hinv h hr hf
  | assignInput h => exact step_assignInput hinv h
  | assignFill h hx hf => exact step_assignFill hinv h hx hf
  | swap h hj => exact step_swap hinv h hj
  | pushBack hx h => exact step_pushBack hinv hx h
  | emplace hx h => exact step_emplace hinv hx h
  | insertFill hx h hf => exact step_insertFill hinv hx h hf
  | insertRange hr h hf => exact step_insertRange hinv hr h hf
  | insertInput h hf => exact step_insertInput hinv h hf
  | erase h hm => exact step_erase hinv h hm
  | eraseOne h => exact step_eraseOne hinv h
  | popBack h => exact step_popBack hinv h
  | clear h => exact step_clear hinv h
  | reserve h _ => exact step_reserve hinv h
  | shrinkToFit h => exact step_shrinkToFit hinv h
  | resizeShrink h => exact step_resizeImpl_shrink hinv rfl h
  | resizeGrow h _ => exact step_resizeGrow hinv h
  | resizeFillShrink h hx => exact step_resizeFillShrink hinv h hx
  | resizeFillGrow h hx _ => exact step_resizeFillGrow hinv h hx
  | write h hk => exact step_write hinv h hk
  | put h hk => exact step_put hinv h hk

end calls

end Ptl.Vector

import Verif.Vector.Steps

/-! # Histories: the invariant along `Reach`, and what the client sees -/

namespace Ptl.Vector

variable {α : Type} {T : Elem α} {s : St α Storage} {V : Vars α}

theorem Inv.start (orc : Nat → Bool) : Inv T (start α orc) := by
  refine ⟨⟨?_, ?_, ?_, ?_, ?_⟩, fun _ => rfl⟩
  · intro i o h; cases h
  · intro i j o o' b h; cases h
  · intro b l h; cases h
  · intro b _; rfl
  · intro k _; rfl

theorem Same.inv {s' : St α Storage} (h : Same s s') (hinv : Inv T s) : Inv T s' :=
  ⟨h.wf hinv.wf, by rw [h.obj]; exact hinv.tmp⟩

theorem Same.vars {s' : St α Storage} (h : Same s s') : vars s' = vars s := by
  unfold Vector.vars; rw [h.abs]

theorem Reach.inv (h : Reach T s V) : Inv T s ∧ vars s = V := by
  induction h with
  | start orc => exact ⟨Inv.start orc, rfl⟩
  | @ok s s' V V' op r r' _ hs hrun ih =>
    obtain ⟨hinv, rfl⟩ := ih
    have := step hinv hs
    rw [hrun] at this
    exact ⟨this.1.1, this.2.2.2.1⟩
  | @thrown s s' V V' op r e _ hs hrun ih =>
    obtain ⟨hinv, rfl⟩ := ih
    have := step hinv hs
    rw [hrun] at this
    exact ⟨this.1.inv hinv, this.1.vars⟩

theorem readFrom_ok {i b : Nat} {o : Storage} {r : List (Option α)} (ho : s.obj (.var i) = some o) (hp : o.ptr = some b) :
    ∀ (xs : List α) (pre : List α), s.blk b = some (lv (pre ++ xs) ++ r) →
      readFrom i pre.length xs.length s = .ok xs s := by
  intro xs
  induction xs with
  | nil => intro pre _; rfl
  | cons x xs ih =>
    intro pre hb
    show readFrom i pre.length (xs.length + 1) s = _
    unfold readFrom
    have hidx : index (.var i) pre.length s = .ok ⟨some b, pre.length⟩ s := by
      unfold index
      mstep (data_ok ho)
      simp [Ptr.add, hp]
    have hrd : readAt ⟨some b, pre.length⟩ s = .ok x s := readAt_ok hb (by simp [lv])
    mstep hidx
    mstep hrd
    have := ih (pre ++ [x]) (by rw [hb]; simp)
    rw [List.length_append, List.length_singleton] at this
    mstep this
    rfl

theorem Inv.shows (hinv : Inv T s) {i : Nat} {o : Storage} {xs : List α} (h : abs s (.var i) = some (o, xs)) :
    Shows s i ⟨o.ptr, 0⟩ o.cap xs := by
  obtain ⟨ho, hg⟩ := hinv.wf.get h
  have hsz : size (.var i) s = .ok xs.length s := by rw [← hg.siz]; exact size_ok ho
  refine ⟨data_ok ho, hsz, capacity_ok ho, ?_⟩
  unfold readBack
  mstep hsz
  cases hp : o.ptr with
  | none => obtain ⟨_, rfl⟩ := hg.null hp; rfl
  | some b => exact readFrom_ok ho hp xs [] (hg.own hp).2.2.2.2.2

theorem Shows.unique {i : Nat} {d d' : Ptr} {c c' : Nat} {xs xs' : List α} (h : Shows s i d c xs)
    (h' : Shows s i d' c' xs') : d = d' ∧ c = c' ∧ xs = xs' := by
  refine ⟨?_, ?_, ?_⟩
  · have := h.data.symm.trans h'.data; cases this; rfl
  · have := h.capacity.symm.trans h'.capacity; cases this; rfl
  · have := h.elems.symm.trans h'.elems; cases this; rfl

theorem Inv.of_shows (hinv : Inv T s) {i : Nat} {d : Ptr} {c : Nat} {xs : List α} (h : Shows s i d c xs) :
    ∃ o, abs s (.var i) = some (o, xs) ∧ d = ⟨o.ptr, 0⟩ ∧ c = o.cap := by
  cases ho : s.obj (.var i) with
  | none =>
    have := h.data
    have e : data (.var i) s = .ub .deadObject := by
      refine M.bind_ub ?_
      unfold getObj; rw [ho]
    rw [e] at this; cases this
  | some o =>
    have ha := abs_of_obj ho
    obtain ⟨rfl, rfl, rfl⟩ := h.unique (hinv.shows ha)
    exact ⟨o, ha, rfl, rfl⟩

theorem Reach.shows (h : Reach T s V) {i : Nat} {xs : List α} (hi : V i = some xs) : ∃ d c, Shows s i d c xs := by
  obtain ⟨hinv, rfl⟩ := h.inv
  obtain ⟨o, ho⟩ := vars_some hi
  exact ⟨_, _, hinv.shows ho⟩

theorem Reach.of_shows (h : Reach T s V) {i : Nat} {d : Ptr} {c : Nat} {xs : List α} (hs : Shows s i d c xs) :
    V i = some xs := by
  obtain ⟨hinv, rfl⟩ := h.inv
  obtain ⟨o, ho, _, _⟩ := hinv.of_shows hs
  exact vars_of_abs ho

/-! ### insertions, in terms of `insert_impl` -/

theorem Src.AreAll.length {l : List (Src α)} {vs : List α} (h : Src.AreAll V l vs) : vs.length = l.length := by
  induction h with
  | nil => rfl
  | cons _ _ ih => simp [ih]

theorem Rng.Takes.length {moved : α → α} {r : Rng α} {vs : List α} {V1 : Vars α} (h : r.Takes moved V vs V1) :
    vs.length = r.len := by
  cases h with
  | refs h => exact h.length
  | mvs h => rfl

/-- an inserting call is `insert_impl` with a well-behaved construction function -/
structure InsertForm (T : Elem α) (s : St α Storage) (V' : Vars α) (r : Option Nat) (i n : Nat)
    (res : Out (St α Storage) (Option Nat)) (o : Storage) (func : Ptr → VM α Unit) (vs pre post : List α)
    (W : (Nat → Option (List (Option α))) → Nat → Option (List (Option α))) : Prop where
  obj : s.obj (.var i) = some o
  run : res = (insertImpl T (.var i) ⟨o.ptr, pre.length⟩ vs.length func >>= offset i) s
  hmut : Mut T s W
  fills : Fills s func vs W
  len : vs.length = n
  abs1 : abs { s with blk := W s.blk } (.var i) = some (o, pre ++ post)
  fit : o.siz + vs.length < szMod
  vars' : V' = upd (vars { s with blk := W s.blk }) i (some (pre ++ vs ++ post))
  ret : r = some pre.length

theorem insert_form (hinv : Inv T s) {op : Op α} {V' : Vars α} {r : Option Nat} (hs : Spec T op (vars s) V' r)
    {i n : Nat} (hop : op.Inserts i n) : ∃ o func vs pre post W, InsertForm T s V' r i n (op.run T s) o func vs pre post W := by
  have key : ∀ {xs0 : List α} {o : Storage}, vars s i = some xs0 → abs s (.var i) = some (o, xs0) →
      ∀ {pre post : List α}, xs0.length = (pre ++ post).length → o.siz = (pre ++ post).length ∧
        2 * (pre ++ post).length < szMod ∧ 10 < szMod := by
    intro xs0 o h ha pre post hl
    have := (hinv.wf.get ha).2.siz
    have := fits_contents hinv h
    have e : szMod = 2 ^ 64 := rfl
    omega
  cases hop with
  | @pushBack _ x =>
    cases hs with
    | @pushBack _ _ v xs _ V1 hx h1 =>
      obtain ⟨a, W, hres, hW, hF, hV⟩ := Src1.resolve_spec hinv.wf hx
      obtain ⟨xs0, hx0, hlen⟩ := alive_of_len (takes1_len hx i) h1
      obtain ⟨o, habs⟩ := vars_some hx0
      obtain ⟨ho, hg⟩ := hinv.wf.get habs
      obtain ⟨k1, k2, k3⟩ := key hx0 habs (pre := xs) (post := []) (by simpa using hlen)
      refine ⟨o, _, [v], xs, [], W, ho, ?_, hW, hF, rfl, abs_of_vars hV (by simpa using h1) ho, ?_, ?_, rfl⟩
      · refine (M.bind_ok hres).trans ?_
        refine M.bind_congr ?_
        unfold pushBack
        mstep (end_ok ho)
        rw [hg.siz, hlen]; rfl
      · simp at k1 k2 ⊢; omega
      · rw [hV]; simp
  | @emplace _ p x =>
    cases hs with
    | @emplace _ _ v pre post _ V1 hx h1 =>
      obtain ⟨a, W, hres, hW, hF, hV⟩ := Src1.resolve_spec hinv.wf hx
      obtain ⟨xs0, hx0, hlen⟩ := alive_of_len (takes1_len hx i) h1
      obtain ⟨o, habs⟩ := vars_some hx0
      obtain ⟨ho, hg⟩ := hinv.wf.get habs
      obtain ⟨k1, k2, k3⟩ := key hx0 habs (pre := pre) (post := post) hlen
      refine ⟨o, _, [v], pre, post, W, ho, ?_, hW, hF, rfl, abs_of_vars hV h1 ho, ?_, ?_, rfl⟩
      · refine (M.bind_ok hres).trans ?_
        exact M.bind_ok (pos_ok ho)
      · rw [k1]; simp only [List.length_singleton]; omega
      · rw [hV]
  | @insertFill _ p n x =>
    cases hs with
    | @insertFill _ _ _ v pre post _ hx h1 hfit =>
      obtain ⟨a, ha, hav⟩ := Src.resolve_spec hinv.wf hx
      obtain ⟨o, habs⟩ := vars_some h1
      obtain ⟨ho, hg⟩ := hinv.wf.get habs
      refine ⟨o, _, List.replicate n v, pre, post, fun x => x, ho, ?_, Mut.id hinv.wf,
        Fills.copies hinv.wf (ArgVals.replicate hav n), List.length_replicate, habs, ?_, rfl, rfl⟩
      · refine (M.bind_ok ha).trans ?_
        refine (M.bind_ok (pos_ok ho)).trans ?_
        rw [List.length_replicate]; rfl
      · rw [hg.siz, List.length_replicate]; exact hfit
  | @insertRange _ p rg =>
    cases hs with
    | @insertRange _ _ vs pre post _ V1 hr h1 hfit =>
      obtain ⟨as, W, hres, hlen', hW, hF, hV⟩ := Rng.resolve_spec hinv.wf hr
      obtain ⟨xs0, hx0, hlen⟩ := alive_of_len (takes_len hr i) h1
      obtain ⟨o, habs⟩ := vars_some hx0
      obtain ⟨ho, hg⟩ := hinv.wf.get habs
      obtain ⟨k1, k2, k3⟩ := key hx0 habs (pre := pre) (post := post) hlen
      refine ⟨o, _, vs, pre, post, W, ho, ?_, hW, hF, hr.length, abs_of_vars hV h1 ho, ?_, ?_, rfl⟩
      · refine (M.bind_ok hres).trans ?_
        refine (M.bind_ok (pos_ok ho)).trans ?_
        rw [← hlen']; rfl
      · rw [k1]; exact hfit
      · rw [hV]

/-- outcome of an inserting call, with storage details -/
def InsertOut (T : Elem α) (s : St α Storage) (V' : Vars α) (i n : Nat) (o : Storage)
    (res : Out (St α Storage) (Option Nat)) : Prop :=
  match res with
  | .ok _ s' => Inv T s' ∧ ∃ ys, V' i = some ys ∧ ys.length = o.siz + n ∧
      if o.siz + n ≤ o.cap then
        s'.moves = s.moves ∧ s'.nblk = s.nblk ∧ abs s' (.var i) = some ({ o with siz := o.siz + n }, ys)
      else ¬ o.siz + max o.siz n > T.maxCapacity ∧ s'.moves = s.moves + o.siz ∧
        abs s' (.var i) =
          some ({ dealloc := some s.nblk, ptr := some s.nblk, cap := capFor (o.siz + max o.siz n), siz := o.siz + n }, ys)
  | .exc e s' => Same s s' ∧
      Thrown s (o.cap < o.siz + n ∧ o.siz + max o.siz n > T.maxCapacity) (o.cap < o.siz + n) e s'
  | _ => False

theorem insert_out (hinv : Inv T s) {op : Op α} {V' : Vars α} {r : Option Nat} (hs : Spec T op (vars s) V' r)
    {i n : Nat} (hop : op.Inserts i n) {o : Storage} (ho : s.obj (.var i) = some o) :
    InsertOut T s V' i n o (op.run T s) := by
  have hst := step hinv hs
  obtain ⟨o', func, vs, pre, post, W, hf⟩ := insert_form hinv hs hop
  obtain rfl : o' = o := by have := hf.obj.symm.trans ho; cases this; rfl
  have hins := insertImpl_spec hinv.wf (abs_of_obj ho) (off := pre.length) hf.hmut hf.fills hf.abs1
    (by rw [(hf.hmut.wf.get hf.abs1).2.siz]; simp) hf.fit
  rw [List.take_left, List.drop_left, hf.len] at hins
  have hsz : o'.siz = (pre ++ post).length := (hf.hmut.wf.get hf.abs1).2.siz
  have hlen : (pre ++ vs ++ post).length = o'.siz + n := by
    rw [hsz, ← hf.len]; simp only [List.length_append]; omega
  have hrun := hf.run
  rw [hf.len] at hrun
  cases hm : insertImpl T (.var i) ⟨o'.ptr, pre.length⟩ n func s with
  | ok a s' =>
    rw [hm] at hins
    obtain ⟨hw', ha', hq⟩ := hins
    have hq2 : ∃ o2 : Storage, s'.obj (.var i) = some o2 ∧ a = ⟨o2.ptr, pre.length⟩ := by
      split at hq
      · exact ⟨_, obj_of_upd hq.2.2, hq.1⟩
      · exact ⟨_, obj_of_upd hq.2.2.2, hq.2.1⟩
    obtain ⟨o2, ho2, rfl⟩ := hq2
    have e : offset i ⟨o2.ptr, pre.length⟩ s' = .ok (some pre.length) s' := by
      unfold offset
      mstep (data_ok ho2)
      mstep (distance_ok (by rfl) (by exact Nat.zero_le _))
      rfl
    have e2 : op.run T s = .ok (some pre.length) s' := by
      rw [hrun, M.bind_ok hm, e]
    rw [e2] at hst ⊢
    refine ⟨hst.1.1, pre ++ vs ++ post, by rw [hf.vars', upd_same], hlen, ?_⟩
    split at hq
    · rename_i hc
      rw [if_pos hc]
      exact ⟨hq.2.1.1, hq.2.1.2, by rw [hq.2.2, upd_same]⟩
    · rename_i hc
      rw [if_neg hc]
      exact ⟨hq.1, hq.2.2.1, by rw [hq.2.2.2, upd_same]⟩
  | exc e s' =>
    rw [hm] at hins
    rw [hrun, M.bind_exc hm]
    exact hins
  | ub => rw [hm] at hins; exact hins.elim
  | term => rw [hm] at hins; exact hins.elim

theorem abs_at {s' : St α Storage} {A} {i : Id} {p} (h : abs s' = upd A i p) : abs s' i = p := by rw [h, upd_same]

/-- a call that returns nothing always succeeds and keeps the buffer -/
theorem shrink_glue (hinv : Inv T s) {op : Op α} {V' : Vars α} (hs : Spec T op (vars s) V' none)
    {i : Nat} {ys : List α} {o : Storage} {s' : St α Storage} {m : VM α Unit} (hrun : op.run T s = noRet m s)
    (hr : m s = .ok () s') (hm : s'.moves = s.moves) (ht : s'.tick = s.tick) (hnb : s'.nblk = s.nblk)
    {k : Nat} (hy : k = ys.length) (habs : abs s' (.var i) = some ({ o with siz := k }, ys)) :
    op.run T s = .ok none s' ∧ Inv T s' ∧ vars s' = V' ∧ V' i = some ys ∧ s'.nblk = s.nblk ∧ s'.tick = s.tick ∧
      s'.moves = s.moves ∧ abs s' (.var i) = some ({ o with siz := ys.length }, ys) := by
  have h := step hinv hs
  have e : op.run T s = .ok none s' := by rw [hrun]; exact M.bind_ok hr
  rw [e] at h
  refine ⟨e, h.1.1, h.2.2.2.1, ?_, hnb, ht, hm, by rw [← hy]; exact habs⟩
  rw [← h.2.2.2.1]; exact vars_of_abs habs

/-- a shrinking call always succeeds and keeps the buffer -/
theorem shrink_out (hinv : Inv T s) {op : Op α} {V' : Vars α} {r : Option Nat} (hs : Spec T op (vars s) V' r)
    {i : Nat} {xs : List α} (hop : op.Shrinks xs i) {o : Storage} (ho : abs s (.var i) = some (o, xs)) :
    ∃ s' ys, op.run T s = .ok r s' ∧ Inv T s' ∧ vars s' = V' ∧ V' i = some ys ∧ s'.nblk = s.nblk ∧ s'.tick = s.tick ∧
      s'.moves = s.moves ∧ abs s' (.var i) = some ({ o with siz := ys.length }, ys) := by
  have hvi : vars s i = some xs := vars_of_abs ho
  obtain ⟨hobj, hg⟩ := hinv.wf.get ho
  have hsz := hg.siz
  have er : ∀ {f l : Nat} {m : VM α Ptr}, f ≤ l → l ≤ o.siz → op.run T s = (m >>= offset i) s →
      m s = erase T (.var i) ⟨o.ptr, f⟩ ⟨o.ptr, l⟩ s → r = some f →
      ∃ s' ys, op.run T s = .ok r s' ∧ Inv T s' ∧ vars s' = V' ∧ V' i = some ys ∧ s'.nblk = s.nblk ∧
        s'.tick = s.tick ∧ s'.moves = s.moves ∧ abs s' (.var i) = some ({ o with siz := ys.length }, ys) := by
    intro f l m hfl hl hrun hm hr
    have he := erase_spec hinv.wf ho hfl hl
    rw [← hm] at he
    have hst := step hinv hs
    cases hm' : m s with
    | ok a s' =>
      rw [hm'] at he
      obtain ⟨_, _, rfl, h1, h2, h3, h4⟩ := he
      have e : offset i ⟨o.ptr, f⟩ s' = .ok (some f) s' := by
        unfold offset
        mstep (data_ok (obj_of_upd h4))
        mstep (distance_ok (by rfl) (by exact Nat.zero_le _))
        rfl
      have e2 : op.run T s = .ok r s' := by rw [hrun, M.bind_ok hm', e, hr]
      rw [e2] at hst
      have ha := abs_at h4
      have hl' := (hst.1.1.wf.get ha).2.siz
      generalize List.take f xs ++ _ = ys at ha hl'
      refine ⟨s', ys, e2, hst.1.1, hst.2.2.2.1, ?_, h3, h2, h1, ?_⟩
      · rw [← hst.2.2.2.1]; exact vars_of_abs ha
      · rw [ha, ← hl']
    | exc e s' => rw [hm'] at he; exact he.2.elim
    | ub => rw [hm'] at he; exact he.elim
    | term => rw [hm'] at he; exact he.elim
  have rs : ∀ {n : Nat} {func : Ptr → Nat → VM α Unit}, n ≤ xs.length → Spec T op (vars s) V' none →
      op.run T s = noRet (resizeImpl T (.var i) n func) s →
      ∃ s' ys, op.run T s = .ok none s' ∧ Inv T s' ∧ vars s' = V' ∧ V' i = some ys ∧ s'.nblk = s.nblk ∧
        s'.tick = s.tick ∧ s'.moves = s.moves ∧ abs s' (.var i) = some ({ o with siz := ys.length }, ys) := by
    intro n func hn hs hrun
    by_cases hlt : n < o.siz
    · have hR := resizeImpl_shrink hinv.wf ho (func := func) hlt
      cases hm' : resizeImpl T (.var i) n func s with
      | ok a s' =>
        rw [hm'] at hR
        obtain ⟨_, _, h1, ⟨h2, h3⟩, h4⟩ := hR
        have ha : abs s' (.var i) = some ({ o with siz := n }, xs.take n) := by rw [h4, upd_same]
        exact ⟨s', _, shrink_glue hinv hs hrun hm' h1 h2 h3 (by simp; omega) ha⟩
      | exc e s' => rw [hm'] at hR; exact hR.2.elim
      | ub => rw [hm'] at hR; exact hR.elim
      | term => rw [hm'] at hR; exact hR.elim
    · obtain rfl : n = o.siz := by omega
      exact ⟨s, xs, shrink_glue hinv hs hrun (resizeImpl_same hobj) rfl rfl rfl hsz ho⟩
  cases hop with
  | erase =>
    cases hs with
    | @erase _ pre mid post _ h hm =>
      rw [hvi] at h; cases h
      simp only [List.length_append] at hsz
      refine er (l := pre.length + mid.length) (Nat.le_add_right _ _) (by omega) ?_ rfl rfl
      refine (M.bind_ok (pos_ok hobj)).trans ?_
      exact M.bind_ok (pos_ok hobj)
  | eraseOne =>
    cases hs with
    | @eraseOne _ pre x post _ h =>
      rw [hvi] at h; cases h
      simp only [List.length_append, List.length_singleton] at hsz
      refine er (l := pre.length + 1) (Nat.le_add_right _ _) (by omega) ?_ rfl rfl
      exact M.bind_ok (pos_ok hobj)
  | popBack =>
    cases hs with
    | @popBack _ ys x _ h =>
      rw [hvi] at h; cases h
      obtain ⟨s', hr, _, _, h1, ⟨h2, h3⟩, h4⟩ := popBack_spec hinv.wf ho (by simp)
      have ha := abs_at h4
      exact ⟨s', _, shrink_glue hinv (.popBack hvi) rfl hr h1 h2 h3 (by simp; simp at hsz; omega) ha⟩
  | clear =>
    cases hs with
    | @clear _ ys _ h =>
      obtain ⟨s', hr, _, _, h1, ⟨h2, h3⟩, h4⟩ := clear_spec hinv.wf ho
      have ha := abs_at h4
      exact ⟨s', [], shrink_glue hinv (.clear hvi) rfl hr h1 h2 h3 rfl ha⟩
  | @resize _ n hn =>
    obtain rfl : r = none := by cases hs <;> rfl
    exact rs hn hs rfl
  | @resizeFill _ n x hn =>
    have : ∃ v, x.Is (vars s) v ∧ r = none := by
      cases hs with
      | resizeFillShrink _ hx => exact ⟨_, hx, rfl⟩
      | resizeFillGrow _ hx _ => exact ⟨_, hx, rfl⟩
    obtain ⟨v, hx, rfl⟩ := this
    obtain ⟨a, ha, hav⟩ := Src.resolve_spec hinv.wf hx
    exact rs hn hs (M.bind_ok ha)

end Ptl.Vector

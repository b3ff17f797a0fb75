import Verif.Vector.Props.Capacity
import Verif.Progress

/-!
# C116: growing a vector step by step costs time in proportion to what is added

`St.moves` counts the elements relocated from one buffer to another (inc/ptl/vector.hpp:204-233 `insert_impl`, `resize_impl`).
-/

namespace Ptl.Vector

variable {α : Type} {T : Elem α} {s s' : St α Storage} {V V' : Vars α}

/-! ### single-pass ranges -/

/-- collecting the elements of a single-pass range costs three relocations for each, whether or not it succeeds -/
theorem pushAll_moves (vs : List α) : ∀ {s : St α Storage} (_ : WF T s) {i : Id} {o : Storage} {xs : List α} (_ : abs s i = some (o, xs)),
    match pushAll T i vs s with
    | .ok _ s' => ∃ o' ys, abs s' i = some (o', ys) ∧ s'.moves + (2 * o'.siz - o'.cap) ≤ s.moves + (2 * o.siz - o.cap) + 3 * vs.length
    | .exc _ s' => s'.moves ≤ s.moves + (2 * o.siz - o.cap) + 3 * vs.length
    | _ => True := by
  induction vs with
  | nil => intro s hw i o xs habs; exact ⟨o, xs, habs, Nat.le_refl _⟩
  | cons v vs ih =>
    intro s hw i o xs habs
    have hp := pushBack_spec hw habs (Mut.id hw) (Fills.copy hw (ArgVal.val v)) habs
    have hle := (hw.get habs).2.siz_le
    unfold pushAll
    rw [M.bind_run]
    cases hr : pushBack T i (.val v) s with
    | ok a s1 =>
      rw [hr] at hp
      obtain ⟨hw1, _, hq⟩ := hp
      obtain ⟨o1, habs1, hm1⟩ : ∃ o1, abs s1 i = some (o1, xs ++ [v]) ∧ s1.moves + (2 * o1.siz - o1.cap) ≤ s.moves + (2 * o.siz - o.cap) + 3 := by
        unfold Inserted at hq
        split at hq
        · exact ⟨_, by rw [hq.2.2, upd_same], by rw [hq.2.1.1]; simp only; omega⟩
        · exact ⟨_, by rw [hq.2.2.2, upd_same], by rw [hq.2.2.1]; simp only [capFor]; omega⟩
      have h2 := ih hw1 habs1
      simp only
      cases hr2 : pushAll T i vs s1 with
      | ok _ s2 =>
        rw [hr2] at h2
        obtain ⟨o2, ys, habs2, hm2⟩ := h2
        exact ⟨o2, ys, habs2, by simp only [List.length_cons]; omega⟩
      | exc e s2 =>
        rw [hr2] at h2
        simp only [List.length_cons] at h2 ⊢
        omega
      | ub => trivial
      | term => trivial
    | exc e s1 =>
      rw [hr] at hp
      have := hp.2.1
      simp only
      omega
    | ub => trivial
    | term => trivial

/-- the relocations of a constructor taking a single-pass range -/
theorem ctorInput_moves (hw : WF T s) {i : Id} (hi : s.obj i = none) {n : Nat} (hn : s.ntmp ≤ n) (hk : ∀ k, i = .tmp k → k < n) (vs : List α) :
    match ctorInput T i vs { s with ntmp := n } with
    | .ok _ s' => s'.moves ≤ s.moves + 3 * vs.length
    | .exc _ s' => s'.moves ≤ s.moves + 3 * vs.length
    | _ => True := by
  have hc := new_commit hw hi hn hk
  have habs : abs { s with obj := upd s.obj i (some {}), ntmp := n } i = some (({} : Storage), ([] : List α)) := by rw [hc.2, upd_same]
  have hb := pushAll_moves vs hc.1 habs
  have hs := pushAll_spec vs hc.1 habs
  unfold ctorInput construct
  rw [M.bind_ok (newObj_ok (s := { s with ntmp := n }) hi)]
  cases hr : pushAll T i vs { s with obj := upd s.obj i (some {}), ntmp := n } with
  | ok a s' =>
    rw [hr] at hb
    rw [M.onExc_ok hr]
    obtain ⟨o', ys, _, hm⟩ := hb
    simp only at hm ⊢
    omega
  | exc e s' =>
    rw [hr] at hb hs
    obtain ⟨h1, h2, h3, ⟨p, h4⟩, h5⟩ := hs
    obtain ⟨s'', hd, _, _, hm, _⟩ := dtor_spec (i := i) (o := p.1) (xs := p.2) h1 (by rw [h4, upd_same])
    rw [M.onExc_exc hr (show Storage.dtor i s' = .ok () s'' from hd)]
    simp only at hb ⊢
    omega
  | ub f => rw [hr] at hs; exact hs.elim
  | term => rw [hr] at hs; exact hs.elim

/-- outcome of inserting a single-pass range, with storage details -/
theorem insertInput_moves (hw : WF T s) {i : Id} {o : Storage} {xs : List α} (habs : abs s i = some (o, xs)) (vs : List α) {off : Nat}
    (hoff : off ≤ o.siz) (hn : o.siz + vs.length < szMod) :
    match insertInput T i ⟨o.ptr, off⟩ vs s with
    | .ok _ s' => ∃ o' ys, abs s' i = some (o', ys) ∧ s'.moves + (2 * o'.siz - o'.cap) ≤ s.moves + (2 * o.siz - o.cap) + 6 * vs.length
    | .exc _ s' => s'.moves ≤ s.moves + 3 * vs.length
    | _ => True := by
  have hf := hw.freshT _ (Nat.le_refl _)
  have hi := (hw.get habs).1
  have hle := (hw.get habs).2.siz_le
  have hit : i ≠ .tmp s.ntmp := by rintro rfl; rw [hf] at hi; cases hi
  have h1 := ctorInput_any hw hf (n := s.ntmp + 1) (Nat.le_succ _) (by intro k h; cases h; omega) vs
  have hm1 := ctorInput_moves hw hf (n := s.ntmp + 1) (Nat.le_succ _) (by intro k h; cases h; omega) vs
  unfold insertInput withVector
  simp only
  rw [M.bind_run]
  cases hr : ctorInput T (.tmp s.ntmp) vs { s with ntmp := s.ntmp + 1 } with
  | ok a s1 =>
    rw [hr] at h1 hm1
    obtain ⟨hw1, ha1, _, ot, habs1⟩ := h1
    simp only at hm1 ⊢
    have habst : abs s1 (.tmp s.ntmp) = some (ot, vs) := by rw [habs1, upd_same]
    obtain ⟨hit1, hgt⟩ := hw1.get habst
    have habsi : abs s1 i = some (o, xs) := by rw [habs1, upd_ne _ _ hit, habs]
    obtain ⟨W, zs, hM, hF, hA⟩ : ∃ W zs, Mut T s1 W ∧
        Fills s1 (fun p => uninitLoop T p p (moveRange ⟨ot.ptr, 0⟩ ot.siz)) vs W ∧
        abs { s1 with blk := W s1.blk } = upd (abs s1) (.tmp s.ntmp) (some (ot, zs)) := by
      cases hp : ot.ptr with
      | none =>
        obtain ⟨rfl, rfl⟩ := hgt.null hp
        exact ⟨fun x => x, [], Mut.id hw1, Fills.copies hw1 ArgVals.nil, by rw [upd_eq _ _ _ habst]⟩
      | some c =>
        have h := movedOut_spec hw1 habst hp (kc := 0) (m := vs.length) (by omega)
        simp only [List.drop_zero, List.take_length, List.take_zero, List.nil_append, Nat.zero_add, List.drop_length,
          List.append_nil] at h
        refine ⟨_, _, h.1, ?_, h.2.2⟩
        rw [hgt.siz]
        exact Fills.moves hw1 h.2.1
    have hsz : ot.siz = vs.length := hgt.siz
    have hins := insertImpl_spec hw1 habsi (off := off) hM hF
      (xs1 := xs) (by rw [hA, upd_ne _ _ hit, habsi]) hoff hn
    have hbody : (do
        let p ← data (.tmp s.ntmp)
        let n ← size (.tmp s.ntmp)
        insertRange T i ⟨o.ptr, off⟩ (moveRange p n) : VM α Ptr) s1 =
        insertImpl T i ⟨o.ptr, off⟩ vs.length (fun p => uninitLoop T p p (moveRange ⟨ot.ptr, 0⟩ ot.siz)) s1 := by
      refine (M.bind_ok (data_ok hit1)).trans ((M.bind_ok (size_ok hit1)).trans ?_)
      unfold insertRange
      rw [show (moveRange ⟨ot.ptr, 0⟩ ot.siz : List (Arg α)).length = vs.length by simp [moveRange, hsz]]
      rfl
    cases hr2 : insertImpl T i ⟨o.ptr, off⟩ vs.length (fun p => uninitLoop T p p (moveRange ⟨ot.ptr, 0⟩ ot.siz)) s1 with
    | ok r s2 =>
      rw [hr2] at hins
      obtain ⟨hw2, _, hq⟩ := hins
      have key : ∃ o' ys, abs s2 = upd (abs { s1 with blk := W s1.blk }) i (some (o', ys)) ∧
          s2.moves + (2 * o'.siz - o'.cap) ≤ s1.moves + (2 * o.siz - o.cap) + 3 * vs.length := by
        split at hq
        · exact ⟨_, _, hq.2.2, by rw [hq.2.1.1]; simp only; omega⟩
        · exact ⟨_, _, hq.2.2.2, by rw [hq.2.2.1]; simp only [capFor]; omega⟩
      obtain ⟨o', ys, habs2, hm2⟩ := key
      obtain ⟨s3, hd, _, _, hm3, _, _, _, habs3⟩ := dtor_spec (i := .tmp s.ntmp) (o := ot) (xs := zs) hw2
        (by rw [habs2, upd_ne _ _ (Ne.symm hit), hA, upd_same])
      rw [M.withDtor_ok (hbody.trans hr2) (show Storage.dtor (.tmp s.ntmp) s2 = .ok () s3 from hd)]
      exact ⟨o', ys, by rw [habs3, upd_ne _ _ hit, habs2, upd_same], by omega⟩
    | exc e s2 =>
      rw [hr2] at hins
      obtain ⟨hs, ht⟩ := hins
      obtain ⟨s3, hd, _, _, hm3, _⟩ := dtor_spec (i := .tmp s.ntmp) (o := ot) (xs := vs) (hs.wf hw1) (by rw [hs.abs, habst])
      rw [M.withDtor_exc (hbody.trans hr2) (show Storage.dtor (.tmp s.ntmp) s2 = .ok () s3 from hd)]
      have := ht.1
      simp only
      omega
    | ub => rw [hr2] at hins; exact hins.elim
    | term => rw [hr2] at hins; exact hins.elim
  | exc e s1 => rw [hr] at hm1; exact hm1
  | ub => trivial
  | term => trivial

/-- relocations of a call of `insert` with a single-pass range -/
theorem input_out (hinv : Inv T s) {i p : Nat} {vs : List α} {r : Option Nat} (hs : Spec T (.insertInput i p vs) (vars s) V' r)
    {o : Storage} {xs : List α} (ho : abs s (.var i) = some (o, xs)) :
    match (Op.insertInput i p vs).run T s with
    | .ok _ s' => ∃ o' ys, abs s' (.var i) = some (o', ys) ∧
        s'.moves + (2 * ys.length - o'.cap) ≤ s.moves + (2 * xs.length - o.cap) + 6 * vs.length
    | .exc _ s' => abs s' (.var i) = some (o, xs) ∧ s'.moves ≤ s.moves + 3 * vs.length
    | _ => True := by
  obtain ⟨hobj, hg⟩ := hinv.wf.get ho
  have hsz := hg.siz
  cases hs with
  | @insertInput _ _ pre post _ hv hf =>
    have hx : xs = pre ++ post := by have := (vars_of_abs ho).symm.trans hv; cases this; rfl
    have hoff : pre.length ≤ o.siz := by rw [hsz, hx]; simp
    have hn : o.siz + vs.length < szMod := by rw [hsz, hx]; exact hf
    have hins := insertInput_spec hinv.wf ho vs hoff hn
    have hmv := insertInput_moves hinv.wf ho vs hoff hn
    have hrun : (Op.insertInput i pre.length vs).run T s =
        (Vector.insertInput T (.var i) ⟨o.ptr, pre.length⟩ vs >>= offset i) s := M.bind_ok (pos_ok hobj)
    rw [hrun]
    cases hm : Vector.insertInput T (.var i) ⟨o.ptr, pre.length⟩ vs s with
    | ok a s1 =>
      rw [hm] at hins hmv
      obtain ⟨hw1, _, _, o', rfl, _, _, h4⟩ := hins
      have e : (Vector.insertInput T (.var i) ⟨o.ptr, pre.length⟩ vs >>= offset i) s = .ok (some pre.length) s1 := by
        rw [M.bind_ok hm]
        unfold offset
        mstep (data_ok (obj_of_upd h4))
        mstep (distance_ok (by rfl) (by exact Nat.zero_le _))
        rfl
      rw [e]
      obtain ⟨o2, ys, ha, hle⟩ := hmv
      have := (hw1.get ha).2.siz
      exact ⟨o2, ys, ha, by omega⟩
    | exc e s1 =>
      rw [hm] at hins hmv
      rw [M.bind_exc hm]
      exact ⟨by rw [hins.1.abs, ho], hmv⟩
    | ub f => rw [M.bind_ub hm]; trivial
    | term => rw [M.bind_term hm]; trivial

/-- any number of insertions into vector `i` (at any positions, of any numbers of elements, by `push_back`, `emplace` and `insert`, some of
which may throw) and removals from it (`erase`, `pop_back`, `clear`, `resize` to a smaller size), adding `N` elements altogether; elements
of a single-pass range count twice, as they are collected before they are inserted (and once if the insertion throws) -/
inductive Mixed (T : Elem α) (i : Nat) (s : St α Storage) (V : Vars α) : Nat → St α Storage → Vars α → Prop
  | none : Mixed T i s V 0 s V
  | insert {N n s1 V1 s2 V2 op r r'} : Mixed T i s V N s1 V1 → Spec T op V1 V2 r → op.Inserts i n → op.run T s1 = .ok r' s2 →
      Mixed T i s V (N + n) s2 V2
  | remove {N s1 V1 s2 V2 op r r' xs} : Mixed T i s V N s1 V1 → Spec T op V1 V2 r → V1 i = some xs → op.Shrinks xs i →
      op.run T s1 = .ok r' s2 → Mixed T i s V N s2 V2
  | thrown {N n s1 V1 s2 V2 op r e} : Mixed T i s V N s1 V1 → Spec T op V1 V2 r → op.Inserts i n → op.run T s1 = .exc e s2 →
      Mixed T i s V N s2 V1
  | input {N s1 V1 s2 V2 p vs r r'} : Mixed T i s V N s1 V1 → Spec T (.insertInput i p vs) V1 V2 r →
      (Op.insertInput i p vs).run T s1 = .ok r' s2 → Mixed T i s V (N + 2 * vs.length) s2 V2
  | inputThrown {N s1 V1 s2 V2 p vs r e} : Mixed T i s V N s1 V1 → Spec T (.insertInput i p vs) V1 V2 r →
      (Op.insertInput i p vs).run T s1 = .exc e s2 → Mixed T i s V (N + vs.length) s2 V1

theorem Mixed.reach {i N : Nat} (hp : Mixed T i s V N s' V') (h : Reach T s V) : Reach T s' V' := by
  induction hp with
  | none => exact h
  | insert _ hs _ hr ih => exact ih.ok hs hr
  | remove _ hs _ _ hr ih => exact ih.ok hs hr
  | thrown _ hs _ hr ih => exact ih.thrown hs hr
  | input _ hs hr ih => exact ih.ok hs hr
  | inputThrown _ hs hr ih => exact ih.thrown hs hr

/-- calls that can only remove elements do not make the vector longer -/
theorem Spec.shrinks_le {op : Op α} {r : Option Nat} {i : Nat} {xs ys : List α} (hs : Spec T op V V' r) (hop : op.Shrinks xs i)
    (hi : V i = some xs) (hi' : V' i = some ys) : ys.length ≤ xs.length := by
  cases hop <;> cases hs <;> simp_all <;> subst_vars <;> simp_all <;> omega

/-- twice the number of elements that do not fit into the other half of the buffer has been saved up for the next relocation -/
theorem Mixed.saved {i N : Nat} (hp : Mixed T i s V N s' V') (h : Reach T s V) {xs : List α} (h0 : V i = some xs) :
    ∃ d c ys, Shows s' i d c ys ∧ s'.moves + (2 * ys.length - c) ≤ s.moves + xs.length + 3 * N := by
  induction hp with
  | none =>
    obtain ⟨d, c, hsh⟩ := h.shows h0
    have := (C05_capacity h hsh).1
    exact ⟨d, c, xs, hsh, by omega⟩
  | @insert N n s1 V1 s2 V2 op r r' hp hs hop hr ih =>
    obtain ⟨d, c, ys, hsh, hi⟩ := ih
    obtain ⟨hinv, rfl⟩ := (hp.reach h).inv
    obtain ⟨o, ho, rfl, rfl⟩ := hinv.of_shows hsh
    have hg := hinv.wf.get ho
    have hsz := hg.2.siz
    have hout := insert_out hinv hs hop hg.1
    rw [hr] at hout
    obtain ⟨hinv', zs, _, h3, h4⟩ := hout
    split at h4
    · refine ⟨_, _, zs, hinv'.shows h4.2.2, ?_⟩
      rw [h4.1]
      show s1.moves + (2 * zs.length - o.cap) ≤ _
      omega
    · refine ⟨_, _, zs, hinv'.shows h4.2.2, ?_⟩
      rw [h4.2.1]
      simp only [capFor]
      omega
  | @remove N s1 V1 s2 V2 op r r' ws hp hs hw hop hr ih =>
    obtain ⟨d, c, ys, hsh, hi⟩ := ih
    obtain ⟨hinv, rfl⟩ := (hp.reach h).inv
    obtain ⟨o, ho, rfl, rfl⟩ := hinv.of_shows hsh
    obtain rfl : ws = ys := by have := hw.symm.trans (vars_of_abs ho); cases this; rfl
    obtain ⟨s3, zs, h1, h2, _, h4, _, _, h7, h8⟩ := shrink_out hinv hs hop ho
    rw [hr] at h1
    cases h1
    refine ⟨_, _, zs, h2.shows h8, ?_⟩
    rw [h7]
    have hle : zs.length ≤ ws.length := hs.shrinks_le hop hw h4
    show s1.moves + (2 * zs.length - o.cap) ≤ _
    omega
  | @thrown N n s1 V1 s2 V2 op r e hp hs hop hr ih =>
    obtain ⟨d, c, ys, hsh, hi⟩ := ih
    obtain ⟨hinv, rfl⟩ := (hp.reach h).inv
    obtain ⟨o, ho, rfl, rfl⟩ := hinv.of_shows hsh
    have hout := insert_out hinv hs hop (hinv.wf.get ho).1
    have hinv2 := ((hp.reach h).thrown hs hr).inv.1
    rw [hr] at hout
    refine ⟨_, _, ys, hinv2.shows (o := o) (by rw [hout.1.abs, ho]), ?_⟩
    rw [hout.2.1]
    exact hi
  | @input N s1 V1 s2 V2 p vs r r' hp hs hr ih =>
    obtain ⟨d, c, ys, hsh, hi⟩ := ih
    obtain ⟨hinv, rfl⟩ := (hp.reach h).inv
    obtain ⟨o, ho, rfl, rfl⟩ := hinv.of_shows hsh
    have hout := input_out hinv hs ho
    have hinv2 := ((hp.reach h).ok hs hr).inv.1
    rw [hr] at hout
    obtain ⟨o', zs, ha, hle⟩ := hout
    exact ⟨_, _, zs, hinv2.shows ha, by omega⟩
  | @inputThrown N s1 V1 s2 V2 p vs r e hp hs hr ih =>
    obtain ⟨d, c, ys, hsh, hi⟩ := ih
    obtain ⟨hinv, rfl⟩ := (hp.reach h).inv
    obtain ⟨o, ho, rfl, rfl⟩ := hinv.of_shows hsh
    have hout := input_out hinv hs ho
    have hinv2 := ((hp.reach h).thrown hs hr).inv.1
    rw [hr] at hout
    exact ⟨_, _, ys, hinv2.shows hout.1, by have := hout.2; omega⟩

/-- C116 (part): insertions and removals, in any order and at any positions, relocate at most three elements for each element inserted, and
each element that was there in the beginning once (elements of single-pass ranges count twice).  Missing: growing by `resize`, see
`C116_refuted`. -/
theorem C116_partial {i N : Nat} (hp : Mixed T i s V N s' V') (h : Reach T s V) {xs : List α} (h0 : V i = some xs) :
    s'.moves ≤ s.moves + xs.length + 3 * N := by
  obtain ⟨d, c, ys, _, hi⟩ := hp.saved h h0
  omega

-- five elements are inserted into the demo vector, one of them is removed, and one more is appended
example : ∃ (s s' : St Nat Storage) (V' : Vars Nat), Reach natElem s demoV ∧ Mixed natElem 0 s demoV 6 s' V' ∧ V' 0 = some [1, 9, 9, 9, 9, 9, 2, 8] := by
  obtain ⟨s, h, ho⟩ := demo
  have short : ∀ (xs : List Nat), xs.length ≤ 1000 → ∀ (V : Vars Nat), (∀ i ys, V i = some ys → ys.length ≤ 1000) → ∀ i ys, upd V 0 (some xs) i = some ys → ys.length ≤ 1000 := by
    intro xs hx V hV i ys hi
    simp only [upd] at hi
    split at hi
    · cases hi; exact hx
    · exact hV i ys hi
  have l1 := short [1, 9, 9, 9, 9, 9, 2, 3] (by decide) demoV demoV_len
  have l2 := short [1, 9, 9, 9, 9, 9, 2] (by decide) _ l1
  have l3 := short [1, 9, 9, 9, 9, 9, 2, 8] (by decide) _ l2
  have sp1 : Spec natElem (.insertFill 0 1 5 (.val 9)) demoV (upd demoV 0 (some [1, 9, 9, 9, 9, 9, 2, 3])) (some 1) :=
    Spec.insertFill (pre := [1]) (post := [2, 3]) (.val 9) rfl (by decide)
  obtain ⟨s1, r1, h1, o1⟩ := h.next sp1 ho (demo_short l1 (by intro i n h; cases h))
  have sp2 : Spec natElem (.popBack 0) (upd demoV 0 (some [1, 9, 9, 9, 9, 9, 2, 3])) (upd (upd demoV 0 (some [1, 9, 9, 9, 9, 9, 2, 3])) 0 (some [1, 9, 9, 9, 9, 9, 2])) none :=
    Spec.popBack (xs := [1, 9, 9, 9, 9, 9, 2]) rfl
  obtain ⟨s2, r2, h2, o2⟩ := h1.next sp2 o1 (demo_short l2 (by intro i n h; cases h))
  have sp3 : Spec natElem (.pushBack 0 (.ref (.val 8))) _ (upd (upd (upd demoV 0 (some [1, 9, 9, 9, 9, 9, 2, 3])) 0 (some [1, 9, 9, 9, 9, 9, 2])) 0 (some [1, 9, 9, 9, 9, 9, 2, 8])) (some 7) :=
    Spec.pushBack (xs := [1, 9, 9, 9, 9, 9, 2]) (.ref (.val 8)) rfl
  obtain ⟨s3, r3, h3, o3⟩ := h2.next sp3 o2 (demo_short l3 (by intro i n h; cases h))
  exact ⟨s, s3, _, h, .insert (.remove (.insert .none sp1 .insertFill r1) sp2 rfl .popBack r2) sp3 .pushBack r3, rfl⟩

-- a single-pass range of two elements is inserted into the demo vector
example : ∃ (s s' : St Nat Storage) (V' : Vars Nat), Reach natElem s demoV ∧ Mixed natElem 0 s demoV 4 s' V' ∧ V' 0 = some [1, 8, 9, 2, 3] := by
  obtain ⟨s, h, ho⟩ := demo
  have sp : Spec natElem (.insertInput 0 1 [8, 9]) demoV (upd demoV 0 (some [1, 8, 9, 2, 3])) (some 1) :=
    Spec.insertInput (pre := [1]) (post := [2, 3]) (vs := [8, 9]) rfl (by decide)
  have l : ∀ i ys, upd demoV 0 (some [1, 8, 9, 2, 3]) i = some ys → ys.length ≤ 1000 := by
    intro i ys hi
    simp only [upd] at hi
    split at hi
    · cases hi; decide
    · exact demoV_len i ys hi
  obtain ⟨s1, r1, h1, o1⟩ := h.next sp ho (demo_short l (by intro i n h; cases h))
  exact ⟨s, s1, _, h, .input .none sp r1, rfl⟩

/-- every `resize` to a greater size relocates all elements, whether or not there is spare capacity -/
theorem C116_resize (h : Reach T s V) {i n : Nat} {xs : List α} (hi : V i = some xs) (hn : xs.length < n) {r : Option Nat}
    (hr : (Op.resize i n).run T s = .ok r s') : s'.moves = s.moves + xs.length := by
  obtain ⟨hinv, rfl⟩ := h.inv
  obtain ⟨o, habs⟩ := vars_some hi
  obtain ⟨ho, hg⟩ := hinv.wf.get habs
  have hsz := hg.siz
  have hres := resizeImpl_grow hinv.wf habs (n := n) (vs := List.replicate (n - o.siz) T.dflt)
    (func := fun pos n => uninitializedValueConstructN T pos n) (by omega) (by simp) (Mut.id hinv.wf)
    (Fills.copies hinv.wf (ArgVals.replicate (.val _) _)) habs
  have e : (Op.resize i n).run T s = noRet (resizeImpl T (.var i) n fun pos n => uninitializedValueConstructN T pos n) s := rfl
  rw [e] at hr
  unfold noRet at hr
  rw [M.bind_run] at hr
  cases hm : resizeImpl T (.var i) n (fun pos n => uninitializedValueConstructN T pos n) s with
  | ok a s1 =>
    rw [hm] at hres hr
    cases hr
    rw [hres.2.2.2.1, hsz]
  | exc => rw [hm] at hr; cases hr
  | ub => rw [hm] at hr; cases hr
  | term => rw [hm] at hr; cases hr

/-- a program that appends `n` elements to vector `i`, which has `m` elements, by `v.resize(v.size() + 1)` -/
def resizes (T : Elem α) (i : Nat) : Nat → Nat → VM α Unit
  | _, 0 => pure ()
  | m, n + 1 => do
    let _ ← (Op.resize i (m + 1)).run T
    resizes T i (m + 1) n

/-- the cost of appending by `resize` -/
theorem resizes_run (i n : Nat) : ∀ {s : St α Storage} {V : Vars α} {xs : List α}, Reach T s V → V i = some xs → (∀ k, s.orc k = false) →
    xs.length + n ≤ T.maxCapacity →
    ∃ s' V', resizes T i xs.length n s = .ok () s' ∧ Reach T s' V' ∧ V' i = some (xs ++ List.replicate n T.dflt) ∧
      2 * s'.moves + n = 2 * s.moves + 2 * (xs.length * n) + n * n := by
  induction n with
  | zero => intro s V xs h hi ho hm; exact ⟨s, V, rfl, h, by simpa using hi, by simp⟩
  | succ n ih =>
    intro s V xs h hi ho hm
    have hb : T.maxCapacity ≤ ptrdiffMax := Nat.div_le_self _ _
    have hpm : ptrdiffMax = 9223372036854775807 := rfl
    obtain ⟨s1, hr, h1, o1⟩ := h.next (Spec.resizeGrow (n := 1) hi (by omega)) ho (by
      rintro (⟨j, ys, ht, hv, hl⟩ | ⟨j, n, hh, _⟩)
      · cases ht
        rw [upd_same] at hv
        cases hv
        simp [Op.room] at hl
        omega
      · cases hh)
    have hmv := C116_resize h hi (by omega) hr
    obtain ⟨s2, V2, hr2, h2, hi2, hm2⟩ := ih h1 (upd_same _ _ _) o1 (by simp; omega)
    refine ⟨s2, V2, ?_, h2, ?_, ?_⟩
    · unfold resizes
      refine (M.bind_ok hr).trans ?_
      simpa using hr2
    · rw [hi2, List.append_assoc, List.replicate_append_replicate, Nat.add_comm 1]
    · simp only [List.length_append, List.length_replicate, Nat.add_mul, Nat.mul_add, Nat.one_mul, Nat.mul_one] at hm2 ⊢
      omega

/-- C116 fails for `resize`: for every constant `C` (up to 10^17) there is a number of calls `v.resize(v.size() + 1)` on an empty vector, all of
which return normally, that relocate more than `C` elements per call. -/
theorem C116_refuted (C : Nat) (hC : C ≤ 10 ^ 17) :
    ∃ (n : Nat) (s s' : St Nat Storage) (V : Vars Nat), Reach natElem s V ∧ V 0 = some [] ∧ resizes natElem 0 0 n s = .ok () s' ∧
      s.moves + C * n < s'.moves := by
  let s : St Nat Storage := { start Nat (fun _ => false) with obj := upd (fun _ => none) (.var 0) (some {}) }
  have hs : Reach natElem s (upd (fun _ => none) 0 (some [])) :=
    .ok (op := .ctorDefault 0) (.start fun _ => false) (.ctorDefault rfl) rfl
  obtain ⟨s', V', hr, _, _, hm⟩ := resizes_run (T := natElem) 0 (2 * C + 2) hs (upd_same _ _ _) (fun _ => rfl)
    (by rw [natElem_max]; simp; omega)
  refine ⟨2 * C + 2, s, s', _, hs, upd_same _ _ _, hr, ?_⟩
  simp only [List.length_nil, Nat.zero_mul, Nat.mul_zero, Nat.add_zero] at hm
  have e : (2 * C + 2) * (2 * C + 2) = 2 * (C * (2 * C + 2)) + 2 * (2 * C + 2) := by
    rw [Nat.add_mul, Nat.mul_assoc]
  omega

end Ptl.Vector

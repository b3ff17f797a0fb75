import Verif.Vector.Demo

/-!
# C06, C08, C10, C11: capacity and reallocation
-/

namespace Ptl.Vector

variable {α : Type}

/-! ## histories used below -/

/-- `n` calls of `push_back` on variable `i` (any argument, including elements of any vector; a call may throw and the
client carries on), during which `data()` changed `k` times -/
inductive Pushes (T : Elem α) (i : Nat) : Nat → Nat → St α Storage → Vars α → St α Storage → Vars α → Prop
  | none {s V} : Pushes T i 0 0 s V s V
  | same {n k s V s1 V1 s2 V2 x r r' d c c' xs ys} : Pushes T i n k s V s1 V1 →
      Spec T (.pushBack i x) V1 V2 r → (Op.pushBack i x).run T s1 = .ok r' s2 →
      Shows s1 i d c xs → Shows s2 i d c' ys → Pushes T i (n + 1) k s V s2 V2
  | moved {n k s V s1 V1 s2 V2 x r r' d d' c c' xs ys} : Pushes T i n k s V s1 V1 →
      Spec T (.pushBack i x) V1 V2 r → (Op.pushBack i x).run T s1 = .ok r' s2 →
      Shows s1 i d c xs → Shows s2 i d' c' ys → d' ≠ d → Pushes T i (n + 1) (k + 1) s V s2 V2
  | thrown {n k s V s1 V1 s2 V2 x r e} : Pushes T i n k s V s1 V1 →
      Spec T (.pushBack i x) V1 V2 r → (Op.pushBack i x).run T s1 = .exc e s2 →
      Pushes T i (n + 1) k s V s2 V1

/-- The client calls of C10, apart from a growing `resize`: calls that do not have variable `i` as their target,
insertions into `i` that keep its size within `n`, and calls that only remove elements from `i` or assign to one. -/
inductive Within (n i : Nat) (V : Vars α) : Op α → Prop
  | other {op} : ¬ op.Targets i → Within n i V op
  | inserts {op m xs} : op.Inserts i m → V i = some xs → xs.length + m ≤ n → Within n i V op
  | input {p vs xs} : V i = some xs → xs.length + vs.length ≤ n → Within n i V (.insertInput i p vs)
  | shrinks {op xs} : V i = some xs → op.Shrinks xs i → Within n i V op
  | reserve {m} : m ≤ n → Within n i V (.reserve i m)
  | write {k v} : Within n i V (.write i k v)
  | put {k v} : Within n i V (.put i k v)

/-- a history of such calls; each may return or throw -/
inductive WithinHist (T : Elem α) (n i : Nat) : St α Storage → Vars α → St α Storage → Vars α → Prop
  | none {s V} : WithinHist T n i s V s V
  | ok {s V s1 V1 s2 V2 op r r'} : WithinHist T n i s V s1 V1 → Spec T op V1 V2 r → Within n i V1 op →
      op.run T s1 = .ok r' s2 → WithinHist T n i s V s2 V2
  | thrown {s V s1 V1 s2 V2 op r e} : WithinHist T n i s V s1 V1 → Spec T op V1 V2 r → Within n i V1 op →
      op.run T s1 = .exc e s2 → WithinHist T n i s V s2 V1

variable {T : Elem α} {s s' : St α Storage} {V V' : Vars α} {op : Op α} {r : Option Nat}

/-! ## C06 -/

/-- C06: while `size() + n ≤ capacity()`, inserting `n` elements keeps `data()` and `capacity()`, allocates no block,
and can only fail with an exception thrown by the element type. -/
theorem C06_insert_in_place (h : Reach T s V) (hs : Spec T op V V' r) {i n : Nat} (hop : op.Inserts i n)
    {d : Ptr} {c : Nat} {xs : List α} (hsh : Shows s i d c xs) (hfit : xs.length + n ≤ c) :
    match op.run T s with
    | .ok _ s' => (∃ ys, V' i = some ys ∧ Shows s' i d c ys) ∧ s'.nblk = s.nblk
    | .exc e s' => e = .user ∧ Shows s' i d c xs ∧ s'.blk = s.blk
    | _ => False := by
  obtain ⟨hinv, rfl⟩ := h.inv
  obtain ⟨o, ho, rfl, rfl⟩ := hinv.of_shows hsh
  have hg := hinv.wf.get ho
  have hsz := hg.2.siz
  have hout := insert_out hinv hs hop hg.1
  cases hr : op.run T s with
  | ok r' s' =>
    rw [hr] at hout
    obtain ⟨hinv', ys, h1, h2, h3⟩ := hout
    rw [if_pos (by omega)] at h3
    have h4 := hinv'.shows h3.2.2
    exact ⟨⟨ys, h1, h4⟩, h3.2.1⟩
  | exc e s' =>
    rw [hr] at hout
    refine ⟨?_, hout.1.inv hinv |>.shows (o := o) (by rw [hout.1.abs, ho]), hout.1.blk⟩
    rcases hout.2.2 with h | h | h
    · omega
    · omega
    · exact h.1
  | ub => rw [hr] at hout; exact hout.elim
  | term => rw [hr] at hout; exact hout.elim

/-- C06: the same for single-pass input ranges, which are first gathered in a temporary vector (so memory for that
temporary may be unavailable), but never touch the buffer of the target. -/
theorem C06_insert_input_in_place (h : Reach T s V) {i : Nat} {vs pre post : List α} {d : Ptr} {c : Nat}
    (hsh : Shows s i d c (pre ++ post)) (hfit : (pre ++ post).length + vs.length ≤ c) {r' : Option Nat}
    (hr : (Op.insertInput i pre.length vs).run T s = .ok r' s') :
    r' = some pre.length ∧ Shows s' i d c (pre ++ vs ++ post) := by
  have hV := h.of_shows hsh
  have hc := (h.inv).1.of_shows hsh
  obtain ⟨hinv, rfl⟩ := h.inv
  obtain ⟨o, ho, rfl, rfl⟩ := hc
  obtain ⟨hobj, hg⟩ := hinv.wf.get ho
  have hsz := hg.siz
  have hle := hg.siz_le
  have hpm : ptrdiffMax = 9223372036854775807 := rfl
  have hszm : szMod = 18446744073709551616 := rfl
  have hst := step hinv (.insertInput (T := T) (vs := vs) hV (by unfold Fits; omega))
  have hins := insertInput_spec hinv.wf ho vs (off := pre.length) (by rw [hsz]; simp) (by rw [hsz]; omega)
  rw [List.take_left, List.drop_left] at hins
  rw [hr] at hst
  have hrun : (Op.insertInput i pre.length vs).run T s =
      (Vector.insertInput T (.var i) ⟨o.ptr, pre.length⟩ vs >>= offset i) s := M.bind_ok (pos_ok hobj)
  rw [hrun] at hr
  cases hm : Vector.insertInput T (.var i) ⟨o.ptr, pre.length⟩ vs s with
  | ok a s1 =>
    rw [hm] at hins
    obtain ⟨_, _, _, o', rfl, h2, h3, h4⟩ := hins
    obtain ⟨h5, h6⟩ := h3 (by omega)
    have ha := abs_at h4
    have e : (Vector.insertInput T (.var i) ⟨o.ptr, pre.length⟩ vs >>= offset i) s = .ok (some pre.length) s1 := by
      rw [M.bind_ok hm]
      unfold offset
      mstep (data_ok (obj_of_upd h4))
      mstep (distance_ok (by rfl) (by exact Nat.zero_le _))
      rfl
    rw [e] at hr
    cases hr
    refine ⟨rfl, ?_⟩
    have := hst.1.1.shows ha
    rw [h5, h6] at this
    exact this
  | exc e s1 => rw [M.bind_exc hm] at hr; cases hr
  | ub => rw [M.bind_ub hm] at hr; cases hr
  | term => rw [M.bind_term hm] at hr; cases hr

/-- C06: `erase`, `pop_back`, `clear` and a shrinking `resize` always succeed, keep `data()` and `capacity()`, allocate
nothing and take no step that could fail. -/
theorem C06_shrink_in_place (h : Reach T s V) (hs : Spec T op V V' r) {i : Nat} {d : Ptr} {c : Nat} {xs : List α}
    (hop : op.Shrinks xs i) (hsh : Shows s i d c xs) :
    ∃ s' ys, op.run T s = .ok r s' ∧ V' i = some ys ∧ Shows s' i d c ys ∧ s'.nblk = s.nblk ∧ s'.tick = s.tick := by
  obtain ⟨hinv, rfl⟩ := h.inv
  obtain ⟨o, ho, rfl, rfl⟩ := hinv.of_shows hsh
  obtain ⟨s', ys, h1, h2, h3, h4, h5, h6, h7, h8⟩ := shrink_out hinv hs hop ho
  have h9 := h2.shows h8
  exact ⟨s', ys, h1, h4, h9, h5, h6⟩

-- the demo vector has spare capacity: inserting two copies of its own first element
example : ∃ s V V' r d c, Reach natElem s V ∧ Spec natElem (.insertFill 0 1 2 (.elem 0 0)) V V' r ∧
    Shows s 0 d c [1, 2, 3] ∧ [1, 2, 3].length + 2 ≤ c := by
  obtain ⟨s, h, _⟩ := demo
  obtain ⟨d, c, hsh⟩ := h.shows (i := 0) (xs := [1, 2, 3]) rfl
  refine ⟨s, demoV, _, _, d, c, h,
    .insertFill (pre := [1]) (post := [2, 3]) (.elem (ys := [1, 2, 3]) rfl rfl) rfl (by decide), hsh, ?_⟩
  obtain ⟨o, ho, rfl, rfl⟩ := h.inv.1.of_shows hsh
  have hg := (h.inv.1.wf.get ho).2
  cases hp : o.ptr with
  | none => have := (hg.null hp).2; cases this
  | some b => have := (hg.own hp).2.2.2.1; simpa using Nat.le_trans (by decide) this

/-! ## C08 -/

theorem Pushes.reach {i n k : Nat} (hp : Pushes T i n k s V s' V') (h : Reach T s V) : Reach T s' V' := by
  induction hp with
  | none => exact h
  | same _ hs hr _ _ ih => exact (ih h).ok hs hr
  | moved _ hs hr _ _ _ ih => exact (ih h).ok hs hr
  | thrown _ hs hr ih => exact (ih h).thrown hs hr

/-- what is kept by every push_back, starting from an empty vector of capacity `c0` with `m0` relocations so far -/
private def PushInv (c0 m0 n k c len moves : Nat) : Prop :=
  len ≤ n ∧ ((k = 0 ∧ c = c0 ∧ moves = m0) ∨
    (1 ≤ k ∧ 10 * 2 ^ (k - 1) ≤ c ∧ moves + 10 ≤ m0 + c ∧ (c = 10 ∨ c + 2 ≤ 2 * len)))

private theorem Pushes.inv {i n k : Nat} {d0 : Ptr} {c0 : Nat} (hp : Pushes T i n k s V s' V')
    (h : Reach T s V) (h0 : Shows s i d0 c0 []) : ∃ d c xs, Shows s' i d c xs ∧
      PushInv c0 s.moves n k c xs.length s'.moves := by
  have key : ∀ {n k : Nat} {s1 s2 : St α Storage} {V1 V2 : Vars α} {x : Src1 α} {r r' : Option Nat} {d : Ptr} {c : Nat}
      {xs : List α}, Reach T s1 V1 → Spec T (.pushBack i x) V1 V2 r → (Op.pushBack i x).run T s1 = .ok r' s2 →
      Shows s1 i d c xs → PushInv c0 s.moves n k c xs.length s1.moves →
      ∃ d' c' ys, Shows s2 i d' c' ys ∧ ((d' = d ∧ PushInv c0 s.moves (n + 1) k c' ys.length s2.moves) ∨
        (d' ≠ d ∧ PushInv c0 s.moves (n + 1) (k + 1) c' ys.length s2.moves)) := by
    intro n k s1 s2 V1 V2 x r r' d c xs h1 hs hr hsh hi
    obtain ⟨hinv, rfl⟩ := h1.inv
    obtain ⟨o, ho, rfl, rfl⟩ := hinv.of_shows hsh
    have hg := hinv.wf.get ho
    have hsz := hg.2.siz
    have hle := hg.2.siz_le
    have hout := insert_out hinv hs (.pushBack) hg.1
    rw [hr] at hout
    obtain ⟨hinv', ys, h2, h3, h4⟩ := hout
    split at h4
    · refine ⟨_, _, ys, hinv'.shows h4.2.2, .inl ⟨rfl, ?_⟩⟩
      unfold PushInv at *
      rw [h4.1]
      refine ⟨by omega, ?_⟩
      rcases hi.2 with h5 | ⟨h5, h6, h7, h8⟩
      · exact .inl h5
      · exact .inr ⟨h5, h6, h7, by show o.cap = 10 ∨ o.cap + 2 ≤ 2 * ys.length; omega⟩
    · rename_i hc
      refine ⟨_, _, ys, hinv'.shows h4.2.2, .inr ⟨?_, ?_⟩⟩
      · intro he
        have hp : o.ptr = some s1.nblk := by
          have := congrArg Ptr.blk he; exact this.symm
        exact absurd (hg.2.lt hinv.wf hp) (Nat.lt_irrefl _)
      · have hcap : o.cap = 0 ∨ 10 ≤ o.cap := by
          cases hp : o.ptr with
          | none => left; rw [(hg.2.null hp).1]
          | some b => right; exact (hg.2.own hp).2.2.2.1
        have hfull : o.siz = o.cap := by omega
        unfold PushInv at *
        rw [h4.2.1]
        simp only [capFor]
        rcases hi.2 with ⟨h5, h6, h7⟩ | ⟨h5, h6, h7, h8⟩
        · subst h5
          refine ⟨by omega, .inr ⟨by omega, ?_, ?_, ?_⟩⟩
          · simp only [Nat.zero_add, Nat.sub_self, Nat.pow_zero]; omega
          · omega
          · omega
        · have e : 2 ^ (k + 1 - 1) = 2 * 2 ^ (k - 1) := by
            obtain ⟨j, rfl⟩ : ∃ j, k = j + 1 := ⟨k - 1, by omega⟩
            simp [Nat.pow_succ, Nat.mul_comm]
          rw [e]
          refine ⟨by omega, .inr ⟨by omega, ?_, ?_, ?_⟩⟩
          · omega
          · omega
          · omega
  induction hp with
  | none => exact ⟨_, _, _, h0, Nat.le_refl _, .inl ⟨rfl, rfl, rfl⟩⟩
  | same hp hs hr hd hd' ih =>
    obtain ⟨d, c, xs, hsh, hi⟩ := ih h h0 key
    obtain ⟨d', c', ys, hsh', hi'⟩ := key (hp.reach h) hs hr hsh hi
    obtain ⟨rfl, _, _⟩ := hsh.unique hd
    obtain ⟨rfl, _, _⟩ := hsh'.unique hd'
    rcases hi' with h5 | h5
    · exact ⟨_, _, _, hsh', h5.2⟩
    · exact absurd rfl h5.1
  | moved hp hs hr hd hd' hne ih =>
    obtain ⟨d, c, xs, hsh, hi⟩ := ih h h0 key
    obtain ⟨d', c', ys, hsh', hi'⟩ := key (hp.reach h) hs hr hsh hi
    obtain ⟨rfl, _, _⟩ := hsh.unique hd
    obtain ⟨rfl, _, _⟩ := hsh'.unique hd'
    rcases hi' with h5 | h5
    · exact absurd h5.1 hne
    · exact ⟨_, _, _, hsh', h5.2⟩
  | @thrown n k s V s1 V1 s2 V2 x r e hp hs hr ih =>
    obtain ⟨d, c, xs, hsh, hi⟩ := ih h h0 key
    have h1 := hp.reach h
    have h2 := h1.thrown hs hr
    obtain ⟨hinv, rfl⟩ := h1.inv
    obtain ⟨o, ho, rfl, rfl⟩ := hinv.of_shows hsh
    have hout := insert_out hinv hs (.pushBack) (hinv.wf.get ho).1
    rw [hr] at hout
    refine ⟨_, _, xs, h2.inv.1.shows (o := o) (by rw [hout.1.abs, ho]), ?_⟩
    rw [hout.2.1]
    exact ⟨by have := hi.1; omega, hi.2⟩

/-- C08: `n` calls of `push_back` on an empty vector relocate at most `2 * n` elements in total. -/
theorem C08_amortised_constant {i n k : Nat} {d0 : Ptr} {c0 : Nat} (hp : Pushes T i n k s V s' V')
    (h : Reach T s V) (h0 : Shows s i d0 c0 []) : s'.moves ≤ s.moves + 2 * n := by
  obtain ⟨d, c, xs, _, h1, h2⟩ := hp.inv h h0
  rcases h2 with h2 | h2 <;> omega

/-- C08: `n` calls of `push_back` on an empty vector reallocate at most logarithmically often: after `k ≥ 1`
reallocations, `10 * 2^(k-1) ≤ max 10 (2*n)`. -/
theorem C08_logarithmic_reallocations {i n k : Nat} {d0 : Ptr} {c0 : Nat} (hp : Pushes T i n k s V s' V')
    (h : Reach T s V) (h0 : Shows s i d0 c0 []) (hk : 1 ≤ k) : 10 * 2 ^ (k - 1) ≤ max 10 (2 * n) := by
  obtain ⟨d, c, xs, _, h1, h2⟩ := hp.inv h h0
  rcases h2 with h2 | h2
  · omega
  · have := h2.2.1; omega

-- push_back histories of every length exist
example (n : Nat) (hn : n ≤ 1000) : ∃ (s s' : St Nat Storage) (V V' : Vars Nat) (k : Nat) (d0 : Ptr), Reach natElem s V ∧
    Shows s 0 d0 0 [] ∧ Pushes natElem 0 n k s V s' V' ∧ V' 0 = some (List.replicate n 5) := by
  let s : St Nat Storage := { start Nat (fun _ => false) with obj := upd (fun _ => none) (.var 0) (some {}) }
  have hs : Reach natElem s (upd (fun _ => none) 0 (some [])) :=
    .ok (op := .ctorDefault 0) (.start fun _ => false) (.ctorDefault rfl) rfl
  have hsh : Shows s 0 ⟨none, 0⟩ 0 [] := hs.inv.1.shows (o := {}) rfl
  have : ∃ (s' : St Nat Storage) (k : Nat),
      Pushes natElem 0 n k s (upd (fun _ => none) 0 (some [])) s' (upd (fun _ => none) 0 (some (List.replicate n 5))) ∧
      ∀ j, s'.orc j = false := by
    induction n with
    | zero => exact ⟨s, 0, .none, fun _ => rfl⟩
    | succ n ih =>
      obtain ⟨s1, k, hp, ho⟩ := ih (by omega)
      have h1 := hp.reach hs
      have hsp : Spec natElem (.pushBack 0 (.ref (.val 5))) (upd (fun _ => none) 0 (some (List.replicate n 5))) _ _ :=
        .pushBack (.ref (.val 5)) (upd_same _ _ _)
      obtain ⟨s2, hr, h2, ho2⟩ := h1.next hsp ho
        (demo_short (by
          intro i xs h; simp only [upd_upd] at h; simp only [upd] at h
          split at h
          · cases h; simp; omega
          · cases h) (by intro i n h; cases h))
      obtain ⟨d, c, hd⟩ := h1.shows (upd_same _ _ _)
      obtain ⟨d', c', hd'⟩ := h2.shows (upd_same _ _ _)
      have e : upd (upd (fun _ => none) 0 (some (List.replicate n 5))) 0 (some (List.replicate n 5 ++ [5])) =
          (upd (fun _ => none) 0 (some (List.replicate (n + 1) 5)) : Vars Nat) := by
        rw [upd_upd, ← List.replicate_succ']
      rw [e] at hsp
      by_cases hdd : d' = d
      · subst hdd; exact ⟨s2, k, .same hp hsp hr hd hd', ho2⟩
      · exact ⟨s2, k + 1, .moved hp hsp hr hd hd' hdd, ho2⟩
  obtain ⟨s', k, hp, _⟩ := this
  exact ⟨s, s', _, _, k, _, hs, hsh, hp, upd_same _ _ _⟩

/-! ## C10 -/

/-- C10: after `reserve(n)`, `capacity() ≥ n` and the contents are unchanged. -/
theorem C10_reserve (h : Reach T s V) {i n : Nat} {xs : List α} (hi : V i = some xs) (hn : n < 2 ^ 64)
    {r' : Option Nat} (hr : (Op.reserve i n).run T s = .ok r' s') : ∃ d c, Shows s' i d c xs ∧ n ≤ c := by
  have h' := h.ok (Spec.reserve hi hn) hr
  obtain ⟨d, c, hsh⟩ := h'.shows hi
  refine ⟨d, c, hsh, ?_⟩
  obtain ⟨hinv, rfl⟩ := h.inv
  obtain ⟨o, ho⟩ := vars_some hi
  obtain ⟨o', ho', rfl, rfl⟩ := h'.inv.1.of_shows hsh
  have hobj := (hinv.wf.get ho).1
  by_cases hc : n ≤ o.cap
  · have e : (Op.reserve i n).run T s = .ok none s := M.bind_ok (reserve_noop hobj hc)
    rw [e] at hr; cases hr
    rw [ho] at ho'; cases ho'; exact hc
  · have hg := reserve_grow hinv.wf ho (n := n) (by omega)
    have e : (Op.reserve i n).run T s = (reserve T (.var i) n >>= fun _ => pure none) s := rfl
    rw [e] at hr
    cases hm : reserve T (.var i) n s with
    | ok a s1 =>
      rw [hm] at hg
      rw [M.bind_ok hm] at hr; cases hr
      have ha := abs_at hg.2.2.2.2
      rw [ha] at ho'; cases ho'
      show n ≤ capFor n
      unfold capFor; omega
    | exc e s1 => rw [M.bind_exc hm] at hr; cases hr
    | ub => rw [M.bind_ub hm] at hr; cases hr
    | term => rw [M.bind_term hm] at hr; cases hr

theorem WithinHist.reach {n i : Nat} (hh : WithinHist T n i s V s' V') (h : Reach T s V) : Reach T s' V' := by
  induction hh with
  | none => exact h
  | ok _ hs _ hr ih => exact ih.ok hs hr
  | thrown _ hs _ hr ih => exact ih.thrown hs hr

theorem slotAt_state {p : Ptr} {x : Option α} (h : slotAt p s = .ok x s') : s' = s := by
  unfold slotAt at h
  split at h
  · cases h
  · split at h
    · cases h
    · split at h
      · cases h
      · cases h; rfl

theorem readAt_state {p : Ptr} {v : α} (h : readAt p s = .ok v s') : s' = s := by
  unfold readAt at h
  cases hm : slotAt p s with
  | ok x s1 =>
    rw [M.bind_ok hm] at h
    cases x with
    | none => cases h
    | some v' => cases h; exact slotAt_state hm
  | exc e s1 => rw [M.bind_exc hm] at h; cases h
  | ub => rw [M.bind_ub hm] at h; cases h
  | term => rw [M.bind_term hm] at h; cases h

theorem setSlot_obj {p : Ptr} {v : Option α} {a : Unit} (h : setSlot p v s = .ok a s') : s'.obj = s.obj := by
  unfold setSlot at h
  split at h
  · cases h
  · split at h
    · cases h
    · split at h
      · cases h; rfl
      · cases h

theorem putAt_obj {p : Ptr} {v : α} {a : Unit} (h : putAt p v s = .ok a s') : s'.obj = s.obj := by
  unfold putAt at h
  cases hm : readAt p s with
  | ok x s1 =>
    rw [M.bind_ok hm] at h
    obtain rfl := readAt_state hm
    exact setSlot_obj h
  | exc e s1 => rw [M.bind_exc hm] at h; cases h
  | ub => rw [M.bind_ub hm] at h; cases h
  | term => rw [M.bind_term hm] at h; cases h

theorem put_obj {T : Elem α} {i k : Nat} {v : α} {r : Option Nat} (h : (Op.put i k v).run T s = .ok r s') :
    s'.obj = s.obj := by
  replace h : (index (.var i) k >>= fun p => putAt p v >>= fun _ => pure none) s = .ok r s' := h
  cases ho : s.obj (.var i) with
  | none =>
    have e0 : getObj (.var i) s = .ub .deadObject := by unfold getObj; rw [ho]
    have e1 : data (.var i) s = .ub .deadObject := M.bind_ub e0
    have e : index (.var i) k s = .ub .deadObject := M.bind_ub e1
    rw [M.bind_ub e] at h; cases h
  | some o =>
    rw [M.bind_ok (index_ok ho k)] at h
    cases hm : putAt ⟨o.ptr, k⟩ v s with
    | ok a s3 => rw [M.bind_ok hm] at h; cases h; exact putAt_obj hm
    | exc e s3 => rw [M.bind_exc hm] at h; cases h
    | ub => rw [M.bind_ub hm] at h; cases h
    | term => rw [M.bind_term hm] at h; cases h

theorem writeAt_obj {p : Ptr} {v : α} {a : Unit} (h : writeAt p v s = .ok a s') : s'.obj = s.obj := by
  unfold writeAt at h
  cases hm : readAt p s with
  | ok x s1 =>
    rw [M.bind_ok hm] at h
    obtain rfl := readAt_state hm
    cases ho : s1.orc s1.tick with
    | true => rw [M.bind_exc (fallible_exc ho)] at h; cases h
    | false =>
      rw [M.bind_ok (fallible_ok ho)] at h
      unfold setSlot at h
      split at h
      · cases h
      · split at h
        · cases h
        · split at h
          · cases h; rfl
          · cases h
  | exc e s1 => rw [M.bind_exc hm] at h; cases h
  | ub => rw [M.bind_ub hm] at h; cases h
  | term => rw [M.bind_term hm] at h; cases h

/-- C10 (all size-increasing calls except `resize`): once `capacity() ≥ n`, no history of calls that keeps the size
within `n` changes `data()` or `capacity()`.  Missing for the full property: growing `resize`, which does reallocate
and can reduce the capacity, see `C10_resize_refuted`. -/
theorem C10_no_reallocation_partial {n i : Nat} (h : Reach T s V) {d : Ptr} {c : Nat} {xs : List α}
    (hsh : Shows s i d c xs) (hc : n ≤ c) (hh : WithinHist T n i s V s' V') : ∃ ys, Shows s' i d c ys := by
  have alive : ∀ {s1 s2 : St α Storage} {V1 V2 : Vars α} {op : Op α} {r r' : Option Nat} {ys : List α}, Reach T s1 V1 →
      Spec T op V1 V2 r → op.run T s1 = .ok r' s2 → ¬ op.Targets i → Shows s1 i d c ys → ∃ zs, Shows s2 i d c zs := by
    intro s1 s2 V1 V2 op r r' ys h1 hs hr ht hd
    have h2 := h1.ok hs hr
    obtain ⟨hinv, rfl⟩ := h1.inv
    have hst := step hinv hs
    rw [hr] at hst
    obtain ⟨o, ho, rfl, rfl⟩ := hinv.of_shows hd
    have e := hst.1.2 i ht
    rw [(hinv.wf.get ho).1] at e
    exact ⟨_, h2.inv.1.shows (abs_of_obj e)⟩
  induction hh with
  | none => exact ⟨xs, hsh⟩
  | @ok s1 V1 s2 V2 op r r' hp hs hw hr ih =>
    obtain ⟨ys, hd⟩ := ih
    have h1 := hp.reach h
    cases hw with
    | other ht => exact alive h1 hs hr ht hd
    | inserts hop hV hle =>
      have := h1.of_shows hd; rw [hV] at this; cases this
      have := C06_insert_in_place h1 hs hop hd (by omega)
      rw [hr] at this
      obtain ⟨⟨zs, _, h4⟩, _⟩ := this
      exact ⟨zs, h4⟩
    | input hV hle =>
      cases hs with
      | insertInput hV' _ =>
        rw [hV] at hV'; cases hV'
        have := h1.of_shows hd; rw [hV] at this; cases this
        exact ⟨_, (C06_insert_input_in_place h1 hd (by omega) hr).2⟩
    | shrinks hV hop =>
      have := h1.of_shows hd; rw [hV] at this; cases this
      obtain ⟨s3, zs, h3, _, h4, _⟩ := C06_shrink_in_place h1 hs hop hd
      rw [hr] at h3; cases h3
      exact ⟨zs, h4⟩
    | @reserve m hm =>
      obtain ⟨o, ho, rfl, rfl⟩ := h1.inv.1.of_shows hd
      have e : (Op.reserve i m).run T s1 = .ok none s1 :=
        M.bind_ok (reserve_noop (h1.inv.1.wf.get ho).1 (by omega))
      rw [e] at hr; cases hr
      exact ⟨ys, hd⟩
    | @write k v =>
      have h2 := h1.ok hs hr
      obtain ⟨hinv, rfl⟩ := h1.inv
      obtain ⟨o, ho, rfl, rfl⟩ := hinv.of_shows hd
      have hobj := (hinv.wf.get ho).1
      have e : (Op.write i k v).run T s1 = (writeAt ⟨o.ptr, k⟩ v >>= fun _ => pure none) s1 :=
        M.bind_ok (index_ok hobj k)
      rw [e] at hr
      have hobj2 : s2.obj = s1.obj := by
        cases hm : writeAt ⟨o.ptr, k⟩ v s1 with
        | ok a s3 => rw [M.bind_ok hm] at hr; cases hr; exact writeAt_obj hm
        | exc e s3 => rw [M.bind_exc hm] at hr; cases hr
        | ub => rw [M.bind_ub hm] at hr; cases hr
        | term => rw [M.bind_term hm] at hr; cases hr
      exact ⟨_, h2.inv.1.shows (abs_of_obj (by rw [hobj2]; exact hobj))⟩
    | put =>
      have h2 := h1.ok hs hr
      obtain ⟨hinv, rfl⟩ := h1.inv
      obtain ⟨o, ho, rfl, rfl⟩ := hinv.of_shows hd
      exact ⟨_, h2.inv.1.shows (abs_of_obj (by rw [put_obj hr]; exact (hinv.wf.get ho).1))⟩
  | @thrown s1 V1 s2 V2 op r e hp hs hw hr ih =>
    obtain ⟨ys, hd⟩ := ih
    have h1 := hp.reach h
    have h2 := h1.thrown hs hr
    obtain ⟨hinv, rfl⟩ := h1.inv
    have hst := step hinv hs
    rw [hr] at hst
    obtain ⟨o, ho, rfl, rfl⟩ := hinv.of_shows hd
    exact ⟨ys, h2.inv.1.shows (by rw [hst.1.abs, ho])⟩

/-- What a growing `resize` does, in every reachable state and whatever the capacity: it moves to a new buffer of
exactly `max(10, new size)` elements. -/
theorem C10_resize_always_reallocates (h : Reach T s V) {i n : Nat} {d : Ptr} {c : Nat} {xs : List α}
    (hsh : Shows s i d c xs) (hn : 0 < n) {r' : Option Nat}
    (hr : (Op.resize i (xs.length + n)).run T s = .ok r' s') :
    ∃ d', Shows s' i d' (max 10 (xs.length + n)) (xs ++ List.replicate n T.dflt) ∧ d' ≠ d := by
  obtain ⟨hinv, rfl⟩ := h.inv
  obtain ⟨o, ho, rfl, rfl⟩ := hinv.of_shows hsh
  obtain ⟨hobj, hg⟩ := hinv.wf.get ho
  have hsz := hg.siz
  have hF : Fills s (fun p => uninitializedValueConstructN T p n) (List.replicate n T.dflt) id :=
    Fills.copies hinv.wf (ArgVals.replicate (ArgVal.val T.dflt) n)
  have hgr := resizeImpl_grow hinv.wf ho (func := fun p n => uninitializedValueConstructN T p n)
    (n := xs.length + n) (vs := List.replicate n T.dflt) (by omega) (by simp; omega) (Mut.id hinv.wf)
    (by have e : xs.length + n - o.siz = n := by omega
        rw [e]; exact hF) ho
  have e : (Op.resize i (xs.length + n)).run T s = (resize T (.var i) (xs.length + n) >>= fun _ => pure none) s := rfl
  rw [e] at hr
  cases hm : resize T (.var i) (xs.length + n) s with
  | ok a s1 =>
    unfold resize at hm
    rw [hm] at hgr
    rw [M.bind_ok (by exact hm)] at hr
    cases hr
    have hst : Outcome T (.resize i (xs.length + n)) s _ _ _ := step hinv (.resizeGrow (vars_of_abs ho) ?_)
    · rw [e, M.bind_ok (by exact hm)] at hst
      refine ⟨_, hst.1.1.shows (abs_at hgr.2.2.2.2), ?_⟩
      intro he
      have hp : o.ptr = some s.nblk := by have := congrArg Ptr.blk he; exact this.symm
      exact absurd (hg.lt hinv.wf hp) (Nat.lt_irrefl _)
    · have hle : T.maxCapacity ≤ ptrdiffMax := Nat.div_le_self _ _
      have hpm : ptrdiffMax = 9223372036854775807 := rfl
      have := hgr.2.2.1
      omega
  | exc e s1 => rw [M.bind_exc hm] at hr; cases hr
  | ub => rw [M.bind_ub hm] at hr; cases hr
  | term => rw [M.bind_term hm] at hr; cases hr

/-- The full C10 fails: after `reserve(100)`, `resize(20)` moves the elements to a new buffer and reduces `capacity()`
from at least 100 to 20. -/
theorem C10_resize_refuted : ∃ (s s' : St Nat Storage) (V : Vars Nat) (d d' : Ptr) (c : Nat) (r : Option Nat),
    Reach natElem s V ∧ Shows s 0 d c [1, 2, 3] ∧ 100 ≤ c ∧ (Op.resize 0 20).run natElem s = .ok r s' ∧
      Shows s' 0 d' 20 ([1, 2, 3] ++ List.replicate 17 0) ∧ d' ≠ d := by
  obtain ⟨s, h, ho, s0, V0, r0, h0, hs0, hr0⟩ := demo_reserved
  obtain ⟨d, c, hsh, hc⟩ := C10_reserve h0 (i := 0) (n := 100) (xs := [1, 2, 3]) rfl (by decide) hr0
  obtain ⟨s', hr, h', _⟩ := h.next (Spec.resizeGrow (i := 0) (n := 17) (xs := [1, 2, 3]) rfl (by decide)) ho
    (demo_short (by
      intro i xs h; simp only [upd] at h; split at h
      · cases h; decide
      · exact demoV_len _ _ h) (by intro i n h; cases h))
  obtain ⟨d', h1, h2⟩ := C10_resize_always_reallocates h hsh (n := 17) (by decide) hr
  exact ⟨s, s', demoV, d, d', c, _, h, hsh, hc, hr, h1, h2⟩

-- a state with 100 reserved elements, and a further call within the reservation
example : ∃ s V V' r d c, Reach natElem s V ∧ Shows s 0 d c [1, 2, 3] ∧ 100 ≤ c ∧
    Spec natElem (.insertFill 0 3 90 (.elem 0 2)) V V' r ∧ Within 100 0 V (.insertFill 0 3 90 (.elem 0 2)) := by
  obtain ⟨s, h, ho, s0, V0, r0, h0, hs0, hr0⟩ := demo_reserved
  obtain ⟨d, c, hsh, hc⟩ := C10_reserve h0 (i := 0) (n := 100) (xs := [1, 2, 3]) rfl (by decide) hr0
  exact ⟨s, demoV, _, _, d, c, h, hsh, hc,
    .insertFill (pre := [1, 2, 3]) (post := []) (.elem (ys := [1, 2, 3]) rfl rfl) rfl (by decide),
    .inserts .insertFill (xs := [1, 2, 3]) rfl (by decide)⟩

/-! ## C11 -/

/-- C11: `shrink_to_fit` never changes the contents and never increases `capacity()`; an empty vector ends up without a
buffer.  It is `noexcept`: if its allocation fails the program terminates; there is no other outcome. -/
theorem C11_shrink_to_fit (h : Reach T s V) {i : Nat} {d : Ptr} {c : Nat} {xs : List α} (hsh : Shows s i d c xs) :
    match (Op.shrinkToFit i).run T s with
    | .ok _ s' => ∃ d' c', Shows s' i d' c' xs ∧ c' ≤ c ∧ (xs = [] → c' = 0 ∧ d'.blk = none) ∧
        (c' = c ∨ c' = max 10 xs.length ∨ xs = []) ∧ c' ≤ max 10 (2 * xs.length)
    | .exc _ _ => False
    | .ub _ => False
    | .term => s.orc s.tick = true ∧ xs ≠ [] := by
  obtain ⟨hinv, rfl⟩ := h.inv
  obtain ⟨o, ho, rfl, rfl⟩ := hinv.of_shows hsh
  obtain ⟨hobj, hg⟩ := hinv.wf.get ho
  have hsz := hg.siz
  have hst := step hinv (.shrinkToFit (T := T) (vars_of_abs ho))
  have hcap : (o.cap = 0 ∧ o.ptr = none ∧ xs = []) ∨ 10 ≤ o.cap := by
    cases hp : o.ptr with
    | none => left; rw [(hg.null hp).1]; exact ⟨rfl, rfl, (hg.null hp).2⟩
    | some b => right; exact (hg.own hp).2.2.2.1
  have hx : xs = [] ↔ o.siz = 0 := by rw [hsz]; exact List.length_eq_zero_iff.symm
  by_cases hc : o.cap ≤ o.siz * 2
  · have e : (Op.shrinkToFit i).run T s = .ok none s := M.bind_ok (shrinkToFit_noop hinv.wf ho hc)
    rw [e]
    refine ⟨_, _, hsh, Nat.le_refl _, fun hx' => ?_, .inl rfl, by omega⟩
    have := hx.1 hx'
    rcases hcap with h1 | h1
    · exact ⟨h1.1, h1.2.1⟩
    · omega
  · by_cases h0 : o.siz = 0
    · obtain ⟨s1, h1, h2, h3, h4, h5, h6⟩ := shrinkToFit_zero hinv.wf ho (by omega) h0
      have e : (Op.shrinkToFit i).run T s = .ok none s1 := M.bind_ok h1
      rw [e] at hst ⊢
      have hx' := hx.2 h0
      subst hx'
      exact ⟨_, _, hst.1.1.shows (abs_at h6), Nat.zero_le _, fun _ => ⟨rfl, rfl⟩, .inr (.inr rfl), Nat.zero_le _⟩
    · rcases shrinkToFit_some hinv.wf ho (by omega) h0 with ⟨h1, h2⟩ | ⟨h1, s1, h2, h3, h4, h5, h6⟩
      · have e : (Op.shrinkToFit i).run T s = .term := M.bind_term h2
        rw [e]
        exact ⟨h1, fun hx' => h0 (hx.1 hx')⟩
      · have e : (Op.shrinkToFit i).run T s = .ok none s1 := M.bind_ok h2
        rw [e] at hst ⊢
        refine ⟨_, _, hst.1.1.shows (abs_at h6), ?_, fun hx' => absurd (hx.1 hx') h0, .inr (.inl ?_), ?_⟩
        · show capFor o.siz ≤ o.cap
          unfold capFor; omega
        · show capFor o.siz = _
          unfold capFor; omega
        · show capFor o.siz ≤ _
          unfold capFor; omega

example : ∃ s V d c, Reach natElem s V ∧ Shows s 0 d c [1, 2, 3] ∧ 100 ≤ c := by
  obtain ⟨s, h, ho, s0, V0, r0, h0, hs0, hr0⟩ := demo_reserved
  obtain ⟨d, c, hsh, hc⟩ := C10_reserve h0 (i := 0) (n := 100) (xs := [1, 2, 3]) rfl (by decide) hr0
  exact ⟨s, demoV, d, c, h, hsh, hc⟩

end Ptl.Vector

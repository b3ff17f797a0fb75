import Verif.Vector.Members

/-! # The caller-supplied constructions satisfy `Fills` -/

namespace Ptl.Vector

variable {α : Type} {T : Elem α}

/-- `a` denotes the value `v`: it is `v` itself or refers to a live object with value `v` -/
inductive ArgVal (blk : Nat → Option (List (Option α))) : Arg α → α → Prop
  | val (v : α) : ArgVal blk (.val v) v
  | copy (b k : Nat) (l : List (Option α)) (v : α) (hb : blk b = some l) (hk : l[k]? = some (some v)) :
      ArgVal blk (.copy ⟨some b, k⟩) v

/-- `as` denote `vs`, one by one -/
inductive ArgVals (blk : Nat → Option (List (Option α))) : List (Arg α) → List α → Prop
  | nil : ArgVals blk [] []
  | cons {a : Arg α} {v : α} {as : List (Arg α)} {vs : List α} : ArgVal blk a v → ArgVals blk as vs →
      ArgVals blk (a :: as) (v :: vs)

theorem ArgVals.length {blk : Nat → Option (List (Option α))} {as : List (Arg α)} {vs : List α}
    (h : ArgVals blk as vs) : as.length = vs.length := by
  induction h with
  | nil => rfl
  | cons _ _ ih => simp [ih]

theorem ArgVal.upd_raw {blk : Nat → Option (List (Option α))} {a : Arg α} {v w : α} {b : Nat}
    {A B : List (Option α)} (hb : blk b = some (A ++ none :: B)) (h : ArgVal blk a v) :
    ArgVal (upd blk b (some (A ++ some w :: B))) a v := by
  cases h with
  | val => exact .val _
  | copy c k l _ hc hk =>
    by_cases hcb : c = b
    · subst hcb
      rw [hb] at hc; cases hc
      refine .copy c k (A ++ some w :: B) v (by simp) ?_
      rcases Nat.lt_trichotomy k A.length with h | h | h
      · rw [List.getElem?_append_left h] at hk ⊢; exact hk
      · subst h; simp at hk
      · rw [List.getElem?_append_right (by omega)] at hk ⊢
        obtain ⟨m, hm⟩ : ∃ m, k - A.length = m + 1 := ⟨k - A.length - 1, by omega⟩
        rw [hm] at hk ⊢
        simpa using hk
    · exact .copy c k l v (by rw [upd_ne _ _ hcb]; exact hc) hk

theorem ArgVal.upd_fresh {blk : Nat → Option (List (Option α))} {a : Arg α} {v : α} {b : Nat} {x}
    (hb : blk b = none) (h : ArgVal blk a v) : ArgVal (upd blk b x) a v := by
  cases h with
  | val => exact .val _
  | copy c k l _ hc hk =>
    refine .copy c k l v ?_ hk
    rw [upd_ne]; exact hc
    rintro rfl; rw [hb] at hc; cases hc

theorem ArgVals.imp {blk blk' : Nat → Option (List (Option α))} (h : ∀ a v, ArgVal blk a v → ArgVal blk' a v)
    {as : List (Arg α)} {vs : List α} (hs : ArgVals blk as vs) : ArgVals blk' as vs := by
  induction hs with
  | nil => exact .nil
  | cons ha _ ih => exact .cons (h _ _ ha) ih

/-- one construction from a non-moved argument -/
theorem constructAt_copy {s : St α Storage} {b k : Nat} {A B : List (Option α)} {a : Arg α} {v : α}
    (hb : s.blk b = some (A ++ none :: B)) (hk : k = A.length) (ha : ArgVal s.blk a v) :
    (s.orc s.tick = false ∧ constructAt T ⟨some b, k⟩ a s =
      .ok () { s with blk := upd s.blk b (some (A ++ some v :: B)), tick := s.tick + 1 }) ∨
    (s.orc s.tick = true ∧ constructAt T ⟨some b, k⟩ a s = .exc .user { s with tick := s.tick + 1 }) := by
  have key : ∀ (s0 : St α Storage), s0.orc = s.orc → s0.tick = s.tick → s0.blk b = some (A ++ none :: B) →
      (s.orc s.tick = false ∧ (fallible .user >>= fun _ => initAt ⟨some b, k⟩ v) s0 =
        .ok () { s0 with blk := upd s0.blk b (some (A ++ some v :: B)), tick := s0.tick + 1 }) ∨
      (s.orc s.tick = true ∧ (fallible .user >>= fun _ => initAt ⟨some b, k⟩ v) s0 =
        .exc .user { s0 with tick := s0.tick + 1 }) := by
    intro s0 ho ht hb0
    cases h : s.orc s.tick with
    | false =>
      refine .inl ⟨rfl, ?_⟩
      mstep (fallible_ok (by rw [ho, ht]; exact h))
      refine (initAt_ok (l := A ++ none :: B) (by exact hb0) (get_mid _ _ _ hk)).trans ?_
      rw [set_mid _ _ _ _ hk]
    | true =>
      refine .inr ⟨rfl, M.bind_exc (fallible_exc (by rw [ho, ht]; exact h))⟩
  cases ha with
  | val v => exact key s rfl rfl hb
  | copy c j l v hc hj =>
    rcases key s rfl rfl hb with ⟨h1, h2⟩ | ⟨h1, h2⟩
    · refine .inl ⟨h1, ?_⟩
      show (readAt _ >>= _) s = _
      mstep (readAt_ok hc hj)
      exact h2
    · refine .inr ⟨h1, ?_⟩
      show (readAt _ >>= _) s = _
      mstep (readAt_ok hc hj)
      exact h2

theorem uninitLoop_copies (args : List (Arg α)) : ∀ (s : St α Storage) (vs : List α) (b : Nat)
    (pre post : List (Option α)) (done : List α) (k0 k : Nat), ArgVals s.blk args vs →
    s.blk b = some (pre ++ lv done ++ raw args.length ++ post) → k0 = pre.length → k = pre.length + done.length →
    (∃ t, s.tick ≤ t ∧ uninitLoop T ⟨some b, k0⟩ ⟨some b, k⟩ args s =
      .ok () { s with blk := upd s.blk b (some (pre ++ lv (done ++ vs) ++ post)), tick := t }) ∨
    (∃ t, (∃ j, s.tick ≤ j ∧ j < t ∧ s.orc j = true) ∧ uninitLoop T ⟨some b, k0⟩ ⟨some b, k⟩ args s =
      .exc .user { s with blk := upd s.blk b (some (pre ++ raw (done.length + args.length) ++ post)), tick := t }) := by
  induction args with
  | nil =>
    intro s vs b pre post done k0 k hv hb hk0 hk
    cases hv
    refine .inl ⟨s.tick, Nat.le_refl _, ?_⟩
    rw [upd_eq _ _ _ (by simpa [raw] using hb)]
    rfl
  | cons a args ih =>
    intro s vs b pre post done k0 k hv hb hk0 hk
    cases hv with
    | @cons _ v _ vs ha hvs =>
    have hb' : s.blk b = some ((pre ++ lv done) ++ none :: (raw args.length ++ post)) := by
      rw [hb]; simp [raw, List.replicate_succ]
    have hk' : k = (pre ++ lv done).length := by simp [hk]
    unfold uninitLoop
    rcases constructAt_copy (T := T) hb' hk' ha with ⟨ho, h⟩ | ⟨ho, h⟩
    · rw [M.bind_ok (M.onExc_ok h)]
      have := ih { s with
          blk := upd s.blk b (some ((pre ++ lv done) ++ some v :: (raw args.length ++ post))), tick := s.tick + 1 }
        vs b pre post (done ++ [v]) k0 (k + 1)
        (hvs.imp fun a' v' h' => h'.upd_raw hb') (by simp) hk0 (by simp [hk]; omega)
      simp only [upd_upd, Ptr.add] at this ⊢
      rcases this with ⟨t, ht, h2⟩ | ⟨t, ⟨j, hj1, hj2, hj3⟩, h2⟩
      · refine .inl ⟨t, by omega, ?_⟩
        rw [h2]; simp
      · refine .inr ⟨t, ⟨j, by omega, hj2, hj3⟩, ?_⟩
        rw [h2]
        have : (done ++ [v]).length + args.length = done.length + (a :: args).length := by simp; omega
        rw [this]
    · have hd := destroyN_ok done (s := { s with tick := s.tick + 1 }) (b := b) (k := k0) pre
        (raw (args.length + 1) ++ post) (by simpa using hb) hk0
      rw [M.bind_exc (M.onExc_exc (s'' := { s with
        blk := upd s.blk b (some (pre ++ raw (done.length + (a :: args).length) ++ post)), tick := s.tick + 1 }) h ?_)]
      · exact .inr ⟨s.tick + 1, ⟨s.tick, Nat.le_refl _, Nat.lt_succ_self _, ho⟩, rfl⟩
      · rw [show k - k0 = done.length by omega]
        rw [hd]
        rw [raw_add done.length]
        simp only [List.length_cons, List.append_assoc]

theorem raw_split {l : List (Option α)} {k n : Nat} (h : ∀ j, j < n → l[k + j]? = some none) :
    l = l.take k ++ raw n ++ l.drop (k + n) := by
  have h1 : (l.drop k).take n = raw n := by
    apply List.ext_getElem?
    intro j
    rw [List.getElem?_take]
    by_cases hj : j < n
    · rw [if_pos hj, List.getElem?_drop, h j hj]
      simp [raw, hj]
    · rw [if_neg hj]
      simp [raw, hj]
  rw [← h1, List.append_assoc, ← List.drop_drop, List.take_append_drop, List.take_append_drop]

/-- Ranges and fills whose elements are copied. -/
theorem Fills.copies {s : St α Storage} (hw : WF T s) {args : List (Arg α)} {vs : List α}
    (hv : ArgVals s.blk args vs) : Fills s (fun p => uninitLoop T p p args) vs (fun x => x) := by
  refine ⟨?_, ?_⟩
  · rintro rfl
    cases hv
    exact ⟨fun _ _ => rfl, rfl⟩
  · intro s' b k l hblk horc hb hraw
    have hv' : ArgVals s'.blk args vs := by
      rcases hblk with h | ⟨c, h⟩
      · rw [h]; exact hv
      · rw [h]; exact hv.imp fun a v ha => ha.upd_fresh (hw.freshB _ (Nat.le_refl _))
    have hlen := hv.length
    by_cases h0 : vs.length = 0
    · have hvs : vs = [] := List.length_eq_zero_iff.1 h0
      subst hvs
      cases hv
      refine .inl ⟨s'.tick, l, Nat.le_refl _, hb, ?_⟩
      have : wr l k [] = l := by simp [wr]
      rw [this, upd_eq _ _ _ hb]
      rfl
    · have hsp := raw_split hraw
      have hk : k ≤ l.length := by
        have := hraw 0 (by omega)
        rcases Nat.lt_or_ge k l.length with h | h
        · omega
        · rw [Nat.add_zero, List.getElem?_eq_none h] at this; cases this
      have hkl : k = (l.take k).length := by rw [List.length_take]; omega
      have := uninitLoop_copies (T := T) args s' vs b (l.take k) (l.drop (k + vs.length)) [] k k hv'
        (by rw [hb, hlen]; simpa using hsp) hkl (by simpa using hkl)
      rcases this with ⟨t, ht, h⟩ | ⟨t, ⟨j, h1, h2, h3⟩, h⟩
      · exact .inl ⟨t, l, ht, hb, h⟩
      · refine .inr ⟨t, ⟨j, h1, h2, by rw [← horc]; exact h3⟩, ?_⟩
        rw [h]
        rw [upd_eq]
        rw [hb]
        congr 1
        simp only [List.length_nil, Nat.zero_add, hlen]
        exact hsp

theorem uninitLoop_single (p : Ptr) (a : Arg α) (s : St α Storage) :
    uninitLoop T p p [a] s = constructAt T p a s := by
  unfold uninitLoop uninitLoop
  rw [M.bind_run]
  unfold M.onExc
  cases h : constructAt T p a s with
  | ok a s' => rfl
  | exc e s' => simp
  | ub => rfl
  | term => rfl

theorem Fills.congr {s : St α Storage} {f g : Ptr → VM α Unit} {vs : List α} {W} (h : ∀ p s, f p s = g p s)
    (hF : Fills s f vs W) : Fills s g vs W := by
  have : f = g := by funext p s; exact h p s
  rw [← this]; exact hF

/-- A single construction from a non-moved argument. -/
theorem Fills.copy {s : St α Storage} (hw : WF T s) {a : Arg α} {v : α} (hv : ArgVal s.blk a v) :
    Fills s (fun p => constructAt T p a) [v] (fun x => x) :=
  (Fills.copies (T := T) hw (.cons hv .nil)).congr fun p s => uninitLoop_single p a s

/-! ### moving from elements -/

/-- overwrite slot `x` of block `b` (no effect if there is no such block) -/
def hset (blk : Nat → Option (List (Option α))) (b x : Nat) (v : Option α) : Nat → Option (List (Option α)) :=
  match blk b with
  | none => blk
  | some l => upd blk b (some (l.set x v))

theorem hset_comm (blk : Nat → Option (List (Option α))) {b x b' x' : Nat} (v v' : Option α)
    (h : ¬ (b = b' ∧ x = x')) : hset (hset blk b x v) b' x' v' = hset (hset blk b' x' v') b x v := by
  by_cases hb : b = b'
  · subst hb
    have hx : x ≠ x' := fun hx => h ⟨rfl, hx⟩
    unfold hset
    cases hl : blk b with
    | none => simp [hl]
    | some l => simp [List.set_comm _ _ hx]
  · unfold hset
    have hb' := Ne.symm hb
    cases hl : blk b <;> cases hl' : blk b' <;> simp [hl, hl', upd_ne _ _ hb, upd_ne _ _ hb']
    rw [upd_comm _ _ _ hb]

theorem hset_some {blk : Nat → Option (List (Option α))} {b : Nat} {l : List (Option α)} (h : blk b = some l)
    (x : Nat) (v : Option α) : hset blk b x v = upd blk b (some (l.set x v)) := by simp [hset, h]

/-- values `vs` written at slots `k, k+1, …` of block `b` -/
def ws (b : Nat) : Nat → List α → (Nat → Option (List (Option α))) → Nat → Option (List (Option α))
  | _, [], blk => blk
  | k, v :: vs, blk => ws b (k + 1) vs (hset blk b k (some v))

/-- the heap after the objects `vs` at slots `k, k+1, …` of block `c` have been moved from -/
def movedOut (T : Elem α) (c k : Nat) (vs : List α) (blk : Nat → Option (List (Option α))) :
    Nat → Option (List (Option α)) := ws c k (vs.map T.moved) blk

theorem ws_hset_comm (b : Nat) (vs : List α) : ∀ (k : Nat) (blk : Nat → Option (List (Option α))) (c x : Nat)
    (y : Option α), (b = c → ∀ j, j < vs.length → k + j ≠ x) →
    ws b k vs (hset blk c x y) = hset (ws b k vs blk) c x y := by
  induction vs with
  | nil => intros; rfl
  | cons v vs ih =>
    intro k blk c x y h
    show ws b (k + 1) vs (hset (hset blk c x y) b k (some v)) = hset (ws b (k + 1) vs (hset blk b k (some v))) c x y
    rw [hset_comm _ _ _ (by
      rintro ⟨rfl, rfl⟩
      exact h rfl 0 (by simp) rfl)]
    rw [ih]
    intro hb j hj
    have := h hb (j + 1) (by simpa using hj)
    omega

theorem ws_comm (b c : Nat) (us : List α) : ∀ (k x : Nat) (vs : List α) (blk : Nat → Option (List (Option α))),
    (b = c → ∀ j j', j < vs.length → j' < us.length → k + j ≠ x + j') →
    ws b k vs (ws c x us blk) = ws c x us (ws b k vs blk) := by
  induction us with
  | nil => intros; rfl
  | cons u us ih =>
    intro k x vs blk h
    show ws b k vs (ws c (x + 1) us (hset blk c x (some u))) = ws c (x + 1) us (hset (ws b k vs blk) c x (some u))
    rw [ih, ws_hset_comm]
    · intro hb j hj
      have := h hb j 0 hj (by simp)
      simpa using this
    · intro hb j j' hj hj'
      have := h hb j (j' + 1) hj (by simpa using hj')
      omega

theorem ws_eq (b : Nat) (vs : List α) : ∀ {blk : Nat → Option (List (Option α))} {A M B : List (Option α)} {k : Nat},
    blk b = some (A ++ M ++ B) → M.length = vs.length → k = A.length →
    ws b k vs blk = upd blk b (some (A ++ lv vs ++ B)) := by
  induction vs with
  | nil =>
    intro blk A M B k hb hM hk
    have : M = [] := List.length_eq_zero_iff.1 (by simpa using hM)
    subst this
    rw [upd_eq _ _ _ (by simpa using hb)]; rfl
  | cons v vs ih =>
    intro blk A M B k hb hM hk
    obtain ⟨m, M, rfl⟩ : ∃ m M', M = m :: M' := by
      cases M with
      | nil => simp at hM
      | cons m M => exact ⟨m, M, rfl⟩
    have hb' : blk b = some (A ++ m :: (M ++ B)) := by simpa using hb
    show ws b (k + 1) vs (hset blk b k (some v)) = _
    rw [hset_some hb', set_mid _ _ _ _ hk]
    rw [ih (A := A ++ [some v]) (M := M) (B := B) (by simp) (by simpa using hM) (by simp [hk])]
    simp

theorem ws_upd_fresh (c : Nat) (vs : List α) : ∀ (k : Nat) (blk : Nat → Option (List (Option α))) (n : Nat) (x),
    c ≠ n → ws c k vs (upd blk n x) = upd (ws c k vs blk) n x := by
  induction vs with
  | nil => intros; rfl
  | cons v vs ih =>
    intro k blk n x h
    show ws c (k + 1) vs (hset (upd blk n x) c k (some v)) = _
    have : hset (upd blk n x) c k (some v) = upd (hset blk c k (some v)) n x := by
      unfold hset
      rw [upd_ne _ _ h]
      cases blk c with
      | none => rfl
      | some l => simp only; rw [upd_comm _ _ _ (Ne.symm h)]
    rw [this, ih _ _ _ _ h]
    rfl

/-- slot `x` of block `b`, if it exists -/
def hget (blk : Nat → Option (List (Option α))) (b x : Nat) : Option (Option α) := (blk b).bind (·[x]?)

theorem hget_hset_ne (blk : Nat → Option (List (Option α))) {b x b' x' : Nat} (v : Option α)
    (h : ¬ (b = b' ∧ x = x')) : hget (hset blk b x v) b' x' = hget blk b' x' := by
  unfold hget hset
  cases hb : blk b with
  | none => rfl
  | some l =>
    simp only
    by_cases hbb : b' = b
    · subst hbb
      have : x ≠ x' := fun hx => h ⟨rfl, hx⟩
      simp [hb, List.getElem?_set_ne this]
    · rw [upd_ne _ _ hbb]

theorem moveRange_succ (c k m : Nat) : (moveRange ⟨some c, k⟩ (m + 1) : List (Arg α)) =
    .move ⟨some c, k⟩ :: moveRange ⟨some c, k + 1⟩ m := by
  unfold moveRange
  rw [List.range_succ_eq_map]
  simp only [List.map_cons, List.map_map, Ptr.add]
  congr 1
  apply List.map_congr_left
  intro j _
  simp only [Function.comp]
  rw [show k + 1 + j = k + j.succ by omega]

/-- a construction by move: source and destination may be in the same block -/
theorem constructAt_move {s : St α Storage} {b c k kc : Nat} {v : α}
    (hk : hget s.blk b k = some none) (hkc : hget s.blk c kc = some (some v)) :
    constructAt T ⟨some b, k⟩ (.move ⟨some c, kc⟩) s = .ok () { s with
      blk := hset (hset s.blk b k (some v)) c kc (some (T.moved v)) } := by
  unfold hget at hk hkc
  cases hb : s.blk b with
  | none => rw [hb] at hk; cases hk
  | some l =>
  cases hc : s.blk c with
  | none => rw [hc] at hkc; cases hkc
  | some lc =>
  rw [hb] at hk; rw [hc] at hkc
  simp only [Option.bind_some] at hk hkc
  have hkl : kc < lc.length := by
    rcases Nat.lt_or_ge kc lc.length with h | h
    · exact h
    · rw [List.getElem?_eq_none h] at hkc; cases hkc
  unfold constructAt
  mstep (readAt_ok hc hkc)
  mstep (initAt_ok hb hk)
  rw [hset_some hb]
  by_cases hbc : b = c
  · subst hbc
    rw [hb] at hc; cases hc
    refine (setSlot_ok (l := l.set k (some v)) (by simp) (by simpa using hkl)).trans ?_
    rw [hset_some (l := l.set k (some v)) (by simp)]
  · refine (setSlot_ok (l := lc) (by simp [upd_ne _ _ (Ne.symm hbc), hc]) hkl).trans ?_
    rw [hset_some (l := lc) (by simp [upd_ne _ _ (Ne.symm hbc), hc])]

theorem uninitLoop_moves (vs : List α) : ∀ (s : St α Storage) (b c k kc : Nat) (p0 : Ptr),
    (∀ j, j < vs.length → hget s.blk b (k + j) = some none) →
    (∀ j v, vs[j]? = some v → hget s.blk c (kc + j) = some (some v)) →
    uninitLoop T p0 ⟨some b, k⟩ (moveRange ⟨some c, kc⟩ vs.length) s =
      .ok () { s with blk := movedOut T c kc vs (ws b k vs s.blk) } := by
  induction vs with
  | nil => intros; rfl
  | cons v vs ih =>
    intro s b c k kc p0 hd hs
    have hne : ∀ j, j < (v :: vs).length → ∀ j', j' < (v :: vs).length → ¬ (b = c ∧ k + j = kc + j') := by
      rintro j hj j' hj' ⟨rfl, h⟩
      have h1 := hd j hj
      have h2 := hs j' ((v :: vs)[j']) (List.getElem?_eq_getElem hj')
      rw [h, h2] at h1; cases h1
    rw [show (v :: vs).length = vs.length + 1 from rfl, moveRange_succ]
    unfold uninitLoop
    refine (M.bind_ok (M.onExc_ok (constructAt_move (hd 0 (by simp)) (hs 0 v rfl)))).trans ?_
    have := ih { s with blk := hset (hset s.blk b k (some v)) c kc (some (T.moved v)) } b c (k + 1) (kc + 1) p0
      (by
        intro j hj
        have h1 := hd (j + 1) (by simpa using hj)
        rw [hget_hset_ne, hget_hset_ne]
        · rw [← h1]; congr 1; omega
        · rintro ⟨_, h⟩; omega
        · rintro ⟨h, h'⟩
          exact hne (j + 1) (by simpa using hj) 0 (by simp) ⟨h.symm, by omega⟩)
      (by
        intro j w hw
        have h1 := hs (j + 1) w (by simpa using hw)
        have hj : j < vs.length := by
          rcases Nat.lt_or_ge j vs.length with h | h
          · exact h
          · rw [List.getElem?_eq_none h] at hw; cases hw
        rw [hget_hset_ne, hget_hset_ne]
        · rw [← h1]; congr 1; omega
        · rintro ⟨h, h'⟩
          exact hne 0 (by simp) (j + 1) (by simpa using hj) ⟨h, by omega⟩
        · rintro ⟨_, h⟩; omega)
    refine Eq.trans this ?_
    congr 2
    show movedOut T c (kc + 1) vs (ws b (k + 1) vs (hset (hset s.blk b k (some v)) c kc (some (T.moved v)))) =
      ws c (kc + 1) (vs.map T.moved) (hset (ws b (k + 1) vs (hset s.blk b k (some v))) c kc (some (T.moved v)))
    rw [ws_hset_comm]
    · rfl
    · intro h j hj h'
      exact hne (j + 1) (by simpa using hj) 0 (by simp) ⟨h, by omega⟩

/-- the objects `vs` live at slots `kc, kc + 1, …` of block `c` -/
def LiveAt (blk : Nat → Option (List (Option α))) (c kc : Nat) (vs : List α) : Prop :=
  ∀ j v, vs[j]? = some v → hget blk c (kc + j) = some (some v)

theorem Fills.moves {s : St α Storage} (hw : WF T s) {c kc : Nat} {vs : List α} (hl : LiveAt s.blk c kc vs) :
    Fills s (fun p => uninitLoop T p p (moveRange ⟨some c, kc⟩ vs.length)) vs (movedOut T c kc vs) := by
  refine ⟨?_, ?_⟩
  · rintro rfl
    exact ⟨fun _ _ => rfl, rfl⟩
  · intro s' b k l hblk horc hb hraw
    refine .inl ?_
    have hd : ∀ j, j < vs.length → hget s'.blk b (k + j) = some none := by
      intro j hj; unfold hget; rw [hb]; exact hraw j hj
    have hs : ∀ j v, vs[j]? = some v → hget s'.blk c (kc + j) = some (some v) := by
      intro j v hv
      have h := hl j v hv
      rcases hblk with h' | ⟨x, h'⟩
      · rw [h']; exact h
      · rw [h', ← h]
        unfold hget
        rw [upd_ne]
        rintro rfl
        unfold hget at h
        rw [hw.freshB _ (Nat.le_refl _)] at h; cases h
    have hne : b = c → ∀ j j', j < vs.length → j' < (vs.map T.moved).length → k + j ≠ kc + j' := by
      rintro rfl j j' hj hj' h
      have hj'' : j' < vs.length := by simpa using hj'
      have h1 := hd j hj
      have h2 := hs j' (vs[j']) (List.getElem?_eq_getElem hj'')
      rw [h, h2] at h1; cases h1
    have hrun := uninitLoop_moves (T := T) vs s' b c k kc ⟨some b, k⟩ hd hs
    unfold movedOut at hrun ⊢
    rw [← ws_comm b c _ _ _ _ _ hne] at hrun
    -- the destination block after the sources were moved from
    obtain ⟨l1, hl1, hr1⟩ : ∃ l1, ws c kc (vs.map T.moved) s'.blk b = some l1 ∧
        ∀ j, j < vs.length → l1[k + j]? = some none := by
      have aux : ∀ (us : List α) (x : Nat) (blk : Nat → Option (List (Option α))),
          (∃ l, blk b = some l ∧ ∀ j, j < vs.length → l[k + j]? = some none) →
          (b = c → ∀ j j', j < vs.length → j' < us.length → k + j ≠ x + j') →
          ∃ l1, ws c x us blk b = some l1 ∧ ∀ j, j < vs.length → l1[k + j]? = some none := by
        intro us
        induction us with
        | nil => intro x blk h _; exact h
        | cons u us ih =>
          intro x blk ⟨l, h1, h2⟩ h
          refine ih (x + 1) (hset blk c x (some u)) ?_ ?_
          · by_cases hbc : b = c
            · subst hbc
              refine ⟨l.set x (some u), by rw [hset_some h1, upd_same], ?_⟩
              intro j hj
              rw [List.getElem?_set_ne (by have := h rfl j 0 hj (by simp); omega)]
              exact h2 j hj
            · refine ⟨l, ?_, h2⟩
              unfold hset
              cases blk c with
              | none => exact h1
              | some lc => simp only; rw [upd_ne _ _ hbc]; exact h1
          · intro hb j j' hj hj'
            have := h hb j (j' + 1) hj (by simpa using hj')
            omega
      exact aux _ _ _ ⟨l, hb, hraw⟩ hne
    refine ⟨s'.tick, l1, Nat.le_refl _, hl1, ?_⟩
    refine Eq.trans hrun ?_
    congr 2
    by_cases h0 : vs.length = 0
    · have : vs = [] := List.length_eq_zero_iff.1 h0
      subst this
      have : wr l1 k [] = l1 := by simp [wr]
      rw [this, upd_eq _ _ _ hl1]; rfl
    · have hk : k ≤ l1.length := by
        have := hr1 0 (by omega)
        rcases Nat.lt_or_ge k l1.length with h | h
        · omega
        · rw [Nat.add_zero, List.getElem?_eq_none h] at this; cases this
      exact ws_eq b vs (A := l1.take k) (M := raw vs.length) (B := l1.drop (k + vs.length))
        (by rw [hl1]; exact congrArg some (raw_split hr1)) (by simp [raw]) (by rw [List.length_take]; omega)

/-- A single construction by move. -/
theorem Fills.move {s : St α Storage} (hw : WF T s) {c kc : Nat} {v : α} (hl : LiveAt s.blk c kc [v]) :
    Fills s (fun p => constructAt T p (.move ⟨some c, kc⟩)) [v] (movedOut T c kc [v]) :=
  (Fills.moves (T := T) hw hl).congr fun p s => uninitLoop_single p _ s

/-- Moving from elements `[kc, kc + m)` of vector `j` keeps the invariant and only changes those elements. -/
theorem movedOut_spec {s : St α Storage} (hw : WF T s) {j : Id} {o : Storage} {xs : List α} {c kc m : Nat}
    (habs : abs s j = some (o, xs)) (hp : o.ptr = some c) (hm : kc + m ≤ xs.length) :
    Mut T s (movedOut T c kc ((xs.drop kc).take m)) ∧
    LiveAt s.blk c kc ((xs.drop kc).take m) ∧
    abs { s with blk := movedOut T c kc ((xs.drop kc).take m) s.blk } =
      upd (abs s) j (some (o, xs.take kc ++ ((xs.drop kc).take m).map T.moved ++ xs.drop (kc + m))) := by
  obtain ⟨hj, hg⟩ := hw.get habs
  obtain ⟨hd, hs, hle, h10, hmx, hb⟩ := hg.own hp
  have hlt := hg.lt hw hp
  have hxs : xs = xs.take kc ++ (xs.drop kc).take m ++ xs.drop (kc + m) := by
    rw [List.append_assoc, ← List.drop_drop, List.take_append_drop, List.take_append_drop]
  have hlt' : (xs.take kc).length = kc := by rw [List.length_take]; omega
  have hlm : ((xs.drop kc).take m).length = m := by rw [List.length_take, List.length_drop]; omega
  generalize hys : xs.take kc ++ ((xs.drop kc).take m).map T.moved ++ xs.drop (kc + m) = ys
  have hylen : ys.length = xs.length := by
    subst hys
    simp only [List.length_append, List.length_map, List.length_drop]; omega
  have hmo : movedOut T c kc ((xs.drop kc).take m) s.blk = upd s.blk c (some (lv ys ++ raw (o.cap - ys.length))) := by
    unfold movedOut
    rw [ws_eq c _ (A := lv (xs.take kc)) (M := lv ((xs.drop kc).take m))
      (B := lv (xs.drop (kc + m)) ++ raw (o.cap - xs.length))
      (by
        rw [hb]
        conv => lhs; rw [hxs]
        simp only [lv, List.map_append, List.append_assoc, List.length_append, List.length_drop]
        congr 5
        omega)
      (by simp [lv]) (by simp only [lv, List.length_map]; omega)]
    rw [hylen, ← hys]
    simp only [lv, List.map_append, List.append_assoc]
  have hc := commit_inplace (s' := ({ s with blk := movedOut T c kc ((xs.drop kc).take m) s.blk } : St α Storage))
    hw hj hg hp (ys := ys) (by omega) (by
      show s.obj = _
      rw [hylen, upd_eq]
      rw [hj, ← hs]) hmo rfl rfl
  refine ⟨⟨fun x => ws_upd_fresh _ _ _ _ _ _ (by omega), hc.1⟩, ?_, ?_⟩
  · intro k v hv
    unfold hget
    rw [hb]
    have hkm : k < m := by
      rcases Nat.lt_or_ge k m with h | h
      · exact h
      · rw [List.getElem?_eq_none (by omega)] at hv; cases hv
    rw [List.getElem?_take_of_lt hkm, List.getElem?_drop] at hv
    simp only [Option.bind_some]
    rw [List.getElem?_append_left (by simp [lv]; omega)]
    simp [lv, hv]
  · rw [hc.2, hylen, ← hs]

end Ptl.Vector

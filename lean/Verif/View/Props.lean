import Verif.View.Client

/-!
# C53, C54 and C27 for `string_ref`: sub-ranges are slices; comparison and hash; literals
-/

set_option linter.unusedSectionVars false

namespace Ptl.View

variable {α β : Type} {s s' : St α} {w w' : Know α} {r q b i j n o : Nat} {g : Seg} {xs : List α} {x : Option Exc} {op : Op α}
  {v : α}

/-! ### running the model -/

theorem onMem_ok {f : Mem α → Except Fault β} {y : β} (h : f s.mem = .ok y) : onMem f s = .ok y s := by simp [onMem, h]
theorem load_ok {y : Ref} (h : s.ref r = some y) : load r s = .ok y s := by simp [load, h]

/-- the representation -/
def rep : Seg → Ref
  | .nil => ⟨.null, .null⟩
  | .of b off n => ⟨.at b off, .at b (off + n : Nat)⟩

/-- the model state is what the client knows -/
structure Inv (s : St α) (w : Know α) : Prop where
  mem : s.mem = w.M
  ref : ∀ r, s.ref r = (w.R r).map rep
  bound : ∀ b xs, w.M b = some xs → xs.length ≤ ptrdiffMax

theorem Inv.at (h : Inv s w) (hr : w.R r = some g) : s.ref r = some (rep g) := by rw [h.ref, hr]; rfl

/-- the first part of a sub-range: a pointer to its `k`-th element (or past the end) -/
theorem ptr_add (h : Inv s w) (hg : w.Has (.of b o n)) {k : Nat} (hk : k ≤ n) (c : Int) (hc : c = k) :
    onMem ((Ptr.at b o).add · c) s = .ok (.at b ((o + k : Nat) : Int)) s := by
  subst hc
  obtain ⟨ys, hb, hl⟩ := hg
  refine onMem_ok ?_
  rw [Ptr.add_at (by rw [h.mem]; exact hb) (by omega) (by omega)]
  rfl

theorem size_ok (h : Inv s w) (hg : w.Has g) : size (rep g) s = .ok g.len s := by
  cases g with
  | nil => rfl
  | of b o n =>
    obtain ⟨ys, hb, hl⟩ := hg
    have : onMem ((Ptr.at b ((o + n : Nat) : Int)).sub · (.at b o)) s = .ok (n : Int) s := by
      refine onMem_ok ?_
      rw [Ptr.sub_at (by rw [h.mem]; exact hb)]
      congr 1
      omega
    refine (M.bind_ok this).trans ?_
    have hn := h.bound b ys hb
    have hp : ptrdiffMax < 2 ^ 64 := by decide
    have : ((n : Int) % 2 ^ 64).toNat = n := by omega
    rw [this]
    rfl

theorem mkSized_ok (h : Inv s w) (hg : w.Has (.of b o n)) : mkSized (.at b o) n s = .ok (rep (.of b o n)) s := by
  unfold mkSized
  rw [M.bind_ok (ptr_add h hg (Nat.le_refl n) n rfl)]
  rfl

theorem Know.Has.slice (hg : w.Has g) {o n : Nat} (hn : o + n ≤ g.len) : w.Has (g.slice o n) := by
  cases g with
  | nil => trivial
  | of b off m =>
    obtain ⟨ys, hb, hl⟩ := hg
    have hn : o + n ≤ m := hn
    exact ⟨ys, hb, by omega⟩

/-- data() + o, within the range -/
theorem data_add (h : Inv s w) (hg : w.Has g) (ho : o ≤ g.len) (c : Int) (hc : c = o) :
    onMem ((rep g).first.add · c) s = .ok (rep (g.slice o (g.len - o))).first s := by
  cases g with
  | nil =>
    have ho : o = 0 := by simpa [Seg.len] using ho
    subst ho; subst hc; rfl
  | of b off m => exact ptr_add h hg ho c hc

/-- sub-range of the given size from a pointer into the range -/
theorem mk_slice (h : Inv s w) (hg : w.Has g) (hn : o + n ≤ g.len) {k : Nat} :
    mkSized (rep (g.slice o k)).first n s = .ok (rep (g.slice o n)) s := by
  cases g with
  | nil =>
    have : n = 0 := by simp [Seg.len] at hn; omega
    subst this; rfl
  | of b off m => exact mkSized_ok h (hg.slice hn)

theorem len_lt (h : Inv s w) (hg : w.Has g) : g.len < 2 ^ 64 := by
  cases g with
  | nil => decide
  | of b off m =>
    obtain ⟨ys, hb, hl⟩ := hg
    have := h.bound b ys hb
    have hp : ptrdiffMax < 2 ^ 64 := by decide
    show m < _
    omega

theorem szSub_ok {a c : Nat} (h : c ≤ a) (ha : a < 2 ^ 64) : szSub a c = a - c := by
  unfold szSub szMod
  omega

theorem first_ok (h : Inv s w) (hg : w.Has g) (hn : n ≤ g.len) : first (rep g) n s = .ok (rep (g.slice 0 n)) s := by
  have := mk_slice (o := 0) (k := g.len) h hg (by omega : 0 + n ≤ g.len)
  have e : g.slice 0 g.len = g := by cases g <;> simp [Seg.slice, Seg.len]
  rw [e] at this
  exact this

theorem last_ok (h : Inv s w) (hg : w.Has g) (hn : n ≤ g.len) :
    last (rep g) n s = .ok (rep (g.slice (g.len - n) n)) s := by
  show ((size (rep g) >>= fun m => onMem ((rep g).first.add · (szSub m n)) >>= fun q => mkSized q n) : RM α Ref) s = _
  rw [M.bind_ok (size_ok h hg), szSub_ok hn (len_lt h hg), M.bind_ok (data_add h hg (by omega : g.len - n ≤ g.len) _ rfl)]
  exact mk_slice h hg (by omega)

theorem from_ok (h : Inv s w) (hg : w.Has g) (ho : o ≤ g.len) :
    subrangeFrom (rep g) o s = .ok (rep (g.slice o (g.len - o))) s := by
  show ((onMem ((rep g).first.add · o) >>= fun q => size (rep g) >>= fun m => mkSized q (szSub m o)) : RM α Ref) s = _
  rw [M.bind_ok (data_add h hg ho _ rfl), M.bind_ok (size_ok h hg), szSub_ok ho (len_lt h hg)]
  exact mk_slice h hg (by omega)

theorem sub_ok (h : Inv s w) (hg : w.Has g) (ho : o + n ≤ g.len) : subrange (rep g) o n s = .ok (rep (g.slice o n)) s := by
  show ((onMem ((rep g).first.add · o) >>= fun q => mkSized q n) : RM α Ref) s = _
  rw [M.bind_ok (data_add h hg (by omega : o ≤ g.len) _ rfl)]
  exact mk_slice h hg ho

theorem removePrefix_ok (h : Inv s w) (hg : w.Has g) (hn : n ≤ g.len) :
    removePrefix (rep g) n s = .ok (rep (g.slice n (g.len - n))) s := by
  refine (M.bind_ok (data_add h hg hn _ rfl)).trans ?_
  cases g with
  | nil => rfl
  | of b off m =>
    have hn : n ≤ m := hn
    show Out.ok (⟨.at b _, .at b _⟩ : Ref) s = .ok ⟨.at b _, .at b _⟩ s
    have e : off + n + (m - n) = off + m := by omega
    show Out.ok (⟨.at b _, .at b ((off + m : Nat) : Int)⟩ : Ref) s = .ok ⟨.at b _, .at b ((off + n + (m - n) : Nat) : Int)⟩ s
    rw [e]

theorem removeSuffix_ok (h : Inv s w) (hg : w.Has g) (hn : n ≤ g.len) :
    removeSuffix (rep g) n s = .ok (rep (g.slice 0 (g.len - n))) s := by
  cases g with
  | nil =>
    have : n = 0 := by simpa [Seg.len] using hn
    subst this; rfl
  | of b off m =>
    have hn : n ≤ m := hn
    obtain ⟨ys, hb, hl⟩ := hg
    have : onMem ((Ptr.at b ((off + m : Nat) : Int)).add · (-(n : Int))) s = .ok (.at b ((off + m : Nat) + -(n : Int))) s := by
      refine onMem_ok ?_
      rw [Ptr.add_at (by rw [h.mem]; exact hb) (by omega) (by omega)]
    refine (M.bind_ok this).trans ?_
    show Out.ok (⟨.at b off, .at b ((off + m : Nat) + -(n : Int))⟩ : Ref) s = .ok ⟨.at b _, .at b ((off + 0 + (m - n) : Nat) : Int)⟩ s
    have e : ((off + m : Nat) : Int) + -(n : Int) = ((off + 0 + (m - n) : Nat) : Int) := by omega
    rw [e]
    rfl

theorem index_ok (h : Inv s w) (hg : w.Has g) {l : Loc} (hl : g.loc i = some l) : index (rep g) i s = .ok l s := by
  cases g with
  | nil => cases hl
  | of b off m =>
    have hi : i < m := by
      by_cases hi : i < m
      · exact hi
      · simp [Seg.loc, hi] at hl
    have hl : (⟨b, off + i⟩ : Loc) = l := by simpa [Seg.loc, hi] using hl
    subst hl
    show ((onMem ((Ptr.at b off).add · i) >>= fun q => onMem q.deref) : RM α Loc) s = _
    rw [M.bind_ok (ptr_add h hg (Nat.le_of_lt hi) _ rfl)]
    obtain ⟨ys, hb, hlen⟩ := hg
    exact onMem_ok (Ptr.deref_at (by rw [h.mem]; exact hb) (by omega) rfl)

theorem Seg.loc_lt {l : Loc} (h : g.loc i = some l) : i < g.len := by
  cases g with
  | nil => cases h
  | of b off m =>
    by_cases hi : i < m
    · exact hi
    · simp [Seg.loc, hi] at h

theorem at_ok (h : Inv s w) (hg : w.Has g) {l : Loc} (hl : g.loc i = some l) : at_ (rep g) i s = .ok l s := by
  unfold at_
  rw [M.bind_ok (size_ok h hg), if_neg (by have := Seg.loc_lt hl; omega)]
  exact index_ok h hg hl

theorem at_throws (h : Inv s w) (hg : w.Has g) (hi : g.len ≤ i) : at_ (rep g) i s = .exc .outOfRange s := by
  unfold at_
  rw [M.bind_ok (size_ok h hg), if_pos hi]
  rfl

theorem back_ok (h : Inv s w) (hg : w.Has g) {l : Loc} (hl : g.loc (g.len - 1) = some l) : back (rep g) s = .ok l s := by
  unfold back
  have := Seg.loc_lt hl
  rw [M.bind_ok (size_ok h hg), szSub_ok (by omega) (len_lt h hg)]
  exact index_ok h hg hl

theorem text_length (hg : w.Has g) : (w.text g).length = g.len := by
  cases g with
  | nil => rfl
  | of b off m =>
    obtain ⟨ys, hb, hl⟩ := hg
    simp only [Know.text, hb, List.length_take, List.length_drop, Seg.len]
    omega

theorem chars_ok (h : Inv s w) : ∀ {n o : Nat}, w.Has (.of b o n) → chars (.at b o) n s = .ok (w.text (.of b o n)) s
  | 0, o, hg => by
    obtain ⟨ys, hb, hl⟩ := hg
    simp only [Know.text, hb, List.take_zero]
    rfl
  | n + 1, o, hg => by
    have hp := ptr_add h hg (k := 1) (by omega) 1 rfl
    have hg' : w.Has (.of b (o + 1) n) := by
      obtain ⟨ys, hb, hl⟩ := hg
      exact ⟨ys, hb, by omega⟩
    have ih := chars_ok h hg'
    obtain ⟨ys, hb, hl⟩ := hg
    have hb' : s.mem b = some ys := by rw [h.mem]; exact hb
    have ho : o < ys.length := by omega
    unfold chars
    rw [M.bind_ok (onMem_ok (Ptr.deref_at (k := o) hb' ho rfl))]
    have hread : onMem (Loc.read · ⟨b, o⟩) s = .ok ys[o] s := by
      refine onMem_ok ?_
      simp [Loc.read, hb', ho]
    rw [M.bind_ok hread, M.bind_ok hp, M.bind_ok ih]
    have : w.text (.of b o (n + 1)) = ys[o] :: w.text (.of b (o + 1) n) := by
      simp only [Know.text, hb]
      rw [List.drop_eq_getElem_cons ho, List.take_succ_cons]
    rw [this]
    rfl

theorem view_ok (h : Inv s w) (hg : w.Has g) : view (rep g) s = .ok (w.text g) s := by
  cases g with
  | nil => rfl
  | of b o n =>
    show ((size (rep (.of b o n)) >>= fun n => chars (.at b o) n) : RM α (List α)) s = _
    rw [M.bind_ok (size_ok h hg)]
    exact chars_ok h hg

theorem elem_ok (h : Inv s w) (hg : w.Has g) {l : Loc} (hl : g.loc i = some l) :
    ∃ v, l.read s.mem = .ok v ∧ (w.text g)[i]? = some v := by
  cases g with
  | nil => cases hl
  | of b off m =>
    have hi : i < m := Seg.loc_lt hl
    have hl : (⟨b, off + i⟩ : Loc) = l := by simpa [Seg.loc, hi] using hl
    subst hl
    obtain ⟨ys, hb, hlen⟩ := hg
    have ho : off + i < ys.length := by omega
    refine ⟨ys[off + i], ?_, ?_⟩
    · simp [Loc.read, h.mem, hb, ho]
    · simp [Know.text, hb, hi, ho]

theorem Inv.shows (h : Inv s w) (hr : w.R r = some g) (hg : w.Has g) : Shows s r g (w.text g) := by
  refine ⟨⟨rep g, load_ok (h.at hr), size_ok h hg, ?_, fun i l hl => ⟨index_ok h hg hl, at_ok h hg hl⟩,
    fun l hl => index_ok h hg hl, fun l hl => back_ok h hg hl, fun i hi => at_throws h hg hi, view_ok h hg⟩,
    fun i l hl => elem_ok h hg hl, text_length hg⟩
  unfold empty
  rw [M.bind_ok (size_ok h hg)]
  show Out.ok _ s = Out.ok _ s
  congr 1

theorem Inv.store (h : Inv s w) (r : Nat) (g : Seg) :
    Inv { s with ref := upd s.ref r (some (rep g)) } (w.bind r g) := by
  refine ⟨h.mem, fun q => ?_, h.bound⟩
  show upd s.ref r _ q = (upd w.R r _ q).map _
  by_cases e : q = r
  · subst e; simp
  · rw [upd_ne _ _ e, upd_ne _ _ e, h.ref]

theorem Inv.change (h : Inv s w) (hx : xs.length ≤ ptrdiffMax) :
    Inv { s with mem := upd s.mem b (some xs) } { w with M := upd w.M b (some xs) } := by
  refine ⟨by show upd s.mem b _ = upd w.M b _; rw [h.mem], h.ref, fun c ys hc => ?_⟩
  have hc : upd w.M b (some xs) c = some ys := hc
  by_cases e : c = b
  · subst e; rw [upd_same] at hc; cases hc; exact hx
  · rw [upd_ne _ _ e] at hc; exact h.bound c ys hc

theorem assign_loc (h : Inv s w) (hb : w.M b = some xs) (hi : i < xs.length) :
    assign ⟨b, i⟩ v s = .ok () { s with mem := upd s.mem b (some (xs.set i v)) } := by
  unfold assign Loc.write
  rw [h.mem, hb]
  simp [hi]

theorem assign_ok (h : Inv s w) (hg : w.Has g) (hi : i < g.len) :
    ∃ l s', g.loc i = some l ∧ assign l v s = .ok () s' ∧ Inv s' (w.put g i v) := by
  cases g with
  | nil => cases hi
  | of b off m =>
    obtain ⟨ys, hb, hlen⟩ := hg
    have hi : i < m := hi
    refine ⟨⟨b, off + i⟩, _, by simp [Seg.loc, hi], assign_loc h hb (by omega), ?_⟩
    have : w.put (.of b off m) i v = { w with M := upd w.M b (some (ys.set (off + i) v)) } := by simp [Know.put, hb]
    rw [this]
    exact h.change (by rw [List.length_set]; exact h.bound b ys hb)

/-- the outcome of a call that should lead to `w'` and throw `x`, if anything -/
def Meets (x : Option Exc) (w' : Know α) : Out (St α) Unit → Prop
  | .ok _ s' => x = none ∧ Inv s' w'
  | .exc e s' => x = some e ∧ Inv s' w'
  | .ub _ => False
  | .term => False

theorem Meets.of_ok {out : Out (St α) Unit} (e : out = .ok () s') (h : Inv s' w') : Meets none w' out := by
  subst e; exact ⟨rfl, h⟩
theorem Meets.of_exc {out : Out (St α) Unit} {x : Exc} (e : out = .exc x s') (h : Inv s' w') : Meets (some x) w' out := by
  subst e; exact ⟨rfl, h⟩

theorem step (h : Inv s w) (hs : Spec op w x w') : Meets x w' (op.run s) := by
  cases hs with
  | @alloc b xs _ hb hl => exact .of_ok (s' := { s with mem := upd s.mem b (some xs) }) (by simp [Op.run, alloc, h.mem, hb]) (h.change hl)
  | @free b xs _ hb =>
    refine .of_ok (s' := { s with mem := upd s.mem b none }) (by simp [Op.run, free, h.mem, hb])
      ⟨by show upd s.mem b _ = upd w.M b _; rw [h.mem], h.ref, fun c ys hc => ?_⟩
    have hc : upd w.M b none c = some ys := hc
    by_cases e : c = b
    · subst e; simp at hc
    · rw [upd_ne _ _ e] at hc; exact h.bound c ys hc
  | @poke b i v xs _ hb hi =>
    exact .of_ok (assign_loc h hb hi) (h.change (by rw [List.length_set]; exact h.bound b xs hb))
  | null => exact .of_ok rfl (h.store _ .nil)
  | @range r b xs _ hb =>
    have hn : sizeOf_ b s = .ok xs.length s := by simp [sizeOf_, h.mem, hb]
    refine .of_ok ((M.bind_ok hn).trans (M.bind_ok (mkSized_ok (o := 0) h ⟨xs, hb, by rw [Nat.zero_add]; exact Nat.le_refl _⟩))) (h.store _ _)
  | @ptrs r b i j xs _ hb hij hj =>
    refine .of_ok rfl ?_
    have : (⟨.at b i, .at b j⟩ : Ref) = rep (.of b i (j - i)) := by
      simp only [rep]
      rw [show i + (j - i) = j from by omega]
    show Inv { s with ref := upd s.ref r (some ⟨.at b i, .at b j⟩) } _
    rw [this]
    exact h.store _ _
  | @sized r b i n xs _ hb hi => exact .of_ok (M.bind_ok (mkSized_ok h ⟨xs, hb, hi⟩)) (h.store _ _)
  | @copy r q g _ hq => exact .of_ok (M.bind_ok (load_ok (h.at hq))) (h.store _ _)
  | @first r q n g _ hq hg hn =>
    exact .of_ok ((M.bind_ok (load_ok (h.at hq))).trans (M.bind_ok (first_ok h hg hn))) (h.store _ _)
  | @last r q n g _ hq hg hn =>
    exact .of_ok ((M.bind_ok (load_ok (h.at hq))).trans (M.bind_ok (last_ok h hg hn))) (h.store _ _)
  | @from_ r q o g _ hq hg hn =>
    exact .of_ok ((M.bind_ok (load_ok (h.at hq))).trans (M.bind_ok (from_ok h hg hn))) (h.store _ _)
  | @sub r q o n g _ hq hg hn =>
    exact .of_ok ((M.bind_ok (load_ok (h.at hq))).trans (M.bind_ok (sub_ok h hg hn))) (h.store _ _)
  | @removePrefix r n g _ hq hg hn =>
    exact .of_ok ((M.bind_ok (load_ok (h.at hq))).trans (M.bind_ok (removePrefix_ok h hg hn))) (h.store _ _)
  | @removeSuffix r n g _ hq hg hn =>
    exact .of_ok ((M.bind_ok (load_ok (h.at hq))).trans (M.bind_ok (removeSuffix_ok h hg hn))) (h.store _ _)
  | @dtor r g _ hr =>
    refine .of_ok (s' := { s with ref := upd s.ref r none }) (M.bind_ok (load_ok (h.at hr))) ⟨h.mem, fun q => ?_, h.bound⟩
    show upd s.ref r _ q = (upd w.R r _ q).map _
    by_cases e : q = r
    · subst e; simp
    · rw [upd_ne _ _ e, upd_ne _ _ e, h.ref]
  | @set r i v g _ hr hg hi =>
    obtain ⟨l, s', hl, ha, hinv⟩ := assign_ok (v := v) h hg hi
    exact .of_ok ((M.bind_ok (load_ok (h.at hr))).trans ((M.bind_ok (index_ok h hg hl)).trans ha)) hinv
  | @setAt r i v g _ hr hg hi =>
    obtain ⟨l, s', hl, ha, hinv⟩ := assign_ok (v := v) h hg hi
    exact .of_ok ((M.bind_ok (load_ok (h.at hr))).trans ((M.bind_ok (at_ok h hg hl)).trans ha)) hinv
  | @setAtThrows r i v g _ hr hg hi =>
    exact .of_exc ((M.bind_ok (load_ok (h.at hr))).trans (M.bind_exc (at_throws h hg hi))) h
  | @setFront r v g _ hr hg hi =>
    obtain ⟨l, s', hl, ha, hinv⟩ := assign_ok (v := v) h hg hi
    exact .of_ok ((M.bind_ok (load_ok (h.at hr))).trans ((M.bind_ok (index_ok h hg hl)).trans ha)) hinv
  | @setBack r v g _ hr hg hi =>
    obtain ⟨l, s', hl, ha, hinv⟩ := assign_ok (v := v) h hg (by omega : g.len - 1 < g.len)
    exact .of_ok ((M.bind_ok (load_ok (h.at hr))).trans ((M.bind_ok (back_ok h hg hl)).trans ha)) hinv

theorem Reach.inv (h : Reach s w) : Inv s w := by
  induction h with
  | start => exact ⟨rfl, fun _ => rfl, (fun _ _ h => by cases h)⟩
  | ok _ hs hr ih => have := step ih hs; rw [hr] at this; exact this.2
  | thrown _ hs hr ih => have := step ih hs; rw [hr] at this; exact this.2

theorem Reach.next (h : Reach s w) (hs : Spec op w none w') : ∃ s', op.run s = .ok () s' ∧ Reach s' w' := by
  have := step h.inv hs
  cases hr : op.run s with
  | ok u s' => exact ⟨s', rfl, h.ok hs hr⟩
  | exc e s' => rw [hr] at this; cases this.1
  | ub => rw [hr] at this; exact this.elim
  | term => rw [hr] at this; exact this.elim

/-! ### a concrete program: the array 10, 11, 12, 13, 14; reference 0 to all of it, 1 to the 11, 12, 13; 2 to nothing -/

/-- what the client knows then -/
def demoW : Know UInt8 where
  M := upd (fun _ => none) 0 (some [10, 11, 12, 13, 14])
  R := upd (upd (upd (fun _ => none) 0 (some (.of 0 0 5))) 1 (some (.of 0 1 3))) 2 (some .nil)

/-- the program runs -/
theorem demo : ∃ s, Reach s demoW := by
  obtain ⟨s1, _, h1⟩ := (Reach.start (α := UInt8)).next (.alloc (b := 0) (xs := [10, 11, 12, 13, 14]) rfl (by decide))
  obtain ⟨s2, _, h2⟩ := h1.next (.range (r := 0) (b := 0) rfl)
  obtain ⟨s3, _, h3⟩ := h2.next (.sub (r := 1) (q := 0) (o := 1) (n := 3) (g := .of 0 0 5) rfl ⟨_, rfl, by decide⟩ (by decide))
  obtain ⟨s4, _, h4⟩ := h3.next (.null (r := 2))
  exact ⟨s4, h4⟩

/-! ## C53 -/

/-- C53: after every history, a reference (to something that still exists) shows exactly the part of the array that the
specification says: its size, the very elements of the array, exceptions from `at` beyond, and the current contents -/
theorem C53_shows (h : Reach s w) (hr : w.R r = some g) (hg : w.Has g) : Shows s r g (w.text g) := h.inv.shows hr hg

/-- what the client sees is what the specification says: of all arrays, and of all references to something that still exists -/
def Agrees (s : St α) (w : Know α) : Prop :=
  s.mem = w.M ∧ ∀ r, (∀ g, w.R r = some g → w.Has g → Shows s r g (w.text g)) ∧ (w.R r = none → s.ref r = none)

theorem Reach.agrees (h : Reach s w) : Agrees s w :=
  ⟨h.inv.mem, fun _ => ⟨fun _ hr hg => C53_shows h hr hg, fun hr => by rw [h.inv.ref, hr]; rfl⟩⟩

/-- C53: every call within its precondition has the specified outcome and is never undefined -/
theorem C53_call (h : Reach s w) (hs : Spec op w x w') :
    match op.run s with
    | .ok _ s' => x = none ∧ Reach s' w' ∧ Agrees s' w'
    | .exc e s' => x = some e ∧ Reach s' w' ∧ Agrees s' w'
    | .ub _ => False
    | .term => False := by
  have := step h.inv hs
  cases hr : op.run s with
  | ok u s' => rw [hr] at this; exact ⟨this.1, h.ok hs hr, (h.ok hs hr).agrees⟩
  | exc e s' => rw [hr] at this; exact ⟨this.1, h.thrown hs hr, (h.thrown hs hr).agrees⟩
  | ub => rw [hr] at this; exact this
  | term => rw [hr] at this; exact this

theorem text_slice (hg : w.Has g) (hn : o + n ≤ g.len) : w.text (g.slice o n) = ((w.text g).drop o).take n := by
  cases g with
  | nil => simp [Seg.slice, Know.text]
  | of b off m =>
    obtain ⟨ys, hb, hl⟩ := hg
    have hn : o + n ≤ m := hn
    simp only [Seg.slice, Know.text, hb]
    rw [List.drop_take, List.take_take, List.drop_drop, Nat.min_eq_left (by omega)]

/-- the arrays are as before, and so are all references except `r` -/
def Frame (r : Nat) (s s' : St α) : Prop := s'.mem = s.mem ∧ ∀ k, k ≠ r → s'.ref k = s.ref k

theorem frame (h : Reach s w) (h' : Reach s' w') (hm : w'.M = w.M) (hf : ∀ k, k ≠ r → w'.R k = w.R k) : Frame r s s' :=
  ⟨by rw [h'.inv.mem, h.inv.mem, hm], fun k hk => by rw [h'.inv.ref, h.inv.ref, hf k hk]⟩

/-- C53: `first(n)` refers to the first `n` elements -/
theorem C53_first (h : Reach s w) (hq : w.R q = some g) (hg : w.Has g) (hn : n ≤ g.len) :
    ∃ s', Op.run (.first r q n) s = .ok () s' ∧ Shows s' r (g.slice 0 n) ((w.text g).take n) ∧ Frame r s s' := by
  obtain ⟨s', hrun, h'⟩ := h.next (.first (r := r) hq hg hn)
  refine ⟨s', hrun, ?_, frame h h' rfl (fun k hk => upd_ne _ _ hk)⟩
  have := text_slice hg (o := 0) (n := n) (by omega)
  rw [List.drop_zero] at this
  rw [← this]
  exact h'.inv.shows (by show upd w.R r _ r = _; simp) (hg.slice (by omega))

/-- C53: `last(n)` refers to the last `n` elements -/
theorem C53_last (h : Reach s w) (hq : w.R q = some g) (hg : w.Has g) (hn : n ≤ g.len) :
    ∃ s', Op.run (.last r q n) s = .ok () s' ∧ Shows s' r (g.slice (g.len - n) n) ((w.text g).drop (g.len - n)) ∧
      Frame r s s' := by
  obtain ⟨s', hrun, h'⟩ := h.next (.last (r := r) hq hg hn)
  refine ⟨s', hrun, ?_, frame h h' rfl (fun k hk => upd_ne _ _ hk)⟩
  have := text_slice hg (o := g.len - n) (n := n) (by omega)
  rw [List.take_of_length_le (by rw [List.length_drop, text_length hg]; omega)] at this
  rw [← this]
  exact h'.inv.shows (by show upd w.R r _ r = _; simp) (hg.slice (by omega))

/-- C53: `subrange(o)`, `substr(o)` refer to the elements from `o` on -/
theorem C53_subrange_from (h : Reach s w) (hq : w.R q = some g) (hg : w.Has g) (ho : o ≤ g.len) :
    ∃ s', Op.run (.from_ r q o) s = .ok () s' ∧ Shows s' r (g.slice o (g.len - o)) ((w.text g).drop o) ∧ Frame r s s' := by
  obtain ⟨s', hrun, h'⟩ := h.next (.from_ (r := r) hq hg ho)
  refine ⟨s', hrun, ?_, frame h h' rfl (fun k hk => upd_ne _ _ hk)⟩
  have := text_slice hg (o := o) (n := g.len - o) (by omega)
  rw [List.take_of_length_le (by rw [List.length_drop, text_length hg]; omega)] at this
  rw [← this]
  exact h'.inv.shows (by show upd w.R r _ r = _; simp) (hg.slice (by omega))

/-- C53: `subrange(o, n)`, `substr(o, n)` refer to `n` elements from `o` on -/
theorem C53_subrange (h : Reach s w) (hq : w.R q = some g) (hg : w.Has g) (ho : o + n ≤ g.len) :
    ∃ s', Op.run (.sub r q o n) s = .ok () s' ∧ Shows s' r (g.slice o n) (((w.text g).drop o).take n) ∧ Frame r s s' := by
  obtain ⟨s', hrun, h'⟩ := h.next (.sub (r := r) hq hg ho)
  refine ⟨s', hrun, ?_, frame h h' rfl (fun k hk => upd_ne _ _ hk)⟩
  rw [← text_slice hg ho]
  exact h'.inv.shows (by show upd w.R r _ r = _; simp) (hg.slice ho)

/-- C53: `remove_prefix(n)` drops the first `n` characters -/
theorem C53_remove_prefix (h : Reach s w) (hr : w.R r = some g) (hg : w.Has g) (hn : n ≤ g.len) :
    ∃ s', Op.run (.removePrefix r n) s = .ok () s' ∧ Shows s' r (g.slice n (g.len - n)) ((w.text g).drop n) ∧
      Frame r s s' := by
  obtain ⟨s', hrun, h'⟩ := h.next (.removePrefix hr hg hn)
  refine ⟨s', hrun, ?_, frame h h' rfl (fun k hk => upd_ne _ _ hk)⟩
  have := text_slice hg (o := n) (n := g.len - n) (by omega)
  rw [List.take_of_length_le (by rw [List.length_drop, text_length hg]; omega)] at this
  rw [← this]
  exact h'.inv.shows (by show upd w.R r _ r = _; simp) (hg.slice (by omega))

/-- C53: `remove_suffix(n)` drops the last `n` characters -/
theorem C53_remove_suffix (h : Reach s w) (hr : w.R r = some g) (hg : w.Has g) (hn : n ≤ g.len) :
    ∃ s', Op.run (.removeSuffix r n) s = .ok () s' ∧ Shows s' r (g.slice 0 (g.len - n)) ((w.text g).take (g.len - n)) ∧
      Frame r s s' := by
  obtain ⟨s', hrun, h'⟩ := h.next (.removeSuffix hr hg hn)
  refine ⟨s', hrun, ?_, frame h h' rfl (fun k hk => upd_ne _ _ hk)⟩
  have := text_slice hg (o := 0) (n := g.len - n) (by omega)
  rw [List.drop_zero] at this
  rw [← this]
  exact h'.inv.shows (by show upd w.R r _ r = _; simp) (hg.slice (by omega))

theorem slice_slice (g : Seg) (o n o' n' : Nat) : (g.slice o n).slice o' n' = g.slice (o + o') n' := by
  cases g with
  | nil => rfl
  | of b off m => simp [Seg.slice, Nat.add_assoc]

theorem loc_slice {l : Loc} (hn : o + n ≤ g.len) (hl : (g.slice o n).loc i = some l) : g.loc (o + i) = some l := by
  cases g with
  | nil => cases hl
  | of b off m =>
    have hn : o + n ≤ m := hn
    by_cases hi : i < n
    · simp only [Seg.slice, Seg.loc, hi, if_true] at hl
      simp only [Seg.loc, show o + i < m from by omega, if_true]
      rw [← hl, Nat.add_assoc]
    · simp [Seg.slice, Seg.loc, hi] at hl

/-- C53: a sub-range of a sub-range is a sub-range of the original, with added offset: the two references are equal -/
theorem C53_compose {p o' n' : Nat} (h : Reach s w) (hq : w.R q = some g) (hg : w.Has g) (ho : o + n ≤ g.len) (ho' : o' + n' ≤ n) :
    ∃ s1 s2 s3, Op.run (.sub r q o n) s = .ok () s1 ∧ Op.run (.sub p r o' n') s1 = .ok () s2 ∧
      Op.run (.sub p q (o + o') n') s = .ok () s3 ∧ s2.ref p = s3.ref p ∧ Shows s2 p (g.slice (o + o') n') (((w.text g).drop (o + o')).take n') := by
  obtain ⟨s1, r1, h1⟩ := h.next (.sub (r := r) hq hg ho)
  have hlen : n' = 0 ∨ (g.slice o n).len = n := by
    cases g with
    | nil => left; have : o + n ≤ 0 := ho; omega
    | of => right; rfl
  have hle : o' + n' ≤ (g.slice o n).len := by
    cases g with
    | nil => have : o + n ≤ 0 := ho; show o' + n' ≤ 0; omega
    | of => exact ho'
  obtain ⟨s2, r2, h2⟩ := h1.next (.sub (r := p) (q := r) (g := g.slice o n) (by show upd w.R r _ r = _; simp) (hg.slice ho) hle)
  obtain ⟨s3, r3, h3⟩ := h.next (.sub (r := p) (o := o + o') (n := n') hq hg (by omega))
  have e2 := h2.inv.at (r := p) (g := g.slice (o + o') n') (by rw [← slice_slice g o n]; exact upd_same _ _ _)
  have e3 := h3.inv.at (r := p) (g := g.slice (o + o') n') (upd_same _ _ _)
  refine ⟨s1, s2, s3, r1, r2, r3, e2.trans e3.symm, ?_⟩
  have hsh := h2.inv.shows (r := p) (g := g.slice (o + o') n') (by rw [← slice_slice g o n]; exact upd_same _ _ _)
    (hg.slice (by omega))
  rw [← text_slice hg (by omega : o + o' + n' ≤ g.len)]
  exact hsh

/-- C53: every element of a sub-range is an element of the original range, the one `o` further on: sub-ranges do not extend beyond it -/
theorem C53_within (h : Reach s w) (hq : w.R q = some g) (hg : w.Has g) (ho : o + n ≤ g.len) (hi : i < n) :
    ∃ s' x y l, load q s = .ok y s ∧ Op.run (.sub r q o n) s = .ok () s' ∧ load r s' = .ok x s' ∧ at_ x i s' = .ok l s' ∧
      at_ y (o + i) s = .ok l s := by
  obtain ⟨s', hrun, hsh, _⟩ := C53_subrange (r := r) h hq hg ho
  obtain ⟨y, hy, _, _, hey, _⟩ := (C53_shows h hq hg).obj
  obtain ⟨x, hx, _, _, hex, _⟩ := hsh.obj
  have hl : ∃ l, (g.slice o n).loc i = some l := by
    cases g with
    | nil => have : o + n ≤ 0 := ho; omega
    | of b off m => simp only [Seg.slice, Seg.loc, hi, if_true]; exact ⟨_, rfl⟩
  obtain ⟨l, hl⟩ := hl
  exact ⟨s', x, y, l, hy, hrun, hx, (hex i l hl).2, (hey _ l (loc_slice ho hl)).2⟩

/-- C53: writing to an element through a reference changes that element and no other; it is seen by all references that
denote it, at their respective position -/
theorem C53_write (h : Reach s w) (hr : w.R r = some g) (hg : w.Has g) (hi : i < g.len) (v : α) :
    ∃ s' l, Op.run (.set r i v) s = .ok () s' ∧ g.loc i = some l ∧ l.read s'.mem = .ok v ∧
      (∀ l', l' ≠ l → l'.read s'.mem = l'.read s.mem) ∧
      (∀ q g' k, w.R q = some g' → w.Has g' → g'.loc k = some l → ∃ ys, Shows s' q g' ys ∧ ys[k]? = some v) ∧
      s'.ref = s.ref := by
  cases g with
  | nil => cases hi
  | of b off m =>
    obtain ⟨ys, hb, hlen⟩ := hg
    have hi' : i < m := hi
    have hg : w.Has (.of b off m) := ⟨ys, hb, hlen⟩
    have hl : (Seg.of b off m).loc i = some ⟨b, off + i⟩ := by simp [Seg.loc, hi']
    have hrun : Op.run (.set r i v) s = .ok () { s with mem := upd s.mem b (some (ys.set (off + i) v)) } :=
      (M.bind_ok (load_ok (h.inv.at hr))).trans ((M.bind_ok (index_ok h.inv hg hl)).trans (assign_loc h.inv hb (by omega)))
    have h' := h.ok (.set (v := v) hr hg hi) hrun
    have hput : w.put (.of b off m) i v = { w with M := upd w.M b (some (ys.set (off + i) v)) } := by simp [Know.put, hb]
    refine ⟨_, ⟨b, off + i⟩, hrun, hl, ?_, ?_, ?_, rfl⟩
    · have : off + i < ys.length := by omega
      simp [Loc.read, this]
    · intro l' hne
      unfold Loc.read
      by_cases e : l'.blk = b
      · rw [e, h.inv.mem, hb]
        simp only [upd_same]
        have : off + i ≠ l'.idx := by
          intro e2
          apply hne
          cases l'
          simp_all
        rw [List.getElem?_set_ne this]
      · show (match upd s.mem b _ l'.blk with | none => _ | some xs => _) = _
        rw [upd_ne _ _ e]
        rfl
    · intro q g' k hq hg' hk
      rw [hput] at h'
      cases g' with
      | nil => cases hk
      | of b' off' m' =>
        have hk' : k < m' := Seg.loc_lt hk
        have hk2 : (⟨b', off' + k⟩ : Loc) = ⟨b, off + i⟩ := by simpa [Seg.loc, hk'] using hk
        have e1 : b' = b := congrArg Loc.blk hk2
        have e2 : off' + k = off + i := congrArg Loc.idx hk2
        subst e1
        obtain ⟨ys', hb', hin⟩ := hg'
        rw [hb] at hb'; cases hb'
        have hg2 : ({ w with M := upd w.M b' (some (ys.set (off + i) v)) } : Know α).Has (.of b' off' m') :=
          ⟨_, upd_same _ _ _, by rw [List.length_set]; exact hin⟩
        refine ⟨_, h'.inv.shows hq hg2, ?_⟩
        simp only [Know.text, upd_same]
        rw [List.getElem?_take_of_lt hk', List.getElem?_drop, e2, List.getElem?_set_self (by omega)]

-- in the demo: drop the first and last of reference 1's elements; what is left is the 12
example : ∃ s s', Reach s demoW ∧ Op.run (.sub 3 1 1 1) s = .ok () s' ∧ Shows s' 3 (.of 0 2 1) [12] := by
  obtain ⟨s, h⟩ := demo
  obtain ⟨s', h1, h2, _⟩ := C53_subrange (r := 3) (q := 1) (o := 1) (n := 1) (g := .of 0 1 3) h rfl ⟨_, rfl, by decide⟩ (by decide)
  exact ⟨s, s', h, h1, h2⟩

/-! ## C54 -/

section

variable {s : St UInt8} {w : Know UInt8} {g g' g'' : Seg} {r q p : Nat}

/-- run a comparison operator on two reference objects -/
def compareRefs (c : Cmp) (r q : Nat) : RM UInt8 Bool := do
  let x ← load r
  let y ← load q
  compare c x y

/-- run `std::hash` on a reference object -/
def hashRef (f : List UInt8 → Nat) (r : Nat) : RM UInt8 Nat := do
  let x ← load r
  hash f x

theorem compare_ok (h : Reach s w) (c : Cmp) (hg : w.Has g) (hg' : w.Has g') :
    ∃ b, compare c (rep g) (rep g') s = .ok b s ∧ (b = true ↔ c.Means (w.text g) (w.text g')) := by
  unfold compare
  rw [M.bind_ok (view_ok h.inv hg), M.bind_ok (view_ok h.inv hg')]
  refine ⟨_, rfl, ?_⟩
  have hlt := Cmp.result_iff .lt (w.text g) (w.text g')
  have hgt := Cmp.result_iff .lt (w.text g') (w.text g)
  have heq := Cmp.result_iff .eq (w.text g) (w.text g')
  obtain ⟨irr, trans, tri⟩ := Cmp.total
  have key : ∀ xs ys : List UInt8, (¬ Cmp.lt.Means ys xs) ↔ (Cmp.lt.Means xs ys ∨ xs = ys) := by
    intro xs ys
    constructor
    · intro h
      rcases tri xs ys with h1 | h1 | h1
      · exact .inl h1
      · exact .inr h1
      · exact (h h1).elim
    · rintro (h1 | h1) h2
      · exact irr _ (trans _ _ _ h1 h2)
      · subst h1; exact irr _ h2
  cases c with
  | eq => exact heq
  | ne => simp only [Bool.not_eq_true']; rw [← Bool.not_eq_true, heq]; exact Iff.rfl
  | lt => exact hlt
  | gt => exact hgt
  | le =>
    simp only [Bool.not_eq_true']
    rw [← Bool.not_eq_true, hgt, key]
    exact Iff.rfl
  | ge =>
    simp only [Bool.not_eq_true']
    rw [← Bool.not_eq_true, hlt, key]
    exact or_congr Iff.rfl eq_comm

/-- C54: all six operators decide lexicographic order of the referenced characters as unsigned bytes (`Cmp.Means`),
whatever the references point to, also when they overlap or are the same; they change nothing -/
theorem C54_compare (h : Reach s w) (c : Cmp) (hr : w.R r = some g) (hq : w.R q = some g') (hg : w.Has g) (hg' : w.Has g') :
    ∃ b, compareRefs c r q s = .ok b s ∧ (b = true ↔ c.Means (w.text g) (w.text g')) := by
  unfold compareRefs
  rw [M.bind_ok (load_ok (h.inv.at hr)), M.bind_ok (load_ok (h.inv.at hq))]
  exact compare_ok h c hg hg'

/-- C54: `<` is a strict total order consistent with `==` -/
theorem C54_total_order (h : Reach s w) (hr : w.R r = some g) (hq : w.R q = some g') (hp : w.R p = some g'')
    (hg : w.Has g) (hg' : w.Has g') (hg'' : w.Has g'') :
    compareRefs .lt r r s = .ok false s ∧
    (compareRefs .lt r q s = .ok true s → compareRefs .lt q p s = .ok true s → compareRefs .lt r p s = .ok true s) ∧
    (compareRefs .lt r q s = .ok true s ∨ compareRefs .eq r q s = .ok true s ∨ compareRefs .lt q r s = .ok true s) ∧
    (compareRefs .lt r q s = .ok true s → compareRefs .eq r q s = .ok false s ∧ compareRefs .lt q r s = .ok false s) := by
  have get : ∀ {c : Cmp} {a b : Nat} {x y : Seg}, w.R a = some x → w.R b = some y → w.Has x → w.Has y →
      (compareRefs c a b s = .ok true s ↔ c.Means (w.text x) (w.text y)) ∧
      (compareRefs c a b s = .ok false s ↔ ¬ c.Means (w.text x) (w.text y)) := by
    intro c a b x y ha hb hx hy
    obtain ⟨v, hv, hiff⟩ := C54_compare h c ha hb hx hy
    rw [hv, ← hiff]
    cases v <;> simp
  obtain ⟨irr, trans, tri⟩ := Cmp.total
  refine ⟨(get hr hr hg hg).2.2 (irr _),
    fun a b => (get hr hp hg hg'').1.2 (trans _ _ _ ((get hr hq hg hg').1.1 a) ((get hq hp hg' hg'').1.1 b)), ?_, ?_⟩
  · rcases tri (w.text g) (w.text g') with h | h | h
    · exact .inl ((get hr hq hg hg').1.2 h)
    · exact .inr (.inl ((get hr hq hg hg').1.2 h))
    · exact .inr (.inr ((get hq hr hg' hg).1.2 h))
  · intro a
    have a := (get hr hq hg hg').1.1 a
    refine ⟨(get hr hq hg hg').2.2 ?_, (get hq hr hg' hg).2.2 fun b => irr _ (trans _ _ _ a b)⟩
    intro e
    have e : w.text g = w.text g' := e
    rw [e] at a
    exact irr _ a

/-- C54: the hash is that of the characters; references that compare equal hash equally, wherever they point -/
theorem C54_hash (h : Reach s w) (f : List UInt8 → Nat) (hr : w.R r = some g) (hg : w.Has g) :
    hashRef f r s = .ok (f (w.text g)) s ∧
    ∀ q g', w.R q = some g' → w.Has g' → compareRefs .eq r q s = .ok true s → hashRef f q s = hashRef f r s := by
  have key : ∀ {r g}, w.R r = some g → w.Has g → hashRef f r s = .ok (f (w.text g)) s := by
    intro r g hr hg
    exact (M.bind_ok (load_ok (h.inv.at hr))).trans (M.bind_ok (view_ok h.inv hg))
  refine ⟨key hr hg, fun q g' hq hg' he => ?_⟩
  obtain ⟨b, hb, hiff⟩ := C54_compare h .eq hr hq hg hg'
  rw [hb] at he
  cases he
  have : w.text g = w.text g' := hiff.1 rfl
  rw [key hr hg, key hq hg', this]

/-- C54: conversion to `std::string_view`, and with it stream insertion, gives the characters -/
theorem C54_view (h : Reach s w) (hr : w.R r = some g) (hg : w.Has g) :
    (load r >>= print) s = .ok (w.text g) s :=
  (M.bind_ok (load_ok (h.inv.at hr))).trans (view_ok h.inv hg)

-- in the demo: 10… is less than 11…; a substring compares equal to itself only
example : ∃ s, Reach s demoW ∧ compareRefs .lt 0 1 s = .ok true s ∧ compareRefs .ge 0 1 s = .ok false s := by
  obtain ⟨s, h⟩ := demo
  obtain ⟨b, h1, h2⟩ := C54_compare h .lt (r := 0) (q := 1) (g := .of 0 0 5) (g' := .of 0 1 3) rfl rfl ⟨_, rfl, by decide⟩ ⟨_, rfl, by decide⟩
  obtain ⟨b', h1', h2'⟩ := C54_compare h .ge (r := 0) (q := 1) (g := .of 0 0 5) (g' := .of 0 1 3) rfl rfl ⟨_, rfl, by decide⟩ ⟨_, rfl, by decide⟩
  rw [← Cmp.result_iff, show Cmp.lt.result _ _ = true from by decide] at h2
  rw [← Cmp.result_iff, show Cmp.ge.result _ _ = false from by decide] at h2'
  refine ⟨s, h, by rw [h1, h2.2 rfl], ?_⟩
  rw [h1']
  cases b' with
  | false => rfl
  | true => exact absurd (h2'.1 rfl) (by decide)

/-! ## C27 for `_sr` -/

theorem takeWhile_length_le (xs : List UInt8) : (xs.takeWhile (· != 0)).length ≤ xs.length :=
  (List.takeWhile_prefix _).length_le

/-- the constructor from a C string: up to the first null character -/
theorem mkCStr_ok {ys : List UInt8} {b o : Nat} (h : Inv s w) (hb : w.M b = some ys) (ho : o ≤ ys.length)
    (h0 : 0 ∈ ys.drop o) : mkCStr (.at b o) s = .ok (rep (.of b o ((ys.drop o).takeWhile (· != 0)).length)) s := by
  have hlen : cLength (.at b o) s = .ok ((ys.drop o).takeWhile (· != 0)).length s := by
    simp only [cLength, h.mem, hb, Int.toNat_natCast]
    rw [if_pos ⟨by omega, by omega⟩, if_pos h0]
  refine (M.bind_ok hlen).trans (mkSized_ok h ⟨ys, hb, ?_⟩)
  have := takeWhile_length_le (ys.drop o)
  rw [List.length_drop] at this
  omega

/-- the literal operator applied to the literal stored in array `b`, as (pointer, length) -/
def literalOf (b : Nat) (xs : List UInt8) : RM UInt8 Ref := literal (.at b 0) xs.length

/-- C27, full statement for `_sr`: for a literal with the characters `xs` (stored with a null character at the end) the
operator gives a reference to `xs` -/
def LiteralWhole : Prop :=
  ∀ (s : St UInt8) (w : Know UInt8) (b : Nat) (xs : List UInt8), Reach s w → w.M b = some (xs ++ [0]) →
    (literalOf b xs >>= view) s = .ok xs s

/-- C27: exactly: the reference ends at the first null character -/
theorem C27_sr_exact {b : Nat} {xs : List UInt8} (h : Reach s w) (hb : w.M b = some (xs ++ [0])) :
    (literalOf b xs >>= view) s = .ok (xs.takeWhile (· != 0)) s := by
  have ht : (xs ++ [0]).takeWhile (· != 0) = xs.takeWhile (· != 0) := by
    clear hb
    induction xs with
    | nil => rfl
    | cons y ys ih =>
      simp only [List.cons_append, List.takeWhile_cons]
      rw [ih]
  have hle := takeWhile_length_le xs
  have hc := mkCStr_ok (o := 0) h.inv hb (Nat.zero_le _) (by simp)
  rw [List.drop_zero, ht] at hc
  have hg : w.Has (.of b 0 (xs.takeWhile (· != 0)).length) := ⟨_, hb, by rw [List.length_append]; omega⟩
  refine (M.bind_ok hc).trans ?_
  rw [view_ok h.inv hg]
  simp only [Know.text, hb, List.drop_zero]
  rw [List.take_append_of_le_length hle]
  have : xs.take (xs.takeWhile (· != 0)).length = xs.takeWhile (· != 0) :=
    (List.prefix_iff_eq_take.mp (List.takeWhile_prefix _)).symm
  rw [this]

/-- C27 is false for `_sr`: `"a\0b"_sr` is "a" -/
theorem C27_sr_refuted : ¬ LiteralWhole := by
  intro hall
  obtain ⟨s, _, h⟩ := (Reach.start (α := UInt8)).next (.alloc (b := 0) (xs := [97, 0, 98, 0]) rfl (by decide))
  have h1 := hall s _ 0 [97, 0, 98] h rfl
  rw [C27_sr_exact h rfl] at h1
  exact absurd (Out.ok.inj h1).1 (by decide)

/-- C27 (part), `_sr`: literals without null characters.  Missing: other literals, see `C27_sr_exact`. -/
theorem C27_sr_partial {b : Nat} {xs : List UInt8} (h : Reach s w) (hb : w.M b = some (xs ++ [0])) (h0 : 0 ∉ xs) :
    (literalOf b xs >>= view) s = .ok xs s := by
  rw [C27_sr_exact h hb]
  have : xs.takeWhile (· != 0) = xs := by
    clear hb
    induction xs with
    | nil => rfl
    | cons y ys ih =>
      have hy : y ≠ 0 := by rintro rfl; exact h0 (by simp)
      rw [List.takeWhile_cons, if_pos (by simp [hy]), ih fun hm => h0 (by simp [hm])]
  rw [this]

/-- C53: a reference made from a C string denotes the characters up to the first null character -/
theorem C53_cstr {ys : List UInt8} {b o : Nat} (h : Reach s w) (hb : w.M b = some ys) (ho : o ≤ ys.length)
    (h0 : 0 ∈ ys.drop o) : (mkCStr (.at b o) >>= view) s = .ok ((ys.drop o).takeWhile (· != 0)) s := by
  have hle := takeWhile_length_le (ys.drop o)
  have hg : w.Has (.of b o ((ys.drop o).takeWhile (· != 0)).length) :=
    ⟨ys, hb, by rw [List.length_drop] at hle; omega⟩
  refine (M.bind_ok (mkCStr_ok h.inv hb ho h0)).trans ?_
  rw [view_ok h.inv hg]
  simp only [Know.text, hb]
  rw [← List.prefix_iff_eq_take.mp (List.takeWhile_prefix _)]

end

end Ptl.View

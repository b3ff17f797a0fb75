import Verif.Str.Props.Values

/-!
# C87: views that reach over the null terminator

`c_str()[size()]` is readable, so `std::string_view{s.c_str(), s.size() + 1}` is a valid view (string.hpp:381, 87-95).
Here it is passed to the members that take a view or a range of forward iterators (string.hpp:427-440, 447-456, 473-490,
502-521).
-/

namespace Ptl.Str

variable {s s' : St} {V V' : Vars}

/-! ## the calls, and what they should do -/

/-- append, assign, insert at `p`, replace from `f` to `l` -/
inductive RCall where
  | append
  | assign
  | insert (p : Nat)
  | replace (f l : Nat)

/-- the call on variable `i` with the range `src` -/
def RCall.op (i : Nat) (src : List Src) : RCall → Op
  | .append => .appendRange i src
  | .assign => .assignRange i src
  | .insert p => .insertRange i p src
  | .replace f l => .replaceRange i f l src

/-- positions are within the string -/
def RCall.Pre (xs : List UInt8) : RCall → Prop
  | .append | .assign => True
  | .insert p => p ≤ xs.length
  | .replace f l => f ≤ l ∧ l ≤ xs.length

/-- the contents afterwards, if the range consists of the bytes `bs` -/
def RCall.result (xs bs : List UInt8) : RCall → List UInt8
  | .append => xs ++ bs
  | .assign => bs
  | .insert p => xs.take p ++ bs ++ xs.drop p
  | .replace f l => xs.take f ++ bs ++ xs.drop l

/-- the position of the returned iterator -/
def RCall.ret : RCall → Option Nat
  | .insert p => some p
  | _ => none

/-! ## forming and reading the range -/

/-- the pointers `base + off, base + off + 1, …` -/
def ptrs (q : Base) (off n : Nat) : List Arg := (List.range n).map fun k => .at ⟨some q, off + k⟩

theorem ptrs_succ (q : Base) (off n : Nat) : ptrs q off (n + 1) = ptrs q off n ++ [.at ⟨some q, off + n⟩] := by
  simp [ptrs, List.range_succ]

theorem ptrs_thr {q : Base} {off n : Nat} {b : UInt8} : .thr b ∉ ptrs q off n := by simp [ptrs]

theorem resolveAll_slice (hw : WF s) {j : Nat} {w : Vw} (hj : abs s (.var j) = some w) (off n : Nat) :
    Src.resolveAll (slice j off n) s = .ok (ptrs w.base off n) s := by
  induction n generalizing off with
  | zero => rfl
  | succ n ih =>
    have e : slice j off (n + 1) = .elem j off :: slice j (off + 1) n := by
      simp [slice, List.range_succ_eq_map, Function.comp_def, Nat.add_assoc, Nat.add_comm 1]
    have e' : ptrs w.base off (n + 1) = .at ⟨some w.base, off⟩ :: ptrs w.base (off + 1) n := by
      simp [ptrs, List.range_succ_eq_map, Function.comp_def, Nat.add_assoc, Nat.add_comm 1]
    have hx : (Src.elem j off).resolve s = .ok (.at ⟨some w.base, off⟩) s := by
      unfold Src.resolve
      mstep (data_ok hw hj)
      simp [Ptr.add]
    rw [e, e']
    unfold Src.resolveAll
    mstep hx
    mstep (ih (off + 1))
    rfl

theorem sees_ptrs {f : Id → Option Vw} {i j : Id} {w : Vw} (hj : f j = some w) {lo off : Nat} :
    ∀ {bs : List UInt8} {A B : List (Option UInt8)}, w.buf = A ++ bs.map some ++ B → A.length = off →
    (j = i → off + bs.length ≤ lo) → SeesAll f i lo (ptrs w.base off bs.length) bs := by
  intro bs
  induction bs generalizing off with
  | nil => intro A B _ _ _; exact .nil
  | cons b bs ih =>
    intro A B hb ho hlo
    have e : ptrs w.base off (b :: bs).length = .at ⟨some w.base, off⟩ :: ptrs w.base (off + 1) bs.length := by
      simp [ptrs, List.range_succ_eq_map, Function.comp_def, Nat.add_assoc, Nat.add_comm 1]
    rw [e]
    refine .cons (.ptr hj (by rw [hb]; simp [← ho]) fun h => ?_) (ih (A := A ++ [some b]) (B := B) (by rw [hb]; simp) (by simp [ho]) fun h => ?_)
    · have := hlo h; simp at this; omega
    · have := hlo h; simp at this; omega

/-! ## the range as bytes -/

theorem bind2 {σ α β : Type} {m : M σ α} {f g : α → M σ β} {s s1 : σ} {a : α} (h : m s = .ok a s1) (hfg : f a s1 = g a s1) :
    (m >>= f) s = (m >>= g) s := (M.bind_ok h).trans (hfg.trans (M.bind_ok h).symm)

/-- when there is room, the members only read the range in the initial copy -/
structure SameCopy (s : St) (v : Vw) (as as' : List Arg) : Prop where
  len : as.length = as'.length
  copy : as = as' ∨ (szAdd as.length v.siz ≤ v.cap ∧ copyRange as ⟨some v.base, v.siz⟩ s = copyRange as' ⟨some v.base, v.siz⟩ s)

section same
variable {v : Vw} {as as' : List Arg} (h : SameCopy s v as as') (hw : WF s) {i : Id} (hv : abs s i = some v)
include h hw hv

theorem SameCopy.append : appendRange i as s = appendRange i as' s := by
  rcases h.copy with rfl | ⟨hc, he⟩
  · rfl
  unfold appendRange
  refine bind2 (size_ok hw hv) (bind2 (capacity_ok hw hv) ?_)
  rw [← h.len, if_pos hc, if_pos hc]
  refine bind2 (data_ok hw hv) (M.bind_congr ?_)
  simpa [Ptr.add] using he

theorem SameCopy.assign : assignRange i as s = assignRange i as' s := by
  rcases h.copy with rfl | ⟨hc, he⟩
  · rfl
  unfold assignRange
  refine bind2 (size_ok hw hv) (bind2 (capacity_ok hw hv) ?_)
  rw [← h.len, if_pos hc, if_pos hc]
  refine bind2 (data_ok hw hv) (M.bind_congr ?_)
  simpa [Ptr.add] using he

theorem SameCopy.insert (p : Nat) : insertRange i ⟨some v.base, p⟩ as s = insertRange i ⟨some v.base, p⟩ as' s := by
  rcases h.copy with rfl | ⟨hc, he⟩
  · rfl
  unfold insertRange
  refine bind2 (data_ok hw hv) (bind2 (distance_ok (by omega)) (bind2 (size_ok hw hv) (bind2 (capacity_ok hw hv) ?_)))
  rw [← h.len, if_pos hc, if_pos hc]
  refine M.bind_congr (M.bind_congr ?_)
  simpa [Ptr.add] using he

theorem SameCopy.replace (f l : Nat) :
    replaceRange i ⟨some v.base, f⟩ ⟨some v.base, l⟩ as s = replaceRange i ⟨some v.base, f⟩ ⟨some v.base, l⟩ as' s := by
  rcases h.copy with rfl | ⟨hc, he⟩
  · rfl
  unfold replaceRange
  refine bind2 (size_ok hw hv) (bind2 (capacity_ok hw hv) ?_)
  rw [← h.len, if_pos hc, if_pos hc]
  refine bind2 (data_ok hw hv) (M.bind_congr ?_)
  simpa [Ptr.add] using he

end same

/-- from the effect on the string object to what the client sees -/
theorem Does.of_runs (hinv : Inv s) {i : Nat} {v : Vw} {xs ys : List UInt8} {t : UInt8} (hv : abs s (.var i) = some v)
    {β : Type} {m : SM β} {k : β → SM (Option Nat)} {op : Op} {r : Option Nat} {src : List Arg} {stay : Prop} {ret : Vw → β}
    (hh : Holds v xs t) (hr : Runs m s (.var i) v xs src ys stay ret) (ht : ∀ b, .thr b ∉ src)
    (hk : ∀ s' v', WF s' → abs s' (.var i) = some v' → k (ret v') s' = .ok r s') (hop : op.run s = (m >>= k) s) :
    Does s op i ys r := by
  rcases hr with ⟨s', v', hm, st, hh', _⟩ | ⟨s', e, v', hm, st, hkept, hy, _⟩
  · have hi' : Inv s' := Inv.one hinv st (fun v h => by cases h; exact ⟨_, _, hh'⟩)
    refine .inl ⟨s', hop.trans ((M.bind_ok hm).trans (hk s' v' st.wf st.at)), ⟨_, _, _, hi'.shows st.at hh'⟩, ?_⟩
    intro j hj d c zs u hsh
    obtain ⟨w, hwj, rfl, rfl, hhj⟩ := hinv.of_shows hsh
    exact hi'.shows (by rw [st.ne (by rintro ⟨⟩; exact hj rfl)]; exact hwj) hhj
  · have hne : e ≠ .user := by
      rintro rfl
      cases hy with
      | user hb _ => exact ht _ hb
    obtain rfl := hkept.2.2.2 hne
    rw [upd_eq _ _ _ hv] at st
    refine .inr ⟨e, s', hop.trans (M.bind_exc hm), ?_, ?_, hinv.wf.ext st.wf st.abs⟩
    · cases hy with
      | length => exact .inl rfl
      | mem => exact .inr rfl
      | user => exact absurd rfl hne
    · cases hy with
      | length h => unfold maxSize ptrdiffMax at h; omega
      | mem h => exact h
      | user => exact absurd rfl hne

/-- a call with a range that is read as `bs` -/
theorem rcall_does (hinv : Inv s) {i : Nat} {v : Vw} {xs : List UInt8} {t : UInt8} (hv : abs s (.var i) = some v)
    (hh : Holds v xs t) {c : RCall} (hp : c.Pre xs) {l : List Src} {as as' : List Arg} {bs : List UInt8} {lo : Nat}
    (hr : Src.resolveAll l s = .ok as s) (hsame : SameCopy s v as as') (hse : SeesAll (abs s) (.var i) lo as' bs)
    (hlo : xs.length + bs.length ≤ v.cap → lo ≤ xs.length) (ht : ∀ b, .thr b ∉ as')
    (hn : xs.length + bs.length + 23 < 2 ^ 64) : Does s (c.op i l) i (c.result xs bs) c.ret := by
  have hw := hinv.wf
  cases c with
  | append =>
    exact .of_runs hinv hv hh (appendRange_run hw hv hh hse hlo hn) ht (k := fun _ => pure none) (fun _ _ _ _ => rfl)
      ((M.bind_ok hr).trans (M.bind_congr (hsame.append hw hv)))
  | assign =>
    exact .of_runs hinv hv hh (assignRange_run (bs := bs) hw hv hh hse hlo (by rw [← pow64]; omega) (by rw [← pow64]; omega)) ht
      (k := fun _ => pure none) (fun _ _ _ _ => rfl) ((M.bind_ok hr).trans (M.bind_congr (hsame.assign hw hv)))
  | insert p =>
    have hp' : p ≤ xs.length := hp
    have hl : (xs.take p).length = p := by simp; omega
    have hx : xs.take p ++ xs.drop p = xs := List.take_append_drop _ _
    have hrun := insertRange_run hw hv (pre := xs.take p) (post := xs.drop p) (by rw [hx]; exact hh) hse (by rw [hx]; exact hlo)
      (by rw [← pow64]; simp; omega)
    rw [hl, hx] at hrun
    exact .of_runs hinv hv hh hrun ht (k := offset i) (fun _ _ hw' h => offset_ok hw' h)
      ((M.bind_ok hr).trans ((M.bind_ok (pos_ok hw hv p)).trans (M.bind_congr (hsame.insert hw hv p))))
  | replace f e =>
    obtain ⟨h1, h2⟩ : f ≤ e ∧ e ≤ xs.length := hp
    have hl : (xs.take f).length = f := by simp; omega
    have hm : ((xs.drop f).take (e - f)).length = e - f := by simp; omega
    have hx : xs.take f ++ (xs.drop f).take (e - f) ++ xs.drop e = xs := by
      have : xs.drop e = (xs.drop f).drop (e - f) := by rw [List.drop_drop]; congr 1; omega
      rw [this, List.append_assoc, List.take_append_drop, List.take_append_drop]
    have hrun := replaceRange_run hw hv (pre := xs.take f) (mid := (xs.drop f).take (e - f)) (post := xs.drop e)
      (by rw [hx]; exact hh) hse (by rw [hx]; exact hlo) (by rw [← pow64, hl, hm]; simp; omega)
    rw [hl, hm, hx, show f + (e - f) = e by omega] at hrun
    exact .of_runs hinv hv hh hrun ht (k := fun _ => pure none) (fun _ _ _ _ => rfl)
      ((M.bind_ok hr).trans ((M.bind_ok (pos_ok hw hv f)).trans ((M.bind_ok (pos_ok hw hv e)).trans
        (M.bind_congr (hsame.replace hw hv f e)))))

/-! ## C87 -/

/-- C87, where it holds: a range of bytes of string `j` that includes its null terminator is treated as if it had been
copied first, if `j` is another string, or the result of the call needs a new buffer.
Missing: ranges of the string's own bytes when there is room; there the claim is false, see `C87_exact`. -/
theorem C87_partial (h : Clean s V) {i j : Nat} {xs a bs : List UInt8} (hi : V i = some xs) (hj : V j = some (a ++ bs))
    {c : RCall} (hp : c.Pre xs) (hn : xs.length + (bs.length + 1) + 23 < 2 ^ 64)
    (hij : i ≠ j ∨ ∀ d k ys t, Shows s i d k ys t → k < xs.length + (bs.length + 1)) :
    Does s (c.op i (slice j a.length (bs.length + 1))) i (c.result xs (bs ++ [0])) c.ret := by
  have hz := h.zero
  obtain ⟨hinv, rfl⟩ := h.reach.inv
  obtain ⟨v, t, hv, hh⟩ := vars_some hinv hi
  obtain ⟨w, u, hw, hu⟩ := vars_some hinv hj
  obtain ⟨zs, hzs⟩ := hz j w hw
  obtain ⟨rfl, rfl⟩ := hu.unique hzs
  obtain ⟨_, rest, hb⟩ := hu
  have hs := sees_ptrs (f := abs s) (i := .var i) hw (lo := if i = j then xs.length + 1 else 0) (off := a.length) (bs := bs ++ [0])
    (A := a.map some) (B := rest) (by rw [hb]; simp) (by simp) (by
      rintro ⟨⟩
      rw [if_pos rfl]
      rw [hi] at hj; cases hj
      simp; omega)
  rw [List.length_append, List.length_singleton] at hs
  refine rcall_does hinv hv hh hp (resolveAll_slice hinv.wf hw _ _) ⟨rfl, .inl rfl⟩ hs ?_ (fun b => ptrs_thr) (by simp; omega)
  intro hc
  by_cases e : i = j
  · rcases hij with hij | hij
    · exact absurd e hij
    · have := hij _ _ _ _ (hinv.shows hv hh)
      simp at hc; omega
  · rw [if_neg e]; exact Nat.zero_le _

theorem copyRange_snoc {as : List Arg} {a a' : Arg} {dst : Ptr} {s s1 : St} (h : copyRange as dst s = .ok () s1)
    (ha : a.deref s1 = a'.deref s1) : copyRange (as ++ [a]) dst s = copyRange (as ++ [a']) dst s := by
  induction as generalizing s dst with
  | nil => cases h; exact M.bind_congr ha
  | cons x as ih =>
    simp only [copyRange, List.cons_append, M.bind_run] at h ⊢
    cases hx : x.deref s with
    | ok b s2 =>
      rw [hx] at h
      simp only [] at h ⊢
      cases hy : writeAt dst b s2 with
      | ok _ s3 =>
        rw [hy] at h
        exact ih h
      | exc => rfl
      | ub => rfl
      | term => rfl
    | exc => rfl
    | ub => rfl
    | term => rfl

/-- C87, exactly what happens with the string's own bytes from offset `a.length` through the null terminator when there
is room: the first byte copied has overwritten the terminator before it is read, so the range is treated as if it ended
with its own first byte instead of a null character -/
theorem C87_exact (h : Clean s V) {i : Nat} {a bs : List UInt8} (hi : V i = some (a ++ bs)) {c : RCall}
    (hp : c.Pre (a ++ bs)) {d : Ptr} {k : Nat} {ys : List UInt8} {t : UInt8} (hs : Shows s i d k ys t)
    (hk : (a ++ bs).length + (bs.length + 1) ≤ k) :
    Does s (c.op i (slice i a.length (bs.length + 1))) i (c.result (a ++ bs) (bs ++ [bs.headD 0])) c.ret := by
  have hz := h.zero
  obtain ⟨hinv, rfl⟩ := h.reach.inv
  obtain ⟨v, hv, rfl, rfl, hh⟩ := hinv.of_shows hs
  obtain ⟨zs, hzs⟩ := hz i v hv
  obtain ⟨rfl, rfl⟩ := hh.unique hzs
  have e : ys = a ++ bs := by
    have := vars_of_abs hv hh
    rw [hi] at this; exact (Option.some.inj this).symm
  subst e
  have hw := hinv.wf
  have hcap := hw.lt hv
  have hsz : v.siz = a.length + bs.length := by rw [hh.1]; simp
  obtain ⟨rest, hb⟩ := hh.2
  have hse := sees_ptrs (f := abs s) (i := .var i) hv (lo := (a ++ bs).length) (off := a.length) (bs := bs)
    (A := a.map some) (B := some 0 :: rest) (by rw [hb]; simp) (by simp) (by simp)
  have hse' : SeesAll (abs s) (.var i) (a ++ bs).length (ptrs v.base a.length bs.length ++ [.val (bs.headD 0)]) (bs ++ [bs.headD 0]) := by
    have app : ∀ {as : List Arg} {cs : List UInt8}, SeesAll (abs s) (.var i) (a ++ bs).length as cs →
        SeesAll (abs s) (.var i) (a ++ bs).length (as ++ [.val (bs.headD 0)]) (cs ++ [bs.headD 0]) := by
      intro as cs h
      induction h with
      | nil => exact .cons (.val _) .nil
      | cons h1 _ ih => exact .cons h1 ih
    exact app hse
  refine rcall_does hinv hv hh hp (resolveAll_slice hw hv _ _) (as' := ptrs v.base a.length bs.length ++ [.val (bs.headD 0)]) ?_ hse'
    (fun _ => Nat.le_refl _) (fun b hb => ?_) (by simp at hk ⊢; unfold ptrdiffMax at hcap; omega)
  · rw [ptrs_succ]
    refine ⟨by simp, .inr ⟨?_, ?_⟩⟩
    · rw [hsz, szAdd_eq (by simp [ptrs] at hk ⊢; unfold ptrdiffMax at hcap; unfold szMod; omega)]
      simp [ptrs] at hk ⊢; omega
    · rcases copyBehind hw hv hh hse (Nat.le_refl _) (by simp at hk ⊢; omega) with
        ⟨s1, v1, y, Y, hr1, st1, hb1, hc1, hz1, hbuf⟩ | ⟨s1, v1, hr1, st1, hkp, hy⟩
      · rw [hh.1]
        refine copyRange_snoc hr1 ?_
        show readAt ⟨some v.base, a.length + bs.length⟩ s1 = .ok (bs.headD 0) s1
        cases bs with
        | nil =>
          cases hr1
          exact readAt_mem (hw.mem hv) (by rw [hb]; simp)
        | cons b bs =>
          rw [← hb1]
          exact readAt_mem (st1.wf.mem st1.at) (by rw [hbuf]; simp)
      · cases hy with
        | user hb _ => exact absurd hb ptrs_thr
  · rcases List.mem_append.1 hb with hb | hb
    · exact ptrs_thr hb
    · simp at hb

/-- C87 fails: a string with room for the result, and any range of its own bytes that starts with a byte other than a
null character and includes the null terminator.  When the call returns, the string does not have the contents it has
for a copy of the range. -/
theorem C87_refuted (h : Clean s V) {i : Nat} {a bs : List UInt8} {b : UInt8} (hi : V i = some (a ++ b :: bs)) (hb : b ≠ 0)
    {c : RCall} (hp : c.Pre (a ++ b :: bs)) {d : Ptr} {k : Nat} {ys : List UInt8} {t : UInt8} (hs : Shows s i d k ys t)
    (hk : (a ++ b :: bs).length + ((b :: bs).length + 1) ≤ k) {r : Option Nat}
    (hr : (c.op i (slice i a.length ((b :: bs).length + 1))).run s = .ok r s') {d' : Ptr} {k' : Nat} {t' : UInt8} :
    ¬ Shows s' i d' k' (c.result (a ++ b :: bs) (b :: bs ++ [0])) t' := by
  intro hd
  rcases C87_exact h hi hp hs hk with ⟨s1, hr1, ⟨d1, k1, t1, hs1⟩, _⟩ | ⟨e, s1, hr1, _⟩
  · rw [hr] at hr1; cases hr1
    have := (hd.unique hs1).2.2.1
    cases c <;> simp [RCall.result] at this <;> exact hb this.symm
  · rw [hr] at hr1; cases hr1

/-- such calls do return: in the demo state, `s.append(std::string_view{s.c_str(), 4})` on "abc" gives "abcabca" instead
of "abcabc\0" -/
theorem C87_refuted_abc : ∃ (s s' : St) (d : Ptr) (k : Nat) (t : UInt8), Clean s demoV ∧ demoV 0 = some abc ∧
    (Op.appendRange 0 (slice 0 0 4)).run s = .ok none s' ∧ Shows s' 0 d k (abc ++ abc ++ [97]) t ∧
    abc ++ abc ++ [97] ≠ abc ++ (abc ++ [0]) := by
  obtain ⟨s, h, _⟩ := demo
  obtain ⟨d, k, t, hs⟩ := h.reach.shows (i := 0) (xs := abc) rfl
  have hk : 22 ≤ k := by
    obtain ⟨v, hv, _, rfl, _⟩ := h.reach.inv.1.of_shows hs
    rcases (h.reach.inv.1.wf.gd hv).shape with ⟨_, e⟩ | ⟨_, _, e, _⟩ <;> omega
  rcases C87_exact h (i := 0) (a := []) (bs := abc) rfl (c := .append) trivial hs (by simp [abc]; omega) with
    ⟨s', hr, ⟨d', k', t', hs'⟩, _⟩ | ⟨_, _, _, _, hlen, _⟩
  · exact ⟨s, s', d', k', t', h, rfl, hr, hs', by decide⟩
  · simp [RCall.result, abc] at hlen

-- a view of another string with its terminator, and an own view that needs a new buffer
example : ∃ s, Does s (.insertRange 0 1 (slice 1 28 3)) 0 [97, 29, 30, 0, 98, 99] (some 1) := by
  obtain ⟨s, h, _⟩ := demo
  exact ⟨s, C87_partial h (i := 0) (j := 1) (xs := abc) (a := thirty.take 28) (bs := [29, 30]) rfl rfl (c := .insert 1) (show 1 ≤ 3 by decide)
    (by decide) (.inl (by decide))⟩

end Ptl.Str

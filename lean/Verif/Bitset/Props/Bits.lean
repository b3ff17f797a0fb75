import Verif.Bitset.Hist

/-!
# C29–C34: bitset contents

`Reach n s V` says that the program state `s` of a program using bitsets of `n` bits was reached by some history of calls
after which the client expects the contents `V`.
-/

namespace Ptl.Bitset

variable {n : Nat} {s s' : St} {V V' : View n} {i j k : Nat} {f g : Bits n} {op : Op} {r : Except Exc Res}

/-- what a client sees of bitset `i`: every bit, through `test`, `at() const` and `operator[] const` -/
structure Shows (n : Nat) (s : St) (i : Nat) (f : Bits n) : Prop where
  test : ∀ k : Fin n, (Op.test i k).run n s = .ok (.bool (f k)) s
  atConst : ∀ k : Fin n, (Op.atConst i k).run n s = .ok (.bool (f k)) s
  index : ∀ k : Fin n, (Op.index i k).run n s = .ok (.bool (f k)) s

theorem Shows.unique (h : Shows n s i f) (h' : Shows n s i g) : f = g := by
  funext k
  have := (h.test k).symm.trans (h'.test k)
  injection this with e
  injection e

theorem bitAt_fin (f : Bits n) (k : Fin n) : bitAt f k = f k := by simp [bitAt]

theorem Inv.shows (h : Inv s V) (hi : V.var i = some f) : Shows n s i f := by
  obtain ⟨xs, h1, h2⟩ := h.live i f hi
  refine ⟨fun k => ?_, fun k => ?_, fun k => ?_⟩
  · rw [← bitAt_fin f k]; exact M.bind_ok (test_ok h1 h2 k.2)
  · rw [← bitAt_fin f k]; exact M.bind_ok (test_ok h1 h2 k.2)
  · rw [← bitAt_fin f k]; exact M.bind_ok (index_ok h1 h2 k.2)

/-- **C29** every call of every history does what the bitwise specification `Op.spec` says: it returns the specified
result (or throws the specified exception) and afterwards every bitset shows the specified bits -/
theorem C29_refines (h : Reach n s V) (hs : op.spec V = some (r, V')) :
    ∃ s', op.run n s = outcome r s' ∧ Reach n s' V' ∧ ∀ j f, V'.var j = some f → Shows n s' j f := by
  obtain ⟨s', e, h'⟩ := h.next hs
  exact ⟨s', e, h', fun j f hj => h'.inv.shows hj⟩

/-- **C29** the storage has exactly the bytes it needs, and every storage bit beyond `Size` is zero after every history -/
theorem C29_unused_bits_clear (h : Reach n s V) {bs : List Byte} (hb : s.obj i = some bs) :
    bs.length = max 1 ((n + 7) / 8) ∧
      ∀ p b q, bs[p]? = some b → q < 8 → n ≤ 8 * p + q → b.getLsbD q = false := by
  cases hv : V.var i with
  | none => rw [h.inv.dead i hv] at hb; cases hb
  | some f =>
    obtain ⟨xs, h1, h2⟩ := h.inv.live i f hv
    rw [h1] at hb
    obtain rfl : xs = bs := Option.some.inj hb
    refine ⟨?_, fun p b q hp hq hn => ?_⟩
    · rw [h2.len]; unfold bytes; split <;> (try split) <;> omega
    · have := bit_mul (xs := xs) p q hq
      rw [h2.out hn, List.getD_eq_getElem?_getD, hp] at this
      exact this.symm

/-- **C29** spelled out for the operators: the bits of the results -/
theorem C29_operators (h : Reach n s V) (hi : V.var i = some f) (hj : V.var j = some g) (hk : V.var k = none) :
    (∃ s', (Op.opAnd k i j).run n s = .ok .unit s' ∧ Shows n s' k fun l => f l && g l) ∧
    (∃ s', (Op.opOr k i j).run n s = .ok .unit s' ∧ Shows n s' k fun l => f l || g l) ∧
    (∃ s', (Op.opXor k i j).run n s = .ok .unit s' ∧ Shows n s' k fun l => f l != g l) ∧
    (∃ s', (Op.opNot k i).run n s = .ok .unit s' ∧ Shows n s' k fun l => !f l) := by
  have go : ∀ (op : Op) (q : Bits n), op.spec V = some (.ok .unit, V.put k q) → ∃ s', op.run n s = .ok .unit s' ∧ Shows n s' k q := by
    intro op q hs
    obtain ⟨s', e, _, h3⟩ := C29_refines h hs
    exact ⟨s', e, h3 k q (by simp [View.put])⟩
  refine ⟨go _ _ ?_, go _ _ ?_, go _ _ ?_, go _ _ ?_⟩ <;> simp [Op.spec, View.use, View.create, hi, hj, hk]

/-- **C30** two bitsets compare equal iff all their bits agree; `!=` is the negation -/
theorem C30_eq_iff (h : Reach n s V) (hi : Shows n s i f) (hj : Shows n s j g) (hi' : V.var i ≠ none) (hj' : V.var j ≠ none) :
    ∃ b, (Op.opEq i j).run n s = .ok (.bool b) s ∧ (Op.opNe i j).run n s = .ok (.bool (!b)) s ∧ (b = true ↔ f = g) := by
  obtain ⟨f', hf⟩ := Option.ne_none_iff_exists'.1 hi'
  obtain ⟨g', hg⟩ := Option.ne_none_iff_exists'.1 hj'
  cases (h.inv.shows hf).unique hi
  cases (h.inv.shows hg).unique hj
  obtain ⟨xs, h1, h2⟩ := h.inv.live i f hf
  obtain ⟨ys, h3, h4⟩ := h.inv.live j g hg
  refine ⟨_, M.bind_ok (opEq_ok h1 h2 h3 h4), ?_, ?_⟩
  · refine (M.bind_ok (opNe_ok h1 h2 h3 h4)).trans ?_
    rw [M.pure_run]
    congr 2
    rw [Bool.eq_iff_iff]
    simp
  · rw [decide_eq_true_iff]; exact funext_iff.symm

/-- **C30** bitsets with equal bits hash equally, whatever the histories that produced them -/
theorem C30_hash {sa sb : St} {Va Vb : View n} (ha : Reach n sa Va) (hb : Reach n sb Vb) (hi : Va.var i = some f) (hj : Vb.var j = some f) :
    ∃ x, hash n i sa = .ok x sa ∧ hash n j sb = .ok x sb := by
  obtain ⟨xs, h1, h2⟩ := ha.inv.live i f hi
  obtain ⟨ys, h3, h4⟩ := hb.inv.live j f hj
  have : xs = ys := (h2.inj h4).2 rfl
  subst this
  unfold hash
  split
  · exact ⟨_, rfl, rfl⟩
  · exact ⟨_, M.bind_ok (getObj_ok h1), M.bind_ok (getObj_ok h3)⟩

/-- the number of indices satisfying a predicate, by listing all indices -/
def cardTrue (f : Bits n) : Nat := ((List.finRange n).filter f).length

theorem countTo_card (f : Bits n) : countTo f n = cardTrue f := by
  have key : ∀ m (hm : m ≤ n), countTo f m = (((List.finRange m).map (Fin.castLE hm)).filter f).length := by
    intro m
    induction m with
    | zero => intro _; rfl
    | succ m ih =>
      intro hm
      rw [countTo, ih (by omega), List.finRange_succ_last]
      simp only [List.map_append, List.map_map, List.filter_append, List.length_append, List.map_cons, List.map_nil]
      congr 1
      have e : bitAt f m = f (Fin.castLE hm (Fin.last m)) := by
        simp only [bitAt, dif_pos (show m < n by omega)]; rfl
      rw [e]
      cases h : f (Fin.castLE hm (Fin.last m)) <;> simp [h]
  rw [key n (Nat.le_refl n)]
  unfold cardTrue
  have : (List.finRange n).map (Fin.castLE (Nat.le_refl n)) = List.finRange n := by
    conv => rhs; rw [← List.map_id (List.finRange n)]
    rfl
  rw [this]

/-- **C31** `count()` is the number of set bits; `all()`, `any()`, `none()` hold iff every, some, no bit is set -/
theorem C31_queries (h : Reach n s V) (hi : V.var i = some f) :
    (Op.count i).run n s = .ok (.nat (cardTrue f)) s ∧
    (∃ b, (Op.allSet i).run n s = .ok (.bool b) s ∧ (b = true ↔ ∀ k, f k = true)) ∧
    (∃ b, (Op.anySet i).run n s = .ok (.bool b) s ∧ (b = true ↔ ∃ k, f k = true)) ∧
    (∃ b, (Op.noneSet i).run n s = .ok (.bool b) s ∧ (b = true ↔ ∀ k, f k = false)) := by
  obtain ⟨xs, h1, h2⟩ := h.inv.live i f hi
  refine ⟨?_, ⟨_, M.bind_ok (allSet_ok h1 h2), decide_eq_true_iff⟩, ⟨_, M.bind_ok (anySet_ok h1 h2), decide_eq_true_iff⟩,
    ⟨_, M.bind_ok (noneSet_ok h1 h2), decide_eq_true_iff⟩⟩
  rw [← countTo_card]
  exact M.bind_ok (count_ok h1 h2)

/-- **C31** the conversion to `bool` (where it is enabled) holds iff some bit is set -/
theorem C31_bool (h : Reach n s V) (hi : V.var i = some f) : ∃ b, toBool n i s = .ok b s ∧ (b = true ↔ ∃ k, f k = true) := by
  obtain ⟨xs, h1, h2⟩ := h.inv.live i f hi
  exact ⟨_, anySet_ok h1 h2, decide_eq_true_iff⟩

/-- **C32** shifts by any amount, in place and into a new bitset; the operand of the latter is unchanged -/
theorem C32_shifts (h : Reach n s V) (hi : V.var i = some f) (hj : V.var j = none) (c : Nat) :
    (∃ s' g, (Op.shlA i c).run n s = .ok .unit s' ∧ Shows n s' i g ∧
      ∀ k : Fin n, g k = if c ≤ k.1 then bitAt f (k.1 - c) else false) ∧
    (∃ s' g, (Op.shrA i c).run n s = .ok .unit s' ∧ Shows n s' i g ∧
      ∀ k : Fin n, g k = if k.1 + c < n then bitAt f (k.1 + c) else false) ∧
    (∃ s' g, (Op.opShl j i c).run n s = .ok .unit s' ∧ Shows n s' i f ∧ Shows n s' j g ∧
      ∀ k : Fin n, g k = if c ≤ k.1 then bitAt f (k.1 - c) else false) ∧
    (∃ s' g, (Op.opShr j i c).run n s = .ok .unit s' ∧ Shows n s' i f ∧ Shows n s' j g ∧
      ∀ k : Fin n, g k = if k.1 + c < n then bitAt f (k.1 + c) else false) := by
  have hij : i ≠ j := by rintro rfl; rw [hi] at hj; cases hj
  have up : ∀ k : Fin n, shiftUp f c k = if c ≤ k.1 then bitAt f (k.1 - c) else false := by
    intro k; simp only [shiftUp, bitAt]; split
    · rw [dif_pos (by omega)]
    · rfl
  have down : ∀ k : Fin n, shiftDown f c k = if k.1 + c < n then bitAt f (k.1 + c) else false := by
    intro k; simp only [shiftDown, bitAt]; split <;> simp_all
  refine ⟨?_, ?_, ?_, ?_⟩
  · obtain ⟨s', e, _, h3⟩ := C29_refines (op := .shlA i c) h (by simp [Op.spec, View.modify, View.use, hi]; exact ⟨rfl, rfl⟩)
    exact ⟨s', _, e, h3 i (shiftUp f c) (by simp [View.put]), up⟩
  · obtain ⟨s', e, _, h3⟩ := C29_refines (op := .shrA i c) h (by simp [Op.spec, View.modify, View.use, hi]; exact ⟨rfl, rfl⟩)
    exact ⟨s', _, e, h3 i (shiftDown f c) (by simp [View.put]), down⟩
  · obtain ⟨s', e, _, h3⟩ := C29_refines (op := .opShl j i c) h (by simp [Op.spec, View.create, View.use, hi, hj]; exact ⟨rfl, rfl⟩)
    exact ⟨s', _, e, h3 i f (by simp [View.put, upd_ne _ _ hij, hi]), h3 j (shiftUp f c) (by simp [View.put]), up⟩
  · obtain ⟨s', e, _, h3⟩ := C29_refines (op := .opShr j i c) h (by simp [Op.spec, View.create, View.use, hi, hj]; exact ⟨rfl, rfl⟩)
    exact ⟨s', _, e, h3 i f (by simp [View.put, upd_ne _ _ hij, hi]), h3 j (shiftDown f c) (by simp [View.put]), down⟩

/-- the index-checked members -/
def IndexCall (i k : Nat) (op : Op) : Prop :=
  op = .test i k ∨ op = .atConst i k ∨ op = .resetAt i k ∨ op = .flipAt i k ∨ op = .atFlip i k ∨ (∃ v, op = .setAt i k v) ∨ ∃ v, op = .atSet i k v

/-- **C33** an index `≥ Size` makes every index-checked member throw `out_of_range` and change nothing at all -/
theorem C33_out_of_range (hk : n ≤ k) (hop : IndexCall i k op) :
    op.run n s = .exc .outOfRange s := by
  have hk' : ¬ k < n := by omega
  rcases hop with rfl | rfl | rfl | rfl | rfl | ⟨v, rfl⟩ | ⟨v, rfl⟩
  · exact M.bind_exc (atConst_exc hk')
  · exact M.bind_exc (atConst_exc hk')
  · exact M.bind_exc (resetAt_exc hk')
  · exact M.bind_exc (flipAt_exc hk')
  · exact M.bind_exc (atRef_exc hk')
  · exact M.bind_exc (setAt_exc hk' v)
  · exact M.bind_exc (atRef_exc hk')

/-- **C33** with an index `< Size` they read or change exactly that bit of that bitset -/
theorem C33_in_range (h : Reach n s V) (hi : V.var i = some f) (k : Fin n) :
    (Op.test i k).run n s = .ok (.bool (f k)) s ∧ (Op.atConst i k).run n s = .ok (.bool (f k)) s ∧
    ∀ (op : Op) (v : Bool), (op = .setAt i k v ∨ op = .atSet i k v ∨ (v = false ∧ op = .resetAt i k) ∨
        (v = (!f k) ∧ (op = .flipAt i k ∨ op = .atFlip i k))) →
      ∃ s' f', op.run n s = .ok .unit s' ∧ Reach n s' (V.put i f') ∧ Shows n s' i f' ∧ f' k = v ∧ (∀ l, l ≠ k → f' l = f l) ∧
        ∀ j g, j ≠ i → V.var j = some g → Shows n s' j g := by
  refine ⟨(h.inv.shows hi).test k, (h.inv.shows hi).atConst k, fun op v hop => ?_⟩
  have hs : op.spec V = some (.ok .unit, V.put i (setBit f k v)) := by
    rcases hop with rfl | rfl | ⟨rfl, rfl⟩ | ⟨rfl, rfl | rfl⟩ <;> simp [Op.spec, View.checked, View.use, hi, bitAt_fin]
  obtain ⟨s', e, h', h3⟩ := C29_refines h hs
  refine ⟨s', _, e, h', h3 i _ (by simp [View.put]), by simp [setBit], fun l hl => ?_, fun j g hj hg => ?_⟩
  · have : l.1 ≠ k.1 := fun h => hl (Fin.ext h)
    simp [setBit, this]
  · exact h3 j g (by simp [View.put, upd_ne _ _ hj, hg])

/-- **C33** `operator[]` and `get<Index>`, for which the index has to be valid, read exactly that bit -/
theorem C33_get (h : Reach n s V) (hi : V.var i = some f) (k : Fin n) : index n i k s = .ok (f k) s ∧ get n i k s = .ok (f k) s := by
  obtain ⟨xs, h1, h2⟩ := h.inv.live i f hi
  have := index_ok h1 h2 k.2
  rw [bitAt_fin] at this
  exact ⟨this, this⟩

/-- **C34** `bitset<Size>(v)` has bit `k` set iff bit `k` of `v` is set (there are no bits `≥ 64` in `v`, and none
`≥ Size` in the bitset) -/
theorem C34_from_integer (h : Reach n s V) (hi : V.var i = none) (v : BitVec 64) :
    ∃ s' f, (Op.ctorVal i v).run n s = .ok .unit s' ∧ Shows n s' i f ∧ ∀ k : Fin n, f k = v.toNat.testBit k := by
  obtain ⟨s', e, _, h3⟩ := C29_refines (op := .ctorVal i v) h (by simp [Op.spec, View.create, hi]; exact ⟨rfl, rfl⟩)
  exact ⟨s', _, e, h3 i (fun k => v.getLsbD k.1) (by simp [View.put]), fun k => by rw [BitVec.testBit_toNat]⟩

/-! ### the hypotheses can be met -/

/-- a program with two bitsets `0` (bits 0 to 10 of 2025) and `1` (all bits) and variable `2` not yet constructed -/
theorem demo (n : Nat) (sp : UInt8 → Bool) : ∃ (s : St) (V : View n), Reach n s V ∧ V.var 0 = some (fun k => (2025#64).getLsbD k.1) ∧
    V.var 1 = some (fun _ => true) ∧ V.var 2 = none ∧ s.is = { past := [], rest := [], isspace := sp } ∧ s.os = { out := [] } := by
  obtain ⟨s1, _, h1⟩ := (Reach.start (n := n) sp).next (op := .ctorVal 0 2025#64) (by simp [Op.spec, View.create]; exact ⟨rfl, rfl⟩)
  obtain ⟨s2, _, h2⟩ := h1.next (op := .ctor 1) (by simp [Op.spec, View.create, View.put, upd]; exact ⟨rfl, rfl⟩)
  obtain ⟨s3, _, h3⟩ := h2.next (op := .flipAll 1) (by simp [Op.spec, View.modify, View.use, View.put, upd]; exact ⟨rfl, rfl⟩)
  refine ⟨s3, _, h3, ?_, ?_, ?_, h3.inv.is, h3.inv.os⟩ <;> simp [upd]

/-- C29–C34 apply to bitsets of 11 bits (two bytes, the last one partly used) -/
example : ∃ (s : St) (V : View 11), Reach 11 s V ∧ V.var 0 ≠ none ∧ V.var 1 ≠ none ∧ V.var 2 = none ∧
    ∃ s', (Op.opAnd 2 0 1).run 11 s = .ok .unit s' ∧ Shows 11 s' 2 (fun l => (2025#64).getLsbD l.1 && true) := by
  obtain ⟨s, V, h, h0, h1, h2, _⟩ := demo 11 (fun _ => false)
  exact ⟨s, V, h, by simp [h0], by simp [h1], h2, (C29_operators h h0 h1 h2).1⟩

/-- and `count()` of 2025 in 11 bits is 8 -/
example : ∃ (s : St) (V : View 11), Reach 11 s V ∧ (Op.count 0).run 11 s = .ok (.nat 8) s := by
  obtain ⟨s, V, h, h0, _⟩ := demo 11 (fun _ => false)
  have := (C31_queries h h0).1
  rw [show cardTrue (n := 11) (fun k => (2025#64).getLsbD k.1) = 8 by decide] at this
  exact ⟨s, V, h, this⟩

/-- of 2025, bit 0 is set, bit 1 is not, and the bitset converts to `true` -/
example : ∃ (s : St) (V : View 11), Reach 11 s V ∧ get 11 0 0 s = .ok true s ∧ get 11 0 1 s = .ok false s ∧ toBool 11 0 s = .ok true s := by
  obtain ⟨s, V, h, h0, _⟩ := demo 11 (fun _ => false)
  obtain ⟨b, hb, hb'⟩ := C31_bool h h0
  rw [hb'.2 ⟨0, by decide⟩] at hb
  exact ⟨s, V, h, (C33_get h h0 0).2, (C33_get h h0 1).2, hb⟩

/-- also for `Size == 0` -/
example : ∃ (s : St) (V : View 0), Reach 0 s V ∧ (Op.test 0 0).run 0 s = .exc .outOfRange s := by
  obtain ⟨s, V, h, h0, _⟩ := demo 0 (fun _ => false)
  exact ⟨s, V, h, C33_out_of_range (Nat.le_refl 0) (.inl rfl)⟩

end Ptl.Bitset

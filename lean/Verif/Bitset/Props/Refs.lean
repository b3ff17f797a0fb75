import Verif.Bitset.Props.Bits

/-! # C37, C38: references to bits -/

namespace Ptl.Bitset

variable {n : Nat} {s s' : St} {V V' : View n} {i j k l : Nat} {f g : Bits n}

/-- what C37 asks of a conversion of references to `bool`: it returns the referenced bit and changes nothing -/
def Reads (n : Nat) (read : Ref → BM Bool) : Prop :=
  ∀ (s : St) (V : View n) (i : Nat) (f : Bits n) (k : Fin n), Reach n s V → V.var i = some f → read ⟨i, k⟩ s = .ok (f k) s

/-- **C37 is false**: however deep the recursion is allowed to go, `static_cast<bool>(b[k])` on a non-const bitset does not
return -/
theorem C37_never_returns (h : Reach n s V) (hi : V.var i = some f) (k fuel : Nat) : refToBool fuel ⟨i, k⟩ s = .ub .noReturn := by
  obtain ⟨xs, h1, _⟩ := h.inv.live i f hi
  induction fuel with
  | zero => rfl
  | succ fuel ih =>
    unfold refToBool
    mstep (indexRef_ok h1 k)
    exact ih

/-- **C37 is false** for every `Size > 0`: no recursion depth makes the conversion return the bit -/
theorem C37_refuted (hn : 0 < n) (fuel : Nat) : ¬ Reads n (refToBool fuel) := by
  intro hr
  obtain ⟨s, V, h, _, h1, _⟩ := demo n (fun _ => false)
  have := hr s V 1 _ ⟨0, hn⟩ h h1
  rw [C37_never_returns h h1] at this
  cases this

/-- bit `k` of bitset `i` is now `v`, and no other bit of any bitset has changed -/
def Changed (V : View n) (i : Nat) (k : Fin n) (v : Bool) (s' : St) : Prop :=
  (∀ f, V.var i = some f → Shows n s' i (fun l => if l = k then v else f l)) ∧
    ∀ j g, j ≠ i → V.var j = some g → Shows n s' j g

theorem Reach.changed {k : Fin n} {v : Bool} (h : Reach n s' (V.put i (setBit f k v))) (hi : V.var i = some f) : Changed V i k v s' := by
  refine ⟨fun f' hf => ?_, fun j g hj hg => ?_⟩
  · rw [hi] at hf; cases hf
    have := h.inv.shows (i := i) (f := setBit f k v) (by simp [View.put])
    have e : setBit f k v = fun l => if l = k then v else f l := by
      funext l
      simp only [setBit, Fin.ext_iff]
    rw [← e]; exact this
  · exact h.inv.shows (by simp only [View.put]; rw [upd_ne _ _ hj]; exact hg)

/-- **C37** what holds: bits of a const bitset can be read by subscript, writing a `bool` to `b[k]` or `b.at(k)` and
flipping it affect exactly the referenced bit.  Missing: reading through a reference (false, `C37_refuted`). -/
theorem C37_write_partial (h : Reach n s V) (hi : V.var i = some f) (k : Fin n) :
    (Op.index i k).run n s = .ok (.bool (f k)) s ∧
    (∀ v, ∃ s', (Op.refSet i k v).run n s = .ok .unit s' ∧ Changed V i k v s') ∧
    (∀ v, ∃ s', (Op.atSet i k v).run n s = .ok .unit s' ∧ Changed V i k v s') ∧
    (∃ s', (Op.refFlip i k).run n s = .ok .unit s' ∧ Changed V i k (!f k) s') ∧
    ∃ s', (Op.atFlip i k).run n s = .ok .unit s' ∧ Changed V i k (!f k) s' := by
  refine ⟨(h.inv.shows hi).index k, fun v => ?_, fun v => ?_, ?_, ?_⟩
  · obtain ⟨s', e, h', _⟩ := C29_refines (op := .refSet i k v) h (by simp [Op.spec, View.unchecked, View.use, hi]; exact ⟨rfl, rfl⟩)
    exact ⟨s', e, h'.changed hi⟩
  · obtain ⟨s', e, h', _⟩ := C29_refines (op := .atSet i k v) h (by simp [Op.spec, View.checked, View.use, hi]; exact ⟨rfl, rfl⟩)
    exact ⟨s', e, h'.changed hi⟩
  · obtain ⟨s', e, h', _⟩ := C29_refines (op := .refFlip i k) h (by simp [Op.spec, View.unchecked, View.use, hi]; exact ⟨rfl, rfl⟩)
    rw [bitAt_fin] at h'
    exact ⟨s', e, h'.changed hi⟩
  · obtain ⟨s', e, h', _⟩ := C29_refines (op := .atFlip i k) h (by simp [Op.spec, View.checked, View.use, hi]; exact ⟨rfl, rfl⟩)
    rw [bitAt_fin] at h'
    exact ⟨s', e, h'.changed hi⟩

theorem refAssign_ok (h : Reach n s V) (hi : V.var i = some f) (k : Fin n) (v : Bool) :
    ∃ s', refAssign n ⟨i, k⟩ v s = .ok () s' ∧ Reach n s' (V.put i (setBit f k v)) := by
  obtain ⟨s', e, h', _⟩ := C29_refines (op := .refSet i k v) h (by simp [Op.spec, View.unchecked, View.use, hi]; exact ⟨rfl, rfl⟩)
  obtain ⟨xs, h1, _⟩ := h.inv.live i f hi
  have e' : (Op.refSet i k v).run n s = (refAssign n ⟨i, k⟩ v >>= fun _ => pure .unit) s := M.bind_ok (indexRef_ok h1 k.1)
  rw [e', M.bind_run] at e
  cases hx : refAssign n ⟨i, k⟩ v s with
  | ok a s'' => rw [hx] at e; cases e; exact ⟨_, rfl, h'⟩
  | exc a s'' => rw [hx] at e; cases e
  | ub x => rw [hx] at e; cases e
  | term => rw [hx] at e; cases e

/-- **C37** if the conversion to `bool` returned the bit (as it does for a const bitset), `~r` would yield its complement
and `r = r'` would copy the referenced bit -/
theorem C37_value_partial {read : Ref → BM Bool} (hread : Reads n read) (h : Reach n s V) (hi : V.var i = some f) (hj : V.var j = some g)
    (k l : Fin n) :
    refNot read ⟨i, k⟩ s = .ok (!f k) s ∧
    ∃ s', refAssignRef n read ⟨i, k⟩ ⟨j, l⟩ s = .ok () s' ∧ Reach n s' (V.put i (setBit f k (g l))) ∧ Changed V i k (g l) s' := by
  constructor
  · unfold refNot
    mstep (hread s V i f k h hi)
    rfl
  · obtain ⟨s', e, h'⟩ := refAssign_ok h hi k (g l)
    exact ⟨s', (M.bind_ok (hread s V j g l h hj)).trans e, h', h'.changed hi⟩

/-- such a conversion exists: calling the const overload of `operator[]` -/
theorem reads_const : Reads n fun r => index n r.self r.idx := by
  intro s V i f k h hi
  obtain ⟨xs, h1, h2⟩ := h.inv.live i f hi
  have := index_ok h1 h2 k.2
  rw [bitAt_fin] at this
  exact this

/-! ### C38 -/

/-- **C38** (indices different, or the same bitset, and a conversion to `bool` that returns the bit) the two bits are
exchanged and nothing else changes.  Missing: equal indices in different bitsets (false, `C38_refuted`), and the
conversion the code actually uses does not return (`C38_never_returns`). -/
theorem C38_swap_partial {read : Ref → BM Bool} (hread : Reads n read) (h : Reach n s V) (hi : V.var i = some f) (hj : V.var j = some g)
    (k l : Fin n) (hkl : k ≠ l ∨ i = j) :
    ∃ s' f' g', refSwap n read ⟨i, k⟩ ⟨j, l⟩ s = .ok () s' ∧ Reach n s' ((V.put i f').put j g') ∧
      (i = j → f' = g') ∧ Shows n s' i f' ∧ Shows n s' j g' ∧ f' k = g l ∧ g' l = f k ∧
      (∀ m, m ≠ k → (i = j → m ≠ l) → f' m = f m) ∧ (∀ m, m ≠ l → (i = j → m ≠ k) → g' m = g m) := by
  have hself : (V.put i f).put j g = V := by
    simp only [View.put]
    congr 1
    rw [upd_eq _ _ _ hi, upd_eq _ _ _ hj]
  unfold refSwap
  by_cases hk : k = l
  · subst hk
    obtain rfl : i = j := by rcases hkl with h | h; exact absurd rfl h; exact h
    rw [hi] at hj
    obtain rfl : f = g := Option.some.inj hj
    rw [if_pos rfl]
    have hs := h.inv.shows hi
    exact ⟨s, f, f, rfl, by rw [hself]; exact h, fun _ => rfl, hs, hs, rfl, rfl, fun _ _ _ => rfl, fun _ _ _ => rfl⟩
  · have hkl' : k.1 ≠ l.1 := fun h => hk (Fin.ext h)
    rw [if_neg hkl']
    rw [M.bind_ok (hread s V i f k h hi), M.bind_ok (hread s V j g l h hj)]
    by_cases hv : f k = g l
    · rw [if_pos hv]
      exact ⟨s, f, g, rfl, by rw [hself]; exact h, fun e => by subst e; rw [hi] at hj; exact Option.some.inj hj, h.inv.shows hi, h.inv.shows hj,
        hv, hv.symm, fun _ _ _ => rfl, fun _ _ _ => rfl⟩
    · rw [if_neg hv]
      obtain ⟨s1, e1, h1⟩ := refAssign_ok h hi k (g l)
      by_cases hij : i = j
      · subst hij
        rw [hi] at hj
        obtain rfl : f = g := Option.some.inj hj
        obtain ⟨s2, e2, h2⟩ := refAssign_ok h1 (i := i) (f := setBit f k (f l)) (by simp [View.put]) l (f k)
        refine ⟨s2, setBit (setBit f k (f l)) l (f k), setBit (setBit f k (f l)) l (f k), ?_, ?_, fun _ => rfl, ?_, ?_, ?_, ?_, ?_, ?_⟩
        · mstep e1; exact e2
        · simpa [View.put] using h2
        · exact h2.inv.shows (by simp [View.put])
        · exact h2.inv.shows (by simp [View.put])
        · simp [setBit, hkl']
        · simp [setBit]
        · intro m hm hm'
          have a1 : m.1 ≠ k.1 := fun h => hm (Fin.ext h)
          have a2 : m.1 ≠ l.1 := fun h => hm' rfl (Fin.ext h)
          simp [setBit, a1, a2]
        · intro m hm hm'
          have a1 : m.1 ≠ l.1 := fun h => hm (Fin.ext h)
          have a2 : m.1 ≠ k.1 := fun h => hm' rfl (Fin.ext h)
          simp [setBit, a1, a2]
      · obtain ⟨s2, e2, h2⟩ := refAssign_ok h1 (i := j) (f := g) (by simp [View.put, upd_ne _ _ (Ne.symm hij), hj]) l (f k)
        refine ⟨s2, setBit f k (g l), setBit g l (f k), ?_, h2, fun e => absurd e hij, ?_, ?_, by simp [setBit], by simp [setBit], ?_, ?_⟩
        · mstep e1; exact e2
        · exact h2.inv.shows (by simp [View.put, upd_ne _ _ hij])
        · exact h2.inv.shows (by simp [View.put])
        · intro m hm _
          have a1 : m.1 ≠ k.1 := fun h => hm (Fin.ext h)
          simp [setBit, a1]
        · intro m hm _
          have a1 : m.1 ≠ l.1 := fun h => hm (Fin.ext h)
          simp [setBit, a1]

/-- **C38 is false** for references to the same index of different bitsets, whatever the conversion to `bool` does: `swap`
returns at once -/
theorem C38_same_index (read : Ref → BM Bool) (i j k : Nat) (s : St) : refSwap n read ⟨i, k⟩ ⟨j, k⟩ s = .ok () s := by
  unfold refSwap
  rw [if_pos rfl]; rfl

/-- **C38 is false**: two bitsets, bit 1 of the first clear and of the second set; after swapping references to them,
both are as before -/
theorem C38_refuted (read : Ref → BM Bool) :
    ∃ (s : St) (V : View 11), Reach 11 s V ∧
      ∃ s', refSwap 11 read ⟨0, 1⟩ ⟨1, 1⟩ s = .ok () s' ∧
        (Op.test 0 1).run 11 s = .ok (.bool false) s ∧ (Op.test 1 1).run 11 s = .ok (.bool true) s ∧
        (Op.test 0 1).run 11 s' = .ok (.bool false) s' ∧ (Op.test 1 1).run 11 s' = .ok (.bool true) s' := by
  obtain ⟨s, V, h, h0, h1, _⟩ := demo 11 (fun _ => false)
  have t0 := (h.inv.shows h0).test 1
  have t1 := (h.inv.shows h1).test 1
  rw [show ((2025#64).getLsbD (1 : Fin 11).1) = false by decide] at t0
  exact ⟨s, V, h, s, C38_same_index read 0 1 1 s, t0, t1, t0, t1⟩

/-- **C38 is false** for different indices too, because the conversion to `bool` never returns -/
theorem C38_never_returns (h : Reach n s V) (hi : V.var i = some f) (hkl : k ≠ l) (fuel : Nat) :
    refSwap n (refToBool fuel) ⟨i, k⟩ ⟨j, l⟩ s = .ub .noReturn := by
  unfold refSwap
  rw [if_neg hkl]
  exact M.bind_ub (C37_never_returns h hi k fuel)

/-- the hypotheses can be met: two bitsets, references to different bits, and a conversion that returns -/
example : ∃ (s : St) (V : View 11) (f g : Bits 11), Reach 11 s V ∧ V.var 0 = some f ∧ V.var 1 = some g ∧ f 1 ≠ g 2 ∧
    Reads 11 (fun r => index 11 r.self r.idx) := by
  obtain ⟨s, V, h, h0, h1, _⟩ := demo 11 (fun _ => false)
  exact ⟨s, V, _, _, h, h0, h1, by decide, reads_const⟩

end Ptl.Bitset

import Verif.Bitset.Lemmas
import Verif.Bitset.Client

/-! # What each member of the bitset model does to the bits -/

namespace Ptl.Bitset

variable {n : Nat} {s : St} {i j k c : Nat} {xs ys : List Byte} {f g : Bits n}

/-- the computation returns and replaces the array of `i` by one holding `g` -/
def Act (n : Nat) (m : BM Unit) (s : St) (i : Nat) (g : Bits n) : Prop :=
  ∃ zs, m s = .ok () (s.put i zs) ∧ Rep n zs g

theorem Act.of_eff {m : BM Unit} (hr : Rep n xs f) {P : List Byte → Prop} (h : Eff m s i xs P)
    (h1 : ∀ zs, P zs → ∀ k, bit zs k = if h : k < n then g ⟨k, h⟩ else false) : Act n m s i g := by
  obtain ⟨zs, e, hl, hp⟩ := h
  exact ⟨zs, e, hl.trans hr.len, h1 zs hp⟩

theorem Act.skip (hi : s.obj i = some xs) (hr : Rep n xs f) (h : f = g) : Act n (pure ()) s i g :=
  ⟨xs, by rw [put_self hi]; rfl, h ▸ hr⟩

theorem Act.seq {m m' : BM Unit} (h : Act n m s i f) (h' : ∀ zs, Rep n zs f → Act n m' (s.put i zs) i g) :
    Act n (m >>= fun _ => m') s i g := by
  obtain ⟨zs, e, hr⟩ := h
  obtain ⟨ws, e', hr'⟩ := h' zs hr
  exact ⟨ws, by rw [M.bind_ok e, e', put_put], hr'⟩

theorem Act.congr {m : BM Unit} (h : Act n m s i f) (e : f = g) : Act n m s i g := e ▸ h

theorem bits_zero (hn : n = 0) (f g : Bits n) : f = g := by subst hn; funext k; exact k.elim0

theorem Rep.zero (n : Nat) : Rep n (List.replicate (bytes n) 0) (fun _ => false) := by
  refine ⟨by simp, fun k => ?_⟩
  have : bit (List.replicate (bytes n) (0 : Byte)) k = false := by
    unfold bit
    rw [List.getD_eq_getElem?_getD, List.getElem?_replicate]
    split <;> simp
  rw [this]; split <;> rfl

theorem Rep.byte (hr : Rep n xs f) (p : Nat) (hp : bytes n ≤ p) : xs.getD p 0 = 0 := by
  rw [List.getD_eq_getElem?_getD, List.getElem?_eq_none (by rw [hr.len]; exact hp)]; rfl

/-! ### whole-array operations -/

theorem bytewise2 {op : Byte → Byte → Byte} {o : Bool → Bool → Bool} (h0 : o false false = false)
    (ho : ∀ x y p, p < 8 → (op x y).getLsbD p = o (x.getLsbD p) (y.getLsbD p))
    (hi : s.obj i = some xs) (hr : Rep n xs f) (hj : s.obj j = some ys) (hr' : Rep n ys g) :
    Act n (transform2 op i j 0 (bytes n)) s i (fun k => o (f k) (g k)) := by
  refine Act.of_eff hr (transform2_eff op (bytes n) 0 hi hj (by rw [hr.len]; omega) (by rw [hr'.len]; omega)) fun zs hz k => ?_
  have e : bit zs k = o (bit xs k) (bit ys k) := by
    unfold bit
    rw [hz]
    by_cases hk : k / 8 < bytes n
    · rw [if_pos (by omega), ho _ _ _ (Nat.mod_lt _ (by omega))]
    · rw [if_neg (by omega), hr.byte _ (by omega), hr'.byte _ (by omega)]; simp [h0]
  rw [e, hr.val, hr'.val]
  split
  · rfl
  · exact h0

theorem andAssign_act (hi : s.obj i = some xs) (hr : Rep n xs f) (hj : s.obj j = some ys) (hr' : Rep n ys g) :
    Act n (andAssign n i j) s i (fun k => f k && g k) := by
  unfold andAssign
  split
  · exact bytewise2 (o := fun a b => a && b) rfl (fun x y p _ => BitVec.getLsbD_and) hi hr hj hr'
  · exact Act.skip hi hr (bits_zero (by omega) _ _)

theorem orAssign_act (hi : s.obj i = some xs) (hr : Rep n xs f) (hj : s.obj j = some ys) (hr' : Rep n ys g) :
    Act n (orAssign n i j) s i (fun k => f k || g k) := by
  unfold orAssign
  split
  · exact bytewise2 (o := fun a b => a || b) rfl (fun x y p _ => BitVec.getLsbD_or) hi hr hj hr'
  · exact Act.skip hi hr (bits_zero (by omega) _ _)

theorem xorAssign_act (hi : s.obj i = some xs) (hr : Rep n xs f) (hj : s.obj j = some ys) (hr' : Rep n ys g) :
    Act n (xorAssign n i j) s i (fun k => f k != g k) := by
  unfold xorAssign
  split
  · refine bytewise2 (o := fun a b => a != b) rfl (fun x y p _ => ?_) hi hr hj hr'
    exact BitVec.getLsbD_xor
  · exact Act.skip hi hr (bits_zero (by omega) _ _)

theorem flipAll_act (hi : s.obj i = some xs) (hr : Rep n xs f) : Act n (flipAll n i) s i (fun k => !f k) := by
  unfold flipAll
  split
  · next hn =>
    refine Act.of_eff hr ((transform1_eff _ (bytes n) 0 hi (by rw [hr.len]; omega)).seq
      (fun zs hl hz => (clearTrailing_eff hn put_obj_same (hl.trans hr.len)).mono
        (Q := fun ws => ∀ k, bit ws k = (!bit xs k && decide (k < n))) fun ws _ hw k => ?_)) fun zs hz k => ?_
    · rw [hw]
      by_cases hk : k < n
      · have := bytes_lt hk
        simp only [hk, decide_true, Bool.and_true]
        unfold bit
        rw [hz, if_pos (by omega), BitVec.getLsbD_not]
        simp [Nat.mod_lt k (show 0 < 8 by omega)]
      · simp [hk]
    · rw [hz, hr.val]
      split
      · next h => simp [h]
      · next h => simp [h]
  · exact Act.skip hi hr (bits_zero (by omega) _ _)

theorem setAll_act (hi : s.obj i = some xs) (hr : Rep n xs f) : Act n (setAll n i) s i (fun _ => true) := by
  unfold setAll
  split
  · next hn =>
    refine Act.of_eff hr ((fillN_eff 255 (bytes n) 0 hi (by rw [hr.len]; omega)).seq
      (fun zs hl hz => (clearTrailing_eff hn put_obj_same (hl.trans hr.len)).mono
        (Q := fun ws => ∀ k, bit ws k = decide (k < n)) fun ws _ hw k => ?_)) fun zs hz k => ?_
    · rw [hw]
      by_cases hk : k < n
      · have := bytes_lt hk
        simp only [hk, decide_true, Bool.and_true]
        unfold bit
        rw [hz, if_pos (by omega), show (255 : Byte) = BitVec.allOnes 8 by decide, BitVec.getLsbD_allOnes]
        simp [Nat.mod_lt k (show 0 < 8 by omega)]
      · simp [hk]
    · rw [hz]
      split
      · next h => simp [h]
      · next h => simp [h]
  · exact Act.skip hi hr (bits_zero (by omega) _ _)

theorem resetAll_act (hi : s.obj i = some xs) (hr : Rep n xs f) : Act n (resetAll n i) s i (fun _ => false) := by
  unfold resetAll
  split
  · next hn =>
    refine Act.of_eff hr (fillN_eff 0 (bytes n) 0 hi (by rw [hr.len]; omega)) fun zs hz k => ?_
    have : bit zs k = false := by
      unfold bit
      rw [hz]
      split
      · simp
      · rw [hr.byte _ (by omega)]; simp
    rw [this]; split <;> rfl
  · exact Act.skip hi hr (bits_zero (by omega) _ _)

/-! ### single bits -/

theorem writeBit (hi : s.obj i = some xs) (hr : Rep n xs f) (hk : k < n) {b : Byte} {v : Bool}
    (hb : ∀ p, p < 8 → b.getLsbD p = if p = k % 8 then v else (xs.getD (k / 8) 0).getLsbD p) :
    Act n (wr i (k / 8) b) s i (setBit f k v) := by
  have hl : k / 8 < xs.length := by rw [hr.len]; exact bytes_lt hk
  refine ⟨_, wr_ok hi hl b, by simpa using hr.len, fun l => ?_⟩
  have e : bit (xs.set (k / 8) b) l = if l = k then v else bit xs l := by
    unfold bit
    rw [getD_set _ hl]
    by_cases h1 : l / 8 = k / 8
    · rw [if_pos h1, hb _ (Nat.mod_lt _ (by omega)), h1]
      by_cases h2 : l = k
      · subst h2; simp
      · rw [if_neg (by omega), if_neg h2]
    · rw [if_neg h1, if_neg (by rintro rfl; exact h1 rfl)]
  rw [e, hr.val]
  unfold setBit
  by_cases h : l = k
  · subst h; simp [hk]
  · by_cases h' : l < n <;> simp [h, h']

theorem resetAt_act (hi : s.obj i = some xs) (hr : Rep n xs f) (hk : k < n) : Act n (resetAt n i k) s i (setBit f k false) := by
  have hl : k / 8 < xs.length := by rw [hr.len]; exact bytes_lt hk
  obtain ⟨zs, e, h⟩ := writeBit hi hr hk (b := xs.getD (k / 8) 0 &&& ~~~(1#8 <<< (k % 8))) (v := false) (fun p hp => by
    rw [BitVec.getLsbD_and, BitVec.getLsbD_not, mask_getLsbD _ _ (Nat.mod_lt _ (by omega))]
    by_cases h : p = k % 8 <;> simp [h, hp])
  refine ⟨zs, ?_, h⟩
  unfold resetAt
  rw [if_neg (by omega), if_neg (by omega)]
  mstep (rd_ok hi hl)
  exact e

theorem setAt_act (hi : s.obj i = some xs) (hr : Rep n xs f) (hk : k < n) (v : Bool) : Act n (setAt n i k v) s i (setBit f k v) := by
  have hl : k / 8 < xs.length := by rw [hr.len]; exact bytes_lt hk
  unfold setAt
  rw [if_neg (by omega), if_neg (by omega)]
  cases v with
  | false => exact resetAt_act hi hr hk
  | true =>
    obtain ⟨zs, e, h⟩ := writeBit hi hr hk (b := xs.getD (k / 8) 0 ||| (1#8 <<< (k % 8))) (v := true) (fun p hp => by
      rw [BitVec.getLsbD_or, mask_getLsbD _ _ (Nat.mod_lt _ (by omega))]
      by_cases h : p = k % 8 <;> simp [h])
    refine ⟨zs, ?_, h⟩
    rw [if_pos rfl]
    mstep (rd_ok hi hl)
    exact e

theorem Rep.bitAt (hr : Rep n xs f) (k : Nat) : bit xs k = Bitset.bitAt f k := hr.val k

theorem flipAt_act (hi : s.obj i = some xs) (hr : Rep n xs f) (hk : k < n) :
    Act n (flipAt n i k) s i (setBit f k (!bitAt f k)) := by
  have hl : k / 8 < xs.length := by rw [hr.len]; exact bytes_lt hk
  obtain ⟨zs, e, h⟩ := writeBit hi hr hk (b := xs.getD (k / 8) 0 ^^^ (1#8 <<< (k % 8))) (v := !bitAt f k) (fun p hp => by
    rw [BitVec.getLsbD_xor, mask_getLsbD _ _ (Nat.mod_lt _ (by omega)), ← hr.bitAt]
    by_cases h : p = k % 8 <;> simp [h, bit])
  refine ⟨zs, ?_, h⟩
  unfold flipAt
  rw [if_neg (by omega), if_neg (by omega)]
  mstep (rd_ok hi hl)
  exact e

theorem resetAt_exc (hk : ¬ k < n) : resetAt n i k s = .exc .outOfRange s := by
  unfold resetAt; split
  · rfl
  · rw [if_pos (by omega)]; rfl
theorem setAt_exc (hk : ¬ k < n) (v : Bool) : setAt n i k v s = .exc .outOfRange s := by
  unfold setAt; split
  · rfl
  · rw [if_pos (by omega)]; rfl
theorem flipAt_exc (hk : ¬ k < n) : flipAt n i k s = .exc .outOfRange s := by
  unfold flipAt; split
  · rfl
  · rw [if_pos (by omega)]; rfl

theorem and_mask (b : Byte) (m : Nat) (hm : m < 8) : ((b &&& (1#8 <<< m)) != 0) = b.getLsbD m := by
  cases h : b.getLsbD m with
  | true =>
    rw [bne_iff_ne]
    intro h0
    have := congrArg (fun x => x.getLsbD m) h0
    simp only [BitVec.getLsbD_and, mask_getLsbD _ _ hm, h] at this
    simp at this
  | false =>
    rw [bne_eq_false_iff_eq]
    apply BitVec.eq_of_getLsbD_eq
    intro p hp
    rw [BitVec.getLsbD_and, mask_getLsbD _ _ hm]
    by_cases hpm : p = m
    · subst hpm; simp [h]
    · simp [hpm]

theorem index_ok (hi : s.obj i = some xs) (hr : Rep n xs f) (hk : k < n) : index n i k s = .ok (bitAt f k) s := by
  have hl : k / 8 < xs.length := by rw [hr.len]; exact bytes_lt hk
  unfold index
  rw [if_neg (by omega)]
  mstep (rd_ok hi hl)
  rw [and_mask _ _ (Nat.mod_lt _ (by omega)), ← hr.bitAt]
  rfl

/-! ### construction from an integer -/

theorem ctorLoop_act (v : BitVec 64) : ∀ (m k : Nat) {s : St} {xs : List Byte} {f : Bits n}, s.obj i = some xs → Rep n xs f → k + m ≤ n → k + m ≤ 64 →
    Act n (ctorLoop n i v k m) s i (fun l => f l || (decide (k ≤ l.1 ∧ l.1 < k + m) && v.getLsbD l.1)) := by
  intro m
  induction m with
  | zero =>
    intro k s xs f hi hr _ _
    refine Act.skip hi hr ?_
    funext l
    have : ¬ (k ≤ l.1 ∧ l.1 < k + 0) := by omega
    rw [decide_eq_false this]; simp
  | succ m ih =>
    intro k s xs f hi hr hk h64
    have hv : ((v &&& (1#64 <<< k)) != 0) = v.getLsbD k := by
      cases h : v.getLsbD k with
      | true =>
        rw [bne_iff_ne]
        intro h0
        have := congrArg (fun x => x.getLsbD k) h0
        simp only [BitVec.getLsbD_and, h] at this
        simp at this
        omega
      | false =>
        rw [bne_eq_false_iff_eq]
        apply BitVec.eq_of_getLsbD_eq
        intro p hp
        rw [BitVec.getLsbD_and, BitVec.getLsbD_shiftLeft, BitVec.getLsbD_one]
        by_cases hpm : p = k
        · subst hpm; simp [h]
        · simp; omega
    unfold ctorLoop
    rw [hv]
    have hiff : ∀ l : Nat, l ≠ k → (decide (k + 1 ≤ l ∧ l < k + 1 + m) = decide (k ≤ l ∧ l < k + (m + 1))) := fun l hl =>
      decide_eq_decide.2 (by omega)
    cases h : v.getLsbD k with
    | true =>
      rw [if_pos rfl]
      show Act n (setAt n i k true >>= fun _ => ctorLoop n i v (k + 1) m) s i _
      refine (setAt_act hi hr (by omega) true).seq fun zs hz => (ih (k + 1) put_obj_same hz (by omega) (by omega)).congr ?_
      funext l
      simp only [setBit]
      by_cases hl : l.1 = k
      · simp [hl, h]
      · rw [if_neg hl, hiff _ hl]
    | false =>
      rw [if_neg (by simp)]
      show Act n (ctorLoop n i v (k + 1) m) s i _
      refine (ih (k + 1) hi hr (by omega) (by omega)).congr ?_
      funext l
      by_cases hl : l.1 = k
      · simp [hl, h]
      · rw [hiff _ hl]

theorem ctorDefault_act (hi : s.obj i = none) : Act n (ctorDefault n i) s i (fun _ => false) :=
  ⟨_, newObj_ok hi, Rep.zero n⟩

theorem ctorValue_act (v : BitVec 64) (hi : s.obj i = none) : Act n (ctorValue n i v) s i (fun k => v.getLsbD k.1) := by
  have h : Act n (do ctorDefault n i; ctorLoop n i v 0 (min 64 n)) s i (fun k => v.getLsbD k.1) := by
    refine (ctorDefault_act hi).seq fun zs hz => (ctorLoop_act v (min 64 n) 0 put_obj_same hz (by omega) (by omega)).congr ?_
    funext l
    by_cases hl : l.1 < 64
    · have : 0 ≤ l.1 ∧ l.1 < 0 + min 64 n := by omega
      rw [decide_eq_true this]; simp
    · rw [BitVec.getLsbD_of_ge v _ (by omega)]; simp
  obtain ⟨zs, e, hr⟩ := h
  exact ⟨zs, by unfold ctorValue; rw [M.noexcept_ok e], hr⟩

/-! ### shifts -/

theorem shiftUp_zero (f : Bits n) : shiftUp f 0 = f := by funext k; simp [shiftUp]
theorem shiftDown_zero (f : Bits n) : shiftDown f 0 = f := by funext k; simp [shiftDown]
theorem shiftUp_add (f : Bits n) (a b : Nat) : shiftUp (shiftUp f a) b = shiftUp f (a + b) := by
  funext k
  simp only [shiftUp]
  by_cases h1 : b ≤ k.1
  · rw [if_pos h1]
    by_cases h2 : a ≤ k.1 - b
    · rw [if_pos h2, if_pos (by omega)]; congr 2; omega
    · rw [if_neg h2, if_neg (by omega)]
  · rw [if_neg h1, if_neg (by omega)]
theorem shiftDown_add (f : Bits n) (a b : Nat) : shiftDown (shiftDown f a) b = shiftDown f (a + b) := by
  funext k
  simp only [shiftDown]
  by_cases h1 : k.1 + b < n
  · rw [dif_pos h1]
    by_cases h2 : k.1 + b + a < n
    · rw [dif_pos h2, dif_pos (by omega)]; congr 2; omega
    · rw [dif_neg h2, dif_neg (by omega)]
  · rw [dif_neg h1, dif_neg (by omega)]

theorem getLsbD_shl1 (x y : Byte) (m : Nat) (hm : m < 8) :
    ((x <<< 1) ||| (y >>> 7)).getLsbD m = if m = 0 then y.getLsbD 7 else x.getLsbD (m - 1) := by
  rw [BitVec.getLsbD_or, BitVec.getLsbD_shiftLeft, BitVec.getLsbD_ushiftRight]
  by_cases h : m = 0
  · subst h; simp
  · rw [BitVec.getLsbD_of_ge y _ (by omega)]
    have : ¬ m < 1 := by omega
    simp [hm, h]

theorem getLsbD_shr1 (x y : Byte) (m : Nat) (hm : m < 8) :
    ((x >>> 1) ||| (y <<< 7)).getLsbD m = if m = 7 then y.getLsbD 0 else x.getLsbD (m + 1) := by
  rw [BitVec.getLsbD_or, BitVec.getLsbD_shiftLeft, BitVec.getLsbD_ushiftRight]
  by_cases h : m = 7
  · subst h; rw [BitVec.getLsbD_of_ge x _ (by omega)]; simp
  · have : m < 7 := by omega
    simp [this, h, Nat.add_comm]

/-- one round of `<<=` -/
theorem shlStep_act (hn : n ≠ 0) (hi : s.obj i = some xs) (hr : Rep n xs f) :
    Act n (do shlInner i (bytes n - 1); let x ← rd i 0; wr i 0 (x <<< 1); clearTrailing n i) s i (shiftUp f 1) := by
  have hp := bytes_pos n
  have h1 := shlInner_eff (bytes n - 1) hi (by rw [hr.len]; omega)
  obtain ⟨zs, e1, l1, b1⟩ := h1
  have hz : zs.length = bytes n := l1.trans hr.len
  have e2 := rd_ok (s := s.put i zs) (k := 0) put_obj_same (by omega)
  have e3 := wr_ok (s := s.put i zs) (k := 0) put_obj_same (by omega) (zs.getD 0 0 <<< 1)
  rw [put_put] at e3
  obtain ⟨ws, e4, l4, b4⟩ := clearTrailing_eff (n := n) (s := s.put i (zs.set 0 (zs.getD 0 0 <<< 1))) hn put_obj_same (by simpa using hz)
  refine ⟨ws, ?_, ?_, fun k => ?_⟩
  · mstep e1; mstep e2; mstep e3
    rw [e4, put_put]
  · rw [l4]; simpa using hz
  · rw [b4]
    by_cases hk : k < n
    · have hkb := bytes_lt hk
      simp only [hk, decide_true, Bool.and_true, dif_pos, shiftUp]
      have hm := Nat.mod_lt k (show 0 < 8 by omega)
      unfold bit
      rw [getD_set _ (by omega)]
      by_cases h0 : k / 8 = 0
      · rw [if_pos h0, b1, if_neg (by omega), BitVec.getLsbD_shiftLeft]
        by_cases h1 : k = 0
        · subst h1; simp
        · rw [if_pos (by omega), ← hr.fin]
          have e1 : (k - 1) / 8 = 0 := by omega
          have e2 : (k - 1) % 8 = k % 8 - 1 := by omega
          have e3 : ¬ k % 8 < 1 := by omega
          simp only [bit, e1, e2]
          simp [hm]; omega
      · rw [if_neg h0, b1, if_pos (by omega), getLsbD_shl1 _ _ _ hm, ← hr.fin, if_pos (by omega : 1 ≤ k)]
        simp only [bit]
        by_cases h8 : k % 8 = 0
        · rw [if_pos h8, show (k - 1) / 8 = k / 8 - 1 by omega, show (k - 1) % 8 = 7 by omega]
        · rw [if_neg h8, show (k - 1) / 8 = k / 8 by omega, show (k - 1) % 8 = k % 8 - 1 by omega]
    · simp [hk]

theorem shlLoop_act (hn : n ≠ 0) : ∀ (c : Nat) {s : St} {xs : List Byte} {f : Bits n}, s.obj i = some xs → Rep n xs f →
    Act n (shlLoop n i c) s i (shiftUp f c) := by
  intro c
  induction c with
  | zero => intro s xs f hi hr; exact Act.skip hi hr (shiftUp_zero f).symm
  | succ c ih =>
    intro s xs f hi hr
    have h := (shlStep_act hn hi hr).seq (g := shiftUp f (c + 1)) (m' := shlLoop n i c) fun zs hz =>
      (ih put_obj_same hz).congr (by rw [shiftUp_add, Nat.add_comm])
    simpa only [shlLoop, M.bind_assoc'] using h

theorem shlAssign_act (hi : s.obj i = some xs) (hr : Rep n xs f) (c : Nat) : Act n (shlAssign n i c) s i (shiftUp f c) := by
  unfold shlAssign
  split
  · next hn => exact shlLoop_act hn c hi hr
  · exact Act.skip hi hr (bits_zero (by omega) _ _)

/-- one round of `>>=` -/
theorem shrStep_act (hi : s.obj i = some xs) (hr : Rep n xs f) :
    Act n (do let x ← rd i 0; wr i 0 (x >>> 1); shrInner i 1 (bytes n - 1)) s i (shiftDown f 1) := by
  have hp := bytes_pos n
  have e2 := rd_ok hi (k := 0) (by rw [hr.len]; omega)
  have e3 := wr_ok hi (k := 0) (by rw [hr.len]; omega) (xs.getD 0 0 >>> 1)
  have hl := hr.len
  obtain ⟨zs, e1, l1, b1⟩ := shrInner_eff (bytes n - 1) 1 (s := s.put i (xs.set 0 (xs.getD 0 0 >>> 1))) put_obj_same (by omega) (by simp; omega)
  refine ⟨zs, ?_, ?_, fun k => ?_⟩
  · mstep e2; mstep e3
    rw [e1, put_put]
  · rw [l1]; simpa using hl
  · have hm := Nat.mod_lt k (show 0 < 8 by omega)
    have key : bit zs k = bit xs (k + 1) := by
      by_cases hkb : k / 8 < bytes n
      · unfold bit
        have hb : zs.getD (k / 8) 0 = (xs.getD (k / 8) 0 >>> 1) ||| (xs.getD (k / 8 + 1) 0 <<< 7) := by
          rw [b1, getD_set _ (by omega), getD_set _ (by omega), if_neg (by omega : ¬ k / 8 + 1 = 0)]
          congr 1
          · by_cases h0 : k / 8 = 0
            · rw [if_neg (by omega), if_pos h0, h0]
            · rw [if_pos (by omega), if_neg h0]
          · by_cases h1 : k / 8 + 1 < bytes n
            · rw [if_pos (by omega)]
            · rw [if_neg (by omega), hr.byte _ (by omega)]; decide
        rw [hb, getLsbD_shr1 _ _ _ hm]
        by_cases h7 : k % 8 = 7
        · rw [if_pos h7, show (k + 1) / 8 = k / 8 + 1 by omega, show (k + 1) % 8 = 0 by omega]
        · rw [if_neg h7, show (k + 1) / 8 = k / 8 by omega, show (k + 1) % 8 = k % 8 + 1 by omega]
      · have l1' : zs.length = bytes n := by rw [l1]; simpa using hl
        rw [bit_oob (by omega), bit_oob (by omega)]
    rw [key, hr.val]
    by_cases hk : k < n
    · simp only [hk, dif_pos, shiftDown]
    · rw [dif_neg (by omega), dif_neg hk]

theorem shrLoop_act : ∀ (c : Nat) {s : St} {xs : List Byte} {f : Bits n}, s.obj i = some xs → Rep n xs f →
    Act n (shrLoop n i c) s i (shiftDown f c) := by
  intro c
  induction c with
  | zero => intro s xs f hi hr; exact Act.skip hi hr (shiftDown_zero f).symm
  | succ c ih =>
    intro s xs f hi hr
    have h := (shrStep_act hi hr).seq (g := shiftDown f (c + 1)) (m' := shrLoop n i c) fun zs hz =>
      (ih put_obj_same hz).congr (by rw [shiftDown_add, Nat.add_comm])
    simpa only [shrLoop, M.bind_assoc'] using h

theorem shrAssign_act (hi : s.obj i = some xs) (hr : Rep n xs f) (c : Nat) : Act n (shrAssign n i c) s i (shiftDown f c) := by
  unfold shrAssign
  split
  · exact shrLoop_act c hi hr
  · exact Act.skip hi hr (bits_zero (by omega) _ _)

/-! ### copies, binary operators, swap -/

theorem ctorCopy_ok (hi : s.obj i = none) (hj : s.obj j = some ys) : ctorCopy i j s = .ok () (s.put i ys) := by
  unfold ctorCopy
  mstep (getObj_ok hj)
  exact newObj_ok hi

theorem assignCopy_ok (hi : s.obj i = some xs) (hj : s.obj j = some ys) : assignCopy i j s = .ok () (s.put i ys) := by
  unfold assignCopy
  mstep (getObj_ok hj)
  mstep (getObj_ok hi)
  rfl

/-- a binary operator: copy the left operand, then modify the copy -/
theorem Act.copied {m : BM Unit} {h : Bits n} (hi : s.obj i = none) (hj : s.obj j = some ys)
    (hm : Act n m (s.put i ys) i h) : Act n (ctorCopy i j >>= fun _ => m) s i h := by
  obtain ⟨zs, e, hr⟩ := hm
  exact ⟨zs, by rw [M.bind_ok (ctorCopy_ok hi hj), e, put_put], hr⟩

theorem swap_ok (hi : s.obj i = some xs) (hr : Rep n xs f) (hj : s.obj j = some ys) (hr' : Rep n ys g) :
    swap n i j s = .ok () ((s.put i ys).put j xs) := by
  have hx := hr.len
  have hy := hr'.len
  unfold swap
  by_cases hij : i = j
  · subst hij
    rw [hi] at hj; cases hj
    rw [put_put, put_self hi]
    split
    · exact swapRanges_same _ 0 hi (by omega)
    · rfl
  · split
    · next hn =>
      obtain ⟨zs, ws, e, h1, h2, h3, h4⟩ := swapRanges_ne hij (bytes n) 0 hi hj (by omega) (by omega)
      have e1 : zs = ys := bit_ext (by omega) fun k => by
        unfold bit; rw [h3]; split
        · rfl
        · rw [hr.byte _ (by omega), hr'.byte _ (by omega)]
      have e2 : ws = xs := bit_ext (by omega) fun k => by
        unfold bit; rw [h4]; split
        · rfl
        · rw [hr.byte _ (by omega), hr'.byte _ (by omega)]
      rw [e, e1, e2]
    · next hn =>
      have : xs = ys := (hr.inj hr').2 (bits_zero (by omega) _ _)
      subst this
      rw [put_self hi, put_self hj]; rfl

end Ptl.Bitset

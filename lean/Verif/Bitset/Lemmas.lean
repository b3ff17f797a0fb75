import Verif.Bitset.Model

/-! # What each loop of the bitset model does to the bytes, and to the bits -/

namespace Ptl.Bitset

/-- bit `k` of a byte array (bit `k % 8` of byte `k / 8`; bits outside the array count as clear) -/
def bit (bs : List Byte) (k : Nat) : Bool := (bs.getD (k / 8) 0).getLsbD (k % 8)

/-- replace the array of object `i` -/
def St.put (s : St) (i : Nat) (bs : List Byte) : St := { s with obj := upd s.obj i (some bs) }

variable {n : Nat} {s : St} {i j k : Nat} {xs ys : List Byte}

@[simp] theorem put_obj_same : (s.put i xs).obj i = some xs := by simp [St.put]
theorem put_obj_ne (h : j ≠ i) : (s.put i xs).obj j = s.obj j := by simp [St.put, upd_ne _ _ h]
@[simp] theorem put_put : (s.put i xs).put i ys = s.put i ys := by simp [St.put]
@[simp] theorem put_is : (s.put i xs).is = s.is := rfl
@[simp] theorem put_os : (s.put i xs).os = s.os := rfl
theorem put_self (h : s.obj i = some xs) : s.put i xs = s := by simp [St.put, upd_eq _ _ _ h]

theorem getObj_ok (h : s.obj i = some xs) : getObj i s = .ok xs s := by simp [getObj, h]
theorem newObj_ok (h : s.obj i = none) : newObj i xs s = .ok () (s.put i xs) := by simp [newObj, h, St.put]

theorem rd_ok (h : s.obj i = some xs) (hk : k < xs.length) : rd i k s = .ok (xs.getD k 0) s := by
  simp [rd, h, hk]

theorem wr_ok (h : s.obj i = some xs) (hk : k < xs.length) (b : Byte) : wr i k b s = .ok () (s.put i (xs.set k b)) := by
  simp [wr, h, hk, St.put]

theorem getD_set (p : Nat) (hj : j < xs.length) (b : Byte) : (xs.set j b).getD p 0 = if p = j then b else xs.getD p 0 := by
  simp only [List.getD_eq_getElem?_getD, List.getElem?_set]
  by_cases h : j = p
  · subst h; simp [hj]
  · simp [h, Ne.symm h]

/-- a computation that only replaces the array of `i`, by one of the same length satisfying `P` -/
def Eff (m : BM Unit) (s : St) (i : Nat) (xs : List Byte) (P : List Byte → Prop) : Prop :=
  ∃ zs, m s = .ok () (s.put i zs) ∧ zs.length = xs.length ∧ P zs

theorem Eff.seq {m m' : BM Unit} {P Q : List Byte → Prop} (h : Eff m s i xs P)
    (h' : ∀ zs, zs.length = xs.length → P zs → Eff m' (s.put i zs) i zs Q) : Eff (m >>= fun _ => m') s i xs Q := by
  obtain ⟨zs, h1, h2, h3⟩ := h
  obtain ⟨ws, k1, k2, k3⟩ := h' zs h2 h3
  refine ⟨ws, ?_, k2.trans h2, k3⟩
  rw [M.bind_ok h1, k1, put_put]

theorem Eff.mono {m : BM Unit} {P Q : List Byte → Prop} (h : Eff m s i xs P) (h' : ∀ zs, zs.length = xs.length → P zs → Q zs) :
    Eff m s i xs Q := by
  obtain ⟨zs, h1, h2, h3⟩ := h
  exact ⟨zs, h1, h2, h' zs h2 h3⟩

theorem Eff.pure (h : s.obj i = some xs) : Eff (Pure.pure ()) s i xs (fun zs => zs = xs) :=
  ⟨xs, by rw [put_self h]; rfl, rfl, rfl⟩

/-- decide a goal about nested conditions on indices -/
macro "ite_cases " p:term:max j:term:max : tactic =>
  `(tactic| ((repeat' split) <;> first
    | rfl
    | (exfalso; omega)
    | (have hpj : $p = $j := by omega
       simp only [hpj]
       first | done | rfl | (exfalso; omega))))

/-! ### the loops, byte by byte -/

theorem transform2_eff (f : Byte → Byte → Byte) : ∀ (m j : Nat) {s : St} {xs ys : List Byte}, s.obj i = some xs → s.obj k = some ys →
    j + m ≤ xs.length → j + m ≤ ys.length →
    Eff (transform2 f i k j m) s i xs (fun zs => ∀ p, zs.getD p 0 = if j ≤ p ∧ p < j + m then f (xs.getD p 0) (ys.getD p 0) else xs.getD p 0) := by
  intro m
  induction m with
  | zero =>
    intro j s xs ys hi _ _ _
    refine (Eff.pure hi).mono fun zs _ h p => ?_
    rw [if_neg (by omega), h]
  | succ m ih =>
    intro j s xs ys hi hk hx hy
    have e1 := rd_ok hi (k := j) (by omega)
    have e2 := rd_ok hk (k := j) (by omega)
    have e3 := wr_ok hi (k := j) (by omega) (f (xs.getD j 0) (ys.getD j 0))
    by_cases hik : k = i
    · subst hik
      rw [hi] at hk; cases hk
      obtain ⟨zs, h1, h2, h3⟩ := ih (j + 1) (s := s.put k (xs.set j (f (xs.getD j 0) (xs.getD j 0)))) put_obj_same put_obj_same
        (by simp; omega) (by simp; omega)
      refine ⟨zs, ?_, by simpa using h2, fun p => ?_⟩
      · unfold transform2
        mstep e1; mstep e2; mstep e3
        rw [h1, put_put]
      · rw [h3, getD_set p (by omega)]
        ite_cases p j
    · obtain ⟨zs, h1, h2, h3⟩ := ih (j + 1) (s := s.put i (xs.set j (f (xs.getD j 0) (ys.getD j 0)))) put_obj_same
        (by rw [put_obj_ne hik]; exact hk) (by simp; omega) (by omega)
      refine ⟨zs, ?_, by simpa using h2, fun p => ?_⟩
      · unfold transform2
        mstep e1; mstep e2; mstep e3
        rw [h1, put_put]
      · rw [h3, getD_set p (by omega)]
        ite_cases p j

theorem transform1_eff (f : Byte → Byte) : ∀ (m j : Nat) {s : St} {xs : List Byte}, s.obj i = some xs → j + m ≤ xs.length →
    Eff (transform1 f i j m) s i xs (fun zs => ∀ p, zs.getD p 0 = if j ≤ p ∧ p < j + m then f (xs.getD p 0) else xs.getD p 0) := by
  intro m
  induction m with
  | zero =>
    intro j s xs hi _
    refine (Eff.pure hi).mono fun zs _ h p => ?_
    rw [if_neg (by omega), h]
  | succ m ih =>
    intro j s xs hi hx
    obtain ⟨zs, h1, h2, h3⟩ := ih (j + 1) (s := s.put i (xs.set j (f (xs.getD j 0)))) put_obj_same (by simp; omega)
    refine ⟨zs, ?_, by simpa using h2, fun p => ?_⟩
    · unfold transform1
      mstep (rd_ok hi (k := j) (by omega))
      mstep (wr_ok hi (k := j) (by omega) _)
      rw [h1, put_put]
    · rw [h3, getD_set p (by omega)]
      ite_cases p j

theorem fillN_eff (b : Byte) : ∀ (m j : Nat) {s : St} {xs : List Byte}, s.obj i = some xs → j + m ≤ xs.length →
    Eff (fillN i b j m) s i xs (fun zs => ∀ p, zs.getD p 0 = if j ≤ p ∧ p < j + m then b else xs.getD p 0) := by
  intro m
  induction m with
  | zero =>
    intro j s xs hi _
    refine (Eff.pure hi).mono fun zs _ h p => ?_
    rw [if_neg (by omega), h]
  | succ m ih =>
    intro j s xs hi hx
    obtain ⟨zs, h1, h2, h3⟩ := ih (j + 1) (s := s.put i (xs.set j b)) put_obj_same (by simp; omega)
    refine ⟨zs, ?_, by simpa using h2, fun p => ?_⟩
    · unfold fillN
      mstep (wr_ok hi (k := j) (by omega) _)
      rw [h1, put_put]
    · rw [h3, getD_set p (by omega)]
      ite_cases p j

theorem shlInner_eff : ∀ (m : Nat) {s : St} {xs : List Byte}, s.obj i = some xs → m < xs.length →
    Eff (shlInner i m) s i xs (fun zs => ∀ p, zs.getD p 0 = if 1 ≤ p ∧ p ≤ m then (xs.getD p 0 <<< 1) ||| (xs.getD (p - 1) 0 >>> 7) else xs.getD p 0) := by
  intro m
  induction m with
  | zero =>
    intro s xs hi _
    refine (Eff.pure hi).mono fun zs _ h p => ?_
    rw [if_neg (by omega), h]
  | succ m ih =>
    intro s xs hi hx
    have h0 : s.obj i = some xs := hi
    have e1 := rd_ok hi (k := m + 1) hx
    have e2 := wr_ok hi (k := m + 1) hx (xs.getD (m + 1) 0 <<< 1)
    have hi' : (s.put i (xs.set (m + 1) (xs.getD (m + 1) 0 <<< 1))).obj i = some (xs.set (m + 1) (xs.getD (m + 1) 0 <<< 1)) := put_obj_same
    have e3 := rd_ok hi' (k := m + 1) (by simpa using hx)
    have e4 := rd_ok hi' (k := m) (by simp; omega)
    rw [getD_set _ hx, if_pos rfl] at e3
    rw [getD_set _ hx, if_neg (by omega)] at e4
    have e5 := wr_ok hi' (k := m + 1) (by simpa using hx) ((xs.getD (m + 1) 0 <<< 1) ||| (xs.getD m 0 >>> 7))
    rw [put_put, List.set_set] at e5
    obtain ⟨zs, h1, h2, h3⟩ := ih (s := s.put i (xs.set (m + 1) ((xs.getD (m + 1) 0 <<< 1) ||| (xs.getD m 0 >>> 7)))) put_obj_same (by simp; omega)
    refine ⟨zs, ?_, by simpa using h2, fun p => ?_⟩
    · unfold shlInner
      mstep e1; mstep e2; mstep e3; mstep e4; mstep e5
      rw [h1, put_put]
    · rw [h3, getD_set p hx, getD_set (p - 1) hx]
      ite_cases p (m + 1)

/-- one round of `>>=` after the first byte has been shifted -/
theorem shrInner_eff : ∀ (m j : Nat) {s : St} {xs : List Byte}, s.obj i = some xs → 1 ≤ j → j + m ≤ xs.length →
    Eff (shrInner i j m) s i xs (fun zs => ∀ p, zs.getD p 0 =
      (if j ≤ p ∧ p < j + m then xs.getD p 0 >>> 1 else xs.getD p 0) |||
      (if j ≤ p + 1 ∧ p + 1 < j + m then xs.getD (p + 1) 0 <<< 7 else 0#8)) := by
  intro m
  induction m with
  | zero =>
    intro j s xs hi _ _
    refine (Eff.pure hi).mono fun zs _ h p => ?_
    rw [if_neg (by omega), if_neg (by omega), h, BitVec.or_zero]
  | succ m ih =>
    intro j s xs hi hj hx
    have hj1 : j < xs.length := by omega
    have hj0 : j - 1 < xs.length := by omega
    have e1 := rd_ok hi (k := j - 1) hj0
    have e2 := rd_ok hi (k := j) hj1
    have e3 := wr_ok hi hj0 (xs.getD (j - 1) 0 ||| (xs.getD j 0 <<< 7))
    have hi' : (s.put i (xs.set (j - 1) (xs.getD (j - 1) 0 ||| (xs.getD j 0 <<< 7)))).obj i = some _ := put_obj_same
    have e4 := rd_ok hi' (k := j) (by simpa using hj1)
    rw [getD_set _ hj0, if_neg (by omega)] at e4
    have e5 := wr_ok hi' (k := j) (by simpa using hj1) (xs.getD j 0 >>> 1)
    rw [put_put] at e5
    obtain ⟨zs, h1, h2, h3⟩ := ih (j + 1) (s := s.put i ((xs.set (j - 1) (xs.getD (j - 1) 0 ||| (xs.getD j 0 <<< 7))).set j (xs.getD j 0 >>> 1)))
      put_obj_same (by omega) (by simp; omega)
    refine ⟨zs, ?_, by simpa using h2, fun p => ?_⟩
    · unfold shrInner
      mstep e1; mstep e2; mstep e3; mstep e4; mstep e5
      rw [h1, put_put]
    · have hl : j < (xs.set (j - 1) (xs.getD (j - 1) 0 ||| (xs.getD j 0 <<< 7))).length := by simpa using hj1
      rw [h3, getD_set p hl, getD_set (p + 1) hl, getD_set p hj0, getD_set (p + 1) hj0]
      by_cases c1 : p = j
      · subst c1
        by_cases c2 : p + 1 < p + (m + 1)
        · rw [if_neg (by omega), if_pos rfl, if_pos (by omega), if_neg (by omega), if_neg (by omega), if_pos (by omega),
            if_pos (by omega)]
        · rw [if_neg (by omega), if_pos rfl, if_neg (by omega), if_pos (by omega), if_neg (by omega)]
      · rw [if_neg c1]
        by_cases c2 : p + 1 = j
        · rw [if_pos (by omega : p = j - 1), if_neg (by omega), if_neg (by omega), if_neg (by omega), if_pos (by omega)]
          have : j - 1 = p := by omega
          rw [this, c2, BitVec.or_zero]
        · rw [if_neg (by omega : ¬ p = j - 1), if_neg c2]
          congr 1
          · ite_cases p j
          · by_cases c3 : j + 1 ≤ p + 1 ∧ p + 1 < j + 1 + m
            · rw [if_pos c3, if_neg (by omega), if_pos (by omega)]
            · rw [if_neg c3, if_neg (by omega)]

theorem swapRanges_same : ∀ (m j : Nat) {s : St} {xs : List Byte}, s.obj i = some xs → j + m ≤ xs.length →
    swapRanges i i j m s = .ok () s := by
  intro m
  induction m with
  | zero => intro j s xs hi _; rfl
  | succ m ih =>
    intro j s xs hi hx
    have e := wr_ok hi (k := j) (by omega) (xs.getD j 0)
    have : xs.set j (xs.getD j 0) = xs := by
      have hj : j < xs.length := by omega
      simp [List.getD_eq_getElem?_getD, hj]
    rw [this, put_self hi] at e
    unfold swapRanges
    mstep (rd_ok hi (k := j) (by omega))
    mstep (rd_ok hi (k := j) (by omega))
    mstep e
    mstep e
    exact ih (j + 1) hi (by omega)

theorem swapRanges_ne (hne : i ≠ k) : ∀ (m j : Nat) {s : St} {xs ys : List Byte}, s.obj i = some xs → s.obj k = some ys →
    j + m ≤ xs.length → j + m ≤ ys.length →
    ∃ zs ws, swapRanges i k j m s = .ok () ((s.put i zs).put k ws) ∧ zs.length = xs.length ∧ ws.length = ys.length ∧
      (∀ p, zs.getD p 0 = if j ≤ p ∧ p < j + m then ys.getD p 0 else xs.getD p 0) ∧
      ∀ p, ws.getD p 0 = if j ≤ p ∧ p < j + m then xs.getD p 0 else ys.getD p 0 := by
  intro m
  induction m with
  | zero =>
    intro j s xs ys hi hk _ _
    refine ⟨xs, ys, ?_, rfl, rfl, fun p => by rw [if_neg (by omega)], fun p => by rw [if_neg (by omega)]⟩
    rw [put_self hi, put_self hk]; rfl
  | succ m ih =>
    intro j s xs ys hi hk hx hy
    have e1 := rd_ok hi (k := j) (by omega)
    have e2 := rd_ok hk (k := j) (by omega)
    have e3 := wr_ok hi (k := j) (by omega) (ys.getD j 0)
    have hk' : (s.put i (xs.set j (ys.getD j 0))).obj k = some ys := by rw [put_obj_ne hne.symm]; exact hk
    have e4 := wr_ok hk' (k := j) (by omega) (xs.getD j 0)
    obtain ⟨zs, ws, h1, h2, h3, h4, h5⟩ := ih (j + 1) (s := (s.put i (xs.set j (ys.getD j 0))).put k (ys.set j (xs.getD j 0)))
      (by rw [put_obj_ne hne]; exact put_obj_same) put_obj_same (by simp; omega) (by simp; omega)
    refine ⟨zs, ws, ?_, by simpa using h2, by simpa using h3, fun p => ?_, fun p => ?_⟩
    · unfold swapRanges
      mstep e1; mstep e2; mstep e3; mstep e4
      rw [h1]
      congr 1
      simp only [St.put]
      congr 1
      funext x
      by_cases hxk : x = k
      · subst hxk; simp
      · by_cases hxi : x = i
        · subst hxi; simp [upd_ne _ _ hxk]
        · simp [upd_ne _ _ hxk, upd_ne _ _ hxi]
    · rw [h4, getD_set p (by omega), getD_set p (by omega)]
      ite_cases p j
    · rw [h5, getD_set p (by omega), getD_set p (by omega)]
      ite_cases p j

/-! ### bits -/

theorem bit_oob (h : 8 * xs.length ≤ k) : bit xs k = false := by
  unfold bit
  rw [List.getD_eq_getElem?_getD, List.getElem?_eq_none (by omega)]
  simp

theorem bit_ext (hl : xs.length = ys.length) (h : ∀ k, bit xs k = bit ys k) : xs = ys := by
  apply List.ext_getElem hl
  intro p h1 h2
  apply BitVec.eq_of_getLsbD_eq
  intro q hq
  have := h (8 * p + q)
  unfold bit at this
  rw [show (8 * p + q) / 8 = p by omega, show (8 * p + q) % 8 = q by omega] at this
  simpa [List.getD_eq_getElem?_getD, h1, h2] using this

theorem mask_getLsbD (m k : Nat) (hm : m < 8) : (1#8 <<< m).getLsbD k = decide (k = m) := by
  simp only [BitVec.getLsbD_shiftLeft, BitVec.getLsbD_one]
  by_cases h : k = m
  · subst h; simp [hm]
  · simp [h]; omega

theorem trailing_aux : ∀ r, r < 8 → ∀ m, m < 8 → (([255, 1, 3, 7, 15, 31, 63, 127] : List Byte).getD r 0).getLsbD m = decide (r = 0 ∨ m < r) := by
  decide

theorem trailing_getLsbD (n m : Nat) (hm : m < 8) : (trailingMask n).getLsbD m = decide (n % 8 = 0 ∨ m < n % 8) :=
  trailing_aux (n % 8) (Nat.mod_lt _ (by omega)) m hm

theorem bytes_pos (n : Nat) : 0 < bytes n := by unfold bytes; split <;> (try split) <;> omega
theorem bytes_cover (n : Nat) : n ≤ 8 * bytes n := by unfold bytes; split <;> (try split) <;> omega
theorem bytes_lt {n k : Nat} (h : k < n) : k / 8 < bytes n := by have := bytes_cover n; omega

theorem trailing_bit (hn : n ≠ 0) (hk : k / 8 = bytes n - 1) : (trailingMask n).getLsbD (k % 8) = decide (k < n) := by
  rw [trailing_getLsbD _ _ (Nat.mod_lt _ (by omega))]
  unfold bytes at hk
  rw [if_neg hn] at hk
  apply decide_eq_decide.2
  split at hk <;> omega

theorem clearTrailing_eff (hn : n ≠ 0) (hi : s.obj i = some xs) (hl : xs.length = bytes n) :
    Eff (clearTrailing n i) s i xs (fun zs => ∀ k, bit zs k = (bit xs k && decide (k < n))) := by
  have hp := bytes_pos n
  refine ⟨xs.set (bytes n - 1) (xs.getD (bytes n - 1) 0 &&& trailingMask n), ?_, ?_, fun k => ?_⟩
  · unfold clearTrailing
    mstep (rd_ok hi (by omega))
    exact wr_ok hi (by omega) _
  · simp
  · unfold bit
    rw [getD_set _ (by omega)]
    by_cases h : k / 8 = bytes n - 1
    · rw [if_pos h, BitVec.getLsbD_and, trailing_bit hn h, h]
    · rw [if_neg h]
      by_cases h2 : k / 8 < bytes n
      · have : k < n := by
          unfold bytes at h h2
          rw [if_neg hn] at h h2
          split at h <;> rename_i h3 <;> simp only [h3, if_true, if_false, not_false_eq_true, ne_eq] at h2 <;> omega
        simp [this]
      · rw [List.getD_eq_getElem?_getD, List.getElem?_eq_none (by omega)]
        simp

/-! ### what a byte array represents -/

/-- the array `bs` holds the `n` bits `f`, and its unused bits are clear -/
structure Rep (n : Nat) (bs : List Byte) (f : Fin n → Bool) : Prop where
  len : bs.length = bytes n
  val : ∀ k, bit bs k = if h : k < n then f ⟨k, h⟩ else false

theorem Rep.fin {f : Fin n → Bool} (h : Rep n xs f) (k : Fin n) : bit xs k = f k := by
  rw [h.val, dif_pos k.2]

theorem Rep.out {f : Fin n → Bool} (h : Rep n xs f) (hk : n ≤ k) : bit xs k = false := by
  rw [h.val, dif_neg (by omega)]

theorem Rep.inj {f g : Fin n → Bool} (h : Rep n xs f) (h' : Rep n ys g) : xs = ys ↔ f = g := by
  constructor
  · rintro rfl; funext k; rw [← h.fin, ← h'.fin]
  · rintro rfl
    exact bit_ext (h.len.trans h'.len.symm) fun k => by rw [h.val, h'.val]

theorem Rep.mk' {f : Fin n → Bool} (hl : xs.length = bytes n) (h1 : ∀ k : Fin n, bit xs k = f k) (h2 : ∀ k, n ≤ k → bit xs k = false) :
    Rep n xs f := by
  refine ⟨hl, fun k => ?_⟩
  split
  · next h => exact h1 ⟨k, h⟩
  · exact h2 k (by omega)

/-- the bits a byte array stands for -/
def bitsOf (n : Nat) (bs : List Byte) : Fin n → Bool := fun k => bit bs k

end Ptl.Bitset

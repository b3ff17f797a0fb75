import Verif.Bitset.Ops

/-! # Queries, comparison and streams of the bitset model -/

namespace Ptl.Bitset

variable {n : Nat} {s : St} {i j k c : Nat} {xs ys : List Byte} {f g : Bits n}

theorem getD_lt {p : Nat} (h : p < xs.length) : xs.getD p 0 = xs[p] := by simp [h]

theorem bit_mul (p q : Nat) (hq : q < 8) : bit xs (8 * p + q) = (xs.getD p 0).getLsbD q := by
  unfold bit
  rw [show (8 * p + q) / 8 = p by omega, show (8 * p + q) % 8 = q by omega]

theorem anySet_ok (hi : s.obj i = some xs) (hr : Rep n xs f) : anySet n i s = .ok (decide (∃ k, f k = true)) s := by
  unfold anySet
  split
  · next hn => subst hn; simp
  · mstep (getObj_ok hi)
    show Out.ok _ s = _
    congr 1
    rw [Bool.eq_iff_iff, List.any_eq_true, decide_eq_true_iff]
    constructor
    · rintro ⟨b, hb, hne⟩
      rw [bne_iff_ne] at hne
      obtain ⟨p, hp, rfl⟩ := List.mem_iff_getElem.1 hb
      have : ∃ q, q < 8 ∧ xs[p].getLsbD q = true := by
        apply Classical.byContradiction
        intro hcon
        apply hne
        apply BitVec.eq_of_getLsbD_eq
        intro q hq
        cases h : xs[p].getLsbD q with
        | false => simp
        | true => exact absurd ⟨q, hq, h⟩ hcon
      obtain ⟨q, hq, h⟩ := this
      rw [← getD_lt hp, ← bit_mul p q hq] at h
      have hk : 8 * p + q < n := by
        apply Classical.byContradiction
        intro hk
        rw [hr.out (by omega)] at h; cases h
      exact ⟨⟨_, hk⟩, by rw [← hr.fin]; exact h⟩
    · rintro ⟨k, hk⟩
      rw [← hr.fin] at hk
      have hl : k.1 / 8 < xs.length := by rw [hr.len]; exact bytes_lt k.2
      refine ⟨xs[k.1 / 8], List.getElem_mem hl, ?_⟩
      rw [bne_iff_ne]
      intro h0
      unfold bit at hk
      rw [getD_lt hl, h0] at hk
      simp at hk

theorem noneSet_ok (hi : s.obj i = some xs) (hr : Rep n xs f) : noneSet n i s = .ok (decide (∀ k, f k = false)) s := by
  unfold noneSet
  mstep (anySet_ok hi hr)
  show Out.ok _ s = _
  congr 1
  rw [Bool.eq_iff_iff]
  simp

theorem allSet_ok (hi : s.obj i = some xs) (hr : Rep n xs f) : allSet n i s = .ok (decide (∀ k, f k = true)) s := by
  unfold allSet
  have hl := hr.len
  have hp := bytes_pos n
  split
  · next hn => subst hn; simp
  · next hn =>
    mstep (getObj_ok hi)
    mstep (rd_ok hi (k := bytes n - 1) (by omega))
    show Out.ok _ s = _
    congr 1
    rw [Bool.eq_iff_iff, Bool.and_eq_true, List.all_eq_true, decide_eq_true_iff, beq_iff_eq]
    constructor
    · rintro ⟨h1, h2⟩ k
      rw [← hr.fin]
      have hkb := bytes_lt k.2
      unfold bit
      by_cases hk : k.1 / 8 = bytes n - 1
      · rw [hk, h2, trailing_bit hn hk]; simp
      · have : xs.getD (k.1 / 8) 0 = 255 := by
          have := h1 (xs.getD (k.1 / 8) 0) (by
            rw [getD_lt (by omega)]
            exact List.mem_take_iff_getElem.2 ⟨k.1 / 8, by omega, rfl⟩)
          simpa using this
        rw [this, show (255 : Byte) = BitVec.allOnes 8 by decide, BitVec.getLsbD_allOnes]
        simp [Nat.mod_lt k.1 (show 0 < 8 by omega)]
    · intro h
      have hb : ∀ k, k < n → bit xs k = true := fun k hk => by rw [hr.fin ⟨k, hk⟩]; exact h _
      constructor
      · intro b hb'
        obtain ⟨p, hp1, rfl⟩ := List.mem_take_iff_getElem.1 hb'
        rw [beq_iff_eq, show (255 : Byte) = BitVec.allOnes 8 by decide]
        apply BitVec.eq_of_getLsbD_eq
        intro q hq
        rw [BitVec.getLsbD_allOnes, ← getD_lt (by omega), ← bit_mul p q hq, hb _ ?_]
        · simp [hq]
        · have : p < bytes n - 1 := by omega
          unfold bytes at this
          rw [if_neg hn] at this
          split at this <;> omega
      · apply BitVec.eq_of_getLsbD_eq
        intro q hq
        have e1 := bit_mul (xs := xs) (bytes n - 1) q hq
        have e2 := trailing_bit (n := n) (k := 8 * (bytes n - 1) + q) hn (by omega)
        rw [show (8 * (bytes n - 1) + q) % 8 = q by omega] at e2
        rw [← e1, e2]
        by_cases hk : 8 * (bytes n - 1) + q < n
        · rw [hb _ hk]; simp [hk]
        · rw [hr.out (by omega)]; simp [hk]

/-! ### count -/

/-- number of `k < m` with `p k` -/
def cnt (p : Nat → Bool) : Nat → Nat
  | 0 => 0
  | m + 1 => cnt p m + (if p m then 1 else 0)

theorem cnt_congr {p q : Nat → Bool} : ∀ m, (∀ k, k < m → p k = q k) → cnt p m = cnt q m := by
  intro m
  induction m with
  | zero => intro _; rfl
  | succ m ih => intro h; simp only [cnt]; rw [ih (fun k hk => h k (by omega)), h m (by omega)]

theorem cnt_add (p : Nat → Bool) (a : Nat) : ∀ b, cnt p (a + b) = cnt p a + cnt (fun k => p (a + k)) b := by
  intro b
  induction b with
  | zero => rfl
  | succ b ih =>
    show cnt p (a + b) + _ = cnt p a + (cnt _ b + _)
    rw [ih, Nat.add_assoc]
    rfl

theorem cnt_zero {p : Nat → Bool} : ∀ m, (∀ k, k < m → p k = false) → cnt p m = 0 := by
  intro m
  induction m with
  | zero => intro _; rfl
  | succ m ih => intro h; simp only [cnt]; rw [ih (fun k hk => h k (by omega)), h m (by omega)]; rfl

set_option maxRecDepth 100000 in
theorem nibbles : ∀ b : Fin 256, nibbleCount (BitVec.ofFin (w := 8) b >>> 4).toNat + nibbleCount (BitVec.ofFin (w := 8) b &&& 15).toNat =
    cnt (fun q => (BitVec.ofFin (w := 8) b).getLsbD q) 8 := by decide

theorem nibbles_byte (b : Byte) : nibbleCount (b >>> 4).toNat + nibbleCount (b &&& 15).toNat = cnt (fun q => b.getLsbD q) 8 :=
  nibbles b.toFin

theorem count_bytes : ∀ (l : List Byte) (acc : Nat),
    l.foldl (fun (sum : Nat) (val : Byte) => sum + (nibbleCount (val >>> 4).toNat + nibbleCount (val &&& 15).toNat)) acc =
      acc + cnt (bit l) (8 * l.length) := by
  intro l
  induction l with
  | nil => intro acc; rfl
  | cons b l ih =>
    intro acc
    rw [List.foldl_cons, ih, nibbles_byte, List.length_cons, Nat.mul_add, Nat.mul_one, Nat.add_comm (8 * l.length), cnt_add, Nat.add_assoc]
    have e1 : cnt (fun q => b.getLsbD q) 8 = cnt (bit (b :: l)) 8 := cnt_congr 8 fun q hq => by
      have := bit_mul (xs := b :: l) 0 q hq
      rw [Nat.mul_zero, Nat.zero_add] at this
      rw [this]; rfl
    have e2 : cnt (bit l) (8 * l.length) = cnt (fun k => bit (b :: l) (8 + k)) (8 * l.length) := cnt_congr _ fun k _ => by
      unfold bit
      rw [show (8 + k) / 8 = k / 8 + 1 by omega, show (8 + k) % 8 = k % 8 by omega]
      simp
    rw [e1, e2]

theorem countTo_eq (f : Bits n) : ∀ m, countTo f m = cnt (bitAt f) m := by
  intro m
  induction m with
  | zero => rfl
  | succ m ih => simp only [countTo, cnt, ih]

theorem count_ok (hi : s.obj i = some xs) (hr : Rep n xs f) : count n i s = .ok (countTo f n) s := by
  unfold count
  split
  · next hn => subst hn; rfl
  · mstep (getObj_ok hi)
    show Out.ok _ s = _
    congr 1
    rw [count_bytes, hr.len, countTo_eq, Nat.zero_add]
    have hc := bytes_cover n
    rw [show 8 * bytes n = n + (8 * bytes n - n) by omega, cnt_add]
    rw [cnt_zero (8 * bytes n - n) (fun k _ => hr.out (by omega))]
    rw [Nat.add_zero]
    exact cnt_congr n fun k _ => hr.bitAt k

/-! ### comparison -/

theorem opEq_ok (hi : s.obj i = some xs) (hr : Rep n xs f) (hj : s.obj j = some ys) (hr' : Rep n ys g) :
    opEq n i j s = .ok (decide (∀ k, f k = g k)) s := by
  unfold opEq
  split
  · next hn => subst hn; simp
  · mstep (getObj_ok hi)
    mstep (getObj_ok hj)
    show Out.ok _ s = _
    congr 1
    have h := equalRange_eq (eq := fun a b : Byte => a == b) (fun a b => beq_iff_eq) xs ys
    unfold equalRange at h
    rw [if_neg (by rw [hr.len, hr'.len]; simp)] at h
    rw [Bool.eq_iff_iff, h, decide_eq_true_iff, hr.inj hr']
    exact funext_iff

theorem opNe_ok (hi : s.obj i = some xs) (hr : Rep n xs f) (hj : s.obj j = some ys) (hr' : Rep n ys g) :
    opNe n i j s = .ok (decide (∃ k, f k ≠ g k)) s := by
  unfold opNe
  mstep (opEq_ok hi hr hj hr')
  show Out.ok _ s = _
  congr 1
  rw [Bool.eq_iff_iff]
  simp

/-! ### output -/

theorem test_ok (hi : s.obj i = some xs) (hr : Rep n xs f) (hk : k < n) : test n i k s = .ok (bitAt f k) s := by
  unfold test atConst
  rw [if_neg (by omega)]
  exact index_ok hi hr hk

theorem putAll_zero : ∀ (cs : List UInt8) (os : OStream), os.width = 0 → cs.foldl OStream.put os = { os with out := os.out ++ cs } := by
  intro cs
  induction cs with
  | nil => intro os _; simp
  | cons c cs ih =>
    intro os hw
    rw [List.foldl_cons, ih _ rfl]
    cases os
    simp only at hw
    subst hw
    simp only [OStream.put]
    split <;> simp

theorem insertLoop_ok (hi : s.obj i = some xs) (hr : Rep n xs f) : ∀ (m : Nat) (os : OStream), m ≤ n →
    insertLoop n i m { s with os := os } = .ok () { s with os := (textTo f m).foldl OStream.put os } := by
  intro m
  induction m with
  | zero => intro os _; rfl
  | succ m ih =>
    intro os hm
    unfold insertLoop
    mstep (test_ok (s := { s with os := os }) hi hr (by omega))
    mstep (rfl : getOs _ = .ok os _)
    mstep (rfl : setOs _ _ = .ok () _)
    exact ih _ (by omega)

theorem insert_ok (hi : s.obj i = some xs) (hr : Rep n xs f) : insert n i s = .ok () { s with os := inserted f s.os } := by
  unfold insert
  have := insertLoop_ok hi hr n s.os (Nat.le_refl n)
  rw [this]
  congr 2
  unfold inserted text
  cases textTo f n with
  | nil => rfl
  | cons c cs =>
    rw [List.foldl_cons, putAll_zero _ _ rfl]
    simp only [OStream.put]
    simp

/-! ### input -/

/-- push a row of digits into the low end -/
def pushBits (f : Bits n) (d : List UInt8) : Bits n := fun k =>
  if h : k.1 < d.length then d.reverse[k.1]'(by simpa using h) == 49 else f ⟨k.1 - d.length, by omega⟩

theorem pushBits_nil (f : Bits n) : pushBits f [] = f := by funext k; simp [pushBits]

theorem pushBits_cons (f : Bits n) (c : UInt8) (d : List UInt8) : pushBits f (c :: d) = pushBits (pushBits f [c]) d := by
  funext k
  simp only [pushBits, List.length_cons, List.length_nil]
  by_cases h1 : k.1 < d.length
  · rw [dif_pos (by omega), dif_pos h1]
    simp only [List.reverse_cons]
    rw [List.getElem_append_left (by simpa using h1)]
  · rw [dif_neg h1]
    by_cases h2 : k.1 = d.length
    · rw [dif_pos (by omega), dif_pos (by omega)]
      simp [h2]
    · rw [dif_neg (by omega), dif_neg (by omega)]
      congr 2

theorem pushBits_one (f : Bits n) (c : UInt8) : pushBits f [c] = setBit (shiftUp f 1) 0 (c == 49) := by
  funext k
  simp only [pushBits, setBit, shiftUp, List.length_singleton]
  by_cases h : k.1 = 0
  · rw [dif_pos (by omega), if_pos h]; simp [h]
  · rw [dif_neg (by omega), if_neg h, if_pos (by omega)]

theorem pushBits_ofText (d : List UInt8) : pushBits (fun _ : Fin n => false) d = ofText d := by
  funext k
  simp only [pushBits, ofText]
  by_cases h : k.1 < d.length
  · rw [dif_pos h, List.getElem?_eq_getElem (by simpa using h)]; simp
  · rw [dif_neg h, List.getElem?_eq_none (by simp; omega)]; rfl

/-- one digit: shift left, then set bit 0 -/
theorem push_act (hn : n ≠ 0) (hi : s.obj i = some xs) (hr : Rep n xs f) (c : UInt8) (hc : c = 48 ∨ c = 49) :
    Act n (do shlAssign n i 1; if some c = some 49 then setAt n i 0 true) s i (pushBits f [c]) := by
  refine (shlAssign_act hi hr 1).seq fun zs hz => ?_
  rw [pushBits_one]
  rcases hc with rfl | rfl
  · rw [if_neg (by decide)]
    refine Act.skip put_obj_same hz ?_
    funext k
    simp only [setBit]
    by_cases h : k.1 = 0
    · rw [if_pos h]; simp [shiftUp, h]
    · rw [if_neg h]
  · rw [if_pos rfl]
    exact setAt_act put_obj_same hz (by omega) true

/-- the stream after the loop, `m` characters being allowed; `e` tells whether a digit was read before -/
def loopStream (is : IStream) (m : Nat) (e : Bool) : IStream :=
  let d := (is.rest.take m).takeWhile isDigit
  { is with
    past := d.reverse ++ is.past
    rest := is.rest.drop d.length
    fail := decide (d.length < m ∧ is.rest = d) || (decide (d = [] ∧ m ≠ 0) && !e) }

theorem extractLoop_ok (hn : n ≠ 0) : ∀ (m : Nat) (e : Bool) {s : St} {xs : List Byte} {f : Bits n}, s.obj i = some xs → Rep n xs f →
    s.is.eof = false → s.is.fail = false → s.is.bad = false →
    ∃ zs, extractLoop n i m e s = .ok () { (s.put i zs) with is := loopStream s.is m e } ∧
      Rep n zs (if (s.is.rest.take m).takeWhile isDigit = [] then f
        else pushBits (if e then f else fun _ => false) ((s.is.rest.take m).takeWhile isDigit)) := by
  intro m
  induction m with
  | zero =>
    intro e s xs f hi hr h1 h2 h3
    refine ⟨xs, ?_, by simpa using hr⟩
    obtain ⟨o, ⟨pa, re, eo, fa, ba, sk, sp⟩, os⟩ := s
    simp only at h1 h2 h3
    subst h1 h2 h3
    rw [put_self hi]
    simp [extractLoop, loopStream]
  | succ m ih =>
    intro e s xs f hi hr h1 h2 h3
    obtain ⟨o, ⟨pa, re, eo, fa, ba, sk, sp⟩, os⟩ := s
    simp only at h1 h2 h3
    subst h1 h2 h3
    cases re with
    | nil =>
      refine ⟨xs, ?_, by simpa using hr⟩
      rw [put_self hi]
      unfold extractLoop
      mstep (rfl : getIs _ = .ok _ _)
      simp only [IStream.get, IStream.sentry, IStream.good, IStream.unget]
      mstep (rfl : setIs _ _ = .ok () _)
      simp only
      mstep (rfl : setIs _ _ = .ok () _)
      cases e with
      | true => simp [loopStream]
      | false =>
        simp only [Bool.not_false, if_true]
        mstep (rfl : getIs _ = .ok _ _)
        simp [loopStream, setIs]
    | cons c cs =>
      by_cases hc : c = 48 ∨ c = 49
      · have hd : isDigit c = true := by rcases hc with rfl | rfl <;> rfl
        have step : ∀ (e' : Bool) (zs : List Byte), Rep n zs (if e' then f else fun _ => false) →
            ∃ ws, (do
              shlAssign n i 1
              if some c = some 49 then setAt n i 0 true
              extractLoop n i m true) ((St.mk o ⟨c :: pa, cs, false, false, false, sk, sp⟩ os).put i zs) =
              .ok () { ((St.mk o ⟨pa, c :: cs, false, false, false, sk, sp⟩ os).put i ws) with
                is := loopStream ⟨pa, c :: cs, false, false, false, sk, sp⟩ (m + 1) e } ∧
              Rep n ws (pushBits (if e' then f else fun _ => false) (((c :: cs).take (m + 1)).takeWhile isDigit)) := by
          intro e' zs hz
          obtain ⟨ws, k1, k2⟩ := push_act hn (s := (St.mk o ⟨c :: pa, cs, false, false, false, sk, sp⟩ os).put i zs) put_obj_same hz c hc
          obtain ⟨us, l1, l2⟩ := ih true (s := (St.mk o ⟨c :: pa, cs, false, false, false, sk, sp⟩ os).put i ws) put_obj_same k2 rfl rfl rfl
          refine ⟨us, ?_, ?_⟩
          · have : (do
                shlAssign n i 1
                if some c = some 49 then setAt n i 0 true
                extractLoop n i m true) = ((do
                shlAssign n i 1
                if some c = some 49 then setAt n i 0 true) >>= fun _ => extractLoop n i m true) := by
              rw [M.bind_assoc']
              congr 1
              funext _
              split
              · rfl
              · rfl
            rw [this]
            mstep k1
            rw [put_put, l1, put_put]
            simp only [loopStream, List.take_succ_cons, List.takeWhile_cons, hd, if_true, put_is]
            simp [St.put]
            rw [Bool.eq_iff_iff, Bool.and_eq_true, decide_eq_true_iff, decide_eq_true_iff]
            exact decide_eq_true_iff
          · rw [List.take_succ_cons, List.takeWhile_cons, hd, if_pos rfl, pushBits_cons]
            simp only [put_is] at l2
            split at l2
            · next h => rw [h, pushBits_nil]; exact l2
            · simpa using l2
        have hrd : ¬ ((((c :: cs).take (m + 1)).takeWhile isDigit) = []) := by
          rw [List.take_succ_cons, List.takeWhile_cons, hd, if_pos rfl]; simp
        cases e with
        | true =>
          obtain ⟨ws, k1, k2⟩ := step true xs hr
          refine ⟨ws, ?_, by simp only [if_neg hrd]; exact k2⟩
          rw [put_self (by exact hi)] at k1
          unfold extractLoop
          mstep (rfl : getIs _ = .ok _ _)
          simp only [IStream.get, IStream.sentry, IStream.good]
          mstep (rfl : setIs _ _ = .ok () _)
          have hc' : (some c = some 48 ∨ some c = some 49) := by simpa using hc
          simp only [Bool.not_false, Bool.and_true, Bool.not_true, Bool.false_eq_true, if_false, Bool.false_and, if_pos hc']
          exact k1
        | false =>
          obtain ⟨zs, j1, j2⟩ := resetAll_act (s := St.mk o ⟨c :: pa, cs, false, false, false, sk, sp⟩ os) hi hr
          obtain ⟨ws, k1, k2⟩ := step false zs j2
          refine ⟨ws, ?_, by simp only [if_neg hrd]; exact k2⟩
          unfold extractLoop
          mstep (rfl : getIs _ = .ok _ _)
          simp only [IStream.get, IStream.sentry, IStream.good]
          mstep (rfl : setIs _ _ = .ok () _)
          have hc' : (some c = some 48 ∨ some c = some 49) := by simpa using hc
          simp only [Bool.not_false, Bool.and_true, Bool.not_true, Bool.false_eq_true, if_false, Bool.false_and, if_pos hc']
          refine Eq.trans ?_ k1
          exact M.bind_ok j1
      · have hd : isDigit c = false := by
          unfold isDigit
          simp only [Bool.or_eq_false_iff, beq_eq_false_iff_ne]
          exact ⟨fun h => hc (.inl h), fun h => hc (.inr h)⟩
        have hc' : ¬ (some c = some 48 ∨ some c = some 49) := by simpa using hc
        refine ⟨xs, ?_, by simpa [hd] using hr⟩
        rw [put_self hi]
        unfold extractLoop
        mstep (rfl : getIs _ = .ok _ _)
        simp only [IStream.get, IStream.sentry, IStream.good, IStream.unget]
        mstep (rfl : setIs _ _ = .ok () _)
        simp only [Bool.not_false, Bool.and_true, Bool.not_true, Bool.false_eq_true, if_false, Bool.false_and, if_neg hc']
        mstep (rfl : setIs _ _ = .ok () _)
        cases e with
        | true => simp [loopStream, hd]
        | false =>
          simp only [Bool.not_false, if_true]
          mstep (rfl : getIs _ = .ok _ _)
          simp [loopStream, setIs, hd]

theorem skip_eq (is : IStream) : ∀ (r p : List UInt8), is.skip p r =
    { is with past := (r.takeWhile is.isspace).reverse ++ p, rest := r.drop (r.takeWhile is.isspace).length } := by
  intro r
  induction r with
  | nil => intro p; simp [IStream.skip]
  | cons c cs ih =>
    intro p
    unfold IStream.skip
    cases h : is.isspace c with
    | true => simp [ih, h]
    | false => simp [h]

theorem extract_ok (hi : s.obj i = some xs) (hr : Rep n xs f) :
    ∃ zs, extract n i s = .ok () { (s.put i zs) with is := (extracted f s.is).2 } ∧ Rep n zs (extracted f s.is).1 := by
  unfold extract
  obtain ⟨o, ⟨pa, re, eo, fa, ba, sk, sp⟩, os⟩ := s
  by_cases hg : (eo || fa || ba) = true
  · refine ⟨xs, ?_, ?_⟩
    · rw [put_self hi]
      mstep (rfl : getIs _ = .ok _ _)
      have : IStream.sentry ⟨pa, re, eo, fa, ba, sk, sp⟩ false = (⟨pa, re, eo, true, ba, sk, sp⟩, false) := by
        unfold IStream.sentry IStream.good
        rw [if_pos (by revert hg; cases eo <;> cases fa <;> cases ba <;> simp)]
      rw [this]
      mstep (rfl : setIs _ _ = .ok () _)
      simp [extracted, hg]
    · simp only [extracted, hg, if_true]; exact hr
  · have hf : eo = false ∧ fa = false ∧ ba = false := by
      revert hg; cases eo <;> cases fa <;> cases ba <;> simp
    obtain ⟨rfl, rfl, rfl⟩ := hf
    -- the stream after the sentry
    have hs : ∀ is' : IStream, is' = { (⟨pa, re, false, false, false, sk, sp⟩ : IStream) with
          past := (blanks ⟨pa, re, false, false, false, sk, sp⟩).reverse ++ pa, rest := afterBlanks ⟨pa, re, false, false, false, sk, sp⟩ } →
        IStream.sentry ⟨pa, re, false, false, false, sk, sp⟩ false =
          if sk && (afterBlanks ⟨pa, re, false, false, false, sk, sp⟩).isEmpty then ({ is' with eof := true, fail := true }, false) else (is', true) := by
      intro is' h
      subst h
      unfold IStream.sentry IStream.good
      cases sk with
      | false => simp [blanks, afterBlanks]
      | true =>
        simp only [Bool.not_false, Bool.and_true, Bool.not_true, Bool.false_eq_true, if_false, Bool.true_and, if_true, skip_eq,
          blanks, afterBlanks]
    have hs' := hs _ rfl
    by_cases hb : (sk && (afterBlanks ⟨pa, re, false, false, false, sk, sp⟩).isEmpty) = true
    · rw [if_pos hb] at hs'
      refine ⟨xs, ?_, ?_⟩
      · rw [put_self hi]
        mstep (rfl : getIs _ = .ok _ _)
        rw [hs']
        mstep (rfl : setIs _ _ = .ok () _)
        simp only [Bool.false_eq_true, if_false]
        simp only [extracted, Bool.or_self, Bool.false_eq_true, if_false, hb, if_true]
        have : afterBlanks ⟨pa, re, false, false, false, sk, sp⟩ = [] := by
          have := (Bool.and_eq_true_iff.1 hb).2
          simpa using this
        rw [this]; rfl
      · simp only [extracted, Bool.or_self, Bool.false_eq_true, if_false, hb, if_true]; exact hr
    · rw [if_neg hb] at hs'
      by_cases hn : n = 0
      · refine ⟨xs, ?_, by rw [bits_zero hn (extracted f _).1 f]; exact hr⟩
        rw [put_self hi]
        mstep (rfl : getIs _ = .ok _ _)
        rw [hs']
        mstep (rfl : setIs _ _ = .ok () _)
        subst hn
        simp only [if_true, extractLoop]
        simp only [extracted, Bool.or_self, Bool.false_eq_true, if_false, if_neg hb]
        simp [digits]
      · obtain ⟨zs, k1, k2⟩ := extractLoop_ok hn n false (s := St.mk o
          ⟨(blanks ⟨pa, re, false, false, false, sk, sp⟩).reverse ++ pa, afterBlanks ⟨pa, re, false, false, false, sk, sp⟩, false, false, false, sk, sp⟩ os)
          hi hr rfl rfl rfl
        refine ⟨zs, ?_, ?_⟩
        · mstep (rfl : getIs _ = .ok _ _)
          rw [hs']
          mstep (rfl : setIs _ _ = .ok () _)
          simp only [if_true]
          rw [k1]
          simp only [extracted, Bool.or_self, Bool.false_eq_true, if_false, if_neg hb]
          by_cases hd : digits n ⟨pa, re, false, false, false, sk, sp⟩ = []
          · rw [if_pos ⟨hn, hd⟩]
            have hd' := hd
            unfold digits at hd'
            simp [loopStream, hd', hn, St.put]
          · rw [if_neg (fun h => hd h.2)]
            have hd' := hd
            unfold digits at hd'
            simp only [loopStream, hd', false_and, decide_false, Bool.false_and, Bool.or_false]
            rfl
        · simp only [extracted, Bool.or_self, Bool.false_eq_true, if_false, if_neg hb]
          by_cases hd : digits n ⟨pa, re, false, false, false, sk, sp⟩ = []
          · rw [if_pos ⟨hn, hd⟩]
            have hd' := hd
            unfold digits at hd'
            simpa [hd'] using k2
          · rw [if_neg (fun h => hd h.2)]
            have hd' := hd
            unfold digits at hd'
            simp only [if_neg hd'] at k2
            rw [← pushBits_ofText]
            exact k2

end Ptl.Bitset

import Verif.Bitset.Props.Bits

/-! # C35, C36, C62: stream output and input of bitsets -/

namespace Ptl.Bitset

variable {n : Nat} {s s' : St} {V V' : View n} {i j k : Nat} {f g : Bits n}

/-- no error bit is set -/
def Good (is : IStream) : Prop := is.eof = false ∧ is.fail = false ∧ is.bad = false

theorem textTo_length (f : Bits n) : ∀ m, (textTo f m).length = m := by
  intro m
  induction m with
  | zero => rfl
  | succ m ih => simp [textTo, ih]

theorem text_length (f : Bits n) : (text f).length = n := textTo_length f n

theorem textTo_digit (f : Bits n) : ∀ m c, c ∈ textTo f m → isDigit c = true := by
  intro m
  induction m with
  | zero => intro c h; cases h
  | succ m ih =>
    intro c h
    rcases List.mem_cons.1 h with rfl | h
    · unfold digit; split <;> rfl
    · exact ih c h

theorem textTo_get (f : Bits n) : ∀ m k, k < m → (textTo f m).reverse[k]? = some (digit (bitAt f k)) := by
  intro m
  induction m with
  | zero => intro k h; omega
  | succ m ih =>
    intro k h
    rw [textTo, List.reverse_cons]
    by_cases hk : k < m
    · rw [List.getElem?_append_left (by simpa [textTo_length] using hk), ih k hk]
    · have : k = m := by omega
      subst this
      rw [List.getElem?_append_right (by simp [textTo_length])]
      simp [textTo_length]

/-- reading a bitset's text gives back its bits -/
theorem ofText_text (f : Bits n) : ofText (text f) = f := by
  funext k
  unfold ofText text
  rw [textTo_get f n k k.2, bitAt_fin]
  unfold digit
  cases f k <;> rfl

/-- how the unread input of a stream divides for extraction: skipped whitespace `b`, digits `d`, the rest `t` -/
structure Splits (n : Nat) (is : IStream) (b d t : List UInt8) : Prop where
  eq : is.rest = b ++ (d ++ t)
  blank : ∀ c ∈ b, is.skipws = true ∧ is.isspace c = true
  next : is.skipws = true → ∀ c, (d ++ t).head? = some c → is.isspace c = false
  digit : ∀ c ∈ d, c = 48 ∨ c = 49
  len : d.length ≤ n
  stop : d.length < n → ∀ c, t.head? = some c → c ≠ 48 ∧ c ≠ 49

theorem takeWhile_append_of {p : UInt8 → Bool} {b r : List UInt8} (hb : ∀ c ∈ b, p c = true) (hr : ∀ c, r.head? = some c → p c = false) :
    (b ++ r).takeWhile p = b := by
  induction b with
  | nil =>
    cases r with
    | nil => rfl
    | cons c r => simp [hr c rfl]
  | cons c b ih =>
    rw [List.cons_append, List.takeWhile_cons, hb c (by simp), if_pos rfl, ih (fun c h => hb c (by simp [h]))]

theorem Splits.blanks {is : IStream} {b d t : List UInt8} (h : Splits n is b d t) : blanks is = b := by
  unfold Bitset.blanks
  cases hs : is.skipws with
  | true =>
    rw [if_pos rfl, h.eq]
    exact takeWhile_append_of (fun c hc => (h.blank c hc).2) (h.next hs)
  | false =>
    rw [if_neg (by simp)]
    cases b with
    | nil => rfl
    | cons c b => have := (h.blank c (by simp)).1; rw [hs] at this; cases this

theorem Splits.after {is : IStream} {b d t : List UInt8} (h : Splits n is b d t) : afterBlanks is = d ++ t := by
  unfold afterBlanks
  rw [h.blanks, h.eq]; simp

theorem isDigit_iff (c : UInt8) : isDigit c = true ↔ c = 48 ∨ c = 49 := by simp [isDigit]

theorem Splits.digits {is : IStream} {b d t : List UInt8} (h : Splits n is b d t) : digits n is = d := by
  unfold Bitset.digits
  rw [h.after, List.take_append, List.take_of_length_le h.len]
  by_cases hl : d.length < n
  · refine takeWhile_append_of (fun c hc => (isDigit_iff c).2 (h.digit c hc)) fun c hc => ?_
    cases t with
    | nil => simp at hc
    | cons x t =>
      have : n - d.length = (n - d.length - 1) + 1 := by omega
      rw [this, List.take_succ_cons] at hc
      simp only [List.head?_cons, Option.some.injEq] at hc
      subst hc
      have := h.stop hl x rfl
      cases hx : isDigit x with
      | false => rfl
      | true => rcases (isDigit_iff x).1 hx with hx | hx
                · exact absurd hx this.1
                · exact absurd hx this.2
  · have : n - d.length = 0 := by omega
    rw [this, List.take_zero, List.append_nil]
    have := takeWhile_append_of (p := isDigit) (b := d) (r := []) (fun c hc => (isDigit_iff c).2 (h.digit c hc)) (by simp)
    simpa using this

theorem extracted_some {is : IStream} {b d t : List UInt8} (hg : Good is) (h : Splits n is b d t) (hd : d ≠ []) (f : Bits n) :
    extracted f is = (ofText d, { is with past := d.reverse ++ (b.reverse ++ is.past), rest := t, fail := decide (d.length < n ∧ t = []) }) := by
  obtain ⟨h1, h2, h3⟩ := hg
  unfold extracted
  rw [h.blanks, h.after, h.digits, if_neg (by simp [h1, h2, h3]), if_neg (by simp [hd]), if_neg (by simp [hd])]
  simp

theorem extracted_none {is : IStream} {b t : List UInt8} (hg : Good is) (h : Splits n is b [] t) (hn : 0 < n) (f : Bits n) :
    (extracted f is).1 = f ∧ (extracted f is).2.fail = true ∧ (extracted f is).2.rest = t ∧ (extracted f is).2.bad = false := by
  obtain ⟨h1, h2, h3⟩ := hg
  unfold extracted
  rw [h.blanks, h.after, h.digits, if_neg (by simp [h1, h2, h3])]
  split
  · next hx =>
    have : t = [] := by simpa using (Bool.and_eq_true_iff.1 hx).2
    subst this
    exact ⟨rfl, rfl, rfl, h3⟩
  · rw [if_pos ⟨by omega, rfl⟩]
    exact ⟨rfl, rfl, rfl, h3⟩

/-- run `is >> b` on a given stream -/
theorem run_extract (h : Reach n s V) (hi : V.var i = some f) :
    ∃ s', (Op.extract i).run n s = .ok .unit s' ∧ Reach n s' { (V.put i (extracted f s.is).1) with is := (extracted f s.is).2 } ∧
      Shows n s' i (extracted f s.is).1 ∧ s'.is = (extracted f s.is).2 ∧ s'.os = s.os ∧ ∀ j g, j ≠ i → V.var j = some g → Shows n s' j g := by
  obtain ⟨s', e, h', h3⟩ := C29_refines (op := .extract i) h (by simp [Op.spec, View.use, hi]; exact ⟨rfl, rfl⟩)
  rw [← h.inv.is] at h' h3
  refine ⟨s', e, h', h3 i _ (by simp [View.put]), h'.inv.is, ?_, fun j g hj hg => h3 j g (by simp [View.put, upd_ne _ _ hj, hg])⟩
  rw [h'.inv.os, h.inv.os]; rfl

/-! ### C35 -/

/-- **C35** (for `Size > 0`) what `os << b` writes, followed by anything, is read back by `is >> b'` into an equal bitset;
the rest of the stream is left unread and the stream stays good.  Missing: `Size == 0`, for which it is false
(`C35_refuted`). -/
theorem C35_roundtrip_partial (hn : 0 < n) (h : Reach n s V) (hi : V.var i = some f) (hj : V.var j = some g) (hw : s.os.width = 0) :
    ∃ w s1, (Op.insert i).run n s = .ok .unit s1 ∧ s1.os.out = s.os.out ++ w ∧
      ∀ (is : IStream) (tail : List UInt8), is.rest = w ++ tail → Good is → is.isspace 48 = false → is.isspace 49 = false →
        ∃ s2 s3, (Op.openIn is).run n s1 = .ok .unit s2 ∧ (Op.extract j).run n s2 = .ok .unit s3 ∧
          Shows n s3 j f ∧ (Op.opEq i j).run n s3 = .ok (.bool true) s3 ∧ s3.is.rest = tail ∧ Good s3.is := by
  obtain ⟨s1, e1, h1, _⟩ := C29_refines (op := .insert i) h (by simp [Op.spec, View.use, hi]; exact ⟨rfl, rfl⟩)
  refine ⟨text f, s1, e1, ?_, fun is tail hr hg h48 h49 => ?_⟩
  · rw [h1.inv.os]
    simp only [inserted, ← h.inv.os]
    cases ht : text f with
    | nil => simp
    | cons c cs => simp [hw]
  · obtain ⟨s2, e2, h2, _⟩ := C29_refines (op := .openIn is) h1 (by simp [Op.spec]; exact ⟨rfl, rfl⟩)
    have hne : text f ≠ [] := by
      intro h0; have := text_length f; rw [h0] at this; simp at this; omega
    have hsp : Splits n is [] (text f) tail := by
      refine ⟨by simpa using hr, by simp, fun _ c hc => ?_, fun c hc => (isDigit_iff c).1 (textTo_digit f n c hc),
        Nat.le_of_eq (text_length f), fun hlt => by rw [text_length] at hlt; omega⟩
      cases ht : text f with
      | nil => exact absurd ht hne
      | cons x xs =>
        rw [ht] at hc
        simp only [List.cons_append, List.head?_cons, Option.some.injEq] at hc
        subst hc
        have := (isDigit_iff x).1 (textTo_digit f n x (by show x ∈ text f; rw [ht]; simp))
        rcases this with rfl | rfl <;> assumption
    have his : s2.is = is := h2.inv.is
    obtain ⟨s3, e3, h3, k1, k2, _, k3⟩ := run_extract (f := g) h2 hj
    rw [his] at k1 k2 h3
    rw [extracted_some hg hsp hne, ofText_text] at k1 k2 h3
    refine ⟨s2, s3, e2, e3, k1, ?_, by rw [k2], ?_⟩
    · have hj3 : (View.put V j f).var j = some f := by simp [View.put]
      have hi3 : (View.put V j f).var i = some f := by
        by_cases hij : i = j
        · subst hij; exact hj3
        · simp [View.put, upd_ne _ _ hij, hi]
      obtain ⟨b, hb, _, hiff⟩ := C30_eq_iff (i := i) (j := j) (f := f) (g := f) h3 (h3.inv.shows hi3) (h3.inv.shows hj3)
        (by intro hc; exact absurd (hi3.symm.trans hc) (by simp)) (by intro hc; exact absurd (hj3.symm.trans hc) (by simp))
      rw [hb, hiff.2 rfl]
    · rw [k2]
      refine ⟨hg.1, ?_, hg.2.2⟩
      simp only [decide_eq_false_iff_not, not_and]
      intro hlt
      rw [text_length] at hlt
      omega

/-- **C35** (any `Size`) the `Size` digits are written most significant first -/
theorem C35_output (h : Reach n s V) (hi : V.var i = some f) (hw : s.os.width = 0) :
    ∃ w s1, (Op.insert i).run n s = .ok .unit s1 ∧ s1.os.out = s.os.out ++ w ∧ w.length = n ∧
      ∀ k : Fin n, w[n - 1 - k.1]? = some (if f k then 49 else 48) := by
  obtain ⟨s1, e1, h1, _⟩ := C29_refines (op := .insert i) h (by simp [Op.spec, View.use, hi]; exact ⟨rfl, rfl⟩)
  refine ⟨text f, s1, e1, ?_, text_length f, fun k => ?_⟩
  · rw [h1.inv.os]
    simp only [inserted, ← h.inv.os]
    cases ht : text f with
    | nil => simp
    | cons c cs => simp [hw]
  · have := textTo_get f n k k.2
    rw [List.getElem?_reverse (by rw [textTo_length]; exact k.2), textTo_length, bitAt_fin] at this
    exact this

/-- **C35 is false for `Size == 0`**: nothing is written, and reading nothing back from a good stream at its end sets
`failbit`; if whitespace follows, it is consumed -/
theorem C35_refuted :
    ∃ (s : St) (V : View 0) (f : Bits 0), Reach 0 s V ∧ V.var 0 = some f ∧ Good s.is ∧ s.is.rest = [] ∧
      ∃ s', (Op.extract 0).run 0 s = .ok .unit s' ∧ s'.is.fail = true := by
  obtain ⟨s, V, h, h0, _, _, his, _⟩ := demo 0 (fun c => c == 32)
  obtain ⟨s', e, _, _, k, _⟩ := run_extract h h0
  refine ⟨s, V, _, h, h0, by rw [his]; exact ⟨rfl, rfl, rfl⟩, by rw [his], s', e, ?_⟩
  rw [k, his]; rfl

theorem C35_whitespace_refuted :
    ∃ (s : St) (V : View 0) (f : Bits 0), Reach 0 s V ∧ V.var 0 = some f ∧ Good s.is ∧ s.is.rest = [32, 97] ∧
      ∃ s', (Op.extract 0).run 0 s = .ok .unit s' ∧ s'.is.rest = [97] := by
  obtain ⟨s, V, h, h0, _⟩ := demo 0 (fun c => c == 32)
  obtain ⟨s2, _, h2, _⟩ := C29_refines (op := .openIn { past := [], rest := [32, 97], isspace := fun c => c == 32 }) h
    (by simp [Op.spec]; exact ⟨rfl, rfl⟩)
  obtain ⟨s', e, _, _, k, _⟩ := run_extract h2 h0
  have his : s2.is = { past := [], rest := [32, 97], isspace := fun c => c == 32 } := h2.inv.is
  refine ⟨s2, _, _, h2, h0, by rw [his]; exact ⟨rfl, rfl, rfl⟩, by rw [his], s', e, ?_⟩
  rw [k, his]; rfl

/-! ### C36 -/

/-- **C36** (for `Size > 0`, unless the input ends after fewer than `Size` digits) extraction consumes the leading whitespace and the following digits, at most
`Size` of them; if there are none the bitset is unchanged and `failbit` is set; otherwise the stream stays good and the
bitset holds the digits' value, most significant first.  Missing: the input ending after at least one but fewer than
`Size` digits, where the code sets `failbit` although digits were read (`C36_early_end`, `C36_refuted`). -/
theorem C36_extraction_partial (hn : 0 < n) (h : Reach n s V) (hi : V.var i = some f) (hg : Good s.is) {b d t : List UInt8}
    (hsp : Splits n s.is b d t) (hend : d = [] ∨ d.length = n ∨ t ≠ []) :
    ∃ s', (Op.extract i).run n s = .ok .unit s' ∧ s'.is.rest = t ∧
      (s'.is.fail = true ↔ d = []) ∧ s'.is.bad = false ∧
      (d = [] → Shows n s' i f) ∧
      (d ≠ [] → Good s'.is ∧ ∃ f', Shows n s' i f' ∧
        ∀ k : Fin n, f' k = true ↔ k.1 < d.length ∧ d[d.length - 1 - k.1]? = some 49) := by
  obtain ⟨s', e, _, k1, k2, _⟩ := run_extract h hi
  refine ⟨s', e, ?_⟩
  rw [k2]
  by_cases hd : d = []
  · subst hd
    obtain ⟨x1, x2, x3, x4⟩ := extracted_none hg hsp hn f
    rw [x1] at k1
    exact ⟨x3, by simp [x2], x4, fun _ => k1, fun h => absurd rfl h⟩
  · rw [extracted_some hg hsp hd] at k1 ⊢
    have hfail : ¬ (d.length < n ∧ t = []) := by
      rintro ⟨h1, h2⟩
      rcases hend with h | h | h
      · exact hd h
      · omega
      · exact h h2
    refine ⟨rfl, by simp [hfail, hd], hg.2.2, fun h => absurd h hd, fun _ => ⟨⟨hg.1, by simp [hfail], hg.2.2⟩, ofText d, k1, fun k => ?_⟩⟩
    simp only [ofText, beq_iff_eq]
    by_cases hk : k.1 < d.length
    · rw [List.getElem?_reverse hk]; simp [hk]
    · rw [List.getElem?_eq_none (by simp; omega)]; simp [hk]

/-- extraction from a stream that is not good only sets `failbit` -/
theorem C36_not_good (h : Reach n s V) (hi : V.var i = some f) (hg : ¬ Good s.is) :
    ∃ s', (Op.extract i).run n s = .ok .unit s' ∧ Shows n s' i f ∧ s'.is = { s.is with fail := true } := by
  obtain ⟨s', e, _, k1, k2, _⟩ := run_extract h hi
  have : (s.is.eof || s.is.fail || s.is.bad) = true := by
    unfold Good at hg
    revert hg
    cases s.is.eof <;> cases s.is.fail <;> cases s.is.bad <;> simp
  have hx : extracted f s.is = (f, { s.is with fail := true }) := by unfold extracted; rw [if_pos this]
  rw [hx] at k1 k2
  exact ⟨s', e, k1, k2⟩

/-- **C36** the remaining case: the input ends after at least one but fewer than `Size` digits.  The bitset gets the
digits' value, but the extraction is reported as failed and `eofbit` is cleared -/
theorem C36_early_end (h : Reach n s V) (hi : V.var i = some f) (hg : Good s.is) {b d : List UInt8}
    (hsp : Splits n s.is b d []) (hd : d ≠ []) (hl : d.length < n) :
    ∃ s', (Op.extract i).run n s = .ok .unit s' ∧ s'.is.rest = [] ∧ s'.is.fail = true ∧ s'.is.eof = false ∧
      ∃ f', Shows n s' i f' ∧ ∀ k : Fin n, f' k = true ↔ k.1 < d.length ∧ d[d.length - 1 - k.1]? = some 49 := by
  obtain ⟨s', e, _, k1, k2, _⟩ := run_extract h hi
  refine ⟨s', e, ?_⟩
  rw [k2]
  rw [extracted_some hg hsp hd] at k1 ⊢
  refine ⟨rfl, by simp [hl], hg.1, ofText d, k1, fun k => ?_⟩
  simp only [ofText, beq_iff_eq]
  by_cases hk : k.1 < d.length
  · rw [List.getElem?_reverse hk]; simp [hk]
  · rw [List.getElem?_eq_none (by simp; omega)]; simp [hk]

/-- **C36 is false in general**: with `Size == 4` and the input `"10"`, digits are read (the bitset becomes `0010`) and yet
the extraction fails, so `is >> b` reports an error for input that `std::bitset` accepts -/
theorem C36_refuted :
    ∃ (s : St) (V : View 4), Reach 4 s V ∧ V.var 1 = some (fun _ => true) ∧ Good s.is ∧ s.is.rest = [49, 48] ∧
      ∃ s', (Op.extract 1).run 4 s = .ok .unit s' ∧ s'.is.fail = true ∧ Shows 4 s' 1 (fun k => k == 1) := by
  obtain ⟨s, V, h, _, h1, _⟩ := demo 4 (fun c => c == 32)
  obtain ⟨s2, _, h2, _⟩ := C29_refines (op := .openIn { past := [], rest := [49, 48], isspace := fun c => c == 32 }) h
    (by simp [Op.spec]; exact ⟨rfl, rfl⟩)
  have his : s2.is = { past := [], rest := [49, 48], isspace := fun c => c == 32 } := h2.inv.is
  have hg : Good s2.is := by rw [his]; exact ⟨rfl, rfl, rfl⟩
  have hsp : Splits 4 s2.is [] [49, 48] [] := by
    rw [his]
    exact ⟨rfl, by simp, by simp, by simp, by simp, by simp⟩
  obtain ⟨s', e, _, k1, k2, _⟩ := run_extract h2 h1
  rw [extracted_some hg hsp (by simp)] at k1 k2
  refine ⟨s2, _, h2, h1, hg, by rw [his], s', e, by rw [k2]; rfl, ?_⟩
  have : (ofText [49, 48] : Bits 4) = fun k => k == 1 := by funext k; revert k; decide
  rw [← this]; exact k1

/-- the hypotheses of `C36_extraction_partial` can be met: `"  101x"` into 8 bits -/
example : ∃ (s : St) (V : View 8), Reach 8 s V ∧ V.var 1 = some (fun _ => true) ∧ Good s.is ∧
    Splits 8 s.is [32, 32] [49, 48, 49] [120] ∧
    ∃ s', (Op.extract 1).run 8 s = .ok .unit s' ∧ s'.is.rest = [120] := by
  obtain ⟨s, V, h, _, h1, _⟩ := demo 8 (fun c => c == 32)
  obtain ⟨s2, _, h2, _⟩ := C29_refines (op := .openIn { past := [], rest := [32, 32, 49, 48, 49, 120], isspace := fun c => c == 32 }) h
    (by simp [Op.spec]; exact ⟨rfl, rfl⟩)
  have his : s2.is = { past := [], rest := [32, 32, 49, 48, 49, 120], isspace := fun c => c == 32 } := h2.inv.is
  have hg : Good s2.is := by rw [his]; exact ⟨rfl, rfl, rfl⟩
  have hsp : Splits 8 s2.is [32, 32] [49, 48, 49] [120] := by
    rw [his]
    exact ⟨rfl, by simp, by simp, by simp, by simp, by simp⟩
  obtain ⟨s', e, hr, _⟩ := C36_extraction_partial (by omega) h2 h1 hg hsp (.inr (.inr (by simp)))
  exact ⟨s2, _, h2, h1, hg, hsp, s', e, hr⟩

/-- the hypotheses of `C35_roundtrip_partial` can be met -/
example : ∃ (s : St) (V : View 11) (f g : Bits 11), Reach 11 s V ∧ V.var 0 = some f ∧ V.var 1 = some g ∧ s.os.width = 0 := by
  obtain ⟨s, V, h, h0, h1, _, _, hos⟩ := demo 11 (fun c => c == 32)
  exact ⟨s, V, _, _, h, h0, h1, by rw [hos]⟩

/-! ### C62 -/

/-- **C62** (field width at most 1) the output is the `Size` digits.  Missing: wider fields, which are not honoured, see `C62_refuted` -/
theorem C62_width_partial (h : Reach n s V) (hi : V.var i = some f) (hw : s.os.width ≤ 1) (hn : 0 < n) :
    ∃ s1, (Op.insert i).run n s = .ok .unit s1 ∧ s1.os.out = s.os.out ++ text f ∧ s1.os.width = 0 := by
  obtain ⟨s1, e1, h1, _⟩ := C29_refines (op := .insert i) h (by simp [Op.spec, View.use, hi]; exact ⟨rfl, rfl⟩)
  refine ⟨s1, e1, ?_⟩
  rw [h1.inv.os]
  simp only [inserted, ← h.inv.os]
  cases ht : text f with
  | nil => have := text_length f; rw [ht] at this; simp at this; omega
  | cons c cs =>
    have : s.os.width - 1 = 0 := by omega
    simp [this]

/-- **C62 is false**: for every `Size ≥ 2` and every field width `w ≥ 2`, `w - 1` fill characters are added around the first
digit, so the output has `w - 1 + Size` characters instead of `max(w, Size)` -/
theorem C62_refuted (h : Reach n s V) (hi : V.var i = some f) (hn : 2 ≤ n) (hw : 2 ≤ s.os.width) :
    ∃ s1 w, (Op.insert i).run n s = .ok .unit s1 ∧ s1.os.out = s.os.out ++ w ∧ w.length = s.os.width - 1 + n ∧ w.length ≠ max s.os.width n := by
  obtain ⟨s1, e1, h1, _⟩ := C29_refines (op := .insert i) h (by simp [Op.spec, View.use, hi]; exact ⟨rfl, rfl⟩)
  have hl := text_length f
  cases ht : text f with
  | nil => rw [ht] at hl; simp at hl; omega
  | cons c cs =>
    rw [ht] at hl
    simp only [List.length_cons] at hl
    refine ⟨s1, (if s.os.left then c :: List.replicate (s.os.width - 1) s.os.fill else List.replicate (s.os.width - 1) s.os.fill ++ [c]) ++ cs, e1, ?_, ?_, ?_⟩
    · rw [h1.inv.os]
      simp only [inserted, ← h.inv.os, ht]
    · split <;> simp <;> omega
    · split <;> simp <;> omega

/-- **C62** (`Size` 1, any width; missing: other sizes, see `C62_exact`) the single digit is written as one field: padded with fill characters, on the right if left-adjusted and otherwise
on the left, up to the width, which is reset -/
theorem C62_one_partial {s : St} {V : View 1} {f : Bits 1} (h : Reach 1 s V) (hi : V.var i = some f) :
    ∃ s1 pad, (Op.insert i).run 1 s = .ok .unit s1 ∧ pad = List.replicate (max s.os.width 1 - 1) s.os.fill ∧
      s1.os.out = s.os.out ++ (if s.os.left then text f ++ pad else pad ++ text f) ∧ s1.os.width = 0 := by
  obtain ⟨s1, e1, h1, _⟩ := C29_refines (op := .insert i) h (by simp [Op.spec, View.use, hi]; exact ⟨rfl, rfl⟩)
  refine ⟨s1, _, e1, rfl, ?_⟩
  rw [h1.inv.os, show max s.os.width 1 - 1 = s.os.width - 1 by omega]
  simp only [inserted, ← h.inv.os, text, textTo, List.cons_append, List.nil_append, List.append_nil]
  exact ⟨trivial, trivial⟩

/-- **C62**, exactly: as many characters as the field should have are written, and the width is reset, if and only if the width is at most 1
(and 0 if there are no digits) or there is one digit -/
theorem C62_exact (h : Reach n s V) (hi : V.var i = some f) :
    ∃ s1 w, (Op.insert i).run n s = .ok .unit s1 ∧ s1.os.out = s.os.out ++ w ∧
      (w.length = max s.os.width n ∧ s1.os.width = 0 ↔ n = 1 ∨ s.os.width ≤ min 1 n) := by
  obtain ⟨s1, e1, h1, _⟩ := C29_refines (op := .insert i) h (by simp [Op.spec, View.use, hi]; exact ⟨rfl, rfl⟩)
  have hl := text_length f
  cases ht : text f with
  | nil =>
    rw [ht] at hl
    simp only [List.length_nil] at hl
    have he : s1.os = s.os := by rw [h1.inv.os]; simp only [inserted, ← h.inv.os, ht]
    refine ⟨s1, [], e1, by simp [he], ?_⟩
    rw [he]
    simp only [List.length_nil]
    omega
  | cons c cs =>
    rw [ht] at hl
    simp only [List.length_cons] at hl
    have hw : s1.os.width = 0 := by rw [h1.inv.os]; simp only [inserted, ← h.inv.os, ht]
    refine ⟨s1, (if s.os.left then c :: List.replicate (s.os.width - 1) s.os.fill else List.replicate (s.os.width - 1) s.os.fill ++ [c]) ++ cs, e1, ?_, ?_⟩
    · rw [h1.inv.os]
      simp only [inserted, ← h.inv.os, ht]
    · rw [hw]
      split <;> simp <;> omega

/-- the hypotheses of `C62_refuted` can be met -/
example : ∃ (s : St) (V : View 11) (f : Bits 11), Reach 11 s V ∧ V.var 0 = some f ∧ s.os.width = 5 := by
  obtain ⟨s, V, h, h0, _⟩ := demo 11 (fun c => c == 32)
  obtain ⟨s2, _, h2, _⟩ := C29_refines (op := .openOut { out := [], width := 5 }) h (by simp [Op.spec]; exact ⟨rfl, rfl⟩)
  exact ⟨s2, _, _, h2, h0, by rw [h2.inv.os]⟩

end Ptl.Bitset

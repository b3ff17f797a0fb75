import Verif.Layout.Model

/-!
# C70 (alignment), C71 (which variants compile), C72 (layout independent of alignment rules), C73 (elements of an `array_ref`)
-/

namespace Ptl.Layout

/-! ### what is asked for -/

/-- an address suitable for an object of type `T` -/
def Aligned (addr : Nat) (T : Ty) : Prop := T.align ∣ addr

/-- the objects at these addresses do not overlap -/
def Apart (a : Nat) (T : Ty) (b : Nat) (U : Ty) : Prop := a + T.size ≤ b ∨ b + U.size ≤ a

variable {ts us : List Ty} {T U : Ty} {addr k : Nat}

/-! ### rounding, unions -/

theorem roundUp_eq {n a : Nat} (ha : 0 < a) (h : a ∣ n) : roundUp n a = n := by
  obtain ⟨c, rfl⟩ := h
  unfold roundUp
  have : (a * c + a - 1) / a = c := by
    apply Nat.div_eq_of_lt_le
    · rw [Nat.mul_comm]; omega
    · rw [Nat.mul_comm (c + 1) a, Nat.mul_add, Nat.mul_one]; omega
  rw [this, Nat.mul_comm]

theorem le_roundUp (n : Nat) {a : Nat} (ha : 0 < a) : n ≤ roundUp n a := by
  unfold roundUp
  have h1 := Nat.div_add_mod (n + a - 1) a
  have h2 := Nat.mod_lt (n + a - 1) ha
  rw [Nat.mul_comm] at h1
  omega

theorem dvd_roundUp (n a : Nat) : a ∣ roundUp n a := ⟨_, Nat.mul_comm _ _⟩

/-- the least multiple above -/
theorem roundUp_le {n a m : Nat} (ha : 0 < a) (hm : a ∣ m) (h : n ≤ m) : roundUp n a ≤ m := by
  have e := roundUp_eq ha hm
  unfold roundUp at e ⊢
  rw [← e]
  exact Nat.mul_le_mul_right a (Nat.div_le_div_right (by omega))

/-- greatest size and alignment of a list of types -/
def maxSize (ts : List Ty) : Nat := ts.foldr (fun T m => max T.size m) 1
def maxAlign (ts : List Ty) : Nat := ts.foldr (fun T m => max T.align m) 1

theorem maxAlign_pow (h : ∀ T ∈ ts, T.Wf) : ∃ k, maxAlign ts = 2 ^ k := by
  induction ts with
  | nil => exact ⟨0, rfl⟩
  | cons T ts ih =>
    obtain ⟨k, hk⟩ := ih fun U hU => h U (List.mem_cons_of_mem _ hU)
    obtain ⟨j, hj⟩ := (h T List.mem_cons_self).2.2
    have : maxAlign (T :: ts) = max (2 ^ j) (2 ^ k) := by show max T.align (maxAlign ts) = _; rw [hj, hk]
    rw [this]
    rcases Nat.le_total (2 ^ j) (2 ^ k) with h | h
    · exact ⟨k, Nat.max_eq_right h⟩
    · exact ⟨j, Nat.max_eq_left h⟩

theorem pow_dvd {a b : Nat} (ha : ∃ k, a = 2 ^ k) (hb : ∃ k, b = 2 ^ k) (h : a ≤ b) : a ∣ b := by
  obtain ⟨i, rfl⟩ := ha
  obtain ⟨j, rfl⟩ := hb
  exact Nat.pow_dvd_pow 2 ((Nat.pow_le_pow_iff_right (by omega)).mp h)

theorem align_dvd (h : ∀ T ∈ ts, T.Wf) (hT : T ∈ ts) : T.align ∣ maxAlign ts := by
  refine pow_dvd (h T hT).2.2 (maxAlign_pow h) ?_
  clear h
  induction ts with
  | nil => cases hT
  | cons U ts ih =>
    rcases List.mem_cons.mp hT with rfl | hT
    · exact Nat.le_max_left _ _
    · exact Nat.le_trans (ih hT) (Nat.le_max_right _ _)

theorem storage_align : (storage ts).align = maxAlign ts := by
  induction ts with
  | nil => rfl
  | cons T ts ih => show max T.align (storage ts).align = _; rw [ih]; rfl

/-- size of the nested unions: the greatest size, rounded up to a multiple of the greatest alignment -/
theorem storage_size (h : ∀ T ∈ ts, T.Wf) : (storage ts).size = roundUp (maxSize ts) (maxAlign ts) := by
  induction ts with
  | nil => rfl
  | cons T ts ih =>
    have ht : ∀ T ∈ ts, T.Wf := fun U hU => h U (List.mem_cons_of_mem _ hU)
    have e : (storage (T :: ts)).size = roundUp (max T.size (storage ts).size) (max T.align (storage ts).align) := rfl
    rw [e, ih ht, storage_align]
    have hA : maxAlign (T :: ts) = max T.align (maxAlign ts) := rfl
    have hM : maxSize (T :: ts) = max T.size (maxSize ts) := rfl
    rw [← hA, hM]
    obtain ⟨k, hk⟩ := maxAlign_pow h
    obtain ⟨j, hj⟩ := maxAlign_pow ht
    have hp : 0 < maxAlign (T :: ts) := by rw [hk]; exact Nat.two_pow_pos k
    have hp' : 0 < maxAlign ts := by rw [hj]; exact Nat.two_pow_pos j
    have hd : maxAlign ts ∣ maxAlign (T :: ts) := pow_dvd ⟨j, hj⟩ ⟨k, hk⟩ (by rw [hA]; exact Nat.le_max_right _ _)
    have h1 := le_roundUp (maxSize ts) hp'
    have h2 := le_roundUp (max T.size (maxSize ts)) hp
    apply Nat.le_antisymm
    · apply roundUp_le hp (dvd_roundUp _ _)
      apply Nat.max_le.mpr ⟨Nat.le_trans (Nat.le_max_left _ _) h2, ?_⟩
      exact roundUp_le hp' (Nat.dvd_trans hd (dvd_roundUp _ _)) (Nat.le_trans (Nat.le_max_right _ _) h2)
    · apply roundUp_le hp (dvd_roundUp _ _)
      refine Nat.le_trans ?_ (le_roundUp _ hp)
      apply Nat.max_le.mpr ⟨Nat.le_max_left _ _, Nat.le_trans h1 (Nat.le_max_right _ _)⟩

theorem maxSizeof_eq (ts : List Ty) (m : Nat) : maxSizeof ts m = max m (ts.foldr (fun T m => max T.size m) 0) := by
  induction ts generalizing m with
  | nil => simp [maxSizeof]
  | cons T ts ih =>
    have : maxSizeof (T :: ts) m = maxSizeof ts (max m T.size) := by
      show maxSizeof ts (if T.size > m then T.size else m) = _
      split
      · rw [Nat.max_eq_right (by omega)]
      · rw [Nat.max_eq_left (by omega)]
    rw [this, ih]
    simp [Nat.max_assoc]

theorem maxSize_eq (hne : ts ≠ []) (h : ∀ T ∈ ts, T.Wf) : maxSize ts = ts.foldr (fun T m => max T.size m) 0 := by
  induction ts with
  | nil => exact absurd rfl hne
  | cons T ts ih =>
    by_cases hn : ts = []
    · subst hn
      have := (h T List.mem_cons_self).1
      simp [maxSize]; omega
    · show max T.size (maxSize ts) = max T.size _
      rw [ih hn fun U hU => h U (List.mem_cons_of_mem _ hU)]

theorem maxSizeof_maxSize (hne : ts ≠ []) (h : ∀ T ∈ ts, T.Wf) : maxSizeof ts 0 = maxSize ts := by
  rw [maxSizeof_eq, maxSize_eq hne h]; simp

theorem size_le_maxSize (hT : T ∈ ts) : T.size ≤ maxSize ts := by
  induction ts with
  | nil => cases hT
  | cons U ts ih =>
    rcases List.mem_cons.mp hT with rfl | hT
    · exact Nat.le_max_left _ _
    · exact Nat.le_trans (ih hT) (Nat.le_max_right _ _)

/-! ## C70: alignment -/

/-- C70 for a variant whose address suits the alternatives (say, because the client asked for that with `alignas`).  Missing: variants
at other addresses that suit `alignof(variant)`, see `C70_variant_refuted`. -/
theorem C70_variant_partial (h : Aligned addr T) : Aligned (addr + variantValue) T := h

/-- C70 for an optional whose address suits the value.  Missing: see `C70_optional_refuted`. -/
theorem C70_optional_partial (h : Aligned addr T) : Aligned (addr + optionalValue) T := h

/-- C70 for types of alignment 1, in any container at any address -/
theorem C70_bytes_partial (h : T.align = 1) : Aligned addr T := by rw [Aligned, h]; exact Nat.one_dvd _

/-- C70 for an element of a tuple whose address suits the element, if the sizes of the elements after it are multiples of its
alignment (say, if all elements have the same type).  Missing: see `C70_tuple_refuted`. -/
theorem C70_tuple_partial (hk : ts[k]? = some T) (h : Aligned addr T) (ht : ∀ U ∈ ts.drop (k + 1), T.align ∣ U.size) :
    Aligned (addr + tupleValue ts k) T := by
  have base : ∀ us : List Ty, (∀ U ∈ us, T.align ∣ U.size) → T.align ∣ tupleBase us := by
    intro us
    induction us with
    | nil => intro _; exact Nat.dvd_zero _
    | cons U us ih =>
      intro hu
      exact Nat.dvd_add (ih fun W hW => hu W (List.mem_cons_of_mem _ hW)) (hu U List.mem_cons_self)
  refine Nat.dvd_add h ?_
  clear h
  induction ts generalizing k with
  | nil => simp at hk
  | cons U ts ih =>
    cases k with
    | zero => exact base ts (by simpa using ht)
    | succ k => exact ih (by simpa using hk) (by simpa using ht)

/-- C70 fails for every type with an alignment above 1: of two consecutive optionals (in an array, say), at least one has its value
at an unsuitable address, wherever they are.  Such addresses suit `alignof(optional<T>)`. -/
theorem C70_optional_refuted (h : T.Wf) (ha : 1 < T.align) (addr : Nat) :
    (Aligned addr (optional T) ∧ Aligned (element (optional T) addr 1) (optional T)) ∧
    (¬ Aligned (element (optional T) addr 0 + optionalValue) T ∨ ¬ Aligned (element (optional T) addr 1 + optionalValue) T) := by
  refine ⟨⟨Nat.one_dvd _, Nat.one_dvd _⟩, ?_⟩
  by_cases h0 : T.align ∣ addr
  · right
    intro h1
    have e : element (optional T) addr 1 + optionalValue = addr + T.size + 1 := by
      simp [element, optional, optionalValue, packed, optionalUnion, uchar]; omega
    rw [Aligned, e] at h1
    have h2 := (Nat.dvd_add_right (Nat.dvd_add h0 h.2.1)).mp h1
    have := Nat.le_of_dvd (by omega) h2
    omega
  · left
    simpa [Aligned, element, optionalValue] using h0

/-- C70 fails for variants: of two consecutive variants with an alternative of alignment above 1, at least one has the storage for
that alternative at an unsuitable address -/
theorem C70_variant_refuted (h : ∀ T ∈ ts, T.Wf) (hT : T ∈ ts) (ha : 1 < T.align) (addr : Nat) :
    (Aligned addr (variant ts) ∧ Aligned (element (variant ts) addr 1) (variant ts)) ∧
    (¬ Aligned (element (variant ts) addr 0 + variantValue) T ∨ ¬ Aligned (element (variant ts) addr 1 + variantValue) T) := by
  refine ⟨⟨Nat.one_dvd _, Nat.one_dvd _⟩, ?_⟩
  by_cases h0 : T.align ∣ addr
  · right
    intro h1
    have e : element (variant ts) addr 1 + variantValue = addr + (storage ts).size + 1 := by
      simp [element, variant, variantValue, packed, uchar]; omega
    rw [Aligned, e] at h1
    have hs : T.align ∣ (storage ts).size := by
      rw [storage_size h]; exact Nat.dvd_trans (align_dvd h hT) (dvd_roundUp _ _)
    have h2 := (Nat.dvd_add_right (Nat.dvd_add h0 hs)).mp h1
    have := Nat.le_of_dvd (by omega) h2
    omega
  · left
    simpa [Aligned, element, variantValue] using h0

/-- C70 fails for tuples, even those at an address that suits every type: in a `tuple<T, U>` where the size of `U` is no multiple of
the alignment of `T`, the element of type `T` is never at a suitable address -/
theorem C70_tuple_refuted (hU : ¬ T.align ∣ U.size) (addr : Nat) (h : Aligned addr T) : ¬ Aligned (addr + tupleValue [T, U] 0) T := by
  intro h1
  apply hU
  have e : tupleValue [T, U] 0 = U.size := by simp [tupleValue, tupleBase]
  rw [Aligned, e] at h1
  exact (Nat.dvd_add_right h).mp h1

/-! ## C71: which variants compile -/

/-- exactly which lists of alternatives pass the static assertion on the size: those where the greatest size is a multiple of the
greatest alignment -/
theorem C71_exact (hne : ts ≠ []) (h : ∀ T ∈ ts, T.Wf) : variantAssert ts = true ↔ maxAlign ts ∣ maxSize ts := by
  obtain ⟨k, hk⟩ := maxAlign_pow h
  have hp : 0 < maxAlign ts := by rw [hk]; exact Nat.two_pow_pos k
  unfold variantAssert
  rw [storage_size h, maxSizeof_maxSize hne h, beq_iff_eq]
  constructor
  · intro e; rw [← e]; exact dvd_roundUp _ _
  · exact roundUp_eq hp

/-- C71 for lists in which one alternative has both the greatest size and the greatest alignment.  Missing: the others, see
`C71_refuted`. -/
theorem C71_partial (hne : ts ≠ []) (h : ∀ T ∈ ts, T.Wf) (hT : T ∈ ts) (h1 : ∀ U ∈ ts, U.size ≤ T.size ∧ U.align ≤ T.align) :
    variantAssert ts = true := by
  rw [C71_exact hne h]
  have hp : 0 < T.align := by obtain ⟨k, hk⟩ := (h T hT).2.2; rw [hk]; exact Nat.two_pow_pos k
  have hs : maxSize ts ≤ T.size := by
    have h0 := (h T hT).1
    have : ∀ us : List Ty, (∀ U ∈ us, U.size ≤ T.size) → maxSize us ≤ T.size := by
      intro us
      induction us with
      | nil => intro _; exact h0
      | cons U us ih => intro hu; exact Nat.max_le.mpr ⟨hu U List.mem_cons_self, ih fun W hW => hu W (List.mem_cons_of_mem _ hW)⟩
    exact this ts fun U hU => (h1 U hU).1
  have ha : maxAlign ts ≤ T.align := by
    have : ∀ us : List Ty, (∀ U ∈ us, U.align ≤ T.align) → maxAlign us ≤ T.align := by
      intro us
      induction us with
      | nil => intro _; exact hp
      | cons U us ih => intro hu; exact Nat.max_le.mpr ⟨hu U List.mem_cons_self, ih fun W hW => hu W (List.mem_cons_of_mem _ hW)⟩
    exact this ts fun U hU => (h1 U hU).2
  have hs' := Nat.le_antisymm hs (size_le_maxSize hT)
  have ha' : maxAlign ts = T.align := by
    apply Nat.le_antisymm ha
    obtain ⟨k, hk⟩ := maxAlign_pow h
    exact Nat.le_of_dvd (by rw [hk]; exact Nat.two_pow_pos k) (align_dvd h hT)
  rw [hs', ha']
  exact (h T hT).2.1

/-- C71 fails: a variant of an `int` and a class of five bytes (`ptl::array<char, 5>`, `ptl::bitset<40>`) does not compile, though
both meet the requirements on alternatives -/
theorem C71_refuted : ∃ ts : List Ty, ts ≠ [] ∧ (∀ T ∈ ts, T.Wf) ∧ variantAssert ts = false := by
  refine ⟨[⟨4, 4⟩, ⟨5, 1⟩], by simp, ?_, by decide⟩
  intro T hT
  rcases List.mem_cons.mp hT with rfl | hT
  · exact ⟨by decide, by decide, 2, rfl⟩
  · rcases List.mem_cons.mp hT with rfl | hT
    · exact ⟨by decide, by decide, 0, rfl⟩
    · cases hT

/-! ## C72: the layout does not depend on the alignment rules -/

/-- the same types on two platforms: equal sizes -/
def SameSizes (ts us : List Ty) : Prop := ts.map Ty.size = us.map Ty.size

/-- C72: optionals of types of equal size have the same layout on all platforms: the value at offset 0, followed by one byte -/
theorem C72_optional (h : T.size = U.size) : (optional T = optional U ∧ optionalInit T = optionalInit U) ∧
    (optional T).size = T.size + 1 ∧ optionalInit T = T.size := by
  refine ⟨⟨?_, ?_⟩, rfl, rfl⟩
  · simp [optional, optionalUnion, packed, h]
  · simp [optionalInit, optionalUnion, packedSecond, h]

/-- C72: so have tuples: the elements in reverse order, without gaps -/
theorem C72_tuple (h : SameSizes ts us) : tuple ts = tuple us ∧ ∀ k, tupleValue ts k = tupleValue us k := by
  have hb : ∀ ts us : List Ty, SameSizes ts us → tupleBase ts = tupleBase us := by
    intro ts
    induction ts with
    | nil => intro us h; cases us with
      | nil => rfl
      | cons => cases h
    | cons T ts ih => intro us h; cases us with
      | nil => cases h
      | cons U us =>
        have h' := List.cons.inj h
        simp only [tupleBase]
        rw [ih us h'.2, h'.1]
  refine ⟨?_, ?_⟩
  · have : (ts = []) ↔ (us = []) := by
      cases ts <;> cases us <;> simp_all [SameSizes]
    simp only [tuple, this, hb ts us h]
  · intro k
    induction ts generalizing us k with
    | nil => cases us with
      | nil => rfl
      | cons => cases h
    | cons T ts ih => cases us with
      | nil => cases h
      | cons U us =>
        have h' := List.cons.inj h
        cases k with
        | zero => exact hb ts us h'.2
        | succ k => exact ih (us := us) h'.2 k

/-- C72: exactly: a tuple is as large as its elements together (one byte if there are none), and each element is behind those that
come after it in the list of types -/
theorem C72_tuple_exact (ts : List Ty) : (tuple ts).size = (if ts = [] then 1 else (ts.map Ty.size).sum) ∧
    ∀ k, k < ts.length → tupleValue ts k = ((ts.drop (k + 1)).map Ty.size).sum := by
  have hb : ∀ ts : List Ty, tupleBase ts = (ts.map Ty.size).sum := by
    intro ts
    induction ts with
    | nil => rfl
    | cons T ts ih => simp only [tupleBase, ih, List.map_cons, List.sum_cons]; omega
  refine ⟨by simp only [tuple, hb], ?_⟩
  induction ts with
  | nil => intro k hk; cases hk
  | cons T ts ih =>
    intro k hk
    cases k with
    | zero => exact hb ts
    | succ k => exact ih k (Nat.lt_of_succ_lt_succ hk)

/-- C72: and so have variants that compile on both platforms: the alternatives at offset 0, followed by the tag -/
theorem C72_variant (hts : variantAssert ts = true) (hus : variantAssert us = true) (h : SameSizes ts us) :
    (variant ts = variant us ∧ variantType ts = variantType us) ∧ (variant ts).size = maxSizeof ts 0 + 1 ∧ variantType ts = maxSizeof ts 0 := by
  have hm : ∀ (ts us : List Ty) (m : Nat), SameSizes ts us → maxSizeof ts m = maxSizeof us m := by
    intro ts
    induction ts with
    | nil => intro us m h; cases us with
      | nil => rfl
      | cons => cases h
    | cons T ts ih => intro us m h; cases us with
      | nil => cases h
      | cons U us =>
        have h' := List.cons.inj h
        simp only [maxSizeof]
        rw [h'.1]
        exact ih us _ h'.2
  rw [variantAssert, beq_iff_eq] at hts hus
  have e : (storage ts).size = (storage us).size := by rw [hts, hus]; exact hm ts us 0 h
  refine ⟨⟨?_, e⟩, ?_, hts⟩
  · simp [variant, packed, e]
  · show (storage ts).size + 1 = _
    rw [hts]

/-- C72: the elements of a tuple do not overlap each other, and are within the tuple -/
theorem C72_tuple_apart {j k : Nat} (hj : ts[j]? = some T) (hk : ts[k]? = some U) :
    tupleValue ts j + T.size ≤ (tuple ts).size ∧ (j ≠ k → Apart (tupleValue ts j) T (tupleValue ts k) U) := by
  have bound : ∀ (ts : List Ty) (k : Nat) (U : Ty), ts[k]? = some U → tupleValue ts k + U.size ≤ tupleBase ts := by
    intro ts
    induction ts with
    | nil => intro k U h; simp at h
    | cons W ts ih =>
      intro k U h
      cases k with
      | zero => simp at h; subst h; simp [tupleValue, tupleBase]
      | succ k =>
        have := ih k U (by simpa using h)
        simp only [tupleValue, tupleBase]; omega
  refine ⟨?_, ?_⟩
  · have hne : ts ≠ [] := by rintro rfl; simp at hj
    have := bound ts j T hj
    simpa [tuple, hne] using this
  · intro hjk
    induction ts generalizing j k with
    | nil => simp at hj
    | cons W ts ih =>
      cases j with
      | zero => cases k with
        | zero => exact absurd rfl hjk
        | succ k => exact .inr (bound ts k U (by simpa using hk))
      | succ j => cases k with
        | zero => exact .inl (bound ts j T (by simpa using hj))
        | succ k => exact ih (by simpa using hj) (by simpa using hk) (by omega)

/-- C72: every alternative of a variant fits before the tag, an optional's value before its flag, and both are within the object -/
theorem C72_variant_apart (h : ∀ T ∈ ts, T.Wf) (hT : T ∈ ts) :
    Apart variantValue T (variantType ts) uchar ∧ variantType ts + uchar.size ≤ (variant ts).size := by
  obtain ⟨k, hk⟩ := maxAlign_pow h
  have hp : 0 < maxAlign ts := by rw [hk]; exact Nat.two_pow_pos k
  refine ⟨.inl ?_, Nat.le_refl _⟩
  show 0 + T.size ≤ (storage ts).size
  rw [storage_size h, Nat.zero_add]
  exact Nat.le_trans (size_le_maxSize hT) (le_roundUp _ hp)

theorem C72_optional_apart : Apart optionalValue T (optionalInit T) uchar ∧ optionalInit T + uchar.size ≤ (optional T).size :=
  ⟨.inl (by simp [optionalValue, optionalInit, packedSecond, optionalUnion]), Nat.le_refl _⟩

/-! ## C73: elements of an `array_ref` -/

/-- C73 for ranges of the same element type (up to `const`).  Missing: ranges of a derived class, which are accepted, see
`C73_refuted`. -/
theorem C73_partial (hTU : T.size = U.size) (first i : Nat) : refElement T first i = element U first i := by
  simp [refElement, element, hTU]

/-- C73 fails: an `array_ref<Base>` over an array of a larger derived class (accepted by `is_compatible_range`, because `Derived *`
converts to `Base *`): no element but the first is where the range's element is, wherever in `Derived` the `Base` is, as long as that is
the same place in all of them -/
theorem C73_refuted (h : T.size < U.size) (first off i : Nat) (hi : i ≠ 0) : refElement T (first + off) i ≠ element U first i + off := by
  intro e
  simp only [refElement, element] at e
  have h1 : i * T.size < i * U.size := Nat.mul_lt_mul_of_pos_left h (by omega)
  omega

/-- … and the second element overlaps the first range element's other members -/
theorem C73_inside_refuted (h : T.size < U.size) (first : Nat) : refElement T first 1 < element U first 1 := by
  simp only [refElement, element]; omega

/-! ### concrete cases (sizes and alignments as on x86-64) -/

def char : Ty := ⟨1, 1⟩
def int : Ty := ⟨4, 4⟩
def double : Ty := ⟨8, 8⟩
/-- `double` on i386 -/
def double' : Ty := ⟨8, 4⟩

example : optional int = ⟨5, 1⟩ ∧ variant [int, double, char] = ⟨9, 1⟩ ∧ tuple [char, int, double] = ⟨13, 1⟩ := by decide
example : tuple [] = ⟨1, 1⟩ := by decide
example : (List.range 3).map (tupleValue [char, int, double]) = [12, 8, 0] := by decide
/-- `tuple<int, char>`: the `int` is at offset 1 -/
example : tupleValue [int, char] 0 = 1 := by decide
example : variantAssert [int, double, char] = true ∧ variantAssert [int, ⟨5, 1⟩] = false := by decide
/-- a variant of a `double` and a class of 12 bytes with alignment 4 compiles on i386 only -/
example : variantAssert [double, ⟨12, 4⟩] = false ∧ variantAssert [double', ⟨12, 4⟩] = true := by decide
example : variant [int, double] = variant [int, double'] := (C72_variant (by decide) (by decide) rfl).1.1

end Ptl.Layout

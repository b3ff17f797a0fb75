import Verif.Iter.Model

/-!
# C56: the contiguous iterators are random-access iterators
-/

set_option linter.unusedSectionVars false

namespace Ptl.Iter

open View (Ptr Loc Mem)

variable {α : Type} {m : Mem α} {p : Ptr} {n : Nat}

/-! ### what the iterators mean (no reference to the model's functions) -/

/-- `it` points to position `o` of array `b`, which has `len` elements (`o = len`: past the end) -/
structure Points (m : Mem α) (it : It) (b : Nat) (len : Nat) (o : Int) : Prop where
  ptr : it.ptr = .at b o
  arr : ∃ xs, m b = some xs ∧ xs.length = len
  low : 0 ≤ o
  high : o ≤ len

/-- the `n` elements from `p` on exist (and are not more than an array can have) -/
def Span (m : Mem α) (p : Ptr) (n : Nat) : Prop :=
  n ≤ ptrdiffMax ∧ match p with
    | .null => n = 0
    | .at b o => 0 ≤ o ∧ ∃ xs, m b = some xs ∧ o + n ≤ xs.length

/-- these elements, in order -/
def elems (p : Ptr) (n : Nat) : List Loc :=
  match p with
  | .null => []
  | .at b o => (List.range n).map fun k => ⟨b, o.toNat + k⟩

/-! ### arithmetic -/

variable {it jt : It} {b b' len len' : Nat} {o o' k k' : Int}

theorem Points.add' (h : Points m it b len o) (h0 : 0 ≤ o + k) (h1 : o + k ≤ len) : it.ptr.add m k = .ok (.at b (o + k)) := by
  obtain ⟨xs, hx, rfl⟩ := h.arr
  rw [h.ptr]
  exact Ptr.add_at hx h0 h1

theorem Points.moved (h : Points m it b len o) (h0 : 0 ≤ o + k) (h1 : o + k ≤ len) : Points m ⟨.at b (o + k)⟩ b len (o + k) :=
  ⟨rfl, h.arr, h0, h1⟩

theorem Points.at (h : Points m it b len o) : it = ⟨.at b o⟩ := by cases it; have := h.ptr; simp_all

/-- C56: `it + n` is the iterator `n` positions further, for every `n` (of either sign) within the array -/
theorem C56_add (h : Points m it b len o) (h0 : 0 ≤ o + k) (h1 : o + k ≤ len) :
    ∃ jt, add m it k = .ok jt ∧ Points m jt b len (o + k) := by
  refine ⟨⟨.at b (o + k)⟩, ?_, h.moved h0 h1⟩
  simp [add, addAssign, h.add' h0 h1, bind, Except.bind, pure, Except.pure]

/-- C56: `it - n` is the iterator `n` positions back -/
theorem C56_sub (h : Points m it b len o) (h0 : 0 ≤ o - k) (h1 : o - k ≤ len) :
    ∃ jt, sub m it k = .ok jt ∧ Points m jt b len (o - k) := C56_add (k := -k) h h0 h1

/-- C56: where an iterator points determines it -/
theorem C56_position (h : Points m it b len o) (h' : Points m jt b' len' o') : it = jt ↔ b = b' ∧ o = o' := by
  rw [h.at, h'.at]; simp

/-- C56: `(it + n) - n == it` -/
theorem C56_add_sub (h : Points m it b len o) (h0 : 0 ≤ o + k) (h1 : o + k ≤ len) :
    (do let jt ← add m it k; sub m jt k) = .ok it := by
  obtain ⟨jt, hj, hp⟩ := C56_add h h0 h1
  obtain ⟨kt, hk, hq⟩ := C56_sub (k := k) hp (by have := h.low; omega) (by have := h.high; omega)
  rw [hj]
  refine hk.trans ?_
  rw [(C56_position hq h).2 ⟨rfl, by omega⟩]

/-- C56: `(it + n) - it == n` -/
theorem C56_diff (h : Points m it b len o) (h0 : 0 ≤ o + k) (h1 : o + k ≤ len) :
    (do let jt ← add m it k; diff m jt it) = .ok k := by
  obtain ⟨jt, hj, hp⟩ := C56_add h h0 h1
  rw [hj]
  obtain ⟨xs, hx, _⟩ := h.arr
  show diff m jt it = _
  rw [diff, hp.ptr, h.ptr, Ptr.sub_at hx]
  congr 1
  omega

/-- C56: `jt - it` is the number of steps from `it` to `jt`: `it + (jt - it) == jt` -/
theorem C56_distance (h : Points m it b len o) (h' : Points m jt b len o') :
    diff m jt it = .ok (o' - o) ∧ add m it (o' - o) = .ok jt := by
  obtain ⟨xs, hx, _⟩ := h.arr
  constructor
  · rw [diff, h.ptr, h'.ptr, Ptr.sub_at hx]
  · obtain ⟨kt, hk, hp⟩ := C56_add (k := o' - o) h (by have := h'.low; omega) (by have := h'.high; omega)
    rw [hk, (C56_position hp h').2 ⟨rfl, by omega⟩]

/-- C56: `(it + m) + n == it + (m + n)` -/
theorem C56_add_add (h : Points m it b len o) (h0 : 0 ≤ o + k) (h1 : o + k ≤ len) (h2 : 0 ≤ o + k + k')
    (h3 : o + k + k' ≤ len) : (do let jt ← add m it k; add m jt k') = add m it (k + k') := by
  obtain ⟨jt, hj, hp⟩ := C56_add h h0 h1
  obtain ⟨kt, hk, hq⟩ := C56_add hp h2 h3
  obtain ⟨lt, hl, hr⟩ := C56_add (k := k + k') h (by omega) (by omega)
  rw [hj]
  refine hk.trans ?_
  rw [hl, (C56_position hq hr).2 ⟨rfl, by omega⟩]

/-- C56: `it[n]` is `*(it + n)`, in every case -/
theorem C56_index (it : It) (k : Int) : index m it k = (do let jt ← add m it k; deref m jt) := rfl

/-- C56: `it[n]` and `*(it + n)` are the element `n` positions further -/
theorem C56_element (h : Points m it b len o) (h0 : 0 ≤ o + k) (h1 : o + k < len) :
    index m it k = .ok ⟨b, (o + k).toNat⟩ := by
  obtain ⟨jt, hj, hp⟩ := C56_add h h0 (Int.le_of_lt h1)
  obtain ⟨xs, hx, rfl⟩ := h.arr
  rw [C56_index, hj]
  show deref m jt = _
  rw [deref, hp.ptr]
  exact Ptr.deref_at hx (by omega) (by omega)

/-- C56: `*it` and `it->` are the element the iterator points to; different positions are different elements -/
theorem C56_deref (h : Points m it b len o) (h1 : o < len) : deref m it = .ok ⟨b, o.toNat⟩ ∧ (arrow it).deref m = .ok ⟨b, o.toNat⟩ := by
  obtain ⟨xs, hx, rfl⟩ := h.arr
  have : it.ptr.deref m = .ok ⟨b, o.toNat⟩ := by
    rw [h.ptr]
    exact Ptr.deref_at hx (by have := h.low; omega) (by have := h.low; omega)
  exact ⟨this, this⟩

theorem C56_deref_distinct (h : Points m it b len o) (h' : Points m jt b len o') (h1 : o < len) (h1' : o' < len) :
    deref m it = deref m jt ↔ it = jt := by
  rw [(C56_deref h h1).1, (C56_deref h' h1').1, C56_position h h']
  have := h.low
  have := h'.low
  simp only [Except.ok.injEq, Loc.mk.injEq, true_and]
  omega

/-- C56: the past-the-end iterator must not be dereferenced -/
theorem C56_deref_end (h : Points m it b len len) : deref m it = .error .outOfBounds := by
  obtain ⟨xs, hx, rfl⟩ := h.arr
  rw [deref, h.ptr]
  simp [Ptr.deref, hx]

/-- C56: `++it` is `it + 1`, `--it` is `it - 1`, `n + it` is `it + n`, `it += n` is `it = it + n`, `it -= n` is
`it = it - n`, in every case -/
theorem C56_steps (it : It) (k : Int) : inc m it = add m it 1 ∧ dec m it = sub m it 1 ∧ addLeft m k it = add m it k ∧
    addAssign m it k = add m it k ∧ subAssign m it k = sub m it k := ⟨rfl, rfl, rfl, rfl, rfl⟩

/-- C56: the post-forms return the old value and have the effect of the pre-forms -/
theorem C56_post (it : It) : postInc m it = (inc m it).map (it, ·) ∧ postDec m it = (dec m it).map (it, ·) := by
  constructor
  · simp only [postInc, bind, Except.bind, pure, Except.pure, Except.map]
  · simp only [postDec, bind, Except.bind, pure, Except.pure, Except.map]

/-- C56: `++` and `--` are inverse -/
theorem C56_inc_dec (h : Points m it b len o) (h1 : o < len) : (do let jt ← inc m it; dec m jt) = .ok it :=
  C56_add_sub (k := 1) h (by have := h.low; omega) (by omega)

theorem C56_dec_inc (h : Points m it b len o) (h1 : 0 < o) : (do let jt ← dec m it; inc m jt) = .ok it := by
  have := C56_add_sub (k := -1) h (by omega) (by have := h.high; omega)
  exact this

/-! ### comparison -/

/-- C56: comparisons agree with the positions, that is with the sign of the difference -/
theorem C56_compare (h : Points m it b len o) (h' : Points m jt b len o') :
    eq it jt = decide (o' - o = 0) ∧ ne it jt = decide (o' - o ≠ 0) ∧ lt it jt = .ok (decide (0 < o' - o)) ∧
      gt it jt = .ok (decide (o' - o < 0)) ∧ le it jt = .ok (decide (0 ≤ o' - o)) ∧ ge it jt = .ok (decide (o' - o ≤ 0)) := by
  have e : eq it jt = decide (o' - o = 0) := by
    rw [eq, h.ptr, h'.ptr, Bool.eq_iff_iff]
    simp only [beq_iff_eq, Ptr.at.injEq, true_and, decide_eq_true_eq]
    omega
  have l : lt it jt = .ok (decide (0 < o' - o)) := by
    rw [lt, h.ptr, h'.ptr]
    simp only [Ptr.less, if_pos]
    congr 1
    rw [decide_eq_decide]
    omega
  have g : lt jt it = .ok (decide (o' - o < 0)) := by
    rw [lt, h.ptr, h'.ptr]
    simp only [Ptr.less, if_pos]
    congr 1
    rw [decide_eq_decide]
    omega
  refine ⟨e, ?_, l, g, ?_, ?_⟩
  · rw [ne, e]; simp
  · simp only [le, gt, g, bind, Except.bind, pure, Except.pure, ← decide_not]
    congr 1
    rw [decide_eq_decide]
    omega
  · simp only [ge, l, bind, Except.bind, pure, Except.pure, ← decide_not]
    congr 1
    rw [decide_eq_decide]
    omega

/-- C56: default-constructed (and null) iterators are equal, at distance 0 -/
theorem C56_null : eq mk0 mk0 = true ∧ lt mk0 mk0 = .ok false ∧ diff m mk0 mk0 = .ok 0 ∧ add m mk0 0 = .ok mk0 := ⟨rfl, rfl, rfl, rfl⟩

/-- C56: conversion to the const iterator does not change the position -/
theorem C56_convert (it : It) : convert it = it := rfl

/-! ### traversal -/

theorem toDiff_small (h : n ≤ ptrdiffMax) : toDiff n = n := by
  have : ptrdiffMax < 2 ^ 63 := by decide
  have h1 : n % 2 ^ 64 = n := Nat.mod_eq_of_lt (by omega)
  rw [toDiff, h1, if_pos (by omega)]

/-- C56: `end()` exists and is `size()` positions after `begin()` -/
theorem C56_end (h : Span m p n) : ∃ e, end_ m p n = .ok e ∧ diff m e (begin_ p) = .ok n ∧ (eq (begin_ p) e = true ↔ n = 0) := by
  obtain ⟨h1, h2⟩ := h
  cases p with
  | null => subst h2; exact ⟨⟨.null⟩, rfl, rfl, by simp [eq, begin_]⟩
  | «at» b o =>
    obtain ⟨h0, xs, hx, hl⟩ := h2
    have hp : Points m (begin_ (.at b o)) b xs.length o := ⟨rfl, ⟨xs, hx, rfl⟩, h0, by omega⟩
    obtain ⟨e, he, hq⟩ := C56_add (k := n) hp (by omega) hl
    refine ⟨e, by rw [end_, toDiff_small h1]; exact he, ?_, ?_⟩
    · rw [(C56_distance hp hq).1]; congr 1; omega
    · rw [(C56_compare hp hq).1]; simp; omega

/-- past the last of `n` elements -/
def past (p : Ptr) (n : Nat) : Ptr :=
  match p with
  | .null => .null
  | .at b o => .at b (o + n)

theorem end_eq (h : Span m p n) : end_ m p n = .ok ⟨past p n⟩ := by
  obtain ⟨h1, h2⟩ := h
  cases p with
  | null => subst h2; rfl
  | «at» b o =>
    obtain ⟨h0, xs, hx, hl⟩ := h2
    rw [end_, toDiff_small h1, add, addAssign, begin_, Ptr.add_at hx (by omega) hl]
    rfl

theorem elems_cons {b : Nat} {o : Int} (h0 : 0 ≤ o) (n : Nat) :
    elems (.at b o) (n + 1) = ⟨b, o.toNat⟩ :: elems (.at b (o + 1)) n := by
  have : (o + 1).toNat = o.toNat + 1 := by omega
  simp only [elems, List.range_succ_eq_map, List.map_cons, List.map_map, this, Nat.add_zero, List.cons.injEq, true_and]
  apply List.map_congr_left
  intro k _
  simp only [Function.comp, Loc.mk.injEq, true_and, Nat.succ_eq_add_one]
  omega

theorem elems_concat {b : Nat} {o : Int} (h0 : 0 ≤ o) (n : Nat) :
    elems (.at b o) (n + 1) = elems (.at b o) n ++ [⟨b, (o + n).toNat⟩] := by
  have : (o + n).toNat = o.toNat + n := by omega
  simp only [elems, List.range_succ, List.map_append, List.map_cons, List.map_nil, this]

theorem walk_at {xs : List α} (hx : m b = some xs) : ∀ (n : Nat) (o : Int) (fuel : Nat), 0 ≤ o → o + n ≤ xs.length → n < fuel →
    walk m ⟨.at b (o + n)⟩ fuel ⟨.at b o⟩ = .ok (elems (.at b o) n) := by
  intro n
  induction n with
  | zero =>
    intro o fuel h0 hl hf
    obtain ⟨f, rfl⟩ : ∃ f, fuel = f + 1 := ⟨fuel - 1, by omega⟩
    simp [walk, ne, eq, elems, pure, Except.pure]
  | succ n ih =>
    intro o fuel h0 hl hf
    obtain ⟨f, rfl⟩ : ∃ f, fuel = f + 1 := ⟨fuel - 1, by omega⟩
    have hp : Points m ⟨.at b o⟩ b xs.length o := ⟨rfl, ⟨xs, hx, rfl⟩, h0, by omega⟩
    have hne : ne (⟨.at b o⟩ : It) ⟨.at b (o + (n + 1 : Nat))⟩ = true := by
      simp only [ne, eq, Bool.not_eq_true', beq_eq_false_iff_ne, Ne, Ptr.at.injEq, true_and]
      omega
    have hi : inc m (⟨.at b o⟩ : It) = .ok ⟨.at b (o + 1)⟩ := by
      simp [inc, hp.add' (k := 1) (by omega) (by omega), bind, Except.bind, pure, Except.pure]
    have hr := ih (o + 1) f (by omega) (by omega) (by omega)
    have e : o + 1 + (n : Int) = o + ((n + 1 : Nat) : Int) := by omega
    rw [e] at hr
    rw [walk, if_pos hne, (C56_deref hp (by omega)).1, hi]
    simp only [bind, Except.bind, hr, pure, Except.pure]
    rw [elems_cons h0]

/-- C56: a loop from `begin()` to `end()` uses exactly the elements of the container, each once, in order -/
theorem C56_traverse (h : Span m p n) {fuel : Nat} (hf : n < fuel) :
    (do let e ← end_ m p n; walk m e fuel (begin_ p)) = .ok (elems p n) := by
  rw [end_eq h]
  obtain ⟨_, h2⟩ := h
  cases p with
  | null =>
    subst h2
    obtain ⟨f, rfl⟩ : ∃ f, fuel = f + 1 := ⟨fuel - 1, by omega⟩
    simp [walk, ne, eq, elems, begin_, past, pure, Except.pure, bind, Except.bind]
  | «at» b o =>
    obtain ⟨h0, xs, hx, hl⟩ := h2
    exact walk_at hx n o fuel h0 hl hf

theorem rwalk_at {xs : List α} (hx : m b = some xs) (h0 : 0 ≤ o) : ∀ (n : Nat) (fuel : Nat), o + n ≤ xs.length → n < fuel →
    rwalk m ⟨⟨.at b o⟩⟩ fuel ⟨⟨.at b (o + n)⟩⟩ = .ok (elems (.at b o) n).reverse := by
  intro n
  induction n with
  | zero =>
    intro fuel hl hf
    obtain ⟨f, rfl⟩ : ∃ f, fuel = f + 1 := ⟨fuel - 1, by omega⟩
    simp [rwalk, ne, eq, elems, pure, Except.pure]
  | succ n ih =>
    intro fuel hl hf
    obtain ⟨f, rfl⟩ : ∃ f, fuel = f + 1 := ⟨fuel - 1, by omega⟩
    have hp : Points m ⟨.at b (o + (n + 1 : Nat))⟩ b xs.length (o + (n + 1 : Nat)) := ⟨rfl, ⟨xs, hx, rfl⟩, by omega, by omega⟩
    have hq : Points m ⟨.at b (o + n)⟩ b xs.length (o + n) := ⟨rfl, ⟨xs, hx, rfl⟩, by omega, by omega⟩
    have hne : ne (⟨.at b (o + (n + 1 : Nat))⟩ : It) ⟨.at b o⟩ = true := by
      simp only [ne, eq, Bool.not_eq_true', beq_eq_false_iff_ne, Ne, Ptr.at.injEq, true_and]
      omega
    have hd : dec m (⟨.at b (o + (n + 1 : Nat))⟩ : It) = .ok ⟨.at b (o + n)⟩ := by
      have e : o + ((n + 1 : Nat) : Int) + -1 = o + n := by omega
      have := hp.add' (k := -1) (by omega) (by omega)
      rw [e] at this
      simp only [dec, this, bind, Except.bind, pure, Except.pure]
    have hr := ih f (by omega) (by omega)
    rw [rwalk, if_pos hne]
    simp only [RIt.deref, RIt.inc, hd, (C56_deref hq (by omega)).1, bind, Except.bind, hr, pure, Except.pure]
    rw [elems_concat h0]
    simp

/-- C56: a loop from `rbegin()` to `rend()` uses exactly the elements, each once, in reverse order -/
theorem C56_traverse_reverse (h : Span m p n) {fuel : Nat} (hf : n < fuel) :
    (do let e ← rbegin m p n; rwalk m (rend p) fuel e) = .ok (elems p n).reverse := by
  rw [rbegin, end_eq h]
  obtain ⟨_, h2⟩ := h
  cases p with
  | null =>
    subst h2
    obtain ⟨f, rfl⟩ : ∃ f, fuel = f + 1 := ⟨fuel - 1, by omega⟩
    simp [rwalk, ne, eq, elems, rend, begin_, past, pure, Except.pure, bind, Except.bind]
  | «at» b o =>
    obtain ⟨h0, xs, hx, hl⟩ := h2
    exact rwalk_at hx h0 n fuel hl hf

theorem backWalk_at {xs : List α} (hx : m b = some xs) (h0 : 0 ≤ o) : ∀ (n : Nat) (fuel : Nat), o + n ≤ xs.length → n < fuel →
    backWalk m ⟨.at b o⟩ fuel ⟨.at b (o + n)⟩ = .ok (elems (.at b o) n).reverse := by
  intro n
  induction n with
  | zero =>
    intro fuel hl hf
    obtain ⟨f, rfl⟩ : ∃ f, fuel = f + 1 := ⟨fuel - 1, by omega⟩
    simp [backWalk, ne, eq, elems, pure, Except.pure]
  | succ n ih =>
    intro fuel hl hf
    obtain ⟨f, rfl⟩ : ∃ f, fuel = f + 1 := ⟨fuel - 1, by omega⟩
    have hp : Points m ⟨.at b (o + (n + 1 : Nat))⟩ b xs.length (o + (n + 1 : Nat)) := ⟨rfl, ⟨xs, hx, rfl⟩, by omega, by omega⟩
    have hq : Points m ⟨.at b (o + n)⟩ b xs.length (o + n) := ⟨rfl, ⟨xs, hx, rfl⟩, by omega, by omega⟩
    have hne : ne (⟨.at b (o + (n + 1 : Nat))⟩ : It) ⟨.at b o⟩ = true := by
      simp only [ne, eq, Bool.not_eq_true', beq_eq_false_iff_ne, Ne, Ptr.at.injEq, true_and]
      omega
    have hd : dec m (⟨.at b (o + (n + 1 : Nat))⟩ : It) = .ok ⟨.at b (o + n)⟩ := by
      have e : o + ((n + 1 : Nat) : Int) + -1 = o + n := by omega
      have := hp.add' (k := -1) (by omega) (by omega)
      rw [e] at this
      simp only [dec, this, bind, Except.bind, pure, Except.pure]
    have hr := ih f (by omega) (by omega)
    rw [backWalk, if_pos hne]
    simp only [hd, (C56_deref hq (by omega)).1, bind, Except.bind, hr, pure, Except.pure]
    rw [elems_concat h0]
    simp

/-- C56: going backwards from `end()` to `begin()` uses exactly the elements, each once, in reverse order -/
theorem C56_traverse_back (h : Span m p n) {fuel : Nat} (hf : n < fuel) :
    (do let e ← end_ m p n; backWalk m (begin_ p) fuel e) = .ok (elems p n).reverse := by
  rw [end_eq h]
  obtain ⟨_, h2⟩ := h
  cases p with
  | null =>
    subst h2
    obtain ⟨f, rfl⟩ : ∃ f, fuel = f + 1 := ⟨fuel - 1, by omega⟩
    simp [backWalk, ne, eq, elems, begin_, past, pure, Except.pure, bind, Except.bind]
  | «at» b o =>
    obtain ⟨h0, xs, hx, hl⟩ := h2
    exact backWalk_at hx h0 n fuel hl hf

theorem mapM_ok {γ δ : Type} {f : γ → Except Fault δ} {g : γ → δ} : ∀ (l : List γ), (∀ x ∈ l, f x = .ok (g x)) →
    l.mapM f = .ok (l.map g)
  | [], _ => rfl
  | x :: l, h => by
    rw [List.mapM_cons, h x (by simp), mapM_ok l (fun y hy => h y (by simp [hy]))]
    rfl

/-- C56: indexing from `begin()` uses exactly the elements, each once, in order -/
theorem C56_traverse_index (h : Span m p n) :
    (do let e ← end_ m p n; indexWalk m (begin_ p) e) = .ok (elems p n) := by
  obtain ⟨e, he, hd, _⟩ := C56_end h
  rw [he]
  show indexWalk m (begin_ p) e = _
  rw [indexWalk, hd]
  show (List.range (Int.toNat n)).mapM _ = _
  rw [Int.toNat_natCast]
  obtain ⟨_, h2⟩ := h
  cases p with
  | null => subst h2; rfl
  | «at» b o =>
    obtain ⟨h0, xs, hx, hl⟩ := h2
    refine mapM_ok _ fun k hk => ?_
    have hk : k < n := List.mem_range.1 hk
    have hp : Points m (begin_ (.at b o)) b xs.length o := ⟨rfl, ⟨xs, hx, rfl⟩, h0, by omega⟩
    rw [C56_element hp (by omega) (by omega)]
    congr 2
    omega

end Ptl.Iter

import Verif.Vector.Props.Capacity
import Verif.Vector.Props.History
import Verif.Vector.Props.Limits

/-!
# C112: filling vectors through insert iterators

`std::back_inserter(v)` and `std::inserter(v, pos)` turn the assignments of an algorithm into calls of `push_back` and `insert`; a copy
constructor or the allocation may fail at any of them.  The iterators are part of the standard library:
`*out = x` is `c.push_back(x)`, or `iter = c.insert(iter, x); ++iter`.
-/

namespace Ptl.Vector

variable {α : Type} {T : Elem α} {s s' : St α Storage} {V V' V1 : Vars α} {i j : Nat} {pre post xs ys vs : List α}

/-- what the algorithm assigns: `*out = x` for an lvalue `x`, or for an rvalue -/
inductive Item (α : Type) where
  | copied (x : Src α)
  | given (x : Src1 α)

/-- the object it refers to -/
def Item.src : Item α → Src1 α
  | .copied x => .ref x
  | .given x => x

/-- `c.insert(iter, x)` for the two kinds of values, vector.hpp:357-358 -/
def Item.insertAt (T : Elem α) (i p : Nat) : Item α → VM α (Option Nat)
  | .copied x => (Op.insertFill i p 1 x).run T
  | .given x => (Op.emplace i p x).run T

/-- the assignments through `std::inserter(v, v.begin() + p)`; in the end, the position of the insert iterator -/
def insertEach (T : Elem α) (i p : Nat) : List (Item α) → VM α Nat
  | [] => pure p
  | x :: l => do
    let r ← x.insertAt T i p
    insertEach T i (r.getD 0 + 1) l

/-- the assignments through `std::back_inserter(v)`, vector.hpp:298-299 -/
def pushEach (T : Elem α) (i : Nat) : List (Item α) → VM α Unit
  | [] => pure ()
  | x :: l => do
    let _ ← (Op.pushBack i x.src).run T
    pushEach T i l

/-! ### what is assigned (no reference to the model's functions) -/

/-- not an element of vector `i` (a reference to one would dangle as soon as the vector grows) -/
def Src1.Avoids (i : Nat) : Src1 α → Prop
  | .ref (.val _) => True
  | .ref (.elem j _) => j ≠ i
  | .mv j _ => j ≠ i

/-- the values of the items, one after the other; elements of other vectors that are assigned as rvalues are moved from -/
inductive Delivers (moved : α → α) (i : Nat) : List (Item α) → Vars α → List α → Vars α → Prop
  | nil {V : Vars α} : Delivers moved i [] V [] V
  | cons {x : Item α} {v : α} {l : List (Item α)} {vs : List α} {V V1 V2 : Vars α} : x.src.Avoids i → x.src.Takes moved V v V1 → Delivers moved i l V1 vs V2 →
      Delivers moved i (x :: l) V (v :: vs) V2

theorem Src1.Takes.avoids {moved : α → α} {x : Src1 α} {v : α} (h : x.Takes moved V v V1) (ha : x.Avoids i) :
    V1 i = V i ∧ ∀ t, x.Takes moved (upd V i t) v (upd V1 i t) := by
  cases h with
  | ref h =>
    refine ⟨rfl, fun t => .ref ?_⟩
    cases h with
    | val => exact .val _
    | elem h1 h2 => exact .elem (by rw [upd_ne _ _ ha]; exact h1) h2
  | mv h1 h2 =>
    refine ⟨upd_ne _ _ (Ne.symm ha), fun t => ?_⟩
    rw [upd_comm _ _ _ ha]
    exact .mv (by rw [upd_ne _ _ ha]; exact h1) h2

theorem Delivers.at {moved : α → α} {l : List (Item α)} (h : Delivers moved i l V vs V1) :
    V1 i = V i ∧ vs.length = l.length ∧ ∀ t, Delivers moved i l (upd V i t) vs (upd V1 i t) := by
  induction h with
  | nil => exact ⟨rfl, rfl, fun _ => .nil⟩
  | cons ha ht _ ih =>
    exact ⟨ih.1.trans (ht.avoids ha).1, by simp [ih.2.1], fun t => .cons ha ((ht.avoids ha).2 t) (ih.2.2 t)⟩

theorem Src1.Takes.det {moved : α → α} {x : Src1 α} {v v' : α} {V2 : Vars α} (h : x.Takes moved V v V1) (h' : x.Takes moved V v' V2) :
    v = v' ∧ V1 = V2 := by
  cases h with
  | ref h =>
    cases h' with
    | ref h' =>
      refine ⟨?_, rfl⟩
      cases h with
      | val => cases h'; rfl
      | elem h1 h2 =>
        cases h' with
        | elem h1' h2' => rw [h1] at h1'; cases h1'; rw [h2] at h2'; cases h2'; rfl
  | mv h1 h2 =>
    cases h' with
    | mv h1' h2' => rw [h1] at h1'; cases h1'; rw [h2] at h2'; cases h2'; exact ⟨rfl, rfl⟩

theorem Delivers.det {moved : α → α} {l : List (Item α)} {vs' : List α} {V2 : Vars α} (h : Delivers moved i l V vs V1)
    (h' : Delivers moved i l V vs' V2) : V1 = V2 := by
  induction h generalizing vs' V2 with
  | nil => cases h'; rfl
  | cons _ ht _ ih =>
    cases h' with
    | cons _ ht' hd' =>
      obtain ⟨rfl, rfl⟩ := ht.det ht'
      exact ih hd'

theorem Delivers.congr {moved : α → α} {l : List (Item α)} {t : Option (List α)} {W : Vars α}
    (h : Delivers moved i l (upd V i t) vs W) : Delivers moved i l V vs (upd W i (V i)) := by
  have := h.at.2.2 (V i)
  rwa [upd_upd, upd_self] at this

theorem room (h : Reach T s V) (hi : V i = some xs) : Fits xs 1 := by
  obtain ⟨d, c, hsh⟩ := h.shows hi
  obtain ⟨h1, h2, _⟩ := C05_capacity h hsh
  have := maxCapacity_le T
  have : ptrdiffMax = 9223372036854775807 := rfl
  simp only [Fits]
  omega

/-- one assignment -/
theorem insertAt_call (h : Reach T s V) {x : Item α} {v : α} (ha : x.src.Avoids i) (ht : x.src.Takes T.moved V v V1)
    (hi : V i = some (pre ++ post)) :
    match x.insertAt T i pre.length s with
    | .ok r s' => r = some pre.length ∧ Reach T s' (upd V1 i (some (pre ++ [v] ++ post)))
    | .exc _ s' => Reach T s' V
    | _ => False := by
  have key : ∀ {op : Op α}, (∀ i, op ≠ .shrinkToFit i) → Spec T op V (upd V1 i (some (pre ++ [v] ++ post))) (some pre.length) →
      match op.run T s with
      | .ok r s' => r = some pre.length ∧ Reach T s' (upd V1 i (some (pre ++ [v] ++ post)))
      | .exc _ s' => Reach T s' V
      | _ => False := by
    intro op hop hs
    have := C01_call h hs
    cases hr : op.run T s with
    | ok r s' => rw [hr] at this; exact ⟨this.1, this.2.1⟩
    | exc e s' => rw [hr] at this; exact this.1
    | ub => rw [hr] at this; exact this
    | term => rw [hr] at this; obtain ⟨⟨j, hj⟩, _⟩ := this; exact hop j hj
  cases x with
  | copied x =>
    cases ht with
    | ref hx => exact key (op := .insertFill i pre.length 1 x) (by intro _ h; cases h) (.insertFill hx hi (room h hi))
  | given x => exact key (op := .emplace i pre.length x) (by intro _ h; cases h) (.emplace ht (by rw [(ht.avoids ha).1]; exact hi))

/-- C112, `std::inserter`: what an algorithm assigns ends up at the position, in order, and the elements behind are those of
before; the insert iterator is behind what was inserted.  If a step fails, what was assigned before it is there, and nothing else has
changed. -/
theorem C112_inserter {l : List (Item α)} (h : Reach T s V) (hi : V i = some (pre ++ post))
    (hd : Delivers T.moved i l V vs V') :
    match insertEach T i pre.length l s with
    | .ok p s' => p = pre.length + vs.length ∧ Reach T s' (upd V' i (some (pre ++ vs ++ post)))
    | .exc _ s' => ∃ n W, n < l.length ∧ Delivers T.moved i (l.take n) V (vs.take n) W ∧
        Reach T s' (upd W i (some (pre ++ vs.take n ++ post)))
    | _ => False := by
  induction l generalizing s V V' vs pre with
  | nil =>
    cases hd
    exact ⟨rfl, by rw [List.append_nil, upd_eq _ _ _ hi]; exact h⟩
  | cons x l ih =>
    cases hd with
    | @cons _ v _ vs _ V1 _ ha ht hd =>
    have h1 := insertAt_call h ha ht hi
    unfold insertEach
    cases hr : x.insertAt T i pre.length s with
    | ub => rw [hr] at h1; exact h1.elim
    | term => rw [hr] at h1; exact h1.elim
    | exc e s1 =>
      rw [hr] at h1
      rw [M.bind_exc hr]
      refine ⟨0, V, by simp, .nil, ?_⟩
      have : pre ++ (v :: vs).take 0 ++ post = pre ++ post := by simp
      rw [this, upd_eq _ _ _ hi]; exact h1
    | ok r s1 =>
      rw [hr] at h1
      obtain ⟨rfl, h1⟩ := h1
      rw [M.bind_ok hr]
      have h2 := ih (pre := pre ++ [v]) h1 (upd_same _ _ _) (hd.at.2.2 _)
      have e : (some pre.length).getD 0 + 1 = (pre ++ [v]).length := by simp
      rw [e]
      cases hr2 : insertEach T i (pre ++ [v]).length l s1 with
      | ub => rw [hr2] at h2; exact h2
      | term => rw [hr2] at h2; exact h2
      | ok p s2 =>
        rw [hr2] at h2
        refine ⟨by rw [h2.1]; simp; omega, ?_⟩
        have h3 := h2.2
        rw [upd_upd] at h3
        simpa using h3
      | exc e s2 =>
        rw [hr2] at h2
        obtain ⟨n, W, hn, hW, h3⟩ := h2
        refine ⟨n + 1, upd W i (V1 i), by simpa using hn, .cons ha ht hW.congr, ?_⟩
        rw [upd_upd]
        simpa using h3

/-- C112, `std::back_inserter`: what an algorithm assigns is appended, in order.  If a step fails, what was assigned before it has
been appended, and nothing else has changed. -/
theorem C112_back_inserter {l : List (Item α)} (h : Reach T s V) (hi : V i = some xs) (hd : Delivers T.moved i l V vs V') :
    match pushEach T i l s with
    | .ok _ s' => Reach T s' (upd V' i (some (xs ++ vs)))
    | .exc _ s' => ∃ n W, n < l.length ∧ Delivers T.moved i (l.take n) V (vs.take n) W ∧
        Reach T s' (upd W i (some (xs ++ vs.take n)))
    | _ => False := by
  induction l generalizing s V V' vs xs with
  | nil =>
    cases hd
    show Reach T s _
    rw [List.append_nil, upd_eq _ _ _ hi]; exact h
  | cons x l ih =>
    cases hd with
    | @cons _ v _ vs _ V1 _ ha ht hd =>
    have h1 := C01_call h (.pushBack (i := i) ht (by rw [(ht.avoids ha).1]; exact hi))
    unfold pushEach
    cases hr : (Op.pushBack i x.src).run T s with
    | ub => rw [hr] at h1; exact h1.elim
    | term => rw [hr] at h1; obtain ⟨⟨_, hj⟩, _⟩ := h1; cases hj
    | exc e s1 =>
      rw [hr] at h1
      rw [M.bind_exc hr]
      refine ⟨0, V, by simp, .nil, ?_⟩
      have : xs ++ (v :: vs).take 0 = xs := by simp
      rw [this, upd_eq _ _ _ hi]; exact h1.1
    | ok r s1 =>
      rw [hr] at h1
      rw [M.bind_ok hr]
      have h2 := ih h1.2.1 (upd_same _ _ _) (hd.at.2.2 _)
      cases hr2 : pushEach T i l s1 with
      | ub => rw [hr2] at h2; exact h2
      | term => rw [hr2] at h2; exact h2
      | ok p s2 =>
        rw [hr2] at h2
        have h3 : Reach T s2 _ := h2
        rw [upd_upd] at h3
        show Reach T s2 _
        simpa using h3
      | exc e s2 =>
        rw [hr2] at h2
        obtain ⟨n, W, hn, hW, h3⟩ := h2
        refine ⟨n + 1, upd W i (V1 i), by simpa using hn, .cons ha ht hW.congr, ?_⟩
        rw [upd_upd]
        simpa using h3

/-- the elements of vector `j` from position `k` on, as rvalues: `std::make_move_iterator(w.begin() + k)` -/
def moves (j k : Nat) : Nat → List (Item α)
  | 0 => []
  | n + 1 => .given (.mv j k) :: moves j (k + 1) n

theorem moves_length (j n : Nat) : ∀ k, (moves (α := α) j k n).length = n := by
  induction n with
  | zero => intro _; rfl
  | succ n ih => intro k; simp [moves, ih]

theorem moves_take (j m : Nat) : ∀ k n, n ≤ m → (moves (α := α) j k m).take n = moves j k n := by
  induction m with
  | zero => intro k n hn; obtain rfl : n = 0 := Nat.le_zero.1 hn; rfl
  | succ m ih =>
    intro k n hn
    cases n with
    | zero => rfl
    | succ n => simp [moves, ih (k + 1) n (by omega)]

theorem moves_delivers {moved : α → α} (hij : j ≠ i) : ∀ (ys zs : List α) (V : Vars α), V j = some (zs ++ ys) → ∀ n, n ≤ ys.length →
    Delivers moved i (moves j zs.length n) V (ys.take n) (upd V j (some (zs ++ (ys.take n).map moved ++ ys.drop n))) := by
  intro ys
  induction ys with
  | nil =>
    intro zs V hj n hn
    obtain rfl : n = 0 := by simpa using hn
    have : upd V j (some (zs ++ (([] : List α).take 0).map moved ++ ([] : List α).drop 0)) = V := upd_eq _ _ _ (by simpa using hj)
    rw [this]; exact .nil
  | cons y ys ih =>
    intro zs V hj n hn
    cases n with
    | zero =>
      have : upd V j (some (zs ++ ((y :: ys).take 0).map moved ++ (y :: ys).drop 0)) = V := upd_eq _ _ _ (by simpa using hj)
      rw [this]; exact .nil
    | succ n =>
      have h1 : (zs ++ y :: ys).set zs.length (moved y) = zs ++ [moved y] ++ ys := by
        rw [List.set_append_right _ _ (Nat.le_refl _)]; simp
      have ht : Src1.Takes moved V (.mv j zs.length) y (upd V j (some (zs ++ [moved y] ++ ys))) := by
        rw [← h1]; exact .mv hj (by simp)
      have h2 := ih (zs ++ [moved y]) (upd V j (some (zs ++ [moved y] ++ ys))) (upd_same _ _ _) n (by simpa using hn)
      rw [upd_upd] at h2
      refine .cons (x := .given (.mv j zs.length)) hij ht ?_
      simpa using h2

/-- C112, `std::move(w.begin(), w.end(), std::back_inserter(v))` for different vectors: the elements change places.  If a step fails,
the ones before it have, and the others are still where they were: none is lost, none is there twice. -/
theorem C112_move_over (h : Reach T s V) (hij : j ≠ i) (hi : V i = some xs) (hj : V j = some ys) :
    match pushEach T i (moves j 0 ys.length) s with
    | .ok _ s' => (∃ d c, Shows s' i d c (xs ++ ys)) ∧ ∃ d c, Shows s' j d c (ys.map T.moved)
    | .exc _ s' => ∃ n, n < ys.length ∧ (∃ d c, Shows s' i d c (xs ++ ys.take n)) ∧
        ∃ d c, Shows s' j d c ((ys.take n).map T.moved ++ ys.drop n)
    | _ => False := by
  have hd := moves_delivers (moved := T.moved) hij ys [] V hj ys.length (Nat.le_refl _)
  have h1 := C112_back_inserter h hi hd
  simp only [List.length_nil, List.take_length, List.drop_length, List.append_nil, List.nil_append] at h1
  cases hr : pushEach T i (moves j 0 ys.length) s with
  | ub => rw [hr] at h1; exact h1
  | term => rw [hr] at h1; exact h1
  | ok p s' =>
    rw [hr] at h1
    have h1 : Reach T s' _ := h1
    exact ⟨h1.shows (upd_same _ _ _), h1.shows (by rw [upd_ne _ _ hij, upd_same])⟩
  | exc e s' =>
    rw [hr] at h1
    obtain ⟨n, W, hn, hW, h1⟩ := h1
    rw [moves_length] at hn
    have h2 := moves_delivers (moved := T.moved) hij ys [] V hj n (Nat.le_of_lt hn)
    rw [moves_take _ _ _ _ (Nat.le_of_lt hn)] at hW
    have : W j = some ((ys.take n).map T.moved ++ ys.drop n) := by
      rw [hW.det h2]; simp
    exact ⟨n, hn, h1.shows (upd_same _ _ _), h1.shows (by rw [upd_ne _ _ hij]; exact this)⟩

/-- C112: if the vector has room for everything (`reserve`), `data()` and `capacity()` stay, so iterators and references stay valid, and
a step can only fail because the construction of an element throws. -/
theorem C112_reserved {l : List (Item α)} {d : Ptr} {c : Nat} (h : Reach T s V) (hsh : Shows s i d c xs)
    (hd : Delivers T.moved i l V vs V') (hc : xs.length + l.length ≤ c) :
    match pushEach T i l s with
    | .ok _ s' => Shows s' i d c (xs ++ vs) ∧ s'.nblk = s.nblk
    | .exc e s' => e = .user ∧ ∃ n, n < l.length ∧ Shows s' i d c (xs ++ vs.take n)
    | _ => False := by
  induction l generalizing s V V' vs xs with
  | nil =>
    cases hd
    exact ⟨by rw [List.append_nil]; exact hsh, rfl⟩
  | cons x l ih =>
    cases hd with
    | @cons _ v _ vs _ V1 _ ha ht hd =>
    have hi := h.of_shows hsh
    have hs : Spec T (.pushBack i x.src) V _ _ := .pushBack ht (by rw [(ht.avoids ha).1]; exact hi)
    have h1 := C01_call h hs
    have h6 := C06_insert_in_place h hs .pushBack hsh (by simp only [List.length_cons] at hc; omega)
    unfold pushEach
    cases hr : (Op.pushBack i x.src).run T s with
    | ub => rw [hr] at h1; exact h1.elim
    | term => rw [hr] at h6; exact h6.elim
    | exc e s1 =>
      rw [hr] at h6
      rw [M.bind_exc hr]
      exact ⟨h6.1, 0, by simp, by simpa using h6.2.1⟩
    | ok r s1 =>
      rw [hr] at h1 h6
      rw [M.bind_ok hr]
      obtain ⟨⟨zs, hz, hsz⟩, hn⟩ := h6
      rw [upd_same] at hz; cases hz
      have h2 := ih h1.2.1 hsz (hd.at.2.2 _) (by simp only [List.length_cons, List.length_append, List.length_nil] at hc ⊢; omega)
      cases hr2 : pushEach T i l s1 with
      | ub => rw [hr2] at h2; exact h2
      | term => rw [hr2] at h2; exact h2
      | ok p s2 =>
        rw [hr2] at h2
        exact ⟨by simpa using h2.1, h2.2.trans hn⟩
      | exc e s2 =>
        rw [hr2] at h2
        obtain ⟨he, n, hn, h3⟩ := h2
        exact ⟨he, n + 1, by simpa using hn, by simpa using h3⟩

/-! ### instances -/

-- a copy of the first element of vector 1, a temporary, and the second element of vector 1 as an rvalue
example : Delivers natElem.moved 0 [.copied (.elem 1 0), .given (.ref (.val 8)), .given (.mv 1 1)]
    (upd (upd (fun _ => none) 0 (some [1, 2])) 1 (some [5, 6])) [5, 8, 6]
    (upd (upd (upd (fun _ => none) 0 (some [1, 2])) 1 (some [5, 6])) 1 (some [5, natElem.moved 6])) :=
  .cons (x := .copied (.elem 1 0)) (by show 1 ≠ 0; decide) (.ref (.elem rfl rfl)) (.cons (x := .given (.ref (.val 8))) trivial (.ref (.val _))
    (.cons (x := .given (.mv 1 1)) (by show 1 ≠ 0; decide) (.mv rfl rfl) .nil))

/-- the vectors 1, 2, 3 and 5, 6; then three assignments through an inserter behind the 1.  What the client sees of vector 0 in the
end, and whether there was an exception. -/
def fillDemo (orc : Nat → Bool) : Option (Bool × List Nat) :=
  let m : VM Nat Nat := do
    let _ ← (Op.ctorRange 0 (.refs [.val 1, .val 2, .val 3])).run natElem
    let _ ← (Op.ctorRange 1 (.refs [.val 5, .val 6])).run natElem
    insertEach natElem 0 1 [.copied (.elem 1 0), .given (.ref (.val 8)), .copied (.elem 1 1)]
  match m (start Nat orc) with
  | .ok _ s => match readBack 0 s with
    | .ok xs _ => some (false, xs)
    | _ => none
  | .exc _ s => match readBack 0 s with
    | .ok xs _ => some (true, xs)
    | _ => none
  | _ => none

example : fillDemo (fun _ => false) = some (false, [1, 5, 8, 6, 2, 3]) := by decide +kernel
-- allocation 1, three copies, allocation 2, two copies; then the copies of 5, 8 and 6
example : fillDemo (· == 7) = some (true, [1, 2, 3]) ∧ fillDemo (· == 8) = some (true, [1, 5, 2, 3]) ∧
    fillDemo (· == 9) = some (true, [1, 5, 8, 2, 3]) := by decide +kernel

end Ptl.Vector

import Verif.Str.Props.Buffer
import Verif.Str.Props.Access
import Verif.Str.Props.Limits

/-!
# C112 for `string`: filling strings through insert iterators

As `Verif/Vector/Props/Inserters.lean`; the values are characters, so no copy can fail, but the allocation of a larger buffer can.
-/

namespace Ptl.Str

variable {s s' : St} {V : Vars} {i : Nat} {pre post xs bs : List UInt8}

/-- the assignments through `std::inserter(s, s.begin() + p)`, string.hpp:492; in the end, the position of the insert iterator -/
def insertEach (i p : Nat) : List UInt8 → SM Nat
  | [] => pure p
  | b :: bs => do
    let r ← (Op.insertFill i p 1 b).run
    insertEach i (r.getD 0 + 1) bs

/-- the assignments through `std::back_inserter(s)`, string.hpp:390-394 -/
def pushEach (i : Nat) : List UInt8 → SM Unit
  | [] => pure ()
  | b :: bs => do
    let _ ← (Op.pushBack i b).run
    pushEach i bs

theorem room (h : Reach s V) (hi : V i = some xs) : xs.length + 1 < 2 ^ 64 := by
  have := C20_no_longer_than_max_size h hi
  unfold maxSize ptrdiffMax at this
  omega

/-- C112, string and `std::inserter`: what an algorithm assigns ends up at the position, in order, and the characters behind are
those of before; the insert iterator is behind what was inserted.  If a step fails, what was assigned before it is there, and nothing
else has changed. -/
theorem C112_string_inserter (h : Reach s V) (hi : V i = some (pre ++ post)) :
    match insertEach i pre.length bs s with
    | .ok p s' => p = pre.length + bs.length ∧ Reach s' (upd V i (some (pre ++ bs ++ post)))
    | .exc _ s' => ∃ n, n < bs.length ∧ Reach s' (upd V i (some (pre ++ bs.take n ++ post)))
    | _ => False := by
  induction bs generalizing s V pre with
  | nil => exact ⟨rfl, by rw [List.append_nil, upd_eq _ _ _ hi]; exact h⟩
  | cons b bs ih =>
    have h1 := C15_call h (.insertFill (n := 1) (ch := b) hi (room h hi))
    unfold insertEach
    cases hr : (Op.insertFill i pre.length 1 b).run s with
    | ub => rw [hr] at h1; exact h1.elim
    | term => rw [hr] at h1; obtain ⟨⟨_, _, hj⟩, _⟩ := h1; cases hj
    | exc e s1 =>
      rw [hr] at h1
      rw [M.bind_exc hr]
      refine ⟨0, by simp, ?_⟩
      have : pre ++ (b :: bs).take 0 ++ post = pre ++ post := by simp
      rw [this, upd_eq _ _ _ hi]; exact h1.1
    | ok r s1 =>
      rw [hr] at h1
      obtain ⟨rfl, h1, _⟩ := h1
      rw [M.bind_ok hr]
      have h2 := ih (pre := pre ++ [b]) h1 (upd_same _ _ _)
      have e : (some pre.length).getD 0 + 1 = (pre ++ [b]).length := by simp
      rw [e]
      cases hr2 : insertEach i (pre ++ [b]).length bs s1 with
      | ub => rw [hr2] at h2; exact h2
      | term => rw [hr2] at h2; exact h2
      | ok p s2 =>
        rw [hr2] at h2
        refine ⟨by rw [h2.1]; simp; omega, ?_⟩
        have h3 := h2.2
        rw [upd_upd] at h3
        simpa using h3
      | exc e s2 =>
        rw [hr2] at h2
        obtain ⟨n, hn, h3⟩ := h2
        refine ⟨n + 1, by simpa using hn, ?_⟩
        rw [upd_upd] at h3
        simpa using h3

/-- C112, string and `std::back_inserter`: what an algorithm assigns is appended, in order.  If a step fails, what was assigned
before it has been appended, and nothing else has changed. -/
theorem C112_string_back_inserter (h : Reach s V) (hi : V i = some xs) :
    match pushEach i bs s with
    | .ok _ s' => Reach s' (upd V i (some (xs ++ bs)))
    | .exc _ s' => ∃ n, n < bs.length ∧ Reach s' (upd V i (some (xs ++ bs.take n)))
    | _ => False := by
  induction bs generalizing s V xs with
  | nil =>
    show Reach s _
    rw [List.append_nil, upd_eq _ _ _ hi]; exact h
  | cons b bs ih =>
    have h1 := C15_call h (.pushBack (ch := b) hi)
    unfold pushEach
    cases hr : (Op.pushBack i b).run s with
    | ub => rw [hr] at h1; exact h1.elim
    | term => rw [hr] at h1; obtain ⟨⟨_, _, hj⟩, _⟩ := h1; cases hj
    | exc e s1 =>
      rw [hr] at h1
      rw [M.bind_exc hr]
      refine ⟨0, by simp, ?_⟩
      have : xs ++ (b :: bs).take 0 = xs := by simp
      rw [this, upd_eq _ _ _ hi]; exact h1.1
    | ok r s1 =>
      rw [hr] at h1
      rw [M.bind_ok hr]
      have h2 := ih h1.2.1 (upd_same _ _ _)
      cases hr2 : pushEach i bs s1 with
      | ub => rw [hr2] at h2; exact h2
      | term => rw [hr2] at h2; exact h2
      | ok p s2 =>
        rw [hr2] at h2
        have h3 : Reach s2 _ := h2
        rw [upd_upd] at h3
        show Reach s2 _
        simpa using h3
      | exc e s2 =>
        rw [hr2] at h2
        obtain ⟨n, hn, h3⟩ := h2
        refine ⟨n + 1, by simpa using hn, ?_⟩
        rw [upd_upd] at h3
        simpa using h3

/-- C112, string: if there is room for everything (`reserve`), no step fails, and `data()` and `capacity()` stay, so iterators and
references stay valid. -/
theorem C112_string_reserved {d : Ptr} {c : Nat} {t : UInt8} (h : Reach s V) (hsh : Shows s i d c (pre ++ post) t)
    (hc : (pre ++ post).length + bs.length ≤ c) :
    ∃ s' t', insertEach i pre.length bs s = .ok (pre.length + bs.length) s' ∧ Shows s' i d c (pre ++ bs ++ post) t' := by
  induction bs generalizing s V pre t with
  | nil => exact ⟨s, t, rfl, by rw [List.append_nil]; exact hsh⟩
  | cons b bs ih =>
    have hi := h.of_shows hsh
    have hs : Spec (Big s) (.insertFill i pre.length 1 b) V _ _ := .insertFill hi (room h hi)
    have h9 := C90_partial h hs rfl hsh (upd_same _ _ _) (by
      show (pre ++ List.replicate 1 b ++ post).length ≤ c
      simp only [List.length_append, List.length_replicate, List.length_cons] at hc ⊢; omega)
    have h1 := C15_call h hs
    unfold insertEach
    cases hr : (Op.insertFill i pre.length 1 b).run s with
    | ub => rw [hr] at h1; exact h1.elim
    | term => rw [hr] at h9; exact h9.elim
    | exc e s1 =>
      rw [hr] at h9
      have he : e = .user := h9.1.resolve_right (fun h => h)
      rcases C15_throws_only_for_a_reason h hs hr with ⟨h, _⟩ | ⟨h, _⟩ | ⟨_, ⟨_, h⟩, _⟩
      · rw [he] at h; cases h
      · rw [he] at h; cases h
      · cases h
    | ok r s1 =>
      rw [hr] at h9 h1
      obtain ⟨rfl, h1, _⟩ := h1
      obtain ⟨t1, h9⟩ := h9
      rw [M.bind_ok hr]
      have h9 : Shows s1 i d c ((pre ++ [b]) ++ post) t1 := h9
      obtain ⟨s2, t2, h3, h4⟩ := ih h1 h9 (by simp only [List.length_append, List.length_cons, List.length_nil] at hc ⊢; omega)
      have e : (some pre.length).getD 0 + 1 = (pre ++ [b]).length := by simp
      refine ⟨s2, t2, ?_, by simpa using h4⟩
      rw [e, h3]
      congr 1
      simp; omega

/-! ### instances -/

/-- the string `ab`; then the characters `bs` through an inserter behind the `a`.  What the client sees of it in the end, and whether
there was an exception. -/
def fillDemo (orc : Nat → Bool) (bs : List UInt8) : Option (Bool × List UInt8) :=
  let m : SM Nat := do
    let _ ← (Op.ctorRange 0 [.val 97, .val 98]).run
    insertEach 0 1 bs
  match m (start orc) with
  | .ok _ s => match readBack 0 s with
    | .ok xs _ => some (false, xs)
    | _ => none
  | .exc _ s => match readBack 0 s with
    | .ok xs _ => some (true, xs)
    | _ => none
  | _ => none

example : fillDemo (fun _ => false) [120, 121] = some (false, [97, 120, 121, 98]) := by decide +kernel
-- twenty characters fit into the small buffer; the allocation for the next one fails
example : fillDemo (fun _ => true) (List.replicate 25 120) = some (true, 97 :: List.replicate 20 120 ++ [98]) := by decide +kernel

end Ptl.Str

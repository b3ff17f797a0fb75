import Verif.Overload.Best
import Verif.Iter.Props

/-!
# C83: iterators and const iterators mixed

`it == cit`, `it < cit`, `it - cit`, … with one `iterator` and one `const_iterator` of the same container: the operators
are friends of both iterator classes and take two iterators of that class (vector.hpp:151-175, string.hpp:199-224,
array.hpp:130-155, array_ref.hpp:122-147, string_ref.hpp:82-106), so that one operand must be converted.
-/

namespace Ptl.Iter

open Overload (Seq Cand Choice choose)
open View (Mem)

/-- the containers with contiguous iterators -/
inductive Cont where
  | vector
  | string
  | array
  | arrayRef
  | stringRef
  deriving DecidableEq, Repr

/-- `contiguous_iterator<IsConst>` -/
inductive Side where
  | mut
  | const
  deriving DecidableEq, Repr

/-- the types `iterator` and `const_iterator`: vector.hpp:242-243, string.hpp:292-293, array.hpp:172-173,
array_ref.hpp:165-166; string_ref.hpp:26, 115 has a single class, `iterator`, and `const_iterator` is the same type -/
def Cont.ty (c : Cont) (k : Side) : Side := if c = .stringRef then .const else k

/-- is there a conversion function from `const_iterator` to `iterator`?  vector.hpp:184-185, string.hpp:232-233: yes (private);
array.hpp:157-162, array_ref.hpp:149-154, string_ref.hpp:107-113: no -/
def Cont.reverse : Cont → Bool
  | .vector | .string => true
  | _ => false

/-- conversion of an iterator of type `a` to `const contiguous_iterator<b> &`: the same type, or a conversion function:
0 is the public `operator contiguous_iterator<true>` (vector.hpp:154-155, string.hpp:202-203, array.hpp:134-135,
array_ref.hpp:126-127), 1 the private one.  Access control comes after overload resolution ([over.match]/3). -/
def Cont.seq (c : Cont) (a b : Side) : Option Seq :=
  match a, b with
  | .mut, .const => some { via := some 0 }
  | .const, .mut => if c.reverse then some { via := some 1 } else none
  | _, _ => some {}

/-- the classes whose friends are found by argument-dependent lookup: those of the operands -/
def friends (a b : Side) : List Side := if a = b then [a] else [a, b]

/-- the operator (a friend of which of the two classes) that is called for operands of these types -/
def Cont.operator (c : Cont) (a b : Side) : Choice Side :=
  choose (friends a b) fun k => { args := [c.seq a k, c.seq b k] }

/-- may the conversion be used by everyone?  The conversion from `const_iterator` to `iterator` may not. -/
def accessible (a b : Side) : Bool := !(a == .const && b == .mut)

/-- the operators for two iterators -/
inductive BinOp where
  | eq | ne | lt | gt | le | ge | diff
  deriving DecidableEq, Repr

/-- result of an operator -/
inductive Val where
  | bool (b : Bool)
  | int (n : Int)
  deriving DecidableEq, Repr

variable {α : Type}

/-- the body of the chosen friend: array.hpp:130-132, 137-155 -/
def BinOp.body (m : Mem α) : BinOp → It → It → Except Fault Val
  | .eq, x, y => .ok (.bool (Iter.eq x y))
  | .ne, x, y => .ok (.bool (Iter.ne x y))
  | .lt, x, y => (Iter.lt x y).map .bool
  | .gt, x, y => (Iter.gt x y).map .bool
  | .le, x, y => (Iter.le x y).map .bool
  | .ge, x, y => (Iter.ge x y).map .bool
  | .diff, x, y => (Iter.diff m x y).map .int

/-- an operand passed as `const contiguous_iterator<k> &`: converted if it is of the other type -/
def pass (a k : Side) (x : It) : It := if a = k then x else convert x

/-- the expression `x op y`; `none`: it does not compile -/
def BinOp.run (m : Mem α) (o : BinOp) (c : Cont) (a b : Side) (x y : It) : Option (Except Fault Val) :=
  match c.operator (c.ty a) (c.ty b) with
  | .best k =>
    if accessible (c.ty a) k && accessible (c.ty b) k then some (o.body m (pass (c.ty a) k x) (pass (c.ty b) k y)) else none
  | _ => none

/-- what the operators mean for positions `i` and `j` in the same array -/
def BinOp.means : BinOp → Int → Int → Val
  | .eq, i, j => .bool (i = j)
  | .ne, i, j => .bool (i ≠ j)
  | .lt, i, j => .bool (i < j)
  | .gt, i, j => .bool (i > j)
  | .le, i, j => .bool (i ≤ j)
  | .ge, i, j => .bool (i ≥ j)
  | .diff, i, j => .int (i - j)

/-- the operators may be used for iterators of the kinds `a` and `b`, and give what they mean -/
def Mixes (c : Cont) (a b : Side) : Prop :=
  ∀ (α : Type) (m : Mem α) (o : BinOp) (x y : It) (blk len : Nat) (i j : Int), Points m x blk len i → Points m y blk len j →
    o.run m c a b x y = some (.ok (o.means i j))

theorem BinOp.body_ok {m : Mem α} {x y : It} {b len : Nat} {i j : Int} (o : BinOp) (hx : Points m x b len i)
    (hy : Points m y b len j) : o.body m x y = .ok (o.means i j) := by
  obtain ⟨h1, h2, h3, h4, h5, h6⟩ := C56_compare hx hy
  have h7 := (C56_distance hy hx).1
  cases o with
  | diff => rw [BinOp.body, h7]; rfl
  | eq => rw [BinOp.body, h1]; simp only [BinOp.means, Except.ok.injEq, Val.bool.injEq, decide_eq_decide]; omega
  | ne => rw [BinOp.body, h2]; simp only [BinOp.means, Except.ok.injEq, Val.bool.injEq, decide_eq_decide]; omega
  | lt => rw [BinOp.body, h3]; simp only [Except.map, BinOp.means, Except.ok.injEq, Val.bool.injEq, decide_eq_decide]; omega
  | gt => rw [BinOp.body, h4]; simp only [Except.map, BinOp.means, Except.ok.injEq, Val.bool.injEq, decide_eq_decide]; omega
  | le => rw [BinOp.body, h5]; simp only [Except.map, BinOp.means, Except.ok.injEq, Val.bool.injEq, decide_eq_decide]; omega
  | ge => rw [BinOp.body, h6]; simp only [Except.map, BinOp.means, Except.ok.injEq, Val.bool.injEq, decide_eq_decide]; omega

theorem pass_eq (a k : Side) (x : It) : pass a k x = x := by
  unfold pass; split <;> rfl

theorem mixes_of {c : Cont} {a b k : Side} (h : c.operator (c.ty a) (c.ty b) = .best k)
    (ha : accessible (c.ty a) k = true) (hb : accessible (c.ty b) k = true) : Mixes c a b := by
  intro α m o x y blk len i j hx hy
  simp only [BinOp.run, h, ha, hb, Bool.and_self, if_true, pass_eq, o.body_ok hx hy]

/-- an array of one element, to point into -/
def oneElem : Mem Unit := fun k => if k = 0 then some [()] else none

theorem points_one : Points oneElem ⟨.at 0 0⟩ 0 1 0 := ⟨rfl, ⟨[()], rfl, rfl⟩, by decide, by decide⟩

theorem not_mixes {c : Cont} {a b : Side} (h : ∀ k, c.operator (c.ty a) (c.ty b) ≠ .best k) : ¬ Mixes c a b := by
  intro hm
  have := hm Unit oneElem .eq _ _ _ _ _ _ points_one points_one
  unfold BinOp.run at this
  split at this
  · rename_i k hk; exact h k hk
  · cases this

/-- **C83**: two iterators of the same kind can be compared and subtracted, for every container, with the result that
their positions give. -/
theorem C83_same (c : Cont) (a : Side) : Mixes c a a :=
  mixes_of (k := c.ty a) (by cases c <;> cases a <;> decide) (by cases c <;> cases a <;> decide)
    (by cases c <;> cases a <;> decide)

/-- **C83**: so can an iterator and a const iterator, of `array`, `array_ref` and `string_ref`.
Missing: `vector` and `string`, see `C83_refuted`. -/
theorem C83_partial (c : Cont) (hc : c ≠ .vector ∧ c ≠ .string) (a b : Side) : Mixes c a b := by
  refine mixes_of (k := c.ty (if a = b then a else .const)) ?_ ?_ ?_ <;> cases c <;> cases a <;> cases b <;> simp at hc <;> decide

/-- **C83** is false for `vector` and `string`: with the private conversion from `const_iterator` to `iterator` both friends are
viable and neither is better, so that no comparison of the two kinds compiles, in either order, nor does a difference. -/
theorem C83_refuted (c : Cont) (hc : c = .vector ∨ c = .string) {α : Type} (m : Mem α) (o : BinOp) (a b : Side) (hab : a ≠ b)
    (x y : It) : c.operator (c.ty a) (c.ty b) = .ambiguous ∧ o.run m c a b x y = none := by
  have h : c.operator (c.ty a) (c.ty b) = .ambiguous := by
    rcases hc with rfl | rfl <;> cases a <;> cases b <;> first | exact absurd rfl hab | decide
  exact ⟨h, by simp [BinOp.run, h]⟩

/-- **C83**, exactly: two kinds of iterators can be mixed unless they differ and the container converts in both directions. -/
theorem C83_exact (c : Cont) (a b : Side) : Mixes c a b ↔ a = b ∨ c.reverse = false := by
  constructor
  · intro h
    by_cases hab : a = b
    · exact .inl hab
    · refine .inr ?_
      by_cases hc : c = .vector ∨ c = .string
      · exact absurd h (not_mixes fun k hk => by rw [(C83_refuted c hc oneElem .eq a b hab ⟨.null⟩ ⟨.null⟩).1] at hk; cases hk)
      · cases c <;> simp_all [Cont.reverse]
  · rintro (rfl | h)
    · exact C83_same c a
    · exact C83_partial c (by cases c <;> simp_all [Cont.reverse]) a b

-- `cit - it` for the positions 2 and 5 of an array is -3; of a vector it does not compile
example : BinOp.run (fun k => if k = 0 then some (List.range 6) else none) .diff .array .const .mut ⟨.at 0 2⟩ ⟨.at 0 5⟩ =
      some (.ok (.int (-3))) ∧
    BinOp.run (fun k => if k = 0 then some (List.range 6) else none) .diff .vector .const .mut ⟨.at 0 2⟩ ⟨.at 0 5⟩ = none :=
  ⟨rfl, rfl⟩

end Ptl.Iter

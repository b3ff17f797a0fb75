import Verif.Str.Props.Access
import Verif.View.Props

/-!
# C107: strings are written to streams as they are

`operator<<` of `string` (inc/ptl/string.hpp:612-613) and of `string_ref` (inc/ptl/string_ref.hpp:213-214).
-/

namespace Ptl.Text

/-! ### the stream -/

/-- The part of `std::ostream` that insertion uses: whether it is `good()`, the characters written so far, the field width, the fill character and whether
`adjustfield` is `left`; the sink accepts every character. -/
structure OStream where
  good : Bool := true
  out : List UInt8 := []
  width : Nat := 0
  fill : UInt8 := 32
  left : Bool := false

/-- `os << sv` for a `std::string_view` with the characters `bs` ([ostream.formatted.reqmts], [string.view.io]): padded to the field width, which is then
reset; nothing if the stream is not good -/
def OStream.insert (os : OStream) (bs : List UInt8) : OStream :=
  if os.good then
    let pad := List.replicate (os.width - bs.length) os.fill
    { os with out := os.out ++ (if os.left then bs ++ pad else pad ++ bs), width := 0 }
  else os

/-- string.hpp:612-613 `os << static_cast<std::string_view>(self)` -/
def putString (os : OStream) (i : Id) : Str.SM OStream := do
  let v ← Str.viewOf i
  let bs ← v.read v.size
  pure (os.insert bs)

/-- string_ref.hpp:213-214 `os << static_cast<std::string_view>(self)` -/
def putRef (os : OStream) (x : View.Ref) : View.RM UInt8 OStream := do
  let bs ← View.view x
  pure (os.insert bs)

/-! ### what is asked for -/

/-- `w` is a field of the given width for the characters `bs` -/
structure Field (width : Nat) (fill : UInt8) (left : Bool) (bs w : List UInt8) : Prop where
  length : w.length = max width bs.length
  pad : ∃ pad, (∀ c ∈ pad, c = fill) ∧ w = if left then bs ++ pad else pad ++ bs

/-- exactly one field for `bs` was written to a good stream, and nothing to another one -/
def Wrote (os : OStream) (bs : List UInt8) (os' : OStream) : Prop :=
  (os.good = true → ∃ w, Field os.width os.fill os.left bs w ∧ os' = { os with out := os.out ++ w, width := 0 }) ∧
  (os.good = false → os' = os)

theorem insert_wrote (os : OStream) (bs : List UInt8) : Wrote os bs (os.insert bs) := by
  unfold OStream.insert
  constructor
  · intro h
    rw [if_pos h]
    refine ⟨_, ⟨?_, _, fun c hc => (List.mem_replicate.1 hc).2, rfl⟩, rfl⟩
    cases os.left <;> simp <;> omega
  · intro h
    rw [if_neg (by simp [h])]

/-! ## C107 -/

/-- C107 for strings: the stream gets all bytes of the string, zeros included, as one field; no string changes -/
theorem C107_string {s : Str.St} {V : Str.Vars} (h : Str.Reach s V) {i : Nat} {xs : List UInt8} (hi : V i = some xs) (os : OStream) :
    ∃ os', putString os (.var i) s = .ok os' s ∧ Wrote os xs os' := by
  obtain ⟨a, h1, h2, h3⟩ := Str.C61_string_view h hi
  exact ⟨_, (M.bind_ok h1).trans (M.bind_ok h3), insert_wrote os xs⟩

/-- C107 for string_refs: the bytes that are referred to -/
theorem C107_string_ref {s : View.St UInt8} {w : View.Know UInt8} (h : View.Reach s w) {r : Nat} {g : View.Seg} (hr : w.R r = some g) (hg : w.Has g)
    (os : OStream) : ∃ os', (View.load r >>= putRef os) s = .ok os' s ∧ Wrote os (w.text g) os' :=
  ⟨_, (M.bind_ok (View.load_ok (h.inv.at hr))).trans (M.bind_ok (View.view_ok h.inv hg)), insert_wrote os _⟩

/-! ### writing and reading back -/

/-- `for(auto i : is) os << *i << '\n';` -/
def putLines : OStream → List Nat → Str.SM OStream
  | os, [] => pure os
  | os, i :: is => do
    let os ← putString os (.var i)
    putLines (os.insert [10]) is

/-- `for(std::string l; std::getline(is, l);)` the lines `l` that are read from the characters: `cur` is what was read of the current line -/
def getLines (cur : List UInt8) : List UInt8 → List (List UInt8)
  | [] => if cur = [] then [] else [cur]
  | c :: cs => if c = 10 then cur :: getLines [] cs else getLines (cur ++ [c]) cs

theorem getLines_line (xs cur rest : List UInt8) (h : 10 ∉ xs) : getLines cur (xs ++ 10 :: rest) = (cur ++ xs) :: getLines [] rest := by
  induction xs generalizing cur with
  | nil => simp [getLines]
  | cons x xs ih =>
    have hx : x ≠ 10 := fun e => h (by simp [e])
    rw [List.cons_append, getLines, if_neg hx, ih _ (fun e => h (List.mem_cons_of_mem _ e))]
    simp

theorem insert_plain {os : OStream} (hg : os.good = true) (hw : os.width = 0) (bs : List UInt8) : os.insert bs = { os with out := os.out ++ bs } := by
  rcases os with ⟨g, o, w, f, l⟩
  simp only at hg hw
  subst hg hw
  cases l <;> simp [OStream.insert]

/-- C107: strings without line breaks that are written as lines can be read back -/
theorem C107_lines {s : Str.St} {V : Str.Vars} (h : Str.Reach s V) (os : OStream) (hg : os.good = true) (hw : os.width = 0) (is : List Nat)
    (xss : List (List UInt8)) (hi : is.map V = xss.map some) (hn : ∀ xs ∈ xss, 10 ∉ xs) :
    ∃ t os', putLines os is s = .ok os' s ∧ os'.out = os.out ++ t ∧ getLines [] t = xss := by
  induction is generalizing os xss with
  | nil =>
    cases xss with
    | nil => exact ⟨[], os, rfl, by simp, rfl⟩
    | cons => cases hi
  | cons i is ih =>
    cases xss with
    | nil => cases hi
    | cons xs xss =>
      simp only [List.map_cons, List.cons.injEq] at hi
      obtain ⟨os1, h1, hw1⟩ := C107_string h hi.1 os
      have e1 : os1 = os.insert xs := by
        obtain ⟨a, g1, g2, g3⟩ := Str.C61_string_view h hi.1
        have : putString os (.var i) s = .ok (os.insert xs) s := (M.bind_ok g1).trans (M.bind_ok g3)
        rw [h1] at this
        cases this
        rfl
      subst e1
      rw [insert_plain hg hw] at h1
      obtain ⟨t, os', ht, ho, hl⟩ := ih { os with out := os.out ++ xs ++ [10] } hg hw xss hi.2 (fun ys hy => hn ys (List.mem_cons_of_mem _ hy))
      refine ⟨xs ++ 10 :: t, os', ?_, ?_, ?_⟩
      · refine (M.bind_ok h1).trans ?_
        rw [insert_plain (by exact hg) (by exact hw)]
        exact ht
      · rw [ho]; simp
      · rw [getLines_line xs [] t (hn xs (List.mem_cons_self ..)), hl]; rfl

-- the string "abc" of the demo program, in a field of width 5
example : ∃ s os', putString { width := 5, fill := 46 } (.var 0) s = .ok os' s ∧ os'.out = [46, 46, 97, 98, 99] ∧ os'.width = 0 := by
  obtain ⟨s, h, _⟩ := Str.demo
  obtain ⟨a, g1, g2, g3⟩ := Str.C61_string_view h.reach (i := 0) (xs := [97, 98, 99]) rfl
  exact ⟨s, _, (M.bind_ok g1).trans (M.bind_ok g3), by decide, by decide⟩

-- the three bytes of reference 1 of the demo program
example : ∃ s os', (View.load 1 >>= putRef {}) s = .ok os' s ∧ os'.out = [11, 12, 13] := by
  obtain ⟨s, h⟩ := View.demo
  obtain ⟨os', h1, h2, _⟩ := C107_string_ref h (r := 1) (g := .of 0 1 3) rfl ⟨_, rfl, by decide⟩ {}
  obtain ⟨w, hf, e⟩ := h2 rfl
  refine ⟨s, os', h1, ?_⟩
  obtain ⟨pad, _, hp⟩ := hf.pad
  have hl := hf.length
  have hpad : pad = [] := by
    rw [hp] at hl
    simp at hl
    exact hl
  rw [e, hp, hpad]
  rfl

end Ptl.Text

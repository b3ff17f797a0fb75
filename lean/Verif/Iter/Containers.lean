import Verif.Iter.Props
import Verif.View.Props
import Verif.Vector.Hist
import Verif.Vector.Demo
import Verif.Str.Hist
import Verif.Str.Demo

/-!
# C56 for the containers: the iterators of every vector, string, array_ref and string_ref traverse its elements

(`array` is in `Verif/Arr`.)
-/

set_option linter.unusedSectionVars false

namespace Ptl.Iter

open View (Loc Mem)

variable {α : Type}

/-- the iterators of a container with `data() = p` and `size() = n` traverse the values `vs`: forwards, backwards, with
reverse iterators and by index; each element exactly once, in order; and they reach exactly its elements -/
structure Traverses (m : Mem α) (p : View.Ptr) (n : Nat) (vs : List α) : Prop where
  span : Span m p n
  values : (elems p n).map (·.read m) = vs.map .ok
  forward : ∀ fuel, n < fuel → (do let e ← end_ m p n; walk m e fuel (begin_ p)) = .ok (elems p n)
  backward : ∀ fuel, n < fuel → (do let e ← end_ m p n; backWalk m (begin_ p) fuel e) = .ok (elems p n).reverse
  reverse : ∀ fuel, n < fuel → (do let e ← rbegin m p n; rwalk m (rend p) fuel e) = .ok (elems p n).reverse
  index : (do let e ← end_ m p n; indexWalk m (begin_ p) e) = .ok (elems p n)
  distinct : (elems p n).Nodup

theorem elems_nodup (p : View.Ptr) (n : Nat) : (elems p n).Nodup := by
  cases p with
  | null => exact List.nodup_nil
  | «at» b o =>
    refine List.pairwise_map.2 (List.Pairwise.imp ?_ List.nodup_range)
    intro a c hac h
    simp only [Loc.mk.injEq, true_and] at h
    omega

theorem Traverses.mk' {m : Mem α} {p : View.Ptr} {n : Nat} {vs : List α} (h : Span m p n)
    (hv : (elems p n).map (·.read m) = vs.map .ok) : Traverses m p n vs :=
  ⟨h, hv, fun _ hf => C56_traverse h hf, fun _ hf => C56_traverse_back h hf, fun _ hf => C56_traverse_reverse h hf,
    C56_traverse_index h, elems_nodup p n⟩

theorem values_at {m : Mem α} {b o : Nat} {xs ys zs : List α} (h : m b = some (xs ++ ys ++ zs)) (ho : xs.length = o) :
    (elems (.at b o) ys.length).map (·.read m) = ys.map .ok := by
  apply List.ext_getElem?
  intro k
  simp only [elems, List.map_map, List.getElem?_map, Int.toNat_natCast]
  by_cases hk : k < ys.length
  · simp only [List.getElem?_range hk, List.getElem?_eq_getElem hk, Option.map_some, Function.comp_apply, Loc.read, h]
    have : (xs ++ ys ++ zs)[o + k]? = some ys[k] := by
      rw [List.append_assoc, List.getElem?_append_right (by omega), List.getElem?_append_left (by omega),
        show o + k - xs.length = k by omega, List.getElem?_eq_getElem hk]
    rw [this]
  · rw [List.getElem?_eq_none (by simpa using hk), List.getElem?_eq_none (by simpa using hk)]
    rfl

/-! ### vector -/

/-- a pointer of the vector model -/
def vecPtr (p : Ptl.Ptr) : View.Ptr :=
  match p.blk with
  | none => .null
  | some b => .at b p.off

/-- C56, vector: after every history, the iterators of every vector traverse exactly its elements -/
theorem C56_vector {T : Vector.Elem α} {s : Ptl.St α Vector.Storage} {V : Vector.Vars α} (h : Vector.Reach T s V) {i : Nat}
    {xs : List α} (hi : V i = some xs) : ∃ d, Vector.data (.var i) s = .ok d s ∧ Vector.size (.var i) s = .ok xs.length s ∧
      Traverses s.blk (vecPtr d) xs.length (xs.map some) := by
  obtain ⟨hinv, rfl⟩ := h.inv
  obtain ⟨o, ho⟩ := Vector.vars_some hi
  have hs := hinv.shows ho
  refine ⟨_, hs.data, hs.size, ?_⟩
  obtain ⟨_, hg⟩ := hinv.wf.get ho
  rcases hg with ⟨rfl, rfl⟩ | ⟨b, _, hp, hsz, hc, h10, hmax, hb⟩
  · exact Traverses.mk' ⟨Nat.zero_le _, rfl⟩ rfl
  · have hb' : s.blk b = some ([] ++ xs.map some ++ Vector.raw (o.cap - xs.length)) := hb
    have hm : T.maxCapacity ≤ ptrdiffMax := Nat.div_le_self _ _
    have e : vecPtr ⟨o.ptr, 0⟩ = .at b (0 : Nat) := by simp [vecPtr, hp]
    rw [e]
    refine Traverses.mk' ⟨by omega, ?_⟩ ?_
    · exact ⟨by omega, _, hb', by simp; omega⟩
    · have := values_at hb' (o := 0) rfl
      rwa [List.length_map] at this

/-! ### string -/

/-- number of a memory region -/
def regionNo : Str.Base → Nat
  | .heap b => 3 * b
  | .sso (.var n) => 3 * n + 1
  | .sso (.tmp n) => 3 * n + 2

/-- … and back -/
def region (k : Nat) : Str.Base :=
  if k % 3 = 0 then .heap (k / 3) else if k % 3 = 1 then .sso (.var (k / 3)) else .sso (.tmp (k / 3))

theorem region_no (q : Str.Base) : region (regionNo q) = q := by
  match q with
  | .heap b =>
    have h1 : 3 * b % 3 = 0 := by omega
    have h2 : 3 * b / 3 = b := by omega
    simp only [regionNo, region, h1, h2, if_pos]
  | .sso (.var n) =>
    have h1 : (3 * n + 1) % 3 = 1 := by omega
    have h2 : (3 * n + 1) / 3 = n := by omega
    simp only [regionNo, region, h1, h2, if_pos]
    rfl
  | .sso (.tmp n) =>
    have h1 : (3 * n + 2) % 3 = 2 := by omega
    have h2 : (3 * n + 2) / 3 = n := by omega
    simp only [regionNo, region, h1, h2]
    rfl

/-- the memory of the string model -/
def strMem (s : Str.St) : Mem (Option UInt8) := fun k => s.mem (region k)

/-- a pointer of the string model -/
def strPtr (p : Str.Ptr) : View.Ptr :=
  match p.base with
  | none => .null
  | some q => .at (regionNo q) p.off

/-- C56, string: after every history, the iterators of every string – short or long – traverse exactly its characters -/
theorem C56_string {s : Str.St} {V : Str.Vars} (h : Str.Reach s V) {i : Nat} {xs : List UInt8} (hi : V i = some xs) :
    ∃ d, Str.data (.var i) s = .ok d s ∧ Str.size (.var i) s = .ok xs.length s ∧
      Traverses (strMem s) (strPtr d) xs.length (xs.map some) := by
  obtain ⟨hinv, rfl⟩ := h.inv
  obtain ⟨v, t, hv, hh⟩ := Str.vars_some hinv hi
  have hs := hinv.shows hv hh
  refine ⟨_, hs.data, hs.size, ?_⟩
  obtain ⟨h1, rest, hb⟩ := hh
  have hm : strMem s (regionNo v.base) = some ([] ++ xs.map some ++ some t :: rest) := by
    rw [strMem, region_no, hinv.wf.mem hv, hb]; rfl
  have e : strPtr ⟨some v.base, 0⟩ = .at (regionNo v.base) (0 : Nat) := rfl
  rw [e]
  have hc := hinv.wf.lt hv
  have hz := (hinv.wf.gd hv).siz
  refine Traverses.mk' ⟨by omega, ?_⟩ ?_
  · exact ⟨by omega, _, hm, by simp; omega⟩
  · have := values_at hm (o := 0) rfl
    rwa [List.length_map] at this

/-! ### array_ref, string_ref -/

/-- C56, array_ref and string_ref: after every history, the iterators of every reference traverse exactly the elements it
refers to -/
theorem C56_view {s : View.St α} {w : View.Know α} (h : View.Reach s w) {r : Nat} {g : View.Seg} (hr : w.R r = some g) (hg : w.Has g) :
    ∃ x p, View.load r s = .ok x s ∧ View.data x s = .ok p s ∧ View.size x s = .ok g.len s ∧
      Traverses s.mem p g.len (w.text g) := by
  have hinv := h.inv
  refine ⟨View.rep g, (View.rep g).first, View.load_ok (hinv.at hr), rfl, View.size_ok hinv hg, ?_⟩
  cases g with
  | nil => exact Traverses.mk' ⟨Nat.zero_le _, rfl⟩ rfl
  | of b o n =>
    obtain ⟨xs, hb, hl⟩ := hg
    have hx := hinv.bound b xs hb
    rw [← hinv.mem] at hb
    have hs : xs = xs.take o ++ (xs.drop o).take n ++ (xs.drop o).drop n := by
      rw [List.append_assoc, List.take_append_drop, List.take_append_drop]
    have ht : w.text (.of b o n) = (xs.drop o).take n := by
      simp only [View.Know.text, ← hinv.mem, hb]
    have hn : ((xs.drop o).take n).length = n := by simp; omega
    refine Traverses.mk' ⟨by simp only [View.Seg.len]; omega, ?_⟩ ?_
    · exact ⟨by omega, xs, hb, by simp only [View.Seg.len]; omega⟩
    · have := values_at (m := s.mem) (b := b) (o := o) (xs := xs.take o) (ys := (xs.drop o).take n) (zs := (xs.drop o).drop n)
        (by rw [hb, ← hs]) (by simp; omega)
      rw [hn] at this
      rw [ht]
      exact this

/-! ### instances -/

example : ∃ s d, Vector.Reach Vector.natElem s Vector.demoV ∧ Vector.data (.var 0) s = .ok d s ∧
    Traverses s.blk (vecPtr d) 3 [some 1, some 2, some 3] := by
  obtain ⟨s, h, _⟩ := Vector.demo
  obtain ⟨d, h1, _, h2⟩ := C56_vector h (i := 0) (xs := [1, 2, 3]) rfl
  exact ⟨s, d, h, h1, h2⟩

/-- an iterator in the middle of an array of five -/
def five : Mem Nat := fun b => if b = 0 then some [10, 11, 12, 13, 14] else none

example : Points five ⟨.at 0 2⟩ 0 5 2 := ⟨rfl, ⟨_, rfl, rfl⟩, by decide, by decide⟩
example : add five ⟨.at 0 2⟩ 3 = .ok ⟨.at 0 5⟩ ∧ add five ⟨.at 0 2⟩ (-2) = .ok ⟨.at 0 0⟩ ∧
    add five ⟨.at 0 2⟩ 4 = .error .outOfBounds ∧ sub five ⟨.at 0 2⟩ 3 = .error .outOfBounds := ⟨rfl, rfl, rfl, rfl⟩
example : Span five (.at 0 1) 3 := ⟨by decide, by decide, _, rfl, by decide⟩
example : elems (.at 0 1) 3 = [⟨0, 1⟩, ⟨0, 2⟩, ⟨0, 3⟩] := rfl
example : (do let e ← end_ five (.at 0 1) 3; walk five e 4 (begin_ (.at 0 1))) = .ok [⟨0, 1⟩, ⟨0, 2⟩, ⟨0, 3⟩] := rfl
example : (do let e ← rbegin five (.at 0 1) 3; rwalk five (rend (.at 0 1)) 4 e) = .ok [⟨0, 3⟩, ⟨0, 2⟩, ⟨0, 1⟩] := rfl

end Ptl.Iter

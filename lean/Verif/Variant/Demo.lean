import Verif.Variant.Hist
import Verif.Ops

/-! # A concrete program, used to show that the theorems speak about something -/

namespace Ptl.Variant

/-- three alternatives -/
inductive Ty where
  | int | str | lst
  deriving DecidableEq, Repr

/-- a type that is not an alternative is `lst` here -/
def demoTs : List Ty := [.int, .str]

/-- values are numbers; a moved-from `int` keeps its value, a moved-from `str` becomes `0` -/
def demoE : Elem Ty Nat where
  dflt _ := 0
  braced _ x := x
  moveThrows _ := false
  moved T x := if T = .int then x else 0
  cmp c _ := natCmp c

theorem demoE_plain : demoE.Plain := ⟨fun _ _ => rfl, fun _ => rfl⟩

theorem demo_alts : Alts demoTs := ⟨by decide, by decide, by decide⟩

/-- variable 0 holds the `int` 7, variable 1 the `str` 5 -/
def demoV : Vars Ty Nat := upd (upd (fun _ => none) 0 (some (.int, 7))) 1 (some (.str, 5))

/-- the program `variant<int, str> v0{7}, v1{std::in_place_type<str>, 5};` -/
theorem demo : ∃ s, Reach demoE demoTs s demoV ∧ ∀ k, s.orc k = false := by
  obtain ⟨s1, _, h1, o1⟩ := (Reach.start (E := demoE) (ts := demoTs) fun _ => false).next demoE_plain demo_alts
    (Spec.ctorValue (i := 0) (T := .int) rfl (by decide) (.thr 7)) (fun _ => rfl)
  obtain ⟨s2, _, h2, o2⟩ := h1.next demoE_plain demo_alts
    (Spec.ctorIndex (i := 1) (k := 1) (T := .str) rfl rfl (.val 5)) o1
  exact ⟨s2, h2, o2⟩

end Ptl.Variant

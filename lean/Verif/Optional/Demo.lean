import Verif.Optional.Hist
import Verif.Ops

/-! # A concrete program, used to show that the theorems speak about something -/

namespace Ptl.Optional

/-- values are numbers; the various wrecks are numbers above 900 -/
def demoE : Elem Nat where
  braced x := x
  moveThrows := false
  moved _ := 901
  movedAssign _ := 902
  selfMove _ := 903
  torn _ _ := 904
  cmp := natCmp

theorem demoE_plain : demoE.Plain := ⟨fun _ => rfl, rfl⟩

/-- optional 0 holds 7, optional 1 is empty, optional 2 holds 5 -/
def demoV : Vars Nat := upd (upd (upd (fun _ => none) 0 (some (some 7))) 1 (some none)) 2 (some (some 5))

/-- the program `optional<T> o0{std::in_place, 7}, o1, o2{std::in_place, 5};`, in a world where the first fallible
operation succeeds and what happens to the others is left open (`orc`) -/
theorem demo (orc : Nat → Bool) (h0 : orc 0 = false) :
    ∃ s, Reach demoE s demoV ∧ s.orc = orc ∧ s.tick = 1 := by
  have h1 : Op.run demoE (.ctorInPlace 0 (.thr 7)) (start Nat orc) =
      .ok () { obj := upd (fun _ => none) 0 (some ⟨some 7, true⟩), born := upd (fun _ => 0) 0 1, orc := orc, tick := 1 } := by
    show Optional.construct 0 true _ _ = _
    unfold construct
    rw [M.bind_ok (newObj_ok rfl)]
    refine M.onExc_ok ?_
    have he : (Args.thr 7).eval { start Nat orc with obj := upd (start Nat orc).obj 0 (some ⟨none, true⟩) } =
        .ok 7 { obj := upd (fun _ => none) 0 (some ⟨none, true⟩), born := fun _ => 0, orc := orc, tick := 1 } := by
      show M.bind _ _ _ = _
      unfold M.bind
      simp [fallible, start, h0]
    rw [M.bind_ok he, placeVal_ok (b := true) (by simp)]
    simp
  have r1 := Reach.ok (.start orc) (Spec.ctorInPlace (E := demoE) (i := 0) rfl (.thr 7)) h1
  have r2 := Reach.ok (op := .ctorNull 1) r1 (Spec.ctorNull rfl) (M.bind_ok (newObj_ok rfl))
  have r3 := Reach.ok (op := .ctorInPlace 2 (.val 5)) r2 (Spec.ctorInPlace rfl (.val 5))
    rfl
  exact ⟨_, r3, rfl, rfl⟩

end Ptl.Optional

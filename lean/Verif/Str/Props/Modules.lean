import Verif.Str.Props.Values

/-!
# C88: memory goes back to the module it came from (string)

See Verif/Vector/Props/Modules.lean: `modOf b` is the module that allocated block `b`, an arbitrary function.
-/

namespace Ptl.Str

variable {s s' : St} {V V' : Vars} {op : Op} {r : Option Nat}

/-- the module an address belongs to, if it is that of a heap buffer -/
def Ptr.module (modOf : Nat → Nat) (p : Ptr) : Option Nat :=
  match p.base with
  | some (.heap b) => some (modOf b)
  | _ => none

/-- C88: after every history, whichever modules made the calls, a string on the heap holds the deallocation function of the
module that allocated its buffer, and a string in its internal buffer holds none. -/
theorem C88_string (h : Reach s V) (modOf : Nat → Nat) {i : Nat} {d : Ptr} {c : Nat} {xs : List UInt8} {t : UInt8}
    (hsh : Shows s i d c xs t) :
    ∃ o, s.obj (.var i) = some o ∧ o.dealloc.map modOf = Ptr.module modOf d ∧
      ∀ b, o.dealloc = some b ↔ d = ⟨some (.heap b), 0⟩ := by
  obtain ⟨hinv, rfl⟩ := h.inv
  obtain ⟨v, hv, rfl, rfl, _⟩ := hinv.of_shows hsh
  rcases hinv.wf.cases hv with ⟨ho, hb, _⟩ | ⟨b, ho, hb, _⟩
  · refine ⟨_, ho, by simp [Ptr.module, hb], fun b => ?_⟩
    rw [hb]
    exact ⟨fun h => (by cases h), fun h => (by cases h)⟩
  · refine ⟨_, ho, by simp [Ptr.module, hb], fun b' => ?_⟩
    rw [hb]
    exact ⟨fun h => (by cases h; rfl), fun h => (by cases h; rfl)⟩

/-- C88: no call along any history hands a block to another function than the one that was stored when the block was
allocated. -/
theorem C88_string_release (h : Reach s V) (hs : Spec (Big s) op V V' r) : op.run s ≠ .ub .wrongDealloc :=
  C17_no_undefined_behaviour h hs _

/-- The model tells: calling the function stored for another block is an error. -/
theorem C88_string_model (s : St) {d b : Nat} {l : List (Option UInt8)} (hb : s.mem (.heap b) = some l) (hd : d ≠ b) :
    deleteChar d b s = .ub .wrongDealloc := by
  simp [deleteChar, hb, hd]

-- a string in its internal buffer and one on the heap trade places; the function goes with the heap buffer
example : ∃ s s1 V c b t u, Reach s V ∧ Shows s 0 ⟨some (.sso (.var 0)), 0⟩ 22 abc t ∧
    Shows s 1 ⟨some (.heap b), 0⟩ c thirty u ∧ (∃ o, s.obj (.var 0) = some o ∧ o.dealloc = none) ∧
    (Op.swap 0 1).run s = .ok none s1 ∧ (∃ o, s1.obj (.var 0) = some o ∧ o.dealloc = some b) ∧
    (∃ o, s1.obj (.var 1) = some o ∧ o.dealloc = none) := by
  obtain ⟨s0, h0, _⟩ := demo
  obtain ⟨d, c0, t, sh⟩ := h0.reach.shows (i := 0) (xs := abc) rfl
  obtain ⟨s, hr, _, _, hs, _⟩ := C22_shrink_to_fit h0.reach sh
  have h : Reach s demoV := h0.reach.ok (.shrinkToFit (i := 0) rfl) hr
  obtain ⟨sh0, _⟩ := hs (by decide)
  obtain ⟨d', c, u, sh1⟩ := h.shows (i := 1) (xs := thirty) rfl
  rcases C17_representation h sh1 with ⟨_, _, hl⟩ | ⟨b, rfl, hc⟩
  · exact absurd hl (by decide)
  obtain ⟨s1, hr1, w0, w1, _⟩ := C21_swap h (by decide) sh0 sh1
  have h1 := h.ok (Spec.swap (i := 0) (j := 1) rfl rfl) hr1
  have e : swappedAddress 0 ⟨some (.heap b), 0⟩ c = ⟨some (.heap b), 0⟩ := by simp [swappedAddress]; omega
  have e' : swappedAddress 1 ⟨some (.sso (.var 0)), 0⟩ 22 = ⟨some (.sso (.var 1)), 0⟩ := by simp [swappedAddress]
  rw [e] at w0
  rw [e'] at w1
  obtain ⟨o, ho, hm, _⟩ := C88_string h id sh0
  obtain ⟨p, hp, _, hm1⟩ := C88_string h1 id w0
  obtain ⟨q, hq, hm2, _⟩ := C88_string h1 id w1
  exact ⟨s, s1, _, c, b, t, u, h, sh0, sh1, ⟨o, ho, by simpa [Ptr.module] using hm⟩, hr1, ⟨p, hp, (hm1 b).2 rfl⟩,
    ⟨q, hq, by simpa [Ptr.module] using hm2⟩⟩

end Ptl.Str

import Verif.Overload.Best
import Verif.Optional.Props.History
import Verif.Variant.Props.History
import Verif.Vector.Props.Capacity
import Verif.Vector.Props.History
import Verif.Str.Props.Values

/-!
# C85: `x = {}`

Which assignment operator a braced list without elements selects, and what it does.  `j` is the name of the temporary that
the conversion makes, an object that the program does not have otherwise (`V j = none`).
-/

namespace Ptl.Optional

open Overload

/-- how an object of the type held is initialised by `{}`: not a class (identity conversion, [over.ics.list]/10); a class that
can be (user-defined conversion, [over.ics.list]/7-8); a class that cannot: no default constructor, no constructor from
`std::initializer_list`, not an aggregate -/
inductive Init where
  | scalar | cls | impossible
  deriving DecidableEq, Repr

/-- the assignment operators of `optional`: optional.hpp:51-54, 57-63, 65-71, 74-81, 83-90 -/
inductive AssignFn where
  | null | copy | move | value | valueMove
  deriving DecidableEq, Repr

/-- `{}` as argument of each: `std::nullopt_t` has no default constructor; `optional` has one (constructor 0, optional.hpp:32);
for the type held it is constructor 1 -/
def AssignFn.cand (h : Init) (f : AssignFn) : Cand :=
  let held : Option Seq := match h with
    | .scalar => some {}
    | .cls => some { via := some 1 }
    | .impossible => none
  { args := [match f with
    | .null => none
    | .copy => some { via := some 0 }
    | .move => some { via := some 0, rref := true }
    | .value => held
    | .valueMove => held.map fun q => { q with rref := true }] }

/-- the operator that `o = {}` calls -/
def assignFn (h : Init) : Choice AssignFn := choose [.null, .copy, .move, .value, .valueMove] (AssignFn.cand h)

variable {α : Type}

/-- `i = {}`; `none`: it does not compile.  `zero` is `Type{}`, `j` the temporary. -/
def assignBraces (E : Elem α) (h : Init) (zero : α) (i j : Nat) : Option (OM α Unit) :=
  match assignFn h with
  | .best .null => some (assignNull i)
  | .best .copy => some do ctorNull j; assignCopy E i j; dtor j
  | .best .move => some do ctorNull j; assignMove E i j; dtor j
  | .best .value => some (assignFrom E i (.ext zero))
  | .best .valueMove => some (assignFromMove E i (.ext zero))
  | _ => none

/-- `o = {}` compiles for a type held that is initialised like `h`, and leaves `o` empty, as if default-constructed; the others
are as they were -/
def BracesEmpty (E : Elem α) (h : Init) (zero : α) : Prop :=
  ∀ (s : St α) (V : Vars α) (i j : Nat) (o : Option α), Reach E s V → V i = some o → V j = none →
    ∃ p s', assignBraces E h zero i j = some p ∧ p s = .ok () s' ∧ Reach E s' (upd V i (some none)) ∧
      Agrees s' (upd V i (some none))

/-- **C85** for `optional` of a class that `{}` cannot initialise.
Missing: all other types, see `C85_optional_refuted`. -/
theorem C85_optional_partial {E : Elem α} (hE : E.Plain) (zero : α) : BracesEmpty E .impossible zero := by
  intro s V i j o h hi hj
  have hij : i ≠ j := by rintro rfl; rw [hi] at hj; cases hj
  obtain ⟨s1, r1, h1, _⟩ := C47_nothrow hE h (.ctorNull hj) (op := .ctorNull j) trivial
  obtain ⟨s2, r2, h2, _⟩ := C47_nothrow hE h1 (.assignMove (o := o) (o' := none) hij (by rw [upd_ne _ _ hij]; exact hi) (upd_same _ _ _))
    (op := .assignMove i j) trivial
  obtain ⟨s3, r3, h3, _⟩ := C47_nothrow hE h2 (.dtor (o := none) (by rw [upd_ne _ _ hij.symm, upd_same]; rfl)) (op := .dtor j) trivial
  have e : upd (upd (upd (upd V j (some none)) j (some (Option.map (if o.isSome then E.movedAssign else E.moved) none))) i (some none)) j none =
      upd V i (some none) := by
    funext k
    by_cases hk : k = j
    · subst hk; rw [upd_same, upd_ne _ _ hij.symm, hj]
    · by_cases hki : k = i
      · subst hki; rw [upd_ne _ _ hk, upd_same, upd_same]
      · simp [upd_ne, hk, hki]
  rw [e] at h3
  refine ⟨_, s3, rfl, ?_, h3, h3.agrees hE⟩
  exact (M.bind_ok r1).trans ((M.bind_ok r2).trans r3)

/-- **C85** is false for `optional` of any other type.  If it is not a class, `o = {}` stores a zero, whatever `o` was; for a
class with a default constructor it does not compile. -/
theorem C85_optional_refuted {E : Elem α} (hE : E.Plain) (zero : α) {s : St α} {V : Vars α} {i : Nat} {o : Option α}
    (h : Reach E s V) (hi : V i = some o) (j : Nat) :
    (∃ p s', assignBraces E .scalar zero i j = some p ∧ p s = .ok () s' ∧ Shows s' i (some zero)) ∧
    assignFn .cls = .ambiguous ∧ assignBraces E .cls zero i j = none := by
  refine ⟨?_, by decide, rfl⟩
  obtain ⟨s1, r1, h1, a1⟩ := C47_nothrow hE h (.assignFromMove (x := .ext zero) hi rfl) (op := .assignFromMove i (.ext zero)) trivial
  exact ⟨_, s1, rfl, r1, (a1 i).1 _ (upd_same _ _ _)⟩

/-- **C85** for `optional`, exactly -/
theorem C85_optional_exact {E : Elem α} (hE : E.Plain) (zero : α) (h : Init) : BracesEmpty E h zero ↔ h = .impossible := by
  refine ⟨fun hb => ?_, fun e => e ▸ C85_optional_partial hE zero⟩
  obtain ⟨s, _, hr, _⟩ := C47_nothrow hE (.start fun _ => false) (.ctorNull (i := 0) rfl) (op := .ctorNull 0) trivial
  obtain ⟨⟨p, s1, hp, hs1, hsh⟩, _, hn⟩ := C85_optional_refuted hE zero hr (upd_same _ _ _) 1
  obtain ⟨p', s2, hp', hs2, _, ha⟩ := hb s _ 0 1 none hr (upd_same _ _ _) rfl
  cases h with
  | impossible => rfl
  | cls => rw [hn] at hp'; cases hp'
  | scalar =>
    rw [hp] at hp'; cases hp'
    rw [hs1] at hs2; cases hs2
    cases (ha 0).1 none (upd_same _ _ _) with
    | empty h1 _ => cases hsh with
      | full h2 _ _ _ => rw [h1] at h2; cases h2

-- an optional with the value 7: `= {}` leaves the value 0 if the type is `int`
example : ∃ s p s', Reach demoE s demoV ∧ Shows s 0 (some 7) ∧ assignBraces demoE .scalar 0 0 3 = some p ∧ p s = .ok () s' ∧
    Shows s' 0 (some 0) := by
  obtain ⟨s, h, _⟩ := demo (fun _ => false) rfl
  obtain ⟨⟨p, s', h1, h2, h3⟩, _⟩ := C85_optional_refuted demoE_plain 0 h (i := 0) (o := some 7) rfl 3
  exact ⟨s, p, s', h, (C46_contents demoE_plain h 0).1 _ rfl, h1, h2, h3⟩

end Ptl.Optional

namespace Ptl.Variant

open Overload

/-- the assignment operators of `variant`: variant.hpp:223-231, 232-239, 241-246 -/
inductive AssignFn where
  | copy | move | value
  deriving DecidableEq, Repr

/-- the operator that `v = {}` calls: nothing can be deduced for the template; constructor 0 is variant.hpp:203-205 -/
def assignFn : Choice AssignFn :=
  choose [.copy, .move, .value] fun f =>
    { args := [match f with
      | .copy => some { via := some 0 }
      | .move => some { via := some 0, rref := true }
      | .value => none]
      template := f == .value }

variable {τ ν : Type} [DecidableEq τ]

/-- `i = {}`, with temporary `j`; a braced list is no value of an alternative -/
def assignBraces (E : Elem τ ν) (ts : List τ) (i j : Nat) : Option (VM ν Unit) :=
  match assignFn with
  | .best .copy => some do ctorDefault E ts (.var j); assignCopy E ts (.var i) (.var j); dtor ts (.var j)
  | .best .move => some do ctorDefault E ts (.var j); assignMove E ts (.var i) (.var j); dtor ts (.var j)
  | _ => none

/-- **C85** for `variant`: `v = {}` leaves the default value of the first alternative; if its constructor throws, everything is as
before. -/
theorem C85_variant {E : Elem τ ν} {ts : List τ} (hE : E.Plain) (ha : Alts ts) {s : St ν} {V : Vars τ ν} (h : Reach E ts s V)
    {i j : Nat} {T H : τ} {x : ν} {rest : List τ} (hi : V i = some (T, x)) (hj : V j = none) (ht : ts = H :: rest) :
    ∃ p, assignBraces E ts i j = some p ∧
      match p s with
      | .ok _ s' => Agrees ts s' (upd V i (some (H, E.dflt H)))
      | .exc _ s' => Agrees ts s' V
      | _ => False := by
  have hij : i ≠ j := by rintro rfl; rw [hi] at hj; cases hj
  refine ⟨_, rfl, ?_⟩
  have hs1 : Spec E ts (.ctorDefault j) V _ := .ctorDefault hj ht
  have c1 := h.call hE ha hs1
  cases r1 : (Op.ctorDefault j).run E ts s with
  | ub => rw [r1] at c1; exact c1.elim
  | term => rw [r1] at c1; exact c1.elim
  | exc e s1 =>
    rw [r1] at c1
    have : ∀ f : Unit → VM ν Unit, M.bind (ctorDefault E ts (.var j)) f s = .exc e s1 := fun f => by
      unfold M.bind; rw [show ctorDefault E ts (.var j) s = _ from r1]
    rw [show (do ctorDefault E ts (.var j); assignMove E ts (.var i) (.var j); dtor ts (.var j) : VM ν Unit) s = .exc e s1 from this _]
    exact c1.agrees hE ha
  | ok u s1 =>
    rw [r1] at c1
    have hn : ∀ (m : VM ν Unit) (s : St ν) (e : Exc) (s' : St ν), M.noexcept m s ≠ .exc e s' := by
      intro m s e s' h
      unfold M.noexcept at h
      cases hm : m s <;> rw [hm] at h <;> cases h
    have hs2 : Spec E ts (.assignMove i j) (upd V j (some (H, E.dflt H))) _ :=
      .assignMove (by rw [upd_ne _ _ hij]; exact hi) (upd_same _ _ _) hij
    have c2 := c1.call hE ha hs2
    cases r2 : (Op.assignMove i j).run E ts s1 with
    | ub => rw [r2] at c2; exact c2.elim
    | term => rw [r2] at c2; exact c2.elim
    | exc e s2 => exact absurd r2 (hn _ _ _ _)
    | ok u s2 =>
      rw [r2] at c2
      have hs3 : Spec E ts (.dtor j) (upd (upd (upd V j (some (H, E.dflt H))) i (some (H, E.dflt H))) j (some (H, E.moved H (E.dflt H)))) _ :=
        .dtor (upd_same _ _ _)
      have c3 := c2.call hE ha hs3
      cases r3 : (Op.dtor j).run E ts s2 with
      | ub => rw [r3] at c3; exact c3.elim
      | term => rw [r3] at c3; exact c3.elim
      | exc e s3 => exact absurd r3 (hn _ _ _ _)
      | ok u s3 =>
        rw [r3] at c3
        have e3 : upd (upd (upd (upd V j (some (H, E.dflt H))) i (some (H, E.dflt H))) j (some (H, E.moved H (E.dflt H)))) j none =
            upd V i (some (H, E.dflt H)) := by
          funext k
          by_cases hk : k = j
          · subst hk; rw [upd_same, upd_ne _ _ hij.symm, hj]
          · by_cases hki : k = i
            · subst hki; rw [upd_ne _ _ hk, upd_ne _ _ hk, upd_same, upd_same]
            · simp [upd_ne, hk, hki]
        rw [e3] at c3
        rw [show (do ctorDefault E ts (.var j); assignMove E ts (.var i) (.var j); dtor ts (.var j) : VM ν Unit) s = .ok () s3 from
          (M.bind_ok r1).trans ((M.bind_ok r2).trans r3)]
        exact c3.agrees hE ha

-- a variant that holds a string: `= {}` leaves the default value of the first alternative
example : ∃ s p s', Reach demoE demoTs s demoV ∧ Shows demoTs s 1 .str 5 ∧ assignBraces demoE demoTs 1 2 = some p ∧ p s = .ok () s' ∧
    Shows demoTs s' 1 .int (demoE.dflt .int) := by
  obtain ⟨s, h, ho⟩ := demo
  obtain ⟨p, hp, hq⟩ := C85_variant demoE_plain demo_alts h (i := 1) (j := 2) rfl rfl rfl
  obtain ⟨s1, r1, h1, o1⟩ := h.next demoE_plain demo_alts (Spec.ctorDefault (i := 2) rfl rfl) ho
  obtain ⟨s2, r2, h2, o2⟩ := h1.next demoE_plain demo_alts (Spec.assignMove (i := 1) (j := 2) rfl rfl (by decide)) o1
  obtain ⟨s3, r3, h3, _⟩ := h2.next demoE_plain demo_alts (Spec.dtor (i := 2) rfl) o2
  cases hp
  have hr : (do ctorDefault demoE demoTs (.var 2); assignMove demoE demoTs (.var 1) (.var 2); dtor demoTs (.var 2) : VM Nat Unit) s =
      .ok () s3 := (M.bind_ok r1).trans ((M.bind_ok r2).trans r3)
  rw [hr] at hq
  exact ⟨s, _, s3, h, ((C39_contents demoE_plain demo_alts h 1).1 _ _ rfl).2, rfl, hr, ((hq 1).1 _ _ rfl).2⟩

end Ptl.Variant

namespace Ptl.Vector

open Overload

/-- the assignment operators of `vector` and `string`: vector.hpp:250-253, 254, 267-270; string.hpp:301-304, 305, 326-329,
330-333 (`string` only, from `std::string_view`) -/
inductive AssignFn where
  | copy | move | ilist | view
  deriving DecidableEq, Repr

/-- the operator that `v = {}` calls: `std::initializer_list` is initialised by the identity conversion ([over.ics.list]/6) -/
def AssignFn.cand (f : AssignFn) : Cand := { args := [match f with
    | .copy => some { via := some 0 }
    | .move => some { via := some 0, rref := true }
    | .ilist => some { list := true }
    | .view => some { via := some 1 }] }

/-- for vectors -/
def assignFn : Choice AssignFn := choose [.copy, .move, .ilist] AssignFn.cand

variable {α : Type} {T : Elem α} {s s' : St α Storage} {V : Vars α}

/-- the call made for `i = {}`, if it needs no temporary -/
def assignBraces (i : Nat) : Option (Op α) :=
  match assignFn with
  | .best .ilist => some (.assignRange i (.refs []))
  | _ => none

theorem assign_nothing (h : Reach T s V) {i : Nat} {xs : List α} (hi : V i = some xs) :
    (Op.assignRange i (.refs [])).run T s = (Op.clear i).run T s := by
  obtain ⟨hinv, rfl⟩ := h.inv
  obtain ⟨o, habs⟩ := vars_some hi
  obtain ⟨ho, hg⟩ := hinv.wf.get habs
  have hsz : szAdd o.siz 0 ≤ o.cap := by
    have := hg.siz_le
    have hm := szMod_big
    have hp : ptrdiffMax = 9223372036854775807 := rfl
    have hz : szMod = 18446744073709551616 := rfl
    rw [szAdd_eq (by omega)]
    omega
  have e : assignRange T (.var i) [] s = (do destroyN (α := α) ⟨o.ptr, 0⟩ o.siz; setSize (.var i) 0 : VM α Unit) s := by
    unfold assignRange assignImpl
    rw [M.bind_ok (size_ok ho), M.bind_ok (capacity_ok ho)]
    rw [if_pos (show szAdd o.siz ([] : List (Arg α)).length ≤ o.cap from hsz), M.bind_ok (data_ok ho)]
    refine (M.bind_ok rfl).trans (M.bind_ok (a := ()) ?_)
    cases hp : o.ptr with
    | none =>
      obtain ⟨rfl, rfl⟩ := hg.null hp
      exact rotate_null _
    | some b =>
      obtain ⟨_, hs, _, _, _, hb⟩ := hg.own hp
      have := rotate_ok (s := s) (b := b) (f := 0) (m := o.siz) (l := o.siz) [] (raw (o.cap - xs.length)) xs []
        (by simpa [lv] using hb) rfl (by simp [hs]) (by simp [hs])
      rw [upd_eq _ _ _ (by simpa [lv] using hb)] at this
      simpa [Ptr.add] using this
  obtain ⟨s', hr, _⟩ := clear_spec hinv.wf habs
  have hc : clear (.var i) s = M.noexcept (do destroyN (α := α) ⟨o.ptr, 0⟩ o.siz; setSize (.var i) 0 : VM α Unit) s := by
    unfold clear M.noexcept
    rw [M.bind_ok (data_ok ho), M.bind_ok (size_ok ho)]
  rw [hc] at hr
  have e' : assignRange T (.var i) [] s = clear (.var i) s := by
    rw [hc, e]
    unfold M.noexcept at hr ⊢
    cases h : (do destroyN (α := α) ⟨o.ptr, 0⟩ o.siz; setSize (.var i) 0 : VM α Unit) s <;> rw [h] at hr <;> simp at hr ⊢
  exact M.bind_congr (f := fun _ => pure none) e'

/-- **C85** for `vector`: `v = {}` removes all elements, without allocation, and never throws. -/
theorem C85_vector (h : Reach T s V) {i : Nat} {d : Ptr} {c : Nat} {xs : List α} (hsh : Shows s i d c xs) :
    ∃ op s', assignBraces i = some op ∧ op.run T s = .ok none s' ∧ Shows s' i d c [] ∧ s'.nblk = s.nblk ∧ Agrees s' (upd V i (some [])) := by
  have hi := h.of_shows hsh
  have hs : Spec T (.clear i) V _ none := .clear hi
  obtain ⟨s', ys, h1, h2, h3, h4, _⟩ := C06_shrink_in_place h hs .clear hsh
  rw [upd_same] at h2; cases h2
  exact ⟨_, s', rfl, (assign_nothing h hi).trans h1, h3, h4, (h.ok hs h1).agrees⟩

-- a vector of three elements
example : ∃ s d c op s', Reach natElem s demoV ∧ Shows s 0 d c [1, 2, 3] ∧ assignBraces 0 = some op ∧ op.run natElem s = .ok none s' ∧
    Shows s' 0 d c [] := by
  obtain ⟨s, h, _⟩ := demo
  obtain ⟨d, c, hsh⟩ := h.shows (i := 0) (xs := [1, 2, 3]) rfl
  obtain ⟨op, s', h1, h2, h3, _⟩ := C85_vector h hsh
  exact ⟨s, d, c, op, s', h, hsh, h1, h2, h3⟩

end Ptl.Vector

namespace Ptl.Str

open Overload

/-- the operator that `s = {}` calls -/
def assignFn : Choice Vector.AssignFn := choose [.copy, .move, .ilist, .view] Vector.AssignFn.cand

/-- the call made for `i = {}`, if it needs no temporary -/
def assignBraces (i : Nat) : Option Op :=
  match assignFn with
  | .best .ilist => some (.assignIlist i [])
  | .best .view => some (.assignRange i [])
  | _ => none

/-- **C85** for `string`: `s = {}` makes it empty, and never throws. -/
theorem C85_string {s : St} {V : Vars} (h : Reach s V) {i : Nat} {xs : List UInt8} (hi : V i = some xs) :
    ∃ op s' d c t, assignBraces i = some op ∧ op.run s = .ok none s' ∧ Shows s' i d c [] t ∧
      ∀ j, j ≠ i → ∀ d c xs t, Shows s j d c xs t → Shows s' j d c xs t := by
  have := does h (.assignIlist (bs := []) hi) (fun _ h => h) (by intro _ _ h; cases h) (by intro _ _ h; cases h)
    (by intro b h; cases h)
  rcases this with ⟨s', h1, ⟨d, c, t, h2⟩, h3⟩ | ⟨_, _, _, _, h, _⟩
  · exact ⟨_, s', d, c, t, rfl, h1, h2, h3⟩
  · exact absurd h (by decide)

-- a string on the heap
example : ∃ s op s' d c t, Reach s demoV ∧ assignBraces 1 = some op ∧ op.run s = .ok none s' ∧ Shows s' 1 d c [] t := by
  obtain ⟨s, h, _⟩ := demo
  obtain ⟨op, s', d, c, t, h1, h2, h3, _⟩ := C85_string h.reach (i := 1) (xs := thirty) rfl
  exact ⟨s, op, s', d, c, t, h.reach, h1, h2, h3⟩

end Ptl.Str

import Verif.Client
import Verif.Progress
import Verif.Str.Props.Buffer

/-!
# C115: strings with equal contents cannot be told apart, unless they are moved from

A short string is in the internal buffer or, after `reserve` or after having been longer, on the heap.
-/

namespace Ptl.Str
open Client

variable {s1 s2 : St} {V V' : Vars} {op : Op} {r : Option Nat}

/-- the client reads a live string -/
def Alive (V : Vars) (i : Nat) (xs : List UInt8) : Prop := V i = some xs

/-- a run of a client program from state `s` -/
abbrev Plays (s : St) (p : Prog Op (List UInt8)) (l : List (Obs (List UInt8))) (t : St) : Prop := Play readBack Op.run s p l t

/-- the meaning of the call does not depend on which strings are on the heap -/
def Plain (op : Op) (V V' : Vars) (r : Option Nat) : Prop := ∀ big, Spec big op V V' r

/-- the call moves from a string -/
def Op.MovesFrom : Op → Prop
  | .ctorMove _ _ | .assignMove _ _ | .substrMove _ _ _ | .substrNMove _ _ _ _ => True
  | _ => False

/-- every call that does not move from a string is of this kind -/
theorem Spec.plain {big : Nat → Prop} (h : Spec big op V V' r) (hm : ¬ op.MovesFrom) : Plain op V V' r := by
  intro big'
  cases h with
  | ctorDefault h0 => exact .ctorDefault h0
  | ctorInput h0 h1 => exact .ctorInput h0 h1
  | ctorRange h0 h1 h2 => exact .ctorRange h0 h1 h2
  | ctorFill h0 h1 => exact .ctorFill h0 h1
  | ctorCopy h0 h1 => exact .ctorCopy h0 h1
  | ctorMoveBig => exact absurd trivial hm
  | ctorMoveSmall => exact absurd trivial hm
  | concat h0 h1 h2 h3 => exact .concat h0 h1 h2 h3
  | literal h0 h1 => exact .literal h0 h1
  | substr h0 h1 => exact .substr h0 h1
  | substrN h0 h1 => exact .substrN h0 h1
  | substrMoveBig => exact absurd trivial hm
  | substrMoveSmall => exact absurd trivial hm
  | substrNMoveBig => exact absurd trivial hm
  | substrNMoveSmall => exact absurd trivial hm
  | dtor h0 => exact .dtor h0
  | assignCopy h0 h1 => exact .assignCopy h0 h1
  | assignMoveBig => exact absurd trivial hm
  | assignMoveSmall => exact absurd trivial hm
  | assignMoveSelf => exact absurd trivial hm
  | assignInput h0 h1 => exact .assignInput h0 h1
  | assignRange h0 h1 h2 => exact .assignRange h0 h1 h2
  | assignIlist h0 => exact .assignIlist h0
  | assignFill h0 => exact .assignFill h0
  | appendInput h0 h1 h2 => exact .appendInput h0 h1 h2
  | appendRange h0 h1 h2 => exact .appendRange h0 h1 h2
  | appendIlist h0 h1 => exact .appendIlist h0 h1
  | appendFill h0 h1 => exact .appendFill h0 h1
  | insertInput h0 h1 h2 => exact .insertInput h0 h1 h2
  | insertRange h0 h1 h2 => exact .insertRange h0 h1 h2
  | insertIlist h0 h1 => exact .insertIlist h0 h1
  | insertFill h0 h1 => exact .insertFill h0 h1
  | replaceInput h0 h1 h2 => exact .replaceInput h0 h1 h2
  | replaceRange h0 h1 h2 => exact .replaceRange h0 h1 h2
  | replaceIlist h0 h1 => exact .replaceIlist h0 h1
  | replaceFill h0 h1 => exact .replaceFill h0 h1
  | swap h0 h1 => exact .swap h0 h1
  | pushBack h0 => exact .pushBack h0
  | popBack h0 => exact .popBack h0
  | clear h0 => exact .clear h0
  | reserve h0 => exact .reserve h0
  | shrinkToFit h0 => exact .shrinkToFit h0
  | resizeShrink h0 => exact .resizeShrink h0
  | resizeGrow h0 => exact .resizeGrow h0
  | erase h0 => exact .erase h0
  | eraseOne h0 => exact .eraseOne h0
  | write h0 h1 => exact .write h0 h1

/-- C115 for strings (part): the same program, run in two states with the same contents (but different capacities, addresses and
histories), gets to know the same and leaves the same contents behind, up to where a call throws for one of them.  Missing: programs that
move from strings, see `C115_string_refuted`. -/
theorem C115_string_partial (h1 : Reach s1 V) (h2 : Reach s2 V) {p : Prog Op (List UInt8)} (hp : Legal Alive Plain p V)
    {l1 l2 : List (Obs (List UInt8))} {t1 t2 : St} (p1 : Plays s1 p l1 t1) (p2 : Plays s2 p l2 t2) :
    SameObs l1 l2 ∧ (l1 = l2 → ∃ V', (Reach t1 V' ∧ Agrees t1 V') ∧ Reach t2 V' ∧ Agrees t2 V') := by
  obtain ⟨h, he⟩ := alike (look := readBack) (run := Op.run) (alive := Alive) (spec := Plain) (R := Reach)
    (fun s V i xs h ha => by obtain ⟨_, _, _, h⟩ := h.shows ha; exact h.bytes)
    (fun s V V' op r r' s' h hs hr => by have := h.call (hs _); rw [hr] at this; exact this)
    (fun s V V' op r e s' h hs hr => h.thrown (hs _) hr) hp h1 h2 p1 p2
  exact ⟨h, fun e => (he e).elim fun V' h => ⟨V', ⟨h.1, h.1.agrees⟩, h.2, h.2.agrees⟩⟩

/-- the call may be made when the variables are `V`, and what it asks for is not within 23 bytes of `max_size()` -/
def Spacious (op : Op) (V V' : Vars) (r : Option Nat) : Prop := Plain op V V' r ∧ ∀ n, Asks op V' n → n + 23 ≤ maxSize

/-- C115 for strings, if nothing fails and nothing is close to `max_size()`: the program gets to its end without exceptions, and what it
gets to know and leaves behind depends on the contents it starts with only. -/
theorem C115_string_runs {p : Prog Op (List UInt8)} (hp : Legal Alive Spacious p V) :
    ∃ l V', (∀ e, .threw e ∉ l) ∧ ∀ s, Reach s V → (∀ k, s.orc k = false) → ∃ t, Plays s p l t ∧ Reach t V' ∧ Agrees t V' := by
  obtain ⟨l, V', hn, h⟩ := plays (look := readBack) (run := Op.run) (alive := Alive) (spec := Spacious)
    (R := fun s V => Reach s V ∧ ∀ k, s.orc k = false)
    (fun s V i xs h ha => by obtain ⟨_, _, _, h⟩ := h.1.shows ha; exact h.bytes)
    (fun s V V' op r h hs => h.1.next (hs.1 _) h.2 hs.2) hp
  exact ⟨l, V', hn, fun s h1 ho => (h s ⟨h1, ho⟩).elim fun t ht => ⟨t, ht.1, ht.2.1, ht.2.1.agrees⟩⟩

/-- a string "abc" in the internal buffer, and the same on the heap -/
theorem two_abc : ∃ s1 s2, Clean s1 (upd (fun _ => none) 0 (some abc)) ∧ Clean s2 (upd (fun _ => none) 0 (some abc)) ∧
    (∀ k, s1.orc k = false) ∧ (∀ k, s2.orc k = false) ∧ ¬ Big s1 0 ∧ Big s2 0 := by
  have hl : ∀ i xs, upd (fun _ => none : Vars) 0 (some abc) i = some xs → xs.length ≤ 1000 :=
    short_upd (by intro i xs h; cases h) (by intro xs h; cases h; decide)
  have sp : Spec (Big (start fun _ => false)) (.ctorRange 0 (abc.map .val)) (fun _ => none) (upd (fun _ => none) 0 (some abc)) none :=
    .ctorRange rfl (AreAll.vals _) (by decide)
  obtain ⟨s1, hr1, h1, o1⟩ := (Clean.start fun _ => false).next sp (fun _ => rfl) (demo_short hl (by intro i n h; cases h))
  obtain ⟨s2, hr2, h2, o2⟩ := h1.next (.reserve (i := 0) (n := 100) rfl) o1 (demo_short hl (by intro i n h; cases h; decide))
  obtain ⟨d1, c1, t1, sh1⟩ := h1.reach.shows (i := 0) (xs := abc) rfl
  obtain ⟨d2, c2, t2, sh2⟩ := h2.reach.shows (i := 0) (xs := abc) rfl
  refine ⟨s1, s2, h1, h2, o1, o2, ?_, c2, sh2.capacity, ?_⟩
  · rintro ⟨c, hc, hb⟩
    rw [sh1.capacity] at hc
    cases hc
    have : c1 = tight abc.length := C90_new (Reach.start fun _ => false) sp .range hr1 sh1
    rw [this] at hb
    exact absurd hb (by decide)
  · have := (C90_reserve h1.reach sh1 hr2 sh2).2.1
    omega

/-- moves string 0 to a new string 1, and reads both -/
def takeAway : Prog Op (List UInt8) := .call (.ctorMove 1 0) (fun _ => .look 1 fun _ => .look 0 fun _ => .stop) fun _ => .stop

/-- C115, full statement, fails for strings: after moving from a string "abc", it still is "abc" if it was in the internal buffer, but is
empty if it was on the heap. -/
theorem C115_string_refuted : ∃ s1 s2 V t1 t2, Clean s1 V ∧ Clean s2 V ∧ V 0 = some abc ∧
    Plays s1 takeAway [.got none, .saw abc, .saw abc] t1 ∧ Plays s2 takeAway [.got none, .saw abc, .saw []] t2 := by
  obtain ⟨s1, s2, h1, h2, o1, o2, b1, b2⟩ := two_abc
  have hl : ∀ i xs, upd (fun _ => none : Vars) 0 (some abc) i = some xs → xs.length ≤ 1000 :=
    short_upd (by intro i xs h; cases h) (by intro xs h; cases h; decide)
  have hl1 := short_upd (i := 1) (p := some abc) hl (by intro xs h; cases h; decide)
  obtain ⟨t1, r1, k1, _⟩ := h1.next (.ctorMoveSmall (i := 1) (j := 0) (ys := abc) rfl rfl b1) o1 (demo_short hl1 (by intro i n h; cases h))
  obtain ⟨t2, r2, k2, _⟩ := h2.next (.ctorMoveBig (i := 1) (j := 0) (ys := abc) rfl rfl b2) o2
    (demo_short (short_upd hl1 (by intro xs h; cases h; decide)) (by intro i n h; cases h))
  obtain ⟨_, _, _, a1⟩ := k1.reach.shows (i := 1) (xs := abc) rfl
  obtain ⟨_, _, _, a0⟩ := k1.reach.shows (i := 0) (xs := abc) rfl
  obtain ⟨_, _, _, c1⟩ := k2.reach.shows (i := 1) (xs := abc) rfl
  obtain ⟨_, _, _, c0⟩ := k2.reach.shows (i := 0) (xs := []) rfl
  exact ⟨s1, s2, _, t1, t2, h1, h2, rfl, .ok r1 (.look a1.bytes (.look a0.bytes .stop)), .ok r2 (.look c1.bytes (.look c0.bytes .stop))⟩

/-- appends to string 0, and removes the first byte if the result is long -/
def grow : Prog Op (List UInt8) := .call (.appendIlist 0 abc) (fun _ => .look 0 fun xs => if 5 < xs.length then .call (.eraseOne 0 0)
  (fun _ => .look 0 fun _ => .stop) fun _ => .stop else .stop) fun _ => .stop

/-- non-trivial case: in both representations, `grow` sees "abcabc" and then "bcabc" -/
theorem C115_string_case : ∃ s1 s2 t1 t2, ¬ Big s1 0 ∧ Big s2 0 ∧
    Plays s1 grow [.got none, .saw (abc ++ abc), .got (some 0), .saw (abc ++ abc).tail] t1 ∧
    Plays s2 grow [.got none, .saw (abc ++ abc), .got (some 0), .saw (abc ++ abc).tail] t2 := by
  obtain ⟨s1, s2, h1, h2, o1, o2, b1, b2⟩ := two_abc
  have hl0 : ∀ i xs, (fun _ => none : Vars) i = some xs → xs.length ≤ 1000 := by intro i xs h; cases h
  have run : ∀ s, Clean s (upd (fun _ => none) 0 (some abc)) → (∀ k, s.orc k = false) →
      ∃ t, Plays s grow [.got none, .saw (abc ++ abc), .got (some 0), .saw (abc ++ abc).tail] t := by
    intro s h ho
    have hl := short_upd (i := 0) (p := some abc) hl0 (by intro xs h; cases h; decide)
    have hla := short_upd (i := 0) (p := some (abc ++ abc)) hl (by intro xs h; cases h; decide)
    obtain ⟨s1, r1, h1, o1⟩ := h.next (.appendIlist (i := 0) (xs := abc) (bs := abc) rfl (by decide)) ho
      (demo_short hla (by intro i n h; cases h))
    obtain ⟨s2, r2, h2, _⟩ := h1.next (.eraseOne (i := 0) (pre := []) (ch := 97) (post := (abc ++ abc).tail) rfl) o1
      (demo_short (short_upd (i := 0) hla (by intro xs h; cases h; decide)) (by intro i n h; cases h))
    obtain ⟨_, _, _, a1⟩ := h1.reach.shows (i := 0) (xs := abc ++ abc) rfl
    obtain ⟨_, _, _, a2⟩ := h2.reach.shows (i := 0) (xs := (abc ++ abc).tail) rfl
    exact ⟨s2, .ok r1 (.look (next := fun xs => if 5 < xs.length then .call (Op.eraseOne 0 0) (fun _ => .look 0 fun _ => .stop) fun _ => .stop else .stop)
      a1.bytes (.ok r2 (.look a2.bytes .stop)))⟩
  obtain ⟨t1, p1⟩ := run s1 h1 o1
  obtain ⟨t2, p2⟩ := run s2 h2 o2
  exact ⟨s1, s2, t1, t2, b1, b2, p1, p2⟩

end Ptl.Str

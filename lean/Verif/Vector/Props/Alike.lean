import Verif.Client
import Verif.Progress

/-!
# C115: vectors with equal contents cannot be told apart
-/

namespace Ptl.Vector
open Client

variable {α : Type} {T : Elem α} {s1 s2 : St α Storage} {V : Vars α}

/-- the client reads a live vector -/
def Alive (V : Vars α) (i : Nat) (xs : List α) : Prop := V i = some xs

/-- a run of a client program from state `s` -/
abbrev Plays (T : Elem α) (s : St α Storage) (p : Prog (Op α) (List α)) (l : List (Obs (List α))) (t : St α Storage) : Prop :=
  Play readBack (Op.run T) s p l t

/-- the program may be run when the variables are `V` -/
abbrev May (T : Elem α) (p : Prog (Op α) (List α)) (V : Vars α) : Prop := Legal Alive (Spec T) p V

/-- C115 for vectors: the same program, run in two states with the same contents (but different capacities, addresses and histories),
gets to know the same and leaves the same contents behind, up to where a call throws for one of them.  Programs decide what to do on the
basis of everything they read, calls return, and exceptions. -/
theorem C115_vector (h1 : Reach T s1 V) (h2 : Reach T s2 V) {p : Prog (Op α) (List α)} (hp : May T p V) {l1 l2 : List (Obs (List α))}
    {t1 t2 : St α Storage} (p1 : Plays T s1 p l1 t1) (p2 : Plays T s2 p l2 t2) :
    SameObs l1 l2 ∧ (l1 = l2 → ∃ V', (Reach T t1 V' ∧ Agrees t1 V') ∧ Reach T t2 V' ∧ Agrees t2 V') := by
  obtain ⟨h, he⟩ := alike (look := readBack) (run := Op.run T) (alive := Alive) (spec := Spec T) (R := Reach T) (fun s V i xs h ha => (h.shows ha).elim fun _ h => h.elim fun _ h => h.elems)
    (fun s V V' op r r' s' h hs hr => by have := h.call hs; rw [hr] at this; exact this)
    (fun s V V' op r e s' h hs hr => h.thrown hs hr) hp h1 h2 p1 p2
  exact ⟨h, fun e => (he e).elim fun V' h => ⟨V', ⟨h.1, h.1.agrees⟩, h.2, h.2.agrees⟩⟩

/-- the call may be made when the variables are `V`, and twice the length of what it produces fits -/
def Spacious (T : Elem α) (op : Op α) (V V' : Vars α) (r : Option Nat) : Prop :=
  Spec T op V V' r ∧ (∀ i xs, op.Targets i → V' i = some xs → 2 * xs.length ≤ T.maxCapacity) ∧ ∀ i n, op = .reserve i n → n ≤ T.maxCapacity

/-- C115 for vectors, if nothing fails and the results are at most half as long as `max_size()`: the program gets to its end without
exceptions, and what it gets to know and leaves behind depends on the contents it starts with only. -/
theorem C115_vector_runs {p : Prog (Op α) (List α)} (hp : Legal Alive (Spacious T) p V) :
    ∃ l V', (∀ e, .threw e ∉ l) ∧ ∀ s, Reach T s V → (∀ k, s.orc k = false) → ∃ t, Plays T s p l t ∧ Reach T t V' ∧ Agrees t V' := by
  obtain ⟨l, V', hn, h⟩ := plays (look := readBack) (run := Op.run T) (alive := Alive) (spec := Spacious T) (R := fun s V => Reach T s V ∧ ∀ k, s.orc k = false)
    (fun s V i xs h ha => (h.1.shows ha).elim fun _ h => h.elim fun _ h => h.elems)
    (fun s V V' op r h hs => by
      obtain ⟨s', hr, h', ho⟩ := h.1.next hs.1 h.2 (by
        rintro (⟨i, xs, ht, hv, hl⟩ | ⟨i, n, rfl, hl⟩)
        · have := hs.2.1 i xs ht hv
          have := op.room_le xs.length
          omega
        · have := hs.2.2 i n rfl
          omega)
      exact ⟨s', hr, h', ho⟩) hp
  exact ⟨l, V', hn, fun s h1 ho => (h s ⟨h1, ho⟩).elim fun t ht => ⟨t, ht.1, ht.2.1, ht.2.1.agrees⟩⟩

/-- a program that reads vector 0, appends to it as often as its first element says, and reads it again -/
def greedy : Prog (Op Nat) (List Nat) :=
  .look 0 fun xs => if xs.head? = some 1 then .call (.pushBack 0 (.ref (.val 4))) (fun r => if r = some 3 then .look 0 fun _ => .stop else .stop)
    fun _ => .stop else .stop

/-- `greedy` may be run on the demo variables -/
theorem greedy_may : Legal Alive (Spacious natElem) greedy demoV := by
  refine .look (xs := [1, 2, 3]) rfl ?_
  rw [if_pos (show [1, 2, 3].head? = some 1 from rfl)]
  refine .call (r := some 3) (V' := upd demoV 0 (some ([1, 2, 3] ++ [4]))) ⟨?_, ?_, nofun⟩ ?_ fun _ => .stop
  · exact Spec.pushBack (xs := [1, 2, 3]) (.ref (.val 4)) rfl
  · intro i xs ht hv
    cases ht
    cases hv
    decide
  · rw [if_pos rfl]
    exact .look (xs := [1, 2, 3, 4]) rfl .stop

/-- non-trivial case: `greedy` sees `[1,2,3]`, then the position 3, then `[1,2,3,4]`, both before and after `reserve(100)` -/
theorem C115_vector_case : ∃ sa sb : St Nat Storage, (Op.reserve 0 100).run natElem sa = .ok none sb ∧ (∃ d c, Shows sb 0 d c [1, 2, 3] ∧ 100 ≤ c) ∧
    ∃ ta tb, Plays natElem sa greedy [.saw [1, 2, 3], .got (some 3), .saw [1, 2, 3, 4]] ta ∧
      Plays natElem sb greedy [.saw [1, 2, 3], .got (some 3), .saw [1, 2, 3, 4]] tb := by
  obtain ⟨sa, ha, hoa⟩ := demo
  obtain ⟨sb, hr, hb, hob⟩ := ha.next (Spec.reserve (i := 0) (n := 100) rfl (by decide)) hoa
    (demo_short demoV_len (by intro i n h; cases h; decide))
  have run : ∀ s, Reach natElem s demoV → (∀ k, s.orc k = false) →
      ∃ t, Plays natElem s greedy [.saw [1, 2, 3], .got (some 3), .saw [1, 2, 3, 4]] t := by
    intro s h ho
    obtain ⟨d, c, hsh⟩ := h.shows (i := 0) (xs := [1, 2, 3]) rfl
    have hs : Spec natElem (.pushBack 0 (.ref (.val 4))) demoV (upd demoV 0 (some ([1, 2, 3] ++ [4]))) (some 3) :=
      Spec.pushBack (xs := [1, 2, 3]) (.ref (.val 4)) rfl
    obtain ⟨s', hr, h', _⟩ := h.next hs ho (demo_short (by
      intro i xs hx
      simp only [upd] at hx
      split at hx
      · cases hx; decide
      · exact demoV_len i xs hx) (by intro i n h; cases h))
    obtain ⟨d', c', hsh'⟩ := h'.shows (i := 0) (xs := [1, 2, 3, 4]) rfl
    exact ⟨s', .look hsh.elems (.ok (next := fun r => if r = some 3 then .look 0 fun _ => .stop else .stop) hr (.look hsh'.elems .stop))⟩
  obtain ⟨d, c, hsh, hc⟩ := C10_reserve ha (i := 0) (n := 100) (xs := [1, 2, 3]) rfl (by decide) hr
  obtain ⟨ta, pa⟩ := run sa ha hoa
  obtain ⟨tb, pb⟩ := run sb hb hob
  exact ⟨sa, sb, hr, ⟨d, c, hsh, hc⟩, ta, tb, pa, pb⟩

end Ptl.Vector

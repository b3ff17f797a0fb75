import Verif.Str.Props.Access
import Verif.Algo

/-!
# C110, for strings

As Verif/Vector/Props/Algorithms.lean: `s.erase(std::remove(s.begin(), s.end(), ' '), s.end())`, `std::reverse`, `std::transform` and
the like on the bytes of a string.  Iterators hold addresses (string.hpp:140-234); moving a byte copies it.
-/

namespace Ptl.Str

variable {β : Type} {s s' : St} {V V' : Vars}

/-- the algorithm, run on the bytes from address `d` on: `*(first + k)` is the byte at `d + k`, string.hpp:140-234 -/
def runAlgo (d : Ptr) : Algo UInt8 β → SM β
  | .ret b => pure b
  | .read k next => do
    let v ← readAt (d.add k)
    runAlgo d (next v)
  | .put k v next => do
    writeAt (d.add k) v
    runAlgo d next

theorem read_byte (h : Reach s V) {i k c : Nat} {d : Ptr} {xs : List UInt8} {t b : UInt8} (hsh : Shows s i d c xs t)
    (hk : xs[k]? = some b) : readAt (d.add k) s = .ok b s := by
  obtain ⟨v, hv, rfl, rfl, _, rest, hb⟩ := h.inv.1.of_shows hsh
  obtain ⟨hlt, rfl⟩ := List.getElem?_eq_some_iff.1 hk
  have := readAt_ok h.inv.1.wf hv (k := k) (b := xs[k]) (by
    rw [hb, List.getElem?_append_left (by simpa using hlt)]; simp [hk])
  simpa [Ptr.add] using this

theorem put_byte (h : Reach s V) {i k c : Nat} {d : Ptr} {xs : List UInt8} {t : UInt8} (b : UInt8) (hsh : Shows s i d c xs t)
    (hk : k < xs.length) : ∃ s', writeAt (d.add k) b s = .ok () s' ∧ Reach s' (upd V i (some (xs.set k b))) ∧
      Shows s' i d c (xs.set k b) t ∧ (∀ j d' c' ys t', j ≠ i → Shows s j d' c' ys t' → Shows s' j d' c' ys t') ∧
      s'.tick = s.tick ∧ s'.nblk = s.nblk := by
  have hs : Spec (Big s) (.write i k b) V _ _ := .write (h.of_shows hsh) hk
  have hinv := h.inv.1
  obtain ⟨v, hv, rfl, rfl, hsz, rest, hb⟩ := hinv.of_shows hsh
  have hb' : v.buf = (xs.take k).map some ++ [some xs[k]] ++ ((xs.drop (k + 1)).map some ++ some t :: rest) := by
    rw [hb]
    have : xs = xs.take k ++ xs[k] :: xs.drop (k + 1) := by rw [← List.drop_eq_getElem_cons hk, List.take_append_drop]
    have h2 := congrArg (List.map some) this
    rw [List.map_append, List.map_cons] at h2
    rw [h2]
    simp
  obtain ⟨s', hr, q⟩ := writeN_ok hinv.wf hv (bs := [b]) (off := k) hb' (by simp; omega) rfl
  have hr' : writeAt ⟨some v.base, k⟩ b s = .ok () s' := hr
  have e : (Op.write i k b).run s = .ok none s' :=
    (M.bind_ok (index_ok hinv.wf hv k)).trans (M.bind_ok hr')
  have h' := h.ok hs e
  have hh : Holds { v with buf := (xs.take k).map some ++ [b].map some ++ ((xs.drop (k + 1)).map some ++ some t :: rest) }
      (xs.set k b) t := by
    refine ⟨by simpa using hsz, rest, ?_⟩
    rw [List.set_eq_take_append_cons_drop, if_pos hk]
    simp
  have hsh' := h'.inv.1.shows q.at hh
  refine ⟨s', by simpa [Ptr.add] using hr', h', hsh', fun j d' c' ys t' hne hj => ?_, q.tick, q.nblk⟩
  obtain ⟨w, hw, rfl, rfl, hh'⟩ := hinv.of_shows hj
  exact h'.inv.1.shows ((q.ne (by simpa using hne)).trans hw) hh'

/-- C110 for strings: every algorithm that stays within the range does to the string what it does to the list of its bytes, and
returns the same.  It cannot fail; `data()`, `capacity()` and the terminator stay; other strings are as before. -/
theorem C110_string_in_place (h : Reach s V) {i c : Nat} {d : Ptr} {xs ys : List UInt8} {t : UInt8} (hsh : Shows s i d c xs t)
    {a : Algo UInt8 β} {b : β} (ha : a.onList xs = some (b, ys)) :
    ∃ s', runAlgo d a s = .ok b s' ∧ Reach s' (upd V i (some ys)) ∧ Shows s' i d c ys t ∧
      (∀ j d' c' zs t', j ≠ i → Shows s j d' c' zs t' → Shows s' j d' c' zs t') ∧ s'.tick = s.tick ∧ s'.nblk = s.nblk := by
  induction a generalizing s V xs with
  | ret b' =>
    simp only [Algo.onList] at ha; cases ha
    refine ⟨s, rfl, ?_, hsh, fun _ _ _ _ _ _ h => h, rfl, rfl⟩
    rw [upd_eq _ _ _ (h.of_shows hsh)]; exact h
  | read k next ih =>
    simp only [Algo.onList] at ha
    cases hk : xs[k]? with
    | none => rw [hk] at ha; cases ha
    | some v =>
      rw [hk] at ha
      obtain ⟨s', h1, h2⟩ := ih v h hsh ha
      exact ⟨s', (M.bind_ok (read_byte h hsh hk)).trans h1, h2⟩
  | put k v next ih =>
    simp only [Algo.onList] at ha
    split at ha
    · rename_i hk
      obtain ⟨s1, e1, hr1, hs1, ho1, ht1, hn1⟩ := put_byte h v hsh hk
      obtain ⟨s2, e2, hr2, hs2, ho2, ht2, hn2⟩ := ih hr1 hs1 ha
      refine ⟨s2, (M.bind_ok e1).trans e2, ?_, hs2, fun j d' c' zs t' hj hz => ho2 j d' c' zs t' hj (ho1 j d' c' zs t' hj hz),
        ht2.trans ht1, hn2.trans hn1⟩
      rwa [upd_upd] at hr2
    · cases ha

/-- C110 (swapping, strings): an algorithm that only swaps bytes leaves each of them in the string, as often as before. -/
theorem C110_string_permutes (h : Reach s V) {i c : Nat} {d : Ptr} {xs ys : List UInt8} {t : UInt8} (hsh : Shows s i d c xs t)
    {a : Swapping UInt8 β} {b : β} (ha : (a.algo id).onList xs = some (b, ys)) :
    ∃ s', runAlgo d (a.algo id) s = .ok b s' ∧ Shows s' i d c ys t ∧ ys.Perm xs := by
  obtain ⟨s', h1, _, h2, _⟩ := C110_string_in_place h hsh ha
  exact ⟨s', h1, h2, swapping_perm id a ha⟩

/-- `s.erase(std::remove_if(s.begin(), s.end(), p), s.end())` -/
def eraseRemove (i : Nat) (p : UInt8 → Bool) : SM (Option Nat) := do
  let d ← data (.var i)
  let n ← size (.var i)
  let w ← runAlgo d (removeIf id p n)
  (Op.erase i w n).run

/-- C110 (erase–remove, strings): exactly the bytes that do not satisfy `p` remain, in their order; the string ends in a zero byte;
it cannot fail; `data()` and `capacity()` stay. -/
theorem C110_string_erase_remove (h : Reach s V) {i c : Nat} {d : Ptr} {xs : List UInt8} {t : UInt8} (hsh : Shows s i d c xs t)
    (p : UInt8 → Bool) : ∃ s', eraseRemove i p s = .ok (some (xs.filter (!p ·)).length) s' ∧
      Reach s' (upd V i (some (xs.filter (!p ·)))) ∧ Shows s' i d c (xs.filter (!p ·)) 0 ∧ s'.tick = s.tick := by
  obtain ⟨left, hl⟩ := removeIf_onList id p xs
  obtain ⟨s1, e1, hr1, hs1, _, ht1, _⟩ := C110_string_in_place h hsh hl
  have hlen : (xs.filter (!p ·)).length + left.length = xs.length := by
    have := Algo.onList_length _ hl
    simpa using this
  have hs2 : Shows s1 i d c (xs.filter (!p ·) ++ left ++ []) t := by rw [List.append_nil]; exact hs1
  have hsp : Spec (Big s1) (.erase i (xs.filter (!p ·)).length ((xs.filter (!p ·)).length + left.length)) _ _ _ :=
    .erase (hr1.of_shows hs2)
  have hinv1 := hr1.inv.1
  obtain ⟨v, hv, rfl, rfl, hh⟩ := hinv1.of_shows hs2
  obtain ⟨s2, v', hr, q, hh', hb, hc⟩ := erase_ok hinv1.wf hv hh rfl
  have e2 : (Op.erase i (xs.filter (!p ·)).length ((xs.filter (!p ·)).length + left.length)).run s1 =
      .ok (some (xs.filter (!p ·)).length) s2 := by
    refine (M.bind_ok (pos_ok hinv1.wf hv _)).trans ((M.bind_ok (pos_ok hinv1.wf hv _)).trans ((M.bind_ok hr).trans ?_))
    rw [← hb]
    exact offset_ok q.wf q.at
  have hr2 := hr1.ok hsp e2
  have h3 := hr2.inv.1.shows q.at hh'
  rw [List.append_nil] at h3 hr2
  rw [hlen] at e2
  rw [hb, hc] at h3
  refine ⟨s2, ?_, by rwa [upd_upd] at hr2, h3, q.tick.trans ht1⟩
  exact (M.bind_ok hsh.data).trans ((M.bind_ok hsh.size).trans ((M.bind_ok e1).trans e2))

-- "abc" without its 'b'
example : ∃ s V d c t s', Reach s V ∧ Shows s 0 d c abc t ∧ eraseRemove 0 (· == 98) s = .ok (some 2) s' ∧
    Shows s' 0 d c [97, 99] 0 := by
  obtain ⟨s, h, _⟩ := demo
  obtain ⟨d, c, t, hsh⟩ := h.reach.shows (i := 0) (xs := abc) rfl
  obtain ⟨s', h1, _, h2, _⟩ := C110_string_erase_remove h.reach hsh (· == 98)
  exact ⟨s, _, d, c, t, s', h.reach, hsh, h1, h2⟩

-- reversed: "cba"
example : ∃ s V d c t s', Reach s V ∧ Shows s 0 d c abc t ∧
    runAlgo d ((Swapping.swap 0 2 (.ret ())).algo id) s = .ok () s' ∧ Shows s' 0 d c [99, 98, 97] t := by
  obtain ⟨s, h, _⟩ := demo
  obtain ⟨d, c, t, hsh⟩ := h.reach.shows (i := 0) (xs := abc) rfl
  obtain ⟨s', h1, _, h2, _⟩ := C110_string_in_place h.reach hsh (a := (Swapping.swap 0 2 (.ret ())).algo id) (b := ())
    (ys := [99, 98, 97]) rfl
  exact ⟨s, _, d, c, t, s', h.reach, hsh, h1, h2⟩

end Ptl.Str

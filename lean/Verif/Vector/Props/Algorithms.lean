import Verif.Vector.Props.References
import Verif.Algo

/-!
# C110: standard algorithms on the elements of a vector

Users sort, reverse, partition and filter vectors with the algorithms of `<algorithm>`.  These get iterators and
read, move and swap elements through them; they call no member of the vector.  An iterator holds the address of the element
(vector.hpp:92-186); its arithmetic is the subject of C56.  What they leave behind is
passed on to members, as in `v.erase(std::remove_if(v.begin(), v.end(), p), v.end())`.

`Algo` (Verif/Algo.lean) is an arbitrary algorithm of that kind, `Algo.onList` says what it does to a list; `runAlgo` below runs it on
memory.
-/

namespace Ptl.Vector

variable {α β : Type}

/-! ### on memory -/

/-- the algorithm, run on the elements from address `d` on: `*(first + k)` is the element at `d + k`,
vector.hpp:92-186 -/
def runAlgo (d : Ptr) : Algo α β → VM α β
  | .ret b => pure b
  | .read k next => do
    let v ← readAt (d.add k)
    runAlgo d (next v)
  | .put k v next => do
    putAt (d.add k) v
    runAlgo d next

variable {T : Elem α} {s s' : St α Storage} {V V' : Vars α}

/-- one element gets a new value by move-assignment -/
theorem put_shows (h : Reach T s V) {i k : Nat} {d : Ptr} {c : Nat} {xs : List α} (v : α) (hsh : Shows s i d c xs)
    (hk : k < xs.length) : ∃ s', putAt (d.add k) v s = .ok () s' ∧ Reach T s' (upd V i (some (xs.set k v))) ∧
      Shows s' i d c (xs.set k v) ∧ (∀ j d' c' ys, j ≠ i → Shows s j d' c' ys → Shows s' j d' c' ys) ∧
      s'.tick = s.tick ∧ s'.nblk = s.nblk := by
  have hs : Spec T (.put i k v) V _ _ := .put (h.of_shows hsh) hk
  have hinv := h.inv.1
  obtain ⟨o, ho, rfl, rfl⟩ := hinv.of_shows hsh
  obtain ⟨hobj, hg⟩ := hinv.wf.get ho
  have e0 : (Op.put i k v).run T s = (putAt ⟨o.ptr, k⟩ v >>= fun _ => pure none) s := M.bind_ok (index_ok hobj k)
  have hrd : readAt ⟨o.ptr, k⟩ s = .ok xs[k] s := by
    have := (C60_read h (k := k) (v := xs[k]) hsh (by simp [hk])).2.1
    simpa [Ptr.add] using this
  have e1 : putAt ⟨o.ptr, k⟩ v s = setSlot ⟨o.ptr, k⟩ (some v) s := M.bind_ok hrd
  have hsl : ∃ s', setSlot ⟨o.ptr, k⟩ (some v) s = .ok () s' ∧ s'.tick = s.tick ∧ s'.nblk = s.nblk := by
    cases hp : o.ptr with
    | none => obtain ⟨_, rfl⟩ := hg.null hp; cases hk
    | some b =>
      obtain ⟨_, _, _, _, _, hb⟩ := hg.own hp
      exact ⟨_, setSlot_ok hb (by simp [lv]; omega), rfl, rfl⟩
  obtain ⟨s', hr, ht, hn⟩ := hsl
  have hr' : putAt ⟨o.ptr, k⟩ v s = .ok () s' := e1.trans hr
  have e : (Op.put i k v).run T s = .ok none s' := e0.trans (M.bind_ok hr')
  have hobj' := setSlot_obj hr
  have h' := h.ok hs e
  have hinv' := h'.inv.1
  have keep : ∀ {j d' c' ys zs}, Shows s j d' c' ys → upd V i (some (xs.set k v)) j = some zs → Shows s' j d' c' zs := by
    intro j d' c' ys zs hj hz
    obtain ⟨oj, hoj, rfl, rfl⟩ := hinv.of_shows hj
    have hv : vars s' j = some zs := by rw [h'.inv.2]; exact hz
    obtain ⟨oj', hoj'⟩ := vars_some hv
    have e := (hinv'.wf.get hoj').1
    rw [hobj', (hinv.wf.get hoj).1] at e
    cases e
    exact hinv'.shows hoj'
  refine ⟨s', by simpa [Ptr.add] using hr', h', keep hsh (upd_same _ _ _), fun j d' c' ys hne hj => ?_, ht, hn⟩
  exact keep hj (by rw [upd_ne _ _ hne]; exact h.of_shows hj)

/-- C110: every algorithm that stays within the range does to the vector what it does to the list of its elements, and returns
the same.  It cannot fail; `data()` and `capacity()` stay, so iterators stay valid; other vectors are as before; nothing is
allocated and no element is copied. -/
theorem C110_in_place (h : Reach T s V) {i : Nat} {d : Ptr} {c : Nat} {xs ys : List α} (hsh : Shows s i d c xs)
    {a : Algo α β} {b : β} (ha : a.onList xs = some (b, ys)) :
    ∃ s', runAlgo d a s = .ok b s' ∧ Reach T s' (upd V i (some ys)) ∧ Shows s' i d c ys ∧
      (∀ j d' c' zs, j ≠ i → Shows s j d' c' zs → Shows s' j d' c' zs) ∧ s'.tick = s.tick ∧ s'.nblk = s.nblk := by
  induction a generalizing s V xs with
  | ret b' =>
    simp only [Algo.onList] at ha; cases ha
    refine ⟨s, rfl, ?_, hsh, fun _ _ _ _ _ h => h, rfl, rfl⟩
    rw [upd_eq _ _ _ (h.of_shows hsh)]; exact h
  | read k next ih =>
    simp only [Algo.onList] at ha
    cases hk : xs[k]? with
    | none => rw [hk] at ha; cases ha
    | some v =>
      rw [hk] at ha
      obtain ⟨s', h1, h2⟩ := ih v h hsh ha
      exact ⟨s', (M.bind_ok (C60_read h hsh hk).2.1).trans h1, h2⟩
  | put k v next ih =>
    simp only [Algo.onList] at ha
    split at ha
    · rename_i hk
      obtain ⟨s1, e1, hr1, hs1, ho1, ht1, hn1⟩ := put_shows h v hsh hk
      obtain ⟨s2, e2, hr2, hs2, ho2, ht2, hn2⟩ := ih hr1 hs1 ha
      refine ⟨s2, (M.bind_ok e1).trans e2, ?_, hs2, fun j d' c' zs hj hz => ho2 j d' c' zs hj (ho1 j d' c' zs hj hz),
        ht2.trans ht1, hn2.trans hn1⟩
      rwa [upd_upd] at hr2
    · cases ha

/-- C110 (swapping): an algorithm that only swaps elements leaves each of them in the vector, as often as before. -/
theorem C110_permutes (h : Reach T s V) {i : Nat} {d : Ptr} {c : Nat} {xs ys : List α} (hsh : Shows s i d c xs)
    {a : Swapping α β} {b : β} (ha : (a.algo T.moved).onList xs = some (b, ys)) :
    ∃ s', runAlgo d (a.algo T.moved) s = .ok b s' ∧ Shows s' i d c ys ∧ ys.Perm xs := by
  obtain ⟨s', h1, _, h2, _⟩ := C110_in_place h hsh ha
  exact ⟨s', h1, h2, swapping_perm T.moved a ha⟩

/-- C110: moving an element within the vector, as the member functions do it themselves, is such a step. -/
theorem C110_move (h : Reach T s V) {i k l : Nat} {d : Ptr} {c : Nat} {xs : List α} (hsh : Shows s i d c xs)
    (hk : k < xs.length) (hl : l < xs.length) (hkl : k ≠ l) :
    moveAssignAt T (d.add k) (d.add l) s = runAlgo d (Algo.move T.moved k l (.ret ())) s := by
  have hrk := (C60_read h (k := k) (v := xs[k]) hsh (by simp [hk])).2.1
  have hrl := (C60_read h (k := l) (v := xs[l]) hsh (by simp [hl])).2.1
  obtain ⟨s1, e1, hr1, hs1, _⟩ := put_shows h xs[l] hsh hk
  have hrl1 := (C60_read hr1 (k := l) (v := xs[l]) hs1 (by rw [List.getElem?_set_ne hkl]; simp [hl])).2.1
  have e1' : setSlot (d.add k) (some xs[l]) s = .ok () s1 := by
    have : putAt (d.add k) xs[l] s = setSlot (d.add k) (some xs[l]) s := M.bind_ok hrk
    rw [← this, e1]
  have hne : d.add k ≠ d.add l := by
    intro h; have := congrArg Ptr.off h; simp [Ptr.add] at this; exact hkl this
  unfold moveAssignAt
  rw [M.bind_ok hrl, M.bind_ok hrk, if_neg hne, M.bind_ok e1']
  refine Eq.symm ((M.bind_ok hrl).trans ?_)
  refine (M.bind_ok e1).trans ?_
  obtain ⟨s2, e2, _⟩ := put_shows hr1 (T.moved xs[l]) hs1 (by simpa using hl)
  refine (M.bind_ok e2).trans ?_
  have : putAt (d.add l) (T.moved xs[l]) s1 = setSlot (d.add l) (some (T.moved xs[l])) s1 := M.bind_ok hrl1
  rw [← this, e2]; rfl

/-- `v.erase(std::remove_if(v.begin(), v.end(), p), v.end())` -/
def eraseRemove (T : Elem α) (i : Nat) (p : α → Bool) : VM α (Option Nat) := do
  let d ← data (.var i)
  let n ← size (.var i)
  let w ← runAlgo d (removeIf T.moved p n)
  (Op.erase i w n).run T

/-- C110 (erase–remove): exactly the elements that do not satisfy `p` remain, in their order – also if that is all of them.  It
cannot fail; `data()` and `capacity()` stay. -/
theorem C110_erase_remove (h : Reach T s V) {i : Nat} {d : Ptr} {c : Nat} {xs : List α} (hsh : Shows s i d c xs)
    (p : α → Bool) : ∃ s', eraseRemove T i p s = .ok (some (xs.filter (!p ·)).length) s' ∧
      Reach T s' (upd V i (some (xs.filter (!p ·)))) ∧ Shows s' i d c (xs.filter (!p ·)) ∧ s'.tick = s.tick := by
  obtain ⟨left, hl⟩ := removeIf_onList T.moved p xs
  obtain ⟨s1, e1, hr1, hs1, _, ht1, _⟩ := C110_in_place h hsh hl
  have hlen : (xs.filter (!p ·)).length + left.length = xs.length := by
    have := Algo.onList_length _ hl
    simpa using this
  have hs2 : Shows s1 i d c (xs.filter (!p ·) ++ left ++ []) := by rw [List.append_nil]; exact hs1
  have hsp : Spec T (.erase i (xs.filter (!p ·)).length ((xs.filter (!p ·)).length + left.length)) _ _ _ :=
    .erase (hr1.of_shows hs2) (.inr (by simp))
  obtain ⟨s2, ys, e2, h2, h3, _, h5⟩ := C06_shrink_in_place hr1 hsp .erase hs2
  have hr2 := hr1.ok hsp e2
  rw [upd_same] at h2; cases h2
  rw [List.append_nil] at h3 hr2
  rw [hlen] at e2
  refine ⟨s2, ?_, by rwa [upd_upd] at hr2, h3, h5.trans ht1⟩
  exact (M.bind_ok hsh.data).trans ((M.bind_ok hsh.size).trans ((M.bind_ok e1).trans e2))

-- the demo vector without its even elements
example : ∃ s V d c s', Reach natElem s V ∧ Shows s 0 d c [1, 2, 3] ∧
    eraseRemove natElem 0 (fun x => x % 2 == 0) s = .ok (some 2) s' ∧ Shows s' 0 d c [1, 3] := by
  obtain ⟨s, h, _⟩ := demo
  obtain ⟨d, c, hsh⟩ := h.shows (i := 0) (xs := [1, 2, 3]) rfl
  obtain ⟨s', h1, _, h2, _⟩ := C110_erase_remove h hsh fun x => x % 2 == 0
  exact ⟨s, demoV, d, c, s', h, hsh, h1, h2⟩

/-- `std::sort` of three elements, as a sorting network: swaps depending on comparisons -/
def sort3 : Swapping Nat Unit :=
  let cmp := fun (k l : Nat) (next : Swapping Nat Unit) =>
    Swapping.read k fun a => .read l fun b => if b < a then .swap k l next else next
  cmp 0 1 (cmp 1 2 (cmp 0 1 (.ret ())))

example : ∃ s V d c s', Reach natElem s V ∧ Shows s 0 d c [3, 1, 2] ∧
    runAlgo d (sort3.algo natElem.moved) s = .ok () s' ∧ Shows s' 0 d c [1, 2, 3] := by
  obtain ⟨s, h, _⟩ := demo
  obtain ⟨d, c, hsh⟩ := h.shows (i := 0) (xs := [1, 2, 3]) rfl
  obtain ⟨s1, _, hr1, hs1, _⟩ := C110_in_place h hsh
    (a := .put 0 3 (.put 1 1 (.put 2 2 (.ret ())))) (b := ()) (ys := [3, 1, 2]) rfl
  obtain ⟨s2, h2, h3, _⟩ := C110_permutes hr1 hs1 (a := sort3) (b := ()) (ys := [1, 2, 3]) (by decide +kernel)
  exact ⟨s1, _, d, c, s2, hr1, hs1, h2, h3⟩

end Ptl.Vector

import Verif.View.Props
import Verif.Iter.Props
import Verif.Algo

/-!
# C110 for `array_ref`: standard algorithms on the elements it refers to

As `Verif/Vector/Props/Algorithms.lean`, but the algorithm gets the iterator that `begin()` returns and uses its operators.
-/

namespace Ptl.View

variable {α β : Type} {s s' : St α} {w w' : Know α} {r q : Nat} {g : Seg} {xs ys : List α}

/-- the algorithm, run on the elements from `first` on: `first[k]`, array_ref.hpp:99 -/
def runAlgo (first : Iter.It) : Algo α β → RM α β
  | .ret b => pure b
  | .read k next => do
    let l ← onMem (Iter.index · first k)
    let v ← onMem l.read
    runAlgo first (next v)
  | .put k v next => do
    let l ← onMem (Iter.index · first k)
    assign l v
    runAlgo first next

/-- `algorithm(r.begin(), …)`, array_ref.hpp:223-226 -/
def onRef (r : Nat) (a : Algo α β) : RM α β := do
  let x ← load r
  let p ← data x
  runAlgo (Iter.begin_ p) a

/-- the elements a reference denotes are now `ys` -/
def Know.fill (w : Know α) (g : Seg) (ys : List α) : Know α :=
  match g with
  | .nil => w
  | .of b off n => match w.M b with
    | some xs => { w with M := upd w.M b (some (xs.take off ++ ys ++ xs.drop (off + n))) }
    | none => w

theorem fill_text (hg : w.Has g) : w.fill g (w.text g) = w := by
  cases g with
  | nil => rfl
  | of b off n =>
    obtain ⟨xs, hb, hl⟩ := hg
    simp only [Know.fill, Know.text, hb]
    have : xs.take off ++ (xs.drop off).take n ++ xs.drop (off + n) = xs := by
      rw [← List.drop_drop, List.append_assoc, List.take_append_drop, List.take_append_drop]
    rw [this, upd_eq _ _ _ hb]

theorem put_fill {b off n k : Nat} {v : α} (hg : w.Has (.of b off n)) (hk : k < n) :
    (w.put (.of b off n) k v).Has (.of b off n) ∧
    (w.put (.of b off n) k v).text (.of b off n) = (w.text (.of b off n)).set k v ∧
    (w.put (.of b off n) k v).R = w.R ∧
    ∀ ys, (w.put (.of b off n) k v).fill (.of b off n) ys = w.fill (.of b off n) ys := by
  obtain ⟨xs, hb, hl⟩ := hg
  simp only [Know.put, hb, Know.Has, Know.text, Know.fill, upd_same, upd_upd]
  refine ⟨⟨_, rfl, by simpa using hl⟩, ?_, trivial, fun ys => ?_⟩
  · apply List.ext_getElem?
    intro c
    by_cases hc : c < n
    · rw [List.getElem?_take_of_lt hc, List.getElem?_drop, List.getElem?_set, List.getElem?_set,
        List.getElem?_take_of_lt hc, List.getElem?_drop]
      by_cases hkc : k = c
      · subst hkc
        rw [if_pos rfl, if_pos rfl, if_pos (by omega), if_pos (by simp; omega)]
      · rw [if_neg (by omega), if_neg hkc]
    · rw [List.getElem?_eq_none (by simp; omega), List.getElem?_eq_none (by simp; omega)]
  · have h1 : (xs.set (off + k) v).take off = xs.take off := List.take_set_of_le (by omega)
    have h2 : (xs.set (off + k) v).drop (off + n) = xs.drop (off + n) := List.drop_set_of_lt (by omega)
    rw [h1, h2]

theorem index_k {b off n k : Nat} (h : Inv s w) (hg : w.Has (.of b off n)) (hk : k < n) :
    onMem (Iter.index · (Iter.begin_ (.at b off)) k) s = .ok ⟨b, off + k⟩ s := by
  obtain ⟨xs, hb, hl⟩ := hg
  refine onMem_ok ?_
  have hp : Iter.Points s.mem ⟨.at b off⟩ b xs.length off := ⟨rfl, ⟨xs, by rw [h.mem]; exact hb, rfl⟩, by omega, by omega⟩
  show Iter.index s.mem ⟨.at b off⟩ k = _
  rw [Iter.C56_element hp (by omega) (by omega)]
  rfl

theorem runAlgo_ok {b' off n : Nat} {a : Algo α β} {b : β} (h : Reach s w) (hg : w.Has (.of b' off n))
    (ha : a.onList (w.text (.of b' off n)) = some (b, ys)) :
    ∃ s', runAlgo (Iter.begin_ (.at b' off)) a s = .ok b s' ∧ Reach s' (w.fill (.of b' off n) ys) := by
  induction a generalizing s w with
  | ret b'' =>
    simp only [Algo.onList] at ha; cases ha
    exact ⟨s, rfl, by rw [fill_text hg]; exact h⟩
  | read k next ih =>
    simp only [Algo.onList] at ha
    cases hk : (w.text (.of b' off n))[k]? with
    | none => rw [hk] at ha; cases ha
    | some v =>
      rw [hk] at ha
      have hlt : k < n := by
        have := (List.getElem?_eq_some_iff.1 hk).1
        rwa [text_length hg] at this
      obtain ⟨s', h1, h2⟩ := ih v h hg ha
      have e : onMem (Loc.read · ⟨b', off + k⟩) s = .ok v s := by
        refine onMem_ok ?_
        obtain ⟨xs, hb, hl⟩ := hg
        simp only [Know.text, hb] at hk
        rw [List.getElem?_take_of_lt hlt, List.getElem?_drop] at hk
        simp [Loc.read, h.inv.mem, hb, hk]
      exact ⟨s', (M.bind_ok (index_k h.inv hg hlt)).trans ((M.bind_ok e).trans h1), h2⟩
  | put k v next ih =>
    simp only [Algo.onList] at ha
    split at ha
    · rename_i hk
      rw [text_length hg] at hk
      have hk : k < n := hk
      obtain ⟨h1, h2, -, h4⟩ := put_fill (v := v) hg hk
      obtain ⟨xs, hb, hl⟩ := id hg
      have e := assign_loc (v := v) h.inv hb (i := off + k) (by omega)
      have hr := h.ok (op := .poke b' (off + k) v) (.poke hb (by omega)) e
      have hp : w.put (.of b' off n) k v = { w with M := upd w.M b' (some (xs.set (off + k) v)) } := by
        simp only [Know.put, hb]
      rw [← hp] at hr
      rw [← h2] at ha
      obtain ⟨s2, h5, h6⟩ := ih hr h1 ha
      rw [h4] at h6
      exact ⟨s2, (M.bind_ok (index_k h.inv hg hk)).trans ((M.bind_ok e).trans h5), h6⟩
    · cases ha

theorem fill_R (w : Know α) (g : Seg) (ys : List α) : (w.fill g ys).R = w.R := by
  cases g with
  | nil => rfl
  | of b off n => simp only [Know.fill]; cases w.M b <;> rfl

/-- C110, array_ref: every algorithm that stays within the range does to the elements a reference denotes what it does to a
list, and returns the same.  It cannot fail, and it changes nothing else: the elements of the array before and after, other
arrays, and what each reference denotes stay. -/
theorem C110_array_ref {a : Algo α β} {b : β} (h : Reach s w) (hr : w.R r = some g) (hg : w.Has g)
    (ha : a.onList (w.text g) = some (b, ys)) :
    ∃ s' w', onRef r a s = .ok b s' ∧ Reach s' w' ∧ Shows s' r g ys ∧ w'.R = w.R ∧
      (∀ c, (∀ off n, g ≠ .of c off n) → w'.M c = w.M c) ∧
      ∀ c off n xs, g = .of c off n → w.M c = some xs → w'.M c = some (xs.take off ++ ys ++ xs.drop (off + n)) := by
  have hinv := h.inv
  have hlen : ys.length = g.len := (Algo.onList_length a ha).trans (text_length hg)
  have hld : load r s = .ok (rep g) s := load_ok (hinv.at hr)
  cases g with
  | nil =>
    have : w.text .nil = [] := rfl
    rw [this] at ha
    have hys : ys = [] := List.length_eq_zero_iff.1 hlen
    subst hys
    refine ⟨s, w, (M.bind_ok hld).trans ?_, h, hinv.shows hr hg, rfl, fun _ _ => rfl, fun c off n xs e => by cases e⟩
    cases a with
    | ret b' => simp only [Algo.onList] at ha; cases ha; rfl
    | read k next => simp [Algo.onList] at ha
    | put k v next => simp [Algo.onList] at ha
  | of c off n =>
    obtain ⟨s', h1, h2⟩ := runAlgo_ok h hg ha
    obtain ⟨xs, hb, hl⟩ := id hg
    have hlen : ys.length = n := hlen
    have e : (w.fill (.of c off n) ys).M = upd w.M c (some (xs.take off ++ ys ++ xs.drop (off + n))) := by
      simp only [Know.fill, hb]
    have hR := fill_R w (.of c off n) ys
    have ht : (w.fill (.of c off n) ys).text (.of c off n) = ys := by
      simp only [Know.text, e, upd_same]
      rw [List.append_assoc, List.drop_append, List.drop_eq_nil_of_le (by simp; omega), List.length_take,
        Nat.min_eq_left (by omega), Nat.sub_self, List.drop_zero, List.nil_append, ← hlen, List.take_left]
    refine ⟨s', _, (M.bind_ok hld).trans h1, h2, ?_, hR, fun d hd => ?_, fun d off' n' zs e' hz => ?_⟩
    · have := h2.inv.shows (r := r) (g := .of c off n) (by rw [hR]; exact hr) ⟨_, by rw [e]; exact upd_same _ _ _, by simp; omega⟩
      rwa [ht] at this
    · rw [e, upd_ne _ _ (fun hdc => hd off n (by rw [hdc]))]
    · cases e'
      rw [hb] at hz; cases hz
      rw [e, upd_same]

/-- C110, array_ref (swapping): an algorithm that only swaps elements leaves each of them there, as often as before. -/
theorem C110_array_ref_permutes (moved : α → α) {a : Swapping α β} {b : β} (h : Reach s w) (hr : w.R r = some g) (hg : w.Has g)
    (ha : (a.algo moved).onList (w.text g) = some (b, ys)) :
    ∃ s', onRef r (a.algo moved) s = .ok b s' ∧ Shows s' r g ys ∧ ys.Perm (w.text g) := by
  obtain ⟨s', _, h1, _, h2, _⟩ := C110_array_ref h hr hg ha
  exact ⟨s', h1, h2, swapping_perm moved a ha⟩

-- reversing the part 11, 12, 13 of the array 10, …, 14 that reference 1 denotes: the 10 and the 14 stay
example : ∃ s s' w', Reach s demoW ∧ onRef 1 ((Swapping.swap 0 2 (.ret ())).algo id) s = .ok () s' ∧ Reach s' w' ∧
    Shows s' 1 (.of 0 1 3) [13, 12, 11] ∧ Shows s' 0 (.of 0 0 5) [10, 13, 12, 11, 14] := by
  obtain ⟨s, h⟩ := demo
  have hg : demoW.Has (.of 0 1 3) := ⟨_, rfl, by decide⟩
  obtain ⟨s', w', h1, h2, h3, h4, _, h6⟩ := C110_array_ref (ys := [13, 12, 11]) (b := ()) h (r := 1) rfl hg
    (a := (Swapping.swap 0 2 (.ret ())).algo id) (by decide +kernel)
  have hM : w'.M 0 = some [10, 13, 12, 11, 14] := h6 0 1 3 _ rfl rfl
  refine ⟨s, s', w', h, h1, h2, h3, ?_⟩
  have := h2.inv.shows (r := 0) (g := .of 0 0 5) (by rw [h4]; rfl) ⟨_, hM, by decide⟩
  simpa [Know.text, hM] using this

end Ptl.View

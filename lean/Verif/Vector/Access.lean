import Verif.Vector.Hist
import Verif.Order

/-! # Comparison and element access on the vector model (lemmas) -/

namespace Ptl.Vector

variable {α : Type} {T : Elem α} {s : St α Storage}

/-- the elements `xs` are found from pointer `p` on -/
def At (s : St α Storage) (p : Ptr) (xs : List α) : Prop :=
  ∀ k x, xs[k]? = some x → readAt (p.add k) s = .ok x s

theorem At.tail {p : Ptr} {x : α} {xs : List α} (h : At s p (x :: xs)) : At s (p.add 1) xs := by
  intro k y hk
  have := h (k + 1) y (by simpa using hk)
  simpa [Ptr.add, Nat.add_comm, Nat.add_left_comm] using this

theorem At.head {p : Ptr} {x : α} {xs : List α} (h : At s p (x :: xs)) : readAt p s = .ok x s := by
  simpa [Ptr.add] using h 0 x rfl

theorem Inv.at (hinv : Inv T s) {i : Nat} {o : Storage} {xs : List α} (h : abs s (.var i) = some (o, xs)) :
    At s ⟨o.ptr, 0⟩ xs := by
  intro k x hk
  obtain ⟨ho, hg⟩ := hinv.wf.get h
  cases hp : o.ptr with
  | none => obtain ⟨_, rfl⟩ := hg.null hp; cases hk
  | some b =>
    have hlt : k < xs.length := by
      rcases Nat.lt_or_ge k xs.length with h | h
      · exact h
      · rw [List.getElem?_eq_none h] at hk; cases hk
    simp only [Ptr.add, Nat.zero_add]
    refine readAt_ok (hg.own hp).2.2.2.2.2 ?_
    rw [List.getElem?_append_left (by simpa [lv] using hlt)]; simp [lv, hk]

theorem lexLoop_ok (lt : α → α → Bool) : ∀ (xs ys : List α) (p q : Ptr), At s p xs → At s q ys →
    lexLoop lt p xs.length q ys.length s = .ok (lexCompare lt xs ys) s
  | [], [], _, _, _, _ => rfl
  | [], _ :: _, _, _, _, _ => rfl
  | _ :: _, [], _, _, _, _ => rfl
  | x :: xs, y :: ys, p, q, hp, hq => by
    simp only [List.length_cons]
    unfold lexLoop
    mstep hp.head
    mstep hq.head
    unfold lexCompare
    split
    · rfl
    · split
      · rfl
      · exact lexLoop_ok lt xs ys _ _ hp.tail hq.tail

theorem eqLoop_ok (eq : α → α → Bool) : ∀ (xs ys : List α) (p q : Ptr), xs.length = ys.length → At s p xs → At s q ys →
    eqLoop eq p xs.length q s = .ok (equalLoop eq xs ys) s
  | [], [], _, _, _, _, _ => rfl
  | [], _ :: _, _, _, h, _, _ => by cases h
  | _ :: _, [], _, _, h, _, _ => by cases h
  | x :: xs, y :: ys, p, q, h, hp, hq => by
    simp only [List.length_cons]
    unfold eqLoop
    mstep hp.head
    mstep hq.head
    unfold equalLoop
    split
    · exact eqLoop_ok eq xs ys _ _ (by simpa using h) hp.tail hq.tail
    · rfl

theorem Inv.opLt (hinv : Inv T s) (lt : α → α → Bool) {i j : Nat} {xs ys : List α} (hi : vars s i = some xs)
    (hj : vars s j = some ys) : opLt lt (.var i) (.var j) s = .ok (lexCompare lt xs ys) s := by
  obtain ⟨o, ho⟩ := vars_some hi
  obtain ⟨o', ho'⟩ := vars_some hj
  have h1 := hinv.wf.get ho
  have h2 := hinv.wf.get ho'
  unfold Vector.opLt
  mstep (data_ok h1.1)
  mstep (size_ok h1.1)
  mstep (data_ok h2.1)
  mstep (size_ok h2.1)
  rw [h1.2.siz, h2.2.siz]
  exact lexLoop_ok lt xs ys _ _ (hinv.at ho) (hinv.at ho')

theorem Inv.opEq (hinv : Inv T s) (eq : α → α → Bool) {i j : Nat} {xs ys : List α} (hi : vars s i = some xs)
    (hj : vars s j = some ys) : opEq eq (.var i) (.var j) s = .ok (equalRange eq xs ys) s := by
  obtain ⟨o, ho⟩ := vars_some hi
  obtain ⟨o', ho'⟩ := vars_some hj
  have h1 := hinv.wf.get ho
  have h2 := hinv.wf.get ho'
  unfold Vector.opEq
  mstep (data_ok h1.1)
  mstep (size_ok h1.1)
  mstep (data_ok h2.1)
  mstep (size_ok h2.1)
  rw [h1.2.siz, h2.2.siz]
  unfold equalRange
  split
  · rfl
  · rename_i h
    exact eqLoop_ok eq xs ys _ _ (Classical.not_not.1 h) (hinv.at ho) (hinv.at ho')

theorem index_ok {i : Id} {o : Storage} (ho : s.obj i = some o) (k : Nat) : index i k s = .ok ⟨o.ptr, k⟩ s := by
  unfold index
  mstep (data_ok ho)
  simp [Ptr.add]

end Ptl.Vector

import Verif.Vector.Props.History

/-!
# C113: several ways to write the same

Most of what can be done with a vector can be written in several ways: `push_back(x)`, `emplace_back(x)` and `insert(end(), x)`; `clear()`,
`erase(begin(), end())` and `resize(0)`; `swap` and three moves; and so on.  The functions are different (and use their own algorithms),
so do the vectors end up with the same elements, in whatever state and with whatever capacities the calls find them?
-/

namespace Ptl.Vector

variable {α : Type} {T : Elem α} {s s' : St α Storage} {V V' V1 V2 : Vars α}

/-- one call after the other; their results -/
def runEach (T : Elem α) : List (Op α) → VM α (List (Option Nat))
  | [] => pure []
  | op :: ops => do
    let r ← op.run T
    let rs ← runEach T ops
    pure (r :: rs)

/-! ### what means the same (no reference to the model's functions) -/

/-- `Ways T a b V V'`: two ways to get from the contents `V` to the contents `V'` -/
inductive Ways (T : Elem α) : List (Op α) → List (Op α) → Vars α → Vars α → Prop
  /-- `v.push_back(x)`, `v.insert(v.end(), std::move(x))`, `v.emplace(v.end(), x)` -/
  | emplaceEnd {i x v xs V V1} : x.Takes T.moved V v V1 → V1 i = some xs →
      Ways T [.pushBack i x] [.emplace i xs.length x] V (upd V1 i (some (xs ++ [v])))
  /-- `v.push_back(x)`, `v.insert(v.end(), x)` -/
  | insertEnd {i x v xs V} : x.Is V v → V i = some xs → Fits xs 1 →
      Ways T [.pushBack i (.ref x)] [.insertFill i xs.length 1 x] V (upd V i (some (xs ++ [v])))
  /-- `v.insert(pos, x)`, `v.emplace(pos, x)` -/
  | insertOne {i x v pre post V} : x.Is V v → V i = some (pre ++ post) → Fits (pre ++ post) 1 →
      Ways T [.insertFill i pre.length 1 x] [.emplace i pre.length (.ref x)] V (upd V i (some (pre ++ [v] ++ post)))
  /-- `v.insert(pos, n, x)`, `v.insert(pos, {x, …, x})` -/
  | insertFill {i n x v pre post V} : x.Is V v → V i = some (pre ++ post) → Fits (pre ++ post) n →
      Ways T [.insertFill i pre.length n x] [.insertRange i pre.length (.refs (List.replicate n x))] V
        (upd V i (some (pre ++ List.replicate n v ++ post)))
  /-- `v.insert(pos, first, last)` for input and for forward iterators -/
  | insertInput {i vs pre post V} : V i = some (pre ++ post) → Fits (pre ++ post) vs.length →
      Ways T [.insertInput i pre.length vs] [.insertRange i pre.length (.refs (vs.map .val))] V (upd V i (some (pre ++ vs ++ post)))
  /-- a range at once, or in two parts (the second one first) -/
  | insertParts {i vs ws pre post V} : V i = some (pre ++ post) → Fits (pre ++ post) (vs ++ ws).length →
      Ways T [.insertRange i pre.length (.refs ((vs ++ ws).map .val))]
        [.insertRange i pre.length (.refs (ws.map .val)), .insertRange i pre.length (.refs (vs.map .val))] V
        (upd V i (some (pre ++ (vs ++ ws) ++ post)))
  /-- `v.erase(pos)`, `v.erase(pos, pos + 1)` -/
  | eraseOne {i x pre post V} : V i = some (pre ++ [x] ++ post) →
      Ways T [.eraseOne i pre.length] [.erase i pre.length (pre.length + 1)] V (upd V i (some (pre ++ post)))
  /-- `v.pop_back()`, `v.erase(v.end() - 1)` -/
  | popBack {i x xs V} : V i = some (xs ++ [x]) → Ways T [.popBack i] [.eraseOne i xs.length] V (upd V i (some xs))
  /-- a range at once, or in two parts -/
  | eraseParts {i pre as bs post V} : V i = some (pre ++ (as ++ bs) ++ post) → as ≠ [] → bs ≠ [] →
      Ways T [.erase i pre.length (pre.length + (as ++ bs).length)]
        [.erase i (pre ++ as).length ((pre ++ as).length + bs.length), .erase i pre.length (pre.length + as.length)] V
        (upd V i (some (pre ++ post)))
  /-- `v.clear()`, `v.erase(v.begin(), v.end())` -/
  | clearErase {i xs V} : V i = some xs → Ways T [.clear i] [.erase i 0 xs.length] V (upd V i (some []))
  /-- `v.clear()`, `v.resize(0)` -/
  | clearResize {i xs V} : V i = some xs → Ways T [.clear i] [.resize i 0] V (upd V i (some []))
  /-- `v.clear()`, `v = {}` (from an empty list), `v.assign(0, x)` -/
  | clearAssign {i xs V} : V i = some xs → Fits xs 0 → Ways T [.clear i] [.assignRange i (.refs [])] V (upd V i (some []))
  | clearFill {i x v xs V} : V i = some xs → x.Is V v → Fits xs 0 → Ways T [.clear i] [.assignFill i 0 x] V (upd V i (some []))
  /-- `v.resize(n)` with more elements, and `v.resize(n, T{})`, `v.insert(v.end(), n - v.size(), T{})` -/
  | resizeFill {i n xs V} : V i = some xs → xs.length + n < 2 ^ 64 →
      Ways T [.resize i (xs.length + n)] [.resizeFill i (xs.length + n) (.val T.dflt)] V
        (upd V i (some (xs ++ List.replicate n T.dflt)))
  | resizeInsert {i n x v xs V} : V i = some xs → x.Is V v → xs.length + n < 2 ^ 64 →
      Ways T [.resizeFill i (xs.length + n) x] [.insertFill i xs.length n x] V (upd V i (some (xs ++ List.replicate n v)))
  /-- `v.resize(n)` with fewer elements, `v.erase(v.begin() + n, v.end())` -/
  | resizeErase {i xs ys V} : V i = some (xs ++ ys) →
      Ways T [.resize i xs.length] [.erase i xs.length (xs.length + ys.length)] V (upd V i (some xs))
  /-- `v.assign(first, last)`, and `v.clear(); v.insert(v.end(), first, last)` -/
  | assignRange {i xs vs V} : V i = some xs → Fits xs vs.length →
      Ways T [.assignRange i (.refs (vs.map .val))] [.clear i, .insertRange i 0 (.refs (vs.map .val))] V (upd V i (some vs))
  | assignInput {i xs vs V} : V i = some xs → Fits xs vs.length →
      Ways T [.assignInput i vs] [.assignRange i (.refs (vs.map .val))] V (upd V i (some vs))
  /-- `v = w`, and a new vector constructed from `w` -/
  | assignCopy {i j xs ys V} : V i = some xs → V j = some ys → i ≠ j →
      Ways T [.assignCopy i j] [.dtor i, .ctorCopy i j] V (upd V i (some ys))
  /-- `v = std::move(w)`, and `v.swap(w); w.clear()` -/
  | assignMove {i j xs ys V} : V i = some xs → V j = some ys → i ≠ j →
      Ways T [.assignMove i j] [.swap i j, .clear j] V (upd (upd V i (some ys)) j (some []))
  /-- `v.swap(w)`, `w.swap(v)` -/
  | swapSymm {i j xs ys V} : V i = some xs → V j = some ys →
      Ways T [.swap i j] [.swap j i] V (upd (upd V i (some ys)) j (some xs))
  /-- `v.swap(w)`, and `auto tmp = std::move(v); v = std::move(w); w = std::move(tmp);` -/
  | swapMoves {i j t xs ys V} : V i = some xs → V j = some ys → V t = none → i ≠ j →
      Ways T [.swap i j] [.ctorMove t i, .assignMove i j, .assignMove j t, .dtor t] V (upd (upd V i (some ys)) j (some xs))
  /-- `vector v{std::move(w)};`, and `vector v; v.swap(w);` -/
  | ctorMove {i j ys V} : V i = none → V j = some ys →
      Ways T [.ctorMove i j] [.ctorDefault i, .swap i j] V (upd (upd V i (some ys)) j (some []))
  /-- `vector v{w};`, and `vector v; v = w;` -/
  | ctorCopy {i j ys V} : V i = none → V j = some ys → Ways T [.ctorCopy i j] [.ctorDefault i, .assignCopy i j] V (upd V i (some ys))
  /-- `vector v(n);`, and `vector v; v.resize(n);` -/
  | ctorCount {i n V} : V i = none → n < 2 ^ 64 →
      Ways T [.ctorCount i n] [.ctorDefault i, .resize i n] V (upd V i (some (List.replicate n T.dflt)))
  /-- `vector v(first, last);`, and `vector v; v.insert(v.end(), first, last);` -/
  | ctorRange {i vs V} : V i = none → vs.length < 2 ^ 64 →
      Ways T [.ctorRange i (.refs (vs.map .val))] [.ctorDefault i, .insertRange i 0 (.refs (vs.map .val))] V (upd V i (some vs))
  /-- `v.reserve(n)` and no call at all -/
  | reserve {i n xs V} : V i = some xs → n < 2 ^ 64 → Ways T [.reserve i n] [] V V
  /-- and the other way round -/
  | symm {a b V V'} : Ways T a b V V' → Ways T b a V V'

/-- the calls are within their preconditions, one after the other, and do not include `shrink_to_fit` (which may end the program, C89) -/
inductive Specs (T : Elem α) : List (Op α) → Vars α → Vars α → List (Option Nat) → Prop
  | nil {V : Vars α} : Specs T [] V V []
  | cons {op ops V V1 V2 r rs} : (∀ i, op ≠ .shrinkToFit i) → Spec T op V V1 r → Specs T ops V1 V2 rs → Specs T (op :: ops) V V2 (r :: rs)

/-- if both end with a call that returns an iterator (or a reference), it is the same position -/
def SamePos (rs rs' : List (Option Nat)) : Prop :=
  ∀ p q, rs.getLast? = some (some p) → rs'.getLast? = some (some q) → p = q

/-- in both states, the same vectors are alive, and they have the same elements -/
def Alike (s s' : St α Storage) : Prop :=
  ∀ i, (s.obj (.var i) = none ∧ s'.obj (.var i) = none) ∨ ∃ d c d' c' xs, Shows s i d c xs ∧ Shows s' i d' c' xs

theorem Agrees.alike (h : Agrees s V) (h' : Agrees s' V) : Alike s s' := by
  intro i
  cases hv : V i with
  | none => exact .inl ⟨(h i).2 hv, (h' i).2 hv⟩
  | some xs =>
    obtain ⟨d, c, h1⟩ := (h i).1 xs hv
    obtain ⟨d', c', h2⟩ := (h' i).1 xs hv
    exact .inr ⟨d, c, d', c', xs, h1, h2⟩

theorem Specs.append {a b : List (Op α)} {rs rs' : List (Option Nat)} (h : Specs T a V V1 rs) (h' : Specs T b V1 V2 rs') :
    Specs T (a ++ b) V V2 (rs ++ rs') := by
  induction h with
  | nil => exact h'
  | cons h1 h2 _ ih => exact .cons h1 h2 (ih h')

theorem Specs.run {ops : List (Op α)} {rs : List (Option Nat)} (h : Reach T s V) (hs : Specs T ops V V' rs) :
    match runEach T ops s with
    | .ok r t => r = rs ∧ Reach T t V'
    | .exc _ _ => True
    | _ => False := by
  induction hs generalizing s with
  | nil => exact ⟨rfl, h⟩
  | @cons op ops V V1 V2 r rs hop h1 _ ih =>
    have hc := C01_call h h1
    unfold runEach
    cases hr : op.run T s with
    | ub => rw [hr] at hc; exact hc.elim
    | term => rw [hr] at hc; obtain ⟨⟨i, hi⟩, _⟩ := hc; exact (hop i hi).elim
    | exc e t => rw [M.bind_exc hr]; trivial
    | ok r' t =>
      rw [hr] at hc
      rw [M.bind_ok hr]
      have h2 := ih hc.2.1
      cases hr2 : runEach T ops t with
      | ub => rw [hr2] at h2; exact h2.elim
      | term => rw [hr2] at h2; exact h2.elim
      | exc e u => rw [M.bind_exc hr2]; trivial
      | ok rs' u =>
        rw [hr2] at h2
        rw [M.bind_ok hr2]
        exact ⟨by rw [hc.1, h2.1], h2.2⟩

theorem Specs.one {op : Op α} {r : Option Nat} (hop : ∀ i, op ≠ .shrinkToFit i) (h : Spec T op V V' r) : Specs T [op] V V' [r] :=
  .cons hop h .nil

theorem Specs.two {op op' : Op α} {r r' : Option Nat} (hop : ∀ i, op ≠ .shrinkToFit i) (hop' : ∀ i, op' ≠ .shrinkToFit i)
    (h : Spec T op V V1 r) (h' : Spec T op' V1 V' r') : Specs T [op, op'] V V' [r, r'] :=
  .cons hop h (.one hop' h')

theorem spec_cast {op op' : Op α} {r r' : Option Nat} (h : Spec T op V V' r) (e : op = op') (e' : V' = V2) (e'' : r = r') :
    Spec T op' V V2 r' := by cases e; cases e'; cases e''; exact h

theorem areAll_replicate {x : Src α} {v : α} (h : x.Is V v) (n : Nat) : Src.AreAll V (List.replicate n x) (List.replicate n v) := by
  induction n with
  | zero => exact .nil
  | succ n ih => exact .cons h ih

theorem SamePos.symm {rs rs' : List (Option Nat)} (h : SamePos rs rs') : SamePos rs' rs := fun p q hp hq => (h q p hq hp).symm

theorem samePos (p : Nat) (rs rs' : List (Option Nat)) : SamePos (rs ++ [some p]) (rs' ++ [some p]) := by
  intro a b ha hb; simp at ha hb; omega

theorem samePos_l (rs rs' : List (Option Nat)) : SamePos (rs ++ [none]) rs' := by intro a b ha; simp at ha
theorem samePos_r (rs rs' : List (Option Nat)) : SamePos rs (rs' ++ [none]) := by intro a b _ hb; simp at hb

/-- every entry of the table: both ways are within their preconditions, and mean the same -/
theorem Ways.specs {a b : List (Op α)} (h : Ways T a b V V') :
    ∃ rs rs', Specs T a V V' rs ∧ Specs T b V V' rs' ∧ SamePos rs rs' := by
  have ns : ∀ {op : Op α}, (match op with | .shrinkToFit _ => False | _ => True) → ∀ i, op ≠ .shrinkToFit i := by
    intro op h i e; subst e; exact h
  induction h with
  | @emplaceEnd i x v xs V V1 h1 h2 =>
    exact ⟨_, _, .one (ns trivial) (.pushBack h1 h2), .one (ns trivial) (spec_cast (.emplace (pre := xs) (post := []) h1
          (by simpa using h2)) rfl (by simp) rfl),
      samePos _ [] []⟩
  | @insertEnd i x v xs V h1 h2 h3 =>
    exact ⟨_, _, .one (ns trivial) (.pushBack (.ref h1) h2),
      .one (ns trivial) (spec_cast (.insertFill (n := 1) (pre := xs) (post := []) h1 (by simpa using h2) (by simpa using h3)) rfl
          (by simp) rfl),
      samePos _ [] []⟩
  | insertOne h1 h2 h3 =>
    exact ⟨_, _, .one (ns trivial) (.insertFill (n := 1) h1 h2 h3), .one (ns trivial) (.emplace (.ref h1) h2), samePos _ [] []⟩
  | @insertFill i n x v pre post V h1 h2 h3 =>
    exact ⟨_, _, .one (ns trivial) (.insertFill h1 h2 h3),
      .one (ns trivial) (.insertRange (.refs (areAll_replicate h1 n)) h2 (by simpa using h3)), samePos _ [] []⟩
  | insertInput h1 h2 =>
    exact ⟨_, _, .one (ns trivial) (.insertInput h1 h2), .one (ns trivial) (.insertRange (.refs (AreAll.vals _)) h1 h2), samePos _ [] []⟩
  | @insertParts i vs ws pre post V h1 h2 =>
    exact ⟨_, _, .one (ns trivial) (.insertRange (.refs (AreAll.vals _)) h1 h2),
      .two (ns trivial) (ns trivial) (.insertRange (.refs (AreAll.vals _)) h1 (by simp [Fits] at h2 ⊢; omega))
        (spec_cast (.insertRange (pre := pre) (post := ws ++ post) (vs := vs) (.refs (AreAll.vals _)) (by simp)
          (by simp [Fits] at h2 ⊢; omega)) rfl (by simp) rfl),
      samePos _ [] [_]⟩
  | @eraseOne i x pre post V h1 =>
    exact ⟨_, _, .one (ns trivial) (.eraseOne h1), .one (ns trivial) (.erase (mid := [x]) h1 (.inl (by simp))), samePos _ [] []⟩
  | @popBack i x xs V h1 =>
    exact ⟨_, _, .one (ns trivial) (.popBack h1), .one (ns trivial) (spec_cast (.eraseOne (pre := xs) (x := x) (post := [])
          (by simpa using h1)) rfl (by simp) rfl),
      samePos_l [] _⟩
  | @eraseParts i pre as bs post V h1 ha hb =>
    refine ⟨_, _, .one (ns trivial) (.erase h1 (.inl (by simp [ha]))),
      .two (ns trivial) (ns trivial) (.erase (pre := pre ++ as) (mid := bs) (post := post) (by simpa using h1) (.inl hb))
        (spec_cast (.erase (pre := pre) (mid := as) (post := post) (upd_same _ _ _) (.inl ha)) rfl (by simp) rfl), samePos _ [] [_]⟩
  | @clearErase i xs V h1 =>
    exact ⟨_, _, .one (ns trivial) (.clear h1), .one (ns trivial) (spec_cast (.erase (pre := []) (mid := xs) (post := [])
          (by simpa using h1) (.inr (by simp)))
      (by simp) (by simp) rfl), samePos_l [] _⟩
  | @clearResize i xs V h1 =>
    exact ⟨_, _, .one (ns trivial) (.clear h1), .one (ns trivial) (.resizeShrink (xs := []) (ys := xs) h1), samePos_l [] _⟩
  | clearAssign h1 h2 =>
    exact ⟨_, _, .one (ns trivial) (.clear h1), .one (ns trivial) (.assignRange h1 (.refs .nil) h2), samePos_l [] _⟩
  | clearFill h1 h2 h3 =>
    exact ⟨_, _, .one (ns trivial) (.clear h1), .one (ns trivial) (.assignFill (n := 0) h1 h2 h3), samePos_l [] _⟩
  | resizeFill h1 h2 =>
    exact ⟨_, _, .one (ns trivial) (.resizeGrow h1 h2), .one (ns trivial) (.resizeFillGrow h1 (.val _) h2), samePos_l [] _⟩
  | @resizeInsert i n x v xs V h1 h2 h3 =>
    exact ⟨_, _, .one (ns trivial) (.resizeFillGrow h1 h2 h3),
      .one (ns trivial) (spec_cast (.insertFill (n := n) (pre := xs) (post := []) h2 (by simpa using h1) (by simpa using h3)) rfl
          (by simp) rfl), samePos_l [] _⟩
  | @resizeErase i xs ys V h1 =>
    exact ⟨_, _, .one (ns trivial) (.resizeShrink h1),
      .one (ns trivial) (spec_cast (.erase (pre := xs) (mid := ys) (post := []) (by simpa using h1) (.inr (by simp))) rfl
          (by simp) rfl), samePos_l [] _⟩
  | @assignRange i xs vs V h1 h2 =>
    exact ⟨_, _, .one (ns trivial) (.assignRange h1 (.refs (AreAll.vals _)) h2),
      .two (ns trivial) (ns trivial) (.clear h1) (spec_cast (.insertRange (pre := []) (post := []) (vs := vs) (.refs (AreAll.vals _))
          (upd_same _ _ _) (by simp [Fits] at h2 ⊢; omega))
        rfl (by simp) rfl), samePos_l [] _⟩
  | assignInput h1 h2 =>
    exact ⟨_, _, .one (ns trivial) (.assignInput h1), .one (ns trivial) (.assignRange h1 (.refs (AreAll.vals _)) h2), samePos_l [] _⟩
  | assignCopy h1 h2 hij =>
    exact ⟨_, _, .one (ns trivial) (.assignCopy h1 h2), .two (ns trivial) (ns trivial) (.dtor h1)
      (spec_cast (.ctorCopy (upd_same _ _ _) (by rw [upd_ne _ _ (Ne.symm hij)]; exact h2)) rfl (by simp) rfl), samePos_l [] _⟩
  | assignMove h1 h2 hij =>
    exact ⟨_, _, .one (ns trivial) (.assignMove h1 h2 hij), .two (ns trivial) (ns trivial) (.swap h1 h2)
      (spec_cast (.clear (upd_same _ _ _)) rfl (by simp) rfl), samePos_l [] _⟩
  | @swapSymm i j xs ys V h1 h2 =>
    refine ⟨_, _, .one (ns trivial) (.swap h1 h2), .one (ns trivial) (spec_cast (.swap h2 h1) rfl ?_ rfl), samePos_l [] _⟩
    by_cases hij : i = j
    · subst hij; rw [h1] at h2; cases h2; rfl
    · exact upd_comm _ _ _ (Ne.symm hij)
  | @swapMoves i j t xs ys V h1 h2 h3 hij =>
    have hti : t ≠ i := by intro e; rw [e, h1] at h3; cases h3
    have htj : t ≠ j := by intro e; rw [e, h2] at h3; cases h3
    refine ⟨_, _, .one (ns trivial) (.swap h1 h2), .cons (ns trivial) (.ctorMove h3 h1) (.cons (ns trivial)
      (.assignMove (upd_same _ _ _) (by rw [upd_ne _ _ (Ne.symm hij), upd_ne _ _ (Ne.symm htj)]; exact h2) hij)
      (.two (ns trivial) (ns trivial) (.assignMove (xs := []) (ys := xs) (upd_same _ _ _)
          (by rw [upd_ne _ _ htj, upd_ne _ _ hti, upd_ne _ _ hti, upd_same]) (Ne.symm htj))
        (spec_cast (.dtor (upd_same _ _ _)) rfl ?_ rfl))), samePos_l [] _⟩
    funext k
    by_cases k1 : k = t <;> by_cases k2 : k = i <;> by_cases k3 : k = j <;> simp_all [upd]
  | @ctorMove i j ys V h1 h2 =>
    have hij : i ≠ j := by intro e; rw [e, h2] at h1; cases h1
    exact ⟨_, _, .one (ns trivial) (.ctorMove h1 h2), .two (ns trivial) (ns trivial) (.ctorDefault h1)
      (spec_cast (.swap (upd_same _ _ _) (by rw [upd_ne _ _ (Ne.symm hij)]; exact h2)) rfl (by simp) rfl), samePos_l [] _⟩
  | @ctorCopy i j ys V h1 h2 =>
    have hij : i ≠ j := by intro e; rw [e, h2] at h1; cases h1
    exact ⟨_, _, .one (ns trivial) (.ctorCopy h1 h2), .two (ns trivial) (ns trivial) (.ctorDefault h1)
      (spec_cast (.assignCopy (upd_same _ _ _) (by rw [upd_ne _ _ (Ne.symm hij)]; exact h2)) rfl (by simp) rfl), samePos_l [] _⟩
  | @ctorCount i n V h1 h2 =>
    exact ⟨_, _, .one (ns trivial) (.ctorCount h1 h2), .two (ns trivial) (ns trivial) (.ctorDefault h1)
      (spec_cast (.resizeGrow (xs := []) (n := n) (upd_same _ _ _) (by simpa using h2)) (by simp) (by simp) rfl), samePos_l [] _⟩
  | @ctorRange i vs V h1 h2 =>
    exact ⟨_, _, .one (ns trivial) (.ctorRange h1 (.refs (AreAll.vals _)) (by simpa [Fits] using h2)), .two (ns trivial) (ns trivial)
          (.ctorDefault h1)
      (spec_cast (.insertRange (pre := []) (post := []) (vs := vs) (.refs (AreAll.vals _)) (upd_same _ _ _)
          (by simpa [Fits] using h2)) rfl (by simp) rfl), samePos_l [] _⟩
  | reserve h1 h2 => exact ⟨_, _, .one (ns trivial) (.reserve h1 h2), .nil, samePos_l [] _⟩
  | symm _ ih => obtain ⟨rs, rs', h1, h2, h3⟩ := ih; exact ⟨rs', rs, h2, h1, h3.symm⟩

/-- C113: in every program, one of the ways can be exchanged for another: whatever the calls before (`p`) and after (`q`) are, and
whatever the capacities and addresses are in the states `s` and `s'` with the same contents, the results of all calls and the contents
of all vectors in the end are the same, provided that no call throws.  (And no call is undefined or ends the program.) -/
theorem C113_vector {p a b q : List (Op α)} {rp rq : List (Option Nat)} {V3 : Vars α} (h : Reach T s V) (h' : Reach T s' V)
    (hp : Specs T p V V1 rp) (hw : Ways T a b V1 V2) (hq : Specs T q V2 V3 rq) :
    match runEach T (p ++ a ++ q) s, runEach T (p ++ b ++ q) s' with
    | .ok r t, .ok r' t' => Alike t t' ∧ ∃ ra rb, r = rp ++ ra ++ rq ∧ r' = rp ++ rb ++ rq ∧ SamePos ra rb
    | .ub _, _ | .term, _ | _, .ub _ | _, .term => False
    | _, _ => True := by
  obtain ⟨ra, rb, ha, hb, hpos⟩ := hw.specs
  have h1 := ((hp.append ha).append hq).run h
  have h2 := ((hp.append hb).append hq).run h'
  cases hr : runEach T (p ++ a ++ q) s with
  | ub => rw [hr] at h1; exact h1
  | term => rw [hr] at h1; exact h1
  | exc e t =>
    cases hr' : runEach T (p ++ b ++ q) s' with
    | ub => rw [hr'] at h2; exact h2
    | term => rw [hr'] at h2; exact h2
    | exc | ok => trivial
  | ok r t =>
    rw [hr] at h1
    cases hr' : runEach T (p ++ b ++ q) s' with
    | ub => rw [hr'] at h2; exact h2
    | term => rw [hr'] at h2; exact h2
    | exc => trivial
    | ok r' t' =>
      rw [hr'] at h2
      exact ⟨h1.2.agrees.alike h2.2.agrees, ra, rb, h1.1, h2.1, hpos⟩

/-- C113: the capacities do not matter: the same calls give the same results and contents wherever the contents are the same. -/
theorem C113_same {q : List (Op α)} {rq : List (Option Nat)} (h : Reach T s V) (h' : Reach T s' V) (hq : Specs T q V V1 rq) :
    match runEach T q s, runEach T q s' with
    | .ok r t, .ok r' t' => Alike t t' ∧ r = r'
    | .ub _, _ | .term, _ | _, .ub _ | _, .term => False
    | _, _ => True := by
  have h1 := hq.run h
  have h2 := hq.run h'
  cases hr : runEach T q s with
  | ub => rw [hr] at h1; exact h1
  | term => rw [hr] at h1; exact h1
  | exc e t =>
    cases hr' : runEach T q s' with
    | ub => rw [hr'] at h2; exact h2
    | term => rw [hr'] at h2; exact h2
    | exc | ok => trivial
  | ok r t =>
    rw [hr] at h1
    cases hr' : runEach T q s' with
    | ub => rw [hr'] at h2; exact h2
    | term => rw [hr'] at h2; exact h2
    | exc => trivial
    | ok r' t' =>
      rw [hr'] at h2
      exact ⟨h1.2.agrees.alike h2.2.agrees, h1.1.trans h2.1.symm⟩

/-! ### instances -/

/-- the calls, and then what the client reads from vectors 0 and 1 -/
def afterEach (ops : List (Op Nat)) : Option (List (Option Nat) × List Nat × List Nat) :=
  match (do let r ← runEach natElem ops; let x ← readBack 0; let y ← readBack 1; pure (r, x, y) : VM Nat _) (start Nat fun _ => false) with
  | .ok a _ => some a
  | _ => none

-- vectors 1, 2, 3 (with more capacity) and 7, 8; `swap`, or three moves; then a call of `push_back`
example :
    let p := [Op.ctorRange 0 (.refs [.val 1, .val 2, .val 3]), .ctorRange 1 (.refs [.val 7, .val 8]), .reserve 0 40]
    let q := [Op.pushBack 0 (.ref (.elem 1 0))]
    afterEach (p ++ [.swap 0 1] ++ q) = some ([none, none, none] ++ [none] ++ [some 2], [7, 8, 1], [1, 2, 3]) ∧
    afterEach (p ++ [.ctorMove 2 0, .assignMove 0 1, .assignMove 1 2, .dtor 2] ++ q) =
      some ([none, none, none] ++ [none, none, none, none] ++ [some 2], [7, 8, 1], [1, 2, 3]) := by decide +kernel

example : ∃ V', Ways natElem [.swap 0 1] [.ctorMove 2 0, .assignMove 0 1, .assignMove 1 2, .dtor 2]
    (upd (upd (fun _ => none) 0 (some [1, 2, 3])) 1 (some [7, 8])) V' ∧ V' 0 = some [7, 8] ∧ V' 1 = some [1, 2, 3] :=
  ⟨_, .swapMoves (xs := [1, 2, 3]) (ys := [7, 8]) rfl rfl rfl (by decide), rfl, rfl⟩

end Ptl.Vector

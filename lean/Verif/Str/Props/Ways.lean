import Verif.Str.Props.History

/-!
# C113: several ways to write the same, for strings

As for vectors (Vector/Props/Ways.lean): `push_back(c)`, `append(1, c)` and `insert(end(), c)`; `replace`, and `erase` and `insert`; and so on.
-/

namespace Ptl.Str

variable {s s' : St} {V V' V1 V2 : Vars}

/-- one call after the other; their results -/
def runEach : List Op → SM (List (Option Nat))
  | [] => pure []
  | op :: ops => do
    let r ← op.run
    let rs ← runEach ops
    pure (r :: rs)

/-! ### what means the same (no reference to the model's functions) -/

/-- `Ways a b V V'`: two ways to get from the contents `V` to the contents `V'` -/
inductive Ways : List Op → List Op → Vars → Vars → Prop
  /-- `s.push_back(c)`, `s.append(1, c)` -/
  | pushAppend {i c xs V} : V i = some xs → xs.length + 1 < 2 ^ 64 →
      Ways [.pushBack i c] [.appendFill i 1 c] V (upd V i (some (xs ++ [c])))
  /-- `s.push_back(c)`, `s.insert(s.end(), c)` -/
  | pushInsert {i c xs V} : V i = some xs → xs.length + 1 < 2 ^ 64 →
      Ways [.pushBack i c] [.insertFill i xs.length 1 c] V (upd V i (some (xs ++ [c])))
  /-- `s.push_back(c)`, `s.resize(s.size() + 1, c)` -/
  | pushResize {i c xs V} : V i = some xs → Ways [.pushBack i c] [.resize i (xs.length + 1) c] V (upd V i (some (xs ++ [c])))
  /-- `s += t`, `s.insert(s.end(), t)`, for views of other strings and of the string itself -/
  | appendInsert {i l bs xs V} : V i = some xs → Src.AreAll V l bs → Room (xs.length + bs.length) →
      Ways [.appendRange i l] [.insertRange i xs.length l] V (upd V i (some (xs ++ bs)))
  /-- input and forward iterators, lists, views -/
  | appendInput {i l bs xs V} : V i = some xs → Src.AreAll V l bs → Room (xs.length + bs.length) →
      Ways [.appendInput i l] [.appendRange i l] V (upd V i (some (xs ++ bs)))
  | appendIlist {i bs xs V} : V i = some xs → Room (xs.length + bs.length) →
      Ways [.appendIlist i bs] [.appendRange i (bs.map .val)] V (upd V i (some (xs ++ bs)))
  | assignInput {i l bs xs V} : V i = some xs → Src.AreAll V l bs → Room (xs.length + bs.length) →
      Ways [.assignInput i l] [.assignRange i l] V (upd V i (some bs))
  | assignIlist {i bs xs V} : V i = some xs → Room (xs.length + bs.length) →
      Ways [.assignIlist i bs] [.assignRange i (bs.map .val)] V (upd V i (some bs))
  | insertInput {i l bs pre post V} : V i = some (pre ++ post) → Src.AreAll V l bs → Room ((pre ++ post).length + bs.length) →
      Ways [.insertInput i pre.length l] [.insertRange i pre.length l] V (upd V i (some (pre ++ bs ++ post)))
  | insertIlist {i bs pre post V} : V i = some (pre ++ post) → Room ((pre ++ post).length + bs.length) →
      Ways [.insertIlist i pre.length bs] [.insertRange i pre.length (bs.map .val)] V (upd V i (some (pre ++ bs ++ post)))
  | replaceInput {i l bs pre mid post V} : V i = some (pre ++ mid ++ post) → Src.AreAll V l bs → Room
          ((pre ++ mid ++ post).length + bs.length) →
      Ways [.replaceInput i pre.length (pre.length + mid.length) l] [.replaceRange i pre.length (pre.length + mid.length) l] V
        (upd V i (some (pre ++ bs ++ post)))
  | replaceIlist {i bs pre mid post V} : V i = some (pre ++ mid ++ post) → Room ((pre ++ mid ++ post).length + bs.length) →
      Ways [.replaceIlist i pre.length (pre.length + mid.length) bs]
        [.replaceRange i pre.length (pre.length + mid.length) (bs.map .val)] V (upd V i (some (pre ++ bs ++ post)))
  /-- `s.insert(pos, n, c)`, and a list of `n` characters -/
  | insertFill {i n c pre post V} : V i = some (pre ++ post) → (pre ++ post).length + n < 2 ^ 64 →
      Ways [.insertFill i pre.length n c] [.insertIlist i pre.length (List.replicate n c)] V (upd V i (some
          (pre ++ List.replicate n c ++ post)))
  /-- `s.replace(first, last, t)`, and `s.erase(first, last); s.insert(first, t);` -/
  | replace {i bs pre mid post V} : V i = some (pre ++ mid ++ post) → Room ((pre ++ mid ++ post).length + bs.length) →
      Ways [.replaceRange i pre.length (pre.length + mid.length) (bs.map .val)]
        [.erase i pre.length (pre.length + mid.length), .insertRange i pre.length (bs.map .val)] V (upd V i (some (pre ++ bs ++ post)))
  /-- replacing nothing, or by nothing -/
  | replaceNone {i l bs pre post V} : V i = some (pre ++ post) → Src.AreAll V l bs → Room ((pre ++ post).length + bs.length) →
      Ways [.replaceRange i pre.length pre.length l] [.insertRange i pre.length l] V (upd V i (some (pre ++ bs ++ post)))
  | replaceEmpty {i pre mid post V} : V i = some (pre ++ mid ++ post) → (pre ++ mid ++ post).length < 2 ^ 64 →
      Ways [.replaceIlist i pre.length (pre.length + mid.length) []] [.erase i pre.length (pre.length + mid.length)] V
        (upd V i (some (pre ++ post)))
  /-- `s.replace(s.begin(), s.end(), t)`, `s.assign(t)` -/
  | replaceAll {i l bs xs V} : V i = some xs → Src.AreAll V l bs → Room (xs.length + bs.length) →
      Ways [.replaceRange i 0 xs.length l] [.assignRange i l] V (upd V i (some bs))
  /-- `s.erase(pos)`, `s.erase(pos, pos + 1)` -/
  | eraseOne {i c pre post V} : V i = some (pre ++ [c] ++ post) →
      Ways [.eraseOne i pre.length] [.erase i pre.length (pre.length + 1)] V (upd V i (some (pre ++ post)))
  /-- `s.pop_back()`, `s.erase(s.end() - 1)`, `s.resize(s.size() - 1)` -/
  | popBack {i c xs V} : V i = some (xs ++ [c]) → Ways [.popBack i] [.eraseOne i xs.length] V (upd V i (some xs))
  | popResize {i c d xs V} : V i = some (xs ++ [c]) → Ways [.popBack i] [.resize i xs.length d] V (upd V i (some xs))
  /-- a range at once, or in two parts -/
  | eraseParts {i pre as bs post V} : V i = some (pre ++ (as ++ bs) ++ post) →
      Ways [.erase i pre.length (pre.length + (as ++ bs).length)]
        [.erase i (pre ++ as).length ((pre ++ as).length + bs.length), .erase i pre.length (pre.length + as.length)] V
        (upd V i (some (pre ++ post)))
  /-- `s.clear()`, `s.erase(s.begin(), s.end())`, `s.resize(0)`, `s.assign(0, c)`, `s = ""` -/
  | clearErase {i xs V} : V i = some xs → Ways [.clear i] [.erase i 0 xs.length] V (upd V i (some []))
  | clearResize {i c xs V} : V i = some xs → Ways [.clear i] [.resize i 0 c] V (upd V i (some []))
  | clearFill {i c xs V} : V i = some xs → Ways [.clear i] [.assignFill i 0 c] V (upd V i (some []))
  | clearAssign {i xs V} : V i = some xs → Room xs.length → Ways [.clear i] [.assignRange i []] V (upd V i (some []))
  /-- `s.resize(n, c)` with more characters, `s.append(n - s.size(), c)` -/
  | resizeAppend {i n c xs V} : V i = some xs → xs.length + n < 2 ^ 64 →
      Ways [.resize i (xs.length + n) c] [.appendFill i n c] V (upd V i (some (xs ++ List.replicate n c)))
  /-- `s.resize(n, c)` with fewer characters, `s.erase(s.begin() + n, s.end())` -/
  | resizeErase {i c xs ys V} : V i = some (xs ++ ys) →
      Ways [.resize i xs.length c] [.erase i xs.length (xs.length + ys.length)] V (upd V i (some xs))
  /-- `s = t`, and `s.clear(); s += t;`, or a new string constructed from `t` -/
  | assignAppend {i j xs ys V} : V i = some xs → V j = some ys → i ≠ j → Room (xs.length + ys.length) →
      Ways [.assignCopy i j] [.clear i, .appendRange i (slice j 0 ys.length)] V (upd V i (some ys))
  | assignCopy {i j xs ys V} : V i = some xs → V j = some ys → i ≠ j →
      Ways [.assignCopy i j] [.dtor i, .ctorCopy i j] V (upd V i (some ys))
  /-- `s.swap(t)`, `t.swap(s)` -/
  | swapSymm {i j xs ys V} : V i = some xs → V j = some ys → Ways [.swap i j] [.swap j i] V (upd (upd V i (some ys)) j (some xs))
  /-- `string u = s + t;`, and `string u{s}; u += t;` -/
  | concat {i j k xs ys V} : V i = none → V j = some xs → V k = some ys → Room (xs.length + ys.length) →
      Ways [.concat i (slice j 0 xs.length) (slice k 0 ys.length)] [.ctorCopy i j, .appendRange i (slice k 0 ys.length)] V
        (upd V i (some (xs ++ ys)))
  /-- `string u{t};`, `string u; u = t;`, `string u = t.substr(0);` -/
  | ctorCopy {i j ys V} : V i = none → V j = some ys → Ways [.ctorCopy i j] [.ctorDefault i, .assignCopy i j] V (upd V i (some ys))
  | ctorSubstr {i j ys V} : V i = none → V j = some ys → Ways [.ctorCopy i j] [.substr i j 0] V (upd V i (some ys))
  /-- `t.substr(pos, n)`, the string of the characters from `pos` to `pos + n`, and a copy without the rest -/
  | substrRange {i j pre ys post V} : V i = none → V j = some (pre ++ ys ++ post) → Room ys.length →
      Ways [.substrN i j pre.length ys.length] [.ctorRange i (slice j pre.length ys.length)] V (upd V i (some ys))
  | substrErase {i j pre ys post V} : V i = none → V j = some (pre ++ ys ++ post) →
      Ways [.substrN i j pre.length ys.length]
        [.ctorCopy i j, .erase i (pre ++ ys).length ((pre ++ ys).length + post.length), .erase i 0 pre.length] V (upd V i (some ys))
  /-- `string u(n, c);`, and `string u; u.resize(n, c);` -/
  | ctorFill {i n c V} : V i = none → Room n → Ways [.ctorFill i n c] [.ctorDefault i, .resize i n c] V (upd V i (some
          (List.replicate n c)))
  /-- `s.reserve(n)`, `s.shrink_to_fit()`, and no call at all -/
  | reserve {i n xs V} : V i = some xs → Ways [.reserve i n] [] V V
  | shrinkToFit {i xs V} : V i = some xs → Ways [.shrinkToFit i] [] V V
  /-- and the other way round -/
  | symm {a b V V'} : Ways a b V V' → Ways b a V V'

/-- the calls are within their preconditions, one after the other, and mean the same whatever the capacities are (moving from a string
leaves something behind that depends on its capacity, C21); they do not include literals (which may end the program, C89) -/
inductive Specs : List Op → Vars → Vars → List (Option Nat) → Prop
  | nil {V : Vars} : Specs [] V V []
  | cons {op ops V V1 V2 r rs} : (∀ i l, op ≠ .literal i l) → (∀ big, Spec big op V V1 r) → Specs ops V1 V2 rs → Specs (op :: ops) V V2
          (r :: rs)

/-- if both end with a call that returns an iterator (or a reference), it is the same position -/
def SamePos (rs rs' : List (Option Nat)) : Prop :=
  ∀ p q, rs.getLast? = some (some p) → rs'.getLast? = some (some q) → p = q

/-- in both states, the same strings are alive, and they have the same characters -/
def Alike (s s' : St) : Prop :=
  ∀ i, (s.obj (.var i) = none ∧ s'.obj (.var i) = none) ∨ ∃ d c t d' c' t' xs, Shows s i d c xs t ∧ Shows s' i d' c' xs t'

theorem Agrees.alike (h : Agrees s V) (h' : Agrees s' V) : Alike s s' := by
  intro i
  cases hv : V i with
  | none => exact .inl ⟨(h i).2 hv, (h' i).2 hv⟩
  | some xs =>
    obtain ⟨d, c, t, h1⟩ := (h i).1 xs hv
    obtain ⟨d', c', t', h2⟩ := (h' i).1 xs hv
    exact .inr ⟨d, c, t, d', c', t', xs, h1, h2⟩

theorem Specs.append {a b : List Op} {rs rs' : List (Option Nat)} (h : Specs a V V1 rs) (h' : Specs b V1 V2 rs') :
    Specs (a ++ b) V V2 (rs ++ rs') := by
  induction h with
  | nil => exact h'
  | cons h1 h2 _ ih => exact .cons h1 h2 (ih h')

theorem Specs.run {ops : List Op} {rs : List (Option Nat)} (h : Reach s V) (hs : Specs ops V V' rs) :
    match runEach ops s with
    | .ok r t => r = rs ∧ Reach t V'
    | .exc _ _ => True
    | _ => False := by
  induction hs generalizing s with
  | nil => exact ⟨rfl, h⟩
  | @cons op ops V V1 V2 r rs hop h1 _ ih =>
    have hc := C15_call h (h1 _)
    unfold runEach
    cases hr : op.run s with
    | ub => rw [hr] at hc; exact hc.elim
    | term => rw [hr] at hc; obtain ⟨⟨i, l, hi⟩, _⟩ := hc; exact (hop i l hi).elim
    | exc e t => rw [M.bind_exc hr]; trivial
    | ok r' t =>
      rw [hr] at hc
      rw [M.bind_ok hr]
      have h2 := ih hc.2.1
      cases hr2 : runEach ops t with
      | ub => rw [hr2] at h2; exact h2.elim
      | term => rw [hr2] at h2; exact h2.elim
      | exc e u => rw [M.bind_exc hr2]; trivial
      | ok rs' u =>
        rw [hr2] at h2
        rw [M.bind_ok hr2]
        exact ⟨by rw [hc.1, h2.1], h2.2⟩

theorem Specs.one {op : Op} {r : Option Nat} (hop : ∀ i l, op ≠ .literal i l) (h : ∀ big, Spec big op V V' r) : Specs [op] V V' [r] :=
  .cons hop h .nil

theorem Specs.two {op op' : Op} {r r' : Option Nat} (hop : ∀ i l, op ≠ .literal i l) (hop' : ∀ i l, op' ≠ .literal i l)
    (h : ∀ big, Spec big op V V1 r) (h' : ∀ big, Spec big op' V1 V' r') : Specs [op, op'] V V' [r, r'] :=
  .cons hop h (.one hop' h')

theorem spec_cast {op op' : Op} {r r' : Option Nat} {big : Nat → Prop} (h : Spec big op V V' r) (e : op = op') (e' : V' = V2)
          (e'' : r = r') :
    Spec big op' V V2 r' := by cases e; cases e'; cases e''; exact h

theorem SamePos.symm {rs rs' : List (Option Nat)} (h : SamePos rs rs') : SamePos rs' rs := fun p q hp hq => (h q p hq hp).symm

theorem samePos (p : Nat) (rs rs' : List (Option Nat)) : SamePos (rs ++ [some p]) (rs' ++ [some p]) := by
  intro a b ha hb; simp at ha hb; omega

theorem samePos_l (rs rs' : List (Option Nat)) : SamePos (rs ++ [none]) rs' := by intro a b ha; simp at ha
theorem samePos_r (rs rs' : List (Option Nat)) : SamePos rs (rs' ++ [none]) := by intro a b _ hb; simp at hb

/-- every entry of the table: both ways are within their preconditions, and mean the same -/
theorem Ways.specs {a b : List Op} (h : Ways a b V V') :
    ∃ rs rs', Specs a V V' rs ∧ Specs b V V' rs' ∧ SamePos rs rs' := by
  have ns : ∀ {op : Op}, (match op with | .literal _ _ => False | _ => True) → ∀ i l, op ≠ .literal i l := by
    intro op h i l e; subst e; exact h
  induction h with
  | @pushAppend i c xs V h1 h2 =>
    exact ⟨_, _, .one (ns trivial) (fun _ => .pushBack h1),
      .one (ns trivial) (fun _ => .appendFill (n := 1) h1 h2), samePos_r _ []⟩
  | @pushInsert i c xs V h1 h2 =>
    exact ⟨_, _, .one (ns trivial) (fun _ => .pushBack h1),
      .one (ns trivial) (fun _ => spec_cast (.insertFill (n := 1) (pre := xs) (post := []) (by simpa using h1) (by simpa using h2)) rfl
          (by simp) rfl), samePos _ [] []⟩
  | @pushResize i c xs V h1 =>
    exact ⟨_, _, .one (ns trivial) (fun _ => .pushBack h1),
      .one (ns trivial) (fun _ => .resizeGrow (n := 1) h1), samePos_r _ []⟩
  | @appendInsert i l bs xs V h1 h2 h3 =>
    exact ⟨_, _, .one (ns trivial) (fun _ => .appendRange h1 h2 h3),
      .one (ns trivial) (fun _ => spec_cast (.insertRange (pre := xs) (post := []) (by simpa using h1) h2 (by simpa using h3)) rfl
          (by simp) rfl), samePos_l [] _⟩
  | appendInput h1 h2 h3 =>
    exact ⟨_, _, .one (ns trivial) (fun _ => .appendInput h1 h2 (by simp [Room] at h3; omega)),
      .one (ns trivial) (fun _ => .appendRange h1 h2 h3), samePos_l [] _⟩
  | appendIlist h1 h2 =>
    exact ⟨_, _, .one (ns trivial) (fun _ => .appendIlist h1 (by simp [Room] at h2; omega)),
      .one (ns trivial) (fun _ => .appendRange h1 (AreAll.vals _) h2), samePos_l [] _⟩
  | assignInput h1 h2 h3 =>
    exact ⟨_, _, .one (ns trivial) (fun _ => .assignInput h1 h2),
      .one (ns trivial) (fun _ => .assignRange h1 h2 h3), samePos_l [] _⟩
  | assignIlist h1 h2 =>
    exact ⟨_, _, .one (ns trivial) (fun _ => .assignIlist h1),
      .one (ns trivial) (fun _ => .assignRange h1 (AreAll.vals _) h2), samePos_l [] _⟩
  | insertInput h1 h2 h3 =>
    exact ⟨_, _, .one (ns trivial) (fun _ => .insertInput h1 h2 (by simp only [Room] at h3; omega)),
      .one (ns trivial) (fun _ => .insertRange h1 h2 h3), samePos _ [] []⟩
  | insertIlist h1 h2 =>
    exact ⟨_, _, .one (ns trivial) (fun _ => .insertIlist h1 (by simp only [Room] at h2; omega)),
      .one (ns trivial) (fun _ => .insertRange h1 (AreAll.vals _) h2), samePos _ [] []⟩
  | replaceInput h1 h2 h3 =>
    exact ⟨_, _, .one (ns trivial) (fun _ => .replaceInput h1 h2 (by simp only [Room] at h3; omega)),
      .one (ns trivial) (fun _ => .replaceRange h1 h2 h3), samePos_l [] _⟩
  | @replaceIlist i bs pre mid post V h1 h2 =>
    exact ⟨_, _, .one (ns trivial) (fun _ => .replaceIlist h1 (by simp only [Room, List.length_append] at h2 ⊢; omega)),
      .one (ns trivial) (fun _ => .replaceRange h1 (AreAll.vals _) h2), samePos_l [] _⟩
  | @insertFill i n c pre post V h1 h2 =>
    exact ⟨_, _, .one (ns trivial) (fun _ => .insertFill h1 h2),
      .one (ns trivial) (fun _ => .insertIlist h1 (by simpa using h2)), samePos _ [] []⟩
  | @replace i bs pre mid post V h1 h2 =>
    exact ⟨_, _, .one (ns trivial) (fun _ => .replaceRange h1 (AreAll.vals _) h2),
      .cons (ns trivial) (fun _ => .erase h1) (.one (ns trivial) (fun _ => spec_cast (.insertRange (pre := pre) (post := post)
          (bs := bs) (upd_same _ _ _) (AreAll.vals _) (by simp only [Room, List.length_append] at h2 ⊢; omega)) rfl
          (by simp) rfl)), samePos_l [] _⟩
  | @replaceNone i l bs pre post V h1 h2 h3 =>
    exact ⟨_, _, .one (ns trivial) (fun _ => spec_cast (.replaceRange (pre := pre) (mid := []) (post := post) (by simpa using h1) h2
          (by simpa using h3)) rfl (by simp) rfl),
      .one (ns trivial) (fun _ => .insertRange h1 h2 h3), samePos_l [] _⟩
  | @replaceEmpty i pre mid post V h1 h2 =>
    exact ⟨_, _, .one (ns trivial) (fun _ => spec_cast (.replaceIlist (bs := []) h1
          (by simp only [List.length_append, List.length_nil] at h2 ⊢; omega)) rfl (by simp) rfl),
      .one (ns trivial) (fun _ => .erase h1), samePos_l [] _⟩
  | @replaceAll i l bs xs V h1 h2 h3 =>
    exact ⟨_, _, .one (ns trivial) (fun _ => spec_cast (.replaceRange (pre := []) (mid := xs) (post := []) (by simpa using h1) h2
          (by simpa using h3)) (by simp) (by simp) rfl),
      .one (ns trivial) (fun _ => .assignRange h1 h2 h3), samePos_l [] _⟩
  | @eraseOne i c pre post V h1 =>
    exact ⟨_, _, .one (ns trivial) (fun _ => .eraseOne h1),
      .one (ns trivial) (fun _ => .erase (mid := [c]) h1), samePos _ [] []⟩
  | @popBack i c xs V h1 =>
    exact ⟨_, _, .one (ns trivial) (fun _ => .popBack h1),
      .one (ns trivial) (fun _ => spec_cast (.eraseOne (pre := xs) (ch := c) (post := []) (by simpa using h1)) rfl
          (by simp) rfl), samePos_l [] _⟩
  | popResize h1 =>
    exact ⟨_, _, .one (ns trivial) (fun _ => .popBack h1),
      .one (ns trivial) (fun _ => .resizeShrink h1), samePos_l [] _⟩
  | @eraseParts i pre as bs post V h1 =>
    exact ⟨_, _, .one (ns trivial) (fun _ => .erase h1),
      .cons (ns trivial) (fun _ => .erase (pre := pre ++ as) (mid := bs) (post := post) (by simpa using h1)) (.one (ns trivial)
          (fun _ => spec_cast (.erase (pre := pre) (mid := as) (post := post) (upd_same _ _ _)) rfl (by simp) rfl)), samePos _ [] [_]⟩
  | @clearErase i xs V h1 =>
    exact ⟨_, _, .one (ns trivial) (fun _ => .clear h1),
      .one (ns trivial) (fun _ => spec_cast (.erase (pre := []) (mid := xs) (post := []) (by simpa using h1)) (by simp)
          (by simp) rfl), samePos_l [] _⟩
  | @clearResize i c xs V h1 =>
    exact ⟨_, _, .one (ns trivial) (fun _ => .clear h1),
      .one (ns trivial) (fun _ => .resizeShrink (xs := []) (ys := xs) h1), samePos_l [] _⟩
  | clearFill h1 =>
    exact ⟨_, _, .one (ns trivial) (fun _ => .clear h1),
      .one (ns trivial) (fun _ => .assignFill (n := 0) h1), samePos_l [] _⟩
  | clearAssign h1 h2 =>
    exact ⟨_, _, .one (ns trivial) (fun _ => .clear h1),
      .one (ns trivial) (fun _ => .assignRange h1 .nil h2), samePos_l [] _⟩
  | resizeAppend h1 h2 =>
    exact ⟨_, _, .one (ns trivial) (fun _ => .resizeGrow h1),
      .one (ns trivial) (fun _ => .appendFill h1 h2), samePos_l [] _⟩
  | @resizeErase i c xs ys V h1 =>
    exact ⟨_, _, .one (ns trivial) (fun _ => .resizeShrink h1),
      .one (ns trivial) (fun _ => spec_cast (.erase (pre := xs) (mid := ys) (post := []) (by simpa using h1)) rfl
          (by simp) rfl), samePos_l [] _⟩
  | @assignAppend i j xs ys V h1 h2 hij h3 =>
    exact ⟨_, _, .one (ns trivial) (fun _ => .assignCopy h1 h2),
      .cons (ns trivial) (fun _ => .clear h1) (.one (ns trivial) (fun _ => spec_cast (.appendRange (bs := ys) (upd_same _ _ _)
          (AreAll.slice (pre := []) (post := []) (by rw [upd_ne _ _ (Ne.symm hij)]; simpa using h2))
          (by simp only [Room, List.length_nil] at h3 ⊢; omega)) rfl (by simp) rfl)), samePos_l [] _⟩
  | assignCopy h1 h2 hij =>
    exact ⟨_, _, .one (ns trivial) (fun _ => .assignCopy h1 h2),
      .cons (ns trivial) (fun _ => .dtor h1) (.one (ns trivial) (fun _ => spec_cast (.ctorCopy (upd_same _ _ _)
          (by rw [upd_ne _ _ (Ne.symm hij)]; exact h2)) rfl (by simp) rfl)), samePos_l [] _⟩
  | @swapSymm i j xs ys V h1 h2 =>
    refine ⟨_, _, .one (ns trivial) (fun _ => .swap h1 h2), .one (ns trivial) (fun _ => spec_cast (.swap h2 h1) rfl ?_ rfl), samePos_l [] _⟩
    by_cases hij : i = j
    · subst hij; rw [h1] at h2; cases h2; rfl
    · exact upd_comm _ _ _ (Ne.symm hij)
  | @concat i j k xs ys V h1 h2 h3 h4 =>
    have hik : k ≠ i := by intro e; rw [e, h1] at h3; cases h3
    exact ⟨_, _, .one (ns trivial) (fun _ => .concat h1 (AreAll.slice (pre := []) (post := []) (by simpa using h2)) (AreAll.slice
          (pre := []) (post := []) (by simpa using h3)) h4),
      .cons (ns trivial) (fun _ => .ctorCopy h1 h2) (.one (ns trivial) (fun _ => spec_cast (.appendRange (bs := ys) (upd_same _ _ _)
          (AreAll.slice (pre := []) (post := []) (by rw [upd_ne _ _ hik]; simpa using h3)) h4) rfl (by simp) rfl)), samePos_l [] _⟩
  | @ctorCopy i j ys V h1 h2 =>
    have hij : j ≠ i := by intro e; rw [e, h1] at h2; cases h2
    exact ⟨_, _, .one (ns trivial) (fun _ => .ctorCopy h1 h2),
      .cons (ns trivial) (fun _ => .ctorDefault h1) (.one (ns trivial) (fun _ => spec_cast (.assignCopy (upd_same _ _ _)
          (by rw [upd_ne _ _ hij]; exact h2)) rfl (by simp) rfl)), samePos_l [] _⟩
  | ctorSubstr h1 h2 =>
    exact ⟨_, _, .one (ns trivial) (fun _ => .ctorCopy h1 h2),
      .one (ns trivial) (fun _ => .substr (pre := []) h1 h2), samePos_l [] _⟩
  | @substrRange i j pre ys post V h1 h2 h3 =>
    exact ⟨_, _, .one (ns trivial) (fun _ => .substrN h1 h2),
      .one (ns trivial) (fun _ => .ctorRange h1 (AreAll.slice h2) h3), samePos_l [] _⟩
  | @substrErase i j pre ys post V h1 h2 =>
    exact ⟨_, _, .one (ns trivial) (fun _ => .substrN h1 h2),
      .cons (ns trivial) (fun _ => .ctorCopy h1 h2) (.cons (ns trivial) (fun _ => .erase (pre := pre ++ ys) (mid := post) (post := [])
          (by simp)) (.one (ns trivial) (fun _ => spec_cast (.erase (i := i) (pre := []) (mid := pre) (post := ys) (by simp)) (by simp)
          (by simp) rfl))), samePos_l [] _⟩
  | @ctorFill i n c V h1 h2 =>
    exact ⟨_, _, .one (ns trivial) (fun _ => .ctorFill h1 h2),
      .cons (ns trivial) (fun _ => .ctorDefault h1) (.one (ns trivial) (fun _ => spec_cast (.resizeGrow (xs := []) (n := n) (ch := c)
          (upd_same _ _ _)) (by simp) (by simp) rfl)), samePos_l [] _⟩
  | reserve h1 =>
    exact ⟨_, _, .one (ns trivial) (fun _ => .reserve h1),
      .nil, samePos_l [] _⟩
  | shrinkToFit h1 =>
    exact ⟨_, _, .one (ns trivial) (fun _ => .shrinkToFit h1),
      .nil, samePos_l [] _⟩
  | symm _ ih => obtain ⟨rs, rs', h1, h2, h3⟩ := ih; exact ⟨rs', rs, h2, h1, h3.symm⟩

/-- C113: in every program, one of the ways can be exchanged for another: whatever the calls before (`p`) and after (`q`) are, and
whatever the capacities and addresses are in the states `s` and `s'` with the same contents, the results of all calls and the contents
of all strings in the end are the same, provided that no call throws.  (And no call is undefined or ends the program.) -/
theorem C113_string {p a b q : List Op} {rp rq : List (Option Nat)} {V3 : Vars} (h : Reach s V) (h' : Reach s' V)
    (hp : Specs p V V1 rp) (hw : Ways a b V1 V2) (hq : Specs q V2 V3 rq) :
    match runEach (p ++ a ++ q) s, runEach (p ++ b ++ q) s' with
    | .ok r t, .ok r' t' => Alike t t' ∧ ∃ ra rb, r = rp ++ ra ++ rq ∧ r' = rp ++ rb ++ rq ∧ SamePos ra rb
    | .ub _, _ | .term, _ | _, .ub _ | _, .term => False
    | _, _ => True := by
  obtain ⟨ra, rb, ha, hb, hpos⟩ := hw.specs
  have h1 := ((hp.append ha).append hq).run h
  have h2 := ((hp.append hb).append hq).run h'
  cases hr : runEach (p ++ a ++ q) s with
  | ub => rw [hr] at h1; exact h1
  | term => rw [hr] at h1; exact h1
  | exc e t =>
    cases hr' : runEach (p ++ b ++ q) s' with
    | ub => rw [hr'] at h2; exact h2
    | term => rw [hr'] at h2; exact h2
    | exc | ok => trivial
  | ok r t =>
    rw [hr] at h1
    cases hr' : runEach (p ++ b ++ q) s' with
    | ub => rw [hr'] at h2; exact h2
    | term => rw [hr'] at h2; exact h2
    | exc => trivial
    | ok r' t' =>
      rw [hr'] at h2
      exact ⟨h1.2.agrees.alike h2.2.agrees, ra, rb, h1.1, h2.1, hpos⟩

/-- C113: the capacities do not matter: the same calls give the same results and contents wherever the contents are the same. -/
theorem C113_string_same {q : List Op} {rq : List (Option Nat)} (h : Reach s V) (h' : Reach s' V) (hq : Specs q V V1 rq) :
    match runEach q s, runEach q s' with
    | .ok r t, .ok r' t' => Alike t t' ∧ r = r'
    | .ub _, _ | .term, _ | _, .ub _ | _, .term => False
    | _, _ => True := by
  have h1 := hq.run h
  have h2 := hq.run h'
  cases hr : runEach q s with
  | ub => rw [hr] at h1; exact h1
  | term => rw [hr] at h1; exact h1
  | exc e t =>
    cases hr' : runEach q s' with
    | ub => rw [hr'] at h2; exact h2
    | term => rw [hr'] at h2; exact h2
    | exc | ok => trivial
  | ok r t =>
    rw [hr] at h1
    cases hr' : runEach q s' with
    | ub => rw [hr'] at h2; exact h2
    | term => rw [hr'] at h2; exact h2
    | exc => trivial
    | ok r' t' =>
      rw [hr'] at h2
      exact ⟨h1.2.agrees.alike h2.2.agrees, h1.1.trans h2.1.symm⟩

/-! ### instances -/

/-- the calls, and then what the client reads from string 0 -/
def afterEach (ops : List Op) : Option (List (Option Nat) × List UInt8) :=
  match (do let r ← runEach ops; let x ← readBack 0; pure (r, x) : SM _) (start fun _ => false) with
  | .ok a _ => some a
  | _ => none

-- "abc": the "b" is replaced by thirty characters, in one step or in two; then a character is appended
example :
    let p := [Op.ctorRange 0 (abc.map .val)]
    let q := [Op.pushBack 0 33]
    afterEach (p ++ [.replaceRange 0 1 2 (thirty.map .val)] ++ q) = some ([none] ++ [none] ++ [some 32], [97] ++ thirty ++ [99, 33]) ∧
    afterEach (p ++ [.erase 0 1 2, .insertRange 0 1 (thirty.map .val)] ++ q) =
      some ([none] ++ [some 1, some 1] ++ [some 32], [97] ++ thirty ++ [99, 33]) := by decide +kernel

example : ∃ V', Ways [.replaceRange 0 1 2 (thirty.map .val)] [.erase 0 1 2, .insertRange 0 1 (thirty.map .val)] demoV V' ∧
    V' 0 = some ([97] ++ thirty ++ [99]) :=
  ⟨_, .replace (pre := [97]) (mid := [98]) (post := [99]) rfl (by decide), rfl⟩

end Ptl.Str

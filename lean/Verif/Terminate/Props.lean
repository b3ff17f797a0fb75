import Verif.Vector.Props.History
import Verif.Vector.Props.Capacity
import Verif.Str.Props.Values
import Verif.Optional.Props.Access
import Verif.Variant.Props.Limits

/-!
# C89: exceptions reach the caller instead of ending the program

Whatever goes wrong during a call – an allocation fails, a constructor of an element throws – the caller gets an exception;
the program is not terminated because the exception meets a `noexcept`.  (For exceptions of comparison operators see C77.)
-/

namespace Ptl.Vector

variable {α : Type} {T : Elem α} {s s' : St α Storage} {V V' : Vars α} {op : Op α} {r : Option Nat}

/-- C89 for vectors.  Missing: `shrink_to_fit`, see `C89_vector_exact`. -/
theorem C89_vector_partial (h : Reach T s V) (hs : Spec T op V V' r) (hop : ∀ i, op ≠ .shrinkToFit i) :
    op.run T s ≠ .term := by
  intro hr
  have := h.call hs
  rw [hr] at this
  obtain ⟨⟨i, e⟩, _⟩ := this
  exact hop i e

/-- C89, what `vector::shrink_to_fit` (vector.hpp:319-328, `noexcept`) does: it ends the program exactly if it allocates and
that fails.  The vector would have been usable as it was. -/
theorem C89_vector_exact (h : Reach T s V) {i : Nat} {d : Ptr} {c : Nat} {xs : List α} (hsh : Shows s i d c xs) :
    (Op.shrinkToFit i).run T s = .term ↔ xs ≠ [] ∧ 2 * xs.length < c ∧ s.orc s.tick = true := by
  obtain ⟨hinv, rfl⟩ := h.inv
  obtain ⟨o, ho, rfl, rfl⟩ := hinv.of_shows hsh
  obtain ⟨hobj, hg⟩ := hinv.wf.get ho
  have hsz := hg.siz
  have hx : xs = [] ↔ o.siz = 0 := by rw [hsz]; exact List.length_eq_zero_iff.symm
  by_cases hc : o.cap ≤ o.siz * 2
  · have e : (Op.shrinkToFit i).run T s = .ok none s := M.bind_ok (shrinkToFit_noop hinv.wf ho hc)
    rw [e]
    exact ⟨fun h => (by cases h), fun h => by omega⟩
  · by_cases h0 : o.siz = 0
    · obtain ⟨s1, h1, _⟩ := shrinkToFit_zero hinv.wf ho (by omega) h0
      have e : (Op.shrinkToFit i).run T s = .ok none s1 := M.bind_ok h1
      rw [e]
      exact ⟨fun h => (by cases h), fun h => absurd (hx.2 h0) h.1⟩
    · rcases shrinkToFit_some hinv.wf ho (by omega) h0 with ⟨h1, h2⟩ | ⟨h1, s1, h2, _⟩
      · have e : (Op.shrinkToFit i).run T s = .term := M.bind_term h2
        exact ⟨fun _ => ⟨fun h => h0 (hx.1 h), by omega, h1⟩, fun _ => e⟩
      · have e : (Op.shrinkToFit i).run T s = .ok none s1 := M.bind_ok h2
        rw [e, h1]
        exact ⟨fun h => (by cases h), fun h => absurd h.2.2 (by decide)⟩

/-- C89 is false of `vector::shrink_to_fit` -/
theorem C89_vector_refuted (h : Reach T s V) {i : Nat} {d : Ptr} {c : Nat} {xs : List α} (hsh : Shows s i d c xs)
    (hx : xs ≠ []) (hc : 2 * xs.length < c) (ho : s.orc s.tick = true) : (Op.shrinkToFit i).run T s = .term :=
  (C89_vector_exact h hsh).2 ⟨hx, hc, ho⟩

/-- the first two requests (the allocation and the construction of one element) succeed, the third fails -/
def third : Nat → Bool := fun k => k == 2

-- one number in a vector of capacity 10
example : ∃ s V d c, Reach natElem s V ∧ Shows s 0 d c [7] ∧ 2 * [7].length < c ∧ s.orc s.tick = true := by
  have hs : Spec natElem (.ctorRange 0 (.refs ([7].map .val))) (fun _ => none) (upd (fun _ => none) 0 (some [7])) none :=
    .ctorRange rfl (.refs (AreAll.vals _)) (by decide)
  have hc := (Reach.start (T := natElem) third).call hs
  have ht : (match (Op.ctorRange 0 (.refs ([7].map .val))).run natElem (start Nat third) with
    | .ok _ s => (match capacity (.var 0) s with | .ok c _ => decide (2 < c) | _ => false) && s.orc s.tick
    | _ => false) = true := by decide +kernel
  cases hr : (Op.ctorRange 0 (.refs ([7].map .val))).run natElem (start Nat third) with
  | ok r s =>
    rw [hr] at hc ht
    simp only [Bool.and_eq_true] at ht
    obtain ⟨d, c, hsh⟩ := hc.2.shows (upd_same _ _ _)
    rw [hsh.capacity] at ht
    exact ⟨s, _, d, c, hc.2, hsh, by simpa using ht.1, ht.2⟩
  | exc => rw [hr] at ht; cases ht
  | ub => rw [hr] at ht; cases ht
  | term => rw [hr] at ht; cases ht

end Ptl.Vector

namespace Ptl.Str

variable {s s' : St} {V V' : Vars} {op : Op} {r : Option Nat}

/-- C89 for strings.  Missing: the literal operator, see `C89_string_refuted`. -/
theorem C89_string_partial (h : Reach s V) (hs : Spec (Big s) op V V' r) (hop : ∀ i lit, op ≠ .literal i lit) :
    op.run s ≠ .term := by
  intro hr
  have := h.call hs
  rw [hr] at this
  obtain ⟨⟨i, lit, e⟩, _⟩ := this
  exact hop i lit e

theorem newChar_oracle {n p : Nat} (h : newChar n s = .ok p s') : s.orc s.tick = false := by
  unfold newChar at h
  split at h
  · cases h
  · cases ho : s.orc s.tick with
    | false => rfl
    | true => rw [ho] at h; cases h

/-- if it succeeds, the result of the first part was passed on -/
theorem bind_inv {σ α β : Type} {m : M σ α} {f : α → M σ β} {s s' : σ} {b : β} (h : (m >>= f) s = .ok b s') :
    ∃ a s1, m s = .ok a s1 ∧ f a s1 = .ok b s' := by
  cases hm : m s with
  | ok a s1 => exact ⟨a, s1, rfl, by rw [M.bind_ok hm] at h; exact h⟩
  | exc => rw [M.bind_exc hm] at h; cases h
  | ub => rw [M.bind_ub hm] at h; cases h
  | term => rw [M.bind_term hm] at h; cases h

theorem onExc_inv {σ α : Type} {m : M σ α} {h : M σ Unit} {s s' : σ} {a : α} (e : M.onExc m h s = .ok a s') :
    m s = .ok a s' := by
  unfold M.onExc at e
  cases hm : m s with
  | ok => rw [hm] at e; exact e
  | exc =>
    rw [hm] at e
    simp only at e
    split at e <;> cases e
  | ub => rw [hm] at e; cases e
  | term => rw [hm] at e; cases e

theorem ctorCap_oracle {i : Id} {n : Nat} (hn : 22 < n) (h : Storage.ctorCap i n s = .ok () s') : s.orc s.tick = false := by
  unfold Storage.ctorCap at h
  obtain ⟨_, s1, h1, h⟩ := bind_inv h
  have q1 : s1.orc = s.orc ∧ s1.tick = s.tick := by
    unfold newObj at h1
    split at h1
    · cases h1
    · cases h1; exact ⟨rfl, rfl⟩
  rw [if_pos (show n > ssoSize from hn)] at h
  have h := onExc_inv h
  rw [M.bind_ok (nextBlk_ok _)] at h
  obtain ⟨_, s2, h2, h⟩ := bind_inv h
  have q2 : s2.orc = s1.orc ∧ s2.tick = s1.tick := by
    unfold setDealloc at h2
    obtain ⟨o, s3, h3, h4⟩ := bind_inv h2
    have e3 : s3 = s1 := by
      unfold getObj at h3
      split at h3
      · cases h3; rfl
      · cases h3
    subst e3
    unfold setObj at h4
    split at h4
    · cases h4; exact ⟨rfl, rfl⟩
    · cases h4
  obtain ⟨p, s3, h3, _⟩ := bind_inv h
  rw [← q1.1, ← q1.2, ← q2.1, ← q2.2]
  exact newChar_oracle h3

/-- C89 is false of the literal operator (string.hpp:623, `noexcept`): if the string does not fit the internal buffer and
its memory cannot be had, the program ends. -/
theorem C89_string_refuted (h : Reach s V) {i : Nat} {lit : List UInt8} (hi : V i = none) (hn : lit.length + 23 < 2 ^ 64)
    (hl : 22 < (cString lit).length) (ho : s.orc s.tick = true) : (Op.literal i lit).run s = .term := by
  obtain ⟨hinv, rfl⟩ := h.inv
  rcases literal_run hinv.wf (vars_none hi) var_tmp hn lit.length with ⟨s', v, hr, _, _⟩ | ⟨hr, _⟩
  · exfalso
    unfold literal M.noexcept at hr
    rw [takeWhile_length_le] at hr
    cases hc : ctorRange (.var i) ((lit.takeWhile (· ≠ 0)).map .val) s with
    | ok a s1 =>
      unfold ctorRange construct at hc
      obtain ⟨_, s2, h2, hc⟩ := bind_inv hc
      obtain ⟨_, s3, h3, _⟩ := bind_inv (onExc_inv hc)
      obtain ⟨s4, e4, q⟩ := ctor_ok hinv.wf (vars_none hi) var_tmp
      rw [e4] at h2
      cases h2
      unfold storageAssign withStorage at h3
      obtain ⟨_, s5, h5, _⟩ := bind_inv h3
      have := ctorCap_oracle (by simpa [cString] using hl) h5
      simp only [q.tick, q.step.orc] at this
      rw [ho] at this
      cases this
    | exc => rw [hc] at hr; cases hr
    | ub => rw [hc] at hr; cases hr
    | term => rw [hc] at hr; cases hr
  · exact M.bind_term hr

/-- C89: literals that fit the internal buffer are fine -/
theorem C89_string_short (h : Reach s V) {i : Nat} {lit : List UInt8} (hi : V i = none) (hn : lit.length + 23 < 2 ^ 64)
    (hl : (cString lit).length ≤ 22) : (Op.literal i lit).run s ≠ .term := by
  intro hr
  have := h.call (.literal hi hn)
  rw [hr] at this
  obtain ⟨_, n, ha, hn, _⟩ := this
  rcases ha with ⟨j, xs, hj, h2, rfl⟩ | ⟨j, hj⟩
  · cases (show j = i from hj)
    rw [upd_same] at h2; cases h2; omega
  · cases hj

example : (Op.literal 0 thirty).run (start fun _ => true) = .term ∧ (Op.literal 0 abc).run (start fun _ => true) ≠ .term :=
  ⟨C89_string_refuted (Reach.start _) rfl (by decide) (by decide) rfl, C89_string_short (Reach.start _) rfl (by decide) (by decide)⟩

end Ptl.Str

namespace Ptl.Optional

variable {α : Type} {E : Elem α} {s s' : St α} {i j : Nat} {x y v w : α} {o o' : Option α} {V V' V1 : Vars α} {op : Op α}

/-- C89 for optionals of types for which braces call the move constructor.  Missing: other types, see `C89_optional_refuted`. -/
theorem C89_optional_partial (hE : E.Plain) (h : Reach E s V) (hs : Spec E op V V') : op.run E s ≠ .term := by
  intro hr
  have := h.call hE hs
  rw [hr] at this
  exact this

theorem moveInto_throws {src : Src α} (hE : E.moveThrows = true) (ho : s.orc s.tick = true) (hx : src.read s = .ok v s) :
    moveInto E i src s = .exc .user { s with tick := s.tick + 1 } := by
  unfold moveInto
  rw [M.bind_ok hx, hE, if_pos rfl, M.bind_exc (s' := { s with tick := s.tick + 1 }) (e := .user) (by simp [fallible, ho])]

theorem construct_throws {body : OM α Unit} {b : Bool} (hi : s.obj i = none)
    (hb : body { s with obj := upd s.obj i (some ⟨none, b⟩) } =
      .exc .user { s with obj := upd s.obj i (some ⟨none, b⟩), tick := s.tick + 1 }) :
    construct i b body s = .exc .user { s with tick := s.tick + 1 } := by
  unfold construct
  rw [M.bind_ok (newObj_ok hi)]
  refine M.onExc_exc hb ?_
  simp only [killObj, upd_same, upd_upd]
  rw [upd_eq _ _ _ hi]

/-- C89 is false of optionals of types with a constructor from `std::initializer_list` that can throw and is called by
`Type{std::move(x)}` (e.g. a JSON value, constructed from a list of one): `std::is_nothrow_move_constructible_v<Type>`
(optional.hpp:20) holds, and yet moving the optional, assigning by move to an empty one and swapping it with an empty one end
the program. -/
theorem C89_optional_refuted (hE : E.moveThrows = true) (ho : s.orc s.tick = true) (hj : s.obj j = some ⟨some x, true⟩) :
    (s.obj i = none → (Op.ctorMove i j).run E s = .term ∧ ∀ v, (Op.ctorFromMove i (.ext v)).run E s = .term) ∧
    (s.obj i = some ⟨none, false⟩ → (Op.assignMove i j).run E s = .term ∧ (Op.swap i j).run E s = .term ∧
      (Op.swap j i).run E s = .term ∧ ∀ v, (Op.assignFromMove i (.ext v)).run E s = .term) := by
  refine ⟨fun hi => ⟨?_, fun v => ?_⟩, fun hi => ?_⟩
  · have hne : j ≠ i := by rintro rfl; rw [hi] at hj; cases hj
    refine M.noexcept_exc (e := .user) (s' := { s with tick := s.tick + 1 }) ?_
    rw [M.bind_ok (flag_ok hj)]
    refine construct_throws hi ?_
    have hj' : (upd s.obj i (some ⟨none, true⟩)) j = some ⟨some x, true⟩ := by rw [upd_ne _ _ hne]; exact hj
    rw [M.bind_ok (flag_ok hj')]
    exact moveInto_throws (src := .own j) (v := x) hE ho (readVal_ok hj')
  · exact M.noexcept_exc (construct_throws hi (moveInto_throws (src := .ext v) hE ho rfl))
  · have hne : i ≠ j := by rintro rfl; rw [hi] at hj; cases hj
    have hm := moveInto_throws (i := i) (src := .own j) (v := x) hE ho (readVal_ok hj)
    have ha : assignFromMove E i (.own j) s = .term := by
      refine M.noexcept_exc (e := .user) (s' := { s with tick := s.tick + 1 }) ?_
      rw [M.bind_ok (flag_ok hi)]
      exact M.bind_exc hm
    refine ⟨?_, ?_, ?_, fun v => ?_⟩
    · show M.noexcept _ s = .term
      rw [if_pos hne]
      have : (flag j >>= fun b => if b then assignFromMove E i (.own j) else reset i) s = .term := by
        rw [M.bind_ok (flag_ok hj)]
        exact ha
      unfold M.noexcept
      rw [this]
    · refine M.noexcept_exc (e := .user) (s' := { s with tick := s.tick + 1 }) ?_
      rw [if_neg hne, M.bind_ok (flag_ok hi), M.bind_ok (flag_ok hj)]
      exact M.bind_exc hm
    · refine M.noexcept_exc (e := .user) (s' := { s with tick := s.tick + 1 }) ?_
      rw [if_neg (Ne.symm hne), M.bind_ok (flag_ok hj), M.bind_ok (flag_ok hi)]
      exact M.bind_exc hm
    · refine M.noexcept_exc (e := .user) (s' := { s with tick := s.tick + 1 }) ?_
      rw [M.bind_ok (flag_ok hi)]
      exact M.bind_exc (moveInto_throws (src := .ext v) hE ho rfl)

/-- `greedyE`, with a constructor from `std::initializer_list` that allocates -/
def listE : Elem Nat := { greedyE with moveThrows := true }

-- `optional a{in_place, 3}, b; b = std::move(a);` while memory is short
example : ∃ s1 s2 : St Nat, (Op.ctorInPlace 0 (.val 3)).run listE (start Nat fun _ => true) = .ok () s1 ∧
    (Op.ctorNull 1).run listE s1 = .ok () s2 ∧ (Op.assignMove 1 0).run listE s2 = .term ∧ (Op.swap 1 0).run listE s2 = .term :=
  ⟨_, _, rfl, rfl, rfl, rfl⟩

end Ptl.Optional

namespace Ptl.Variant

variable {τ ν : Type} [DecidableEq τ] {E : Elem τ ν} {ts : List τ} {T T' : τ} {s s' : St ν} {i j : Nat}
  {x y v : ν} {V V' : Vars τ ν} {op : Op τ ν}

/-- C89 for variants of types for which braces call the move constructor.  Missing: other types, see `C89_variant_refuted`. -/
theorem C89_variant_partial (hE : E.Plain) (ha : Alts ts) (h : Reach E ts s V) (hs : Spec E ts op V V') :
    op.run E ts s ≠ .term := by
  intro hr
  have := h.call hE ha hs
  rw [hr] at this
  exact this

theorem assignMoveImpl_throws {i j : Id} {k t : Nat} (hE : E.moveThrows T = true) (hk : ts[k]? = some T)
    (hj : s.obj j = some ⟨some (k, x), t⟩) (ho : s.orc s.tick = true) : assignMoveImpl E ts k i j s = .term := by
  unfold assignMoveImpl
  refine M.noexcept_exc (e := .user) (s' := { s with tick := s.tick + 1 }) ?_
  rw [dispatch_at hk, Storage.get_at hk, Nat.zero_add]
  show Storage.set i k 0 ts (Arg.move E ⟨j, k, T⟩) s = _
  rw [Storage.set_at hk, Nat.zero_add]
  have hr : readAt (⟨j, k, T⟩ : Ptr τ) s = .ok x s := by simp [readAt, hj]
  unfold construct
  refine M.bind_exc ?_
  show (readAt ⟨j, k, T⟩ >>= fun v => (if (!E.moveThrows T) = true then pure () else fallible) >>= fun _ =>
    writeAt ⟨j, k, T⟩ (E.moved T v) >>= fun _ => pure (E.braced T v)) s = _
  rw [M.bind_ok hr, hE, if_neg (by decide)]
  exact M.bind_exc (by simp [fallible, ho])

/-- C89 is false of variants with an alternative as in `C89_optional_refuted` (variant.hpp:48, 184): constructing and
assigning by move end the program, and so does swapping with a variant that holds another alternative. -/
theorem C89_variant_refuted {k k' : Nat} (hE : E.moveThrows T = true) (hk : ts[k]? = some T) (hk' : ts[k']? = some T')
    (ho : s.orc s.tick = true) (hj : s.obj (.var j) = some ⟨some (k, x), k⟩) :
    (s.obj (.var i) = none → (Op.ctorMove i j).run E ts s = .term) ∧
    (s.obj (.var i) = some ⟨some (k', y), k'⟩ → i ≠ j → s.part (.var i) = [] → (Op.assignMove i j).run E ts s = .term) ∧
    (s.obj (.var i) = some ⟨some (k', y), k'⟩ → k ≠ k' → s.obj (.tmp s.ntmp) = none → (Op.swap j i).run E ts s = .term) := by
  have nt : ∀ {m : VM ν Unit} {s : St ν}, m s = .term → M.noexcept m s = .term := by
    intro m s h; simp [M.noexcept, h]
  have hctor : ∀ {q : Id} {n : Nat}, s.obj q = none → ctorMove E ts q (.var j) { s with ntmp := n } = .term := by
    intro q n hq
    have hne : Id.var j ≠ q := by rintro rfl; rw [hq] at hj; cases hj
    refine nt ?_
    rw [M.bind_ok (getObj_ok (s := { s with ntmp := n }) hj)]
    unfold construct'
    rw [M.bind_ok (newObj_ok (s := { s with ntmp := n }) hq)]
    unfold M.onExc
    have hm := assignMoveImpl_throws (s := { s with obj := upd s.obj q (some ⟨none, k⟩), ntmp := n }) (x := x) (t := k) (i := q) hE hk
      ((upd_ne _ _ hne).trans hj) ho
    simp only
    rw [hm]
  refine ⟨fun hi => hctor (n := s.ntmp) hi, fun hi hne hp => ?_, fun hi hne ht => ?_⟩
  · have hne' : Id.var i ≠ .var j := by simpa using hne
    refine nt ?_
    rw [if_pos hne', M.bind_ok (getObj_ok hi)]
    simp only
    rw [M.bind_ok (destroyImpl_ok hk' hi hp)]
    have hj' : (upd s.obj (.var i) (some ⟨none, k'⟩)) (.var j) = some ⟨some (k, x), k⟩ := by
      rw [upd_ne _ _ (Ne.symm hne')]; exact hj
    rw [M.bind_ok (getObj_ok (s := { s with obj := upd s.obj (.var i) (some ⟨none, k'⟩) }) hj')]
    exact M.bind_term (assignMoveImpl_throws (s := { s with obj := upd s.obj (.var i) (some ⟨none, k'⟩) }) hE hk hj' ho)
  · have hne' : Id.var j ≠ .var i := by
      intro e; rw [e, hi] at hj
      simp only [Option.some.injEq, Obj.mk.injEq] at hj
      exact hne hj.2.symm
    refine nt ?_
    rw [if_neg hne', M.bind_ok (getObj_ok hj), M.bind_ok (getObj_ok hi)]
    simp only
    rw [if_neg hne]
    exact M.bind_term (hctor (q := .tmp s.ntmp) (n := s.ntmp + 1) ht)

/-- `greedyE`, with a constructor from `std::initializer_list` that allocates -/
def listE : Elem Ty Nat := { greedyE with moveThrows := fun T => T == .lst }

theorem term_of {σ α : Type} {o : Out σ α} (h : (match o with | .term => true | _ => false) = true) : o = .term := by
  cases o with
  | term => rfl
  | _ => cases h

-- a list and a number, while memory is short; even assigning a copy of the list to the number ends the program, if there is
-- memory for the copy only
example : ∃ s1 s2 : St Nat, (Op.ctorValue 0 .lst (.val 3)).run listE [.int, .lst] (start Nat fun k => k == 1) = .ok () s1 ∧
    (Op.ctorValue 1 .int (.val 7)).run listE [.int, .lst] s1 = .ok () s2 ∧
    (Op.assignCopy 1 0).run listE [.int, .lst] s2 = .term :=
  ⟨_, _, rfl, rfl, term_of (by decide +kernel)⟩

example : ∃ s1 s2 : St Nat, (Op.ctorValue 0 .lst (.val 3)).run listE [.int, .lst] (start Nat fun _ => true) = .ok () s1 ∧
    (Op.ctorValue 1 .int (.val 7)).run listE [.int, .lst] s1 = .ok () s2 ∧
    (Op.assignMove 1 0).run listE [.int, .lst] s2 = .term ∧ (Op.swap 0 1).run listE [.int, .lst] s2 = .term :=
  ⟨_, _, rfl, rfl, rfl, rfl⟩

end Ptl.Variant

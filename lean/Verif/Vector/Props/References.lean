import Verif.Vector.Props.Values

/-!
# C92: references to elements stay valid

Pointers, references and iterators to elements of a `std::vector` stay valid across calls for which the standard says so.
`Keeps` below is that rule; it depends on what the client knows: the contents and `capacity()`.
-/

namespace Ptl.Vector

variable {α : Type}

/-- the call inserts `n` elements before position `p` of variable `i` that holds `len` elements -/
inductive Op.InsertsAt (len : Nat) : Op α → (i p n : Nat) → Prop
  | pushBack {i x} : Op.InsertsAt len (.pushBack i x) i len 1
  | emplace {i p x} : Op.InsertsAt len (.emplace i p x) i p 1
  | insertFill {i p n x} : Op.InsertsAt len (.insertFill i p n x) i p n
  | insertRange {i p r} : Op.InsertsAt len (.insertRange i p r) i p r.len
  | insertInput {i p vs} : Op.InsertsAt len (.insertInput i p vs) i p vs.length

/-- the call removes elements of variable `i` that holds `len` elements, the first of them at position `p` -/
inductive Op.RemovesFrom (len : Nat) : Op α → (i p : Nat) → Prop
  | erase {i f l} : Op.RemovesFrom len (.erase i f l) i f
  | eraseOne {i p} : Op.RemovesFrom len (.eraseOne i p) i p
  | popBack {i} : Op.RemovesFrom len (.popBack i) i (len - 1)
  | resize {i n} : n ≤ len → Op.RemovesFrom len (.resize i n) i n
  | resizeFill {i n x} : n ≤ len → Op.RemovesFrom len (.resizeFill i n x) i n

/-- The rule: a reference to element `k` of variable `i`, which holds `len` elements and has capacity `c`, stays valid across
the call; it refers to element `k` of variable `j` then.

* a call on other vectors;
* `swap`, and moving the vector elsewhere: the elements go along;
* self-assignment;
* an insertion behind the element while the capacity suffices;
* a removal behind the element, or a `resize` to a smaller size;
* `reserve` of no more than the capacity;
* an assignment to an element. -/
inductive Keeps (len c : Nat) : Op α → (i k j : Nat) → Prop
  | other {op i k} : ¬ op.Targets i → Keeps len c op i k i
  | swapLeft {i j k} : Keeps len c (.swap i j) i k j
  | swapRight {i j k} : Keeps len c (.swap i j) j k i
  | ctorMove {i j k} : Keeps len c (.ctorMove i j) j k i
  | assignMove {i j k} : Keeps len c (.assignMove i j) j k i
  | assignSelf {i k} : Keeps len c (.assignCopy i i) i k i
  | inserts {op i p n k} : op.InsertsAt len i p n → k < p → len + n ≤ c → Keeps len c op i k i
  | removes {op i p k} : op.RemovesFrom len i p → k < p → Keeps len c op i k i
  | reserve {i n k} : n ≤ c → Keeps len c (.reserve i n) i k i
  | write {i m v k} : Keeps len c (.write i m v) i k i
  | put {i m v k} : Keeps len c (.put i m v) i k i

variable {T : Elem α} {s s' : St α Storage} {V V' : Vars α} {op : Op α} {r : Option Nat}

/-- the call gives the element at position `k` of variable `i` a new value: it assigns to it, or moves its value elsewhere -/
inductive Op.Touches : Op α → (i k : Nat) → Prop
  | write {i k v} : Op.Touches (.write i k v) i k
  | put {i k v} : Op.Touches (.put i k v) i k
  | pushBack {i j k} : Op.Touches (.pushBack j (.mv i k)) i k
  | emplace {i j p k} : Op.Touches (.emplace j p (.mv i k)) i k
  | ctorRange {i j a m k} : a ≤ k → k < a + m → Op.Touches (.ctorRange j (.mvs i a m)) i k
  | assignRange {i j a m k} : a ≤ k → k < a + m → Op.Touches (.assignRange j (.mvs i a m)) i k
  | insertRange {i j p a m k} : a ≤ k → k < a + m → Op.Touches (.insertRange j p (.mvs i a m)) i k

theorem Src1.Takes.at {moved : α → α} {x : Src1 α} {v : α} {V V1 : Vars α} (hx : x.Takes moved V v V1) {i : Nat} {xs : List α}
    (hi : V i = some xs) : ∃ ys, V1 i = some ys ∧ ys.length = xs.length ∧ ∀ k, x ≠ .mv i k → ys[k]? = xs[k]? := by
  cases hx with
  | ref => exact ⟨xs, hi, rfl, fun _ _ => rfl⟩
  | @mv j k' zs _ hj hk =>
    by_cases hij : i = j
    · subst hij
      rw [hi] at hj; cases hj
      refine ⟨_, upd_same _ _ _, by simp, fun k hk => ?_⟩
      rw [List.getElem?_set_ne]
      rintro rfl; exact hk rfl
    · exact ⟨xs, by rw [upd_ne _ _ hij]; exact hi, rfl, fun _ _ => rfl⟩

theorem Rng.Takes.at {moved : α → α} {x : Rng α} {vs : List α} {V V1 : Vars α} (hx : x.Takes moved V vs V1) {i : Nat} {xs : List α}
    (hi : V i = some xs) : ∃ ys, V1 i = some ys ∧ ys.length = xs.length ∧
      ∀ k, (∀ a m, x = .mvs i a m → k < a ∨ a + m ≤ k) → ys[k]? = xs[k]? := by
  cases hx with
  | refs => exact ⟨xs, hi, rfl, fun _ _ => rfl⟩
  | @mvs j pre vs post hj =>
    by_cases hij : i = j
    · subst hij
      rw [hi] at hj; cases hj
      refine ⟨_, upd_same _ _ _, by simp, fun k hk => ?_⟩
      rcases hk _ _ rfl with h | h
      · simp only [List.append_assoc]
        rw [List.getElem?_append_left h, List.getElem?_append_left h]
      · rw [List.getElem?_append_right (by simp; omega), List.getElem?_append_right (by simp; omega)]
        simp
    · exact ⟨xs, by rw [upd_ne _ _ hij]; exact hi, rfl, fun _ _ => rfl⟩

/-- C92 (what the reference refers to, by the list semantics alone): after a call that keeps the reference valid, there is still
an element at its position, and it has the value it had, unless the call assigns to it or moves its value elsewhere -/
theorem C92_element (hs : Spec T op V V' r) {i j k c : Nat} {xs : List α} (hi : V i = some xs) (hk : k < xs.length)
    (hkeep : Keeps xs.length c op i k j) :
    ∃ ys, V' j = some ys ∧ k < ys.length ∧ (¬ op.Touches i k → ys[k]? = xs[k]?) := by
  cases hkeep with
  | other hn =>
    have ne : ∀ {i'}, op.Targets i' → i ≠ i' := by rintro i' hi' rfl; exact hn hi'
    cases hs with
    | ctorMove => rw [upd_ne _ _ (ne (.inr rfl)), upd_ne _ _ (ne (.inl rfl))]; exact ⟨xs, hi, hk, fun _ => rfl⟩
    | assignMove => rw [upd_ne _ _ (ne (.inr rfl)), upd_ne _ _ (ne (.inl rfl))]; exact ⟨xs, hi, hk, fun _ => rfl⟩
    | swap => rw [upd_ne _ _ (ne (.inr rfl)), upd_ne _ _ (ne (.inl rfl))]; exact ⟨xs, hi, hk, fun _ => rfl⟩
    | assignMoveSelf => exact ⟨xs, hi, hk, fun _ => rfl⟩
    | reserve => exact ⟨xs, hi, hk, fun _ => rfl⟩
    | shrinkToFit => exact ⟨xs, hi, hk, fun _ => rfl⟩
    | pushBack hx _ =>
      rw [upd_ne _ _ (ne rfl)]
      obtain ⟨ys, h1, h2, h3⟩ := hx.at hi
      exact ⟨ys, h1, by omega, fun ht => h3 k (by rintro rfl; exact ht .pushBack)⟩
    | emplace hx _ =>
      rw [upd_ne _ _ (ne rfl)]
      obtain ⟨ys, h1, h2, h3⟩ := hx.at hi
      exact ⟨ys, h1, by omega, fun ht => h3 k (by rintro rfl; exact ht .emplace)⟩
    | ctorRange _ hx _ =>
      rw [upd_ne _ _ (ne rfl)]
      obtain ⟨ys, h1, h2, h3⟩ := hx.at hi
      refine ⟨ys, h1, by omega, fun ht => h3 k ?_⟩
      rintro a m rfl
      exact Classical.byContradiction fun hc => ht (.ctorRange (by omega) (by omega))
    | assignRange _ hx _ =>
      rw [upd_ne _ _ (ne rfl)]
      obtain ⟨ys, h1, h2, h3⟩ := hx.at hi
      refine ⟨ys, h1, by omega, fun ht => h3 k ?_⟩
      rintro a m rfl
      exact Classical.byContradiction fun hc => ht (.assignRange (by omega) (by omega))
    | insertRange hx _ _ =>
      rw [upd_ne _ _ (ne rfl)]
      obtain ⟨ys, h1, h2, h3⟩ := hx.at hi
      refine ⟨ys, h1, by omega, fun ht => h3 k ?_⟩
      rintro a m rfl
      exact Classical.byContradiction fun hc => ht (.insertRange (by omega) (by omega))
    | _ => rw [upd_ne _ _ (ne rfl)]; exact ⟨xs, hi, hk, fun _ => rfl⟩
  | swapLeft =>
    cases hs with
    | swap h1 h2 =>
      rw [hi] at h1; cases h1
      exact ⟨xs, upd_same _ _ _, hk, fun _ => rfl⟩
  | swapRight =>
    cases hs with
    | @swap i' _ _ _ _ h1 h2 =>
      rw [hi] at h2; cases h2
      by_cases hij : j = i
      · subst hij
        rw [hi] at h1; cases h1
        exact ⟨xs, upd_same _ _ _, hk, fun _ => rfl⟩
      · exact ⟨xs, by rw [upd_ne _ _ hij, upd_same], hk, fun _ => rfl⟩
  | ctorMove =>
    cases hs with
    | ctorMove h1 h2 =>
      rw [hi] at h2; cases h2
      have hij : j ≠ i := by rintro rfl; rw [hi] at h1; cases h1
      exact ⟨xs, by rw [upd_ne _ _ hij, upd_same], hk, fun _ => rfl⟩
  | assignMove =>
    cases hs with
    | assignMove h1 h2 hij =>
      rw [hi] at h2; cases h2
      exact ⟨xs, by rw [upd_ne _ _ hij, upd_same], hk, fun _ => rfl⟩
    | assignMoveSelf => exact ⟨xs, hi, hk, fun _ => rfl⟩
  | assignSelf =>
    cases hs with
    | assignCopy h1 h2 =>
      rw [hi] at h2; cases h2
      exact ⟨xs, upd_same _ _ _, hk, fun _ => rfl⟩
  | @inserts _ _ p n _ hop hp hc =>
    have at_ : ∀ {pre mid post : List α}, k < pre.length → (pre ++ mid ++ post)[k]? = (pre ++ post)[k]? := by
      intro pre mid post h
      rw [List.append_assoc, List.getElem?_append_left h, List.getElem?_append_left h]
    cases hop with
    | pushBack =>
      cases hs with
      | pushBack hx h1 =>
        obtain ⟨ys, h2, h3, h4⟩ := hx.at hi
        rw [h1] at h2; cases h2
        refine ⟨_, upd_same _ _ _, by simp; omega, fun ht => ?_⟩
        rw [List.getElem?_append_left (by omega)]
        exact h4 k (by rintro rfl; exact ht .pushBack)
    | emplace =>
      cases hs with
      | emplace hx h1 =>
        obtain ⟨ys, h2, h3, h4⟩ := hx.at hi
        rw [h1] at h2; cases h2
        refine ⟨_, upd_same _ _ _, by simp; omega, fun ht => ?_⟩
        rw [at_ hp]
        exact h4 k (by rintro rfl; exact ht .emplace)
    | insertFill =>
      cases hs with
      | insertFill hx h1 hf =>
        rw [hi] at h1; cases h1
        exact ⟨_, upd_same _ _ _, by simp; omega, fun _ => at_ hp⟩
    | insertRange =>
      cases hs with
      | insertRange hx h1 hf =>
        obtain ⟨ys, h2, h3, h4⟩ := hx.at hi
        rw [h1] at h2; cases h2
        refine ⟨_, upd_same _ _ _, by simp; omega, fun ht => ?_⟩
        rw [at_ hp]
        refine h4 k ?_
        rintro a m rfl
        exact Classical.byContradiction fun hc => ht (.insertRange (by omega) (by omega))
    | insertInput =>
      cases hs with
      | insertInput h1 hf =>
        rw [hi] at h1; cases h1
        exact ⟨_, upd_same _ _ _, by simp; omega, fun _ => at_ hp⟩
  | @removes _ _ p _ hop hp =>
    have at_ : ∀ {pre post : List α}, k < pre.length → pre[k]? = (pre ++ post)[k]? := by
      intro pre post h
      rw [List.getElem?_append_left h]
    cases hop with
    | erase =>
      cases hs with
      | erase h1 hm =>
        rw [hi] at h1; cases h1
        refine ⟨_, upd_same _ _ _, by simp; omega, fun _ => ?_⟩
        rw [List.append_assoc, ← at_ hp, ← at_ hp]
    | eraseOne =>
      cases hs with
      | eraseOne h1 =>
        rw [hi] at h1; cases h1
        refine ⟨_, upd_same _ _ _, by simp; omega, fun _ => ?_⟩
        rw [List.append_assoc, ← at_ hp, ← at_ hp]
    | popBack =>
      cases hs with
      | popBack h1 =>
        rw [hi] at h1; cases h1
        simp only [List.length_append, List.length_singleton, Nat.add_sub_cancel] at hp
        exact ⟨_, upd_same _ _ _, hp, fun _ => at_ hp⟩
    | resize hle =>
      cases hs with
      | resizeShrink h1 =>
        rw [hi] at h1; cases h1
        exact ⟨_, upd_same _ _ _, hp, fun _ => at_ hp⟩
      | @resizeGrow _ zs m _ h1 hf =>
        rw [hi] at h1; cases h1
        exact ⟨_, upd_same _ _ _, by simp; omega, fun _ => by rw [← at_ hk]⟩
    | resizeFill hle =>
      cases hs with
      | resizeFillShrink h1 =>
        rw [hi] at h1; cases h1
        exact ⟨_, upd_same _ _ _, hp, fun _ => at_ hp⟩
      | resizeFillGrow h1 hx hf =>
        rw [hi] at h1; cases h1
        exact ⟨_, upd_same _ _ _, by simp; omega, fun _ => by rw [← at_ hk]⟩
  | reserve =>
    cases hs with
    | reserve => exact ⟨xs, hi, hk, fun _ => rfl⟩
  | @write _ m v _ =>
    cases hs with
    | write h1 hm =>
      rw [hi] at h1; cases h1
      refine ⟨_, upd_same _ _ _, by simp; omega, fun ht => ?_⟩
      rw [List.getElem?_set_ne]
      rintro rfl; exact ht .write
  | @put _ m v _ =>
    cases hs with
    | put h1 hm =>
      rw [hi] at h1; cases h1
      refine ⟨_, upd_same _ _ _, by simp; omega, fun ht => ?_⟩
      rw [List.getElem?_set_ne]
      rintro rfl; exact ht .put

theorem shows_thrown (h : Reach T s V) (hs : Spec T op V V' r) {e : Exc} (hr : op.run T s = .exc e s') {i : Nat} {d : Ptr}
    {c : Nat} {xs : List α} (hsh : Shows s i d c xs) : Shows s' i d c xs := by
  have h2 := h.thrown hs hr
  obtain ⟨hinv, rfl⟩ := h.inv
  have hst := step hinv hs
  rw [hr] at hst
  obtain ⟨o, ho, rfl, rfl⟩ := hinv.of_shows hsh
  exact h2.inv.1.shows (by rw [hst.1.abs, ho])

theorem shows_other (h : Reach T s V) (hs : Spec T op V V' r) {r' : Option Nat} (hr : op.run T s = .ok r' s') {i : Nat}
    (hi : ¬ op.Targets i) {d : Ptr} {c : Nat} {xs : List α} (hsh : Shows s i d c xs) : ∃ ys, Shows s' i d c ys := by
  have h2 := h.ok hs hr
  obtain ⟨hinv, rfl⟩ := h.inv
  have hst := step hinv hs
  rw [hr] at hst
  obtain ⟨o, ho, rfl, rfl⟩ := hinv.of_shows hsh
  have e := hst.1.2 i hi
  rw [(hinv.wf.get ho).1] at e
  exact ⟨_, h2.inv.1.shows (abs_of_obj e)⟩

theorem shows_write (h : Reach T s V) {i k : Nat} {v : α} (hs : Spec T (.write i k v) V V' r) {r' : Option Nat}
    (hr : (Op.write i k v).run T s = .ok r' s') {d : Ptr} {c : Nat} {xs : List α} (hsh : Shows s i d c xs) :
    ∃ ys, Shows s' i d c ys := by
  have h2 := h.ok hs hr
  obtain ⟨hinv, rfl⟩ := h.inv
  obtain ⟨o, ho, rfl, rfl⟩ := hinv.of_shows hsh
  have hobj := (hinv.wf.get ho).1
  have e : (Op.write i k v).run T s = (writeAt ⟨o.ptr, k⟩ v >>= fun _ => pure none) s := M.bind_ok (index_ok hobj k)
  rw [e] at hr
  have hobj2 : s'.obj = s.obj := by
    cases hm : writeAt ⟨o.ptr, k⟩ v s with
    | ok a s3 => rw [M.bind_ok hm] at hr; cases hr; exact writeAt_obj hm
    | exc e s3 => rw [M.bind_exc hm] at hr; cases hr
    | ub => rw [M.bind_ub hm] at hr; cases hr
    | term => rw [M.bind_term hm] at hr; cases hr
  exact ⟨_, h2.inv.1.shows (abs_of_obj (by rw [hobj2]; exact hobj))⟩

theorem shows_put (h : Reach T s V) {i k : Nat} {v : α} (hs : Spec T (.put i k v) V V' r) {r' : Option Nat}
    (hr : (Op.put i k v).run T s = .ok r' s') {d : Ptr} {c : Nat} {xs : List α} (hsh : Shows s i d c xs) :
    ∃ ys, Shows s' i d c ys := by
  have h2 := h.ok hs hr
  obtain ⟨hinv, rfl⟩ := h.inv
  obtain ⟨o, ho, rfl, rfl⟩ := hinv.of_shows hsh
  have hobj := (hinv.wf.get ho).1
  exact ⟨_, h2.inv.1.shows (abs_of_obj (by rw [put_obj hr]; exact hobj))⟩

/-- C92 (the buffer): across every call for which the rule says so – whether it returns or throws – the buffer with the element
stays where it is, with the same capacity.  The program can only end in `shrink_to_fit` of another vector. -/
theorem C92_buffer (h : Reach T s V) (hs : Spec T op V V' r) {i j k c : Nat} {d : Ptr} {xs : List α} (hsh : Shows s i d c xs)
    (hkeep : Keeps xs.length c op i k j) :
    match op.run T s with
    | .ok _ s' => ∃ ys, Shows s' j d c ys
    | .exc _ s' => Shows s' i d c xs
    | .ub _ => False
    | .term => ∃ i', i' ≠ i ∧ op = .shrinkToFit i' := by
  have hcall := h.call hs
  cases hr : op.run T s with
  | exc e s' => exact shows_thrown h hs hr hsh
  | ub f => rw [hr] at hcall; exact hcall
  | term =>
    rw [hr] at hcall
    obtain ⟨⟨i', rfl⟩, -⟩ := hcall
    cases hkeep with
    | other hn => exact ⟨i', fun e => hn e.symm, rfl⟩
    | inserts hop => cases hop
    | removes hop => cases hop
  | ok r' s' =>
    have hV := h.of_shows hsh
    cases hkeep with
    | other hi => exact shows_other h hs hr hi hsh
    | swapLeft =>
      cases hs with
      | swap hi hj =>
        obtain ⟨d', c', hj'⟩ := h.shows hj
        obtain ⟨s2, e, _, h2, _⟩ := C12_swap h hsh hj'
        rw [e] at hr; cases hr
        exact ⟨xs, h2⟩
    | swapRight =>
      cases hs with
      | swap hi hj =>
        obtain ⟨d', c', hi'⟩ := h.shows hi
        obtain ⟨s2, e, h2, _⟩ := C12_swap h hi' hsh
        rw [e] at hr; cases hr
        exact ⟨xs, h2⟩
    | ctorMove =>
      cases hs with
      | ctorMove hi hj =>
        obtain ⟨s2, e, h2, _⟩ := C12_move_construct h hi hsh
        rw [e] at hr; cases hr
        exact ⟨xs, h2⟩
    | assignMove =>
      cases hs with
      | assignMove hi hj hij =>
        obtain ⟨s2, e, h2, _⟩ := C12_move_assign h hij hi hsh
        rw [e] at hr; cases hr
        exact ⟨xs, h2⟩
      | assignMoveSelf hi =>
        have e := (C12_self h hi).2.1
        rw [e] at hr; cases hr
        exact ⟨xs, hsh⟩
    | assignSelf =>
      have e := (C12_self h hV).1
      rw [e] at hr; cases hr
      exact ⟨xs, hsh⟩
    | @inserts _ _ p n _ hop hp hc =>
      have ins : op.Inserts i n → ∃ ys, Shows s' i d c ys := by
        intro hop
        have := C06_insert_in_place h hs hop hsh hc
        rw [hr] at this
        obtain ⟨⟨ys, _, h2⟩, _⟩ := this
        exact ⟨ys, h2⟩
      cases hop with
      | insertInput =>
        cases hs with
        | insertInput hi hf =>
          rw [hV] at hi; cases hi
          exact ⟨_, (C06_insert_input_in_place h hsh hc hr).2⟩
      | pushBack => exact ins .pushBack
      | emplace => exact ins .emplace
      | insertFill => exact ins .insertFill
      | insertRange => exact ins .insertRange
    | @removes _ _ p _ hop hp =>
      have hsr : op.Shrinks xs i := by
        cases hop with
        | erase => exact .erase
        | eraseOne => exact .eraseOne
        | popBack => exact .popBack
        | resize h => exact .resize h
        | resizeFill h => exact .resizeFill h
      obtain ⟨s2, ys, h1, _, h3, _⟩ := C06_shrink_in_place h hs hsr hsh
      rw [h1] at hr; cases hr
      exact ⟨ys, h3⟩
    | @reserve _ n _ hn =>
      obtain ⟨o, ho, rfl, rfl⟩ := h.inv.1.of_shows hsh
      have e : (Op.reserve i n).run T s = .ok none s := M.bind_ok (reserve_noop (h.inv.1.wf.get ho).1 hn)
      rw [e] at hr; cases hr
      exact ⟨xs, hsh⟩
    | write => exact shows_write h hs hr hsh
    | put => exact shows_put h hs hr hsh

/-! ### histories -/

/-- A history that keeps the reference to element `k` of variable `i` valid, to the client's knowledge; at its end the reference
is to element `k` of variable `j`.  Each call may return or throw. -/
inductive Follows (T : Elem α) (k : Nat) : St α Storage → Vars α → Nat → St α Storage → Vars α → Nat → Prop
  | none {s V i} : Follows T k s V i s V i
  | ok {s V i s1 V1 j s2 V2 j' op r r' d c xs} : Follows T k s V i s1 V1 j → Spec T op V1 V2 r → Shows s1 j d c xs →
      Keeps xs.length c op j k j' → op.run T s1 = .ok r' s2 → Follows T k s V i s2 V2 j'
  | thrown {s V i s1 V1 j s2 V2 op r e} : Follows T k s V i s1 V1 j → Spec T op V1 V2 r →
      op.run T s1 = .exc e s2 → Follows T k s V i s2 V1 j

theorem Follows.reach {k i j : Nat} (hh : Follows T k s V i s' V' j) (h : Reach T s V) : Reach T s' V' := by
  induction hh with
  | none => exact h
  | ok _ hs _ _ hr ih => exact ih.ok hs hr
  | thrown _ hs hr ih => exact ih.thrown hs hr

theorem Shows.fun {i : Nat} {d d' : Ptr} {c c' : Nat} {xs ys : List α} (h : Shows s i d c xs) (h' : Shows s i d' c' ys) :
    d = d' ∧ c = c' ∧ xs = ys := by
  have h1 := h.data.symm.trans h'.data
  have h2 := h.capacity.symm.trans h'.capacity
  have h3 := h.elems.symm.trans h'.elems
  injection h1 with h1
  injection h2 with h2
  injection h3 with h3
  exact ⟨h1, h2, h3⟩

/-- C92: take a reference to an element of a vector (the address `p` that `v[k]` gives).  After every history that, by the
rules, keeps the reference valid – in whichever vector the element is then – `p` is the address of the element, and reading
through `p` gives the value the list semantics says. -/
theorem C92_partial (h : Reach T s V) {i j k : Nat} {xs : List α} (hi : V i = some xs) (hk : k < xs.length)
    {p : Ptr} (hp : index (.var i) k s = .ok p s) (hh : Follows T k s V i s' V' j) :
    ∃ ys v, V' j = some ys ∧ ys[k]? = some v ∧ index (.var j) k s' = .ok p s' ∧ readAt p s' = .ok v s' := by
  obtain ⟨d, c, hsh⟩ := h.shows hi
  have key : ∃ ys, Shows s' j d c ys ∧ k < ys.length := by
    clear hp
    induction hh with
    | none => exact ⟨xs, hsh, hk⟩
    | @ok s1 V1 j s2 V2 j' op r r' d' c' zs hp hs hsh' hkeep hr ih =>
      obtain ⟨ys, h1, h2⟩ := ih
      have hr1 := hp.reach h
      obtain ⟨rfl, rfl, rfl⟩ := h1.fun hsh'
      have hb := C92_buffer hr1 hs h1 hkeep
      rw [hr] at hb
      obtain ⟨ws, h3⟩ := hb
      obtain ⟨us, h4, h5, _⟩ := C92_element hs (hr1.of_shows h1) h2 hkeep
      have h6 := (hr1.ok hs hr).of_shows h3
      rw [h4] at h6; cases h6
      exact ⟨_, h3, h5⟩
    | @thrown s1 V1 j s2 V2 op r e hp hs hr ih =>
      obtain ⟨ys, h1, h2⟩ := ih
      exact ⟨ys, shows_thrown (hp.reach h) hs hr h1, h2⟩
  obtain ⟨ys, h1, h2⟩ := key
  have h' := hh.reach h
  have hpd : p = d.add k := by
    have := (C60_read h hsh (k := k) (v := xs[k]) (by simp [hk])).1
    rw [hp] at this; injection this
  obtain ⟨h3, h4, _⟩ := C60_read h' h1 (k := k) (v := ys[k]) (by simp [h2])
  subst hpd
  exact ⟨ys, ys[k], h'.of_shows h1, by simp [h2], h3, h4⟩

/-! ### what is missing: `resize` -/

/-- an address in a buffer that no vector has any more cannot be used -/
theorem C92_dangles (h : Reach T s V) (h' : Reach T s' V') {i k c : Nat} {d : Ptr} {xs : List α} (hsh : Shows s i d c xs) (hne : xs ≠ [])
    (hno : ∀ j c' ys, ¬ Shows s' j d c' ys) : readAt (d.add k) s' = .ub .useAfterFree := by
  obtain ⟨o, ho, rfl, rfl⟩ := h.inv.1.of_shows hsh
  rcases (h.inv.1.wf.get ho).2 with ⟨_, he⟩ | ⟨b, _, hb, _⟩
  · exact absurd he hne
  · have hfree : s'.blk b = none := by
      cases hl : s'.blk b with
      | none => rfl
      | some l =>
        obtain ⟨j, ⟨c', ys, h1, _⟩, _⟩ := C02_every_buffer_is_owned h' hl
        rw [hb] at hno
        exact absurd h1 (hno j c' ys)
    refine M.bind_ub ?_
    simp [slotAt, Ptr.add, hb, hfree]

/-- C92, missing: a `resize` to a larger size leaves every reference to an element of the vector dangling, no matter whether the
capacity would have sufficed (for `std::vector` they stay valid then) -/
theorem C92_resize (h : Reach T s V) {i n k : Nat} {d : Ptr} {c : Nat} {xs : List α} (hsh : Shows s i d c xs) (hk : k < xs.length)
    (hn : 0 < n) {r' : Option Nat} (hf : xs.length + n < 2 ^ 64) (hr : (Op.resize i (xs.length + n)).run T s = .ok r' s') :
    readAt (d.add k) s' = .ub .useAfterFree := by
  have hs : Spec T (.resize i (xs.length + n)) V _ _ := .resizeGrow (h.of_shows hsh) hf
  have h' := h.ok hs hr
  refine C92_dangles h h' hsh (by rintro rfl; simp at hk) fun j c' ys hj => ?_
  obtain ⟨d', h1, h2⟩ := C10_resize_always_reallocates h hsh hn hr
  by_cases hij : j = i
  · subst hij
    exact h2 (h1.fun hj).1
  · have hVj := h'.of_shows hj
    rw [upd_ne _ _ hij] at hVj
    obtain ⟨d2, c2, hj0⟩ := h.shows hVj
    obtain ⟨zs, hj1⟩ := shows_other h hs hr (i := j) hij hj0
    obtain ⟨rfl, -, -⟩ := hj.fun hj1
    obtain ⟨o, ho, rfl, rfl⟩ := h.inv.1.of_shows hsh
    obtain ⟨o2, ho2, hd, -⟩ := h.inv.1.of_shows hj0
    rcases (h.inv.1.wf.get ho).2 with ⟨_, he⟩ | ⟨b, _, hb, _⟩
    · rw [he] at hk; simp at hk
    · have hb2 : o2.ptr = some b := by rw [← hb]; injection hd with hd; exact hd.symm
      have := h.inv.1.wf.inj _ _ _ _ b (h.inv.1.wf.get ho2).1 (h.inv.1.wf.get ho).1 hb2 hb
      exact hij (by injection this)

/-- C92 is refuted for `resize`: a vector with room for 100 elements is resized from 3 to 20; a reference to its first element
dangles -/
theorem C92_refuted : ∃ (s s' : St Nat Storage) (V : Vars Nat) (d p : Ptr) (c : Nat) (r : Option Nat),
    Reach natElem s V ∧ Shows s 0 d c [1, 2, 3] ∧ 20 ≤ c ∧ index (.var 0) 0 s = .ok p s ∧ readAt p s = .ok 1 s ∧
      (Op.resize 0 20).run natElem s = .ok r s' ∧ readAt p s' = .ub .useAfterFree := by
  obtain ⟨s, s', V, d, d', c, r, h, hsh, hc, hr, _, _⟩ := C10_resize_refuted
  obtain ⟨h1, h2, _⟩ := C60_read h hsh (k := 0) (v := 1) rfl
  exact ⟨s, s', V, d, _, c, r, h, hsh, by omega, h1, h2, hr,
    C92_resize h hsh (k := 0) (n := 17) (by decide) (by decide) (by decide) hr⟩

/-- a reference to the second element of vector 0 follows it through an insertion behind it, a swap with vector 1, and a removal -/
example : ∃ (s s' : St Nat Storage) (V' : Vars Nat) (p : Ptr), Reach natElem s demoV ∧ index (.var 0) 1 s = .ok p s ∧
    Follows natElem 1 s demoV 0 s' V' 1 ∧ V' 1 = some [1, 2] ∧ index (.var 1) 1 s' = .ok p s' ∧ readAt p s' = .ok 2 s' := by
  obtain ⟨s, h, ho, s0, V0, r0, h0, hs0, hr0⟩ := demo_reserved
  obtain ⟨d, c, hsh, hc⟩ := C10_reserve h0 (i := 0) (n := 100) (xs := [1, 2, 3]) rfl (by decide) hr0
  have short : ∀ {V : Vars Nat} {i : Nat} {xs : List Nat}, (∀ i ys, V i = some ys → ys.length ≤ 1000) → xs.length ≤ 1000 →
      ∀ j ys, upd V i (some xs) j = some ys → ys.length ≤ 1000 := by
    intro V i xs hV hx j ys hj
    simp only [upd] at hj
    split at hj
    · cases hj; exact hx
    · exact hV _ _ hj
  have S1 := Spec.insertFill (T := natElem) (i := 0) (n := 2) (pre := [1, 2]) (post := [3]) (V := demoV) (.val 9) rfl (by decide)
  have L1 := short (i := 0) (xs := [1, 2, 9, 9, 3]) demoV_len (by decide)
  obtain ⟨s1, r1, h1, o1⟩ := h.next S1 ho (demo_short L1 (by intro i n h; cases h))
  have S2 := Spec.swap (T := natElem) (i := 1) (j := 0) (xs := [7]) (ys := [1, 2, 9, 9, 3]) (V := upd demoV 0 (some [1, 2, 9, 9, 3])) rfl rfl
  have L2 := short (i := 0) (xs := [7]) (short (i := 1) (xs := [1, 2, 9, 9, 3]) L1 (by decide)) (by decide)
  obtain ⟨s2, r2, h2, o2⟩ := h1.next S2 o1 (demo_short L2 (by intro i n h; cases h))
  have S3 := Spec.erase (T := natElem) (i := 1) (pre := [1, 2]) (mid := [9, 9, 3]) (post := [])
    (V := upd (upd (upd demoV 0 (some [1, 2, 9, 9, 3])) 1 (some [1, 2, 9, 9, 3])) 0 (some [7])) rfl (.inl (by decide))
  have L3 := short (i := 1) (xs := [1, 2]) L2 (by decide)
  obtain ⟨s3, r3, h3, o3⟩ := h2.next S3 o2 (demo_short L3 (by intro i n h; cases h))
  obtain ⟨d1, c1, hsh1⟩ := h1.shows (i := 0) (xs := [1, 2, 9, 9, 3]) rfl
  obtain ⟨d2, c2, hsh2⟩ := h2.shows (i := 1) (xs := [1, 2, 9, 9, 3]) rfl
  have F : Follows natElem 1 s demoV 0 s3 _ 1 :=
    .ok (.ok (.ok .none S1 hsh (.inserts .insertFill (by decide) (by show 3 + 2 ≤ c; omega)) r1) S2 hsh1 .swapRight r2) S3 hsh2
      (.removes .erase (by decide)) r3
  obtain ⟨p1, -, -⟩ := C60_read h hsh (k := 1) (v := 2) rfl
  obtain ⟨ys, v, hy, hv, q1, q2⟩ := C92_partial h (i := 0) (k := 1) (xs := [1, 2, 3]) rfl (by decide) p1 F
  have : ys = [1, 2] := (Option.some.inj hy).symm
  subst this
  cases hv
  exact ⟨s, s3, _, _, h, p1, F, rfl, q1, q2⟩

end Ptl.Vector

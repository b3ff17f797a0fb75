import Verif.Variant.Ops

/-! # Every variant call meets its specification; histories -/

set_option linter.unusedSectionVars false

namespace Ptl.Variant

variable {τ ν β : Type} [DecidableEq τ] {E : Elem τ ν} {ts : List τ} {T T' : τ} {s s' : St ν} {i j : Nat} {k : Nat}
  {x y v : ν} {a : Arg τ ν} {ob ob' : Id → Option (Obj ν)} {V V' V1 : Vars τ ν} {op : Op τ ν} {src : Src τ ν}

/-- the model state `s` is what the client's view `V` says -/
structure Inv (ts : List τ) (s : St ν) (V : Vars τ ν) : Prop where
  dead : ∀ i, V i = none → s.obj (.var i) = none
  live : ∀ i T x, V i = some (T, x) → T ∈ ts ∧ s.obj (.var i) = full (idx ts T) x
  tmp : ∀ n, s.obj (.tmp n) = none
  part : ∀ i, s.part i = []

theorem Inv.put (h : Inv ts s V) (hT : T ∈ ts) (ho : s'.obj = upd s.obj (.var i) (full (idx ts T) x))
    (hp : s'.part = s.part) : Inv ts s' (upd V i (some (T, x))) := by
  refine ⟨fun j hj => ?_, fun j T' y hj => ?_, fun n => ?_, fun i => by rw [hp]; exact h.part i⟩
  · by_cases e : j = i
    · subst e; simp at hj
    · rw [upd_ne _ _ e] at hj
      rw [ho, upd_ne _ _ (by simpa using e)]
      exact h.dead j hj
  · by_cases e : j = i
    · subst e
      rw [upd_same] at hj; cases hj
      exact ⟨hT, by rw [ho, upd_same]⟩
    · rw [upd_ne _ _ e] at hj
      rw [ho, upd_ne _ _ (by simpa using e)]
      exact h.live j T' y hj
  · rw [ho, upd_ne _ _ (by simp)]; exact h.tmp n

theorem Inv.kill (h : Inv ts s V) (ho : s'.obj = upd s.obj (.var i) none) (hp : s'.part = s.part) :
    Inv ts s' (upd V i none) := by
  refine ⟨fun j hj => ?_, fun j T' y hj => ?_, fun n => ?_, fun i => by rw [hp]; exact h.part i⟩
  · by_cases e : j = i
    · subst e; rw [ho, upd_same]
    · rw [upd_ne _ _ e] at hj
      rw [ho, upd_ne _ _ (by simpa using e)]
      exact h.dead j hj
  · by_cases e : j = i
    · subst e; rw [upd_same] at hj; cases hj
    · rw [upd_ne _ _ e] at hj
      rw [ho, upd_ne _ _ (by simpa using e)]
      exact h.live j T' y hj
  · rw [ho, upd_ne _ _ (by simp)]; exact h.tmp n

theorem Inv.same (h : Inv ts s V) (ho : s'.obj = s.obj) (hp : s'.part = s.part) : Inv ts s' V :=
  ⟨fun j hj => by rw [ho]; exact h.dead j hj, fun j T y hj => by rw [ho]; exact h.live j T y hj,
    fun n => by rw [ho]; exact h.tmp n, fun i => by rw [hp]; exact h.part i⟩

theorem start_inv (orc : Nat → Bool) : Inv ts (start ν orc) (fun _ => none) :=
  ⟨fun _ _ => rfl, fun _ _ _ h => (by cases h), fun _ => rfl, fun _ => rfl⟩

/-- the arguments a client forms refer to what the specification says -/
theorem resolve_ok (ha : Alts ts) (h : Inv ts s V) (hs : src.Takes V v V1) :
    ∃ a ob, src.resolve ts s = .ok a s ∧ a.Gives s.obj v ob ∧ Inv ts { s with obj := ob } V1 ∧
      (¬ src.Overlaps i → a.Clear (.var i)) := by
  cases hs with
  | val => exact ⟨_, _, rfl, .val _ _, h.same rfl rfl, fun _ => trivial⟩
  | thr => exact ⟨_, _, rfl, .thr _ _ _, h.same rfl rfl, fun _ => rfl⟩
  | @ref j T x f g nt hj =>
    obtain ⟨hT, ho⟩ := h.live j T x hj
    refine ⟨.ref ⟨.var j, idx ts T, T⟩ f g nt, upd s.obj (.var j) (full (idx ts T) (g x)), ?_, ?_, ?_, ?_⟩
    · exact M.bind_ok (get_held ha (ha.at_ hT) ho)
    · exact Arg.Gives.ref (p := ⟨.var j, idx ts T, T⟩) ho
    · exact h.put hT rfl rfl
    · intro hn hnt e
      apply hn
      exact ⟨hnt, by simpa using e⟩

/-- the outcome of a call that should turn `V` into `V'` -/
def Meets (ts : List τ) (s : St ν) (V V' : Vars τ ν) : Out (St ν) Unit → Prop
  | .ok _ s' => Inv ts s' V' ∧ s'.orc = s.orc ∧ s.tick ≤ s'.tick
  | .exc e s' => e = .user ∧ Inv ts s' V ∧ s'.obj = s.obj ∧ s'.orc = s.orc ∧ ∃ m, s.tick ≤ m ∧ m < s'.tick ∧ s.orc m = true
  | .ub _ => False
  | .term => False

theorem Meets.done {out : Out (St ν) Unit} (h : Done s out () ob) (hi : ∀ s', Next s ob s' → Inv ts s' V') :
    Meets ts s V V' out := by
  obtain ⟨s', e, n⟩ := h.elim
  subst e
  exact ⟨hi s' n, n.orc, n.tick⟩

theorem Meets.failed {out : Out (St ν) Unit} (h : Inv ts s V) (hf : Failed s out) : Meets ts s V V' out := by
  obtain ⟨s', e, n, m, h1, h2, h3⟩ := hf.elim
  subst e
  exact ⟨rfl, h.same n.obj n.part, n.obj, n.orc, m, h1, h2, h3⟩

theorem Meets.of_ok {m : VM ν Unit} (e : m s = .ok () s') (hi : Inv ts s' V') (ho : s'.orc = s.orc) (ht : s'.tick = s.tick) :
    Meets ts s V V' (m s) := by
  rw [e]; exact ⟨hi, ho, by rw [ht]; exact Nat.le_refl _⟩

theorem getElem_mem' (h : ts[k]? = some T) : T ∈ ts := List.mem_of_getElem? h

/-- every call within its preconditions does what the specification says, or throws and leaves everything alone -/
theorem step (hE : E.Plain) (ha : Alts ts) (h : Inv ts s V) (hs : Spec E ts op V V') :
    Meets ts s V V' (op.run E ts s) := by
  cases hs with
  | @ctorDefault i T rest _ hi hts =>
    have hk : ts[0]? = some T := by rw [hts]; rfl
    have hT := getElem_mem' hk
    have hid := idx_get ha hk
    have e : (Op.ctorDefault i : Op τ ν).run E ts =
        construct' (.var i) 0 (Storage.set (.var i) 0 0 ts (.thr (E.dflt T) false)) := by
      subst hts; rfl
    rw [e]
    rcases construct'_gives hk (h.dead i hi) (Arg.Gives.thr (E.dflt T) false s.obj) with hd | ⟨hf, _⟩
    · exact .done hd fun s' n => h.put hT (by rw [n.obj, hid]) n.part
    · exact .failed h hf
  | @ctorCopy i j T x _ hi hj =>
    obtain ⟨hT, ho⟩ := h.live j T x hj
    rcases ctorCopy_ok hE (ha.at_ hT) (h.dead i hi) ho with hd | hf
    · exact .done hd fun s' n => h.put hT n.obj n.part
    · exact .failed h hf
  | @ctorMove i j T x _ hi hj =>
    obtain ⟨hT, ho⟩ := h.live j T x hj
    have hne : i ≠ j := by intro e; rw [e, hj] at hi; cases hi
    refine .done (ctorMove_ok hE (ha.at_ hT) (h.dead i hi) ho) fun s' n => ?_
    rw [upd_comm _ _ _ hne]
    exact (h.put (s' := { s with obj := upd s.obj (.var j) (full (idx ts T) (E.moved T x)) }) hT rfl rfl).put hT n.obj n.part
  | @ctorIndex i k T src v _ V1 hi hk hx =>
    obtain ⟨a, ob, hr, hg, hinv, _⟩ := resolve_ok (i := i) ha h hx
    have hT := getElem_mem' hk
    have hid := idx_get ha hk
    show Meets ts s V _ ((src.resolve ts >>= fun a => Variant.ctorIndex ts (.var i) k a) s)
    rw [M.bind_ok hr]
    rcases ctorIndex_ok hk (h.dead i hi) hg with hd | ⟨hf, _⟩
    · exact .done hd fun s' n => hinv.put hT (by rw [n.obj, hid]) n.part
    · exact .failed h hf
  | @ctorValue i T src v _ V1 hi hT hx =>
    obtain ⟨a, ob, hr, hg, hinv, _⟩ := resolve_ok (i := i) ha h hx
    show Meets ts s V _ ((src.resolve ts >>= fun a => Variant.ctorIndex ts (.var i) (idx ts T) a) s)
    rw [M.bind_ok hr]
    rcases ctorIndex_ok (ha.at_ hT) (h.dead i hi) hg with hd | ⟨hf, _⟩
    · exact .done hd fun s' n => hinv.put hT n.obj n.part
    · exact .failed h hf
  | @dtor i T x _ hi =>
    obtain ⟨hT, ho⟩ := h.live i T x hi
    exact .of_ok (dtor_ok (ha.at_ hT) ho (h.part _)) (h.kill rfl rfl) rfl rfl
  | @assignCopy i j T T' x y _ hi hj =>
    obtain ⟨hT, ho⟩ := h.live i T x hi
    obtain ⟨hT', ho'⟩ := h.live j T' y hj
    by_cases hne : i = j
    · subst hne
      rw [hi] at hj; cases hj
      rw [upd_eq _ _ _ hi]
      exact .of_ok assignCopy_self h rfl rfl
    · rcases assignCopy_ok (i := .var i) (j := .var j) hE ha h.part h.tmp (by simpa using hne) (ha.at_ hT) (ha.at_ hT') ho ho'
        with hd | hf
      · exact .done hd fun s' n => h.put hT' n.obj n.part
      · exact .failed h hf
  | @assignMove i j T T' x y _ hi hj hne =>
    obtain ⟨hT, ho⟩ := h.live i T x hi
    obtain ⟨hT', ho'⟩ := h.live j T' y hj
    refine .done (assignMove_ok (i := .var i) (j := .var j) hE ha h.part (by simpa using hne) (ha.at_ hT) (ha.at_ hT') ho ho')
      fun s' n => ?_
    rw [upd_comm _ _ _ hne]
    exact (h.put (s' := { s with obj := upd s.obj (.var j) (full (idx ts T') (E.moved T' y)) }) hT' rfl rfl).put hT' n.obj n.part
  | @assignMoveSelf i T x _ hi => exact .of_ok assignMove_self h rfl rfl
  | @assignValue i T T' src y v _ V1 hi hT hx =>
    obtain ⟨a, ob, hr, hg, hinv, _⟩ := resolve_ok (i := i) ha h hx
    obtain ⟨hT', ho⟩ := h.live i T' y hi
    show Meets ts s V _ ((src.resolve ts >>= fun a => Variant.assignValue E ts (.var i) T a) s)
    rw [M.bind_ok hr]
    rcases tmpAssign_ok hE ha h.part h.tmp (ha.at_ hT') hT ho hg with hd | ⟨hf, _⟩
    · exact .done hd fun s' n => hinv.put hT n.obj n.part
    · exact .failed h hf
  | @emplace i T T' src y v _ V1 hi hT hx hov =>
    obtain ⟨a, ob, hr, hg, hinv, hc⟩ := resolve_ok (i := i) ha h hx
    obtain ⟨hT', ho⟩ := h.live i T' y hi
    show Meets ts s V _ ((src.resolve ts >>= fun a => (Variant.emplace E ts (.var i) T a >>= fun _ => pure ())) s)
    rw [M.bind_ok hr]
    rcases emplace_ok hE ha h.part h.tmp (ha.at_ hT') hT ho hg (hc hov) with hd | ⟨hf, _⟩
    · obtain ⟨s1, e1, n1⟩ := hd.elim
      rw [M.bind_ok e1]
      exact ⟨hinv.put hT n1.obj n1.part, n1.orc, n1.tick⟩
    · obtain ⟨s1, e1, n1, m, h1, h2, h3⟩ := hf.elim
      rw [M.bind_exc e1]
      exact ⟨rfl, h.same n1.obj n1.part, n1.obj, n1.orc, m, h1, h2, h3⟩
  | @emplaceIndex i k T T' src y v _ V1 hi hk hx hov =>
    obtain ⟨a, ob, hr, hg, hinv, hc⟩ := resolve_ok (i := i) ha h hx
    obtain ⟨hT', ho⟩ := h.live i T' y hi
    have hT := getElem_mem' hk
    show Meets ts s V _ ((src.resolve ts >>= fun a => (Variant.emplaceIndex E ts (.var i) k a >>= fun _ => pure ())) s)
    rw [M.bind_ok hr]
    have e : Variant.emplaceIndex E ts (.var i) k a = Variant.emplace E ts (.var i) T a := by
      unfold Variant.emplaceIndex
      rw [determineType_eq, hk]
    rw [e]
    rcases emplace_ok hE ha h.part h.tmp (ha.at_ hT') hT ho hg (hc hov) with hd | ⟨hf, _⟩
    · obtain ⟨s1, e1, n1⟩ := hd.elim
      rw [M.bind_ok e1]
      exact ⟨hinv.put hT n1.obj n1.part, n1.orc, n1.tick⟩
    · obtain ⟨s1, e1, n1, m, h1, h2, h3⟩ := hf.elim
      rw [M.bind_exc e1]
      exact ⟨rfl, h.same n1.obj n1.part, n1.obj, n1.orc, m, h1, h2, h3⟩
  | @swap i j T T' x y _ hi hj =>
    obtain ⟨hT, ho⟩ := h.live i T x hi
    obtain ⟨hT', ho'⟩ := h.live j T' y hj
    by_cases hne : i = j
    · subst hne
      rw [hi] at hj; cases hj
      rw [upd_upd, upd_eq _ _ _ hi]
      exact .of_ok swap_self h rfl rfl
    · refine .done (swap_ok (i := .var i) (j := .var j) hE ha h.part h.tmp (by simpa using hne) (ha.at_ hT) (ha.at_ hT') ho ho')
        fun s' n => ?_
      exact (h.put (s' := { s with obj := upd s.obj (.var i) (full (idx ts T') y) }) hT' rfl rfl).put hT n.obj n.part
  | @write i T x v _ hi =>
    obtain ⟨hT, ho⟩ := h.live i T x hi
    show Meets ts s V _ ((get ts (.var i) T >>= fun p => writeAt p v) s)
    rw [M.bind_ok (get_held ha (ha.at_ hT) ho), writeAt_ok (p := ⟨.var i, idx ts T, T⟩) ho]
    exact ⟨h.put hT rfl rfl, rfl, Nat.le_refl _⟩
  | @visit i T x f _ hi =>
    obtain ⟨hT, ho⟩ := h.live i T x hi
    obtain ⟨H, rest, hts⟩ := List.exists_cons_of_ne_nil ha.nonempty
    show Meets ts s V _ (Variant.visit ts (fun _ _ r => r) (.var i) (fun p => readAt p >>= fun v => writeAt p (f p.ty v)) s)
    rw [visit_ok hts (ha.at_ hT) ho, M.bind_assoc', M.bind_ok (readAt_ok (p := ⟨.var i, idx ts T, T⟩) ho),
      M.bind_ok (writeAt_ok (p := ⟨.var i, idx ts T, T⟩) ho)]
    exact ⟨h.put hT rfl rfl, rfl, Nat.le_refl _⟩

theorem Reach.inv (hE : E.Plain) (ha : Alts ts) (h : Reach E ts s V) : Inv ts s V := by
  induction h with
  | start orc => exact start_inv orc
  | ok _ hs hr ih =>
    have := step hE ha ih hs
    rw [hr] at this
    exact this.1
  | thrown _ hs hr ih =>
    have := step hE ha ih hs
    rw [hr] at this
    exact this.2.1

/-- a call in a program in which no construction fails returns normally -/
theorem Reach.next (hE : E.Plain) (ha : Alts ts) (h : Reach E ts s V) (hs : Spec E ts op V V') (ho : ∀ k, s.orc k = false) :
    ∃ s', op.run E ts s = .ok () s' ∧ Reach E ts s' V' ∧ ∀ k, s'.orc k = false := by
  have := step hE ha (h.inv hE ha) hs
  cases hr : op.run E ts s with
  | ok u s' =>
    rw [hr] at this
    exact ⟨s', rfl, h.ok hs hr, fun k => by rw [this.2.1]; exact ho k⟩
  | exc e s' =>
    rw [hr] at this
    obtain ⟨_, _, _, _, m, _, _, hm⟩ := this
    rw [ho] at hm; cases hm
  | ub => rw [hr] at this; exact this.elim
  | term => rw [hr] at this; exact this.elim

theorem Inv.shows (ha : Alts ts) (h : Inv ts s V) (hi : V i = some (T, x)) : Shows ts s i T x := by
  obtain ⟨hT, ho⟩ := h.live i T x hi
  obtain ⟨H, rest, hts⟩ := List.exists_cons_of_ne_nil ha.nonempty
  refine ⟨fun T' hT' => holds_ok ha (ha.at_ hT) ho hT', _, get_held ha (ha.at_ hT) ho,
    readAt_ok (p := ⟨.var i, idx ts T, T⟩) ho, fun β vis => ?_⟩
  rw [visit_ok hts (ha.at_ hT) ho, M.bind_run]
  cases vis _ s <;> rfl

end Ptl.Variant

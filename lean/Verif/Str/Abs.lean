import Verif.Str.Model

/-! # What can be observed of a string, the invariant, and the effect of the primitives on it -/

namespace Ptl.Str

/-- a string as seen through `data()`, `capacity()`, `size()` and its buffer (including the bytes beyond the size) -/
@[ext] structure Vw where
  base : Base
  cap : Nat
  siz : Nat
  buf : List (Option UInt8)

def Obj.base (i : Id) (o : Obj) : Base :=
  match o.u with
  | .sso _ => .sso i
  | .heap b _ _ => .heap b
def Obj.cap (o : Obj) : Nat :=
  match o.u with
  | .sso _ => 22
  | .heap _ c _ => c
def Obj.siz (o : Obj) : Nat :=
  match o.u with
  | .sso n => n
  | .heap _ _ n => n

/-- everything about all strings -/
def abs (s : St) (i : Id) : Option Vw :=
  (s.obj i).map fun o => ⟨o.base i, o.cap, o.siz, (s.mem (o.base i)).getD []⟩

/-- representation invariant of one string -/
structure Good (i : Id) (v : Vw) : Prop where
  shape : (v.base = .sso i ∧ v.cap = 22) ∨
    (∃ b, v.base = .heap b ∧ 48 ≤ v.cap ∧ 24 ∣ v.cap ∧ v.cap < ptrdiffMax)
  len : v.buf.length = v.cap + 1
  siz : v.siz ≤ v.cap

/-- an object is good -/
structure GoodO (s : St) (i : Id) (o : Obj) : Prop where
  dealloc : ∀ b, o.dealloc = some b ↔ ∃ c n, o.u = .heap b c n
  mem : ∃ l, s.mem (o.base i) = some l ∧ Good i ⟨o.base i, o.cap, o.siz, l⟩

/-- the invariant of the whole program state -/
structure WF (s : St) : Prop where
  good : ∀ i o, s.obj i = some o → GoodO s i o
  inj : ∀ i j o o', s.obj i = some o → s.obj j = some o' → o.base i = o'.base j → i = j
  owned : ∀ p l, s.mem p = some l → ∃ i o, s.obj i = some o ∧ o.base i = p
  freshB : ∀ b, s.nblk ≤ b → s.mem (.heap b) = none
  freshT : ∀ k, s.ntmp ≤ k → s.obj (.tmp k) = none

/-- `v` contains the bytes `xs`, followed by the byte `t` at index `size()` -/
def Holds (v : Vw) (xs : List UInt8) (t : UInt8) : Prop :=
  v.siz = xs.length ∧ ∃ rest, v.buf = xs.map some ++ some t :: rest

/-- the state changed without consulting the oracle, allocating or counting copies, and now looks like `f` -/
structure Quiet (s s' : St) (f : Id → Option Vw) : Prop where
  wf : WF s'
  abs : abs s' = f
  orc : s'.orc = s.orc
  tick : s'.tick = s.tick
  nblk : s'.nblk = s.nblk
  ntmp : s'.ntmp = s.ntmp
  moves : s'.moves = s.moves

/-- as `Quiet`, but the oracle may have been consulted and blocks may have been allocated -/
structure Step (s s' : St) (f : Id → Option Vw) : Prop where
  wf : WF s'
  abs : abs s' = f
  orc : s'.orc = s.orc
  tick : s.tick ≤ s'.tick
  nblk : s.nblk ≤ s'.nblk
  ntmp : s.ntmp ≤ s'.ntmp

theorem Quiet.step {s s' : St} {f : Id → Option Vw} (h : Quiet s s' f) : Step s s' f :=
  ⟨h.wf, h.abs, h.orc, Nat.le_of_eq h.tick.symm, Nat.le_of_eq h.nblk.symm, Nat.le_of_eq h.ntmp.symm⟩

theorem Quiet.refl {s : St} (hw : WF s) : Quiet s s (Str.abs s) := ⟨hw, rfl, rfl, rfl, rfl, rfl, rfl⟩
theorem Step.refl {s : St} (hw : WF s) : Step s s (Str.abs s) := (Quiet.refl hw).step

theorem Quiet.trans {s s1 s2 : St} {f g : Id → Option Vw} (h : Quiet s s1 f) (k : Quiet s1 s2 g) : Quiet s s2 g :=
  ⟨k.wf, k.abs, k.orc.trans h.orc, k.tick.trans h.tick, k.nblk.trans h.nblk, k.ntmp.trans h.ntmp,
    k.moves.trans h.moves⟩
theorem Step.trans {s s1 s2 : St} {f g : Id → Option Vw} (h : Step s s1 f) (k : Step s1 s2 g) : Step s s2 g :=
  ⟨k.wf, k.abs, k.orc.trans h.orc, Nat.le_trans h.tick k.tick, Nat.le_trans h.nblk k.nblk,
    Nat.le_trans h.ntmp k.ntmp⟩

/-- second step on the same string -/
theorem Quiet.then {s s1 s2 : St} {i : Id} {w w' : Option Vw} (h : Quiet s s1 (upd (Str.abs s) i w))
    (k : Quiet s1 s2 (upd (Str.abs s1) i w')) : Quiet s s2 (upd (Str.abs s) i w') := by
  have := h.trans k
  rwa [h.abs, upd_upd] at this
theorem Step.then {s s1 s2 : St} {i : Id} {w w' : Option Vw} (h : Step s s1 (upd (Str.abs s) i w))
    (k : Step s1 s2 (upd (Str.abs s1) i w')) : Step s s2 (upd (Str.abs s) i w') := by
  have := h.trans k
  rwa [h.abs, upd_upd] at this
theorem Quiet.at {s s1 : St} {i : Id} {w : Option Vw} (h : Quiet s s1 (upd (Str.abs s) i w)) :
    Str.abs s1 i = w := by rw [h.abs, upd_same]
theorem Quiet.ne {s s1 : St} {i j : Id} {w : Option Vw} (h : Quiet s s1 (upd (Str.abs s) i w)) (hj : j ≠ i) :
    Str.abs s1 j = Str.abs s j := by rw [h.abs, upd_ne _ _ hj]
theorem Step.at {s s1 : St} {i : Id} {w : Option Vw} (h : Step s s1 (upd (Str.abs s) i w)) :
    Str.abs s1 i = w := by rw [h.abs, upd_same]
theorem Step.ne {s s1 : St} {i j : Id} {w : Option Vw} (h : Step s s1 (upd (Str.abs s) i w)) (hj : j ≠ i) :
    Str.abs s1 j = Str.abs s j := by rw [h.abs, upd_ne _ _ hj]

/-! ### reading the abstraction -/

theorem abs_none {s : St} {i : Id} : abs s i = none ↔ s.obj i = none := by simp [abs]

/-- the two representations -/
theorem WF.cases {s : St} (hw : WF s) {i : Id} {v : Vw} (h : abs s i = some v) :
    (s.obj i = some ⟨none, .sso v.siz⟩ ∧ v.base = .sso i ∧ v.cap = 22 ∧ s.mem (.sso i) = some v.buf ∧ Good i v) ∨
    (∃ b, s.obj i = some ⟨some b, .heap b v.cap v.siz⟩ ∧ v.base = .heap b ∧ s.mem (.heap b) = some v.buf ∧ Good i v ∧
      b < s.nblk) := by
  unfold abs at h
  cases ho : s.obj i with
  | none => rw [ho] at h; cases h
  | some o =>
    rw [ho] at h
    simp only [Option.map_some, Option.some.injEq] at h
    obtain ⟨hd, l, hl, hg⟩ := hw.good i o ho
    rw [hl] at h
    simp only [Option.getD_some] at h
    rw [h] at hg
    obtain ⟨d, u⟩ := o
    cases u with
    | sso n =>
      left
      have : d = none := by
        cases d
        · rfl
        · obtain ⟨c, n', hu⟩ := (hd _).1 rfl; cases hu
      subst this h
      exact ⟨rfl, rfl, rfl, hl, hg⟩
    | heap b c n =>
      right
      have : d = some b := (hd b).2 ⟨c, n, rfl⟩
      subst this h
      refine ⟨b, rfl, rfl, hl, hg, ?_⟩
      apply Classical.byContradiction
      intro hn
      have := hw.freshB b (by omega)
      rw [show s.mem (.heap b) = some l from hl] at this
      cases this

theorem WF.mem {s : St} (hw : WF s) {i : Id} {v : Vw} (h : abs s i = some v) : s.mem v.base = some v.buf := by
  rcases hw.cases h with ⟨_, hb, _, hm, _⟩ | ⟨b, _, hb, hm, _⟩ <;> rw [hb] <;> exact hm

theorem WF.gd {s : St} (hw : WF s) {i : Id} {v : Vw} (h : abs s i = some v) : Good i v := by
  rcases hw.cases h with ⟨_, _, _, _, h⟩ | ⟨b, _, _, _, h, _⟩ <;> exact h

theorem WF.lt {s : St} (hw : WF s) {i : Id} {v : Vw} (h : abs s i = some v) : v.cap < ptrdiffMax := by
  rcases (hw.gd h).shape with ⟨_, h⟩ | ⟨_, _, _, _, h⟩
  · rw [h]; decide
  · exact h

theorem WF.base_ne {s : St} (hw : WF s) {i j : Id} {v w : Vw} (hi : abs s i = some v) (hj : abs s j = some w)
    (hij : i ≠ j) : v.base ≠ w.base := by
  intro h
  rcases hw.cases hi with ⟨oi, bi, _, _, _⟩ | ⟨b, oi, bi, _, _⟩ <;>
  rcases hw.cases hj with ⟨oj, bj, _, _, _⟩ | ⟨b', oj, bj, _, _⟩ <;>
  refine hij (hw.inj i j _ _ oi oj ?_) <;> rw [bi, bj] at h <;> exact h

/-! ### re-establishing the invariant -/

theorem rebuild {s s' : St} (hw : WF s) (S : Id → Prop)
    (hobj : ∀ k, ¬ S k → s'.obj k = s.obj k)
    (hmem : ∀ k o, ¬ S k → s.obj k = some o → s'.mem (o.base k) = s.mem (o.base k))
    (hgood : ∀ k o, S k → s'.obj k = some o → GoodO s' k o)
    (hnew : ∀ k o, S k → s'.obj k = some o → ∀ k' o', ¬ S k' → s.obj k' = some o' → o'.base k' ≠ o.base k)
    (hinj : ∀ k k' o o', S k → S k' → s'.obj k = some o → s'.obj k' = some o' → o.base k = o'.base k' → k = k')
    (howned : ∀ p l, s'.mem p = some l → (∃ k o, S k ∧ s'.obj k = some o ∧ o.base k = p) ∨
      (∃ k o, ¬ S k ∧ s.obj k = some o ∧ o.base k = p))
    (hB : ∀ b, s'.nblk ≤ b → s'.mem (.heap b) = none)
    (hT : ∀ k, s'.ntmp ≤ k → s'.obj (.tmp k) = none) :
    WF s' ∧ ∀ k, ¬ S k → abs s' k = abs s k := by
  refine ⟨⟨?_, ?_, ?_, hB, hT⟩, ?_⟩
  · intro k o ho
    by_cases hS : S k
    · exact hgood k o hS ho
    · have ho' := ho
      rw [hobj k hS] at ho'
      obtain ⟨hd, l, hl, hg⟩ := hw.good k o ho'
      exact ⟨hd, l, by rw [hmem k o hS ho', hl], hg⟩
  · intro k k' o o' ho ho' hb
    by_cases hS : S k <;> by_cases hS' : S k'
    · exact hinj k k' o o' hS hS' ho ho' hb
    · rw [hobj k' hS'] at ho'
      exact absurd hb.symm (hnew k o hS ho k' o' hS' ho')
    · rw [hobj k hS] at ho
      exact absurd hb (hnew k' o' hS' ho' k o hS ho)
    · rw [hobj k hS] at ho
      rw [hobj k' hS'] at ho'
      exact hw.inj k k' o o' ho ho' hb
  · intro p l hl
    rcases howned p l hl with ⟨k, o, _, ho, hb⟩ | ⟨k, o, hS, ho, hb⟩
    · exact ⟨k, o, ho, hb⟩
    · exact ⟨k, o, by rw [hobj k hS, ho], hb⟩
  · intro k hS
    unfold abs
    rw [hobj k hS]
    cases ho : s.obj k with
    | none => rfl
    | some o => simp only [Option.map_some]; rw [hmem k o hS ho]

/-- a single string changes, keeping its region or not; `q` is its old region (if it was alive) -/
theorem rebuild1 {s s' : St} (hw : WF s) (i : Id) (o2 : Option Obj) (w : Option Vw)
    (hobj : s'.obj = upd s.obj i o2)
    (habs : abs s' i = w)
    (hgood : ∀ o, o2 = some o → GoodO s' i o)
    (hframe : ∀ p, (∀ o, s.obj i = some o → p ≠ o.base i) → (∀ o, o2 = some o → p ≠ o.base i) →
      s'.mem p = s.mem p)
    (hold : ∀ o, s.obj i = some o → (∀ o', o2 = some o' → o'.base i ≠ o.base i) → s'.mem (o.base i) = none)
    (hnew : ∀ o b, o2 = some o → o.base i = .heap b → (∃ o1, s.obj i = some o1 ∧ o1.base i = .heap b) ∨
      s.nblk ≤ b ∧ b < s'.nblk)
    (hB : s.nblk ≤ s'.nblk) (hT : s.ntmp ≤ s'.ntmp) (hi : ∀ k, i = .tmp k → o2 ≠ none → k < s'.ntmp) :
    WF s' ∧ abs s' = upd (abs s) i w := by
  have hoi : s'.obj i = o2 := by rw [hobj, upd_same]
  have hok : ∀ k, k ≠ i → s'.obj k = s.obj k := fun k hk => by rw [hobj, upd_ne _ _ hk]
  -- regions of the other objects
  have hne : ∀ k o, k ≠ i → s.obj k = some o →
      (∀ o1, s.obj i = some o1 → o.base k ≠ o1.base i) ∧ (∀ o', o2 = some o' → o.base k ≠ o'.base i) := by
    intro k o hk ho
    have h1 : ∀ o1, s.obj i = some o1 → o.base k ≠ o1.base i := fun o1 h1 hb => hk (hw.inj _ _ _ _ ho h1 hb)
    refine ⟨h1, fun o' ho' hb => ?_⟩
    cases hu : o'.base i with
    | sso j =>
      have hji : j = i := by
        unfold Obj.base at hu; split at hu
        · cases hu; rfl
        · cases hu
      rw [hu, hji] at hb
      unfold Obj.base at hb; split at hb
      · cases hb; exact hk rfl
      · cases hb
    | heap b =>
      rcases hnew o' b ho' hu with ⟨o1, ho1, hb1⟩ | ⟨hb1, _⟩
      · exact h1 o1 ho1 (by rw [hb, hu, hb1])
      · obtain ⟨l, hl, _⟩ := (hw.good k o ho).mem
        rw [hb, hu, hw.freshB b hb1] at hl
        cases hl
  have key := rebuild (s := s) (s' := s') hw (fun k => k = i)
    (fun k hk => hok k hk)
    (fun k o hk ho => hframe _ (hne k o hk ho).1 (hne k o hk ho).2)
    (fun k o hk ho => by subst hk; exact hgood o (hoi ▸ ho))
    (fun k o hk ho k' o' hk' ho' => by subst hk; exact (hne k' o' hk' ho').2 o (hoi ▸ ho))
    (fun k k' o o' hk hk' _ _ _ => by subst hk hk'; rfl)
    (fun p l hl => ?_)
    (fun b hb => ?_)
    (fun k hk => ?_)
  · refine ⟨key.1, ?_⟩
    funext k
    by_cases hk : k = i
    · subst hk; rw [upd_same, habs]
    · rw [upd_ne _ _ hk]; exact key.2 k hk
  · by_cases h2 : ∃ o, o2 = some o ∧ o.base i = p
    · obtain ⟨o, ho, hb⟩ := h2
      exact .inl ⟨i, o, rfl, by rw [hoi, ho], hb⟩
    · right
      have h2' : ∀ o, o2 = some o → p ≠ o.base i := fun o ho hb => h2 ⟨o, ho, hb.symm⟩
      by_cases h1 : ∃ o, s.obj i = some o ∧ o.base i = p
      · obtain ⟨o, ho, hb⟩ := h1
        have := hold o ho (fun o' ho' hb' => h2' o' ho' (by rw [hb', hb]))
        rw [hb, hl] at this; cases this
      · have h1' : ∀ o, s.obj i = some o → p ≠ o.base i := fun o ho hb => h1 ⟨o, ho, hb.symm⟩
        rw [hframe p h1' h2'] at hl
        obtain ⟨k, o, ho, hb⟩ := hw.owned p l hl
        refine ⟨k, o, fun hk => ?_, ho, hb⟩
        subst hk
        exact h1' o ho hb.symm
  · -- fresh blocks
    by_cases h2 : ∃ o, o2 = some o ∧ o.base i = .heap b
    · obtain ⟨o, ho, hb'⟩ := h2
      rcases hnew o b ho hb' with ⟨o1, ho1, hb1⟩ | ⟨_, hlt⟩
      · obtain ⟨l, hl, _⟩ := (hw.good i o1 ho1).mem
        rw [hb1, hw.freshB b (by omega)] at hl; cases hl
      · omega
    · have h2' : ∀ o, o2 = some o → (Base.heap b) ≠ o.base i := fun o ho hb => h2 ⟨o, ho, hb.symm⟩
      by_cases h1 : ∃ o, s.obj i = some o ∧ o.base i = .heap b
      · obtain ⟨o, ho, hb'⟩ := h1
        have := hold o ho (fun o' ho' hb2 => h2' o' ho' (by rw [hb2, hb']))
        rwa [hb'] at this
      · have h1' : ∀ o, s.obj i = some o → (Base.heap b) ≠ o.base i := fun o ho hb => h1 ⟨o, ho, hb.symm⟩
        rw [hframe _ h1' h2']
        exact hw.freshB b (by omega)
  · by_cases hki : i = .tmp k
    · have : o2 = none := by
        cases ho : o2 with
        | none => rfl
        | some o => have := hi k hki (by rw [ho]; simp); omega
      rw [← hki, hoi, this]
    · rw [hok _ (fun h => hki h.symm)]
      exact hw.freshT k (by omega)

/-- a string changes its size and bytes, in place -/
theorem inplace {s : St} (hw : WF s) {i : Id} {v : Vw} (h : abs s i = some v) {n : Nat} {l : List (Option UInt8)}
    (hn : n ≤ v.cap) (hl : l.length = v.buf.length) :
    ∀ s', s'.obj i = some ⟨(match v.base with | .heap b => some b | .sso _ => none),
        match v.base with | .heap b => .heap b v.cap n | .sso _ => .sso n⟩ → (∀ k, k ≠ i → s'.obj k = s.obj k) →
      s'.mem = upd s.mem v.base (some l) → s'.orc = s.orc → s'.tick = s.tick → s'.nblk = s.nblk →
      s'.ntmp = s.ntmp → s'.moves = s.moves →
      Quiet s s' (upd (abs s) i (some { v with siz := n, buf := l })) := by
  intro s' ho hk hm h1 h2 h3 h4 h5
  have hobj : s'.obj = upd s.obj i (s'.obj i) := by
    funext k
    by_cases h : k = i
    · rw [h, upd_same]
    · rw [upd_ne _ _ h]; exact hk k h
  rcases hw.cases h with ⟨o1, hb, hc, hmm, hg⟩ | ⟨b, o1, hb, hmm, hg, hlt⟩
  · rw [hb] at hm ho
    have hm' : s'.mem (.sso i) = some l := by rw [hm, upd_same]
    have key := rebuild1 (s := s) (s' := s') hw i _ (some { v with siz := n, buf := l }) hobj ?_ ?_ ?_ ?_ ?_ (by omega) (by omega) ?_
    · exact ⟨key.1, key.2, h1, h2, h3, h4, h5⟩
    · simp [abs, ho, Obj.base, Obj.cap, Obj.siz, hm', hb, hc]
    · intro o e; rw [ho] at e; cases e
      refine ⟨by simp, l, hm', ?_, ?_, ?_⟩
      · left; simp [Obj.base, Obj.cap]
      · simp only [Obj.cap]; rw [hl, hg.len, hc]
      · simp only [Obj.cap, Obj.siz]; omega
    · intro p hp _
      rw [hm, upd_ne]; exact hp _ o1
    · intro o e hne
      rw [o1] at e; cases e
      exact (hne _ ho rfl).elim
    · intro o b e hb'; rw [ho] at e; cases e; cases hb'
    · intro k hik _
      rw [h4]
      apply Classical.byContradiction; intro hcon
      have := hw.freshT k (by omega)
      rw [← hik, o1] at this; cases this
  · rw [hb] at hm ho
    have hm' : s'.mem (.heap b) = some l := by rw [hm, upd_same]
    have key := rebuild1 (s := s) (s' := s') hw i _ (some { v with siz := n, buf := l }) hobj ?_ ?_ ?_ ?_ ?_ (by omega) (by omega) ?_
    · exact ⟨key.1, key.2, h1, h2, h3, h4, h5⟩
    · simp [abs, ho, Obj.base, Obj.cap, Obj.siz, hm', hb]
    · intro o e; rw [ho] at e; cases e
      refine ⟨by simp, l, hm', ?_, ?_, ?_⟩
      · right
        rcases hg.shape with ⟨hx, _⟩ | ⟨b', _, h48, hd, hm⟩
        · rw [hb] at hx; cases hx
        · exact ⟨b, rfl, h48, hd, hm⟩
      · simp only [Obj.cap]; rw [hl, hg.len]
      · simp only [Obj.cap, Obj.siz]; omega
    · intro p hp _
      rw [hm, upd_ne]; exact hp _ o1
    · intro o e hne
      rw [o1] at e; cases e
      exact (hne _ ho rfl).elim
    · intro o b' e hb'; rw [ho] at e; cases e; cases hb'
      exact .inl ⟨_, o1, rfl⟩
    · intro k hik _
      rw [h4]
      apply Classical.byContradiction; intro hcon
      have := hw.freshT k (by omega)
      rw [← hik, o1] at this; cases this

/-! ### primitives -/

section prims
variable {s : St} (hw : WF s) {i : Id} {v : Vw} (h : abs s i = some v)
include hw h

/-- `getObj` on a live string -/
theorem getObj_abs : getObj i s = .ok ⟨(match v.base with | .heap b => some b | .sso _ => none),
        match v.base with | .heap b => .heap b v.cap v.siz | .sso _ => .sso v.siz⟩ s := by
  rcases hw.cases h with ⟨o1, hb, _⟩ | ⟨b, o1, hb, _⟩ <;> simp [getObj, o1, hb]

theorem data_ok : data i s = .ok ⟨some v.base, 0⟩ s := by
  rcases hw.cases h with ⟨o1, hb, _⟩ | ⟨b, o1, hb, _⟩
  · simp [data, M.bind_run, getObj, o1, ssoSiz, bufPtr, hb]
  · simp [data, M.bind_run, getObj, o1, heapOf, heapPtr, hb]

theorem capacity_ok : capacity i s = .ok v.cap s := by
  rcases hw.cases h with ⟨o1, hb, hc, _⟩ | ⟨b, o1, hb, _⟩
  · simp [capacity, M.bind_run, getObj, o1, ssoSize, hc]
  · simp [capacity, M.bind_run, getObj, o1, heapOf]

theorem size_ok : size i s = .ok v.siz s := by
  rcases hw.cases h with ⟨o1, hb, hc, _, hg⟩ | ⟨b, o1, hb, _⟩
  · have := hg.siz
    simp [size, M.bind_run, getObj, o1, ssoSiz, charToSize, show v.siz < 128 by omega]
  · simp [size, M.bind_run, getObj, o1, heapOf]

theorem empty_ok : empty i s = .ok (v.siz == 0) s := by
  unfold empty
  mstep (size_ok hw h)
  rfl

theorem readN_ok {A B : List (Option UInt8)} {bs : List UInt8} {off n : Nat} (hb : v.buf = A ++ bs.map some ++ B)
    (ho : A.length = off) (hn : bs.length = n) : readN ⟨some v.base, off⟩ n s = .ok bs s := by
  subst ho hn
  unfold readN
  split
  · next h0 => rw [List.length_eq_zero_iff] at h0; rw [h0]
  · simp only [hw.mem h]
    have : ¬ v.buf.length < A.length + bs.length := by rw [hb]; simp
    rw [if_neg this]
    have e : (v.buf.drop A.length).take bs.length = bs.map some := by
      rw [hb, List.append_assoc, List.drop_left, List.take_left' (by simp)]
    rw [e]
    have e2 : (bs.map some).filterMap id = bs := by simp [List.filterMap_map]
    rw [if_pos (by simp), e2]

theorem readAt_ok {k : Nat} {b : UInt8} (hb : v.buf[k]? = some (some b)) : readAt ⟨some v.base, k⟩ s = .ok b s := by
  simp [readAt, hw.mem h, hb]

theorem writeN_ok {A X B : List (Option UInt8)} {bs : List UInt8} {off : Nat} (hb : v.buf = A ++ X ++ B)
    (ho : A.length = off) (hn : X.length = bs.length) :
    ∃ s', writeN ⟨some v.base, off⟩ bs s = .ok () s' ∧
      Quiet s s' (upd (abs s) i (some { v with buf := A ++ bs.map some ++ B })) := by
  subst ho
  by_cases h0 : bs = []
  · refine ⟨s, by simp [writeN, h0], ?_⟩
    have : X = [] := by rw [← List.length_eq_zero_iff, hn, h0]; rfl
    have e : ({ v with buf := A ++ bs.map some ++ B } : Vw) = v := by
      ext1 <;> simp [hb, h0, this]
    rw [e, upd_eq _ _ _ h]
    exact Quiet.refl hw
  · have hlen : ¬ v.buf.length < A.length + bs.length := by rw [hb]; simp; omega
    have ht : v.buf.take A.length = A := by rw [hb, List.append_assoc, List.take_left]
    have hd : v.buf.drop (A.length + bs.length) = B := by
      rw [hb, List.drop_left' (by simp [hn])]
    refine ⟨{ s with mem := upd s.mem v.base (some (A ++ bs.map some ++ B)) }, ?_, ?_⟩
    · unfold writeN
      rw [if_neg h0]
      simp only [hw.mem h]
      rw [if_neg hlen, ht, hd]
    · have hl : (A ++ bs.map some ++ B).length = v.buf.length := by rw [hb]; simp [hn]
      have := inplace hw h (n := v.siz) (l := A ++ bs.map some ++ B) (hw.gd h).siz hl
        { s with mem := upd s.mem v.base (some (A ++ bs.map some ++ B)) } (by
          have := getObj_abs hw h
          unfold getObj at this
          split at this
          · next o ho => simp only [Out.ok.injEq, and_true] at this; rw [← this]; exact ho
          · cases this) (fun _ _ => rfl) rfl rfl rfl rfl rfl rfl
      exact this

theorem writeAt_ok {A B : List (Option UInt8)} {x : Option UInt8} {b : UInt8} {off : Nat}
    (hb : v.buf = A ++ x :: B) (ho : A.length = off) :
    ∃ s', writeAt ⟨some v.base, off⟩ b s = .ok () s' ∧
      Quiet s s' (upd (abs s) i (some { v with buf := A ++ some b :: B })) := by
  have := writeN_ok hw h (A := A) (X := [x]) (B := B) (bs := [b]) (off := off) (by rw [hb]; simp) ho rfl
  obtain ⟨s', hr, q⟩ := this
  refine ⟨s', hr, ?_⟩
  simpa using q

theorem setSize_ok {A B : List (Option UInt8)} {x : Option UInt8} {n : Nat} (hb : v.buf = A ++ x :: B)
    (hn : A.length = n) :
    ∃ s', setSize i n s = .ok () s' ∧
      Quiet s s' (upd (abs s) i (some { v with siz := n, buf := A ++ some 0 :: B })) := by
  have hlen : n ≤ v.cap := by
    have := (hw.gd h).len
    rw [hb] at this; simp at this; omega
  -- first the size field
  have step1 : ∃ s1, Quiet s s1 (upd (abs s) i (some { v with siz := n })) ∧
      setSize i n s = writeAt ⟨some v.base, n⟩ 0 s1 := by
    rcases hw.cases h with ⟨o1, hbase, hc, hm, hg⟩ | ⟨b, o1, hbase, hm, hg, _⟩
    · refine ⟨{ s with obj := upd s.obj i (some ⟨none, .sso n⟩) }, ?_, ?_⟩
      · have := inplace hw h (n := n) (l := v.buf) hlen rfl
          { s with obj := upd s.obj i (some ⟨none, .sso n⟩) } (by simp [hbase])
          (fun k hk => by simp [upd_ne _ _ hk]) (by rw [hbase]; exact (upd_eq _ _ _ hm).symm) rfl rfl rfl rfl rfl
        exact this
      · unfold setSize
        have : n % 256 = n := by omega
        mstep (getObj_abs hw h)
        simp only [hbase, Bool.false_eq_true, if_false, this]
        refine Eq.trans (M.bind_ok (a := ()) (s' := { s with obj := upd s.obj i (some ⟨none, .sso n⟩) }) ?_) ?_
        · simp [setSsoSiz, o1]
        · simp [bufPtr, Ptr.add]
    · refine ⟨{ s with obj := upd s.obj i (some ⟨some b, .heap b v.cap n⟩) }, ?_, ?_⟩
      · have := inplace hw h (n := n) (l := v.buf) hlen rfl
          { s with obj := upd s.obj i (some ⟨some b, .heap b v.cap n⟩) } (by simp [hbase])
          (fun k hk => by simp [upd_ne _ _ hk]) (by rw [hbase]; exact (upd_eq _ _ _ hm).symm) rfl rfl rfl rfl rfl
        exact this
      · have hnone : s.mem (.sso i) = none := by
          cases hx : s.mem (.sso i) with
          | none => rfl
          | some l =>
            obtain ⟨k, o, ho, hb⟩ := hw.owned _ _ hx
            unfold Obj.base at hb
            split at hb
            · cases hb
              next hu => rw [o1] at ho; cases ho; cases hu
            · cases hb
        unfold setSize
        simp [M.bind_run, getObj, o1, heapOf, setHeap, heapPtr, Ptr.add, hbase, upd_eq _ _ _ hnone]
  obtain ⟨s1, q1, e1⟩ := step1
  obtain ⟨s2, hr, q2⟩ := writeAt_ok (b := 0) q1.wf q1.at (A := A) (B := B) (x := x) (off := n) hb hn
  exact ⟨s2, by rw [e1]; exact hr, q1.then q2⟩

end prims

theorem distance_ok {s : St} {b : Option Base} {m n : Nat} (h : m ≤ n) :
    distance ⟨b, m⟩ ⟨b, n⟩ s = .ok (n - m) s := by simp [distance, h]

theorem memmove_ok {s s' : St} {dst src : Ptr} {n : Nat} {bs : List UInt8} (h : readN src n s = .ok bs s)
    (hw : writeN dst bs s = .ok () s') : memmove dst src n s = .ok () s' := by
  unfold memmove
  mstep h
  exact hw

section rot
variable {s : St} (hw : WF s) {i : Id} {v : Vw} (h : abs s i = some v)
include hw h

theorem rotate_ok {A B : List (Option UInt8)} {x y : List UInt8} {f m l : Nat}
    (hb : v.buf = A ++ x.map some ++ y.map some ++ B) (hf : A.length = f) (hm : f + x.length = m)
    (hl : m + y.length = l) :
    ∃ s', rotate ⟨some v.base, f⟩ ⟨some v.base, m⟩ ⟨some v.base, l⟩ s = .ok () s' ∧
      Quiet s s' (upd (abs s) i (some { v with buf := A ++ (y ++ x).map some ++ B })) := by
  subst hf hm hl
  obtain ⟨s', hr, q⟩ := writeN_ok hw h (A := A) (X := x.map some ++ y.map some) (B := B) (bs := y ++ x)
    (off := A.length) (by rw [hb]; simp) rfl (by simp; omega)
  refine ⟨s', ?_, q⟩
  unfold rotate
  mstep (distance_ok (by omega))
  mstep (distance_ok (by omega))
  mstep (readN_ok hw h (A := A) (B := y.map some ++ B) (bs := x) (by rw [hb]; simp) rfl (by omega))
  mstep (readN_ok hw h (A := A ++ x.map some) (B := B) (bs := y) (by rw [hb]) (by simp) (by omega))
  exact hr

end rot

end Ptl.Str

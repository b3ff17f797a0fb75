import Verif.Basic

/-!
# Client programs

A client of a container decides what to do next on the basis of what it has read and of what calls have returned or thrown.
Used for C115; `Prog` is not a model of code in /repo but of code that uses it.
-/

namespace Ptl.Client

/-- programs of a client: `O` are the calls, `C` what it reads of a variable.  `look i next` reads variable `i` and carries on with
`next`, given what was read; `call op next caught` carries on with `next`, given the position returned, or with `caught`, given the
exception thrown. -/
inductive Prog (O C : Type) where
  | stop
  | look (i : Nat) (next : C → Prog O C)
  | call (op : O) (next : Option Nat → Prog O C) (caught : Exc → Prog O C)

/-- what the client gets to know in one step -/
inductive Obs (C : Type) where
  | saw (xs : C)
  | got (r : Option Nat)
  | threw (e : Exc)

variable {σ O C W : Type}

/-- `Play look run s p l t`: the program `p`, started in state `s`, gets to know `l` and ends in `t` -/
inductive Play (look : Nat → M σ C) (run : O → M σ (Option Nat)) : σ → Prog O C → List (Obs C) → σ → Prop
  | stop {s} : Play look run s .stop [] s
  | look {s s' t i next xs l} : look i s = .ok xs s' → Play look run s' (next xs) l t → Play look run s (.look i next) (.saw xs :: l) t
  | ok {s s' t op next caught r l} : run op s = .ok r s' → Play look run s' (next r) l t →
      Play look run s (.call op next caught) (.got r :: l) t
  | exc {s s' t op next caught e l} : run op s = .exc e s' → Play look run s' (caught e) l t →
      Play look run s (.call op next caught) (.threw e :: l) t

/-- the program keeps to the preconditions of what it calls, and reads only variables that are alive; `spec op V V' r` says that `op`
may be called when the variables are `V`, and makes them `V'` -/
inductive Legal (alive : W → Nat → C → Prop) (spec : O → W → W → Option Nat → Prop) : Prog O C → W → Prop
  | stop {V} : Legal alive spec .stop V
  | look {V i next xs} : alive V i xs → Legal alive spec (next xs) V → Legal alive spec (.look i next) V
  | call {V V' op next caught r} : spec op V V' r → Legal alive spec (next r) V' → (∀ e, Legal alive spec (caught e) V) →
      Legal alive spec (.call op next caught) V

/-- two clients got to know the same, or the first difference is that a call threw for one of them -/
def SameObs (l l' : List (Obs C)) : Prop :=
  l = l' ∨ ∃ p o o' w w', l = p ++ o :: w ∧ l' = p ++ o' :: w' ∧ o ≠ o' ∧ ((∃ e, o = .threw e) ∨ ∃ e, o' = .threw e)

theorem SameObs.cons {l l' : List (Obs C)} (o : Obs C) (h : SameObs l l') : SameObs (o :: l) (o :: l') := by
  rcases h with rfl | ⟨p, q, q', w, w', rfl, rfl, h⟩
  · exact .inl rfl
  · exact .inr ⟨o :: p, q, q', w, w', rfl, rfl, h⟩

/-- without exceptions, there is no difference -/
theorem SameObs.eq {l l' : List (Obs C)} (h : SameObs l l') (n : ∀ e, .threw e ∉ l) (n' : ∀ e, .threw e ∉ l') : l = l' := by
  rcases h with h | ⟨p, o, o', w, w', rfl, rfl, _, ⟨e, rfl⟩ | ⟨e, rfl⟩⟩
  · exact h
  · exact absurd (List.mem_append.2 (.inr (List.mem_cons_self ..))) (n e)
  · exact absurd (List.mem_append.2 (.inr (List.mem_cons_self ..))) (n' e)

section
variable {look : Nat → M σ C} {run : O → M σ (Option Nat)} {alive : W → Nat → C → Prop} {spec : O → W → W → Option Nat → Prop}
  {R : σ → W → Prop}

/-- if all that a call does to what the client sees is given by `spec`, states that look the same cannot be told apart -/
theorem alike (hlook : ∀ s V i xs, R s V → alive V i xs → look i s = .ok xs s)
    (hok : ∀ s V V' op r r' s', R s V → spec op V V' r → run op s = .ok r' s' → r' = r ∧ R s' V')
    (hexc : ∀ s V V' op r e s', R s V → spec op V V' r → run op s = .exc e s' → R s' V)
    {p : Prog O C} {V : W} (hp : Legal alive spec p V) :
    ∀ {s1 s2 : σ}, R s1 V → R s2 V → ∀ {l1 l2 : List (Obs C)} {t1 t2 : σ}, Play look run s1 p l1 t1 → Play look run s2 p l2 t2 →
      SameObs l1 l2 ∧ (l1 = l2 → ∃ V', R t1 V' ∧ R t2 V') := by
  induction hp with
  | stop =>
    intro s1 s2 h1 h2 l1 l2 t1 t2 p1 p2
    cases p1; cases p2
    exact ⟨.inl rfl, fun _ => ⟨_, h1, h2⟩⟩
  | look ha _ ih =>
    intro s1 s2 h1 h2 l1 l2 t1 t2 p1 p2
    cases p1 with | look e1 p1 =>
    cases p2 with | look e2 p2 =>
    have := hlook _ _ _ _ h1 ha
    rw [e1] at this; cases this
    have := hlook _ _ _ _ h2 ha
    rw [e2] at this; cases this
    obtain ⟨hs, he⟩ := ih h1 h2 p1 p2
    exact ⟨hs.cons _, fun h => he (List.cons.inj h).2⟩
  | call hs _ _ ih ihc =>
    intro s1 s2 h1 h2 l1 l2 t1 t2 p1 p2
    cases p1 with
    | ok e1 p1 =>
      obtain ⟨rfl, h1'⟩ := hok _ _ _ _ _ _ _ h1 hs e1
      cases p2 with
      | ok e2 p2 =>
        obtain ⟨rfl, h2'⟩ := hok _ _ _ _ _ _ _ h2 hs e2
        obtain ⟨hs, he⟩ := ih h1' h2' p1 p2
        exact ⟨hs.cons _, fun h => he (List.cons.inj h).2⟩
      | exc e2 p2 => exact ⟨.inr ⟨[], _, _, _, _, rfl, rfl, nofun, .inr ⟨_, rfl⟩⟩, nofun⟩
    | @exc _ _ _ _ _ _ e _ e1 p1 =>
      cases p2 with
      | ok e2 p2 => exact ⟨.inr ⟨[], _, _, _, _, rfl, rfl, nofun, .inl ⟨_, rfl⟩⟩, nofun⟩
      | @exc _ _ _ _ _ _ e' _ e2 p2 =>
        by_cases hne : e = e'
        · subst hne
          obtain ⟨hs, he⟩ := ihc e (hexc _ _ _ _ _ _ _ h1 hs e1) (hexc _ _ _ _ _ _ _ h2 hs e2) p1 p2
          exact ⟨hs.cons _, fun h => he (List.cons.inj h).2⟩
        · exact ⟨.inr ⟨[], _, _, _, _, rfl, rfl, fun h => hne (Obs.threw.inj h), .inl ⟨_, rfl⟩⟩, fun h => absurd (Obs.threw.inj (List.cons.inj h).1) hne⟩

/-- if all calls of the program succeed, it gets to its end, and what it gets to know depends on the contents only -/
theorem plays (hlook : ∀ s V i xs, R s V → alive V i xs → look i s = .ok xs s)
    (hrun : ∀ s V V' op r, R s V → spec op V V' r → ∃ s', run op s = .ok r s' ∧ R s' V') {p : Prog O C} {V : W} (hp : Legal alive spec p V) :
    ∃ l V', (∀ e, .threw e ∉ l) ∧ ∀ s, R s V → ∃ t, Play look run s p l t ∧ R t V' := by
  induction hp with
  | @stop V => exact ⟨[], V, nofun, fun s h => ⟨s, .stop, h⟩⟩
  | @look _ _ _ xs ha _ ih =>
    obtain ⟨l, V', hn, ih⟩ := ih
    refine ⟨.saw xs :: l, V', fun e h => ?_, fun s h => ?_⟩
    · rcases List.mem_cons.1 h with h | h
      · cases h
      · exact hn e h
    · obtain ⟨t, ht, hv⟩ := ih s h
      exact ⟨t, .look (hlook _ _ _ _ h ha) ht, hv⟩
  | @call _ _ _ _ _ r hs _ _ ih _ =>
    obtain ⟨l, V', hn, ih⟩ := ih
    refine ⟨.got r :: l, V', fun e h => ?_, fun s h => ?_⟩
    · rcases List.mem_cons.1 h with h | h
      · cases h
      · exact hn e h
    · obtain ⟨s', hr, h'⟩ := hrun _ _ _ _ _ h hs
      obtain ⟨t, ht, hv⟩ := ih s' h'
      exact ⟨t, .ok hr ht, hv⟩

end

end Ptl.Client

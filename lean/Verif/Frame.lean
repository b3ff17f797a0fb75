import Verif.Basic

/-!
# Running the same computation in two related states

`Frm R m`: whatever `m` does in a state (short of undefined behaviour), it does in every related state as well, with the same
result, and the states remain related.  Used to show which part of memory a call depends on.
-/

namespace Ptl

variable {σ α β : Type}

/-- the second outcome is the same as the first, in a related state; nothing is said when the first is undefined -/
def Out.Sim (R : σ → σ → Prop) : Out σ α → Out σ α → Prop
  | .ok a s, o => ∃ t, o = .ok a t ∧ R s t
  | .exc e s, o => ∃ t, o = .exc e t ∧ R s t
  | .ub _, _ => True
  | .term, o => o = .term

/-- `m` behaves alike in related states -/
def Frm (R : σ → σ → Prop) (m : M σ α) : Prop := ∀ s t, R s t → Out.Sim R (m s) (m t)

namespace Frm

variable {R : σ → σ → Prop}

theorem pure (a : α) : Frm R (pure a : M σ α) := fun _ t h => ⟨t, rfl, h⟩

theorem throw (e : Exc) : Frm R (M.throw e : M σ α) := fun _ t h => ⟨t, rfl, h⟩

theorem ub (f : Fault) : Frm R (M.ub f : M σ α) := fun _ _ _ => trivial

theorem bind {m : M σ α} {f : α → M σ β} (hm : Frm R m) (hf : ∀ a, Frm R (f a)) : Frm R (m >>= f) := by
  intro s t h
  have h1 := hm s t h
  cases hs : m s with
  | ok a s' =>
    rw [hs] at h1
    obtain ⟨t', h2, h3⟩ := h1
    rw [M.bind_ok hs, M.bind_ok h2]
    exact hf a s' t' h3
  | exc e s' =>
    rw [hs] at h1
    obtain ⟨t', h2, h3⟩ := h1
    rw [M.bind_exc hs, M.bind_exc h2]
    exact ⟨t', rfl, h3⟩
  | ub f => rw [M.bind_ub hs]; trivial
  | term =>
    rw [hs] at h1
    rw [M.bind_term hs, M.bind_term h1]
    rfl

theorem noexcept {m : M σ α} (hm : Frm R m) : Frm R (M.noexcept m) := by
  intro s t h
  have h1 := hm s t h
  unfold M.noexcept
  cases hs : m s with
  | ok a s' =>
    rw [hs] at h1
    obtain ⟨t', h2, h3⟩ := h1
    rw [h2]
    exact ⟨t', rfl, h3⟩
  | exc e s' =>
    rw [hs] at h1
    obtain ⟨t', h2, h3⟩ := h1
    rw [h2]
    exact rfl
  | ub f => trivial
  | term =>
    rw [hs] at h1
    rw [show m t = .term from h1]
    exact rfl

theorem onExc {m : M σ α} {d : M σ Unit} (hm : Frm R m) (hd : Frm R d) : Frm R (M.onExc m d) := by
  intro s t h
  have h1 := hm s t h
  unfold M.onExc
  cases hs : m s with
  | ok a s' =>
    rw [hs] at h1
    obtain ⟨t', h2, h3⟩ := h1
    rw [h2]
    exact ⟨t', rfl, h3⟩
  | exc e s' =>
    rw [hs] at h1
    obtain ⟨t', h2, h3⟩ := h1
    have h4 := hd s' t' h3
    rw [h2]
    dsimp only
    cases hds : d s' with
    | ok a s'' =>
      rw [hds] at h4
      obtain ⟨t'', h5, h6⟩ := h4
      rw [h5]
      exact ⟨t'', rfl, h6⟩
    | exc e' s'' =>
      rw [hds] at h4
      obtain ⟨t'', h5, h6⟩ := h4
      rw [h5]
      exact rfl
    | ub f => trivial
    | term =>
      rw [hds] at h4
      rw [show d t' = .term from h4]
      exact rfl
  | ub f => trivial
  | term =>
    rw [hs] at h1
    rw [show m t = .term from h1]
    exact rfl

theorem withDtor {m : M σ α} {d : M σ Unit} (hm : Frm R m) (hd : Frm R d) : Frm R (M.withDtor m d) := by
  intro s t h
  have h1 := hm s t h
  unfold M.withDtor
  cases hs : m s with
  | ok a s' =>
    rw [hs] at h1
    obtain ⟨t', h2, h3⟩ := h1
    have h4 := hd s' t' h3
    rw [h2]
    dsimp only
    cases hds : d s' with
    | ok a s'' =>
      rw [hds] at h4
      obtain ⟨t'', h5, h6⟩ := h4
      rw [h5]
      exact ⟨t'', rfl, h6⟩
    | exc e' s'' =>
      rw [hds] at h4
      obtain ⟨t'', h5, h6⟩ := h4
      rw [h5]
      exact rfl
    | ub f => trivial
    | term =>
      rw [hds] at h4
      rw [show d t' = .term from h4]
      exact rfl
  | exc e s' =>
    rw [hs] at h1
    obtain ⟨t', h2, h3⟩ := h1
    have h4 := hd s' t' h3
    rw [h2]
    dsimp only
    cases hds : d s' with
    | ok a s'' =>
      rw [hds] at h4
      obtain ⟨t'', h5, h6⟩ := h4
      rw [h5]
      exact ⟨t'', rfl, h6⟩
    | exc e' s'' =>
      rw [hds] at h4
      obtain ⟨t'', h5, h6⟩ := h4
      rw [h5]
      exact rfl
    | ub f => trivial
    | term =>
      rw [hds] at h4
      rw [show d t' = .term from h4]
      exact rfl
  | ub f => trivial
  | term =>
    rw [hs] at h1
    rw [show m t = .term from h1]
    exact rfl

theorem ite {c : Prop} [Decidable c] {m m' : M σ α} (h : c → Frm R m) (h' : ¬ c → Frm R m') : Frm R (if c then m else m') := by
  split
  · exact h ‹_›
  · exact h' ‹_›

end Frm

/-- one step of a proof of `Frm`; the classes add their functions -/
syntax "frm_step" : tactic

macro_rules | `(tactic| frm_step) => `(tactic| with_reducible exact Frm.pure _)
macro_rules | `(tactic| frm_step) => `(tactic| with_reducible exact Frm.throw _)
macro_rules | `(tactic| frm_step) => `(tactic| with_reducible exact Frm.ub _)
macro_rules | `(tactic| frm_step) => `(tactic| with_reducible refine Frm.noexcept ?_)
macro_rules | `(tactic| frm_step) => `(tactic| with_reducible refine Frm.onExc ?_ ?_)
macro_rules | `(tactic| frm_step) => `(tactic| with_reducible refine Frm.withDtor ?_ ?_)
macro_rules | `(tactic| frm_step) => `(tactic| with_reducible refine Frm.ite (fun _ => ?_) (fun _ => ?_))
macro_rules | `(tactic| frm_step) => `(tactic| with_reducible refine Frm.bind ?_ (fun _ => ?_))
macro_rules | `(tactic| frm_step) => `(tactic| assumption)

/-- prove `Frm` along the structure of a program -/
macro "frm" : tactic => `(tactic| repeat' frm_step)

end Ptl

import Verif.Basic

/-!
# Calls that only read

`Keeps R m`: however the call `m` ends (short of undefined behaviour or the end of the program), the state it leaves is `R`-related
to the one it started in.  `ReadOnly m`: it is the very same state.
-/

namespace Ptl

variable {σ α β : Type}

/-- however the call ended, the state it left is related to `s` -/
def Out.Keeps (R : σ → σ → Prop) (s : σ) : Out σ α → Prop
  | .ok _ s' => R s s'
  | .exc _ s' => R s s'
  | .ub _ => True
  | .term => True

/-- from whatever state: what the call leaves is related to that -/
def Keeps (R : σ → σ → Prop) (m : M σ α) : Prop := ∀ s, (m s).Keeps R s

/-- the call changes nothing at all, whatever the state -/
def ReadOnly (m : M σ α) : Prop := Keeps Eq m

/-- a relation that is kept by a sequence if it is kept by its parts -/
class Steps (R : σ → σ → Prop) : Prop where
  refl : ∀ s, R s s
  trans : ∀ s t u, R s t → R t u → R s u

instance : Steps (Eq (α := σ)) := ⟨fun _ => rfl, fun _ _ _ h h' => h.trans h'⟩

/-- the same in one respect -/
def Same {τ : Type} (f : σ → τ) : σ → σ → Prop := fun s t => f t = f s

instance {τ : Type} (f : σ → τ) : Steps (Same f) := ⟨fun _ => rfl, fun _ _ _ h h' => Eq.trans h' h⟩

namespace Keeps

variable {R : σ → σ → Prop}

theorem pure [Steps R] (a : α) : Keeps R (pure a : M σ α) := fun s => Steps.refl s
theorem throw [Steps R] (e : Exc) : Keeps R (M.throw e : M σ α) := fun s => Steps.refl s
theorem ub (f : Fault) : Keeps R (M.ub f : M σ α) := fun _ => trivial
theorem term : Keeps R (fun _ => .term : M σ α) := fun _ => trivial

theorem bind [Steps R] {m : M σ α} {f : α → M σ β} (hm : Keeps R m) (hf : ∀ a, Keeps R (f a)) : Keeps R (m >>= f) := by
  intro s
  have h1 := hm s
  cases hs : m s with
  | ok a s' =>
    rw [hs] at h1
    rw [M.bind_ok hs]
    have h2 := hf a s'
    revert h2
    cases f a s' with
    | ok b s'' => exact fun h2 => Steps.trans s s' s'' h1 h2
    | exc e s'' => exact fun h2 => Steps.trans s s' s'' h1 h2
    | ub f => exact fun _ => trivial
    | term => exact fun _ => trivial
  | exc e s' => rw [hs] at h1; rw [M.bind_exc hs]; exact h1
  | ub f => rw [M.bind_ub hs]; trivial
  | term => rw [M.bind_term hs]; trivial

theorem noexcept {m : M σ α} (hm : Keeps R m) : Keeps R (M.noexcept m) := by
  intro s
  have h1 := hm s
  unfold M.noexcept
  cases hs : m s with
  | ok a s' => rw [hs] at h1; exact h1
  | exc e s' => trivial
  | ub f => trivial
  | term => trivial

theorem ite {c : Prop} [Decidable c] {m m' : M σ α} (h : Keeps R m) (h' : Keeps R m') : Keeps R (if c then m else m') := by
  split
  · exact h
  · exact h'

/-- a call that keeps everything keeps any part of it -/
theorem of_readOnly [Steps R] {m : M σ α} (h : ReadOnly m) : Keeps R m := by
  intro s
  have h1 := h s
  cases hs : m s with
  | ok a s' => rw [hs] at h1; cases (show s = s' from h1); exact Steps.refl s
  | exc e s' => rw [hs] at h1; cases (show s = s' from h1); exact Steps.refl s
  | ub f => trivial
  | term => trivial

end Keeps

/-- one step of a proof of `Keeps`; the classes add their primitives -/
syntax "keep_step" : tactic

macro_rules | `(tactic| keep_step) => `(tactic| split)
macro_rules | `(tactic| keep_step) => `(tactic| with_reducible exact Keeps.pure _)
macro_rules | `(tactic| keep_step) => `(tactic| with_reducible exact Keeps.throw _)
macro_rules | `(tactic| keep_step) => `(tactic| with_reducible exact Keeps.ub _)
macro_rules | `(tactic| keep_step) => `(tactic| with_reducible refine Keeps.noexcept ?_)
macro_rules | `(tactic| keep_step) => `(tactic| with_reducible refine Keeps.ite ?_ ?_)
macro_rules | `(tactic| keep_step) => `(tactic| with_reducible refine Keeps.bind ?_ (fun _ => ?_))
macro_rules | `(tactic| keep_step) => `(tactic| assumption)

/-- prove `Keeps` along the structure of a program -/
macro "keep" : tactic => `(tactic| repeat' keep_step)

/-! ### calls of several threads, in some order -/

/-- what the caller gets from a call -/
inductive Got (ρ : Type) where
  | returned (r : ρ)
  | threw (e : Exc)

/-- what the caller gets, and the state after the call; `none`: undefined behaviour, or the program has ended -/
def Out.got : Out σ α → Option (Got α × σ)
  | .ok a s => some (.returned a, s)
  | .exc e s => some (.threw e, s)
  | .ub _ => none
  | .term => none

/-- a call, with the type of its result -/
abbrev Call (σ : Type) := Σ ρ : Type, M σ ρ

/-- one call after the other, by whichever threads: what each of them gets, and the state in the end -/
def inTurn : List (Call σ) → σ → Option (List (Σ ρ : Type, Got ρ) × σ)
  | [], s => some ([], s)
  | c :: cs, s =>
    match (c.2 s).got with
    | none => none
    | some (g, s') =>
      match inTurn cs s' with
      | none => none
      | some (gs, s'') => some (⟨c.1, g⟩ :: gs, s'')

/-- C109: calls that only read do not disturb each other: in whichever order any number of threads makes them, each call gets what
it would have got had it been the only one, and nothing has changed in the end -/
theorem C109_threads {s : σ} : ∀ cs : List (Call σ), (∀ c ∈ cs, ReadOnly c.2) → (∀ c ∈ cs, (c.2 s).got.isSome) →
    ∃ gs, inTurn cs s = some (gs, s) ∧ gs.length = cs.length ∧
      ∀ k (h : k < cs.length), ∃ g, gs[k]? = some ⟨(cs[k]).1, g⟩ ∧ ((cs[k]).2 s).got = some (g, s)
  | [], _, _ => ⟨[], rfl, rfl, fun _ h => absurd h (Nat.not_lt_zero _)⟩
  | c :: cs, hr, hg => by
    obtain ⟨gs, h1, h2, h3⟩ := C109_threads cs (fun c' h => hr c' (.tail _ h)) (fun c' h => hg c' (.tail _ h))
    have hc := hr c (.head _) s
    have hd := hg c (.head _)
    have key : ∃ g, (c.2 s).got = some (g, s) := by
      revert hc hd
      cases c.2 s with
      | ok a s' => exact fun hc _ => ⟨_, by cases (show s = s' from hc); rfl⟩
      | exc e s' => exact fun hc _ => ⟨_, by cases (show s = s' from hc); rfl⟩
      | ub f => exact fun _ hd => absurd hd (by simp [Out.got])
      | term => exact fun _ hd => absurd hd (by simp [Out.got])
    obtain ⟨g, hk⟩ := key
    refine ⟨⟨c.1, g⟩ :: gs, ?_, by simp [h2], fun k h => ?_⟩
    · unfold inTurn
      rw [hk]
      dsimp only
      rw [h1]
    · cases k with
      | zero => exact ⟨g, rfl, hk⟩
      | succ k => exact h3 k (Nat.lt_of_succ_lt_succ h)

end Ptl

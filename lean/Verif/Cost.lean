import Verif.Basic

/-!
# Bounding what a computation spends

`Spends f n m`: whatever state `m` starts in, the counter `f` is at most `n` above its value before if `m` returns, and
at most `n + slack e` if it throws `e` (the step that throws may be one that would have cost nothing had it succeeded).
Nothing is said about runs that are undefined or terminate the program; the theorems that use this are stated for states
in which those are excluded by other theorems.
-/

namespace Ptl

variable {σ α β : Type}

/-- a counter, and what throwing may add to it -/
structure Meter (σ : Type) where
  /-- the value of the counter -/
  val : σ → Int
  /-- what throwing may add -/
  slack : Exc → Nat

/-- `m` increases the counter `f` by at most `n` -/
def Spends (f : Meter σ) (n : Nat) (m : M σ α) : Prop :=
  ∀ s, match m s with
    | .ok _ s' => f.val s' ≤ f.val s + n
    | .exc e s' => f.val s' ≤ f.val s + n + f.slack e
    | .ub _ => True
    | .term => True

namespace Spends
variable {f : Meter σ} {n k : Nat}

theorem ok {m : M σ α} (h : Spends f n m) {s s' : σ} {a : α} (e : m s = .ok a s') : f.val s' ≤ f.val s + n := by
  have := h s; rw [e] at this; exact this
theorem exc {m : M σ α} (h : Spends f n m) {s s' : σ} {x : Exc} (e : m s = .exc x s') :
    f.val s' ≤ f.val s + n + f.slack x := by
  have := h s; rw [e] at this; exact this

theorem pure (a : α) : Spends f n (Pure.pure a : M σ α) := fun s => by change f.val s ≤ f.val s + n; omega
theorem throw (e : Exc) : Spends f n (M.throw e : M σ α) := fun _ => by simp only [M.throw]; omega
theorem ub (e : Fault) : Spends f n (M.ub e : M σ α) := fun _ => trivial

theorem mono {m : M σ α} (h : Spends f n m) (hk : n ≤ k) : Spends f k m := by
  intro s
  have := h s
  split <;> rename_i e <;> simp only [e] at this <;> first | trivial | omega

theorem bind {m : M σ α} {g : α → M σ β} (hm : Spends f n m) (hg : ∀ a, Spends f k (g a)) :
    Spends f (n + k) (m >>= g) := by
  intro s
  rw [M.bind_run]
  cases e : m s with
  | ok a s1 =>
    have h1 := hm.ok e
    simp only
    cases e2 : g a s1 with
    | ok b s2 => have h2 := (hg a).ok e2; simp only; omega
    | exc x s2 => have h2 := (hg a).exc e2; simp only; omega
    | ub => trivial
    | term => trivial
  | exc x s1 => have h1 := hm.exc e; simp only; omega
  | ub => trivial
  | term => trivial

/-- only what follows spends -/
theorem bind0 {m : M σ α} {g : α → M σ β} (hm : Spends f 0 m) (hg : ∀ a, Spends f k (g a)) :
    Spends f k (m >>= g) := by simpa using hm.bind hg
/-- only what comes first spends -/
theorem bindR {m : M σ α} {g : α → M σ β} (hm : Spends f n m) (hg : ∀ a, Spends f 0 (g a)) :
    Spends f n (m >>= g) := hm.bind hg

/-- as `Spends.bind0`, using what the first part is known to return -/
theorem bindK {m : M σ α} {g : α → M σ β} {P : α → Prop} (hm : Spends f 0 m)
    (hp : ∀ s a s', m s = .ok a s' → P a) (hg : ∀ a, P a → Spends f n (g a)) : Spends f n (m >>= g) := by
  intro s
  rw [M.bind_run]
  cases e : m s with
  | ok a s1 =>
    have h1 := hm.ok e
    simp only
    cases e2 : g a s1 with
    | ok b s2 => have h2 := (hg a (hp _ _ _ e)).ok e2; simp only; omega
    | exc x s2 => have h2 := (hg a (hp _ _ _ e)).exc e2; simp only; omega
    | ub => trivial
    | term => trivial
  | exc x s1 => have h1 := hm.exc e; simp only; omega
  | ub => trivial
  | term => trivial

theorem ite {c : Prop} [Decidable c] {m m' : M σ α} (h : c → Spends f n m) (h' : ¬ c → Spends f n m') :
    Spends f n (if c then m else m') := by
    split
    · exact h ‹_›
    · exact h' ‹_›

theorem noexcept {m : M σ α} (h : Spends f n m) : Spends f n (M.noexcept m) := by
  intro s
  have := h s
  unfold M.noexcept
  cases e : m s <;> simp only [e] at this ⊢ <;> first | trivial | exact this

theorem onExc {m : M σ α} {d : M σ Unit} (h : Spends f n m) (hd : Spends f 0 d) : Spends f n (M.onExc m d) := by
  intro s
  unfold M.onExc
  cases e : m s with
  | ok a s1 => exact h.ok e
  | exc x s1 =>
    have h1 := h.exc e
    simp only
    cases e2 : d s1 with
    | ok b s2 => have h2 := hd.ok e2; simp only; omega
    | exc => trivial
    | ub => trivial
    | term => trivial
  | ub => trivial
  | term => trivial

theorem withDtor {m : M σ α} {d : M σ Unit} (h : Spends f n m) (hd : Spends f 0 d) : Spends f n (M.withDtor m d) := by
  intro s
  unfold M.withDtor
  cases e : m s with
  | ok a s1 =>
    have h1 := h.ok e
    simp only
    cases e2 : d s1 with
    | ok b s2 => have h2 := hd.ok e2; simp only; omega
    | exc => trivial
    | ub => trivial
    | term => trivial
  | exc x s1 =>
    have h1 := h.exc e
    simp only
    cases e2 : d s1 with
    | ok b s2 => have h2 := hd.ok e2; simp only; omega
    | exc => trivial
    | ub => trivial
    | term => trivial
  | ub => trivial
  | term => trivial

end Spends

/-! ### in a given state -/

/-- the same for one run only: the call made in state `s` with result `r` -/
def Costs (f : Meter σ) (n : Nat) (s : σ) : Out σ α → Prop
  | .ok _ s' => f.val s' ≤ f.val s + n
  | .exc e s' => f.val s' ≤ f.val s + n + f.slack e
  | .ub _ => True
  | .term => True

namespace Costs
variable {f : Meter σ} {n k : Nat} {s : σ}

theorem of {m : M σ α} (h : Spends f n m) (s : σ) : Costs f n s (m s) := by
  have := h s
  cases e : m s <;> rw [e] at this <;> exact this
theorem of_eq {r r' : Out σ α} (e : r = r') (h : Costs f n s r') : Costs f n s r := e ▸ h
theorem ok {m : M σ α} (h : Costs f n s (m s)) {s' : σ} {a : α} (e : m s = .ok a s') : f.val s' ≤ f.val s + n := by
  rw [e] at h; exact h
theorem exc {m : M σ α} (h : Costs f n s (m s)) {s' : σ} {x : Exc} (e : m s = .exc x s') :
    f.val s' ≤ f.val s + n + f.slack x := by rw [e] at h; exact h
theorem mono {r : Out σ α} (h : Costs f n s r) (hk : n ≤ k) : Costs f k s r := by
  cases r <;> simp only [Costs] at * <;> first | trivial | omega
theorem bind {m : M σ α} {g : α → M σ β} (hm : Costs f n s (m s))
    (hg : ∀ a s', m s = .ok a s' → Costs f k s' (g a s')) : Costs f (n + k) s ((m >>= g) s) := by
  rw [M.bind_run]
  cases e : m s with
  | ok a s1 =>
    have h1 := hm.ok e
    have h2 := hg a s1 e
    simp only
    cases e2 : g a s1 <;> rw [e2] at h2 <;> simp only [Costs] at * <;> omega
  | exc x s1 => have h1 := hm.exc e; simp only [Costs]; omega
  | ub => trivial
  | term => trivial
theorem onExc {m : M σ α} {d : M σ Unit} (h : Costs f n s (m s)) (hd : Spends f 0 d) : Costs f n s (M.onExc m d s) := by
  unfold M.onExc
  cases e : m s with
  | ok a s1 => exact h.ok e
  | exc x s1 =>
    have h1 := h.exc e
    simp only
    cases e2 : d s1 with
    | ok b s2 => have h2 := hd.ok e2; simp only [Costs]; omega
    | exc => trivial
    | ub => trivial
    | term => trivial
  | ub => trivial
  | term => trivial
end Costs

/-- closes a goal `Spends f n m` for one particular `m`; lemmas about functions are added where they are proved -/
syntax "spend1" : tactic
macro_rules | `(tactic| spend1) => `(tactic| exact Spends.pure _)
macro_rules | `(tactic| spend1) => `(tactic| exact Spends.throw _)
macro_rules | `(tactic| spend1) => `(tactic| exact Spends.ub _)
macro_rules | `(tactic| spend1) => `(tactic| assumption)

/-- reduces `Spends f n m` to the parts of `m`; all parts but one must spend nothing -/
macro "spend" : tactic => `(tactic| repeat' (first
  | spend1
  | (with_reducible apply Spends.noexcept)
  | (with_reducible apply Spends.onExc)
  | (with_reducible apply Spends.withDtor)
  | (with_reducible refine Spends.bind0 ?_ (fun _ => ?_); focus (spend1))
  | (with_reducible refine Spends.ite (fun _ => ?_) (fun _ => ?_))
  | split))

end Ptl

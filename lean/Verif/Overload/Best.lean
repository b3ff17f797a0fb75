import Verif.Basic

/-!
# The best of several functions

Overload resolution for calls with several arguments ([over.match.best], [over.ics.rank]).  This is the language, not code
of the library; the candidates of the individual calls are given where they are used.
-/

namespace Ptl.Overload

/-- an implicit conversion sequence from an argument to a parameter -/
structure Seq where
  /-- the constructor or conversion function of a user-defined conversion -/
  via : Option Nat := none
  /-- rank of the (second) standard conversion: 0 exact match, 1 promotion, 2 conversion -/
  rank : Nat := 0
  /-- an rvalue reference bound to an rvalue -/
  rref : Bool := false
  /-- a `std::initializer_list` initialised by a braced list -/
  list : Bool := false
  deriving DecidableEq, Repr

/-- [over.ics.rank]: a standard conversion is better than a user-defined one; then a `std::initializer_list` is better for
a braced list; then the standard conversions are compared, those after user-defined conversions only if the function is the
same -/
def Seq.better (a b : Seq) : Bool :=
  match a.via, b.via with
  | none, some _ => true
  | some _, none => false
  | x, y =>
    if a.list != b.list then a.list
    else x == y && (decide (a.rank < b.rank) || (a.rank == b.rank && a.rref && !b.rref))

/-- a candidate: how each argument is converted (`none`: not at all), and whether it is a specialisation of a template -/
structure Cand where
  args : List (Option Seq)
  template : Bool := false
  deriving DecidableEq, Repr

/-- [over.match.viable]: every argument can be converted -/
def Cand.viable (c : Cand) : Bool := c.args.all Option.isSome

/-- is some argument's conversion for `c` better than that for `d`? -/
def Cand.anyBetter (c d : Cand) : Bool :=
  (c.args.zip d.args).any fun
    | (some a, some b) => a.better b
    | _ => false

/-- [over.match.best]: no conversion is worse, and one is better, or else `c` is not a template and `d` is -/
def Cand.beats (c d : Cand) : Bool :=
  !d.anyBetter c && (c.anyBetter d || (!c.template && d.template))

/-- outcome of overload resolution -/
inductive Choice (κ : Type) where
  | best (k : κ)
  | ambiguous
  | noMatch
  deriving DecidableEq, Repr

/-- the chosen one of the candidates `ks`: viable, and better than all other viable ones -/
def choose {κ : Type} [DecidableEq κ] (ks : List κ) (cand : κ → Cand) : Choice κ :=
  let vs := ks.filter fun k => (cand k).viable
  match vs.find? fun k => vs.all fun j => decide (j = k) || (cand k).beats (cand j) with
  | some k => .best k
  | none => if vs.isEmpty then .noMatch else .ambiguous

variable {κ : Type} [DecidableEq κ] {ks : List κ} {cand : κ → Cand} {k : κ}

/-- what is chosen is viable and beats every other viable candidate -/
theorem choose_best (h : choose ks cand = .best k) : k ∈ ks ∧ (cand k).viable = true ∧
    ∀ j ∈ ks, (cand j).viable = true → j ≠ k → (cand k).beats (cand j) = true := by
  unfold choose at h
  simp only at h
  split at h
  · rename_i k' hf
    cases h
    have hm := List.mem_of_find?_eq_some hf
    have hp := List.find?_some hf
    rw [List.mem_filter] at hm
    refine ⟨hm.1, hm.2, fun j hj hv hne => ?_⟩
    have := List.all_eq_true.1 hp j (List.mem_filter.2 ⟨hj, hv⟩)
    simpa [hne] using this
  · split at h <;> cases h

/-- nothing beats what beats it -/
theorem Cand.beats_asymm {c d : Cand} (h : c.beats d = true) : d.beats c = false := by
  unfold Cand.beats at *
  cases h1 : c.anyBetter d <;> cases h2 : d.anyBetter c <;> simp_all

/-- there is at most one best candidate -/
theorem choose_unique {j : κ} (h : choose ks cand = .best k) (hj : j ∈ ks) (hv : (cand j).viable = true)
    (hb : ∀ i ∈ ks, (cand i).viable = true → i ≠ j → (cand j).beats (cand i) = true) : j = k := by
  obtain ⟨hk, hkv, hkb⟩ := choose_best h
  by_cases e : j = k
  · exact e
  · have h1 := hkb j hj hv e
    have h2 := hb k hk hkv (Ne.symm e)
    rw [Cand.beats_asymm h1] at h2
    cases h2

end Ptl.Overload

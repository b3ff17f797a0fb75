import Verif.Basic

/-!
# C111: threads that use different objects do not notice each other – the part that is the same for all classes

Several threads call functions of one class.  A call is one step here: of two calls that run at the same time on different objects,
each reads and writes only memory that the other does not write (C93; and C109 for objects both only read), so that every execution
of the two is as good as one of them after the other ([intro.races]; [res.on.data.races]: the standard library – `operator new`,
`memcpy` – adds no races).  What is shown: however the calls of the threads are mixed, each thread runs as it would on its own –
with the same allocations succeeding, at the same addresses, which is the one thing threads do share.
-/

namespace Ptl.Threads

/-- how a call ended -/
inductive Res (R : Type) where
  | ok (r : R)
  | exc (e : Exc)

/-- the outcome for the client, and the state after it -/
def Ends {σ R : Type} (o : Out σ R) (x : Res R) (s' : σ) : Prop :=
  match x with
  | .ok r => o = .ok r s'
  | .exc e => o = .exc e s'

/-- a class, as far as threads are concerned -/
structure Class (σ Op R : Type) where
  run : Op → σ → Out σ R
  /-- a state that a program can reach -/
  Reached : σ → Prop
  /-- the call is within its preconditions, as far as one knows only those variables -/
  Pre : (Nat → Prop) → σ → Op → Prop
  /-- the variables that the client names in a call -/
  Names : Op → Nat → Prop
  /-- those of them that it may change; the others it only reads (e.g. the source of a copy) -/
  Changes : Op → Nat → Prop
  /-- the state in which only those variables exist -/
  only : (Nat → Prop) → σ → σ
  /-- the same objects with the same contents at the same addresses; only which allocations and copies are going to fail, and at
  which addresses allocations that succeed will be, is different -/
  Later : σ → σ → Prop

variable {σ Op R τ : Type}

/-- an execution of a program with several threads: thread `t` names only variables that it may use, changes only variables that no
other thread may use, and keeps to the preconditions – of which it needs to know nothing but its variables -/
inductive Runs (C : Class σ Op R) (May : τ → Nat → Prop) : σ → List (τ × Op × Res R) → σ → Prop
  | none {s} : Runs C May s [] s
  | call {s s' s'' l t op x} : Runs C May s l s' → C.Pre (May t) s' op → (∀ i, C.Names op i → May t i) →
      (∀ i, C.Changes op i → ∀ u, u ≠ t → ¬ May u i) → Ends (C.run op s') x s'' → Runs C May s (l ++ [(t, op, x)]) s''

/-- an execution of a thread on its own: its calls, one after another.  Between two calls, time may pass. -/
inductive Alone (C : Class σ Op R) : σ → List (Op × Res R) → σ → Prop
  | none {s} : Alone C s [] s
  | call {s s' s'' l op x} : Alone C s l s' → Ends (C.run op s') x s'' → Alone C s (l ++ [(op, x)]) s''
  | wait {s s' s'' l} : Alone C s l s' → C.Later s' s'' → Alone C s l s''

/-- the calls of thread `t`, with their results -/
def callsOf [DecidableEq τ] (t : τ) (l : List (τ × Op × Res R)) : List (Op × Res R) :=
  (l.filter fun c => decide (c.1 = t)).map Prod.snd

/-- what a class has to provide -/
structure Class.Separate (C : Class σ Op R) : Prop where
  /-- no undefined behaviour -/
  safe : ∀ {S : Nat → Prop} {s op f}, C.Reached s → C.Pre S s op → (∀ i, C.Names op i → S i) → C.run op s ≠ .ub f
  /-- the program can go on -/
  next : ∀ {S : Nat → Prop} {s s' op x}, C.Reached s → C.Pre S s op → (∀ i, C.Names op i → S i) → Ends (C.run op s) x s' →
    C.Reached s'
  /-- a call does the same if all variables that the client does not use are erased -/
  own : ∀ {S : Nat → Prop} {s s' op x}, C.Reached s → C.Pre S s op → (∀ i, C.Names op i → S i) → Ends (C.run op s) x s' →
    Ends (C.run op (C.only S s)) x (C.only S s')
  /-- what it does not change remains as it is -/
  other : ∀ {S S' : Nat → Prop} {s s' op x}, C.Reached s → C.Pre S s op → (∀ i, C.Names op i → S i) →
    (∀ i, C.Changes op i → ¬ S' i) → Ends (C.run op s) x s' → C.Later (C.only S' s) (C.only S' s')

variable {C : Class σ Op R} {May : τ → Nat → Prop} {s s' : σ} {l : List (τ × Op × Res R)}

theorem Class.Separate.reached (hC : C.Separate) (h0 : C.Reached s) (h : Runs C May s l s') : C.Reached s' := by
  induction h with
  | none => exact h0
  | call _ hp hn _ hr ih => exact hC.next ih hp hn hr

/-- each thread runs as it would on its own: there is an execution in which nothing but the variables it may use exists and only
its calls happen, each with the same result as in the program with all threads, and which ends with the same objects -/
theorem Class.Separate.alone [DecidableEq τ] (hC : C.Separate) (h0 : C.Reached s) (h : Runs C May s l s') (t : τ) :
    Alone C (C.only (May t) s) (callsOf t l) (C.only (May t) s') := by
  induction h with
  | none => exact .none
  | @call s1 s2 l u op x h hp hn hc hr ih =>
    have h1 := hC.reached h0 h
    unfold callsOf at ih ⊢
    rw [List.filter_append, List.map_append]
    by_cases e : u = t
    · subst e
      have := Alone.call ih (hC.own h1 hp hn hr)
      simpa using this
    · have := Alone.wait ih (hC.other h1 hp hn (fun i hi => hc i hi t (fun e' => e e'.symm)) hr)
      simpa [e] using this

end Ptl.Threads

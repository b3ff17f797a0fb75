/-!
# Outcomes of C++ calls

A C++ call is modelled as a function from the program state to an `Out`: a normal return, an exception
(the state survives it), undefined behaviour (a distinct outcome that absorbs everything after it) or
`std::terminate`.
-/

namespace Ptl

/-- Exceptions the library or the element type can throw.  `user` stands for whatever a user-supplied
constructor, assignment or iterator throws. -/
inductive Exc where
  | lengthError | outOfRange | badAlloc | badVariantAccess | badOptionalAccess | user
  deriving DecidableEq, Repr

/-- Causes of undefined behaviour, and lifetime violations (leaks, double construction) which we treat the
same way. -/
inductive Fault where
  | nullDeref        -- access through a null pointer
  | useAfterFree     -- access to / release of a block that is not allocated
  | wrongDealloc     -- handing a block to a deallocation function that was not stored for it
  | outOfBounds      -- access outside the bounds of a block
  | readRaw          -- reading a slot that holds no live object / an indeterminate byte
  | constructLive    -- constructing on top of a live object
  | destroyRaw       -- destroying where no live object is
  | leak             -- releasing storage that still contains live objects
  | deadObject       -- using a C++ object outside its lifetime
  | inactiveMember   -- reading an inactive union member
  | badRange         -- invalid iterator range
  | precondition     -- violated precondition of a library call
  | noReturn         -- the call never returns (unbounded recursion)
  deriving DecidableEq, Repr

/-- Outcome of a call. -/
inductive Out (σ α : Type) where
  | ok (a : α) (s : σ)
  | exc (e : Exc) (s : σ)
  | ub (f : Fault)
  | term

/-- A computation over program state `σ`. -/
def M (σ α : Type) : Type := σ → Out σ α

namespace M

variable {σ α β : Type}

/-- return a value -/
@[inline] protected def pure (a : α) : M σ α := fun s => .ok a s

/-- sequencing: anything but a normal return skips the continuation -/
@[inline] protected def bind (m : M σ α) (f : α → M σ β) : M σ β := fun s =>
  match m s with
  | .ok a s' => f a s'
  | .exc e s' => .exc e s'
  | .ub x => .ub x
  | .term => .term

instance : Monad (M σ) where
  pure := M.pure
  bind := M.bind

/-- `throw e` -/
def throw (e : Exc) : M σ α := fun s => .exc e s

/-- undefined behaviour -/
def ub (f : Fault) : M σ α := fun _ => .ub f

/-- read the whole state -/
def get : M σ σ := fun s => .ok s s

/-- replace the whole state -/
def set (s : σ) : M σ Unit := fun _ => .ok () s

/-- `try { m } catch(...) { h; throw; }` -/
def onExc (m : M σ α) (h : M σ Unit) : M σ α := fun s =>
  match m s with
  | .exc e s' => (match h s' with
      | .ok _ s'' => .exc e s''
      | .exc _ _ => .term
      | .ub x => .ub x
      | .term => .term)
  | r => r

/-- a scope whose local object has destructor `d`: the destructor runs on normal and on exceptional exit;
an exception escaping the destructor terminates -/
def withDtor (m : M σ α) (d : M σ Unit) : M σ α := fun s =>
  match m s with
  | .ok a s' => (match d s' with
      | .ok _ s'' => .ok a s''
      | .exc _ _ => .term
      | .ub x => .ub x
      | .term => .term)
  | .exc e s' => (match d s' with
      | .ok _ s'' => .exc e s''
      | .exc _ _ => .term
      | .ub x => .ub x
      | .term => .term)
  | .ub x => .ub x
  | .term => .term

/-- body of a `noexcept` function: an escaping exception terminates the program -/
def noexcept (m : M σ α) : M σ α := fun s =>
  match m s with
  | .exc _ _ => .term
  | r => r

/-! ### equations used by the proofs -/

@[simp] theorem pure_run (a : α) (s : σ) : (pure a : M σ α) s = .ok a s := rfl
theorem bind_run (m : M σ α) (f : α → M σ β) (s : σ) :
    (m >>= f) s = match m s with
      | .ok a s' => f a s' | .exc e s' => .exc e s' | .ub x => .ub x | .term => .term := rfl
theorem bind_ok {m : M σ α} {f : α → M σ β} {s s' : σ} {a : α} (h : m s = .ok a s') :
    (m >>= f) s = f a s' := by rw [bind_run, h]
theorem bind_exc {m : M σ α} {f : α → M σ β} {s s' : σ} {e : Exc} (h : m s = .exc e s') :
    (m >>= f) s = .exc e s' := by rw [bind_run, h]
theorem bind_ub {m : M σ α} {f : α → M σ β} {s : σ} {x : Fault} (h : m s = .ub x) :
    (m >>= f) s = .ub x := by rw [bind_run, h]
theorem bind_term {m : M σ α} {f : α → M σ β} {s : σ} (h : m s = .term) :
    (m >>= f) s = .term := by rw [bind_run, h]
theorem bind_congr {m m' : M σ α} {f : α → M σ β} {s s' : σ} (h : m s = m' s') :
    (m >>= f) s = (m' >>= f) s' := by rw [bind_run, bind_run, h]
theorem bind_assoc' {γ : Type} (m : M σ α) (f : α → M σ β) (g : β → M σ γ) :
    ((m >>= f) >>= g) = (m >>= fun a => f a >>= g) := by
  funext s; simp only [bind_run]; cases m s <;> rfl
@[simp] theorem throw_run (e : Exc) (s : σ) : (throw e : M σ α) s = .exc e s := rfl
@[simp] theorem ub_run (f : Fault) (s : σ) : (ub f : M σ α) s = .ub f := rfl
@[simp] theorem get_run (s : σ) : (get : M σ σ) s = .ok s s := rfl
@[simp] theorem set_run (s s' : σ) : (set s' : M σ Unit) s = .ok () s' := rfl
theorem onExc_ok {m : M σ α} {h : M σ Unit} {s s' : σ} {a : α} (e : m s = .ok a s') :
    onExc m h s = .ok a s' := by simp [onExc, e]
theorem onExc_exc {m : M σ α} {h : M σ Unit} {s s' s'' : σ} {e : Exc} (hm : m s = .exc e s')
    (hh : h s' = .ok () s'') : onExc m h s = .exc e s'' := by simp [onExc, hm, hh]
theorem onExc_ub {m : M σ α} {h : M σ Unit} {s : σ} {x : Fault} (e : m s = .ub x) :
    onExc m h s = .ub x := by simp [onExc, e]
theorem withDtor_ok {m : M σ α} {d : M σ Unit} {s s' s'' : σ} {a : α} (hm : m s = .ok a s')
    (hd : d s' = .ok () s'') : withDtor m d s = .ok a s'' := by simp [withDtor, hm, hd]
theorem withDtor_exc {m : M σ α} {d : M σ Unit} {s s' s'' : σ} {e : Exc} (hm : m s = .exc e s')
    (hd : d s' = .ok () s'') : withDtor m d s = .exc e s'' := by simp [withDtor, hm, hd]
theorem noexcept_ok {m : M σ α} {s s' : σ} {a : α} (h : m s = .ok a s') :
    noexcept m s = .ok a s' := by simp [noexcept, h]
theorem noexcept_exc {m : M σ α} {s s' : σ} {e : Exc} (h : m s = .exc e s') :
    noexcept m s = .term := by simp [noexcept, h]

end M

/-- execute the first step of a sequence, given its equation -/
macro "mstep " t:term : tactic => `(tactic| refine Eq.trans (M.bind_ok $t) ?_)

/-- point update of a function -/
def upd {κ ν : Type} [DecidableEq κ] (f : κ → ν) (k : κ) (v : ν) : κ → ν :=
  fun x => if x = k then v else f x

section upd
variable {κ ν : Type} [DecidableEq κ]
@[simp] theorem upd_same (f : κ → ν) (k : κ) (v : ν) : upd f k v k = v := by simp [upd]
theorem upd_ne (f : κ → ν) {k x : κ} (v : ν) (h : x ≠ k) : upd f k v x = f x := by simp [upd, h]
@[simp] theorem upd_upd (f : κ → ν) (k : κ) (v w : ν) : upd (upd f k v) k w = upd f k w := by
  funext x; by_cases h : x = k <;> simp [upd, h]
theorem upd_self (f : κ → ν) (k : κ) : upd f k (f k) = f := by
  funext x; by_cases h : x = k <;> simp [upd, h]
theorem upd_eq (f : κ → ν) (k : κ) (v : ν) (h : f k = v) : upd f k v = f := by
  rw [← h, upd_self]
theorem upd_comm (f : κ → ν) {k l : κ} (v w : ν) (h : k ≠ l) :
    upd (upd f k v) l w = upd (upd f l w) k v := by
  funext x
  by_cases h1 : x = k <;> by_cases h2 : x = l <;> simp_all [upd]
end upd

/-- `std::size_t` is 64 bits wide -/
def szMod : Nat := 2 ^ 64

/-- addition of `std::size_t` values (wraps) -/
def szAdd (a b : Nat) : Nat := (a + b) % szMod

/-- subtraction of `std::size_t` values (wraps) -/
def szSub (a b : Nat) : Nat := (a + szMod - b % szMod) % szMod

/-- multiplication of `std::size_t` values (wraps) -/
def szMul (a b : Nat) : Nat := (a * b) % szMod

/-- `std::numeric_limits<std::ptrdiff_t>::max()` -/
def ptrdiffMax : Nat := 2 ^ 63 - 1

theorem szAdd_eq {a b : Nat} (h : a + b < szMod) : szAdd a b = a + b := Nat.mod_eq_of_lt h
theorem szMul_eq {a b : Nat} (h : a * b < szMod) : szMul a b = a * b := Nat.mod_eq_of_lt h
theorem szSub_eq {a b : Nat} (hb : b ≤ a) (ha : a < szMod) : szSub a b = a - b := by
  unfold szSub
  rw [Nat.mod_eq_of_lt (Nat.lt_of_le_of_lt hb ha)]
  have : a + szMod - b = (a - b) + szMod := by omega
  rw [this, Nat.add_mod_right, Nat.mod_eq_of_lt (by omega)]

end Ptl

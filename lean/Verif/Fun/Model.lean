import Verif.Basic

/-!
# Model of `ptl::function_ref<Signature>` (inc/ptl/function_ref.hpp)

Every definition cites the lines it models.  Functions and functor classes have numbers.  The world that callables act on
consists of the functor objects (class and state) and of other objects.  What a callable does is arbitrary.

Simplifications: parameters have values (those passed by value are moved from parameter to parameter, which preserves the value);
callables do not create, rebind or destroy the function_refs considered (they may of course call anything).
-/

namespace Ptl.Fun

/-- functor objects: class and state; other objects -/
structure World (σ ν : Type) where
  fct : Nat → Option (Nat × σ)
  dat : Nat → Option ν

/-- what can be called: a function; functor object `n` of class `c`, as a const or as a non-const object -/
inductive Callee where
  | fn (f : Nat)
  | obj (n c : Nat) (const : Bool)
  deriving DecidableEq, Repr

/-- what a call results in: nothing; a value; a reference to object `k`; a reference to an object that is gone -/
inductive Res (ν : Type) where
  | unit
  | val (v : ν)
  | ref (k : Nat)
  | dangling
  deriving DecidableEq, Repr

/-- the functions and functor classes of the program -/
structure Env (σ ν : Type) where
  /-- what a call does.  (Overload resolution between `operator()` and `operator() const` is part of this.) -/
  beh : Callee → List ν → World σ ν → Out (World σ ν) (Res ν)
  /-- is the function invocable with the signature's parameters and result, and declared `noexcept`? -/
  fnInv : Nat → Bool
  fnNx : Nat → Bool
  /-- the same for a const / non-const object of a class -/
  clsInv : Nat → Bool → Bool
  clsNx : Nat → Bool → Bool
  /-- conversion of a result to the signature's result type -/
  conv : ν → ν

/-- result type of the signature: `void`, `T`, `T &`, `const T &`, `T &&` -/
inductive RK where
  | void | value | lref | cref | rref
  deriving DecidableEq, Repr

/-- the signature (function_ref.hpp:80-90): its qualifiers and result -/
structure Sig where
  const : Bool
  noexcept : Bool
  rk : RK

/-- a type `T` for which `functor<T>` is instantiated: a function type; a functor class, maybe const -/
inductive Ty where
  | fn
  | cls (c : Nat) (const : Bool)
  deriving DecidableEq, Repr

/-- what a pointer points to -/
inductive Addr where
  | fn (f : Nat)
  | obj (n : Nat)
  deriving DecidableEq, Repr

/-- function_ref.hpp:17-20 the union: which member is active, and its value -/
inductive Slot where
  | ptr (p : Addr)
  | cptr (p : Addr)
  deriving DecidableEq, Repr

/-- function_ref.hpp:107-108: the data members; `dispatch` is `functor<T>` -/
structure Rep where
  storage : Slot
  dispatch : Ty
  deriving DecidableEq, Repr

/-- program state; `log`: all calls of callables so far, with their arguments -/
structure St (σ ν : Type) where
  w : World σ ν
  ref : Nat → Option Rep
  log : List (Callee × List ν)

abbrev FM (σ ν β : Type) := M (St σ ν) β

variable {σ ν : Type} (E : Env σ ν) (G : Sig)

/-- is the callable declared `noexcept`? -/
def Env.nx : Callee → Bool
  | .fn f => E.fnNx f
  | .obj _ c k => E.clsNx c k

/-- call a callable (language primitive): its object must exist; an exception leaving a `noexcept` function terminates -/
def invoke (t : Callee) (args : List ν) : FM σ ν (Res ν) := fun s =>
  let live := match t with
    | .fn _ => true
    | .obj n c _ => match s.w.fct n with
      | some (c', _) => c' == c
      | none => false
  if live then
    match E.beh t args s.w with
    | .ok r w => .ok r { s with w := w, log := s.log ++ [(t, args)] }
    | .exc e w => if E.nx t then .term else .exc e { s with w := w, log := s.log ++ [(t, args)] }
    | .ub f => .ub f
    | .term => .term
  else .ub .deadObject

/-! ### storage_t -/

/-- function_ref.hpp:24-33 constructors, for a pointer to non-const object, to const object, to function -/
def mkStorage (T : Ty) (p : Addr) : Slot :=
  match T with
  | .fn => .ptr p
  | .cls _ true => .cptr p
  | .cls _ false => .ptr p

/-- function_ref.hpp:35-41 `get<T>`: what is called when the result is called -/
def storageGet (T : Ty) (u : Slot) : FM σ ν Callee :=
  match T, u with
  | .fn, .ptr (.fn f) => pure (.fn f)
  | .cls c true, .cptr (.obj n) => pure (.obj n c true)
  | .cls c false, .ptr (.obj n) => pure (.obj n c false)
  | _, _ => M.ub .inactiveMember

/-! ### invoking -/

/-- function_ref.hpp:45-46, 49 a result, returned from a function with declared return type `auto`: references to an object become
copies of it -/
def decayRes (r : Res ν) : FM σ ν (Res ν) := fun s =>
  match r with
  | .ref k => match s.w.dat k with
    | some v => .ok (.val v) s
    | none => .ub .deadObject
  | .dangling => .ub .deadObject
  | r => .ok r s

/-- function_ref.hpp:45-50 `invoke_r` -/
def invokeR (t : Callee) (args : List ν) : FM σ ν (Res ν) := do
  let r ← invoke E t args
  if G.rk = .void then pure .unit else decayRes r

/-- function_ref.hpp:67 `-> Result`: from the prvalue that `invoke_r` gives.  A reference is bound to a temporary that is gone on
return; a non-const lvalue reference does not compile. -/
def toResult (r : Res ν) : FM σ ν (Res ν) :=
  match G.rk, r with
  | .void, _ => pure .unit
  | .value, .val v => pure (.val (E.conv v))
  | .cref, .val _ => pure .dangling
  | .rref, .val _ => pure .dangling
  | _, _ => M.ub .precondition

/-- function_ref.hpp:65-67 `functor<T>` -/
def functor (T : Ty) (u : Slot) (args : List ν) : FM σ ν (Res ν) :=
  let body : FM σ ν (Res ν) := do
    let t ← storageGet T u
    let r ← invokeR E G t args
    toResult E G r
  if G.noexcept then M.noexcept body else body

/-- the data members of a live function_ref -/
def rep (r : Nat) : FM σ ν Rep := fun s =>
  match s.ref r with
  | some x => .ok x s
  | none => .ub .deadObject

/-- function_ref.hpp:69-73 `operator()` -/
def call (r : Nat) (args : List ν) : FM σ ν (Res ν) :=
  let body : FM σ ν (Res ν) := do
    let x ← rep r
    functor E G x.dispatch x.storage args
  if G.noexcept then M.noexcept body else body

/-! ### construction and assignment -/

/-- function_ref.hpp:55-58 `is_invocable_using`, for a function and for a (const) functor lvalue -/
def invocableFn (f : Nat) : Bool := E.fnInv f && (!G.noexcept || E.fnNx f)

def invocableCls (c : Nat) (const : Bool) : Bool := E.clsInv c const && (!G.noexcept || E.clsNx c const)

/-- an object comes into existence -/
def newRef (r : Nat) (x : Rep) : FM σ ν Unit := fun s =>
  match s.ref r with
  | some _ => .ub .constructLive
  | none => .ok () { s with ref := upd s.ref r (some x) }

/-- function_ref.hpp:110-111 from a function; the constraint rejects others at compile time.  Also chosen for functions and for
lvalues of function pointer type: `F *` is more specialised than `F &&`. -/
def ctorFn (r f : Nat) : FM σ ν Unit :=
  if invocableFn E G f then newRef r ⟨mkStorage .fn (.fn f), .fn⟩ else M.ub .precondition

/-- function_ref.hpp:60-61 `const_<T>`: is it const? -/
def constOf (const : Bool) : Bool := if G.const then true else const

/-- function_ref.hpp:113-115 from an expression denoting functor object `n` of class `c`, which is const or not: the constraint is
about `const_<T> &`, the dispatch function about `T` -/
def ctorObj (r n c : Nat) (const : Bool) : FM σ ν Unit :=
  if invocableCls E G c (constOf G const) then newRef r ⟨mkStorage (.cls c const) (.obj n), .cls c const⟩ else M.ub .precondition

/-- function_ref.hpp:117-118 copy constructor -/
def ctorCopy (r q : Nat) : FM σ ν Unit := do
  let x ← rep q
  newRef r x

/-- function_ref.hpp:119-120 copy assignment; also from functions, through a temporary (110-111) -/
def assign (r q : Nat) : FM σ ν Unit := do
  let x ← rep q
  let _ ← rep r
  fun s => .ok () { s with ref := upd s.ref r (some x) }

/-- `r = f`: a temporary is constructed from the function, and assigned -/
def assignFn (r f : Nat) : FM σ ν Unit :=
  if invocableFn E G f then do
    let _ ← rep r
    fun s => .ok () { s with ref := upd s.ref r (some ⟨mkStorage .fn (.fn f), .fn⟩) }
  else M.ub .precondition

/-- the implicit destructor -/
def dtor (r : Nat) : FM σ ν Unit := do
  let _ ← rep r
  fun s => .ok () { s with ref := upd s.ref r none }

/-- use of the object a result refers to -/
def useRes (r : Res ν) : FM σ ν ν := fun s =>
  match r with
  | .val v => .ok v s
  | .ref k => match s.w.dat k with
    | some v => .ok v s
    | none => .ub .deadObject
  | .dangling => .ub .deadObject
  | .unit => .ub .precondition

end Ptl.Fun

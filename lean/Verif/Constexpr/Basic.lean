import Verif.Bitset.Hist

/-!
# C86: functions declared `constexpr` can be evaluated at compile time

A call is a constant expression only if every function it calls is `constexpr` ([expr.const]/2.2).  The library is compiled as
C++17, where most of `<algorithm>`, `<numeric>` and `std::swap` are not.  The model lists, for each function of the library, the
functions it calls on the path that returns normally; what a function may call is then followed through the library.

Simplifications: operations of element types are taken to be `constexpr`; a `throw` is not on the path that returns normally.
-/

namespace Ptl.Constexpr

/-- functions and constructs outside the library that its functions declared `constexpr` use -/
inductive Std where
  | min | forward | move | addressof | reverseIterator | allOf | anyOf | accumulate | transform | fill | fillN | swapRanges | equal
  | lexicographicalCompare | swap | destroyAt
  /-- a `new` expression that creates an object in given storage -/
  | placementNew
  /-- an object with a destructor that is not trivial and not `constexpr` -/
  | destructor
  /-- a constructor that leaves a member without an initialiser -/
  | uninitialised
  deriving DecidableEq, Repr

/-- what is allowed in constant expressions of C++17 ([expr.const], [algorithms], [numeric.ops], [utility]) -/
def cxx17 : Std → Bool
  | .min | .forward | .move | .addressof | .reverseIterator => true
  | _ => false

/-- the same in C++20 (P0202, P0879, P1645, P0784, P1331); placement `new` is only allowed through `std::construct_at` -/
def cxx20 : Std → Bool
  | .placementNew | .destructor => false
  | _ => true

/-- a function of the library: whether it is declared `constexpr` (or is implicitly so), and what it calls when it returns normally -/
structure Body (ι : Type) where
  declared : Bool := true
  own : List ι := []
  std : List Std := []

variable {ι : Type}

/-- a call of the function can be a constant expression -/
inductive Usable (R : Std → Bool) (body : ι → Body ι) : ι → Prop
  | mk {f : ι} : (body f).declared = true → (∀ x ∈ (body f).std, R x = true) → (∀ g ∈ (body f).own, Usable R body g) → Usable R body f

variable {R : Std → Bool} {body : ι → Body ι} {f : ι}

theorem Usable.std (h : Usable R body f) {x : Std} (hx : x ∈ (body f).std) : R x = true := by cases h with | mk _ h _ => exact h x hx

theorem Usable.own (h : Usable R body f) {g : ι} (hg : g ∈ (body f).own) : Usable R body g := by cases h with | mk _ _ h => exact h g hg

/-- calls cannot be usable if they lead to something that is not -/
theorem Usable.not_std {x : Std} (hx : x ∈ (body f).std) (hR : R x = false) : ¬ Usable R body f := fun h => by
  have := h.std hx; rw [hR] at this; cases this

theorem Usable.not_own {g : ι} (hg : g ∈ (body f).own) (hn : ¬ Usable R body g) : ¬ Usable R body f := fun h => hn (h.own hg)

/-- decides `Usable` for call graphs of depth at most `k` -/
def check (R : Std → Bool) (body : ι → Body ι) : Nat → ι → Bool
  | 0, _ => false
  | k + 1, f => (body f).declared && (body f).std.all R && (body f).own.all (check R body k)

theorem Usable.of_check : ∀ (k : Nat) (f : ι), check R body k f = true → Usable R body f
  | 0, _, h => by cases h
  | k + 1, f, h => by
    simp only [check, Bool.and_eq_true, List.all_eq_true] at h
    exact .mk h.1.1 h.1.2 fun g hg => Usable.of_check k g (h.2 g hg)

/-- calls of something that is not allowed, followed at most `k` deep -/
def bad (R : Std → Bool) (body : ι → Body ι) : Nat → ι → Bool
  | 0, _ => false
  | k + 1, f => !(body f).declared || (body f).std.any (fun x => !R x) || (body f).own.any (bad R body k)

theorem Usable.not_of_bad : ∀ (k : Nat) (f : ι), bad R body k f = true → ¬ Usable R body f
  | 0, _, h => by cases h
  | k + 1, f, h => by
    simp only [bad, Bool.or_eq_true, List.any_eq_true, Bool.not_eq_true'] at h
    intro hu
    rcases h with (h | ⟨x, hx, hn⟩) | ⟨g, hg, hb⟩
    · cases hu with | mk hd _ _ => rw [h] at hd; cases hd
    · exact Usable.not_std hx hn hu
    · exact Usable.not_own hg (Usable.not_of_bad k g hb) hu

end Ptl.Constexpr

namespace Ptl.Bitset

open Constexpr

/-- the functions of `bitset` and of `bitset::reference` -/
inductive Fn where
  | ctor | ctorVal | copy | assign | dtor | get | clearTrailing
  | refCtor | refCopy | refAssignBool | refFlip
  | indexConst | indexRef | atConst | atRef | test | all | any | none | count | size | empty | maxSize
  | andA | opAnd | orA | opOr | xorA | opXor | opNot | shlA | opShl | shrA | opShr
  | set | setAt | reset | resetAt | flip | flipAt | opBool | insert | extract | swap | friendSwap | opEq | opNe
  deriving DecidableEq, Repr

/-- bitset.hpp:58-376 (lines at each), `Size` being `n`: what each calls when it returns normally.  Copy, assignment and destruction are implicit
and trivial.  Where the code says `if constexpr(Size != 0)`, there is nothing to call for `Size` 0.  Conversion of a `reference` to
`bool` (bitset.hpp:97-98) and what uses it never returns (C37) and is left out. -/
def body (n : Nat) : Fn → Body Fn
  | .ctor | .copy | .assign | .dtor => {}                                                            -- 123-124
  | .ctorVal => { own := [.setAt], std := [.min] }                                                   -- 126-133
  | .get => { own := [.indexConst] }                                                                 -- 66-72
  | .clearTrailing => {}                                                                             -- 58-59
  | .refCtor | .refCopy => {}                                                                        -- 82-86
  | .refAssignBool => { own := [.setAt] }                                                            -- 91-95
  | .refFlip => { own := [.flipAt] }                                                                 -- 102-106
  | .indexConst => {}                                                                                -- 135-139
  | .indexRef => { own := [.refCtor] }                                                               -- 140-141
  | .atConst => { own := [.size, .indexConst] }                                                      -- 142-146
  | .atRef => { own := [.size, .indexRef] }                                                          -- 147-151
  | .test => { own := [.atConst] }                                                                   -- 153-154
  | .all => { std := if n = 0 then [] else [.allOf] }                                                -- 156-163
  | .any => { std := if n = 0 then [] else [.anyOf] }                                                -- 164-168
  | .none => { own := [.any] }                                                                       -- 169-170
  | .count => { std := if n = 0 then [] else [.accumulate] }                                         -- 172-179
  | .size => {}                                                                                      -- 181-183
  | .empty | .maxSize => { own := [.size] }                                                          -- 184-190
  | .andA | .orA | .xorA => { std := if n = 0 then [] else [.transform] }                            -- 192-196, 204-208, 216-220
  | .opAnd => { own := [.copy, .andA] }                                                              -- 197-202
  | .opOr => { own := [.copy, .orA] }                                                                -- 209-214
  | .opXor => { own := [.copy, .xorA] }                                                              -- 221-226
  | .opNot => { own := [.copy, .flip] }                                                              -- 228-233
  | .shlA => { own := if n = 0 then [] else [.clearTrailing] }                                       -- 235-248
  | .opShl => { own := [.copy, .shlA] }                                                              -- 249-254
  | .shrA => {}                                                                                      -- 256-268
  | .opShr => { own := [.copy, .shrA] }                                                              -- 269-274
  | .set => { own := if n = 0 then [] else [.clearTrailing], std := if n = 0 then [] else [.fillN] } -- 276-282
  | .setAt => { own := if n = 0 then [] else [.resetAt] }                                            -- 284-293
  | .reset => { std := if n = 0 then [] else [.fillN] }                                              -- 295-299
  | .resetAt | .flipAt => {}                                                                         -- 300-308, 318-326
  | .flip => { own := if n = 0 then [] else [.clearTrailing], std := if n = 0 then [] else [.transform] } -- 310-317
  | .opBool => { own := [.any] }                                                                     -- 328-331
  | .insert | .extract => { declared := false }                                                      -- 333-358
  | .swap => { std := if n = 0 then [] else [.swapRanges] }                                          -- 360-363
  | .friendSwap => { own := [.swap] }                                                                -- 364-366
  | .opEq => { std := if n = 0 then [] else [.equal] }                                               -- 368-373
  | .opNe => { own := [.opEq] }                                                                      -- 374-376

/-- the functions that a client's call of `op` names; `openIn` and `openOut` are about streams only -/
def Op.fns : Op → List Fn
  | .ctor _ => [.ctor] | .ctorVal .. => [.ctorVal] | .copy .. => [.copy] | .assign .. => [.assign] | .dtor _ => [.dtor]
  | .andA .. => [.andA] | .orA .. => [.orA] | .xorA .. => [.xorA] | .shlA .. => [.shlA] | .shrA .. => [.shrA]
  | .opAnd .. => [.opAnd] | .opOr .. => [.opOr] | .opXor .. => [.opXor] | .opNot .. => [.opNot] | .opShl .. => [.opShl]
  | .opShr .. => [.opShr] | .setAll _ => [.set] | .resetAll _ => [.reset] | .flipAll _ => [.flip] | .setAt .. => [.setAt]
  | .resetAt .. => [.resetAt] | .flipAt .. => [.flipAt] | .swap .. => [.swap] | .refSet .. => [.indexRef, .refAssignBool]
  | .refFlip .. => [.indexRef, .refFlip] | .atSet .. => [.atRef, .refAssignBool] | .atFlip .. => [.atRef, .refFlip]
  | .index .. => [.indexConst] | .atConst .. => [.atConst] | .test .. => [.test] | .allSet _ => [.all] | .anySet _ => [.any]
  | .noneSet _ => [.none] | .count _ => [.count] | .opEq .. => [.opEq] | .opNe .. => [.opNe] | .insert _ => [.insert]
  | .extract _ => [.extract] | .openIn _ | .openOut _ => []

/-- the call is a constant expression under the rules `R` if its arguments are: it returns, and every function it names can be
evaluated -/
def Constant (R : Std → Bool) (n : Nat) (op : Op) (s : St) : Prop :=
  (∃ r s', op.run n s = .ok r s') ∧ ∀ f ∈ op.fns, Usable R (body n) f

/-- all functions the call names are declared `constexpr` -/
def Op.Declared (n : Nat) (op : Op) : Prop := ∀ f ∈ op.fns, (body n f).declared = true

/-- every call of functions declared `constexpr` that is made within its preconditions and returns is a constant expression -/
def Honest (R : Std → Bool) (n : Nat) : Prop :=
  ∀ (s : St) (V V' : View n) (op : Op) (r : Res), Reach n s V → op.spec V = some (.ok r, V') → op.Declared n → Constant R n op s

/-- the functions whose bodies, for sizes other than 0, call an algorithm of the standard library -/
def Fn.algorithmic : Fn → Bool
  | .all | .any | .none | .count | .andA | .opAnd | .orA | .opOr | .xorA | .opXor | .opNot | .set | .reset | .flip | .opBool | .swap
  | .friendSwap | .opEq | .opNe => true
  | _ => false

/-- declared `constexpr`: all but the stream operators -/
theorem C86_bitset_declared (n : Nat) (f : Fn) : (body n f).declared = true ↔ f ≠ .insert ∧ f ≠ .extract := by
  cases f <;> simp [body]

/-- **C86** for `bitset`, function by function: with C++17, those usable in constant expressions -/
theorem C86_bitset_functions (n : Nat) (f : Fn) (hd : (body n f).declared = true) :
    Usable cxx17 (body n) f ↔ n = 0 ∨ f.algorithmic = false := by
  rcases Nat.eq_zero_or_pos n with rfl | hn
  · refine ⟨fun _ => .inl rfl, fun _ => .of_check 4 f ?_⟩
    revert hd; cases f <;> decide
  · obtain ⟨m, rfl⟩ : ∃ m, n = m + 1 := ⟨n - 1, by omega⟩
    constructor
    · exact fun hu => .inr (Bool.eq_false_iff.2 fun hc => Usable.not_of_bad 3 f (by cases f <;> first | rfl | cases hc) hu)
    · rintro (h | h)
      · cases h
      · exact .of_check 4 f (by cases f <;> first | rfl | (cases hd; done) | (cases h; done))

/-- **C86** for `bitset`: all calls for size 0, and the calls that name no function with an algorithm in its body.
Missing: the other functions for other sizes, see `C86_bitset_refuted`. -/
theorem C86_bitset_partial {n : Nat} {s : St} {V V' : View n} {op : Op} {r : Res} (h : Reach n s V)
    (hs : op.spec V = some (.ok r, V')) (hd : op.Declared n) (ha : n = 0 ∨ ∀ f ∈ op.fns, f.algorithmic = false) :
    Constant cxx17 n op s := by
  obtain ⟨s', hr, _⟩ := h.next hs
  exact ⟨⟨_, _, hr⟩, fun f hf => (C86_bitset_functions n f (hd f hf)).2 (ha.imp id fun g => g f hf)⟩

/-- **C86** for `bitset`, call by call -/
theorem C86_bitset_exact {n : Nat} {s : St} {V V' : View n} {op : Op} {r : Res} (h : Reach n s V)
    (hs : op.spec V = some (.ok r, V')) (hd : op.Declared n) :
    Constant cxx17 n op s ↔ n = 0 ∨ ∀ f ∈ op.fns, f.algorithmic = false := by
  refine ⟨fun hc => ?_, C86_bitset_partial h hs hd⟩
  rcases Nat.eq_zero_or_pos n with h0 | hn
  · exact .inl h0
  · refine .inr fun f hf => ?_
    rcases (C86_bitset_functions n f (hd f hf)).1 (hc.2 f hf) with h0 | ha
    · omega
    · exact ha

/-- **C86** is false for every `bitset` that has bits: `b.count()` is declared `constexpr`, is within its preconditions, returns,
and is not a constant expression -/
theorem C86_bitset_refuted {n : Nat} (hn : 0 < n) : ¬ Honest cxx17 n := by
  intro hh
  obtain ⟨s, _, h⟩ := (Reach.start (n := n) fun _ => false).next (op := .ctor 0) rfl
  have hc := hh s _ _ (.count 0) _ h rfl (by intro f hf; simp only [Op.fns, List.mem_singleton] at hf; subst hf; rfl)
  rcases (C86_bitset_functions n .count rfl).1 (hc.2 .count (by simp [Op.fns])) with h0 | ha
  · omega
  · cases ha

/-- with the rules of C++20 it holds as it is -/
theorem C86_bitset_cxx20 (n : Nat) : Honest cxx20 n := by
  intro s V V' op r h hs hd
  obtain ⟨s', hr, _⟩ := h.next hs
  refine ⟨⟨_, _, hr⟩, fun f hf => .of_check 4 f ?_⟩
  have hd' := hd f hf
  rcases Nat.eq_zero_or_pos n with rfl | hn
  · revert hd'; cases f <;> decide
  · obtain ⟨m, rfl⟩ : ∃ m, n = m + 1 := ⟨n - 1, by omega⟩
    cases f <;> first | rfl | cases hd'

-- `b[3] = true` on a bitset of 9 bits is a constant expression in C++17, `b.any()` is not
example : ∃ s V, Reach 9 s V ∧ Constant cxx17 9 (.refSet 0 3 true) s ∧ ¬ Constant cxx17 9 (.anySet 0) s := by
  obtain ⟨s, _, h⟩ := (Reach.start (n := 9) fun _ => false).next (op := .ctor 0) rfl
  refine ⟨s, _, h, C86_bitset_partial h (r := .unit) rfl ?_ (.inr ?_), fun hc => ?_⟩
  · intro f hf; simp only [Op.fns, List.mem_cons, List.not_mem_nil, or_false] at hf; rcases hf with rfl | rfl <;> rfl
  · intro f hf; simp only [Op.fns, List.mem_cons, List.not_mem_nil, or_false] at hf; rcases hf with rfl | rfl <;> rfl
  · exact Usable.not_of_bad (body := body 9) 1 Fn.any rfl (hc.2 .any (by simp [Op.fns]))

end Ptl.Bitset

import Verif.Overload.Props

/-!
# Declarations without template arguments

`optional o{x};`, `array a{x, y};`, `tuple t{x, y};`, `vector v{x, y};`, `function_ref f{x};`: which class is deduced ([over.match.class.deduct]), whether the
declaration compiles, and what becomes of the arguments.  Every definition cites the lines it models, or is a language rule.

Simplifications: `volatile` and classes derived from the library's (they are final) are left out; so are `std::nullopt` as argument of `optional`, conversion
functions to references, C-variadic functions, and const types that can be assigned to (a class may declare its assignment operator `const`).
-/

namespace Ptl.Deduce

open Overload (Kind Cat)

/-! ### types and arguments -/

/-- Types.  `fn n`: a function type, including its `noexcept`; `named n`: all types that are not listed. -/
inductive Ty where
  | named (n : Nat)
  | ptr (const : Bool) (T : Ty)
  | arr (T : Ty) (size : Nat)
  | fn (n : Nat)
  | const (T : Ty)
  | optional (T : Ty)
  | array (T : Ty) (size : Nat)
  | tuple (Ts : List Ty)
  | vector (T : Ty)
  | functionRef (T : Ty)

/-- an expression of type `ty`, with its constness (that of the elements for an array) and value category -/
structure Arg where
  ty : Ty
  kind : Kind

/-- [temp.deduct.call]: the type deduced for a parameter `T` -/
def Arg.decay (a : Arg) : Ty :=
  match a.ty with
  | .arr T _ => .ptr a.kind.const T
  | .fn n => .ptr false (.fn n)
  | T => T

/-- the class templates -/
inductive Cls where
  | optional | array | tuple | vector | functionRef
  deriving DecidableEq, Repr

/-- is the type a specialisation of the template? -/
def Cls.own : Cls → Ty → Bool
  | .optional, .optional _ => true
  | .array, .array _ _ => true
  | .tuple, .tuple _ => true
  | .vector, .vector _ => true
  | .functionRef, .functionRef _ => true
  | _, _ => false

/-- the types a class stores objects of -/
def Ty.elems : Ty → List Ty
  | .optional T => [T]
  | .array T _ => [T]
  | .tuple Ts => Ts
  | .vector T => [T]
  | _ => []

/-- neither an array nor a function type -/
def Ty.isObject : Ty → Bool
  | .arr _ _ | .fn _ => false
  | _ => true

/-- what the language and the program say about types -/
structure Lang where
  same : Ty → Ty → Bool
  same_iff : ∀ T U, same T U = true ↔ T = U
  /-- the static assertions optional.hpp:18-24, array.hpp:30-38, tuple.hpp:15-24, 83, vector.hpp:20-27 hold for the type: it can be copied, assigned, …  (They
  differ in details, and a tuple's element may be const; here a type satisfies all of them.) -/
  storable : Ty → Bool
  storable_arr : ∀ T n, storable (.arr T n) = false
  storable_fn : ∀ n, storable (.fn n) = false
  storable_const : ∀ T, storable (.const T) = false
  /-- implicit conversions between types, which have numbers -/
  conv : Overload.Conv
  name : Ty → Nat
  /-- no object converts to an array or a function -/
  conv_arr : ∀ U T n, U.isObject = true → conv.conv (name U) (name (.arr T n)) = false
  conv_fn : ∀ U n, U.isObject = true → conv.conv (name U) (name (.fn n)) = false

/-! ### deduction guides and overload resolution -/

/-- parameters: by value, or a reference -/
inductive Param where
  | value
  | ref (k : Kind)

/-- a deduction guide, after deduction of its template parameters -/
structure Guide where
  result : Ty
  params : List Param
  /-- how general the parameters are ([temp.func.order]): 0 for specialisations of the template itself, 1 for a template parameter, 2 for a pack -/
  general : Nat
  /-- written as such, not made from a constructor -/
  written : Bool := false
  /-- the copy deduction candidate -/
  copyCand : Bool := false

/-- can the argument be passed? -/
def Param.takes (p : Param) (a : Arg) : Bool :=
  match p with
  | .value => true
  | .ref k => Overload.binds k a.kind

/-- is passing the argument to `p` better than to `q`? -/
def Param.better (p q : Param) (a : Arg) : Bool :=
  match p, q with
  | .ref j, .ref k => Overload.better j k a.kind
  | _, _ => false

/-- can the guide be used? -/
def Guide.viable (g : Guide) (args : List Arg) : Bool := g.params.length == args.length && (g.params.zip args).all fun x => x.1.takes x.2

/-- is some argument passed better to `g` than to `h`? -/
def Guide.anyBetter (g h : Guide) (args : List Arg) : Bool := ((g.params.zip h.params).zip args).any fun x => x.1.1.better x.1.2 x.2

/-- [over.match.best]: by the arguments; then the more specialised; then those written as guides; then the copy deduction candidate -/
def Guide.beats (g h : Guide) (args : List Arg) : Bool :=
  !h.anyBetter g args && (g.anyBetter h args || decide (g.general < h.general) ||
    (g.general == h.general && ((g.written && !h.written) || (g.written == h.written && g.copyCand && !h.copyCand))))

/-- the type deduced: that of the guide that beats all others -/
def deduce (gs : List Guide) (args : List Arg) : Option Ty :=
  let vs := gs.filter fun g => g.viable args
  let best := (List.range vs.length).find? fun k => (List.range vs.length).all fun j => decide (j = k) ||
    match vs[k]?, vs[j]? with
    | some g, some h => g.beats h args
    | _, _ => false
  best.bind fun k => vs[k]?.map (·.result)

/-- the guides for an argument of the class `T` itself: from the copy and the move constructor, and the copy deduction candidate -/
def ownGuides (T : Ty) : List Guide :=
  [⟨T, [.ref ⟨true, .lvalue⟩], 0, false, false⟩, ⟨T, [.ref ⟨false, .rvalue⟩], 0, false, false⟩, ⟨T, [.value], 0, false, true⟩]

/-- … if there is one argument of such a class -/
def ownIf (c : Cls) : List Arg → List Guide
  | [a] => if c.own a.ty then ownGuides a.ty else []
  | _ => []

/-- the type deduced for `Type` in `Type &&`, where `Type` is a parameter of the class: this is no forwarding reference -/
def Arg.unforwarded (a : Arg) : Ty := if a.kind.const then .const a.ty else a.ty

/-- optional.hpp:41-44 `const Type &`, `Type &&`; `Type` cannot be deduced from the other constructors.  There is no guide in optional.hpp.  (For a function
the former is better.) -/
def optionalGuides : List Arg → List Guide
  | [a] => [⟨.optional a.ty, [.ref ⟨true, .lvalue⟩], 1, false, false⟩, ⟨.optional a.unforwarded, [.ref ⟨a.kind.const, .rvalue⟩], 1, false, false⟩]
  | _ => []

/-- array.hpp:275-276; `Type` cannot be deduced from the constructor -/
def arrayGuides : List Arg → List Guide
  | [] => []
  | a :: as => [⟨.array a.decay (1 + as.length), (a :: as).map fun _ => .value, 2, true, false⟩]

/-- tuple.hpp:134-135, and the constructor 89-91: `Types` is deduced to be empty, which only the call without arguments allows -/
def tupleGuides (args : List Arg) : List Guide :=
  ⟨.tuple (args.map Arg.decay), args.map fun _ => .value, 2, true, false⟩ ::
    (if Overload.tupleAccepts 0 args.length then [⟨.tuple [], args.map fun a => .ref a.kind, 2, false, false⟩] else [])

/-- function_ref.hpp:129-130 -/
def functionRefGuides : List Arg → List Guide
  | [a] => match a.decay with
    | .ptr false T => [⟨.functionRef T, [.value], 1, true, false⟩]
    | .ptr true T => [⟨.functionRef (.const T), [.value], 1, true, false⟩]
    | _ => []
  | _ => []

variable (L : Lang)

/-- vector.hpp:265 `std::initializer_list<Type>`: the type all elements of the braced list have -/
def listElem : List Arg → Option Ty
  | [] => none
  | a :: as => if as.all fun b => L.same b.decay a.decay then some a.decay else none

/-- `vector v{…}` ([over.match.list], [over.match.class.deduct]): first the guide from the constructor with `std::initializer_list`, unless there is one argument
that is a vector; then all.  (Of those only the ones for a vector are given here.) -/
def deduceVector (args : List Arg) : Option Ty :=
  let list := match args with
    | [a] => if Cls.vector.own a.ty then none else listElem L args
    | _ => listElem L args
  match list with
  | some T => some (.vector T)
  | none => deduce (ownIf .vector args) args

/-- the class deduced -/
def deduced (c : Cls) (args : List Arg) : Option Ty :=
  match c with
  | .optional => deduce (ownIf .optional args ++ optionalGuides args) args
  | .array => deduce (ownIf .array args ++ arrayGuides args) args
  | .tuple => deduce (ownIf .tuple args ++ tupleGuides args) args
  | .vector => deduceVector L args
  | .functionRef => deduce (ownIf .functionRef args ++ functionRefGuides args) args

/-! ### the declaration -/

/-- what becomes of the arguments: one element is made from each; or the only one is copied, or moved from -/
inductive Made where
  | elements | copied | moved
  deriving DecidableEq, Repr

/-- the constructor selected for an object of the class itself -/
def Made.ofCtor : Overload.Ctor → Made
  | .copy => .copied
  | .move => .moved
  | .forward => .elements

/-- is the only argument an object of the very type? -/
def single (T : Ty) : List Arg → Option Kind
  | [a] => if L.same a.ty T then some a.kind else none
  | _ => none

/-- initialisation of an object of type `T` with the braced arguments; `none`: does not compile.

* optional.hpp:36-44: for an optional the copy or move constructor, otherwise the constructors from `Type`.
* array.hpp:177-179: with its constraint; each element is made from one argument, which have its type or convert to it.
* tuple.hpp:89-91: likewise; an element of a one-element tuple is not made from the tuple.
* vector.hpp:265: wins if it can be used ([over.match.list]), even for a vector, if that converts to its element type.
* function_ref.hpp:110-118: a function, or another function_ref. -/
def init (T : Ty) (args : List Arg) : Option Made :=
  match T with
  | .optional _ => match single L T args with
    | some k => (Overload.select false k).map Made.ofCtor
    | none => some .elements
  | .array U _ => match single L T args with
    | some k => match Overload.arraySelect L.conv (L.name T) (L.name U) k with
      | some .forward => none
      | r => r.map Made.ofCtor
    | none =>
      if Overload.arrayAccepts L.conv (L.name U) (args.map fun a => ⟨L.name a.ty, a.kind⟩) && args.all (fun a => L.conv.conv (L.name a.decay) (L.name U)) then
        some .elements
      else none
  | .tuple Ts => match single L T args with
    | some k => match Overload.tupleSelect Ts.length k with
      | some .forward => none
      | r => r.map Made.ofCtor
    | none => if Overload.tupleAccepts Ts.length args.length then some .elements else none
  | .vector U => match single L T args with
    | some k => if L.conv.conv (L.name T) (L.name U) then some .elements else (Overload.select false k).map Made.ofCtor
    | none => some .elements
  | .functionRef (.fn _) => match single L T args with
    | some _ => some .copied
    | none => some .elements
  | _ => none

/-- the declaration: the type and what becomes of the arguments; `none`: does not compile -/
def declare (c : Cls) (args : List Arg) : Option (Ty × Made) :=
  match deduced L c args with
  | none => none
  | some T => if T.elems.all L.storable then (init L T args).map fun m => (T, m) else none

end Ptl.Deduce

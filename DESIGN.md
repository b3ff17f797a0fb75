# Formal model of MFHava/PTL in Lean 4

PTL is a header-only C++17 library: owning containers (`vector`, `string`, `optional`,
`variant`, `array`, `bitset`, `tuple`) and non-owning references (`array_ref`, `string_ref`,
`optional_ref`, `variant_ref`, `function_ref`).  There is no concurrency, I/O (other than stream
operators) or persistence; what a user relies on is value semantics over arbitrary histories, object
lifetime, exception safety, aliasing safety, and integer/bit arithmetic at the boundaries.

## 1. How the code is modelled

* **Outcome monad** (`Verif/Basic.lean`).  A C++ call is a function `state → Out`, with the outcomes
  `ok value state`, `exc exception state` (the state survives), `ub fault` (undefined behaviour or a
  lifetime violation – *a distinct outcome, never assumed away*), and `term` (`std::terminate`:
  an exception leaving a `noexcept` function).
* **Memory** (`Verif/Heap.lean`).  Heap blocks are lists of slots; a slot is `none` (raw /
  indeterminate) or `some v` (live object/initialised byte).  Reading raw memory, constructing over a
  live object, destroying a raw slot, out-of-range access, use after free, double free and freeing a
  block that still contains live elements are all `ub`.  Named C++ objects and unnamed temporaries live in
  an object table; temporaries are destroyed on normal *and* exceptional scope exit (RAII).
* **Deallocation functions.**  Each allocation stores its own function pointer, named by the block it was stored for;
  releasing a block through another pointer is `ub wrongDealloc`.  This is finer than reality (all allocations made by one
  module share a function), so what is proved holds for every assignment of allocations to modules.
* **Failure oracle**.  Every allocation and every potentially throwing element construction consults
  `orc tick`, with `tick` advanced each time.  Theorems quantify over all oracles: "every crash point".
* **Integers**.  `std::size_t` arithmetic that can wrap is done modulo `2^64` (64-bit platform:
  `sizeof(void*) = 8`).
* **Element types** are arbitrary: a type `α`, plus arbitrary functions giving the value left behind in a
  moved-from object (`moved`) and after a self-move-assignment (`selfMove`).
* **Standard-library algorithms** that PTL calls are modelled by the loops/effects the standard
  prescribes (`uninitialized_copy` with roll-back on exception, `rotate`, `move`, `copy`,
  `copy_backward`, `destroy_n`, `lexicographical_compare`, …).  They are part of the trusted base.
* **Check of the model** (`Verif/Tests`).  The repository's own unit tests, transcribed as programs over the model and run by the
  kernel: each runs to its end with every `REQUIRE` met.  On the assumption that the code passes its tests (it was not run) this
  shows that model and code agree on them.  What is not transcribed is listed in `Tests/Basic.lean` and `Tests/Static.lean`.

## 2. Trusted base

* Lean 4.33.0's kernel; the theorems depend at most on the axioms `propext`, `Classical.choice`,
  `Quot.sound` (see `Verif/Audit.lean`, which prints them for every claimed theorem).  No axioms of our own, no `sorry`, no
  `native_decide`/`bv_decide`.
* Our reading of the C++ source (each definition cites file and lines) and of the C++17 standard
  (overload resolution, evaluation order, library algorithms, `std::calloc`, `new[]`).
* Element operations do not re-enter the container they are called from.

## 3. Not modelled

Object layout/ABI (packing, alignment, `sizeof`) other than in `Verif/Layout`, `constexpr`-ness other than in `Verif/Constexpr`, template instantiation errors and
overload resolution other than in `Verif/Overload`, `noexcept` deduction, iterator tag dispatch (each overload is a separate function of the model),
running time (except where a cost is counted explicitly), locale/stream buffers beyond the character
sequence and the stream-state flags, real memory exhaustion other than through the oracle.

## 4. Plan per property

(the table is kept up to date; findings are in section 5)

| Id | What is modelled, and how it is proved |
|----|------|
| C01 | `Verif/Vector`: full heap-level model of `storage_t` and every public member; refinement to `Id → Option (List α)`; induction over op lists |
| C02 | same model: `ub` never occurs, well-formedness (every live block owned by exactly one vector, slots live exactly below `size`) is inductive |
| C03 | exceptional post-condition of each operation: object table and contents unchanged |
| C04 | arguments are symbolic references into blocks, read at the moment the C++ code reads them |
| C05 | part of the inductive invariant |
| C06 | operation lemmas for the in-place branch: same block id, same capacity, no oracle consultation for allocation |
| C07 | wrap-around arithmetic; full property refuted by witness, `_partial` for `size + n < 2^64` |
| C08 | ghost counter of relocated elements; potential-function induction |
| C09 | element-wise `std::move` loop with `selfMove`; refuted for empty ranges, proved for non-empty ranges |
| C10 | refuted for `resize` (always reallocates, may shrink capacity); proved for the other operations |
| C11 | operation lemma; `term` outcome when the allocation inside the `noexcept` function fails |
| C12 | operation lemmas + frame property of the refinement |
| C13 | `lexicographical_compare`/`equal` loops; order laws by induction |
| C14 | push_back loop equals single allocation on contents |
| C15–C24, C28, C61 | `Verif/Str`: byte-level model with the union (active member tracked), heap blocks and aliasing pointers; refinement to byte lists |
| C18 | iterators may throw: full property refuted (terminator overwritten), `_partial` for non-throwing iterators |
| C20 | wrap-around; refuted by witness, `_partial` for small counts |
| C25 | comparison via `string_view` = `memcmp` + length; `std::hash<string_view>` is an arbitrary function of the bytes |
| C26 | ghost counter of copied bytes; refuted (growth is additive), exact quadratic cost proved |
| C27 | literal as byte list followed by NUL; refuted for embedded NUL, `_partial` without |
| C29–C36 | `Verif/Bitset`: list of bytes with the code's loops; refinement to `Nat → Bool`; istream modelled as characters + state bits; C36 refuted at end of input |
| C37 | the overload chosen by `self[index]` is the non-const one, i.e. the conversion calls itself: evaluation with any fuel does not return (refuted) |
| C38 | refuted for equal indices in different bitsets; `_partial` otherwise (with a terminating read) |
| C39–C44 | `Verif/Variant`: recursive union storage, tag, destroy/construct steps, failure oracle |
| C45 | `determine_index` etc. as functions on lists of types with 8-bit arithmetic |
| C46–C50 | `Verif/Optional`: slot + flag, object table with several optionals, failure oracle |
| C51 | `Verif/OptRef`: referenced objects and optionals as object table, references as names; histories of writes and rebinds through every handle |
| C52 | `Verif/VarRef`: overload/SFINAE decision table as functions on alternative lists, pointer storage; histories over an object table |
| C53, C54 | `Verif/View`: memory of blocks, pointers as block + offset (arithmetic outside the block is `ub`), views as pointer pairs; refinement to slices |
| C55 | `Verif/Arr`: arrays as blocks of `Size` elements over the same pointers and iterators, failure oracle for element operations, histories; `std::fill`, `std::swap_ranges`, `std::equal`, `std::lexicographical_compare` as their loops.  `swap` of an array with itself is modelled by the loop (the standard's non-overlap precondition of `swap_ranges` is not; `std::array` is the same) |
| C56 | `Verif/Iter`: iterators as pointers, arithmetic outside the array is `ub`; laws for every array, then the containers' histories |
| C57 | `Verif/Tuple`: tuples as lists of elements of different types with the recursive `get`, `set`, `swap`, comparisons; failure oracle, histories |
| C58 | `Verif/Fun`: callables with arbitrary behaviour on the world, a call log, function_refs as union + dispatch; histories |
| C59 | the overload called by `functor<T>`; refuted, `_partial` for const functors and for classes that do not distinguish |
| C68 | references as results: the `auto` return type of `invoke_r` decays them; refuted, `_partial` for other result types |
| C60 | element access on the vector model |
| C63 | values of `T{x}` are a parameter of the variant model; refuted for greedy `initializer_list` constructors, `_partial` otherwise |
| C64, C65 | aliasing by reference into, and containment in, the held value (`St.part`); refuted, `_partial` without |
| C66, C67 | `holds`/`visit` of the variant model; refuted, `_partial` |
| C62 | insertion of single characters through a stream with a field width; refuted for widths above 1 |
| C69 | `Verif/Union`: the active member of every nested union, calls of member functions of members outside their lifetime are `ub`; refuted, `_partial` for the first alternative |
| C70–C73 | `Verif/Layout`: sizes, alignments and offsets by the usual rules and by those for `#pragma pack(1)`; C70, C71, C73 refuted, `_partial` |
| C74, C75 | `Verif/Overload`: reference binding, ranking of bindings and templates as functions; the constraints over an arbitrary conversion relation; refuted, `_partial` |
| C76 | `Verif/Vector/Props/Brace.lean`: vector model with an element type whose `T{x}` is an arbitrary function of `x`; refuted, `_partial` via C01 |
| C77 | `Verif/Compare`: element operators that may throw; spec by positions (`LexThrows`, `LexLess`); the operators decide exactly if nothing needed throws, and otherwise terminate; refuted, `_partial` |
| C78 | `Verif/Overload/Emplace.lean`: the set of constructions instantiated by a call, over an arbitrary relation "`T{args}` compiles"; refuted, `_partial`, `_exact` |
| C79 | `Verif/Overload/Visit.lean`: what is passed to visitors, overload resolution among them, rules for base classes; refuted for lvalue visitors, `_partial` |
| C80 | `Verif/Progress.lean`: the exceptional outcomes of the step theorems of all models, with a failure oracle that never fails; refuted near `max_size()`, `_partial`, `_exact` |
| C81 | `Verif/Layout/Vector.lean`: blocks of the vector model at arbitrary addresses that meet the contract of `calloc`; refuted for over-aligned types, `_partial` |
| C82 | `Verif/Cost.lean` (a logic for upper bounds on counters), `Vector/Cost.lean`, `Str/Cost.lean` (every function of the two models), `Vector/Props/Cost.lean`, `Str/Props/Cost.lean`: the counters `nblk` (blocks) and `tick - nblk` (steps that may fail other than allocations: copies, value constructions, dereferences) of the heap models; for input iterators the capacity is followed element by element (`pushAll_costs`) |
| C83 | `Verif/Overload/Best.lean` (overload resolution with several arguments), `Verif/Iter/Mixed.lean`: which friend is called for operands of the two iterator types, then its body; refuted for vector and string, `_partial`, `_exact` |
| C84 | `Verif/Overload/Text.lean`: candidates and conversions for `==` … `>=`, `+`, `+=`, `=` over five kinds of strings; the chosen function is run in the string (`Str`) and reference (`View`) models; refuted for string_ref with std types, `_partial`, `_exact` |
| C85 | `Verif/Overload/Braces.lean`: candidates for `x = {}`; the chosen operator is run in the optional, variant, vector and string models; refuted for most optionals, `_partial`, `_exact` |
| C86 | `Verif/Constexpr/Basic.lean`, `Classes.lean`: call graph of the functions declared `constexpr`, followed down to the standard library; for bitset tied to calls of reachable states; refuted for most, `_partial`, `_exact` |
| C87 | `Verif/Str/Props/Terminator.lean`: the four range members with a range through the null terminator; `_partial` (other strings, reallocation), `_exact` and `_refuted` (own bytes, in place) |
| C88 | `Verif/Vector/Props/Modules.lean`, `Verif/Str/Props/Modules.lean`: the stored deallocation function is the one of the buffer (`Reach` invariant), no call releases a buffer through another one |
| C89 | `Verif/Terminate`: the outcome `term` along all histories of vector, string, optional, variant; `_partial`, and `_refuted`/`_exact` for the `noexcept` members that allocate or run `T{std::move(x)}` |
| C90 | `Verif/Str/Props/Buffer`: `data()` and `capacity()` across every editing call whose demand (`Fits`) is met; `_exact` capacity where it is not; new strings have the smallest capacity |
| C91 | `Verif/Optional/Props/Mixed`: overload resolution among the operators, the conversion to `Type` before the call; `_exact` on both sides |
| C92 | `Verif/Vector/Props/References`: `Keeps` is the rule of the standard for one call, `Follows` the histories that obey it; proved by combining C06, C12 and the frame; `C92_dangles` for references into buffers that are gone |
| C93 | `Verif/Frame` (a program run in two related states), `Verif/{Vector,Str,Optional,Variant,Bitset}/Props/Frame`, `Verif/{Arr,Tuple}/Frame`: `only S s` is the memory without the objects not in `S`; every function of the model is shown to behave alike there, and `step` rules out that it becomes undefined. A write to a read-only source that does not change it is not excluded |
| C94, C95 | `Verif/Traits`: `Class` is a class declaration (bases, members and their access, declared special members), `Class.traits` the rules of the language for implicit members, exception specifications and standard layout; the library's classes are written down as such declarations and `Ty` is the closure under all class templates; `Compiles` are the static assertions. The specification (`FitsVector`, …) looks at the shape of the type only |
| C96, C97 | `Verif/Refs`: what `data()`, `size()`, `value_type`, `*x` and the test for a value are for a type and its const objects; overload resolution between the constructors and between the deduction guides, with the three outcomes compiles, rejected, error. The specification (`Access`, `Wanted`) knows no constructors; `Lang` is the given class hierarchy |
| C98 | `Verif/Fun/Chain.lean`: function_refs by address, with their signature and what they store: a callable or the address of a function_ref; `call` follows the addresses. The specification passes callables on |
| C99 | `Verif/Traits/Recursive.lean`: programs as lists of classes; `usable` says when a template can be instantiated, `Contains` and `Elements` what is inside or owned by an object |
| C100 | `Verif/Iter/Tags.lean`: categories with their base classes and the two constraints |
| C101 | `Verif/Sizes.lean`: on the models of the classes |
| C102 | `Verif/Traits/Numbers.lean`: what a number is converted to, for nested types, by copy initialisation and in braces; assignment to vectors on the model of `Verif/Vector` |
| C103 | `Verif/Overload/Bindings.lean`: structured bindings of tuples and arrays, from `get` (overload resolution), `tuple_element`, `tuple_size` and the constructor chosen for a copy (`Verif/Overload/Props.lean`) |
| C104 | `Verif/Nested/`: the special member functions and `swap` of the class templates, parametric in those of their parts (`Model.lean`, `Vec.lean`); each template keeps the rules `Regular` if its parts do (`Closure.lean`, `VecProps.lean`), strings and bitsets do (`Leaves.lean`, from C15–C21 and C29), hence all nested types `Ty` do (`Types.lean`).  Arrays and tuples have at least one element.  Not modelled here: misaligned parts in packed containers (C70), classes for which braces choose another constructor (C63, C74); `std::rotate` is any sequence of swaps that rotates.  The models of the single containers assume that the value of a moved-from or half-assigned element is a function of the values (`moved`, `torn`); the rules here only say that it has some value, so nested types are covered without that assumption (to use the other theorems for such elements, read their values as `Option β`, with `none` for valid but unspecified) |
| C105 | `Verif/Access/Const.lean`: the declarations of all access functions (qualifiers, return types), overload resolution between them, and a relation `Step` for everything further access can be had with; the theorems are about `Reach`, chains of any length. No `const_cast`; what elements that are pointers or reference objects refer to is not an element |
| C106 | `Verif/Deduce`: the deduction guides, written and implicit, of each template for given arguments, overload resolution between them (conversions, partial ordering, written guides, copy deduction candidate), then the constraints and static assertions of the class deduced. `vector v(n, x)` and `vector v(first, last)` are not covered |
| C107 | `Verif/Text/Stream.lean`: `operator<<` of `string` and `string_ref` through their conversion to `std::string_view`; the stream's own insertion of a view is a rule of the standard library. The sink accepts every character |
| C108 | `Verif/Includes.lean`: the names each header uses, the standard headers it includes, the names these declare by C++17; implementations are arbitrary tables that contain at least these. (Which implementations declare more was not looked into) |
| C109 | `Verif/Reads/`: `ReadOnly` (the state afterwards is the state before, from any state) for each const function; `inTurn` runs the calls of several threads in some order. Calls are steps: that a const function does not write a value back that was there before cannot be told in this model |
| C110 | `Verif/Algo.lean`: `Algo`, an interaction tree of reads and move-assignments, with its meaning on lists; `runAlgo` on the memory of the vector and string models. For `array` and `array_ref`, `runAlgo` goes through the iterator model: `begin()`, then `first[k]`. The call `put` (move-assignment to an element by client code) is part of vector histories, so every other property of vectors holds after algorithms as well |
| C111 | `Verif/Threads/`: `Runs`, executions in which the calls of several threads are mixed, each thread keeping to the variables it may use; `Alone`, executions of one thread; one argument for all classes from four facts about single calls (`Class.Separate`), which the frame theorems of C93 provide. A call is one step: two calls at the same time touch no memory that either of them writes (C93, C109), so that they can be put one after the other; that step from data-race freedom to interleaving is the memory model of C++ and is not formalised (the headers have no static data but constants, so there is nothing else that calls could share). `bitset` without streams, because all bitsets of the model share one stream of either kind |
| C112 | `Verif/Vector/Props/Inserters.lean`, `Verif/Str/Props/Inserters.lean`: the two insert iterators of the standard library as loops over calls of the model; `Delivers`, what a sequence of assigned objects gives and what moving them does to other vectors; induction over the assignments with C01/C15 for each call, C06/C90 for reserved capacity |
| C113 | `Verif/Vector/Props/Ways.lean`, `Verif/Str/Props/Ways.lean`: `Ways`, the table of pairs of sequences of calls; each entry is shown to mean the same in the specification of C01/C15, so with C01/C15 for each call the two programs agree on the contents and on the results; for strings only calls that do not move from a string, because what those leave behind depends on the capacity (C21) |
| C114 | `St.born` counts the objects that have come into existence in each optional. For all primitives but the destruction of the value, (objects created) − (objects there) is constant; calls that destroy do so last. For variants, the objects that are part of the value (`St.part`) show whether it has been destroyed |
| C115 | Client programs `Prog` (`Verif/Client.lean`) are trees: what is done next is a function of everything seen so far. By induction over the program, two states with the same contents `V` stay so, as `Spec` determines the next contents and the position returned from `V` alone (C01, C15). For strings, `Spec` depends on `big` (on the heap or not) for moves only |
| C116 | Potential: twice the size minus the capacity is what has been saved up for the next relocation (`Mixed.saved`); a call that inserts n elements pays at most 3n, as `insert_impl` at least doubles the size (C08). A single-pass range is collected in a temporary vector first, which pays another 3n (`pushAll_moves`, `insertInput_moves`). `resize_impl` always takes a new buffer of the exact size: the sum of 0, 1, …, n−1 relocations |
| C117 | `Frm (Capped B)`: each part of a call keeps all capacities within a bound B, if it asks for no more than that (`caps_*`); what each call asks for follows from the size of the vector before and after it (`caps_step`); single-pass ranges by induction over the elements (`pushAll_caps`). Strings: what each call leaves as capacity is part of what was shown of it (`Runs`, `RunsS`, `MakesP`), so that only the bound needs to be carried through the cases (`Str.caps_step`) |

## 5. Findings

Properties the code does not have.  Each is stated and proved as a `*_refuted` theorem with a concrete witness; the
`*_partial` theorem beside it says what does hold.

| Id | Where | What happens |
|----|------|------|
| C07 | `vector::insert(pos,n,v)`, `assign(n,v)` | `size() + n` wraps for `n` near `2^64`; the call writes past its buffer |
| C09 | `vector::erase(it, it)` | an empty range self-move-assigns every element behind it |
| C10 | `vector::resize` | a growing resize always reallocates, even with spare capacity, and may reduce `capacity()` |
| C16, C18 | `string` append/insert/replace/assign from forward iterators | an iterator that throws midway leaves the string modified and without terminator |
| C20 | `string::append(n,c)` and others | `size() + n` wraps; out-of-bounds write |
| C26 | `string::push_back` | growth is by a constant, so a sequence of `push_back`s copies quadratically many bytes |
| C27 | `operator""_s`, `operator""_sr` | ignores the length: a literal with an embedded NUL is cut off |
| C35 | `bitset<0>` extraction | consumes whitespace, or sets `failbit` at the end of the input |
| C36 | `bitset` extraction | input ending after fewer than `Size` digits: digits are stored, but `failbit` is set |
| C37 | `bitset::reference::operator bool` | calls itself: `if(b[i])` on a non-const bitset never returns |
| C38 | `bitset::reference::swap` | no effect for equal indices in different bitsets |
| C62 | `bitset` insertion | with a field width, only the first digit is padded |
| C63 | `variant`, `optional`: all constructions use braces | for a type with a greedy `initializer_list` constructor a copy holds a list containing the original; `emplace` asks `is_nothrow_constructible` about `T(args)` and runs `T{args}`: if that throws, the variant is left without a value and is destroyed twice |
| C64 | `variant::emplace` | with a non-throwing constructor, an argument referring to the held value is read after its destruction |
| C65 | `variant::operator=(const variant &)` | `type = other.type` is read after the held value, and `other` with it, was destroyed |
| C66 | `variant::holds<const T>()` | compiles, always `false` |
| C67 | `variant::visit`, `variant_ref::visit` | results are converted to the visitor's result type for the first alternative |
| C59 | `function_ref<R(A...) const>` | bound to a non-const functor it calls the non-const overload (`functor<T>`, not `functor<const T>`); with `const noexcept` a throwing non-const overload terminates although the constraint only looked at the const one |
| C68 | `function_ref<const T &(A...)>`, `function_ref<T &&(A...)>` | `invoke_r` returns `auto`, so every result is a dangling reference; `function_ref<T &(A...)>` does not compile |
| C69 | `variant`, `variant_ref` storage | member functions of the nested `next` are called although its lifetime never begins: undefined for every alternative but the first (compilers only care in constant expressions) |
| C70 | `variant`, `optional`, `tuple`: `#pragma pack(1)` | `alignof` is 1: values are misaligned in arrays of such objects, and in `tuple<int, char>` everywhere |
| C71 | `variant`: `static_assert(sizeof(storage_t) == max_sizeof)` | lists like `int`, `array<char, 5>` do not compile, because the storage is padded |
| C73 | `array_ref<Base>` from ranges of `Derived` | accepted; elements are read with the wrong stride |
| C74 | `tuple<T>` copied from a non-const lvalue; `tuple<T>`, `array` from const rvalues | the forwarding constructor is chosen; does not compile, or constructs the element from the container |
| C75 | `array(Args &&...)` | the constraint is `is_convertible<Type, Args>`, i.e. reversed: non-const lvalues and `array<string, 1>{"a"}` are rejected |
| C76 | `vector::push_back`, `emplace`, `insert(pos, T &&)`, `tuple` | construct elements with braces: for a type with a greedy `initializer_list` constructor the stored element is a list containing the value |
| C77 | all comparison operators of vector, array, tuple, optional, variant | unconditionally `noexcept`: an element comparison that throws terminates the program |
| C78 | `variant::emplace<T>(args...)` | if `T`'s constructor does not throw, `U{args...}` must compile for every alternative `U`: `variant<int, string>` has no `emplace<string>(std::move(s))` |
| C79 | `visit` with several visitors | visitors become base classes as deduced: lvalues (named lambdas) and function pointers do not compile |
| C80 | `vector::insert_impl`, `string::reserve` | a full vector with more than `max_size() / 2` elements cannot grow by one (`length_error`); `string::reserve(max_size())` always throws, because the capacity is rounded up |
| C81 | `vector`: `std::calloc` | elements of over-aligned types are misaligned |
| C83 | iterators of `vector` and `string` | both directions of the conversion between `iterator` and `const_iterator` exist, one of them private: `it == cit`, `it < cit`, `cit - it` are ambiguous |
| C84 | `string_ref` comparisons | with `std::string_view` ambiguous (each converts to the other); with `std::string` there is no candidate |
| C85 | `optional<int>`: `o = {}` | stores `0` instead of emptying it (`std::optional` rules this out); for classes with a default constructor it is ambiguous |
| C86 | `constexpr bool b = bits.any();` and other functions of `bitset`, `array` comparison, any `optional`, `variant`, `tuple`, `variant_ref` | declared `constexpr`, but call functions that C++17 does not allow in constant expressions |
| C87 | `s.append(std::string_view{s.c_str(), s.size() + 1})` with room for the result; the same for assign, insert, replace | the null terminator is overwritten by the first byte before it is read: `abc` becomes `abcabca`, not `abcabc\0` |
| C89 | `shrink_to_fit` of a vector and the literal operator `_s` are `noexcept` but allocate; moving an optional or variant runs `T{std::move(x)}`, which can be a throwing constructor from `std::initializer_list` although `T` is nothrow move constructible | `std::terminate` when memory is short |
| C90 | `assign` and `replace` with a range, and copy assignment, work in place only if old and new characters fit together; otherwise they take a new buffer of the smallest size | a capacity obtained by `reserve` is lost although the result would have fitted, iterators are invalidated, `bad_alloc` is possible |
| C91 | the operators that compare an optional with a value take a `const Type &`, so the value is converted first | `ptl::optional<int>{7} == 7.5` is true (false for `std::optional`), `< 7.5` is false; `optional<bool>{true} == 2` is true |
| C92 | `vector::resize` to a larger size reallocates although the capacity suffices | `v.reserve(100); auto & r{v[0]}; v.resize(20);` – using `r` is undefined (valid for `std::vector`) |
| C94 | `vector<tuple<int, int>>`, `optional<tuple<…>>`, `tuple<tuple<…>, …>`, … do not compile | `tuple` stores its components in a chain of base classes, so it does not have standard layout |
| C94 | `optional<variant_ref<…>>`, `vector<variant_ref<…>>`, … do not compile | the copy operations of `variant_ref` are not `noexcept`, move operations are not declared |
| C94 | `vector<function_ref<…>>`, `array<function_ref<…>, n>` do not compile | `function_ref` has no default constructor |
| C94 | `variant<T, optional<T>>` does not compile for any `T` with alignment above 1 | `optional` is packed, so its size is one more than that of `T`, and a union of the two has padding, which the assertion on the size of the storage forbids |
| C95 | `std::is_default_constructible_v<tuple<int>>` is `true`, `tuple<int> t;` does not compile | hence `vector<tuple<int>>` compiles, but not `v.resize(n)` |
| C96 | `array_ref<const T>` from a container whose `size()` is signed (`QVector`) or missing | `std::is_constructible_v` is `true`, the constructor does not compile |
| C96 | `array_ref<T>(p, 0)` | ambiguous; with another literal it compiles |
| C96 | `optional_ref<const T>` from an `optional_ref<T>` (or optional, or pointer) returned by a function | does not compile |
| C96 | `optional_ref<const Node>` from a `Node` whose `operator*` gives a `Node`; `optional_ref<Base>` from a `Derived` whose `operator*` gives a `Base` | refers to `*node`, not to `node`; without the `const` it refers to `node` |
| C96 | `optional_ref<const double>` from an `int`, and the like | refers to a temporary object |
| C96 | `optional_ref<T>` where `*t` compiles and is no lvalue | fails in a static assertion, for every source of that type |
| C97 | `array_ref r{x}` where `x` is a variable of type `string_ref`, `std::string_view` or `std::initializer_list` | does not compile; it does if `x` is const |
| C97 | `optional_ref r{f()}` where `f` returns an optional or a pointer; `optional_ref r{it}` where `it` is an iterator | a type is deduced that cannot be constructed |
| C97 | `array_ref` and `optional_ref` deduced from const views and const pointers | the elements become const |
| C98 | `function_ref<void()> g{f}` where `f` is a `function_ref<void() noexcept>` | `g` refers to `f`, not to its callable: it changes with `f`, and dangles after `f`, even if the function is still there |
| C98 | `f = function_ref<…>{g}` afterwards | calls recurse without end |
| C99 | `struct Node { vector<Node> children; };`, `struct Json { variant<int, vector<Json>> value; };` | do not compile, unlike with `std::vector` |
| C100 | iterators whose category is derived from `std::input_iterator_tag` | not accepted |
| C102 | `v = 5`, `v == 5`, `f(5)`, `vv.push_back(5)` with vectors (and vectors of vectors) | compile: the constructor from a number of elements is not `explicit`; a vector of five default-constructed elements takes the place of the number |
| C102 | `array<int, 3> a = 5`, `a = 5` | compile: `{5, 0, 0}` |
| C103 | `auto [a] = t;` for a one-element tuple that is a non-const lvalue | does not compile: the forwarding constructor is a better match than the copy constructor; if the element can be made from the tuple, `a` is not its element but one made from the tuple |
| C103 | `auto [a, b] = std::move(constArray);` | does not compile: the forwarding constructor is chosen for const rvalues |
| C105 | `begin`, `end`, `rbegin`, `rend` of a const `array_ref<T>` | give iterators for `const T`; `data`, `front`, `back`, `[]`, `at` give `T`, and so do the iterators of a copy (`for(auto & x : constRef)` cannot change what `constRef[i]` can; in `std::span` it can) |
| C106 | `int x; array a{x};`, `array a{"abc", "de"};` | do not compile: the constraint asks whether the element type converts to `int &`, or to an array of characters (`std::array` takes both) |
| C106 | `optional o{"abc"};`, `const X f(); optional o{f()};` | do not compile: `optional` has no deduction guide, so that the element type is deduced to be `char[4]`, or `const X` (`std::optional` has one, and takes both) |
| C108 | `#include <ptl/function_ref.hpp>` | uses `std::invoke` (<functional>) and `std::addressof` (<memory>) but includes <utility> and <type_traits> only |
| C108 | `#include <ptl/tuple.hpp>` | uses `std::forward`, `std::move`, `std::swap` and specialises `std::tuple_size`, `std::tuple_element` (<utility>) but includes <type_traits> only |
| C108 | the other headers | likewise: `std::calloc`, `std::bad_alloc`, `std::exchange` in vector.hpp, `std::equal_to` in variant.hpp, `std::terminate` in variant_ref.hpp, `std::out_of_range` and `std::hash` in bitset.hpp, `std::enable_if_t` in string.hpp, `std::reverse_iterator` in string_ref.hpp, `std::forward` in array.hpp, `std::destroy_at` in optional.hpp, `std::addressof` in optional_ref.hpp (`C108_names_refuted` has all) |
| C114 | `variant<int, node> v{node{}}; auto & r = v.get<node>(); v = node{};` | `r` dangles, and so does every reference to a part of the node: the variant destroys the node it holds and constructs another one, where `std::variant` assigns (variant.hpp:223-246, 252-264) |
| C115 | `string a{"abc"}; auto b = std::move(a);`, with and without `a.reserve(100)` in between | `a` is still "abc" without `reserve`, and empty with it: two equal strings are different after the same move (string.hpp:48-51 `move_heap`, 66-78 move constructor and assignment of `storage_t`) |
| C116 | `while(more()) v.resize(v.size() + 1);` | every call allocates and relocates all elements, even if there is spare capacity: n(n−1)/2 relocations for n elements (vector.hpp:222-233 `resize_impl`) |
| C52 | `variant_ref` copy construction and assignment | go through the referenced object (`visit`), so copying a `variant_ref` whose object is gone is undefined even if the copy is never used (`C52_copy_dangling`; not part of the property, recorded for users) |
| – | test/variant_ref.cpp:36-55, the test case "variant_ref visit" | is undefined: `var{10}`, `var = 1.5` and `var = 1` refer to temporary objects, which are gone when `visit` reads them (`Tests.VarRef.variant_ref_visit_undefined`) |

## 6. Wrong programs

`seeded/LOG.jsonl` lists edits of the model that were tried in a scratch copy, one per line.  How to read it:

- `theorems_failed` are the theorems without a checked proof after the edit.  Most of them use a lemma whose proof
  script stopped working (`broke_at`, where recorded), so the list is an upper bound: it does not say that each of
  these statements is false of the edited program.
- `tightened` in lines 485 to 528 was measured: the same edits were also run on the statements as they were in commit
  c9e44ec.  A theorem is listed if its proof survived the edit there, fails now, and its present statement is false of the
  edited model.  The other restatements of that round (frames in C24 and C53, `Agrees` in the `_call` theorems, C37, C48,
  C80, C52_const_object) came from reading the statements; no edit tried so far separates old from new for them.
- `standalone_failed`: theorems proved by running the model.  Their files are not reached when an earlier module breaks, so
  they were also checked on their own against the edited model; the proof script fails there and works on the unedited one.

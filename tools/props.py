#!/usr/bin/env python3
"""Source of /verif/properties.jsonl (one tuple per property)."""
import json, os
P = []
def p(title, statement, quantifier, why, anchors):
    P.append(dict(id="C%02d" % (len(P)+1), title=title, statement=statement,
                  quantifier=quantifier, why_tests_cant=why, anchors=anchors))
V="inc/ptl/vector.hpp"; S="inc/ptl/string.hpp"; B="inc/ptl/bitset.hpp"; VA="inc/ptl/variant.hpp"; O="inc/ptl/optional.hpp"
A="inc/ptl/array.hpp"; AR="inc/ptl/array_ref.hpp"; SR="inc/ptl/string_ref.hpp"; OR="inc/ptl/optional_ref.hpp"; VR="inc/ptl/variant_ref.hpp"; T="inc/ptl/tuple.hpp"; F="inc/ptl/function_ref.hpp"
def a(f,*s): return [f + ": " + x for x in s]

# ---- vector -------------------------------------------------------------
p("vector behaves like a list under every history",
  "For every sequence of public vector operations (construction, copy, move, assignment, push_back/emplace_back, emplace, insert in all overloads, erase, pop_back, resize, reserve, shrink_to_fit, clear, swap, element writes, destruction) on any number of vectors, each called within its documented precondition, every vector's element sequence after each completed call is exactly the one obtained by the corresponding operation on an ordinary finite list, all other vectors keep their sequence, and positions/references returned by insert, emplace, erase and push_back denote the position the list operation gives.",
  "all element types satisfying vector's static requirements, all histories of operations over any number of vectors, all arguments within preconditions, all allocation/copy failure patterns",
  "Contents depend on the whole history through capacity (in-place rotate vs reallocate); the interleavings of sizes, capacities and positions are unbounded.",
  a(V,"vector::assign_impl","vector::insert_impl","vector::resize_impl","vector::erase","vector::emplace","vector::push_back","vector::pop_back","vector::swap"))
p("vector never touches memory it must not and never leaks",
  "Along every history of vector operations within preconditions, including operations that end in an exception, every element object is constructed in raw storage exactly once and destroyed exactly once, no destroyed, unconstructed or out-of-range element is read or written, every buffer obtained is released exactly once and only after its elements were destroyed, and after all vectors are destroyed no buffer is left.",
  "all histories, all failure points of allocation and of element construction",
  "A leak or double destruction shows only on particular combinations of capacity state and failure point; tests sample a few.",
  a(V,"storage_t::storage_t","storage_t::operator=","storage_t::~storage_t","vector::assign_impl","vector::insert_impl","vector::resize_impl"))
p("vector operations give the strong exception guarantee",
  "If any vector operation exits with an exception (length_error, bad_alloc, or an exception thrown by copying/constructing an element), every existing vector has the same contents, capacity and buffer as before the call; a constructor that throws leaves no vector behind.",
  "all operations, all states, all points at which an allocation or an element construction can throw",
  "Each element copy and each allocation is a separate crash point; the number of crash points grows with the size of the arguments.",
  a(V,"vector::assign_impl","vector::insert_impl","vector::resize_impl","vector::reserve","vector::insert(InputIterator)","vector::assign(InputIterator)"))
p("vector arguments may alias the vector itself",
  "insert, assign, emplace, push_back and resize give the same result when the value or the forward range passed in refers to elements of the very vector being modified as when it is an independent copy of those values, whether or not the call reallocates; a value passed by rvalue from the vector itself is inserted and its old slot is left moved-from.",
  "all vectors, all positions, all sub-ranges of the vector itself, with and without reallocation",
  "Aliasing bugs appear only for certain relative positions of source, insertion point and capacity.",
  a(V,"vector::assign_impl","vector::insert_impl","vector::resize_impl","vector::emplace"))
p("vector capacity invariant",
  "After every history, size() <= capacity() <= max_size(), and capacity() is either 0 (no buffer) or at least 10.",
  "all histories of operations",
  "The invariant must survive every operation in every order.",
  a(V,"storage_t::storage_t(size_t)","storage_t::set_size","min_capacity","max_capacity"))
p("no reallocation while spare capacity suffices",
  "If size() + n <= capacity(), inserting n elements (insert, emplace, push_back) keeps data() and capacity() unchanged and performs no allocation, so it cannot fail with bad_alloc/length_error, and elements before the insertion point stay where they are; pop_back, erase, clear and a shrinking resize never reallocate.",
  "all states with enough spare capacity, all positions, all n",
  "Pointer/iterator stability is needed at every boundary value of size and capacity.",
  a(V,"vector::insert_impl","vector::erase","vector::pop_back","vector::clear","vector::resize_impl"))
p("vector requests beyond max_size are rejected with length_error",
  "Any call whose resulting size would exceed max_size() throws std::length_error and leaves the vector unchanged, for every count representable in size_type.",
  "all vectors, all counts in [0, 2^64)",
  "The failing region is at the far end of a 64-bit range and cannot be allocated in a test.",
  a(V,"storage_t::storage_t(size_t)","vector::assign_impl","vector::insert_impl","vector::max_size"))
p("push_back is amortised constant",
  "Starting from an empty vector, any number n of push_back calls performs in total at most a linear number (at most 2n) of element relocations, and the number of reallocations grows logarithmically.",
  "all n",
  "An asymptotic bound over all n cannot be established by measuring finitely many n.",
  a(V,"vector::emplace_back","vector::insert_impl"))
p("vector::erase removes exactly the given range",
  "erase(first,last) with begin() <= first <= last <= end() removes exactly the elements in [first,last), keeps the others in order and unmodified, and returns the position of the element after the removed ones; this includes the empty range first == last, where nothing changes.",
  "all vectors, all valid ranges including empty ones, all element types (any behaviour of move-assignment that is allowed for a moved-from/self-moved object)",
  "Element types differ in what self-move-assignment does; tests use int only.",
  a(V,"vector::erase(const_iterator,const_iterator)"))
p("reserve makes later growth up to the reserved size allocation-free",
  "After reserve(n), capacity() >= n and contents are unchanged; as long as size stays <= n, later size-increasing calls (push_back, insert, emplace, resize) neither reallocate nor reduce capacity().",
  "all vectors, all n, all later operation sequences whose sizes stay within n",
  "Quantifies over all later histories.",
  a(V,"vector::reserve","vector::resize_impl","vector::insert_impl"))
p("vector::shrink_to_fit keeps contents and never grows",
  "shrink_to_fit never changes the contents and never increases capacity(); it releases the whole buffer of an empty vector.",
  "all vectors, all size/capacity combinations",
  "All size/capacity ratios around the thresholds 2*size and 10 matter.",
  a(V,"vector::shrink_to_fit"))
p("vector copy, move and swap value semantics",
  "Copying yields an independent vector with equal contents (later changes to one never affect the other); moving transfers the buffer in place and leaves the source empty with capacity 0; swap exchanges contents, capacities and buffers; self-copy-, self-move-assignment and self-swap change nothing.",
  "all pairs of vectors including the same object twice, all later histories",
  "Independence quantifies over all later operations on either object.",
  a(V,"vector::vector(const vector&)","vector::operator=","storage_t::storage_t(storage_t&&)","storage_t::operator=(storage_t&&)","storage_t::swap"))
p("vector comparison operators form a consistent order",
  "== holds exactly for equal sequences; < is lexicographic order; <, <=, >, >=, ==, != are mutually consistent, and if the element order is a strict weak (total) order then so is the vector order.",
  "all triples of vectors, all element orders that are strict weak/total orders",
  "Order laws are universally quantified over triples of sequences of any length.",
  a(V,"operator<","operator>","operator<=","operator>=","operator==","operator!="))
p("range construction is independent of the iterator category",
  "Constructing, assigning or inserting from a single-pass input range gives the same contents as from a forward range with the same values, for every range length.",
  "all sequences of values, all target vectors and positions",
  "The two code paths (push_back loop vs single allocation) differ for every length.",
  a(V,"vector::vector(InputIterator,InputIterator)","vector::assign(InputIterator)","vector::insert(InputIterator)"))
# ---- string -------------------------------------------------------------
p("string behaves like a byte sequence under every history",
  "For every sequence of public string operations (construction, copy, move, assignment, append, insert, replace, erase, push_back, pop_back, resize, reserve, shrink_to_fit, clear, substr, concatenation, swap, element writes, destruction) on any number of strings within preconditions, each string's contents are exactly those of the corresponding operation on a list of bytes, all other strings are unchanged, and returned positions are right.",
  "all histories, all strings on the small-buffer or heap representation, all arguments, all allocation failures",
  "Each operation has several code paths depending on capacity and small-buffer state, combined over unbounded histories.",
  a(S,"string::append","string::assign","string::insert","string::replace","string::erase","string::resize","string::push_back","string::substr","storage_t"))
p("string is always null-terminated",
  "After every history, data()[0..size()] are all initialised and data()[size()] == 0, so c_str() is a valid C string whose first size() bytes are the contents.",
  "all histories of operations including those that threw",
  "Must hold at every point of every history in both representations.",
  a(S,"storage_t::set_size","storage_t::copy_sso","storage_t::shrink_to_fit","string::append","string::reserve","string::c_str"))
p("string small-buffer/heap representation is sound and never leaks",
  "After every history the string is either in its internal buffer with capacity 22 and size <= 22, or on the heap with capacity a multiple of 24 that is at least 48 and at least size; only the union member that is active is ever read, no byte outside the current buffer is accessed, each heap buffer is released exactly once, and none is left when all strings are destroyed.",
  "all histories, all failure points",
  "Union/discriminator confusion needs specific sequences of representation changes.",
  a(S,"storage_t","storage_t::swap","storage_t::operator=(storage_t&&)","storage_t::move_heap","storage_t::shrink_to_fit"))
p("string operations give the strong exception guarantee",
  "If a string operation exits with an exception, all strings have the same contents and representation as before and remain null-terminated; this includes exceptions thrown by the iterators passed to append/assign/insert/replace.",
  "all operations, all states, all allocation failure points and iterator failure points",
  "Each allocation and each iterator dereference is a separate crash point.",
  a(S,"string::append(ForwardIterator,ForwardIterator)","string::insert","string::replace","string::assign","string::reserve"))
p("string arguments may alias the string itself",
  "append, assign, insert and replace with a view into the string being modified behave as if the view had been copied first, with or without reallocation and in both representations.",
  "all strings, all sub-views, all positions",
  "Aliasing bugs appear only for certain relative positions and capacities.",
  a(S,"string::append(std::string_view)","string::assign(std::string_view)","string::insert(const_iterator,std::string_view)","string::replace"))
p("string size requests beyond max_size are rejected",
  "Any call whose resulting size would exceed max_size() throws (length_error or bad_alloc) and leaves the string unchanged, for every count representable in size_type.",
  "all strings, all counts in [0, 2^64)",
  "The failing region is at the far end of the 64-bit range.",
  a(S,"storage_t::storage_t(size_t)","string::string(size_type,char)","string::append_no_aliasing","string::insert_no_aliasing","string::replace_no_aliasing","string::reserve"))
p("string copy, move and swap value semantics",
  "Copies are independent; the target of a move has the source's old value and the source stays a valid string; swap exchanges the values for all four combinations of small-buffer and heap representation; self-assignment, self-move and self-swap change nothing.",
  "all pairs of strings in all representation combinations, including the same object twice",
  "Value level equality must hold for all contents of both strings and all lengths up to and across the small-buffer limit.",
  a(S,"storage_t::storage_t(storage_t&&)","storage_t::operator=(storage_t&&)","storage_t::swap","string::operator="))
p("string::shrink_to_fit moves to the small buffer exactly when possible",
  "shrink_to_fit never changes contents; it releases the heap buffer exactly when size() <= 22 and otherwise leaves capacity and buffer unchanged; it never allocates and never fails.",
  "all strings",
  "Boundary at 22/23 with all contents and heap capacities.",
  a(S,"storage_t::shrink_to_fit"))
p("string::replace substitutes exactly the given range",
  "replace(first,last,x) for valid first <= last yields prefix + x + suffix for every overload (forward range, input range, initializer list, count/char) and all relative sizes of the removed and inserted parts.",
  "all strings, all valid ranges, all replacement lengths",
  "There are four code paths (grow/shrink, in-place/reallocate) with unbounded parameters.",
  a(S,"string::replace","string::replace_no_aliasing"))
p("string::substr",
  "substr(offset) and substr(offset,count) within bounds return exactly that slice for both the copying (lvalue) and the consuming (rvalue) overload.",
  "all strings, all offset/count with offset+count <= size()",
  "Both overloads must agree for all inputs.",
  a(S,"string::substr"))
p("string comparison and hashing agree with the byte sequence",
  "All comparison operators of string (with string or string_view on either side) equal lexicographic comparison of the contents as unsigned bytes, form a total order consistent with ==, and equal strings have equal hashes irrespective of representation.",
  "all triples of strings, all representations",
  "Order laws quantify over triples of sequences of any length.",
  a(S,"operator<","operator==","operator<=","std::hash<ptl::string>"))
p("string::push_back is amortised constant",
  "Any number n of push_back calls on an empty string copies in total at most a linear number of bytes during reallocation.",
  "all n",
  "An asymptotic bound over all n cannot be established by finitely many measurements.",
  a(S,"string::push_back","string::reserve","storage_t::storage_t(size_t)"))
p("string literals denote the whole literal",
  "\"...\"_s and \"...\"_sr denote exactly the characters of the literal, including embedded null characters.",
  "all literals",
  "Literals with embedded nulls form an unbounded family.",
  a(S,"operator\"\"_s") + a(SR,"operator\"\"_sr"))
p("string concatenation",
  "operator+ in all overloads returns the concatenation of its operands and leaves the operands unchanged.",
  "all operands",
  "Unbounded operands crossing the small-buffer limit at any point.",
  a(S,"string::concat","operator+"))
# ---- bitset -------------------------------------------------------------
p("bitset operations act bitwise and keep unused bits clear",
  "For every Size and every history of bitset operations, each bit of the result is given by the obvious bitwise definition (&, |, ^, ~, set, reset, flip, shifts, swap) and the storage bits beyond Size remain zero.",
  "all Size, all bitsets, all histories",
  "Size is a template parameter; byte-boundary cases differ for every residue and length.",
  a(B,"operator&=","operator|=","operator^=","operator~","set","reset","flip","clear_trailing_bits","operator<<=","operator>>="))
p("bitset equality and hash are extensional",
  "Two bitsets of the same Size compare equal iff all Size bits agree, and equal bitsets hash equally.",
  "all Size, all pairs of bitsets reachable by any history",
  "Relies on the unused bits being clear after every history.",
  a(B,"operator==","std::hash<ptl::bitset>"))
p("bitset queries",
  "count() is the number of set bits; all()/any()/none() hold iff every/some/no bit is set, and the conversion to bool (where enabled) iff some bit is, for every Size including 0 and Sizes that are not multiples of 8.",
  "all Size, all bitsets",
  "All Sizes and all 2^Size contents.",
  a(B,"count","all","any","none","operator bool","trailing_bits"))
p("bitset shifts",
  "After b <<= n bit i is old bit i-n (0 if i < n); after b >>= n bit i is old bit i+n (0 beyond Size); for every n including n >= Size.",
  "all Size, all bitsets, all n",
  "Quantifies over Size, content and shift amount.",
  a(B,"operator<<=","operator>>=","operator<<","operator>>"))
p("bitset index checking",
  "test/at/set/reset/flip with index >= Size throw out_of_range and change nothing; with index < Size they affect or read exactly that bit, as do operator[] and get<Index>, for which a valid index is required.",
  "all Size including 0, all indices, all bitsets",
  "All Sizes and indices.",
  a(B,"at","test","operator[]","get","set(size_type,bool)","reset(size_type)","flip(size_type)"))
p("bitset construction from an integer",
  "bitset<Size>(v) has bit i set iff i < Size and bit i of v is set.",
  "all Size, all 64-bit values",
  "2^64 values times all Sizes.",
  a(B,"bitset(size_type)"))
p("bitset stream output/input round-trips",
  "Writing a bitset to a stream and reading it back into a bitset of the same Size yields an equal bitset, leaves the rest of the stream unread and the stream good.",
  "all Size, all bitsets, all following stream contents",
  "Universal over contents and what follows in the stream.",
  a(B,"operator<<(std::ostream&)","operator>>(std::istream&)"))
p("bitset extraction semantics",
  "Extraction reads at most Size characters '0'/'1' after leading whitespace, most significant first, stops before the first other character, succeeds iff at least one digit was read (also when the input ends early), and leaves the bitset unchanged when none was read.",
  "all stream contents, all Size",
  "All inputs, in particular every position at which the input ends.",
  a(B,"operator>>(std::istream&)"))
p("bitset reference reads the referenced bit",
  "For a non-const bitset, b[i] and b.at(i) used as a value (conversion to bool, ~, assignment from another reference) yield bit i.",
  "all Size, all bitsets, all i < Size",
  "Termination and value for all inputs.",
  a(B,"reference::operator bool","reference::operator~","reference::operator=(const reference&)"))
p("bitset reference swap exchanges the two bits",
  "swap(r1, r2) on two bit references exchanges the two referenced bits, also when they belong to different bitsets, and changes nothing else.",
  "all pairs of references into the same or different bitsets",
  "All index pairs and object pairs, in particular equal indices in different bitsets.",
  a(B,"reference::swap"))
# ---- variant ------------------------------------------------------------
p("variant always holds exactly one alternative",
  "After every history of variant operations (construction, copy/move/converting assignment, emplace, swap, visiting), including operations that threw, the variant holds exactly one live value whose type is the one reported by holds(), i.e. it is never valueless, and its contents are those of the obvious tagged-value model.",
  "all lists of alternatives for which T{x} constructs what T(x) does (see C63), all histories, all failure points of alternative construction",
  "Depends on the order destroy/construct/tag-update at every failure point in every history.",
  a(VA,"variant::operator=","variant::emplace","variant::variant","internal_variant::assign","internal_variant::destroy"))
p("variant object lifetimes are balanced",
  "Along every history every alternative object is constructed only in empty storage and destroyed exactly once, with the destructor of its own type, and no inactive alternative is ever accessed.",
  "all histories, all alternatives for which T{x} constructs what T(x) does (see C63), all failure points",
  "A mismatch needs a specific sequence of alternatives and failures.",
  a(VA,"internal_variant::storage_t","internal_variant::destroy","internal_variant::emplace","variant::~variant"))
p("variant strong exception guarantee",
  "If copy assignment, converting assignment or emplace throws because the construction of the new value throws, the variant keeps its previous alternative and value.",
  "all variants with alternatives for which T{x} constructs what T(x) does (see C63), all source values, all failure points",
  "All combinations of old and new alternative.",
  a(VA,"variant::operator=(const variant&)","variant::operator=(T&&)","variant::emplace"))
p("variant accessors agree",
  "Exactly one alternative T satisfies holds<T>(); get_if<T>() is non-null iff holds<T>(); get<T>() returns that value iff holds<T>() and otherwise throws bad_variant_access; visit calls the visitor exactly once, with the held value.",
  "all alternative lists, all variants",
  "All alternative lists and contents.",
  a(VA,"holds","get_if","get","visit","internal_variant::visit"))
p("variant comparison order",
  "Comparisons order first by alternative index and then by value; if each alternative's comparison operators are a consistent total order then so are the variant's six operators.",
  "all alternative lists, all triples of variants",
  "Order laws quantify over triples.",
  a(VA,"operator==","operator!=","operator<","operator<=","operator>","operator>="))
p("variant copy/move/swap value semantics",
  "Copy yields the same alternative and value and leaves the source unchanged; move transfers the value and leaves the source holding a moved-from value of the same alternative; swap exchanges alternatives and values whether or not the alternatives coincide; self-assignment and self-swap change nothing.",
  "all pairs of variants with alternatives for which T{x} constructs what T(x) does (see C63), including the same object twice",
  "All pairs of alternatives and values.",
  a(VA,"variant::variant(const variant&)","variant::variant(variant&&)","variant::swap","variant::operator="))
p("variant alternative index computation",
  "For every list of up to 254 pairwise distinct alternatives, the index computed for an alternative is its position, distinct alternatives get distinct indices, types that are not alternatives get the not-found marker, and a list with a duplicate is rejected.",
  "all type lists of length <= 254, all types",
  "The list is a template parameter; 8-bit index arithmetic must not collide with the marker for any admissible list.",
  a(VA,"internal_variant::determine_index","internal_variant::validate_unique","internal_variant::determine_type","internal_variant::max_sizeof","variant::holds"))
# ---- optional -----------------------------------------------------------
p("optional behaves like a maybe-value under every history",
  "After every history of optional operations on any number of optionals, including operations that threw, each optional is either empty or holds exactly one live value, equal to that of the obvious model; constructions and destructions are balanced.",
  "all element types for which T{x} constructs what T(x) does (see C63), all histories, all failure points",
  "Flag/lifetime mismatches need specific sequences and failure points.",
  a(O,"optional::operator=","optional::reset","optional::emplace","optional::swap","optional::optional"))
p("optional exception safety",
  "If constructing the contained value throws while the optional is empty, the optional stays empty; if emplace throws, the previous state is kept; when assigning to an engaged optional throws, it stays engaged.",
  "all states, all failure points, all element types for which T{x} constructs what T(x) does (see C63)",
  "All combinations of state and failure.",
  a(O,"optional::operator=(const Type&)","optional::emplace","optional::operator=(const optional&)"))
p("optional access",
  "value() returns the contained value iff there is one and throws bad_optional_access otherwise; value_or returns it or the default; has_value/operator bool agree.",
  "all reachable optionals of all element types for which T{x} constructs what T(x) does (see C63)",
  "Universal over states.",
  a(O,"value","value_or","has_value","operator bool"))
p("optional comparison order",
  "The comparisons among optionals, with nullopt and with plain values agree with the order in which the empty optional precedes every value, and are a consistent total order if the element's are.",
  "all triples of reachable optionals/values of all element types for which T{x} constructs what T(x) does (see C63)",
  "Order laws quantify over triples; 30 operator overloads must be mutually consistent.",
  a(O,"operator==","operator<","operator<=","operator>","operator>="))
p("optional swap and move",
  "swap exchanges the states of two optionals in all four combinations of engaged/empty and is a no-op on the same object; moving from an engaged optional leaves it engaged with a moved-from value.",
  "all pairs of optionals of all element types for which T{x} constructs what T(x) does (see C63)",
  "All combinations and values.",
  a(O,"optional::swap","optional::optional(optional&&)","optional::operator=(optional&&)"))
# ---- views, array, tuple, function_ref, iterators -------------------------
p("optional_ref refers to the live value of its source",
  "An optional_ref built from an optional or an object is engaged iff the source has a value, reads and writes through to that very object, and value() throws bad_optional_access iff it is empty.",
  "all sources, all later writes through either handle",
  "Aliasing: must hold for all later writes.",
  a(OR,"optional_ref","value","value_or","operator*"))
p("variant_ref binds the right alternative and rebinds on assignment",
  "Binding a (const) lvalue or an rvalue selects the alternative with exactly that constness if the binding is allowed and otherwise the const alternative, and is rejected if neither exists; a mutable alternative is never bound to an rvalue or const object; copy assignment rebinds and never writes to the referenced object; get/get_if/holds/visit address exactly the bound object.",
  "all alternative lists, all argument type/constness/value category combinations, all later rebinds",
  "Decision table over arbitrary alternative lists.",
  a(VR,"variant_ref::variant_ref(T&&)","variant_ref::operator=","internal_variant_ref::get","internal_variant_ref::visit","determine_index"))
p("array_ref and string_ref sub-ranges denote exact slices",
  "first, last, subrange, substr, remove_prefix and remove_suffix within their preconditions denote exactly the corresponding slice of the referenced sequence, compose (sub-range of a sub-range is a sub-range with added offset), never extend beyond it, and at() throws exactly when the index is out of range.",
  "all referenced sequences, all offsets/counts within preconditions, all compositions",
  "Quantifies over compositions of any depth.",
  a(AR,"first","last","subrange","at","operator[]") + a(SR,"substr","remove_prefix","remove_suffix","at"))
p("string_ref comparison and hash",
  "string_ref comparisons equal lexicographic comparison of the referenced bytes, form a total order, and equal references hash equally regardless of where they point.",
  "all triples of references",
  "Order laws over triples of any length.",
  a(SR,"operator==","operator<","operator>","operator<=","operator>=","std::hash<ptl::string_ref>"))
p("array fill, swap, access and comparison",
  "fill sets every element; swap exchanges element-wise; at(i)/[i]/get<i>/front/back address element i and at throws iff i >= Size; comparisons are the lexicographic order and consistent; also for Size 0.",
  "all Size, all contents",
  "Size is a template parameter.",
  a(A,"fill","swap","at","operator==","operator<","get"))
p("contiguous iterators obey random-access iterator laws",
  "For the iterators of vector, string, array, array_ref and string_ref: (it+n)-n == it, (it+n)-it == n, it[n] is *(it+n), ++/-- are +1/-1 and post-forms return the old value, comparisons agree with the sign of the difference, and begin()/end() (and the reverse pair) traverse exactly the elements in order.",
  "all positions and integer distances within the range",
  "Laws over all positions and distances.",
  a(V,"contiguous_iterator") + a(S,"contiguous_iterator") + a(A,"contiguous_iterator") + a(AR,"contiguous_iterator") + a(SR,"iterator"))
p("tuple access, swap and comparison",
  "get<i> returns the i-th constructor argument and distinct indices address distinct elements; swap exchanges all elements; == is element-wise; < is lexicographic; the six operators are consistent and a strict weak order if the elements' are.",
  "all tuple lengths and contents",
  "Length is a template parameter; laws over triples.",
  a(T,"storage_t::get","storage_t::swap","storage_t::equal","storage_t::less","operator<"))
p("function_ref calls the referenced callable",
  "Calling a function_ref calls the callable it was bound to (function, function pointer or functor object) exactly once with the given arguments and returns its result, state changes of a functor persist in the referenced object, copies refer to the same callable, and rebinding by assignment does not affect the old target.",
  "all callables, all arguments, all call/copy/assign histories",
  "Histories of calls through several references to stateful functors.",
  a(F,"function_ref","internal_function_ref::storage_t","invoker::operator()","invoker::functor"))
p("function_ref respects the const qualifier of its signature",
  "A function_ref with a const-qualified signature only ever invokes the referenced functor as a const object.",
  "all functors, including those overloading operator() on const",
  "Universal over functors; tests use functors with a single operator().",
  a(F,"invoker::const_","invoker::functor","function_ref::function_ref(F&&)"))
p("vector element access",
  "at(i) returns element i iff i < size() and throws out_of_range otherwise without changing anything; operator[], front, back, data()+i and iterators address the same element; writing through one is seen through all others and changes no other element.",
  "all vectors, all indices, all written values",
  "All indices and all later reads.",
  a(V,"operator[]","at","front","back","data"))
p("string element access and string_view conversion",
  "at(i) returns byte i iff i < size() and throws out_of_range otherwise; operator[], front, back and conversion to string_view denote the same bytes; writing one byte changes only that byte.",
  "all strings, all indices",
  "All indices in both representations.",
  a(S,"operator[]","at","front","back","operator std::string_view"))
p("bitset output honours the field width",
  "os << b writes the Size digits most significant first as one field: the digits are padded with the fill character up to the stream's width, i.e. max(width, Size) characters are written and the width is reset.",
  "all Size, all bitsets, all stream widths, fill characters and adjustments",
  "Universal over contents and stream state; tests only stream with the default width.",
  a(B,"operator<<(std::ostream&)"))
# ---- further properties --------------------------------------------------
p("copies equal their source for every alternative type",
  "Copying, moving or assigning a variant or an optional gives one holding the value the source held, for every type that meets the static requirements, including types with a constructor from std::initializer_list; and emplace either succeeds or leaves the variant holding its previous value.",
  "all alternative types meeting the static assertions, all values",
  "Universal over types; tests use types for which T{x} and T(x) are the same.",
  a(VA,"storage_t::set","internal_variant::assign","variant::emplace")+a(O,"optional::optional(const optional&)","optional::swap"))
p("variant emplace from the variant's own value",
  "v.emplace<T>(args...) where an argument refers to (a part of) the value v currently holds gives the same result as with an independent copy of that value.",
  "all variants, all alternatives before and after, all constructors",
  "Aliasing between argument and target; depends on whether the constructor can throw.",
  a(VA,"variant::emplace"))
p("variant copy assignment from inside its own value",
  "Copy assignment gives the target the alternative and value the source had, also if the source variant is stored inside the value the target holds (assigning a tree node one of its own children).",
  "all pairs of variants, including those where one contains the other",
  "Aliasing by containment: needs recursive data structures.",
  a(VA,"variant::operator=(const variant&)"))
p("variant holds ignores const",
  "For every type accepted by holds<T>() the result says whether the held value has type T, ignoring a const qualifier.",
  "all variants, all types accepted",
  "Universal over types.",
  a(VA,"holds","can_store","determine_index"))
p("variant and variant_ref visit return the visitor's result",
  "visit of a variant or variant_ref returns exactly the value the visitor returned for the held (referenced) alternative.",
  "all variants and variant_refs, all visitors, including visitors whose result types differ between alternatives",
  "Universal over visitors.",
  a(VA,"internal_variant::visit")+a(VR,"internal_variant_ref::visit"))
p("function_ref delivers reference results",
  "If the result type of a function_ref is a reference type, the result of a call refers to the object that the bound callable's result refers to.",
  "all function_refs with a reference result type, all callables returning references to objects that outlive the call",
  "A dangling reference often still reads the expected value; no test has a reference result type.",
  a(F,"invoke_r","invoker::functor"))
p("variant storage respects lifetimes",
  "Storing, reading and destroying any alternative of a variant (or the pointer of a variant_ref) uses only members of the nested unions that are within their lifetime.",
  "all alternatives",
  "Undefined behaviour that compilers do not exploit outside constant expressions: no test can observe it.",
  a(VA,"storage_t::storage_t","storage_t::get","storage_t::set","storage_t::destroy")+a(VR,"storage_t::get","storage_t::set"))
p("values in packed containers are aligned",
  "Whenever a variant, optional or tuple is stored at an address that suits its type, the contained values are at addresses that suit theirs.",
  "all element types, all addresses, including elements of arrays of such containers",
  "x86 tolerates misaligned access; failure depends on platform and address.",
  a(VA,"#pragma pack","variant::storage")+a(O,"#pragma pack","optional::val")+a(T,"#pragma pack","storage_t::value"))
p("every list of alternatives gives a variant",
  "variant<Types...> compiles for all lists of at most 254 different types that meet the documented requirements on the alternatives.",
  "all lists of types",
  "Universal over types and platforms.",
  a(VA,"max_sizeof","static_assert(sizeof(storage_t) == max_sizeof)"))
p("the layout is binary stable",
  "Sizes and offsets of the members of variant, optional and tuple depend only on the sizes of the element types, not on the alignment rules of the platform; members do not overlap and lie within the object.",
  "all element types, all pairs of platforms on which the element types have the same sizes",
  "Compares different platforms, for all type lists.",
  a(VA,"variant::storage","variant::type","max_sizeof")+a(O,"optional::val","optional::initialized")+a(T,"storage_t::value"))
p("array_ref denotes the elements of its range",
  "For every range accepted by array_ref's constructor, element i of the array_ref is (the relevant part of) element i of the range.",
  "all ranges accepted, including ranges of derived classes",
  "Universal over element types accepted by the constraint.",
  a(AR,"is_compatible_range","array_ref(ContiguousRange&&)"))
p("construction from an object of the same type copies or moves it",
  "Constructing a tuple or array from an expression of the same type calls the copy constructor, or the move constructor if the expression is a non-const rvalue.",
  "all tuples and arrays, all combinations of value category and constness",
  "Overload resolution; universal over types.",
  a(T,"tuple(Args&&...)")+a(A,"array(Args&&...)"))
p("array accepts exactly the convertible arguments",
  "array<T,N>'s constructor from values takes part in overload resolution exactly if all arguments are convertible to T.",
  "all element types, all argument lists",
  "Universal over types; tests use literals of the element type.",
  a(A,"array(Args&&...)"))
p("containers store the values they are given",
  "After vector::push_back(x) or insert(pos, x), and after constructing a tuple from x, the new element is a copy of x (or was moved from x), for every element type.",
  "all element types, including those with constructors from std::initializer_list; all histories, all positions",
  "Depends on the constructors of the element type: no test has an element type with an initializer_list constructor.",
  a(V,"vector::emplace","vector::push_back","vector::insert")+a(T,"storage_t::storage_t"))
p("exceptions of element comparisons reach the caller",
  "If a comparison of two elements on which the result of a comparison of vectors, arrays, tuples, optionals or variants depends throws, the exception reaches the caller.",
  "all element types, all containers, all comparison operators",
  "No test has an element type whose comparison throws; a test of termination needs a death test.",
  a(V,"operator<","operator>","operator<=","operator>=","operator==","operator!=")+a(A,"operator<","operator==")+a(T,"operator<","operator==","storage_t::less","storage_t::equal")+a(O,"operator<","operator==")+a(VA,"internal_variant::compare","operator<","operator=="))
p("emplace accepts what the alternative accepts",
  "variant::emplace<T>(args...) compiles whenever T is an alternative and T{args...} compiles.",
  "all lists of alternatives, all alternatives, all argument lists",
  "Universal over types; the only test of emplace uses a constructor that may throw.",
  a(VA,"variant::emplace","internal_variant::emplace","storage_t::set"))
p("of several visitors the best one is called",
  "If for every alternative one of the visitors given to visit is the best match for a value of that alternative, const if the variant (or the alternative of the variant_ref) is and an rvalue if the variant is, then the call compiles and calls that visitor.",
  "all lists of alternatives, all lists of visitors, all value categories",
  "Universal over visitors; all tests pass lambda expressions in place.",
  a(VA,"internal_variant::visit","variant::visit","combined_visitor")+a(VR,"variant_ref::visit","combined_visitor"))
p("a call whose result fits succeeds",
  "If no allocation and no operation of the element type fails, every call within its preconditions returns normally, unless a resulting vector or string would be longer than max_size() or more than max_size() is reserved.",
  "all histories, all vectors, strings, optionals, variants, arrays and tuples, all element types",
  "Sizes near max_size() cannot be reached in tests; and no finite number of successful calls shows that none is refused.",
  a(V,"vector::insert_impl","vector::resize_impl","vector::assign_impl","vector::reserve","vector::max_size","storage_t::storage_t")+a(S,"storage_t::storage_t","string::reserve","string::max_size"))
p("vector elements are properly placed in memory",
  "At all times the elements of all vectors are at addresses that suit their type, do not overlap, are adjacent within a vector, and no vector extends over more than PTRDIFF_MAX bytes.",
  "all histories, all element types including over-aligned ones, all behaviours of calloc that meet its contract",
  "The address of a block is up to calloc: a test may be lucky.",
  a(V,"storage_t::storage_t","vector::data","max_capacity"))
p("a call allocates at most once and copies only what it is given",
  "A call on a vector or string allocates memory at most once, and not at all when moving, swapping, erasing, clearing, removing the last element or destroying; a call with n elements from input iterators, whose number it cannot know, allocates at most once more than doubling the capacity (vector) or extending it by 24 bytes (string) from empty to n takes. A call on a vector constructs or copies at most as many elements as it is given or asked to add, and none that it may move; a call on a string dereferences every iterator at most once.",
  "all histories, all element types, all calls, whether they return or throw",
  "Tests observe results, not the number of allocations and copies; and a count in some runs says nothing about others.",
  a(V,"vector::insert_impl","vector::resize_impl","vector::assign_impl","vector::reserve","vector::shrink_to_fit","vector::push_back","vector::emplace","vector::erase","vector::swap","storage_t::storage_t","storage_t::operator=")+a(S,"storage_t::storage_t","string::reserve","string::push_back","string::append","string::assign","string::insert","string::replace","string::substr","string::concat"))
p("iterators and const iterators can be mixed",
  "Comparing or subtracting two iterators of the same container, each an iterator or a const_iterator, compiles and gives the result that belongs to their positions.",
  "all containers with contiguous iterators, all pairs of iterator kinds, all operators, all positions",
  "That an expression compiles for all combinations of types is not tested by evaluating some.",
  a(V,"contiguous_iterator::operator contiguous_iterator<true>","contiguous_iterator::operator contiguous_iterator<false>","operator==","operator<","operator-")+a(S,"contiguous_iterator::operator contiguous_iterator<true>","contiguous_iterator::operator contiguous_iterator<false>","operator==","operator<","operator-")+a(A,"contiguous_iterator::operator contiguous_iterator<true>")+a(AR,"contiguous_iterator::operator contiguous_iterator<true>")+a(SR,"iterator"))
p("all kinds of strings can be combined",
  "Any two strings of which one is a ptl::string or a string_ref, the other also a C string, a std::string_view or a std::string, can be compared by all operators, in either order, with the result for their bytes; a ptl::string can be concatenated with, extended by and assigned from any of them, also parts of itself.",
  "all pairs of string types, all operators, all contents, all histories of ptl::string and string_ref",
  "Overload resolution over all combinations of types; results for all contents.",
  a(S,"operator==","operator<","operator+","string::operator+=","string::operator=","string::concat","string::operator std::string_view","string(string_ref)")+a(SR,"operator==","operator<","string_ref(const char*)","string_ref(std::string_view)","string_ref::operator std::string_view"))
p("assigning {} is like assigning a default-constructed object",
  "For a vector, string, optional or variant x (with default-constructible first alternative), x = {} compiles and leaves x as it would be default-constructed: empty, or with the default value of the first alternative; other objects are unchanged.",
  "all histories, all element types",
  "Overload resolution depends on the element type in a way tests for one type do not show.",
  a(V,"vector::operator=(std::initializer_list)")+a(S,"string::operator=(std::initializer_list)","string::operator=(std::string_view)")+a(O,"optional::operator=(Type&&)","optional::operator=(optional&&)","optional::optional()")+a(VA,"variant::operator=(variant&&)","variant::variant()"))
p("functions declared constexpr can be evaluated at compile time",
  "Every call of a function that the library declares constexpr, made within its preconditions and returning normally, is a constant expression of C++17 if its arguments are (element types with constexpr operations).",
  "all functions declared constexpr, all sizes, all histories",
  "Tests run the functions at run time; for templates the compiler accepts a constexpr that no instantiation can honour without a diagnostic.",
  a(B,"bitset::all","bitset::any","bitset::count","bitset::operator&=","bitset::set","bitset::flip","bitset::swap","operator==(bitset,bitset)")+a(A,"array::fill","array::swap","operator==(array,array)","operator<(array,array)")+a(T,"storage_t::storage_t")+a(O,"optional::optional","optional::~optional")+a(VA,"variant::variant","variant::~variant")+a(VR,"variant_ref::variant_ref")+a(F,"invoker::operator()","invoker::functor"))
p("a view passed to a string may include a null terminator",
  "append, assign, insert and replace with a range of bytes of a string that includes its null terminator (such as std::string_view{s.c_str(), s.size() + 1}) behave as if the range had been copied first, whether the range belongs to the string being modified or to another one.",
  "all strings, all such ranges, all positions, with and without reallocation",
  "Only the in-place path, only for the string's own bytes, reads the terminator after it was overwritten; the size and all other bytes are right.",
  a(S,"string::append(ForwardIterator,ForwardIterator)","string::assign(ForwardIterator,ForwardIterator)","string::insert(const_iterator,ForwardIterator,ForwardIterator)","string::replace(const_iterator,const_iterator,ForwardIterator,ForwardIterator)","string::c_str"))
p("memory goes back to the module that allocated it",
  "Every heap buffer of a vector or string is released by the deallocation function that was stored when the buffer was allocated, no matter which module (executable or shared library) calls the members that move, swap, reallocate or destroy the containers. A container without heap buffer stores no such function.",
  "all histories of calls, all assignments of allocations to modules",
  "Tests are compiled into one module, where all stored functions are the same, so releasing a buffer through the wrong one has no visible effect.",
  a(V,"vector::storage_t","vector::swap","vector::operator=(vector&&)","vector::~vector")+a(S,"string::storage_t","string::swap","string::shrink_to_fit","string::operator=(string&&)"))
p("exceptions reach the caller instead of ending the program",
  "If an allocation or the construction of an element fails during a call to a vector, string, optional or variant, the caller gets an exception; the call does not end in std::terminate.",
  "all histories of calls, all points of failure, all element types that meet the static assertions",
  "Whether an exception meets a noexcept function depends on which allocation or construction fails, at moments that tests do not provoke; a test that provokes it would be killed.",
  a(V,"vector::shrink_to_fit","vector::storage_t")+a(S,"operator\"\"_s")+a(O,"optional::optional(optional&&)","optional::operator=(optional&&)","optional::swap")+a(VA,"internal_variant::assign","variant::variant(variant&&)","variant::swap"))
p("a string keeps its buffer while its capacity suffices",
  "After reserve(n), as long as the contents have at most n characters after each call, calls that edit the string (append, assign, insert, replace, erase, push_back, pop_back, clear, resize, assignment from another string) keep data() and capacity() and do not fail for lack of memory.",
  "all histories of calls, all contents and capacities, all arguments including parts of the string itself, all points of failure",
  "Whether a call reallocates depends on sizes and capacities against each other and on the overload; the results are the same either way, only addresses and capacities change, which tests of contents do not look at.",
  a(S,"string::reserve","string::assign","string::append","string::insert","string::replace","string::operator="))
p("comparing an optional with a value of another type compares the values",
  "opt == v holds exactly if opt holds a value that is == v, also if v is not of type Type; likewise for the other operators and for v on the left (an empty optional is less than every value).",
  "all optionals, all values, all types that can be compared with Type, all six operators",
  "Tests compare with values of the same type, or with literals whose conversion loses nothing.",
  a(O,"operator==(optional,Type)","operator!=(optional,Type)","operator<(optional,Type)","operator<=(optional,Type)","operator>(optional,Type)","operator>=(optional,Type)","operator==(Type,optional)","operator<(Type,optional)"))
p("references to the elements of a vector stay valid as long as those of a std::vector",
  "A pointer, reference or iterator to an element stays valid, and keeps referring to that element, across calls on other vectors, swap, move construction and move assignment (it then refers into the other vector), self-assignment, insertions behind it that fit the capacity, removals behind it, reserve within the capacity, resize within the capacity, assignments to elements, and calls that throw.",
  "all element types, all reachable states, all histories of such calls of any length, all failures",
  "A dangling reference usually still reads the old value, so tests pass; and the validity has to hold for all histories and all capacities.",
  a(V,"vector::operator[]","vector::swap","vector::vector(&&)","vector::operator=(&&)","vector::operator=(const &)","vector::reserve","vector::resize","vector::push_back","vector::emplace","vector::insert","vector::erase","vector::pop_back"))
p("a call touches nothing but the objects it is given",
  "A call on vectors, strings, optionals, variants, bitsets, arrays or tuples neither reads, writes, moves nor frees any object or buffer other than those of the objects named in the call: with everything else erased from memory it does exactly the same, returns or throws the same and leaves the same behind, and everything else is left as it was. Read-only sources (the right-hand side of a copy) keep their objects and buffers as they were. So there is no hidden shared state, and different objects may be used from different threads.",
  "all element types, all reachable states with any number of other objects, all calls within their preconditions, all failures",
  "Accidental sharing shows only between unrelated objects and only in some states; no test can try all combinations of other objects.",
  a(V,"vector::reserve","vector::insert","vector::erase","vector::swap","vector::operator=(const &)","vector::operator=(&&)")+a(S,"string::reserve","string::append","string::replace","string::swap","string::operator=(const &)","string::operator=(&&)")+a(O,"optional::operator=(const &)","optional::emplace","optional::swap")+a(VA,"variant::operator=(const &)","variant::emplace","variant::swap")+a(B,"bitset::swap","bitset::operator<<=","operator&")+a(A,"array::fill","array::swap")+a(T,"tuple::swap"))
p("the library's classes can be element types of each other",
  "A type that is built, to any depth, from the library's classes and element types that meet the documented requirements meets these requirements itself: it has standard layout, can be default constructed, copied, and moved, assigned, destroyed and swapped without exceptions, so it can again be an element of a vector, an array or a tuple, the value of an optional and an alternative of a variant.",
  "all types, nested to any depth, all numbers of alternatives, components and elements, all sizes of pointers",
  "Each combination is a type of its own that either compiles or does not; there are infinitely many, and a test that does not compile is not written.",
  a(V,"vector::vector()","vector::vector(&&)")+a(O,"optional::optional(&&)")+a(VA,"variant::variant()","variant::variant(&&)")+a(A,"array::array")+a(T,"tuple::tuple")+a(VR,"variant_ref::variant_ref(const &)")+a(F,"function_ref::function_ref(const &)"))
p("a class that says it is default constructible is",
  "If std::is_default_constructible_v holds for a type made of the library's classes, then an object of it can be constructed without arguments; in particular every vector that compiles can be resized.",
  "all types, nested to any depth",
  "The trait looks at declarations, the construction at bodies of templates that are only compiled when used; there are infinitely many types to try.",
  a(T,"tuple::tuple")+a(VA,"variant::variant()")+a(A,"array::array")+a(V,"vector::resize"))
p("references can be made from what they can refer to",
  "An array_ref<T> or optional_ref<T> can be constructed from an expression exactly if the expression gives access to objects of type T (a temporary: to const objects), refers to just these objects (an optional_ref: to the object itself if that is a T, otherwise to its value), and access to const objects never becomes access to non-const ones.",
  "all types and class hierarchies, all sources (containers, views, initializer lists, arrays, optionals, pointers, other references), const and not, variables and temporaries",
  "Whether a construction compiles is a matter of types, of which there are infinitely many; a test that does not compile is not written.",
  a(AR,"is_compatible_range","array_ref(ContiguousRange&&)","array_ref(pointer, size_type)")+a(OR,"is_compatible_optional","optional_ref(Type&)","optional_ref(Optional&)"))
p("deduced reference types fit their argument",
  "array_ref r{x} and optional_ref r{x} without template arguments compile for every x they can refer to, and the type deduced gives exactly the access that x gives: const elements or values stay const, others can be modified.",
  "all types, all sources, const and not, variables and temporaries",
  "The guides deduce from value_type and the type of *x, the constructors look at data() and const; whether the two agree has to be known for every type.",
  a(AR,"deduction guides","is_compatible_range")+a(OR,"deduction guides","is_compatible_optional"))
p("a function_ref made from a function_ref refers to the same callable",
  "A function_ref constructed or assigned from another function_ref calls, from then on, the function or functor that the other one refers to at that time; what happens to the other one later (assignment, destruction) makes no difference.",
  "all histories of constructions, conversions between signatures, assignments and destructions of any number of function_refs",
  "Function_refs depend on each other in chains of any length, and the result of a call depends on everything that happened to the function_refs of the chain since.",
  a(F,"function_ref::function_ref(F&&)","function_ref::function_ref(const &)","function_ref::operator=","invoker::operator()"))
p("classes can refer to and own objects of themselves",
  "A program of classes whose members use the library's templates compiles if every class of which an object is directly inside a member is complete before; a class can be named as element type of a vector, and as what references refer to, before it is complete.",
  "all programs: any number of classes that refer to each other in any way, all types nested to any depth",
  "Whether a program compiles depends on where each static assertion is instantiated; programs that do not compile are not part of a test suite.",
  a(V,"vector")+a(AR,"array_ref")+a(OR,"optional_ref")+a(VR,"variant_ref")+a(F,"function_ref")+a(VA,"variant")+a(O,"optional"))
p("all input iterators can be used to fill vectors and strings",
  "The iterator overloads of the constructors, assign, insert, append and replace take exactly the iterators that can be read, and an algorithm that visits the elements twice is used only for iterators that allow it.",
  "all iterator categories, including those of user-defined iterators derived from the standard ones",
  "Categories are classes that users may define; tests use the iterators of the standard library.",
  a(V,"vector::vector(InputIterator)","vector::vector(ForwardIterator)","vector::insert(InputIterator)","vector::assign(InputIterator)")+a(S,"string::append(InputIterator)","string::replace(InputIterator)"))
p("what the classes tell about sizes agrees",
  "In every reachable state size() is the number of elements, empty() tells whether there are none, size() <= capacity() <= max_size(), and max_size() elements take at most PTRDIFF_MAX bytes but one more would take more (of strings: with the terminating zero); size() and max_size() of arrays and bitsets are Size.",
  "all histories of vectors of all element types, strings, arrays and bitsets of all sizes, array_refs and string_refs",
  "The functions must agree after every history, including calls that threw and moved-from objects.",
  a(V,"vector::size","vector::empty","vector::max_size","vector::capacity")+a(S,"string::size","string::empty","string::max_size","string::capacity")+a(A,"array::size","array::empty","array::max_size")+a(B,"bitset::size","bitset::empty","bitset::max_size")+a(AR,"array_ref::size","array_ref::empty")+a(SR,"string_ref::size","string_ref::empty","string_ref::max_size"))
p("a number does not turn into a container",
  "Where a number is accepted in place of an object of one of the library's classes (as argument, initialiser, or operand of an assignment or comparison), the object made from it has that number as its only value.",
  "all types built from numbers, string, bitset, vector, array, optional, variant and tuple, nested to any depth; all numbers",
  "Tests pass what is meant to be passed; which conversions are possible depends on all constructors that are not explicit, and on how braces are resolved at every level of nesting.",
  a(V,"vector::vector(size_type)","vector::vector(std::initializer_list)","vector::operator=(&&)")+a(A,"array::array(Args&&...)")+a(S,"string::string(std::string_view)")+a(B,"bitset(size_type)")+a(O,"optional::optional(Type&&)")+a(VA,"variant::variant(T&&)")+a(T,"tuple::tuple(Args&&...)"))
p("structured bindings name the elements",
  "A structured binding of a tuple or an array compiles whenever one of a built-in array of that many elements would; its names denote the elements, in order, of the object referred to, of a copy, or of an object moved from it (as declared), with the types of the elements, const where the element, the declaration or the object is.",
  "all lists of (const) element types, sizes, kinds of declaration (by value, reference, forwarding reference, const or not), value categories and constness of the initialiser, prvalues",
  "Whether a declaration compiles is not observable by a test that compiles; the combination of get, tuple_element, tuple_size and the constructor chosen for the copy differs for every kind of declaration and initialiser.",
  a(T,"tuple::get","tuple::tuple(Args&&...)","storage_t::get","std::tuple_element","std::tuple_size")+a(A,"array::get","array::array(Args&&...)","std::tuple_element","std::tuple_size"))
p("containers of containers are values, to any depth",
  "For every type built from numbers, strings, bitsets and well-behaved classes with vector, array, optional, tuple and variant: a copy has the value of its source; a failed copy construction changes nothing and a failed copy assignment leaves the target some value; moves and swaps transfer values and never throw; destructors never throw; no object other than the operands changes; copy-assigning an object to itself and swapping it with itself keep its value; and once all objects are destroyed so are all their parts, at every depth, with all memory released.  (Alignment, C70, and braces choosing other constructors, C63 and C74, are separate.)",
  "all nested types of any depth, all values, all interleavings of copy and move construction and assignment, swap and destruction, all patterns of failing allocations and of exceptions of element copies",
  "There are infinitely many nestings; each layer relies on guarantees of the layer below (strong guarantee of copies, nothrow moves and swaps, destructibility of moved-from and half-assigned parts), and a defect in one combination shows only for that nesting under a particular failure.",
  a(V,"vector::vector(const vector &)","vector::assign_impl","vector::swap","storage_t::operator=(storage_t &&)","storage_t::~storage_t")+a(O,"optional::optional(const optional &)","optional::operator=","optional::swap","optional::~optional")+a(VA,"variant::variant(const variant &)","variant::operator=","variant::swap","variant::~variant")+a(A,"array")+a(T,"tuple::swap")+a(S,"string::string(const string &)","string::swap")+a(B,"bitset"))
p("const objects give const elements",
  "From a const vector, string, array, optional, variant, tuple or bitset no chain of calls, through iterators, pointers, the reference classes and elements that contain elements, leads to a non-const element; from a non-const one every access function but those for const access (cbegin, c_str and the like) does, and an rvalue gives rvalues from get, value, operator* and visit. What a reference object gives access to does not depend on its own constness.",
  "all classes, all access functions, const and non-const lvalues and rvalues, const and non-const element types, chains of calls of any length",
  "That an expression does not compile is not observable by a test that compiles, and the chains of calls are infinitely many; a single const member function that returns a non-const reference or iterator breaks the rule for the whole library.",
  a(V,"vector::operator[]","vector::at","vector::front","vector::back","vector::data","vector::begin","contiguous_iterator")+a(S,"string::operator[]","string::data","string::c_str","string::begin","contiguous_iterator")+a(A,"array::get","array::data","array::begin")+a(O,"optional::operator*","optional::operator->","optional::value")+a(VA,"variant::get","variant::get_if","variant::visit")+a(T,"tuple::get")+a(B,"bitset::operator[]","bitset::at")+a(AR,"array_ref::begin","array_ref::data")+a(SR,"string_ref::begin")+a(OR,"optional_ref::operator*")+a(VR,"variant_ref::get"))
p("a class deduced from its arguments holds their values",
  "Declaring `optional o{x}`, `array a{x, y}`, `tuple t{x, y}`, `vector v{x, y}` or `function_ref f{g}` without template arguments compiles whenever the types of the arguments, taken by value, can be elements (are the same, for array and vector; are functions, for function_ref); the class deduced has these element types and one element made from each argument, except that a single argument which is itself an object of the template is copied or moved from instead of being wrapped.",
  "all argument types, including arrays, functions and the classes themselves, all numbers of arguments, const and non-const lvalues and rvalues",
  "Which class is deduced is decided by the compiler for each use, and a declaration that does not compile cannot be in a test; argument types and value categories are unbounded in number.",
  a(O,"optional::optional")+a(A,"array::array","array")+a(T,"tuple::tuple","tuple")+a(V,"vector::vector","vector")+a(F,"function_ref::function_ref","function_ref"))
p("strings are written to streams as they are",
  "`os << s` for a string or string_ref writes all of its bytes, zeros included, as one field: padded with fill characters to the field width, on the right if left-adjusted and otherwise on the left, after which the width is 0. Nothing is written to a stream that is not good, and no string changes. Strings without line breaks that are written as lines are read back by std::getline.",
  "all strings after any history (short and long), all string_refs, all streams (width, fill character, adjustment, state), all sequences of strings",
  "The test writes one string without a field width; contents, zeros, widths and histories are unbounded.",
  a(S,"string::operator<<","string::operator std::string_view")+a(SR,"string_ref::operator<<","string_ref::operator std::string_view"))
p("each header can be included on its own",
  "A program that includes one header of the library, and nothing before it, compiles with every implementation of the standard library that conforms to C++17: every standard name the header uses is declared by a standard header that it includes.",
  "all twelve headers, all conforming implementations of the standard library",
  "A test is compiled with one implementation, whose headers declare more than they have to; moreover every test includes the test framework before the header.",
  sum((a(X,"#include") for X in (V,S,B,VA,O,A,AR,SR,OR,VR,T,F)),[]))
p("const functions only read",
  "The const functions of every class (sizes, element access, comparisons, hashing, conversion to std::string_view, visiting with a visitor that only reads) change nothing: not the objects, not their buffers, not any other object, whether they return or throw. So any number of threads can call them on the same objects: in whichever order, each call gets what it would have got on its own. `value_or` additionally only copies, and `operator<<` only changes the stream.",
  "all objects in all states (also such that no history leads to), all element types and comparisons, all calls, any number of threads and any order of their calls",
  "A test sees the value of a few objects after a few calls; it cannot show that nothing else has changed, nor try all orders.",
  a(V,"vector::data","vector::size","vector::capacity","vector::empty","vector::operator[]","vector::at","vector::front","vector::back","vector::operator<","vector::operator==")+a(S,"string::data","string::size","string::capacity","string::empty","string::operator[]","string::at","string::operator std::string_view","string::operator==","hash<string>")+a(O,"optional::has_value","optional::value","optional::operator*","optional::value_or","optional::operator==")+a(VA,"variant::holds","variant::get_if","variant::get","variant::visit","variant::operator==")+a(A,"array::data","array::operator[]","array::at","array::operator==","array::operator<")+a(T,"tuple::get","tuple::operator==","tuple::operator<")+a(AR,"array_ref::first","array_ref::last","array_ref::subrange","array_ref::at")+a(SR,"string_ref::substr","string_ref::at","string_ref::operator==","hash<string_ref>")+a(OR,"optional_ref::has_value","optional_ref::value","optional_ref::value_or")+a(VR,"variant_ref::holds","variant_ref::get","variant_ref::get_if","variant_ref::visit")+a(B,"bitset::operator[]","bitset::at","bitset::test","bitset::all","bitset::any","bitset::count","bitset::operator==","hash<bitset>","bitset::operator<<"))
p("standard algorithms work on vectors, strings, arrays and array_refs in place",
  "An algorithm that reads, moves and swaps elements through the iterators of a vector, string, array or array_ref - sorting, reversing, partitioning, removing - and stays within begin() and end() does to the contents exactly what it does to a sequence, and returns the same position. It cannot fail, allocates nothing, keeps data() and capacity(), and does not touch other objects (nor, on an array_ref, elements outside the part it refers to); one that only swaps leaves the same elements. Afterwards the object can be used as ever: `v.erase(std::remove_if(v.begin(), v.end(), p), v.end())` leaves exactly the elements that do not satisfy p, in order, also if there is nothing to remove, whatever self-move-assignment of an element does.",
  "all vectors, strings, arrays and array_refs reachable by any history, all element types with noexcept moves, all algorithms (arbitrary decisions after each element read), all predicates",
  "Algorithms are arbitrary client code between two calls; a test runs one algorithm on a few sequences of elements that do not care about being moved to themselves.",
  a(V,"vector::begin","vector::end","vector::erase","vector::contiguous_iterator::operator*","vector::contiguous_iterator::operator+")+a(S,"string::begin","string::end","string::erase","string::contiguous_iterator::operator*","string::contiguous_iterator::operator+")+a(A,"array::begin","array::contiguous_iterator::operator[]")+a(AR,"array_ref::begin","array_ref::contiguous_iterator::operator[]"))
p("threads that use different objects do not notice each other",
  "If every object that one thread changes is used by no other thread, each thread runs as it would on its own: there is an execution of its calls alone, in a program in which only its objects exist, with the same results and the same exceptions, ending with the same objects. Objects that several threads only read may be shared; the source of a copy is only read, the source of a move is not. No thread has to know anything about the objects of the others to keep to its preconditions, and none of their calls can make its own undefined. Different copies of one object are different objects (no reference counting, no shared buffers, no caches).",
  "all numbers of threads, all interleavings of all calls (vector, string, optional, variant, array, tuple; bitset without streams), all histories before, all allocation failures and throwing copies",
  "Interference between objects depends on the schedule and on what the other threads happen to do; a test runs one schedule, and a shared cache or buffer shows up in few of them.",
  a(V,"vector::operator=","vector::swap")+a(S,"string::operator=","string::swap")+a(O,"optional::operator=")+a(VA,"variant::operator=")+a(A,"array::swap")+a(T,"tuple::operator=")+a(B,"bitset::operator="))
p("insert iterators fill vectors and strings, and lose nothing if a step fails",
  "What an algorithm assigns through `std::back_inserter(c)` is appended to the vector or string, what it assigns through `std::inserter(c, pos)` ends up at the position, in order, with the elements behind as before; the insert iterator finally is behind what was inserted. The assigned values may be lvalues, temporaries, or elements of other vectors, copied or moved. If an allocation or the construction of an element fails on the way, everything assigned before it is in the container and nothing else has changed: with `std::move(w.begin(), w.end(), std::back_inserter(v))` each element is then either in v or still in w, none is lost or duplicated. After reserving enough, data() and capacity() stay; only the construction of an element can fail, and for strings nothing can.",
  "all vectors and strings reachable by any history, all sequences of assignments, all positions, all failing steps",
  "The failure can be at any of arbitrarily many steps, and which elements have been moved by then differs; a test uses elements that do not throw.",
  a(V,"vector::push_back","vector::insert","vector::emplace","vector::reserve")+a(S,"string::push_back","string::insert","string::reserve"))
p("several ways to write the same have the same effect",
  "In every program, one way to write something can be exchanged for another without a difference in the contents of the containers or in the results of other calls: for vectors push_back(x), emplace(end(), x) and insert(end(), x); insert of n copies, of a list, of input and of forward iterators, at once or in parts; erase(pos) and erase(pos, pos + 1); pop_back and erase(end() - 1); clear, erase(begin(), end()), resize(0) and assignment of nothing; resize and insert or erase at the end; assign, and clear and insert; assignment, and destruction and construction; swap in both directions and by three moves; construction, and default construction followed by insert, resize, assignment or swap; for strings also append, replace (and erase and insert), substr (and copying and erasing), operator+ (and copying and +=), reserve and shrink_to_fit (and nothing). The capacities and addresses before do not matter. It is required that no call throws.",
  "all vectors and strings reachable by any two histories with the same contents, all calls before and after, all entries of the table, all positions and values",
  "Each function has its own algorithm (in place, reallocating, small buffer or not), so every entry is a comparison of two implementations in all states; tests compare a few.",
  a(V,"vector::push_back","vector::insert","vector::emplace","vector::erase","vector::resize","vector::assign","vector::swap")+a(S,"string::append","string::insert","string::replace","string::erase","string::substr","string::resize","string::assign"))
p("an optional or variant that keeps holding a value of the same type keeps the object",
  "As with std::optional and std::variant, assignment, emplace and swap give the object already held a new value instead of replacing it by another object, provided that the optional has a value (the variant holds the same alternative) before and after the call. References to it, and to what is stored in it, stay good. In an optional, an object comes into existence only if there was none before the call and there is one after it; none does if the call throws.",
  "all element types, all calls, all values and all histories of calls, including calls that throw",
  "Whether a reference still refers to the same object cannot be observed by comparing values; a new object in the same place looks the same to a test. Histories and element types are unbounded.",
  a(O,"optional::operator=","optional::emplace","optional::swap","optional::reset")+a(VA,"variant::operator=","variant::emplace","variant::swap"))
p("containers with equal contents cannot be told apart",
  "Two vectors, or two strings, with the same contents behave the same from then on, whatever their capacity, their history, and (for strings) whether they are in the internal buffer or on the heap: a program that uses them within the preconditions, and decides what to do next by what it reads, by the positions returned and by the exceptions it catches, sees the same and leaves the same contents behind, unless a call throws in one of the cases and not in the other. If nothing fails and nothing comes close to max_size(), no call throws.",
  "all element types, all pairs of reachable states with the same contents, all client programs (of any length, with decisions depending on all they have seen)",
  "A test compares a few operations on a few representations; the claim is about all programs and all pairs of states, so that reserve, shrink_to_fit or a different history never change what a program computes.",
  a(V,"vector::insert_impl","vector::reserve","vector::shrink_to_fit","vector::size","vector::operator[]")+a(S,"string::reserve","string::shrink_to_fit","string::string","string::operator=","string::append"))
p("a vector may grow little by little, in any way",
  "However a vector grows, by push_back, emplace, insert of any number of elements at any position, or resize, and whatever is removed from it in between, the number of elements that are relocated to new buffers is altogether at most proportional to the number of elements added: three per element added (six per element of a single-pass range, which is collected in a temporary vector first), and one per element that was there in the beginning. Calls that throw relocate nothing (at most three per element of a single-pass range).",
  "all element types, all states, all sequences of insertions and removals of any length and in any order, including insertions that throw",
  "An asymptotic bound over all sequences of calls cannot be established by measuring some of them; a bound for push_back alone (C08) says nothing about mixtures, where spare capacity is left behind by removals or used up by large insertions.",
  a(V,"vector::insert_impl","vector::resize_impl","vector::push_back","vector::emplace","vector::insert","vector::erase"))
p("a vector holds memory for at most twice the elements it has needed room for, a string hardly more than needed",
  "If no vector of a program has had more than N elements at any time between two calls, and none was asked to reserve room for more than N, then no vector has a capacity greater than 2 N (or 10, the smallest buffer there is): not after any sequence of insertions, assignments, copies, moves, swaps, removals and failed calls, and not after inserting or assigning single-pass ranges, whose length is not known beforehand. Likewise, if no string has had more than N characters, and no more were reserved, then no string has a capacity greater than N + 23 (or 48, the smallest buffer there is); if N is at most 22, every string has the capacity 22 of the buffer inside of it.",
  "all element types, all histories of calls on any number of vectors or strings, all N, including calls that throw",
  "A bound on memory over all histories cannot be measured; what one call leaves behind (spare capacity, buffers handed over by moves and swaps) is the input of the next one.",
  a(V,"vector::insert_impl","vector::assign_impl","vector::resize_impl","vector::reserve","vector::shrink_to_fit","vector::swap")
  +a(S,"string::reserve","string::resize","string::append","string::assign","string::replace","string::shrink_to_fit"))
if __name__ == "__main__":
    out = os.path.join(os.path.dirname(os.path.dirname(os.path.abspath(__file__))), "properties.jsonl")
    with open(out, "w") as f:
        for x in P: f.write(json.dumps(x, ensure_ascii=False) + "\n")
    for x in P: print(x["id"], x["title"])

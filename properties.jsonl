{"id": "C01", "title": "vector behaves like a list under every history", "statement": "For every sequence of public vector operations (construction, copy, move, assignment, push_back/emplace_back, emplace, insert in all overloads, erase, pop_back, resize, reserve, shrink_to_fit, clear, swap, element writes, destruction) on any number of vectors, each called within its documented precondition, every vector's element sequence after each completed call is exactly the one obtained by the corresponding operation on an ordinary finite list, all other vectors keep their sequence, and positions/references returned by insert, emplace, erase and push_back denote the position the list operation gives.", "quantifier": "all element types satisfying vector's static requirements, all histories of operations over any number of vectors, all arguments within preconditions, all allocation/copy failure patterns", "why_tests_cant": "Contents depend on the whole history through capacity (in-place rotate vs reallocate); the interleavings of sizes, capacities and positions are unbounded.", "anchors": ["inc/ptl/vector.hpp: vector::assign_impl", "inc/ptl/vector.hpp: vector::insert_impl", "inc/ptl/vector.hpp: vector::resize_impl", "inc/ptl/vector.hpp: vector::erase", "inc/ptl/vector.hpp: vector::emplace", "inc/ptl/vector.hpp: vector::push_back", "inc/ptl/vector.hpp: vector::pop_back", "inc/ptl/vector.hpp: vector::swap"]}
{"id": "C02", "title": "vector never touches memory it must not and never leaks", "statement": "Along every history of vector operations within preconditions, including operations that end in an exception, every element object is constructed in raw storage exactly once and destroyed exactly once, no destroyed, unconstructed or out-of-range element is read or written, every buffer obtained is released exactly once and only after its elements were destroyed, and after all vectors are destroyed no buffer is left.", "quantifier": "all histories, all failure points of allocation and of element construction", "why_tests_cant": "A leak or double destruction shows only on particular combinations of capacity state and failure point; tests sample a few.", "anchors": ["inc/ptl/vector.hpp: storage_t::storage_t", "inc/ptl/vector.hpp: storage_t::operator=", "inc/ptl/vector.hpp: storage_t::~storage_t", "inc/ptl/vector.hpp: vector::assign_impl", "inc/ptl/vector.hpp: vector::insert_impl", "inc/ptl/vector.hpp: vector::resize_impl"]}
{"id": "C03", "title": "vector operations give the strong exception guarantee", "statement": "If any vector operation exits with an exception (length_error, bad_alloc, or an exception thrown by copying/constructing an element), every existing vector has the same contents, capacity and buffer as before the call; a constructor that throws leaves no vector behind.", "quantifier": "all operations, all states, all points at which an allocation or an element construction can throw", "why_tests_cant": "Each element copy and each allocation is a separate crash point; the number of crash points grows with the size of the arguments.", "anchors": ["inc/ptl/vector.hpp: vector::assign_impl", "inc/ptl/vector.hpp: vector::insert_impl", "inc/ptl/vector.hpp: vector::resize_impl", "inc/ptl/vector.hpp: vector::reserve", "inc/ptl/vector.hpp: vector::insert(InputIterator)", "inc/ptl/vector.hpp: vector::assign(InputIterator)"]}
{"id": "C04", "title": "vector arguments may alias the vector itself", "statement": "insert, assign, emplace, push_back and resize give the same result when the value or the forward range passed in refers to elements of the very vector being modified as when it is an independent copy of those values, whether or not the call reallocates; a value passed by rvalue from the vector itself is inserted and its old slot is left moved-from.", "quantifier": "all vectors, all positions, all sub-ranges of the vector itself, with and without reallocation", "why_tests_cant": "Aliasing bugs appear only for certain relative positions of source, insertion point and capacity.", "anchors": ["inc/ptl/vector.hpp: vector::assign_impl", "inc/ptl/vector.hpp: vector::insert_impl", "inc/ptl/vector.hpp: vector::resize_impl", "inc/ptl/vector.hpp: vector::emplace"]}
{"id": "C05", "title": "vector capacity invariant", "statement": "After every history, size() <= capacity() <= max_size(), and capacity() is either 0 (no buffer) or at least 10.", "quantifier": "all histories of operations", "why_tests_cant": "The invariant must survive every operation in every order.", "anchors": ["inc/ptl/vector.hpp: storage_t::storage_t(size_t)", "inc/ptl/vector.hpp: storage_t::set_size", "inc/ptl/vector.hpp: min_capacity", "inc/ptl/vector.hpp: max_capacity"]}
{"id": "C06", "title": "no reallocation while spare capacity suffices", "statement": "If size() + n <= capacity(), inserting n elements (insert, emplace, push_back) keeps data() and capacity() unchanged and performs no allocation, so it cannot fail with bad_alloc/length_error, and elements before the insertion point stay where they are; pop_back, erase, clear and a shrinking resize never reallocate.", "quantifier": "all states with enough spare capacity, all positions, all n", "why_tests_cant": "Pointer/iterator stability is needed at every boundary value of size and capacity.", "anchors": ["inc/ptl/vector.hpp: vector::insert_impl", "inc/ptl/vector.hpp: vector::erase", "inc/ptl/vector.hpp: vector::pop_back", "inc/ptl/vector.hpp: vector::clear", "inc/ptl/vector.hpp: vector::resize_impl"]}
{"id": "C07", "title": "vector requests beyond max_size are rejected with length_error", "statement": "Any call whose resulting size would exceed max_size() throws std::length_error and leaves the vector unchanged, for every count representable in size_type.", "quantifier": "all vectors, all counts in [0, 2^64)", "why_tests_cant": "The failing region is at the far end of a 64-bit range and cannot be allocated in a test.", "anchors": ["inc/ptl/vector.hpp: storage_t::storage_t(size_t)", "inc/ptl/vector.hpp: vector::assign_impl", "inc/ptl/vector.hpp: vector::insert_impl", "inc/ptl/vector.hpp: vector::max_size"]}
{"id": "C08", "title": "push_back is amortised constant", "statement": "Starting from an empty vector, any number n of push_back calls performs in total at most a linear number (at most 2n) of element relocations, and the number of reallocations grows logarithmically.", "quantifier": "all n", "why_tests_cant": "An asymptotic bound over all n cannot be established by measuring finitely many n.", "anchors": ["inc/ptl/vector.hpp: vector::emplace_back", "inc/ptl/vector.hpp: vector::insert_impl"]}
{"id": "C09", "title": "vector::erase removes exactly the given range", "statement": "erase(first,last) with begin() <= first <= last <= end() removes exactly the elements in [first,last), keeps the others in order and unmodified, and returns the position of the element after the removed ones; this includes the empty range first == last, where nothing changes.", "quantifier": "all vectors, all valid ranges including empty ones, all element types (any behaviour of move-assignment that is allowed for a moved-from/self-moved object)", "why_tests_cant": "Element types differ in what self-move-assignment does; tests use int only.", "anchors": ["inc/ptl/vector.hpp: vector::erase(const_iterator,const_iterator)"]}
{"id": "C10", "title": "reserve makes later growth up to the reserved size allocation-free", "statement": "After reserve(n), capacity() >= n and contents are unchanged; as long as size stays <= n, later size-increasing calls (push_back, insert, emplace, resize) neither reallocate nor reduce capacity().", "quantifier": "all vectors, all n, all later operation sequences whose sizes stay within n", "why_tests_cant": "Quantifies over all later histories.", "anchors": ["inc/ptl/vector.hpp: vector::reserve", "inc/ptl/vector.hpp: vector::resize_impl", "inc/ptl/vector.hpp: vector::insert_impl"]}
{"id": "C11", "title": "vector::shrink_to_fit keeps contents and never grows", "statement": "shrink_to_fit never changes the contents and never increases capacity(); it releases the whole buffer of an empty vector.", "quantifier": "all vectors, all size/capacity combinations", "why_tests_cant": "All size/capacity ratios around the thresholds 2*size and 10 matter.", "anchors": ["inc/ptl/vector.hpp: vector::shrink_to_fit"]}
{"id": "C12", "title": "vector copy, move and swap value semantics", "statement": "Copying yields an independent vector with equal contents (later changes to one never affect the other); moving transfers the buffer in place and leaves the source empty with capacity 0; swap exchanges contents, capacities and buffers; self-copy-, self-move-assignment and self-swap change nothing.", "quantifier": "all pairs of vectors including the same object twice, all later histories", "why_tests_cant": "Independence quantifies over all later operations on either object.", "anchors": ["inc/ptl/vector.hpp: vector::vector(const vector&)", "inc/ptl/vector.hpp: vector::operator=", "inc/ptl/vector.hpp: storage_t::storage_t(storage_t&&)", "inc/ptl/vector.hpp: storage_t::operator=(storage_t&&)", "inc/ptl/vector.hpp: storage_t::swap"]}
{"id": "C13", "title": "vector comparison operators form a consistent order", "statement": "== holds exactly for equal sequences; < is lexicographic order; <, <=, >, >=, ==, != are mutually consistent, and if the element order is a strict weak (total) order then so is the vector order.", "quantifier": "all triples of vectors, all element orders that are strict weak/total orders", "why_tests_cant": "Order laws are universally quantified over triples of sequences of any length.", "anchors": ["inc/ptl/vector.hpp: operator<", "inc/ptl/vector.hpp: operator>", "inc/ptl/vector.hpp: operator<=", "inc/ptl/vector.hpp: operator>=", "inc/ptl/vector.hpp: operator==", "inc/ptl/vector.hpp: operator!="]}
{"id": "C14", "title": "range construction is independent of the iterator category", "statement": "Constructing, assigning or inserting from a single-pass input range gives the same contents as from a forward range with the same values, for every range length.", "quantifier": "all sequences of values, all target vectors and positions", "why_tests_cant": "The two code paths (push_back loop vs single allocation) differ for every length.", "anchors": ["inc/ptl/vector.hpp: vector::vector(InputIterator,InputIterator)", "inc/ptl/vector.hpp: vector::assign(InputIterator)", "inc/ptl/vector.hpp: vector::insert(InputIterator)"]}
{"id": "C15", "title": "string behaves like a byte sequence under every history", "statement": "For every sequence of public string operations (construction, copy, move, assignment, append, insert, replace, erase, push_back, pop_back, resize, reserve, shrink_to_fit, clear, substr, concatenation, swap, element writes, destruction) on any number of strings within preconditions, each string's contents are exactly those of the corresponding operation on a list of bytes, all other strings are unchanged, and returned positions are right.", "quantifier": "all histories, all strings on the small-buffer or heap representation, all arguments, all allocation failures", "why_tests_cant": "Each operation has several code paths depending on capacity and small-buffer state, combined over unbounded histories.", "anchors": ["inc/ptl/string.hpp: string::append", "inc/ptl/string.hpp: string::assign", "inc/ptl/string.hpp: string::insert", "inc/ptl/string.hpp: string::replace", "inc/ptl/string.hpp: string::erase", "inc/ptl/string.hpp: string::resize", "inc/ptl/string.hpp: string::push_back", "inc/ptl/string.hpp: string::substr", "inc/ptl/string.hpp: storage_t"]}
{"id": "C16", "title": "string is always null-terminated", "statement": "After every history, data()[0..size()] are all initialised and data()[size()] == 0, so c_str() is a valid C string whose first size() bytes are the contents.", "quantifier": "all histories of operations including those that threw", "why_tests_cant": "Must hold at every point of every history in both representations.", "anchors": ["inc/ptl/string.hpp: storage_t::set_size", "inc/ptl/string.hpp: storage_t::copy_sso", "inc/ptl/string.hpp: storage_t::shrink_to_fit", "inc/ptl/string.hpp: string::append", "inc/ptl/string.hpp: string::reserve", "inc/ptl/string.hpp: string::c_str"]}
{"id": "C17", "title": "string small-buffer/heap representation is sound and never leaks", "statement": "After every history the string is either in its internal buffer with capacity 22 and size <= 22, or on the heap with capacity a multiple of 24 that is at least 48 and at least size; only the union member that is active is ever read, no byte outside the current buffer is accessed, each heap buffer is released exactly once, and none is left when all strings are destroyed.", "quantifier": "all histories, all failure points", "why_tests_cant": "Union/discriminator confusion needs specific sequences of representation changes.", "anchors": ["inc/ptl/string.hpp: storage_t", "inc/ptl/string.hpp: storage_t::swap", "inc/ptl/string.hpp: storage_t::operator=(storage_t&&)", "inc/ptl/string.hpp: storage_t::move_heap", "inc/ptl/string.hpp: storage_t::shrink_to_fit"]}
{"id": "C18", "title": "string operations give the strong exception guarantee", "statement": "If a string operation exits with an exception, all strings have the same contents and representation as before and remain null-terminated; this includes exceptions thrown by the iterators passed to append/assign/insert/replace.", "quantifier": "all operations, all states, all allocation failure points and iterator failure points", "why_tests_cant": "Each allocation and each iterator dereference is a separate crash point.", "anchors": ["inc/ptl/string.hpp: string::append(ForwardIterator,ForwardIterator)", "inc/ptl/string.hpp: string::insert", "inc/ptl/string.hpp: string::replace", "inc/ptl/string.hpp: string::assign", "inc/ptl/string.hpp: string::reserve"]}
{"id": "C19", "title": "string arguments may alias the string itself", "statement": "append, assign, insert and replace with a view into the string being modified behave as if the view had been copied first, with or without reallocation and in both representations.", "quantifier": "all strings, all sub-views, all positions", "why_tests_cant": "Aliasing bugs appear only for certain relative positions and capacities.", "anchors": ["inc/ptl/string.hpp: string::append(std::string_view)", "inc/ptl/string.hpp: string::assign(std::string_view)", "inc/ptl/string.hpp: string::insert(const_iterator,std::string_view)", "inc/ptl/string.hpp: string::replace"]}
{"id": "C20", "title": "string size requests beyond max_size are rejected", "statement": "Any call whose resulting size would exceed max_size() throws (length_error or bad_alloc) and leaves the string unchanged, for every count representable in size_type.", "quantifier": "all strings, all counts in [0, 2^64)", "why_tests_cant": "The failing region is at the far end of the 64-bit range.", "anchors": ["inc/ptl/string.hpp: storage_t::storage_t(size_t)", "inc/ptl/string.hpp: string::string(size_type,char)", "inc/ptl/string.hpp: string::append_no_aliasing", "inc/ptl/string.hpp: string::insert_no_aliasing", "inc/ptl/string.hpp: string::replace_no_aliasing", "inc/ptl/string.hpp: string::reserve"]}
{"id": "C21", "title": "string copy, move and swap value semantics", "statement": "Copies are independent; the target of a move has the source's old value and the source stays a valid string; swap exchanges the values for all four combinations of small-buffer and heap representation; self-assignment, self-move and self-swap change nothing.", "quantifier": "all pairs of strings in all representation combinations, including the same object twice", "why_tests_cant": "Value level equality must hold for all contents of both strings and all lengths up to and across the small-buffer limit.", "anchors": ["inc/ptl/string.hpp: storage_t::storage_t(storage_t&&)", "inc/ptl/string.hpp: storage_t::operator=(storage_t&&)", "inc/ptl/string.hpp: storage_t::swap", "inc/ptl/string.hpp: string::operator="]}
{"id": "C22", "title": "string::shrink_to_fit moves to the small buffer exactly when possible", "statement": "shrink_to_fit never changes contents; it releases the heap buffer exactly when size() <= 22 and otherwise leaves capacity and buffer unchanged; it never allocates and never fails.", "quantifier": "all strings", "why_tests_cant": "Boundary at 22/23 with all contents and heap capacities.", "anchors": ["inc/ptl/string.hpp: storage_t::shrink_to_fit"]}
{"id": "C23", "title": "string::replace substitutes exactly the given range", "statement": "replace(first,last,x) for valid first <= last yields prefix + x + suffix for every overload (forward range, input range, initializer list, count/char) and all relative sizes of the removed and inserted parts.", "quantifier": "all strings, all valid ranges, all replacement lengths", "why_tests_cant": "There are four code paths (grow/shrink, in-place/reallocate) with unbounded parameters.", "anchors": ["inc/ptl/string.hpp: string::replace", "inc/ptl/string.hpp: string::replace_no_aliasing"]}
{"id": "C24", "title": "string::substr", "statement": "substr(offset) and substr(offset,count) within bounds return exactly that slice for both the copying (lvalue) and the consuming (rvalue) overload.", "quantifier": "all strings, all offset/count with offset+count <= size()", "why_tests_cant": "Both overloads must agree for all inputs.", "anchors": ["inc/ptl/string.hpp: string::substr"]}
{"id": "C25", "title": "string comparison and hashing agree with the byte sequence", "statement": "All comparison operators of string (with string or string_view on either side) equal lexicographic comparison of the contents as unsigned bytes, form a total order consistent with ==, and equal strings have equal hashes irrespective of representation.", "quantifier": "all triples of strings, all representations", "why_tests_cant": "Order laws quantify over triples of sequences of any length.", "anchors": ["inc/ptl/string.hpp: operator<", "inc/ptl/string.hpp: operator==", "inc/ptl/string.hpp: operator<=", "inc/ptl/string.hpp: std::hash<ptl::string>"]}
{"id": "C26", "title": "string::push_back is amortised constant", "statement": "Any number n of push_back calls on an empty string copies in total at most a linear number of bytes during reallocation.", "quantifier": "all n", "why_tests_cant": "An asymptotic bound over all n cannot be established by finitely many measurements.", "anchors": ["inc/ptl/string.hpp: string::push_back", "inc/ptl/string.hpp: string::reserve", "inc/ptl/string.hpp: storage_t::storage_t(size_t)"]}
{"id": "C27", "title": "string literals denote the whole literal", "statement": "\"...\"_s and \"...\"_sr denote exactly the characters of the literal, including embedded null characters.", "quantifier": "all literals", "why_tests_cant": "Literals with embedded nulls form an unbounded family.", "anchors": ["inc/ptl/string.hpp: operator\"\"_s", "inc/ptl/string_ref.hpp: operator\"\"_sr"]}
{"id": "C28", "title": "string concatenation", "statement": "operator+ in all overloads returns the concatenation of its operands and leaves the operands unchanged.", "quantifier": "all operands", "why_tests_cant": "Unbounded operands crossing the small-buffer limit at any point.", "anchors": ["inc/ptl/string.hpp: string::concat", "inc/ptl/string.hpp: operator+"]}
{"id": "C29", "title": "bitset operations act bitwise and keep unused bits clear", "statement": "For every Size and every history of bitset operations, each bit of the result is given by the obvious bitwise definition (&, |, ^, ~, set, reset, flip, shifts, swap) and the storage bits beyond Size remain zero.", "quantifier": "all Size, all bitsets, all histories", "why_tests_cant": "Size is a template parameter; byte-boundary cases differ for every residue and length.", "anchors": ["inc/ptl/bitset.hpp: operator&=", "inc/ptl/bitset.hpp: operator|=", "inc/ptl/bitset.hpp: operator^=", "inc/ptl/bitset.hpp: operator~", "inc/ptl/bitset.hpp: set", "inc/ptl/bitset.hpp: reset", "inc/ptl/bitset.hpp: flip", "inc/ptl/bitset.hpp: clear_trailing_bits", "inc/ptl/bitset.hpp: operator<<=", "inc/ptl/bitset.hpp: operator>>="]}
{"id": "C30", "title": "bitset equality and hash are extensional", "statement": "Two bitsets of the same Size compare equal iff all Size bits agree, and equal bitsets hash equally.", "quantifier": "all Size, all pairs of bitsets reachable by any history", "why_tests_cant": "Relies on the unused bits being clear after every history.", "anchors": ["inc/ptl/bitset.hpp: operator==", "inc/ptl/bitset.hpp: std::hash<ptl::bitset>"]}
{"id": "C31", "title": "bitset queries", "statement": "count() is the number of set bits; all()/any()/none() hold iff every/some/no bit is set, and the conversion to bool (where enabled) iff some bit is, for every Size including 0 and Sizes that are not multiples of 8.", "quantifier": "all Size, all bitsets", "why_tests_cant": "All Sizes and all 2^Size contents.", "anchors": ["inc/ptl/bitset.hpp: count", "inc/ptl/bitset.hpp: all", "inc/ptl/bitset.hpp: any", "inc/ptl/bitset.hpp: none", "inc/ptl/bitset.hpp: operator bool", "inc/ptl/bitset.hpp: trailing_bits"]}
{"id": "C32", "title": "bitset shifts", "statement": "After b <<= n bit i is old bit i-n (0 if i < n); after b >>= n bit i is old bit i+n (0 beyond Size); for every n including n >= Size.", "quantifier": "all Size, all bitsets, all n", "why_tests_cant": "Quantifies over Size, content and shift amount.", "anchors": ["inc/ptl/bitset.hpp: operator<<=", "inc/ptl/bitset.hpp: operator>>=", "inc/ptl/bitset.hpp: operator<<", "inc/ptl/bitset.hpp: operator>>"]}
{"id": "C33", "title": "bitset index checking", "statement": "test/at/set/reset/flip with index >= Size throw out_of_range and change nothing; with index < Size they affect or read exactly that bit, as do operator[] and get<Index>, for which a valid index is required.", "quantifier": "all Size including 0, all indices, all bitsets", "why_tests_cant": "All Sizes and indices.", "anchors": ["inc/ptl/bitset.hpp: at", "inc/ptl/bitset.hpp: test", "inc/ptl/bitset.hpp: operator[]", "inc/ptl/bitset.hpp: get", "inc/ptl/bitset.hpp: set(size_type,bool)", "inc/ptl/bitset.hpp: reset(size_type)", "inc/ptl/bitset.hpp: flip(size_type)"]}
{"id": "C34", "title": "bitset construction from an integer", "statement": "bitset<Size>(v) has bit i set iff i < Size and bit i of v is set.", "quantifier": "all Size, all 64-bit values", "why_tests_cant": "2^64 values times all Sizes.", "anchors": ["inc/ptl/bitset.hpp: bitset(size_type)"]}
{"id": "C35", "title": "bitset stream output/input round-trips", "statement": "Writing a bitset to a stream and reading it back into a bitset of the same Size yields an equal bitset, leaves the rest of the stream unread and the stream good.", "quantifier": "all Size, all bitsets, all following stream contents", "why_tests_cant": "Universal over contents and what follows in the stream.", "anchors": ["inc/ptl/bitset.hpp: operator<<(std::ostream&)", "inc/ptl/bitset.hpp: operator>>(std::istream&)"]}
{"id": "C36", "title": "bitset extraction semantics", "statement": "Extraction reads at most Size characters '0'/'1' after leading whitespace, most significant first, stops before the first other character, succeeds iff at least one digit was read (also when the input ends early), and leaves the bitset unchanged when none was read.", "quantifier": "all stream contents, all Size", "why_tests_cant": "All inputs, in particular every position at which the input ends.", "anchors": ["inc/ptl/bitset.hpp: operator>>(std::istream&)"]}
{"id": "C37", "title": "bitset reference reads the referenced bit", "statement": "For a non-const bitset, b[i] and b.at(i) used as a value (conversion to bool, ~, assignment from another reference) yield bit i.", "quantifier": "all Size, all bitsets, all i < Size", "why_tests_cant": "Termination and value for all inputs.", "anchors": ["inc/ptl/bitset.hpp: reference::operator bool", "inc/ptl/bitset.hpp: reference::operator~", "inc/ptl/bitset.hpp: reference::operator=(const reference&)"]}
{"id": "C38", "title": "bitset reference swap exchanges the two bits", "statement": "swap(r1, r2) on two bit references exchanges the two referenced bits, also when they belong to different bitsets, and changes nothing else.", "quantifier": "all pairs of references into the same or different bitsets", "why_tests_cant": "All index pairs and object pairs, in particular equal indices in different bitsets.", "anchors": ["inc/ptl/bitset.hpp: reference::swap"]}
{"id": "C39", "title": "variant always holds exactly one alternative", "statement": "After every history of variant operations (construction, copy/move/converting assignment, emplace, swap, visiting), including operations that threw, the variant holds exactly one live value whose type is the one reported by holds(), i.e. it is never valueless, and its contents are those of the obvious tagged-value model.", "quantifier": "all lists of alternatives for which T{x} constructs what T(x) does (see C63), all histories, all failure points of alternative construction", "why_tests_cant": "Depends on the order destroy/construct/tag-update at every failure point in every history.", "anchors": ["inc/ptl/variant.hpp: variant::operator=", "inc/ptl/variant.hpp: variant::emplace", "inc/ptl/variant.hpp: variant::variant", "inc/ptl/variant.hpp: internal_variant::assign", "inc/ptl/variant.hpp: internal_variant::destroy"]}
{"id": "C40", "title": "variant object lifetimes are balanced", "statement": "Along every history every alternative object is constructed only in empty storage and destroyed exactly once, with the destructor of its own type, and no inactive alternative is ever accessed.", "quantifier": "all histories, all alternatives for which T{x} constructs what T(x) does (see C63), all failure points", "why_tests_cant": "A mismatch needs a specific sequence of alternatives and failures.", "anchors": ["inc/ptl/variant.hpp: internal_variant::storage_t", "inc/ptl/variant.hpp: internal_variant::destroy", "inc/ptl/variant.hpp: internal_variant::emplace", "inc/ptl/variant.hpp: variant::~variant"]}
{"id": "C41", "title": "variant strong exception guarantee", "statement": "If copy assignment, converting assignment or emplace throws because the construction of the new value throws, the variant keeps its previous alternative and value.", "quantifier": "all variants with alternatives for which T{x} constructs what T(x) does (see C63), all source values, all failure points", "why_tests_cant": "All combinations of old and new alternative.", "anchors": ["inc/ptl/variant.hpp: variant::operator=(const variant&)", "inc/ptl/variant.hpp: variant::operator=(T&&)", "inc/ptl/variant.hpp: variant::emplace"]}
{"id": "C42", "title": "variant accessors agree", "statement": "Exactly one alternative T satisfies holds<T>(); get_if<T>() is non-null iff holds<T>(); get<T>() returns that value iff holds<T>() and otherwise throws bad_variant_access; visit calls the visitor exactly once, with the held value.", "quantifier": "all alternative lists, all variants", "why_tests_cant": "All alternative lists and contents.", "anchors": ["inc/ptl/variant.hpp: holds", "inc/ptl/variant.hpp: get_if", "inc/ptl/variant.hpp: get", "inc/ptl/variant.hpp: visit", "inc/ptl/variant.hpp: internal_variant::visit"]}
{"id": "C43", "title": "variant comparison order", "statement": "Comparisons order first by alternative index and then by value; if each alternative's comparison operators are a consistent total order then so are the variant's six operators.", "quantifier": "all alternative lists, all triples of variants", "why_tests_cant": "Order laws quantify over triples.", "anchors": ["inc/ptl/variant.hpp: operator==", "inc/ptl/variant.hpp: operator!=", "inc/ptl/variant.hpp: operator<", "inc/ptl/variant.hpp: operator<=", "inc/ptl/variant.hpp: operator>", "inc/ptl/variant.hpp: operator>="]}
{"id": "C44", "title": "variant copy/move/swap value semantics", "statement": "Copy yields the same alternative and value and leaves the source unchanged; move transfers the value and leaves the source holding a moved-from value of the same alternative; swap exchanges alternatives and values whether or not the alternatives coincide; self-assignment and self-swap change nothing.", "quantifier": "all pairs of variants with alternatives for which T{x} constructs what T(x) does (see C63), including the same object twice", "why_tests_cant": "All pairs of alternatives and values.", "anchors": ["inc/ptl/variant.hpp: variant::variant(const variant&)", "inc/ptl/variant.hpp: variant::variant(variant&&)", "inc/ptl/variant.hpp: variant::swap", "inc/ptl/variant.hpp: variant::operator="]}
{"id": "C45", "title": "variant alternative index computation", "statement": "For every list of up to 254 pairwise distinct alternatives, the index computed for an alternative is its position, distinct alternatives get distinct indices, types that are not alternatives get the not-found marker, and a list with a duplicate is rejected.", "quantifier": "all type lists of length <= 254, all types", "why_tests_cant": "The list is a template parameter; 8-bit index arithmetic must not collide with the marker for any admissible list.", "anchors": ["inc/ptl/variant.hpp: internal_variant::determine_index", "inc/ptl/variant.hpp: internal_variant::validate_unique", "inc/ptl/variant.hpp: internal_variant::determine_type", "inc/ptl/variant.hpp: internal_variant::max_sizeof", "inc/ptl/variant.hpp: variant::holds"]}
{"id": "C46", "title": "optional behaves like a maybe-value under every history", "statement": "After every history of optional operations on any number of optionals, including operations that threw, each optional is either empty or holds exactly one live value, equal to that of the obvious model; constructions and destructions are balanced.", "quantifier": "all element types for which T{x} constructs what T(x) does (see C63), all histories, all failure points", "why_tests_cant": "Flag/lifetime mismatches need specific sequences and failure points.", "anchors": ["inc/ptl/optional.hpp: optional::operator=", "inc/ptl/optional.hpp: optional::reset", "inc/ptl/optional.hpp: optional::emplace", "inc/ptl/optional.hpp: optional::swap", "inc/ptl/optional.hpp: optional::optional"]}
{"id": "C47", "title": "optional exception safety", "statement": "If constructing the contained value throws while the optional is empty, the optional stays empty; if emplace throws, the previous state is kept; when assigning to an engaged optional throws, it stays engaged.", "quantifier": "all states, all failure points, all element types for which T{x} constructs what T(x) does (see C63)", "why_tests_cant": "All combinations of state and failure.", "anchors": ["inc/ptl/optional.hpp: optional::operator=(const Type&)", "inc/ptl/optional.hpp: optional::emplace", "inc/ptl/optional.hpp: optional::operator=(const optional&)"]}
{"id": "C48", "title": "optional access", "statement": "value() returns the contained value iff there is one and throws bad_optional_access otherwise; value_or returns it or the default; has_value/operator bool agree.", "quantifier": "all reachable optionals of all element types for which T{x} constructs what T(x) does (see C63)", "why_tests_cant": "Universal over states.", "anchors": ["inc/ptl/optional.hpp: value", "inc/ptl/optional.hpp: value_or", "inc/ptl/optional.hpp: has_value", "inc/ptl/optional.hpp: operator bool"]}
{"id": "C49", "title": "optional comparison order", "statement": "The comparisons among optionals, with nullopt and with plain values agree with the order in which the empty optional precedes every value, and are a consistent total order if the element's are.", "quantifier": "all triples of reachable optionals/values of all element types for which T{x} constructs what T(x) does (see C63)", "why_tests_cant": "Order laws quantify over triples; 30 operator overloads must be mutually consistent.", "anchors": ["inc/ptl/optional.hpp: operator==", "inc/ptl/optional.hpp: operator<", "inc/ptl/optional.hpp: operator<=", "inc/ptl/optional.hpp: operator>", "inc/ptl/optional.hpp: operator>="]}
{"id": "C50", "title": "optional swap and move", "statement": "swap exchanges the states of two optionals in all four combinations of engaged/empty and is a no-op on the same object; moving from an engaged optional leaves it engaged with a moved-from value.", "quantifier": "all pairs of optionals of all element types for which T{x} constructs what T(x) does (see C63)", "why_tests_cant": "All combinations and values.", "anchors": ["inc/ptl/optional.hpp: optional::swap", "inc/ptl/optional.hpp: optional::optional(optional&&)", "inc/ptl/optional.hpp: optional::operator=(optional&&)"]}
{"id": "C51", "title": "optional_ref refers to the live value of its source", "statement": "An optional_ref built from an optional or an object is engaged iff the source has a value, reads and writes through to that very object, and value() throws bad_optional_access iff it is empty.", "quantifier": "all sources, all later writes through either handle", "why_tests_cant": "Aliasing: must hold for all later writes.", "anchors": ["inc/ptl/optional_ref.hpp: optional_ref", "inc/ptl/optional_ref.hpp: value", "inc/ptl/optional_ref.hpp: value_or", "inc/ptl/optional_ref.hpp: operator*"]}
{"id": "C52", "title": "variant_ref binds the right alternative and rebinds on assignment", "statement": "Binding a (const) lvalue or an rvalue selects the alternative with exactly that constness if the binding is allowed and otherwise the const alternative, and is rejected if neither exists; a mutable alternative is never bound to an rvalue or const object; copy assignment rebinds and never writes to the referenced object; get/get_if/holds/visit address exactly the bound object.", "quantifier": "all alternative lists, all argument type/constness/value category combinations, all later rebinds", "why_tests_cant": "Decision table over arbitrary alternative lists.", "anchors": ["inc/ptl/variant_ref.hpp: variant_ref::variant_ref(T&&)", "inc/ptl/variant_ref.hpp: variant_ref::operator=", "inc/ptl/variant_ref.hpp: internal_variant_ref::get", "inc/ptl/variant_ref.hpp: internal_variant_ref::visit", "inc/ptl/variant_ref.hpp: determine_index"]}
{"id": "C53", "title": "array_ref and string_ref sub-ranges denote exact slices", "statement": "first, last, subrange, substr, remove_prefix and remove_suffix within their preconditions denote exactly the corresponding slice of the referenced sequence, compose (sub-range of a sub-range is a sub-range with added offset), never extend beyond it, and at() throws exactly when the index is out of range.", "quantifier": "all referenced sequences, all offsets/counts within preconditions, all compositions", "why_tests_cant": "Quantifies over compositions of any depth.", "anchors": ["inc/ptl/array_ref.hpp: first", "inc/ptl/array_ref.hpp: last", "inc/ptl/array_ref.hpp: subrange", "inc/ptl/array_ref.hpp: at", "inc/ptl/array_ref.hpp: operator[]", "inc/ptl/string_ref.hpp: substr", "inc/ptl/string_ref.hpp: remove_prefix", "inc/ptl/string_ref.hpp: remove_suffix", "inc/ptl/string_ref.hpp: at"]}
{"id": "C54", "title": "string_ref comparison and hash", "statement": "string_ref comparisons equal lexicographic comparison of the referenced bytes, form a total order, and equal references hash equally regardless of where they point.", "quantifier": "all triples of references", "why_tests_cant": "Order laws over triples of any length.", "anchors": ["inc/ptl/string_ref.hpp: operator==", "inc/ptl/string_ref.hpp: operator<", "inc/ptl/string_ref.hpp: operator>", "inc/ptl/string_ref.hpp: operator<=", "inc/ptl/string_ref.hpp: operator>=", "inc/ptl/string_ref.hpp: std::hash<ptl::string_ref>"]}
{"id": "C55", "title": "array fill, swap, access and comparison", "statement": "fill sets every element; swap exchanges element-wise; at(i)/[i]/get<i>/front/back address element i and at throws iff i >= Size; comparisons are the lexicographic order and consistent; also for Size 0.", "quantifier": "all Size, all contents", "why_tests_cant": "Size is a template parameter.", "anchors": ["inc/ptl/array.hpp: fill", "inc/ptl/array.hpp: swap", "inc/ptl/array.hpp: at", "inc/ptl/array.hpp: operator==", "inc/ptl/array.hpp: operator<", "inc/ptl/array.hpp: get"]}
{"id": "C56", "title": "contiguous iterators obey random-access iterator laws", "statement": "For the iterators of vector, string, array, array_ref and string_ref: (it+n)-n == it, (it+n)-it == n, it[n] is *(it+n), ++/-- are +1/-1 and post-forms return the old value, comparisons agree with the sign of the difference, and begin()/end() (and the reverse pair) traverse exactly the elements in order.", "quantifier": "all positions and integer distances within the range", "why_tests_cant": "Laws over all positions and distances.", "anchors": ["inc/ptl/vector.hpp: contiguous_iterator", "inc/ptl/string.hpp: contiguous_iterator", "inc/ptl/array.hpp: contiguous_iterator", "inc/ptl/array_ref.hpp: contiguous_iterator", "inc/ptl/string_ref.hpp: iterator"]}
{"id": "C57", "title": "tuple access, swap and comparison", "statement": "get<i> returns the i-th constructor argument and distinct indices address distinct elements; swap exchanges all elements; == is element-wise; < is lexicographic; the six operators are consistent and a strict weak order if the elements' are.", "quantifier": "all tuple lengths and contents", "why_tests_cant": "Length is a template parameter; laws over triples.", "anchors": ["inc/ptl/tuple.hpp: storage_t::get", "inc/ptl/tuple.hpp: storage_t::swap", "inc/ptl/tuple.hpp: storage_t::equal", "inc/ptl/tuple.hpp: storage_t::less", "inc/ptl/tuple.hpp: operator<"]}
{"id": "C58", "title": "function_ref calls the referenced callable", "statement": "Calling a function_ref calls the callable it was bound to (function, function pointer or functor object) exactly once with the given arguments and returns its result, state changes of a functor persist in the referenced object, copies refer to the same callable, and rebinding by assignment does not affect the old target.", "quantifier": "all callables, all arguments, all call/copy/assign histories", "why_tests_cant": "Histories of calls through several references to stateful functors.", "anchors": ["inc/ptl/function_ref.hpp: function_ref", "inc/ptl/function_ref.hpp: internal_function_ref::storage_t", "inc/ptl/function_ref.hpp: invoker::operator()", "inc/ptl/function_ref.hpp: invoker::functor"]}
{"id": "C59", "title": "function_ref respects the const qualifier of its signature", "statement": "A function_ref with a const-qualified signature only ever invokes the referenced functor as a const object.", "quantifier": "all functors, including those overloading operator() on const", "why_tests_cant": "Universal over functors; tests use functors with a single operator().", "anchors": ["inc/ptl/function_ref.hpp: invoker::const_", "inc/ptl/function_ref.hpp: invoker::functor", "inc/ptl/function_ref.hpp: function_ref::function_ref(F&&)"]}
{"id": "C60", "title": "vector element access", "statement": "at(i) returns element i iff i < size() and throws out_of_range otherwise without changing anything; operator[], front, back, data()+i and iterators address the same element; writing through one is seen through all others and changes no other element.", "quantifier": "all vectors, all indices, all written values", "why_tests_cant": "All indices and all later reads.", "anchors": ["inc/ptl/vector.hpp: operator[]", "inc/ptl/vector.hpp: at", "inc/ptl/vector.hpp: front", "inc/ptl/vector.hpp: back", "inc/ptl/vector.hpp: data"]}
{"id": "C61", "title": "string element access and string_view conversion", "statement": "at(i) returns byte i iff i < size() and throws out_of_range otherwise; operator[], front, back and conversion to string_view denote the same bytes; writing one byte changes only that byte.", "quantifier": "all strings, all indices", "why_tests_cant": "All indices in both representations.", "anchors": ["inc/ptl/string.hpp: operator[]", "inc/ptl/string.hpp: at", "inc/ptl/string.hpp: front", "inc/ptl/string.hpp: back", "inc/ptl/string.hpp: operator std::string_view"]}
{"id": "C62", "title": "bitset output honours the field width", "statement": "os << b writes the Size digits most significant first as one field: the digits are padded with the fill character up to the stream's width, i.e. max(width, Size) characters are written and the width is reset.", "quantifier": "all Size, all bitsets, all stream widths, fill characters and adjustments", "why_tests_cant": "Universal over contents and stream state; tests only stream with the default width.", "anchors": ["inc/ptl/bitset.hpp: operator<<(std::ostream&)"]}
{"id": "C63", "title": "copies equal their source for every alternative type", "statement": "Copying, moving or assigning a variant or an optional gives one holding the value the source held, for every type that meets the static requirements, including types with a constructor from std::initializer_list; and emplace either succeeds or leaves the variant holding its previous value.", "quantifier": "all alternative types meeting the static assertions, all values", "why_tests_cant": "Universal over types; tests use types for which T{x} and T(x) are the same.", "anchors": ["inc/ptl/variant.hpp: storage_t::set", "inc/ptl/variant.hpp: internal_variant::assign", "inc/ptl/variant.hpp: variant::emplace", "inc/ptl/optional.hpp: optional::optional(const optional&)", "inc/ptl/optional.hpp: optional::swap"]}
{"id": "C64", "title": "variant emplace from the variant's own value", "statement": "v.emplace<T>(args...) where an argument refers to (a part of) the value v currently holds gives the same result as with an independent copy of that value.", "quantifier": "all variants, all alternatives before and after, all constructors", "why_tests_cant": "Aliasing between argument and target; depends on whether the constructor can throw.", "anchors": ["inc/ptl/variant.hpp: variant::emplace"]}
{"id": "C65", "title": "variant copy assignment from inside its own value", "statement": "Copy assignment gives the target the alternative and value the source had, also if the source variant is stored inside the value the target holds (assigning a tree node one of its own children).", "quantifier": "all pairs of variants, including those where one contains the other", "why_tests_cant": "Aliasing by containment: needs recursive data structures.", "anchors": ["inc/ptl/variant.hpp: variant::operator=(const variant&)"]}
{"id": "C66", "title": "variant holds ignores const", "statement": "For every type accepted by holds<T>() the result says whether the held value has type T, ignoring a const qualifier.", "quantifier": "all variants, all types accepted", "why_tests_cant": "Universal over types.", "anchors": ["inc/ptl/variant.hpp: holds", "inc/ptl/variant.hpp: can_store", "inc/ptl/variant.hpp: determine_index"]}
{"id": "C67", "title": "variant and variant_ref visit return the visitor's result", "statement": "visit of a variant or variant_ref returns exactly the value the visitor returned for the held (referenced) alternative.", "quantifier": "all variants and variant_refs, all visitors, including visitors whose result types differ between alternatives", "why_tests_cant": "Universal over visitors.", "anchors": ["inc/ptl/variant.hpp: internal_variant::visit", "inc/ptl/variant_ref.hpp: internal_variant_ref::visit"]}
{"id": "C68", "title": "function_ref delivers reference results", "statement": "If the result type of a function_ref is a reference type, the result of a call refers to the object that the bound callable's result refers to.", "quantifier": "all function_refs with a reference result type, all callables returning references to objects that outlive the call", "why_tests_cant": "A dangling reference often still reads the expected value; no test has a reference result type.", "anchors": ["inc/ptl/function_ref.hpp: invoke_r", "inc/ptl/function_ref.hpp: invoker::functor"]}
{"id": "C69", "title": "variant storage respects lifetimes", "statement": "Storing, reading and destroying any alternative of a variant (or the pointer of a variant_ref) uses only members of the nested unions that are within their lifetime.", "quantifier": "all alternatives", "why_tests_cant": "Undefined behaviour that compilers do not exploit outside constant expressions: no test can observe it.", "anchors": ["inc/ptl/variant.hpp: storage_t::storage_t", "inc/ptl/variant.hpp: storage_t::get", "inc/ptl/variant.hpp: storage_t::set", "inc/ptl/variant.hpp: storage_t::destroy", "inc/ptl/variant_ref.hpp: storage_t::get", "inc/ptl/variant_ref.hpp: storage_t::set"]}
{"id": "C70", "title": "values in packed containers are aligned", "statement": "Whenever a variant, optional or tuple is stored at an address that suits its type, the contained values are at addresses that suit theirs.", "quantifier": "all element types, all addresses, including elements of arrays of such containers", "why_tests_cant": "x86 tolerates misaligned access; failure depends on platform and address.", "anchors": ["inc/ptl/variant.hpp: #pragma pack", "inc/ptl/variant.hpp: variant::storage", "inc/ptl/optional.hpp: #pragma pack", "inc/ptl/optional.hpp: optional::val", "inc/ptl/tuple.hpp: #pragma pack", "inc/ptl/tuple.hpp: storage_t::value"]}
{"id": "C71", "title": "every list of alternatives gives a variant", "statement": "variant<Types...> compiles for all lists of at most 254 different types that meet the documented requirements on the alternatives.", "quantifier": "all lists of types", "why_tests_cant": "Universal over types and platforms.", "anchors": ["inc/ptl/variant.hpp: max_sizeof", "inc/ptl/variant.hpp: static_assert(sizeof(storage_t) == max_sizeof)"]}
{"id": "C72", "title": "the layout is binary stable", "statement": "Sizes and offsets of the members of variant, optional and tuple depend only on the sizes of the element types, not on the alignment rules of the platform; members do not overlap and lie within the object.", "quantifier": "all element types, all pairs of platforms on which the element types have the same sizes", "why_tests_cant": "Compares different platforms, for all type lists.", "anchors": ["inc/ptl/variant.hpp: variant::storage", "inc/ptl/variant.hpp: variant::type", "inc/ptl/variant.hpp: max_sizeof", "inc/ptl/optional.hpp: optional::val", "inc/ptl/optional.hpp: optional::initialized", "inc/ptl/tuple.hpp: storage_t::value"]}
{"id": "C73", "title": "array_ref denotes the elements of its range", "statement": "For every range accepted by array_ref's constructor, element i of the array_ref is (the relevant part of) element i of the range.", "quantifier": "all ranges accepted, including ranges of derived classes", "why_tests_cant": "Universal over element types accepted by the constraint.", "anchors": ["inc/ptl/array_ref.hpp: is_compatible_range", "inc/ptl/array_ref.hpp: array_ref(ContiguousRange&&)"]}
{"id": "C74", "title": "construction from an object of the same type copies or moves it", "statement": "Constructing a tuple or array from an expression of the same type calls the copy constructor, or the move constructor if the expression is a non-const rvalue.", "quantifier": "all tuples and arrays, all combinations of value category and constness", "why_tests_cant": "Overload resolution; universal over types.", "anchors": ["inc/ptl/tuple.hpp: tuple(Args&&...)", "inc/ptl/array.hpp: array(Args&&...)"]}
{"id": "C75", "title": "array accepts exactly the convertible arguments", "statement": "array<T,N>'s constructor from values takes part in overload resolution exactly if all arguments are convertible to T.", "quantifier": "all element types, all argument lists", "why_tests_cant": "Universal over types; tests use literals of the element type.", "anchors": ["inc/ptl/array.hpp: array(Args&&...)"]}
{"id": "C76", "title": "containers store the values they are given", "statement": "After vector::push_back(x) or insert(pos, x), and after constructing a tuple from x, the new element is a copy of x (or was moved from x), for every element type.", "quantifier": "all element types, including those with constructors from std::initializer_list; all histories, all positions", "why_tests_cant": "Depends on the constructors of the element type: no test has an element type with an initializer_list constructor.", "anchors": ["inc/ptl/vector.hpp: vector::emplace", "inc/ptl/vector.hpp: vector::push_back", "inc/ptl/vector.hpp: vector::insert", "inc/ptl/tuple.hpp: storage_t::storage_t"]}
{"id": "C77", "title": "exceptions of element comparisons reach the caller", "statement": "If a comparison of two elements on which the result of a comparison of vectors, arrays, tuples, optionals or variants depends throws, the exception reaches the caller.", "quantifier": "all element types, all containers, all comparison operators", "why_tests_cant": "No test has an element type whose comparison throws; a test of termination needs a death test.", "anchors": ["inc/ptl/vector.hpp: operator<", "inc/ptl/vector.hpp: operator>", "inc/ptl/vector.hpp: operator<=", "inc/ptl/vector.hpp: operator>=", "inc/ptl/vector.hpp: operator==", "inc/ptl/vector.hpp: operator!=", "inc/ptl/array.hpp: operator<", "inc/ptl/array.hpp: operator==", "inc/ptl/tuple.hpp: operator<", "inc/ptl/tuple.hpp: operator==", "inc/ptl/tuple.hpp: storage_t::less", "inc/ptl/tuple.hpp: storage_t::equal", "inc/ptl/optional.hpp: operator<", "inc/ptl/optional.hpp: operator==", "inc/ptl/variant.hpp: internal_variant::compare", "inc/ptl/variant.hpp: operator<", "inc/ptl/variant.hpp: operator=="]}
{"id": "C78", "title": "emplace accepts what the alternative accepts", "statement": "variant::emplace<T>(args...) compiles whenever T is an alternative and T{args...} compiles.", "quantifier": "all lists of alternatives, all alternatives, all argument lists", "why_tests_cant": "Universal over types; the only test of emplace uses a constructor that may throw.", "anchors": ["inc/ptl/variant.hpp: variant::emplace", "inc/ptl/variant.hpp: internal_variant::emplace", "inc/ptl/variant.hpp: storage_t::set"]}
{"id": "C79", "title": "of several visitors the best one is called", "statement": "If for every alternative one of the visitors given to visit is the best match for a value of that alternative, const if the variant (or the alternative of the variant_ref) is and an rvalue if the variant is, then the call compiles and calls that visitor.", "quantifier": "all lists of alternatives, all lists of visitors, all value categories", "why_tests_cant": "Universal over visitors; all tests pass lambda expressions in place.", "anchors": ["inc/ptl/variant.hpp: internal_variant::visit", "inc/ptl/variant.hpp: variant::visit", "inc/ptl/variant.hpp: combined_visitor", "inc/ptl/variant_ref.hpp: variant_ref::visit", "inc/ptl/variant_ref.hpp: combined_visitor"]}
{"id": "C80", "title": "a call whose result fits succeeds", "statement": "If no allocation and no operation of the element type fails, every call within its preconditions returns normally, unless a resulting vector or string would be longer than max_size() or more than max_size() is reserved.", "quantifier": "all histories, all vectors, strings, optionals, variants, arrays and tuples, all element types", "why_tests_cant": "Sizes near max_size() cannot be reached in tests; and no finite number of successful calls shows that none is refused.", "anchors": ["inc/ptl/vector.hpp: vector::insert_impl", "inc/ptl/vector.hpp: vector::resize_impl", "inc/ptl/vector.hpp: vector::assign_impl", "inc/ptl/vector.hpp: vector::reserve", "inc/ptl/vector.hpp: vector::max_size", "inc/ptl/vector.hpp: storage_t::storage_t", "inc/ptl/string.hpp: storage_t::storage_t", "inc/ptl/string.hpp: string::reserve", "inc/ptl/string.hpp: string::max_size"]}
{"id": "C81", "title": "vector elements are properly placed in memory", "statement": "At all times the elements of all vectors are at addresses that suit their type, do not overlap, are adjacent within a vector, and no vector extends over more than PTRDIFF_MAX bytes.", "quantifier": "all histories, all element types including over-aligned ones, all behaviours of calloc that meet its contract", "why_tests_cant": "The address of a block is up to calloc: a test may be lucky.", "anchors": ["inc/ptl/vector.hpp: storage_t::storage_t", "inc/ptl/vector.hpp: vector::data", "inc/ptl/vector.hpp: max_capacity"]}
{"id": "C82", "title": "a call allocates at most once and copies only what it is given", "statement": "A call on a vector or string allocates memory at most once, and not at all when moving, swapping, erasing, clearing, removing the last element or destroying; a call with n elements from input iterators, whose number it cannot know, allocates at most once more than doubling the capacity (vector) or extending it by 24 bytes (string) from empty to n takes. A call on a vector constructs or copies at most as many elements as it is given or asked to add, and none that it may move; a call on a string dereferences every iterator at most once.", "quantifier": "all histories, all element types, all calls, whether they return or throw", "why_tests_cant": "Tests observe results, not the number of allocations and copies; and a count in some runs says nothing about others.", "anchors": ["inc/ptl/vector.hpp: vector::insert_impl", "inc/ptl/vector.hpp: vector::resize_impl", "inc/ptl/vector.hpp: vector::assign_impl", "inc/ptl/vector.hpp: vector::reserve", "inc/ptl/vector.hpp: vector::shrink_to_fit", "inc/ptl/vector.hpp: vector::push_back", "inc/ptl/vector.hpp: vector::emplace", "inc/ptl/vector.hpp: vector::erase", "inc/ptl/vector.hpp: vector::swap", "inc/ptl/vector.hpp: storage_t::storage_t", "inc/ptl/vector.hpp: storage_t::operator=", "inc/ptl/string.hpp: storage_t::storage_t", "inc/ptl/string.hpp: string::reserve", "inc/ptl/string.hpp: string::push_back", "inc/ptl/string.hpp: string::append", "inc/ptl/string.hpp: string::assign", "inc/ptl/string.hpp: string::insert", "inc/ptl/string.hpp: string::replace", "inc/ptl/string.hpp: string::substr", "inc/ptl/string.hpp: string::concat"]}
{"id": "C83", "title": "iterators and const iterators can be mixed", "statement": "Comparing or subtracting two iterators of the same container, each an iterator or a const_iterator, compiles and gives the result that belongs to their positions.", "quantifier": "all containers with contiguous iterators, all pairs of iterator kinds, all operators, all positions", "why_tests_cant": "That an expression compiles for all combinations of types is not tested by evaluating some.", "anchors": ["inc/ptl/vector.hpp: contiguous_iterator::operator contiguous_iterator<true>", "inc/ptl/vector.hpp: contiguous_iterator::operator contiguous_iterator<false>", "inc/ptl/vector.hpp: operator==", "inc/ptl/vector.hpp: operator<", "inc/ptl/vector.hpp: operator-", "inc/ptl/string.hpp: contiguous_iterator::operator contiguous_iterator<true>", "inc/ptl/string.hpp: contiguous_iterator::operator contiguous_iterator<false>", "inc/ptl/string.hpp: operator==", "inc/ptl/string.hpp: operator<", "inc/ptl/string.hpp: operator-", "inc/ptl/array.hpp: contiguous_iterator::operator contiguous_iterator<true>", "inc/ptl/array_ref.hpp: contiguous_iterator::operator contiguous_iterator<true>", "inc/ptl/string_ref.hpp: iterator"]}
{"id": "C84", "title": "all kinds of strings can be combined", "statement": "Any two strings of which one is a ptl::string or a string_ref, the other also a C string, a std::string_view or a std::string, can be compared by all operators, in either order, with the result for their bytes; a ptl::string can be concatenated with, extended by and assigned from any of them, also parts of itself.", "quantifier": "all pairs of string types, all operators, all contents, all histories of ptl::string and string_ref", "why_tests_cant": "Overload resolution over all combinations of types; results for all contents.", "anchors": ["inc/ptl/string.hpp: operator==", "inc/ptl/string.hpp: operator<", "inc/ptl/string.hpp: operator+", "inc/ptl/string.hpp: string::operator+=", "inc/ptl/string.hpp: string::operator=", "inc/ptl/string.hpp: string::concat", "inc/ptl/string.hpp: string::operator std::string_view", "inc/ptl/string.hpp: string(string_ref)", "inc/ptl/string_ref.hpp: operator==", "inc/ptl/string_ref.hpp: operator<", "inc/ptl/string_ref.hpp: string_ref(const char*)", "inc/ptl/string_ref.hpp: string_ref(std::string_view)", "inc/ptl/string_ref.hpp: string_ref::operator std::string_view"]}
{"id": "C85", "title": "assigning {} is like assigning a default-constructed object", "statement": "For a vector, string, optional or variant x (with default-constructible first alternative), x = {} compiles and leaves x as it would be default-constructed: empty, or with the default value of the first alternative; other objects are unchanged.", "quantifier": "all histories, all element types", "why_tests_cant": "Overload resolution depends on the element type in a way tests for one type do not show.", "anchors": ["inc/ptl/vector.hpp: vector::operator=(std::initializer_list)", "inc/ptl/string.hpp: string::operator=(std::initializer_list)", "inc/ptl/string.hpp: string::operator=(std::string_view)", "inc/ptl/optional.hpp: optional::operator=(Type&&)", "inc/ptl/optional.hpp: optional::operator=(optional&&)", "inc/ptl/optional.hpp: optional::optional()", "inc/ptl/variant.hpp: variant::operator=(variant&&)", "inc/ptl/variant.hpp: variant::variant()"]}
{"id": "C86", "title": "functions declared constexpr can be evaluated at compile time", "statement": "Every call of a function that the library declares constexpr, made within its preconditions and returning normally, is a constant expression of C++17 if its arguments are (element types with constexpr operations).", "quantifier": "all functions declared constexpr, all sizes, all histories", "why_tests_cant": "Tests run the functions at run time; for templates the compiler accepts a constexpr that no instantiation can honour without a diagnostic.", "anchors": ["inc/ptl/bitset.hpp: bitset::all", "inc/ptl/bitset.hpp: bitset::any", "inc/ptl/bitset.hpp: bitset::count", "inc/ptl/bitset.hpp: bitset::operator&=", "inc/ptl/bitset.hpp: bitset::set", "inc/ptl/bitset.hpp: bitset::flip", "inc/ptl/bitset.hpp: bitset::swap", "inc/ptl/bitset.hpp: operator==(bitset,bitset)", "inc/ptl/array.hpp: array::fill", "inc/ptl/array.hpp: array::swap", "inc/ptl/array.hpp: operator==(array,array)", "inc/ptl/array.hpp: operator<(array,array)", "inc/ptl/tuple.hpp: storage_t::storage_t", "inc/ptl/optional.hpp: optional::optional", "inc/ptl/optional.hpp: optional::~optional", "inc/ptl/variant.hpp: variant::variant", "inc/ptl/variant.hpp: variant::~variant", "inc/ptl/variant_ref.hpp: variant_ref::variant_ref", "inc/ptl/function_ref.hpp: invoker::operator()", "inc/ptl/function_ref.hpp: invoker::functor"]}
{"id": "C87", "title": "a view passed to a string may include a null terminator", "statement": "append, assign, insert and replace with a range of bytes of a string that includes its null terminator (such as std::string_view{s.c_str(), s.size() + 1}) behave as if the range had been copied first, whether the range belongs to the string being modified or to another one.", "quantifier": "all strings, all such ranges, all positions, with and without reallocation", "why_tests_cant": "Only the in-place path, only for the string's own bytes, reads the terminator after it was overwritten; the size and all other bytes are right.", "anchors": ["inc/ptl/string.hpp: string::append(ForwardIterator,ForwardIterator)", "inc/ptl/string.hpp: string::assign(ForwardIterator,ForwardIterator)", "inc/ptl/string.hpp: string::insert(const_iterator,ForwardIterator,ForwardIterator)", "inc/ptl/string.hpp: string::replace(const_iterator,const_iterator,ForwardIterator,ForwardIterator)", "inc/ptl/string.hpp: string::c_str"]}
{"id": "C88", "title": "memory goes back to the module that allocated it", "statement": "Every heap buffer of a vector or string is released by the deallocation function that was stored when the buffer was allocated, no matter which module (executable or shared library) calls the members that move, swap, reallocate or destroy the containers. A container without heap buffer stores no such function.", "quantifier": "all histories of calls, all assignments of allocations to modules", "why_tests_cant": "Tests are compiled into one module, where all stored functions are the same, so releasing a buffer through the wrong one has no visible effect.", "anchors": ["inc/ptl/vector.hpp: vector::storage_t", "inc/ptl/vector.hpp: vector::swap", "inc/ptl/vector.hpp: vector::operator=(vector&&)", "inc/ptl/vector.hpp: vector::~vector", "inc/ptl/string.hpp: string::storage_t", "inc/ptl/string.hpp: string::swap", "inc/ptl/string.hpp: string::shrink_to_fit", "inc/ptl/string.hpp: string::operator=(string&&)"]}
{"id": "C89", "title": "exceptions reach the caller instead of ending the program", "statement": "If an allocation or the construction of an element fails during a call to a vector, string, optional or variant, the caller gets an exception; the call does not end in std::terminate.", "quantifier": "all histories of calls, all points of failure, all element types that meet the static assertions", "why_tests_cant": "Whether an exception meets a noexcept function depends on which allocation or construction fails, at moments that tests do not provoke; a test that provokes it would be killed.", "anchors": ["inc/ptl/vector.hpp: vector::shrink_to_fit", "inc/ptl/vector.hpp: vector::storage_t", "inc/ptl/string.hpp: operator\"\"_s", "inc/ptl/optional.hpp: optional::optional(optional&&)", "inc/ptl/optional.hpp: optional::operator=(optional&&)", "inc/ptl/optional.hpp: optional::swap", "inc/ptl/variant.hpp: internal_variant::assign", "inc/ptl/variant.hpp: variant::variant(variant&&)", "inc/ptl/variant.hpp: variant::swap"]}
{"id": "C90", "title": "a string keeps its buffer while its capacity suffices", "statement": "After reserve(n), as long as the contents have at most n characters after each call, calls that edit the string (append, assign, insert, replace, erase, push_back, pop_back, clear, resize, assignment from another string) keep data() and capacity() and do not fail for lack of memory.", "quantifier": "all histories of calls, all contents and capacities, all arguments including parts of the string itself, all points of failure", "why_tests_cant": "Whether a call reallocates depends on sizes and capacities against each other and on the overload; the results are the same either way, only addresses and capacities change, which tests of contents do not look at.", "anchors": ["inc/ptl/string.hpp: string::reserve", "inc/ptl/string.hpp: string::assign", "inc/ptl/string.hpp: string::append", "inc/ptl/string.hpp: string::insert", "inc/ptl/string.hpp: string::replace", "inc/ptl/string.hpp: string::operator="]}
{"id": "C91", "title": "comparing an optional with a value of another type compares the values", "statement": "opt == v holds exactly if opt holds a value that is == v, also if v is not of type Type; likewise for the other operators and for v on the left (an empty optional is less than every value).", "quantifier": "all optionals, all values, all types that can be compared with Type, all six operators", "why_tests_cant": "Tests compare with values of the same type, or with literals whose conversion loses nothing.", "anchors": ["inc/ptl/optional.hpp: operator==(optional,Type)", "inc/ptl/optional.hpp: operator!=(optional,Type)", "inc/ptl/optional.hpp: operator<(optional,Type)", "inc/ptl/optional.hpp: operator<=(optional,Type)", "inc/ptl/optional.hpp: operator>(optional,Type)", "inc/ptl/optional.hpp: operator>=(optional,Type)", "inc/ptl/optional.hpp: operator==(Type,optional)", "inc/ptl/optional.hpp: operator<(Type,optional)"]}
{"id": "C92", "title": "references to the elements of a vector stay valid as long as those of a std::vector", "statement": "A pointer, reference or iterator to an element stays valid, and keeps referring to that element, across calls on other vectors, swap, move construction and move assignment (it then refers into the other vector), self-assignment, insertions behind it that fit the capacity, removals behind it, reserve within the capacity, resize within the capacity, assignments to elements, and calls that throw.", "quantifier": "all element types, all reachable states, all histories of such calls of any length, all failures", "why_tests_cant": "A dangling reference usually still reads the old value, so tests pass; and the validity has to hold for all histories and all capacities.", "anchors": ["inc/ptl/vector.hpp: vector::operator[]", "inc/ptl/vector.hpp: vector::swap", "inc/ptl/vector.hpp: vector::vector(&&)", "inc/ptl/vector.hpp: vector::operator=(&&)", "inc/ptl/vector.hpp: vector::operator=(const &)", "inc/ptl/vector.hpp: vector::reserve", "inc/ptl/vector.hpp: vector::resize", "inc/ptl/vector.hpp: vector::push_back", "inc/ptl/vector.hpp: vector::emplace", "inc/ptl/vector.hpp: vector::insert", "inc/ptl/vector.hpp: vector::erase", "inc/ptl/vector.hpp: vector::pop_back"]}
{"id": "C93", "title": "a call touches nothing but the objects it is given", "statement": "A call on vectors, strings, optionals, variants, bitsets, arrays or tuples neither reads, writes, moves nor frees any object or buffer other than those of the objects named in the call: with everything else erased from memory it does exactly the same, returns or throws the same and leaves the same behind, and everything else is left as it was. Read-only sources (the right-hand side of a copy) keep their objects and buffers as they were. So there is no hidden shared state, and different objects may be used from different threads.", "quantifier": "all element types, all reachable states with any number of other objects, all calls within their preconditions, all failures", "why_tests_cant": "Accidental sharing shows only between unrelated objects and only in some states; no test can try all combinations of other objects.", "anchors": ["inc/ptl/vector.hpp: vector::reserve", "inc/ptl/vector.hpp: vector::insert", "inc/ptl/vector.hpp: vector::erase", "inc/ptl/vector.hpp: vector::swap", "inc/ptl/vector.hpp: vector::operator=(const &)", "inc/ptl/vector.hpp: vector::operator=(&&)", "inc/ptl/string.hpp: string::reserve", "inc/ptl/string.hpp: string::append", "inc/ptl/string.hpp: string::replace", "inc/ptl/string.hpp: string::swap", "inc/ptl/string.hpp: string::operator=(const &)", "inc/ptl/string.hpp: string::operator=(&&)", "inc/ptl/optional.hpp: optional::operator=(const &)", "inc/ptl/optional.hpp: optional::emplace", "inc/ptl/optional.hpp: optional::swap", "inc/ptl/variant.hpp: variant::operator=(const &)", "inc/ptl/variant.hpp: variant::emplace", "inc/ptl/variant.hpp: variant::swap", "inc/ptl/bitset.hpp: bitset::swap", "inc/ptl/bitset.hpp: bitset::operator<<=", "inc/ptl/bitset.hpp: operator&", "inc/ptl/array.hpp: array::fill", "inc/ptl/array.hpp: array::swap", "inc/ptl/tuple.hpp: tuple::swap"]}
{"id": "C94", "title": "the library's classes can be element types of each other", "statement": "A type that is built, to any depth, from the library's classes and element types that meet the documented requirements meets these requirements itself: it has standard layout, can be default constructed, copied, and moved, assigned, destroyed and swapped without exceptions, so it can again be an element of a vector, an array or a tuple, the value of an optional and an alternative of a variant.", "quantifier": "all types, nested to any depth, all numbers of alternatives, components and elements, all sizes of pointers", "why_tests_cant": "Each combination is a type of its own that either compiles or does not; there are infinitely many, and a test that does not compile is not written.", "anchors": ["inc/ptl/vector.hpp: vector::vector()", "inc/ptl/vector.hpp: vector::vector(&&)", "inc/ptl/optional.hpp: optional::optional(&&)", "inc/ptl/variant.hpp: variant::variant()", "inc/ptl/variant.hpp: variant::variant(&&)", "inc/ptl/array.hpp: array::array", "inc/ptl/tuple.hpp: tuple::tuple", "inc/ptl/variant_ref.hpp: variant_ref::variant_ref(const &)", "inc/ptl/function_ref.hpp: function_ref::function_ref(const &)"]}
{"id": "C95", "title": "a class that says it is default constructible is", "statement": "If std::is_default_constructible_v holds for a type made of the library's classes, then an object of it can be constructed without arguments; in particular every vector that compiles can be resized.", "quantifier": "all types, nested to any depth", "why_tests_cant": "The trait looks at declarations, the construction at bodies of templates that are only compiled when used; there are infinitely many types to try.", "anchors": ["inc/ptl/tuple.hpp: tuple::tuple", "inc/ptl/variant.hpp: variant::variant()", "inc/ptl/array.hpp: array::array", "inc/ptl/vector.hpp: vector::resize"]}
{"id": "C96", "title": "references can be made from what they can refer to", "statement": "An array_ref<T> or optional_ref<T> can be constructed from an expression exactly if the expression gives access to objects of type T (a temporary: to const objects), refers to just these objects (an optional_ref: to the object itself if that is a T, otherwise to its value), and access to const objects never becomes access to non-const ones.", "quantifier": "all types and class hierarchies, all sources (containers, views, initializer lists, arrays, optionals, pointers, other references), const and not, variables and temporaries", "why_tests_cant": "Whether a construction compiles is a matter of types, of which there are infinitely many; a test that does not compile is not written.", "anchors": ["inc/ptl/array_ref.hpp: is_compatible_range", "inc/ptl/array_ref.hpp: array_ref(ContiguousRange&&)", "inc/ptl/array_ref.hpp: array_ref(pointer, size_type)", "inc/ptl/optional_ref.hpp: is_compatible_optional", "inc/ptl/optional_ref.hpp: optional_ref(Type&)", "inc/ptl/optional_ref.hpp: optional_ref(Optional&)"]}
{"id": "C97", "title": "deduced reference types fit their argument", "statement": "array_ref r{x} and optional_ref r{x} without template arguments compile for every x they can refer to, and the type deduced gives exactly the access that x gives: const elements or values stay const, others can be modified.", "quantifier": "all types, all sources, const and not, variables and temporaries", "why_tests_cant": "The guides deduce from value_type and the type of *x, the constructors look at data() and const; whether the two agree has to be known for every type.", "anchors": ["inc/ptl/array_ref.hpp: deduction guides", "inc/ptl/array_ref.hpp: is_compatible_range", "inc/ptl/optional_ref.hpp: deduction guides", "inc/ptl/optional_ref.hpp: is_compatible_optional"]}
{"id": "C98", "title": "a function_ref made from a function_ref refers to the same callable", "statement": "A function_ref constructed or assigned from another function_ref calls, from then on, the function or functor that the other one refers to at that time; what happens to the other one later (assignment, destruction) makes no difference.", "quantifier": "all histories of constructions, conversions between signatures, assignments and destructions of any number of function_refs", "why_tests_cant": "Function_refs depend on each other in chains of any length, and the result of a call depends on everything that happened to the function_refs of the chain since.", "anchors": ["inc/ptl/function_ref.hpp: function_ref::function_ref(F&&)", "inc/ptl/function_ref.hpp: function_ref::function_ref(const &)", "inc/ptl/function_ref.hpp: function_ref::operator=", "inc/ptl/function_ref.hpp: invoker::operator()"]}
{"id": "C99", "title": "classes can refer to and own objects of themselves", "statement": "A program of classes whose members use the library's templates compiles if every class of which an object is directly inside a member is complete before; a class can be named as element type of a vector, and as what references refer to, before it is complete.", "quantifier": "all programs: any number of classes that refer to each other in any way, all types nested to any depth", "why_tests_cant": "Whether a program compiles depends on where each static assertion is instantiated; programs that do not compile are not part of a test suite.", "anchors": ["inc/ptl/vector.hpp: vector", "inc/ptl/array_ref.hpp: array_ref", "inc/ptl/optional_ref.hpp: optional_ref", "inc/ptl/variant_ref.hpp: variant_ref", "inc/ptl/function_ref.hpp: function_ref", "inc/ptl/variant.hpp: variant", "inc/ptl/optional.hpp: optional"]}
{"id": "C100", "title": "all input iterators can be used to fill vectors and strings", "statement": "The iterator overloads of the constructors, assign, insert, append and replace take exactly the iterators that can be read, and an algorithm that visits the elements twice is used only for iterators that allow it.", "quantifier": "all iterator categories, including those of user-defined iterators derived from the standard ones", "why_tests_cant": "Categories are classes that users may define; tests use the iterators of the standard library.", "anchors": ["inc/ptl/vector.hpp: vector::vector(InputIterator)", "inc/ptl/vector.hpp: vector::vector(ForwardIterator)", "inc/ptl/vector.hpp: vector::insert(InputIterator)", "inc/ptl/vector.hpp: vector::assign(InputIterator)", "inc/ptl/string.hpp: string::append(InputIterator)", "inc/ptl/string.hpp: string::replace(InputIterator)"]}
{"id": "C101", "title": "what the classes tell about sizes agrees", "statement": "In every reachable state size() is the number of elements, empty() tells whether there are none, size() <= capacity() <= max_size(), and max_size() elements take at most PTRDIFF_MAX bytes but one more would take more (of strings: with the terminating zero); size() and max_size() of arrays and bitsets are Size.", "quantifier": "all histories of vectors of all element types, strings, arrays and bitsets of all sizes, array_refs and string_refs", "why_tests_cant": "The functions must agree after every history, including calls that threw and moved-from objects.", "anchors": ["inc/ptl/vector.hpp: vector::size", "inc/ptl/vector.hpp: vector::empty", "inc/ptl/vector.hpp: vector::max_size", "inc/ptl/vector.hpp: vector::capacity", "inc/ptl/string.hpp: string::size", "inc/ptl/string.hpp: string::empty", "inc/ptl/string.hpp: string::max_size", "inc/ptl/string.hpp: string::capacity", "inc/ptl/array.hpp: array::size", "inc/ptl/array.hpp: array::empty", "inc/ptl/array.hpp: array::max_size", "inc/ptl/bitset.hpp: bitset::size", "inc/ptl/bitset.hpp: bitset::empty", "inc/ptl/bitset.hpp: bitset::max_size", "inc/ptl/array_ref.hpp: array_ref::size", "inc/ptl/array_ref.hpp: array_ref::empty", "inc/ptl/string_ref.hpp: string_ref::size", "inc/ptl/string_ref.hpp: string_ref::empty", "inc/ptl/string_ref.hpp: string_ref::max_size"]}
{"id": "C102", "title": "a number does not turn into a container", "statement": "Where a number is accepted in place of an object of one of the library's classes (as argument, initialiser, or operand of an assignment or comparison), the object made from it has that number as its only value.", "quantifier": "all types built from numbers, string, bitset, vector, array, optional, variant and tuple, nested to any depth; all numbers", "why_tests_cant": "Tests pass what is meant to be passed; which conversions are possible depends on all constructors that are not explicit, and on how braces are resolved at every level of nesting.", "anchors": ["inc/ptl/vector.hpp: vector::vector(size_type)", "inc/ptl/vector.hpp: vector::vector(std::initializer_list)", "inc/ptl/vector.hpp: vector::operator=(&&)", "inc/ptl/array.hpp: array::array(Args&&...)", "inc/ptl/string.hpp: string::string(std::string_view)", "inc/ptl/bitset.hpp: bitset(size_type)", "inc/ptl/optional.hpp: optional::optional(Type&&)", "inc/ptl/variant.hpp: variant::variant(T&&)", "inc/ptl/tuple.hpp: tuple::tuple(Args&&...)"]}
{"id": "C103", "title": "structured bindings name the elements", "statement": "A structured binding of a tuple or an array compiles whenever one of a built-in array of that many elements would; its names denote the elements, in order, of the object referred to, of a copy, or of an object moved from it (as declared), with the types of the elements, const where the element, the declaration or the object is.", "quantifier": "all lists of (const) element types, sizes, kinds of declaration (by value, reference, forwarding reference, const or not), value categories and constness of the initialiser, prvalues", "why_tests_cant": "Whether a declaration compiles is not observable by a test that compiles; the combination of get, tuple_element, tuple_size and the constructor chosen for the copy differs for every kind of declaration and initialiser.", "anchors": ["inc/ptl/tuple.hpp: tuple::get", "inc/ptl/tuple.hpp: tuple::tuple(Args&&...)", "inc/ptl/tuple.hpp: storage_t::get", "inc/ptl/tuple.hpp: std::tuple_element", "inc/ptl/tuple.hpp: std::tuple_size", "inc/ptl/array.hpp: array::get", "inc/ptl/array.hpp: array::array(Args&&...)", "inc/ptl/array.hpp: std::tuple_element", "inc/ptl/array.hpp: std::tuple_size"]}
{"id": "C104", "title": "containers of containers are values, to any depth", "statement": "For every type built from numbers, strings, bitsets and well-behaved classes with vector, array, optional, tuple and variant: a copy has the value of its source; a failed copy construction changes nothing and a failed copy assignment leaves the target some value; moves and swaps transfer values and never throw; destructors never throw; no object other than the operands changes; copy-assigning an object to itself and swapping it with itself keep its value; and once all objects are destroyed so are all their parts, at every depth, with all memory released.  (Alignment, C70, and braces choosing other constructors, C63 and C74, are separate.)", "quantifier": "all nested types of any depth, all values, all interleavings of copy and move construction and assignment, swap and destruction, all patterns of failing allocations and of exceptions of element copies", "why_tests_cant": "There are infinitely many nestings; each layer relies on guarantees of the layer below (strong guarantee of copies, nothrow moves and swaps, destructibility of moved-from and half-assigned parts), and a defect in one combination shows only for that nesting under a particular failure.", "anchors": ["inc/ptl/vector.hpp: vector::vector(const vector &)", "inc/ptl/vector.hpp: vector::assign_impl", "inc/ptl/vector.hpp: vector::swap", "inc/ptl/vector.hpp: storage_t::operator=(storage_t &&)", "inc/ptl/vector.hpp: storage_t::~storage_t", "inc/ptl/optional.hpp: optional::optional(const optional &)", "inc/ptl/optional.hpp: optional::operator=", "inc/ptl/optional.hpp: optional::swap", "inc/ptl/optional.hpp: optional::~optional", "inc/ptl/variant.hpp: variant::variant(const variant &)", "inc/ptl/variant.hpp: variant::operator=", "inc/ptl/variant.hpp: variant::swap", "inc/ptl/variant.hpp: variant::~variant", "inc/ptl/array.hpp: array", "inc/ptl/tuple.hpp: tuple::swap", "inc/ptl/string.hpp: string::string(const string &)", "inc/ptl/string.hpp: string::swap", "inc/ptl/bitset.hpp: bitset"]}
{"id": "C105", "title": "const objects give const elements", "statement": "From a const vector, string, array, optional, variant, tuple or bitset no chain of calls, through iterators, pointers, the reference classes and elements that contain elements, leads to a non-const element; from a non-const one every access function but those for const access (cbegin, c_str and the like) does, and an rvalue gives rvalues from get, value, operator* and visit. What a reference object gives access to does not depend on its own constness.", "quantifier": "all classes, all access functions, const and non-const lvalues and rvalues, const and non-const element types, chains of calls of any length", "why_tests_cant": "That an expression does not compile is not observable by a test that compiles, and the chains of calls are infinitely many; a single const member function that returns a non-const reference or iterator breaks the rule for the whole library.", "anchors": ["inc/ptl/vector.hpp: vector::operator[]", "inc/ptl/vector.hpp: vector::at", "inc/ptl/vector.hpp: vector::front", "inc/ptl/vector.hpp: vector::back", "inc/ptl/vector.hpp: vector::data", "inc/ptl/vector.hpp: vector::begin", "inc/ptl/vector.hpp: contiguous_iterator", "inc/ptl/string.hpp: string::operator[]", "inc/ptl/string.hpp: string::data", "inc/ptl/string.hpp: string::c_str", "inc/ptl/string.hpp: string::begin", "inc/ptl/string.hpp: contiguous_iterator", "inc/ptl/array.hpp: array::get", "inc/ptl/array.hpp: array::data", "inc/ptl/array.hpp: array::begin", "inc/ptl/optional.hpp: optional::operator*", "inc/ptl/optional.hpp: optional::operator->", "inc/ptl/optional.hpp: optional::value", "inc/ptl/variant.hpp: variant::get", "inc/ptl/variant.hpp: variant::get_if", "inc/ptl/variant.hpp: variant::visit", "inc/ptl/tuple.hpp: tuple::get", "inc/ptl/bitset.hpp: bitset::operator[]", "inc/ptl/bitset.hpp: bitset::at", "inc/ptl/array_ref.hpp: array_ref::begin", "inc/ptl/array_ref.hpp: array_ref::data", "inc/ptl/string_ref.hpp: string_ref::begin", "inc/ptl/optional_ref.hpp: optional_ref::operator*", "inc/ptl/variant_ref.hpp: variant_ref::get"]}
{"id": "C106", "title": "a class deduced from its arguments holds their values", "statement": "Declaring `optional o{x}`, `array a{x, y}`, `tuple t{x, y}`, `vector v{x, y}` or `function_ref f{g}` without template arguments compiles whenever the types of the arguments, taken by value, can be elements (are the same, for array and vector; are functions, for function_ref); the class deduced has these element types and one element made from each argument, except that a single argument which is itself an object of the template is copied or moved from instead of being wrapped.", "quantifier": "all argument types, including arrays, functions and the classes themselves, all numbers of arguments, const and non-const lvalues and rvalues", "why_tests_cant": "Which class is deduced is decided by the compiler for each use, and a declaration that does not compile cannot be in a test; argument types and value categories are unbounded in number.", "anchors": ["inc/ptl/optional.hpp: optional::optional", "inc/ptl/array.hpp: array::array", "inc/ptl/array.hpp: array", "inc/ptl/tuple.hpp: tuple::tuple", "inc/ptl/tuple.hpp: tuple", "inc/ptl/vector.hpp: vector::vector", "inc/ptl/vector.hpp: vector", "inc/ptl/function_ref.hpp: function_ref::function_ref", "inc/ptl/function_ref.hpp: function_ref"]}
{"id": "C107", "title": "strings are written to streams as they are", "statement": "`os << s` for a string or string_ref writes all of its bytes, zeros included, as one field: padded with fill characters to the field width, on the right if left-adjusted and otherwise on the left, after which the width is 0. Nothing is written to a stream that is not good, and no string changes. Strings without line breaks that are written as lines are read back by std::getline.", "quantifier": "all strings after any history (short and long), all string_refs, all streams (width, fill character, adjustment, state), all sequences of strings", "why_tests_cant": "The test writes one string without a field width; contents, zeros, widths and histories are unbounded.", "anchors": ["inc/ptl/string.hpp: string::operator<<", "inc/ptl/string.hpp: string::operator std::string_view", "inc/ptl/string_ref.hpp: string_ref::operator<<", "inc/ptl/string_ref.hpp: string_ref::operator std::string_view"]}
{"id": "C108", "title": "each header can be included on its own", "statement": "A program that includes one header of the library, and nothing before it, compiles with every implementation of the standard library that conforms to C++17: every standard name the header uses is declared by a standard header that it includes.", "quantifier": "all twelve headers, all conforming implementations of the standard library", "why_tests_cant": "A test is compiled with one implementation, whose headers declare more than they have to; moreover every test includes the test framework before the header.", "anchors": ["inc/ptl/vector.hpp: #include", "inc/ptl/string.hpp: #include", "inc/ptl/bitset.hpp: #include", "inc/ptl/variant.hpp: #include", "inc/ptl/optional.hpp: #include", "inc/ptl/array.hpp: #include", "inc/ptl/array_ref.hpp: #include", "inc/ptl/string_ref.hpp: #include", "inc/ptl/optional_ref.hpp: #include", "inc/ptl/variant_ref.hpp: #include", "inc/ptl/tuple.hpp: #include", "inc/ptl/function_ref.hpp: #include"]}
{"id": "C109", "title": "const functions only read", "statement": "The const functions of every class (sizes, element access, comparisons, hashing, conversion to std::string_view, visiting with a visitor that only reads) change nothing: not the objects, not their buffers, not any other object, whether they return or throw. So any number of threads can call them on the same objects: in whichever order, each call gets what it would have got on its own. `value_or` additionally only copies, and `operator<<` only changes the stream.", "quantifier": "all objects in all states (also such that no history leads to), all element types and comparisons, all calls, any number of threads and any order of their calls", "why_tests_cant": "A test sees the value of a few objects after a few calls; it cannot show that nothing else has changed, nor try all orders.", "anchors": ["inc/ptl/vector.hpp: vector::data", "inc/ptl/vector.hpp: vector::size", "inc/ptl/vector.hpp: vector::capacity", "inc/ptl/vector.hpp: vector::empty", "inc/ptl/vector.hpp: vector::operator[]", "inc/ptl/vector.hpp: vector::at", "inc/ptl/vector.hpp: vector::front", "inc/ptl/vector.hpp: vector::back", "inc/ptl/vector.hpp: vector::operator<", "inc/ptl/vector.hpp: vector::operator==", "inc/ptl/string.hpp: string::data", "inc/ptl/string.hpp: string::size", "inc/ptl/string.hpp: string::capacity", "inc/ptl/string.hpp: string::empty", "inc/ptl/string.hpp: string::operator[]", "inc/ptl/string.hpp: string::at", "inc/ptl/string.hpp: string::operator std::string_view", "inc/ptl/string.hpp: string::operator==", "inc/ptl/string.hpp: hash<string>", "inc/ptl/optional.hpp: optional::has_value", "inc/ptl/optional.hpp: optional::value", "inc/ptl/optional.hpp: optional::operator*", "inc/ptl/optional.hpp: optional::value_or", "inc/ptl/optional.hpp: optional::operator==", "inc/ptl/variant.hpp: variant::holds", "inc/ptl/variant.hpp: variant::get_if", "inc/ptl/variant.hpp: variant::get", "inc/ptl/variant.hpp: variant::visit", "inc/ptl/variant.hpp: variant::operator==", "inc/ptl/array.hpp: array::data", "inc/ptl/array.hpp: array::operator[]", "inc/ptl/array.hpp: array::at", "inc/ptl/array.hpp: array::operator==", "inc/ptl/array.hpp: array::operator<", "inc/ptl/tuple.hpp: tuple::get", "inc/ptl/tuple.hpp: tuple::operator==", "inc/ptl/tuple.hpp: tuple::operator<", "inc/ptl/array_ref.hpp: array_ref::first", "inc/ptl/array_ref.hpp: array_ref::last", "inc/ptl/array_ref.hpp: array_ref::subrange", "inc/ptl/array_ref.hpp: array_ref::at", "inc/ptl/string_ref.hpp: string_ref::substr", "inc/ptl/string_ref.hpp: string_ref::at", "inc/ptl/string_ref.hpp: string_ref::operator==", "inc/ptl/string_ref.hpp: hash<string_ref>", "inc/ptl/optional_ref.hpp: optional_ref::has_value", "inc/ptl/optional_ref.hpp: optional_ref::value", "inc/ptl/optional_ref.hpp: optional_ref::value_or", "inc/ptl/variant_ref.hpp: variant_ref::holds", "inc/ptl/variant_ref.hpp: variant_ref::get", "inc/ptl/variant_ref.hpp: variant_ref::get_if", "inc/ptl/variant_ref.hpp: variant_ref::visit", "inc/ptl/bitset.hpp: bitset::operator[]", "inc/ptl/bitset.hpp: bitset::at", "inc/ptl/bitset.hpp: bitset::test", "inc/ptl/bitset.hpp: bitset::all", "inc/ptl/bitset.hpp: bitset::any", "inc/ptl/bitset.hpp: bitset::count", "inc/ptl/bitset.hpp: bitset::operator==", "inc/ptl/bitset.hpp: hash<bitset>", "inc/ptl/bitset.hpp: bitset::operator<<"]}
{"id": "C110", "title": "standard algorithms work on vectors, strings, arrays and array_refs in place", "statement": "An algorithm that reads, moves and swaps elements through the iterators of a vector, string, array or array_ref - sorting, reversing, partitioning, removing - and stays within begin() and end() does to the contents exactly what it does to a sequence, and returns the same position. It cannot fail, allocates nothing, keeps data() and capacity(), and does not touch other objects (nor, on an array_ref, elements outside the part it refers to); one that only swaps leaves the same elements. Afterwards the object can be used as ever: `v.erase(std::remove_if(v.begin(), v.end(), p), v.end())` leaves exactly the elements that do not satisfy p, in order, also if there is nothing to remove, whatever self-move-assignment of an element does.", "quantifier": "all vectors, strings, arrays and array_refs reachable by any history, all element types with noexcept moves, all algorithms (arbitrary decisions after each element read), all predicates", "why_tests_cant": "Algorithms are arbitrary client code between two calls; a test runs one algorithm on a few sequences of elements that do not care about being moved to themselves.", "anchors": ["inc/ptl/vector.hpp: vector::begin", "inc/ptl/vector.hpp: vector::end", "inc/ptl/vector.hpp: vector::erase", "inc/ptl/vector.hpp: vector::contiguous_iterator::operator*", "inc/ptl/vector.hpp: vector::contiguous_iterator::operator+", "inc/ptl/string.hpp: string::begin", "inc/ptl/string.hpp: string::end", "inc/ptl/string.hpp: string::erase", "inc/ptl/string.hpp: string::contiguous_iterator::operator*", "inc/ptl/string.hpp: string::contiguous_iterator::operator+", "inc/ptl/array.hpp: array::begin", "inc/ptl/array.hpp: array::contiguous_iterator::operator[]", "inc/ptl/array_ref.hpp: array_ref::begin", "inc/ptl/array_ref.hpp: array_ref::contiguous_iterator::operator[]"]}
{"id": "C111", "title": "threads that use different objects do not notice each other", "statement": "If every object that one thread changes is used by no other thread, each thread runs as it would on its own: there is an execution of its calls alone, in a program in which only its objects exist, with the same results and the same exceptions, ending with the same objects. Objects that several threads only read may be shared; the source of a copy is only read, the source of a move is not. No thread has to know anything about the objects of the others to keep to its preconditions, and none of their calls can make its own undefined. Different copies of one object are different objects (no reference counting, no shared buffers, no caches).", "quantifier": "all numbers of threads, all interleavings of all calls (vector, string, optional, variant, array, tuple; bitset without streams), all histories before, all allocation failures and throwing copies", "why_tests_cant": "Interference between objects depends on the schedule and on what the other threads happen to do; a test runs one schedule, and a shared cache or buffer shows up in few of them.", "anchors": ["inc/ptl/vector.hpp: vector::operator=", "inc/ptl/vector.hpp: vector::swap", "inc/ptl/string.hpp: string::operator=", "inc/ptl/string.hpp: string::swap", "inc/ptl/optional.hpp: optional::operator=", "inc/ptl/variant.hpp: variant::operator=", "inc/ptl/array.hpp: array::swap", "inc/ptl/tuple.hpp: tuple::operator=", "inc/ptl/bitset.hpp: bitset::operator="]}
{"id": "C112", "title": "insert iterators fill vectors and strings, and lose nothing if a step fails", "statement": "What an algorithm assigns through `std::back_inserter(c)` is appended to the vector or string, what it assigns through `std::inserter(c, pos)` ends up at the position, in order, with the elements behind as before; the insert iterator finally is behind what was inserted. The assigned values may be lvalues, temporaries, or elements of other vectors, copied or moved. If an allocation or the construction of an element fails on the way, everything assigned before it is in the container and nothing else has changed: with `std::move(w.begin(), w.end(), std::back_inserter(v))` each element is then either in v or still in w, none is lost or duplicated. After reserving enough, data() and capacity() stay; only the construction of an element can fail, and for strings nothing can.", "quantifier": "all vectors and strings reachable by any history, all sequences of assignments, all positions, all failing steps", "why_tests_cant": "The failure can be at any of arbitrarily many steps, and which elements have been moved by then differs; a test uses elements that do not throw.", "anchors": ["inc/ptl/vector.hpp: vector::push_back", "inc/ptl/vector.hpp: vector::insert", "inc/ptl/vector.hpp: vector::emplace", "inc/ptl/vector.hpp: vector::reserve", "inc/ptl/string.hpp: string::push_back", "inc/ptl/string.hpp: string::insert", "inc/ptl/string.hpp: string::reserve"]}
{"id": "C113", "title": "several ways to write the same have the same effect", "statement": "In every program, one way to write something can be exchanged for another without a difference in the contents of the containers or in the results of other calls: for vectors push_back(x), emplace(end(), x) and insert(end(), x); insert of n copies, of a list, of input and of forward iterators, at once or in parts; erase(pos) and erase(pos, pos + 1); pop_back and erase(end() - 1); clear, erase(begin(), end()), resize(0) and assignment of nothing; resize and insert or erase at the end; assign, and clear and insert; assignment, and destruction and construction; swap in both directions and by three moves; construction, and default construction followed by insert, resize, assignment or swap; for strings also append, replace (and erase and insert), substr (and copying and erasing), operator+ (and copying and +=), reserve and shrink_to_fit (and nothing). The capacities and addresses before do not matter. It is required that no call throws.", "quantifier": "all vectors and strings reachable by any two histories with the same contents, all calls before and after, all entries of the table, all positions and values", "why_tests_cant": "Each function has its own algorithm (in place, reallocating, small buffer or not), so every entry is a comparison of two implementations in all states; tests compare a few.", "anchors": ["inc/ptl/vector.hpp: vector::push_back", "inc/ptl/vector.hpp: vector::insert", "inc/ptl/vector.hpp: vector::emplace", "inc/ptl/vector.hpp: vector::erase", "inc/ptl/vector.hpp: vector::resize", "inc/ptl/vector.hpp: vector::assign", "inc/ptl/vector.hpp: vector::swap", "inc/ptl/string.hpp: string::append", "inc/ptl/string.hpp: string::insert", "inc/ptl/string.hpp: string::replace", "inc/ptl/string.hpp: string::erase", "inc/ptl/string.hpp: string::substr", "inc/ptl/string.hpp: string::resize", "inc/ptl/string.hpp: string::assign"]}
{"id": "C114", "title": "an optional or variant that keeps holding a value of the same type keeps the object", "statement": "As with std::optional and std::variant, assignment, emplace and swap give the object already held a new value instead of replacing it by another object, provided that the optional has a value (the variant holds the same alternative) before and after the call. References to it, and to what is stored in it, stay good. In an optional, an object comes into existence only if there was none before the call and there is one after it; none does if the call throws.", "quantifier": "all element types, all calls, all values and all histories of calls, including calls that throw", "why_tests_cant": "Whether a reference still refers to the same object cannot be observed by comparing values; a new object in the same place looks the same to a test. Histories and element types are unbounded.", "anchors": ["inc/ptl/optional.hpp: optional::operator=", "inc/ptl/optional.hpp: optional::emplace", "inc/ptl/optional.hpp: optional::swap", "inc/ptl/optional.hpp: optional::reset", "inc/ptl/variant.hpp: variant::operator=", "inc/ptl/variant.hpp: variant::emplace", "inc/ptl/variant.hpp: variant::swap"]}
{"id": "C115", "title": "containers with equal contents cannot be told apart", "statement": "Two vectors, or two strings, with the same contents behave the same from then on, whatever their capacity, their history, and (for strings) whether they are in the internal buffer or on the heap: a program that uses them within the preconditions, and decides what to do next by what it reads, by the positions returned and by the exceptions it catches, sees the same and leaves the same contents behind, unless a call throws in one of the cases and not in the other. If nothing fails and nothing comes close to max_size(), no call throws.", "quantifier": "all element types, all pairs of reachable states with the same contents, all client programs (of any length, with decisions depending on all they have seen)", "why_tests_cant": "A test compares a few operations on a few representations; the claim is about all programs and all pairs of states, so that reserve, shrink_to_fit or a different history never change what a program computes.", "anchors": ["inc/ptl/vector.hpp: vector::insert_impl", "inc/ptl/vector.hpp: vector::reserve", "inc/ptl/vector.hpp: vector::shrink_to_fit", "inc/ptl/vector.hpp: vector::size", "inc/ptl/vector.hpp: vector::operator[]", "inc/ptl/string.hpp: string::reserve", "inc/ptl/string.hpp: string::shrink_to_fit", "inc/ptl/string.hpp: string::string", "inc/ptl/string.hpp: string::operator=", "inc/ptl/string.hpp: string::append"]}
{"id": "C116", "title": "a vector may grow little by little, in any way", "statement": "However a vector grows, by push_back, emplace, insert of any number of elements at any position, or resize, and whatever is removed from it in between, the number of elements that are relocated to new buffers is altogether at most proportional to the number of elements added: three per element added (six per element of a single-pass range, which is collected in a temporary vector first), and one per element that was there in the beginning. Calls that throw relocate nothing (at most three per element of a single-pass range).", "quantifier": "all element types, all states, all sequences of insertions and removals of any length and in any order, including insertions that throw", "why_tests_cant": "An asymptotic bound over all sequences of calls cannot be established by measuring some of them; a bound for push_back alone (C08) says nothing about mixtures, where spare capacity is left behind by removals or used up by large insertions.", "anchors": ["inc/ptl/vector.hpp: vector::insert_impl", "inc/ptl/vector.hpp: vector::resize_impl", "inc/ptl/vector.hpp: vector::push_back", "inc/ptl/vector.hpp: vector::emplace", "inc/ptl/vector.hpp: vector::insert", "inc/ptl/vector.hpp: vector::erase"]}
{"id": "C117", "title": "a vector holds memory for at most twice the elements it has needed room for, a string hardly more than needed", "statement": "If no vector of a program has had more than N elements at any time between two calls, and none was asked to reserve room for more than N, then no vector has a capacity greater than 2 N (or 10, the smallest buffer there is): not after any sequence of insertions, assignments, copies, moves, swaps, removals and failed calls, and not after inserting or assigning single-pass ranges, whose length is not known beforehand. Likewise, if no string has had more than N characters, and no more were reserved, then no string has a capacity greater than N + 23 (or 48, the smallest buffer there is); if N is at most 22, every string has the capacity 22 of the buffer inside of it.", "quantifier": "all element types, all histories of calls on any number of vectors or strings, all N, including calls that throw", "why_tests_cant": "A bound on memory over all histories cannot be measured; what one call leaves behind (spare capacity, buffers handed over by moves and swaps) is the input of the next one.", "anchors": ["inc/ptl/vector.hpp: vector::insert_impl", "inc/ptl/vector.hpp: vector::assign_impl", "inc/ptl/vector.hpp: vector::resize_impl", "inc/ptl/vector.hpp: vector::reserve", "inc/ptl/vector.hpp: vector::shrink_to_fit", "inc/ptl/vector.hpp: vector::swap", "inc/ptl/string.hpp: string::reserve", "inc/ptl/string.hpp: string::resize", "inc/ptl/string.hpp: string::append", "inc/ptl/string.hpp: string::assign", "inc/ptl/string.hpp: string::replace", "inc/ptl/string.hpp: string::shrink_to_fit"]}

{
 "C07": {
  "status": "partial",
  "note": "Proved for every call and count with size()+count < 2^64 (construction, resize and reserve: every count). For insert(pos,n,v)/assign(n,v) with size()+n >= 2^64 the sum wraps and the code writes past its buffer: C07_insert_refuted, C07_assign_refuted."
 },
 "C09": {
  "status": "partial",
  "note": "Proved for non-empty ranges, and for empty ranges behind which self-move-assignment changes no element (erase(end(), end()) among them). erase(it,it) self-move-assigns the tail: C09_empty_range, C09_refuted."
 },
 "C10": {
  "status": "partial",
  "note": "Proved for all histories of push_back/insert/emplace/erase/... A growing resize always reallocates and may reduce capacity(): C10_resize_always_reallocates, C10_resize_refuted."
 },
 "C16": {
  "status": "partial",
  "note": "Proved for every history whose forward-iterator calls do not throw midway. An iterator that throws after the terminator was overwritten leaves data()[size()] non-zero: C16_refuted."
 },
 "C18": {
  "status": "partial",
  "note": "Proved for every throwing call except those where a client iterator throws midway through append/insert/replace/assign of a forward range: C18_refuted."
 },
 "C20": {
  "status": "partial",
  "note": "Proved where size()+count does not wrap modulo 2^64 (storage rounding included). Beyond that the code writes out of bounds: C20_append_wraps_refuted, C20_refuted."
 },
 "C26": {
  "status": "partial",
  "note": "Amortised constant cost is false: growth is additive (24 bytes). Exact cost proved (C26_copied_partial), no linear bound exists (C26_refuted)."
 },
 "C27": {
  "status": "partial",
  "note": "Proved for literals without embedded NUL; the _s and _sr operators ignore the length argument: C27_refuted, C27_sr_refuted (what they denote exactly: C27_sr_exact)."
 },
 "C35": {
  "status": "partial",
  "note": "Proved for every Size > 0 (output format also for Size 0). For Size 0 reading back consumes whitespace or sets failbit: C35_refuted, C35_whitespace_refuted."
 },
 "C36": {
  "status": "partial",
  "note": "Proved for Size > 0 except when the input ends after 1..Size-1 digits; then the digits are stored but failbit is set: C36_early_end, C36_refuted."
 },
 "C37": {
  "status": "partial",
  "note": "reference::operator bool calls itself and never returns: C37_never_returns, C37_refuted. Writing and flipping through references and const reads are proved; ~ and reference assignment are proved for a conversion that returns the bit."
 },
 "C38": {
  "status": "partial",
  "note": "Proved for different indices (or one bitset) given a conversion to bool that returns the bit. False for equal indices in different bitsets (C38_refuted); the actual conversion never returns (C38_never_returns)."
 },
 "C62": {
  "status": "partial",
  "note": "Proved for width <= 1 and for Size 1. For wider fields only the first digit is padded: C62_refuted; exactly when the field has the right number of characters: C62_exact."
 },
 "C63": {
  "status": "partial",
  "note": "Proved for alternatives with T{x} equal to x, and constructors for which is_nothrow_constructible (parentheses) is right about braces. Otherwise false: C63_copy_refuted, C63_assign_refuted, C63_emplace_refuted (valueless variant, double destruction), C63_optional_refuted."
 },
 "C64": {
  "status": "partial",
  "note": "Proved for constructions that may throw. A construction that cannot throw runs after the old value was destroyed: C64_refuted, C64_own_value_is_destroyed_first."
 },
 "C65": {
  "status": "partial",
  "note": "Proved for variants not containing each other. Assignment from a part reads the source's tag after destroying it: C65_copy_from_part_refuted."
 },
 "C66": {
  "status": "partial",
  "note": "Proved for types without const. holds<const T>() compiles and is always false: C66_refuted, C66_const_never_held."
 },
 "C67": {
  "status": "partial",
  "note": "Proved for visitors with one result type. Otherwise results are converted to the result type for the first alternative: C67_refuted, C67_result; variant_ref: C67_ref_refuted."
 },
 "C59": {
  "status": "partial",
  "note": "Proved for functors bound as const objects and for classes that do not distinguish const from non-const. A const-qualified function_ref bound to a non-const functor calls the non-const overload: C59_refuted; with const noexcept it may terminate: C59_noexcept_refuted."
 },
 "C68": {
  "status": "partial",
  "note": "Proved for result types that are no references. With const T & or T && every result is a dangling reference: C68_always_dangling, C68_refuted (T & does not compile)."
 },
 "C69": {
  "status": "partial",
  "note": "Proved for the first alternative, and for all if the lifetimes of the nested storages had begun. The code begins none of them: C69_refuted, C69_ref_refuted, C69_change_refuted."
 },
 "C70": {
  "status": "partial",
  "note": "Proved for containers at addresses that suit the values (tuple: and following sizes that are multiples of the alignment), and for alignment 1. False otherwise, as #pragma pack(1) makes the containers' alignment 1: C70_optional_refuted, C70_variant_refuted, C70_tuple_refuted."
 },
 "C71": {
  "status": "partial",
  "note": "Proved where one alternative has the greatest size and alignment; exact condition: C71_exact. Otherwise the static assertion on the size may fail: C71_refuted."
 },
 "C73": {
  "status": "partial",
  "note": "Proved for ranges of elements of the same size. Ranges of larger derived classes are accepted and read with the wrong stride: C73_refuted, C73_inside_refuted."
 },
 "C74": {
  "status": "partial",
  "note": "Proved except for one-element tuples from non-const lvalues or const rvalues, and arrays from const rvalues, which choose the forwarding constructor: C74_tuple_refuted, C74_tuple_const_rvalue_refuted, C74_array_refuted."
 },
 "C75": {
  "status": "partial",
  "note": "Proved for rvalues and const lvalues of types convertible in both directions or neither. The constraint asks for the conversion from T to the argument: C75_lvalue_refuted, C75_conversion_refuted; exact condition: C75_exact."
 },
 "C76": {
  "status": "partial",
  "note": "Proved for element types whose T{x} copies or moves x, and for insert(pos, const T &) of all element types. emplace, push_back and tuple use braces: with an initializer_list constructor something else is stored, and the argument may be lost if that throws: C76_push_back_refuted, C76_lost_refuted, C76_tuple_refuted; what is stored: C76_push_back_exact, C76_insert_move_exact."
 },
 "C77": {
  "status": "partial",
  "note": "Proved if no element comparison on which the result depends throws. All operators are noexcept, so otherwise the program is terminated: C77_range_refuted, C77_tuple_refuted, C77_optional_refuted, C77_variant_refuted, C77_refuted."
 },
 "C78": {
  "status": "partial",
  "note": "Proved for constructions that may throw and for arguments from which all alternatives can be constructed. Otherwise the call does not compile: C78_other_refuted, C78_refuted; exact condition: C78_exact."
 },
 "C79": {
  "status": "partial",
  "note": "Whenever the call compiles the best visitor is called (C79_called, C79_called_ref). It compiles for one visitor and for rvalues of different non-final classes; not with lvalues or function pointers among several visitors: C79_lvalue_refuted, C79_function_refuted, C79_refuted."
 },
 "C80": {
  "status": "partial",
  "note": "Proved for vectors except insertions (and reading single-pass ranges), for these if twice the size fits, for strings up to 23 bytes below max_size(), and for optionals, variants, arrays and tuples. Growth by doubling refuses insertions into full vectors with more than max_size()/2 elements, and reserve(max_size()) of a string throws because of rounding: C80_refuted, C80_string_refuted; exact conditions: C80_insert_exact, C80_reserve_exact."
 },
 "C81": {
  "status": "partial",
  "note": "Contiguity, disjointness and extent are proved for all element types, alignment for types that are not over-aligned. calloc does not align for alignas above 16: C81_refuted."
 },
 "C83": {
  "status": "partial",
  "note": "Proved for array, array_ref and string_ref, and for equal kinds in all containers. vector and string have conversions in both directions, one of them private, so mixed expressions are ambiguous: C83_refuted; exact condition: C83_exact."
 },
 "C84": {
  "status": "partial",
  "note": "Proved for all operations with a ptl::string, and for string_ref with string_ref and C strings. string_ref with std::string_view is ambiguous and with std::string has no candidate: C84_ref_refuted; exact condition: C84_exact."
 },
 "C85": {
  "status": "partial",
  "note": "Proved for vector, string and variant, and for optional of classes that {} cannot initialise. For optional<int> and other non-classes o = {} stores a zero, for other classes it is ambiguous: C85_optional_refuted; exact condition: C85_optional_exact."
 },
 "C86": {
  "status": "partial",
  "note": "Proved for bitset functions without standard algorithms (all of them for size 0), for array construction, access and iteration, for creating function_ref to objects. False for the rest: C86_bitset_refuted, C86_array_exact, C86_refuted. With the rules of C++20 it holds for bitset and array (C86_bitset_cxx20, C86_array_cxx20)."
 },
 "C87": {
  "status": "partial",
  "note": "Proved for ranges of other strings and for calls that need a new buffer. False for the string's own bytes when there is room: C87_refuted for every such call, C87_exact says what happens instead."
 },
 "C89": {
  "status": "partial",
  "note": "Proved for all calls except vector::shrink_to_fit, the literal operator _s, and moves of optionals and variants whose element type's braces pick a throwing constructor from std::initializer_list; refuted for these (C89_vector_refuted, C89_string_refuted, C89_optional_refuted, C89_variant_refuted)."
 },
 "C90": {
  "status": "partial",
  "note": "Proved where the capacity suffices for the old and the new characters together (assign and replace with a range, copy assignment) or for the result (all other members); assign with input iterators always takes the buffer of a temporary. Refuted without that (C90_refuted); C90_exact says which capacity results, C90_new that of new strings."
 },
 "C91": {
  "status": "partial",
  "note": "Proved for every value whose conversion to Type does not change the result of the comparison, in particular for values of type Type; C91_exact shows that this is exactly when it holds. Refuted otherwise (C91_refuted): optional<int>{7} == 7.5. Types with a conversion function to the optional itself are not considered."
 },
 "C92": {
  "status": "partial",
  "note": "Proved for histories of any length of all these calls except resize to a larger size within the capacity. Refuted for that (C92_refuted): resize always allocates a new buffer when it grows, so every reference dangles (C92_resize: reading through it is undefined), even after reserve."
 },
 "C94": {
  "status": "partial",
  "note": "Proved for everything built from regular types with vector, string, optional, variant (within its limits on number, distinctness and sizes of alternatives), array, tuples of one component, bitset, array_ref, string_ref and optional_ref. Refuted for tuples of several components (no standard layout, C94_tuple_refuted) and variant_ref (copying is not noexcept and there is no move, C94_variant_ref_refuted), which go into nothing; for function_ref (no default constructor, C94_function_ref_refuted), which goes into optional and variant only; and for variant<T, optional<T>> of aligned T (C94_variant_refuted). C94_*_exact tell for every class template which types it takes."
 },
 "C95": {
  "status": "partial",
  "note": "Proved for all types in whose default construction no tuple with components takes part. Refuted for those (C95_refuted): the constructor template of tuple can be named without arguments, so the trait holds, but its body does not compile; a vector of such tuples compiles and cannot be resized. C95_exact is the characterisation."
 },
 "C96": {
  "status": "partial",
  "note": "Const access never becomes non-const (C96_array_const, C96_optional_const). array_ref: proved for ranges with data() and an unsigned size(); refuted for ranges with a signed size() or none, which the constraint accepts and the body does not compile for (C96_size_refuted), and for a pointer with the literal 0 (C96_count_refuted). optional_ref: proved for variables; refuted for temporaries of anything but optional_ref<T> (C96_temporary_refuted), where both the object and its value are a T (C96_both_refuted), for types converting to T, where it dangles (C96_converts_refuted), and where *x is no lvalue (C96_by_value_refuted). C96_array_exact and C96_optional_exact are the characterisations."
 },
 "C97": {
  "status": "partial",
  "note": "array_ref: proved for containers, arrays and array_ref; refuted for variables that are views of const elements, which do not compile (C97_view_refuted), and for const or temporary views of non-const elements, where the elements become const (C97_mutable_view_refuted). optional_ref: proved for variables that own their value or have no operator*, and for optional_ref; refuted for temporaries and iterators, which do not compile (C97_temporary_refuted, C97_iterator_refuted), and const pointers, where the value becomes const (C97_pointer_refuted). C97_array_exact, C97_array_compiles and C97_optional_exact are the characterisations."
 },
 "C98": {
  "status": "partial",
  "note": "Proved for function_refs of one signature (C98_same_partial), and for conversions between signatures as long as no function_ref is changed or destroyed while one of another signature made from it lives (C98_partial). Refuted otherwise: a function_ref of another signature is treated like a functor, so the new function_ref refers to the old one, not to its callable; it follows assignments to the old one (C98_assigned_refuted), dangles when that is gone (C98_destroyed_refuted), and recurses without end when assigned back (C98_cycle_refuted). C98_exact tells what a call does."
 },
 "C99": {
  "status": "partial",
  "note": "Proved for programs in which no vector has elements of a class that is not complete yet (C99_partial), in particular for all references (C99_references). Refuted for vectors, whose static assertions ask for complete elements (C99_vector_refuted), so that no program has a class that owns objects of itself (C99_tree_refuted). C99_exact is the characterisation."
 },
 "C100": {
  "status": "partial",
  "note": "Proved for the standard categories (C100_partial); no iterator is used twice that must not be (C100_safe). Refuted for categories derived from std::input_iterator_tag and not from std::forward_iterator_tag, which are compared with std::is_same and rejected (C100_refuted). C100_exact is the characterisation."
 },
 "C102": {
  "status": "partial",
  "note": "Proved for all types without vectors and arrays of several elements (C102_partial); strings and bitsets take no number (C102_explicit). Refuted for every vector, where the number is the number of elements (C102_vector_refuted; v = n replaces the contents, C102_assign_refuted), and arrays of several numbers (C102_array_refuted). C102_exact is the characterisation, also for nested types; C102_accepted says exactly which types accept a number."
 },
 "C103": {
  "status": "partial",
  "note": "Proved for tuples of several elements (C103_tuple_partial) and arrays except copies of const xvalues (C103_array_partial); every name is for another element and every element has a name (C103_distinct). Refuted for copies of one-element tuples, where the forwarding constructor is chosen (C103_tuple_refuted), and of const xvalues of arrays, which do not compile (C103_array_refuted). C103_tuple_exact and C103_array_exact are the characterisations."
 },
 "C105": {
  "status": "partial",
  "note": "Proved for the classes that contain their elements (C105_const, C105_mutable), for references to const types (C105_const_element), and for the reference classes except begin, end, rbegin and rend of array_ref (C105_refs_partial). Refuted for these: a const array_ref<T> gives const iterators although its other functions, and the iterators of a copy of it, give non-const elements (C105_refs_refuted)."
 },
 "C106": {
  "status": "partial",
  "note": "Proved for function_ref (C106_function_ref, C106_function_ref_other), and for optional from objects that are not const rvalues (C106_optional_partial), array from rvalues and const lvalues of objects (C106_array_partial), tuple except for copies of a one-element tuple (C106_tuple_partial), vector except for one that converts to its own element type (C106_vector_partial). Refuted for the rest: C106_optional_const_rvalue_refuted, C106_optional_array_refuted, C106_optional_function_refuted, C106_array_lvalue_refuted, C106_array_array_refuted, C106_array_function_refuted, C106_array_const_rvalue_refuted, C106_tuple_refuted, C106_vector_refuted."
 },
 "C108": {
  "status": "partial",
  "note": "Refuted for every header (C108_refuted): each uses names that none of the headers it includes has to declare (C108_names_refuted lists them, e.g. std::invoke in function_ref.hpp, std::forward and std::tuple_size in tuple.hpp). Proved: array_ref.hpp compiles if <iterator> declares size_t and ptrdiff_t (C108_array_ref_partial); every header compiles after the standard headers named in C108_remedy_partial, all of which are needed (C108_remedy_minimal)."
 },
 "C114": {
  "status": "partial",
  "note": "Proved for optional (C114_optional, C114_optional_history), and for swap of two variants holding the same alternative (C114_variant_partial). Refuted for assignment to a variant and emplace: C114_variant_refuted; that happens in all states: C114_variant_assignMove, C114_variant_assignValue, C114_variant_emplace."
 },
 "C115": {
  "status": "partial",
  "note": "Proved for vectors (C115_vector, C115_vector_runs) and for strings that are not moved from (C115_string_partial, C115_string_runs). Refuted for moving from strings: what is left in a string that was moved from depends on whether it was on the heap (C115_string_refuted)."
 },
 "C116": {
  "status": "partial",
  "note": "Proved for all mixtures of insertions and removals (C116_partial; the elements of a single-pass range count twice, as they are collected in a temporary vector first). Refuted for resize: every resize to a greater size relocates all elements (C116_resize), so that growing one by one relocates a quadratic number (C116_refuted)."
 }
}
{
 "claims": [
  {
   "property": "C01",
   "status": "proved",
   "theorems": [
    "Ptl.Vector.C01_contents",
    "Ptl.Vector.C01_call",
    "Ptl.Vector.C01_throws_only_for_a_reason",
    "Ptl.Vector.C01_frame",
    "Ptl.Vector.C01_spec_deterministic"
   ],
   "note": ""
  },
  {
   "property": "C02",
   "status": "proved",
   "theorems": [
    "Ptl.Vector.C02_no_undefined_behaviour",
    "Ptl.Vector.C02_every_buffer_is_owned",
    "Ptl.Vector.C02_no_leak"
   ],
   "note": ""
  },
  {
   "property": "C03",
   "status": "proved",
   "theorems": [
    "Ptl.Vector.C03_strong_guarantee",
    "Ptl.Vector.C03_observation"
   ],
   "note": ""
  },
  {
   "property": "C04",
   "status": "proved",
   "theorems": [
    "Ptl.Vector.C04_insert_fill",
    "Ptl.Vector.C04_insert_range",
    "Ptl.Vector.C04_assign_range",
    "Ptl.Vector.C04_assign_fill",
    "Ptl.Vector.C04_emplace",
    "Ptl.Vector.C04_push_back",
    "Ptl.Vector.C04_push_back_move",
    "Ptl.Vector.C04_emplace_move",
    "Ptl.Vector.C04_resize"
   ],
   "note": ""
  },
  {
   "property": "C05",
   "status": "proved",
   "theorems": [
    "Ptl.Vector.C05_capacity"
   ],
   "note": ""
  },
  {
   "property": "C06",
   "status": "proved",
   "theorems": [
    "Ptl.Vector.C06_insert_in_place",
    "Ptl.Vector.C06_insert_input_in_place",
    "Ptl.Vector.C06_shrink_in_place"
   ],
   "note": ""
  },
  {
   "property": "C07",
   "status": "partial",
   "theorems": [
    "Ptl.Vector.C07_insert_partial",
    "Ptl.Vector.C07_assign_fill_partial",
    "Ptl.Vector.C07_assign_range_partial",
    "Ptl.Vector.C07_resize",
    "Ptl.Vector.C07_resize_fill",
    "Ptl.Vector.C07_reserve",
    "Ptl.Vector.C07_construct_count",
    "Ptl.Vector.C07_construct_fill",
    "Ptl.Vector.C07_construct_range",
    "Ptl.Vector.C07_never_exceeded",
    "Ptl.Vector.C07_insert_refuted",
    "Ptl.Vector.C07_assign_refuted"
   ],
   "note": "Proved for every call and count with size()+count < 2^64 (construction, resize and reserve: every count). For insert(pos,n,v)/assign(n,v) with size()+n >= 2^64 the sum wraps and the code writes past its buffer: C07_insert_refuted, C07_assign_refuted."
  },
  {
   "property": "C08",
   "status": "proved",
   "theorems": [
    "Ptl.Vector.C08_amortised_constant",
    "Ptl.Vector.C08_logarithmic_reallocations"
   ],
   "note": ""
  },
  {
   "property": "C09",
   "status": "partial",
   "theorems": [
    "Ptl.Vector.C09_erase_partial",
    "Ptl.Vector.C09_empty_range",
    "Ptl.Vector.C09_refuted"
   ],
   "note": "Proved for non-empty ranges, and for empty ranges behind which self-move-assignment changes no element (erase(end(), end()) among them). erase(it,it) self-move-assigns the tail: C09_empty_range, C09_refuted."
  },
  {
   "property": "C10",
   "status": "partial",
   "theorems": [
    "Ptl.Vector.C10_reserve",
    "Ptl.Vector.C10_no_reallocation_partial",
    "Ptl.Vector.C10_resize_always_reallocates",
    "Ptl.Vector.C10_resize_refuted"
   ],
   "note": "Proved for all histories of push_back/insert/emplace/erase/... A growing resize always reallocates and may reduce capacity(): C10_resize_always_reallocates, C10_resize_refuted."
  },
  {
   "property": "C11",
   "status": "proved",
   "theorems": [
    "Ptl.Vector.C11_shrink_to_fit"
   ],
   "note": ""
  },
  {
   "property": "C12",
   "status": "proved",
   "theorems": [
    "Ptl.Vector.C12_copy_construct",
    "Ptl.Vector.C12_copy_assign",
    "Ptl.Vector.C12_independent",
    "Ptl.Vector.C12_move_construct",
    "Ptl.Vector.C12_move_assign",
    "Ptl.Vector.C12_swap",
    "Ptl.Vector.C12_self"
   ],
   "note": ""
  },
  {
   "property": "C13",
   "status": "proved",
   "theorems": [
    "Ptl.Vector.C13_less",
    "Ptl.Vector.C13_equal",
    "Ptl.Vector.C13_equal_iff_same",
    "Ptl.Vector.C13_consistent",
    "Ptl.Vector.C13_strict_weak_order",
    "Ptl.Vector.C13_strict_total_order"
   ],
   "note": ""
  },
  {
   "property": "C14",
   "status": "proved",
   "theorems": [
    "Ptl.Vector.C14_construct",
    "Ptl.Vector.C14_assign",
    "Ptl.Vector.C14_insert"
   ],
   "note": ""
  },
  {
   "property": "C15",
   "status": "proved",
   "theorems": [
    "Ptl.Str.C15_contents",
    "Ptl.Str.C15_call",
    "Ptl.Str.C15_throws_only_for_a_reason",
    "Ptl.Str.C15_frame",
    "Ptl.Str.C15_spec_deterministic"
   ],
   "note": ""
  },
  {
   "property": "C16",
   "status": "partial",
   "theorems": [
    "Ptl.Str.C16_initialised",
    "Ptl.Str.C16_terminated_partial",
    "Ptl.Str.C16_preserved",
    "Ptl.Str.C16_refuted"
   ],
   "note": "Proved for every history whose forward-iterator calls do not throw midway. An iterator that throws after the terminator was overwritten leaves data()[size()] non-zero: C16_refuted."
  },
  {
   "property": "C17",
   "status": "proved",
   "theorems": [
    "Ptl.Str.C17_representation",
    "Ptl.Str.C17_no_undefined_behaviour",
    "Ptl.Str.C17_every_buffer_is_owned",
    "Ptl.Str.C17_no_leak"
   ],
   "note": ""
  },
  {
   "property": "C18",
   "status": "partial",
   "theorems": [
    "Ptl.Str.C18_strong_guarantee_partial",
    "Ptl.Str.C18_observation_partial",
    "Ptl.Str.C18_iterators",
    "Ptl.Str.C18_refuted"
   ],
   "note": "Proved for every throwing call except those where a client iterator throws midway through append/insert/replace/assign of a forward range: C18_refuted."
  },
  {
   "property": "C19",
   "status": "proved",
   "theorems": [
    "Ptl.Str.C19_append",
    "Ptl.Str.C19_assign",
    "Ptl.Str.C19_insert",
    "Ptl.Str.C19_replace",
    "Ptl.Str.C19_append_input"
   ],
   "note": ""
  },
  {
   "property": "C20",
   "status": "partial",
   "theorems": [
    "Ptl.Str.C20_no_longer_than_max_size",
    "Ptl.Str.C20_reserve",
    "Ptl.Str.C20_beyond_max_size_partial",
    "Ptl.Str.C20_append_wraps_refuted",
    "Ptl.Str.C20_refuted"
   ],
   "note": "Proved where size()+count does not wrap modulo 2^64 (storage rounding included). Beyond that the code writes out of bounds: C20_append_wraps_refuted, C20_refuted."
  },
  {
   "property": "C21",
   "status": "proved",
   "theorems": [
    "Ptl.Str.C21_copy_constructor",
    "Ptl.Str.C21_copy_assignment",
    "Ptl.Str.C21_independent",
    "Ptl.Str.C21_move_constructor",
    "Ptl.Str.C21_move_assignment",
    "Ptl.Str.C21_swap",
    "Ptl.Str.C21_self"
   ],
   "note": ""
  },
  {
   "property": "C22",
   "status": "proved",
   "theorems": [
    "Ptl.Str.C22_shrink_to_fit"
   ],
   "note": ""
  },
  {
   "property": "C23",
   "status": "proved",
   "theorems": [
    "Ptl.Str.C23_replace_range",
    "Ptl.Str.C23_replace_input",
    "Ptl.Str.C23_replace_ilist",
    "Ptl.Str.C23_replace_fill"
   ],
   "note": ""
  },
  {
   "property": "C24",
   "status": "proved",
   "theorems": [
    "Ptl.Str.C24_substr",
    "Ptl.Str.C24_substr_count",
    "Ptl.Str.C24_substr_consuming",
    "Ptl.Str.C24_substr_count_consuming"
   ],
   "note": ""
  },
  {
   "property": "C25",
   "status": "proved",
   "theorems": [
    "Ptl.Str.C25_string_string",
    "Ptl.Str.C25_string_view",
    "Ptl.Str.C25_view_string",
    "Ptl.Str.C25_total_order",
    "Ptl.Str.C25_hash"
   ],
   "note": ""
  },
  {
   "property": "C26",
   "status": "partial",
   "theorems": [
    "Ptl.Str.C26_copied_partial",
    "Ptl.Str.C26_within_capacity",
    "Ptl.Str.C26_refuted"
   ],
   "note": "Amortised constant cost is false: growth is additive (24 bytes). Exact cost proved (C26_copied_partial), no linear bound exists (C26_refuted)."
  },
  {
   "property": "C27",
   "status": "partial",
   "theorems": [
    "Ptl.Str.C27_literal_partial",
    "Ptl.Str.C27_refuted",
    "Ptl.View.C27_sr_exact",
    "Ptl.View.C27_sr_refuted",
    "Ptl.View.C27_sr_partial"
   ],
   "note": "Proved for literals without embedded NUL; the _s and _sr operators ignore the length argument: C27_refuted, C27_sr_refuted (what they denote exactly: C27_sr_exact)."
  },
  {
   "property": "C28",
   "status": "proved",
   "theorems": [
    "Ptl.Str.C28_concat",
    "Ptl.Str.C28_string_string"
   ],
   "note": ""
  },
  {
   "property": "C29",
   "status": "proved",
   "theorems": [
    "Ptl.Bitset.C29_refines",
    "Ptl.Bitset.C29_unused_bits_clear",
    "Ptl.Bitset.C29_operators"
   ],
   "note": ""
  },
  {
   "property": "C30",
   "status": "proved",
   "theorems": [
    "Ptl.Bitset.C30_eq_iff",
    "Ptl.Bitset.C30_hash"
   ],
   "note": ""
  },
  {
   "property": "C31",
   "status": "proved",
   "theorems": [
    "Ptl.Bitset.C31_queries",
    "Ptl.Bitset.C31_bool"
   ],
   "note": ""
  },
  {
   "property": "C32",
   "status": "proved",
   "theorems": [
    "Ptl.Bitset.C32_shifts"
   ],
   "note": ""
  },
  {
   "property": "C33",
   "status": "proved",
   "theorems": [
    "Ptl.Bitset.C33_out_of_range",
    "Ptl.Bitset.C33_in_range",
    "Ptl.Bitset.C33_get"
   ],
   "note": ""
  },
  {
   "property": "C34",
   "status": "proved",
   "theorems": [
    "Ptl.Bitset.C34_from_integer"
   ],
   "note": ""
  },
  {
   "property": "C35",
   "status": "partial",
   "theorems": [
    "Ptl.Bitset.C35_roundtrip_partial",
    "Ptl.Bitset.C35_output",
    "Ptl.Bitset.C35_refuted",
    "Ptl.Bitset.C35_whitespace_refuted"
   ],
   "note": "Proved for every Size > 0 (output format also for Size 0). For Size 0 reading back consumes whitespace or sets failbit: C35_refuted, C35_whitespace_refuted."
  },
  {
   "property": "C36",
   "status": "partial",
   "theorems": [
    "Ptl.Bitset.C36_extraction_partial",
    "Ptl.Bitset.C36_not_good",
    "Ptl.Bitset.C36_early_end",
    "Ptl.Bitset.C36_refuted"
   ],
   "note": "Proved for Size > 0 except when the input ends after 1..Size-1 digits; then the digits are stored but failbit is set: C36_early_end, C36_refuted."
  },
  {
   "property": "C37",
   "status": "partial",
   "theorems": [
    "Ptl.Bitset.C37_never_returns",
    "Ptl.Bitset.C37_refuted",
    "Ptl.Bitset.C37_write_partial",
    "Ptl.Bitset.C37_value_partial"
   ],
   "note": "reference::operator bool calls itself and never returns: C37_never_returns, C37_refuted. Writing and flipping through references and const reads are proved; ~ and reference assignment are proved for a conversion that returns the bit."
  },
  {
   "property": "C38",
   "status": "partial",
   "theorems": [
    "Ptl.Bitset.C38_swap_partial",
    "Ptl.Bitset.C38_same_index",
    "Ptl.Bitset.C38_refuted",
    "Ptl.Bitset.C38_never_returns"
   ],
   "note": "Proved for different indices (or one bitset) given a conversion to bool that returns the bit. False for equal indices in different bitsets (C38_refuted); the actual conversion never returns (C38_never_returns)."
  },
  {
   "property": "C39",
   "status": "proved",
   "theorems": [
    "Ptl.Variant.C39_contents",
    "Ptl.Variant.C39_never_valueless",
    "Ptl.Variant.C39_call",
    "Ptl.Variant.C39_throws_only_for_a_reason"
   ],
   "note": ""
  },
  {
   "property": "C40",
   "status": "proved",
   "theorems": [
    "Ptl.Variant.C40_lifetimes",
    "Ptl.Variant.C40_no_leak"
   ],
   "note": ""
  },
  {
   "property": "C41",
   "status": "proved",
   "theorems": [
    "Ptl.Variant.C41_strong_guarantee",
    "Ptl.Variant.C41_observation"
   ],
   "note": ""
  },
  {
   "property": "C42",
   "status": "proved",
   "theorems": [
    "Ptl.Variant.C42_holds_one",
    "Ptl.Variant.C42_get_if",
    "Ptl.Variant.C42_get",
    "Ptl.Variant.C42_visit"
   ],
   "note": ""
  },
  {
   "property": "C43",
   "status": "proved",
   "theorems": [
    "Ptl.Variant.C43_compare",
    "Ptl.Variant.C43_weak_order",
    "Ptl.Variant.C43_total_order"
   ],
   "note": ""
  },
  {
   "property": "C44",
   "status": "proved",
   "theorems": [
    "Ptl.Variant.C44_copy_construct",
    "Ptl.Variant.C44_copy_assign",
    "Ptl.Variant.C44_move_construct",
    "Ptl.Variant.C44_move_assign",
    "Ptl.Variant.C44_swap",
    "Ptl.Variant.C44_self",
    "Ptl.Variant.C44_others"
   ],
   "note": ""
  },
  {
   "property": "C45",
   "status": "proved",
   "theorems": [
    "Ptl.Variant.C45_position",
    "Ptl.Variant.C45_distinct",
    "Ptl.Variant.C45_not_found",
    "Ptl.Variant.C45_accepted",
    "Ptl.Variant.C45_type_of_index",
    "Ptl.Variant.C45_limit_needed"
   ],
   "note": ""
  },
  {
   "property": "C46",
   "status": "proved",
   "theorems": [
    "Ptl.Optional.C46_contents",
    "Ptl.Optional.C46_flag",
    "Ptl.Optional.C46_call",
    "Ptl.Optional.C46_throws_only_for_a_reason",
    "Ptl.Optional.C46_no_leak"
   ],
   "note": ""
  },
  {
   "property": "C47",
   "status": "proved",
   "theorems": [
    "Ptl.Optional.C47_empty_stays_empty",
    "Ptl.Optional.C47_full_stays_full",
    "Ptl.Optional.C47_emplace",
    "Ptl.Optional.C47_construct",
    "Ptl.Optional.C47_others",
    "Ptl.Optional.C47_strong",
    "Ptl.Optional.C47_nothrow"
   ],
   "note": ""
  },
  {
   "property": "C48",
   "status": "proved",
   "theorems": [
    "Ptl.Optional.C48_has_value",
    "Ptl.Optional.C48_value",
    "Ptl.Optional.C48_value_writes",
    "Ptl.Optional.C48_value_or_full",
    "Ptl.Optional.C48_value_or_move_full",
    "Ptl.Optional.C48_value_or_empty"
   ],
   "note": ""
  },
  {
   "property": "C49",
   "status": "proved",
   "theorems": [
    "Ptl.Optional.C49_compare",
    "Ptl.Optional.C49_nullopt",
    "Ptl.Optional.C49_value",
    "Ptl.Optional.C49_weak_order",
    "Ptl.Optional.C49_total_order",
    "Ptl.Optional.C49_empty_least"
   ],
   "note": ""
  },
  {
   "property": "C50",
   "status": "proved",
   "theorems": [
    "Ptl.Optional.C50_swap",
    "Ptl.Optional.C50_swap_self",
    "Ptl.Optional.C50_move_construct",
    "Ptl.Optional.C50_move_assign",
    "Ptl.Optional.C50_move_assign_self",
    "Ptl.Optional.C50_others"
   ],
   "note": ""
  },
  {
   "property": "C51",
   "status": "proved",
   "theorems": [
    "Ptl.OptRef.C51_refers",
    "Ptl.OptRef.C51_call",
    "Ptl.OptRef.C51_bind",
    "Ptl.OptRef.C51_reads",
    "Ptl.OptRef.C51_reads_plain",
    "Ptl.OptRef.C51_writes",
    "Ptl.OptRef.C51_empty",
    "Ptl.OptRef.C51_full",
    "Ptl.OptRef.C51_stable",
    "Ptl.OptRef.C51_assign",
    "Ptl.OptRef.C51_value_or",
    "Ptl.OptRef.C51_value_or_default",
    "Ptl.OptRef.C51_dangles"
   ],
   "note": ""
  },
  {
   "property": "C52",
   "status": "proved",
   "theorems": [
    "Ptl.VarRef.C52_alternatives",
    "Ptl.VarRef.C52_accepts",
    "Ptl.VarRef.C52_rejects",
    "Ptl.VarRef.C52_binds",
    "Ptl.VarRef.C52_unique",
    "Ptl.VarRef.C52_const_safe",
    "Ptl.VarRef.C52_refers",
    "Ptl.VarRef.C52_call",
    "Ptl.VarRef.C52_typed",
    "Ptl.VarRef.C52_const_object",
    "Ptl.VarRef.C52_assign",
    "Ptl.VarRef.C52_copy",
    "Ptl.VarRef.C52_reads",
    "Ptl.VarRef.C52_writes",
    "Ptl.VarRef.C52_visit",
    "Ptl.VarRef.C52_copy_dangling"
   ],
   "note": ""
  },
  {
   "property": "C53",
   "status": "proved",
   "theorems": [
    "Ptl.View.C53_shows",
    "Ptl.View.C53_call",
    "Ptl.View.C53_first",
    "Ptl.View.C53_last",
    "Ptl.View.C53_subrange_from",
    "Ptl.View.C53_subrange",
    "Ptl.View.C53_remove_prefix",
    "Ptl.View.C53_remove_suffix",
    "Ptl.View.C53_compose",
    "Ptl.View.C53_within",
    "Ptl.View.C53_write",
    "Ptl.View.C53_cstr"
   ],
   "note": ""
  },
  {
   "property": "C54",
   "status": "proved",
   "theorems": [
    "Ptl.View.C54_compare",
    "Ptl.View.C54_total_order",
    "Ptl.View.C54_hash",
    "Ptl.View.C54_view"
   ],
   "note": ""
  },
  {
   "property": "C55",
   "status": "proved",
   "theorems": [
    "Ptl.Arr.C55_no_spurious",
    "Ptl.Arr.C55_shows",
    "Ptl.Arr.C55_call",
    "Ptl.Arr.C55_fill",
    "Ptl.Arr.C55_swap",
    "Ptl.Arr.C55_independent",
    "Ptl.Arr.C55_less",
    "Ptl.Arr.C55_equal",
    "Ptl.Arr.C55_equal_iff_same",
    "Ptl.Arr.C55_consistent",
    "Ptl.Arr.C55_strict_weak_order",
    "Ptl.Arr.C55_strict_total_order"
   ],
   "note": ""
  },
  {
   "property": "C56",
   "status": "proved",
   "theorems": [
    "Ptl.Arr.C56_array",
    "Ptl.Iter.C56_vector",
    "Ptl.Iter.C56_string",
    "Ptl.Iter.C56_view",
    "Ptl.Iter.C56_add",
    "Ptl.Iter.C56_sub",
    "Ptl.Iter.C56_position",
    "Ptl.Iter.C56_add_sub",
    "Ptl.Iter.C56_diff",
    "Ptl.Iter.C56_distance",
    "Ptl.Iter.C56_add_add",
    "Ptl.Iter.C56_index",
    "Ptl.Iter.C56_element",
    "Ptl.Iter.C56_deref",
    "Ptl.Iter.C56_deref_distinct",
    "Ptl.Iter.C56_deref_end",
    "Ptl.Iter.C56_steps",
    "Ptl.Iter.C56_post",
    "Ptl.Iter.C56_inc_dec",
    "Ptl.Iter.C56_dec_inc",
    "Ptl.Iter.C56_compare",
    "Ptl.Iter.C56_null",
    "Ptl.Iter.C56_convert",
    "Ptl.Iter.C56_end",
    "Ptl.Iter.C56_traverse",
    "Ptl.Iter.C56_traverse_reverse",
    "Ptl.Iter.C56_traverse_back",
    "Ptl.Iter.C56_traverse_index"
   ],
   "note": ""
  },
  {
   "property": "C57",
   "status": "proved",
   "theorems": [
    "Ptl.Tuple.C57_shows",
    "Ptl.Tuple.C57_call",
    "Ptl.Tuple.C57_wrong_count",
    "Ptl.Tuple.C57_construct",
    "Ptl.Tuple.C57_set",
    "Ptl.Tuple.C57_swap",
    "Ptl.Tuple.C57_tuple_element",
    "Ptl.Tuple.C57_equal",
    "Ptl.Tuple.C57_equal_iff_same",
    "Ptl.Tuple.C57_less",
    "Ptl.Tuple.C57_consistent",
    "Ptl.Tuple.C57_strict_weak_order",
    "Ptl.Tuple.C57_strict_total_order"
   ],
   "note": ""
  },
  {
   "property": "C58",
   "status": "proved",
   "theorems": [
    "Ptl.Fun.C58_bind",
    "Ptl.Fun.C58_once",
    "Ptl.Fun.C58_result",
    "Ptl.Fun.C58_result_ref",
    "Ptl.Fun.C58_void",
    "Ptl.Fun.C58_throws",
    "Ptl.Fun.C58_dangling",
    "Ptl.Fun.C58_constness"
   ],
   "note": ""
  },
  {
   "property": "C59",
   "status": "partial",
   "theorems": [
    "Ptl.Fun.C59_bound_const_partial",
    "Ptl.Fun.C59_same_partial",
    "Ptl.Fun.C59_refuted",
    "Ptl.Fun.C59_noexcept_refuted"
   ],
   "note": "Proved for functors bound as const objects and for classes that do not distinguish const from non-const. A const-qualified function_ref bound to a non-const functor calls the non-const overload: C59_refuted; with const noexcept it may terminate: C59_noexcept_refuted."
  },
  {
   "property": "C60",
   "status": "proved",
   "theorems": [
    "Ptl.Vector.C60_at",
    "Ptl.Vector.C60_read",
    "Ptl.Vector.C60_write"
   ],
   "note": ""
  },
  {
   "property": "C61",
   "status": "proved",
   "theorems": [
    "Ptl.Str.C61_at",
    "Ptl.Str.C61_index",
    "Ptl.Str.C61_string_view",
    "Ptl.Str.C61_write"
   ],
   "note": ""
  },
  {
   "property": "C62",
   "status": "partial",
   "theorems": [
    "Ptl.Bitset.C62_width_partial",
    "Ptl.Bitset.C62_refuted",
    "Ptl.Bitset.C62_one_partial",
    "Ptl.Bitset.C62_exact"
   ],
   "note": "Proved for width <= 1 and for Size 1. For wider fields only the first digit is padded: C62_refuted; exactly when the field has the right number of characters: C62_exact."
  },
  {
   "property": "C63",
   "status": "partial",
   "theorems": [
    "Ptl.Optional.C63_optional_refuted",
    "Ptl.Optional.C63_optional_partial",
    "Ptl.Variant.C63_copy_refuted",
    "Ptl.Variant.C63_assign_refuted",
    "Ptl.Variant.C63_emplace_refuted",
    "Ptl.Variant.C63_copy_partial"
   ],
   "note": "Proved for alternatives with T{x} equal to x, and constructors for which is_nothrow_constructible (parentheses) is right about braces. Otherwise false: C63_copy_refuted, C63_assign_refuted, C63_emplace_refuted (valueless variant, double destruction), C63_optional_refuted."
  },
  {
   "property": "C64",
   "status": "partial",
   "theorems": [
    "Ptl.Variant.C64_refuted",
    "Ptl.Variant.C64_own_value_is_destroyed_first",
    "Ptl.Variant.C64_partial"
   ],
   "note": "Proved for constructions that may throw. A construction that cannot throw runs after the old value was destroyed: C64_refuted, C64_own_value_is_destroyed_first."
  },
  {
   "property": "C65",
   "status": "partial",
   "theorems": [
    "Ptl.Variant.C65_copy_from_part_refuted",
    "Ptl.Variant.C65_copy_partial"
   ],
   "note": "Proved for variants not containing each other. Assignment from a part reads the source's tag after destroying it: C65_copy_from_part_refuted."
  },
  {
   "property": "C66",
   "status": "partial",
   "theorems": [
    "Ptl.Variant.C66_refuted",
    "Ptl.Variant.C66_const_never_held",
    "Ptl.Variant.C66_partial"
   ],
   "note": "Proved for types without const. holds<const T>() compiles and is always false: C66_refuted, C66_const_never_held."
  },
  {
   "property": "C67",
   "status": "partial",
   "theorems": [
    "Ptl.VarRef.C67_ref_refuted",
    "Ptl.VarRef.C67_ref_partial",
    "Ptl.Variant.C67_result",
    "Ptl.Variant.C67_refuted",
    "Ptl.Variant.C67_partial"
   ],
   "note": "Proved for visitors with one result type. Otherwise results are converted to the result type for the first alternative: C67_refuted, C67_result; variant_ref: C67_ref_refuted."
  },
  {
   "property": "C68",
   "status": "partial",
   "theorems": [
    "Ptl.Fun.C68_value_partial",
    "Ptl.Fun.C68_always_dangling",
    "Ptl.Fun.C68_refuted"
   ],
   "note": "Proved for result types that are no references. With const T & or T && every result is a dangling reference: C68_always_dangling, C68_refuted (T & does not compile)."
  },
  {
   "property": "C69",
   "status": "partial",
   "theorems": [
    "Ptl.Union.C69_first_partial",
    "Ptl.Union.C69_ref_first_partial",
    "Ptl.Union.C69_begun_partial",
    "Ptl.Union.C69_ref_begun_partial",
    "Ptl.Union.C69_refuted",
    "Ptl.Union.C69_ref_refuted",
    "Ptl.Union.C69_change_refuted"
   ],
   "note": "Proved for the first alternative, and for all if the lifetimes of the nested storages had begun. The code begins none of them: C69_refuted, C69_ref_refuted, C69_change_refuted."
  },
  {
   "property": "C70",
   "status": "partial",
   "theorems": [
    "Ptl.Layout.C70_variant_partial",
    "Ptl.Layout.C70_optional_partial",
    "Ptl.Layout.C70_bytes_partial",
    "Ptl.Layout.C70_tuple_partial",
    "Ptl.Layout.C70_optional_refuted",
    "Ptl.Layout.C70_variant_refuted",
    "Ptl.Layout.C70_tuple_refuted"
   ],
   "note": "Proved for containers at addresses that suit the values (tuple: and following sizes that are multiples of the alignment), and for alignment 1. False otherwise, as #pragma pack(1) makes the containers' alignment 1: C70_optional_refuted, C70_variant_refuted, C70_tuple_refuted."
  },
  {
   "property": "C71",
   "status": "partial",
   "theorems": [
    "Ptl.Layout.C71_exact",
    "Ptl.Layout.C71_partial",
    "Ptl.Layout.C71_refuted"
   ],
   "note": "Proved where one alternative has the greatest size and alignment; exact condition: C71_exact. Otherwise the static assertion on the size may fail: C71_refuted."
  },
  {
   "property": "C72",
   "status": "proved",
   "theorems": [
    "Ptl.Layout.C72_optional",
    "Ptl.Layout.C72_tuple",
    "Ptl.Layout.C72_tuple_exact",
    "Ptl.Layout.C72_variant",
    "Ptl.Layout.C72_tuple_apart",
    "Ptl.Layout.C72_variant_apart",
    "Ptl.Layout.C72_optional_apart"
   ],
   "note": ""
  },
  {
   "property": "C73",
   "status": "partial",
   "theorems": [
    "Ptl.Layout.C73_partial",
    "Ptl.Layout.C73_refuted",
    "Ptl.Layout.C73_inside_refuted"
   ],
   "note": "Proved for ranges of elements of the same size. Ranges of larger derived classes are accepted and read with the wrong stride: C73_refuted, C73_inside_refuted."
  },
  {
   "property": "C74",
   "status": "partial",
   "theorems": [
    "Ptl.Overload.C74_tuple_partial",
    "Ptl.Overload.C74_tuple_one_partial",
    "Ptl.Overload.C74_tuple_refuted",
    "Ptl.Overload.C74_tuple_const_rvalue_refuted",
    "Ptl.Overload.C74_array_partial",
    "Ptl.Overload.C74_array_refuted"
   ],
   "note": "Proved except for one-element tuples from non-const lvalues or const rvalues, and arrays from const rvalues, which choose the forwarding constructor: C74_tuple_refuted, C74_tuple_const_rvalue_refuted, C74_array_refuted."
  },
  {
   "property": "C75",
   "status": "partial",
   "theorems": [
    "Ptl.Overload.C75_exact",
    "Ptl.Overload.C75_partial",
    "Ptl.Overload.C75_lvalue_refuted",
    "Ptl.Overload.C75_conversion_refuted"
   ],
   "note": "Proved for rvalues and const lvalues of types convertible in both directions or neither. The constraint asks for the conversion from T to the argument: C75_lvalue_refuted, C75_conversion_refuted; exact condition: C75_exact."
  },
  {
   "property": "C76",
   "status": "partial",
   "theorems": [
    "Ptl.Vector.C76_push_back_partial",
    "Ptl.Vector.C76_insert_move_partial",
    "Ptl.Vector.C76_insert_copy",
    "Ptl.Vector.C76_push_back_exact",
    "Ptl.Vector.C76_insert_move_exact",
    "Ptl.Vector.C76_push_back_refuted",
    "Ptl.Vector.C76_lost_refuted",
    "Ptl.Tuple.C76_tuple_partial",
    "Ptl.Tuple.C76_tuple_refuted"
   ],
   "note": "Proved for element types whose T{x} copies or moves x, and for insert(pos, const T &) of all element types. emplace, push_back and tuple use braces: with an initializer_list constructor something else is stored, and the argument may be lost if that throws: C76_push_back_refuted, C76_lost_refuted, C76_tuple_refuted; what is stored: C76_push_back_exact, C76_insert_move_exact."
  },
  {
   "property": "C77",
   "status": "partial",
   "theorems": [
    "Ptl.Compare.C77_range_partial",
    "Ptl.Compare.C77_range_refuted",
    "Ptl.Compare.C77_tuple_partial",
    "Ptl.Compare.C77_tuple_refuted",
    "Ptl.Compare.C77_optional_partial",
    "Ptl.Compare.C77_optional_refuted",
    "Ptl.Compare.C77_variant_partial",
    "Ptl.Compare.C77_variant_refuted",
    "Ptl.Compare.C77_refuted",
    "Ptl.Compare.C77_without_noexcept"
   ],
   "note": "Proved if no element comparison on which the result depends throws. All operators are noexcept, so otherwise the program is terminated: C77_range_refuted, C77_tuple_refuted, C77_optional_refuted, C77_variant_refuted, C77_refuted."
  },
  {
   "property": "C78",
   "status": "partial",
   "theorems": [
    "Ptl.Overload.C78_exact",
    "Ptl.Overload.C78_partial",
    "Ptl.Overload.C78_other_refuted",
    "Ptl.Overload.C78_refuted"
   ],
   "note": "Proved for constructions that may throw and for arguments from which all alternatives can be constructed. Otherwise the call does not compile: C78_other_refuted, C78_refuted; exact condition: C78_exact."
  },
  {
   "property": "C79",
   "status": "partial",
   "theorems": [
    "Ptl.Overload.C79_called",
    "Ptl.Overload.C79_called_ref",
    "Ptl.Overload.C79_partial",
    "Ptl.Overload.C79_ref_partial",
    "Ptl.Overload.C79_lvalue_refuted",
    "Ptl.Overload.C79_function_refuted",
    "Ptl.Overload.C79_refuted"
   ],
   "note": "Whenever the call compiles the best visitor is called (C79_called, C79_called_ref). It compiles for one visitor and for rvalues of different non-final classes; not with lvalues or function pointers among several visitors: C79_lvalue_refuted, C79_function_refuted, C79_refuted."
  },
  {
   "property": "C80",
   "status": "partial",
   "theorems": [
    "Ptl.Vector.C80_other",
    "Ptl.Vector.C80_partial",
    "Ptl.Vector.C80_insert_exact",
    "Ptl.Vector.C80_refuted",
    "Ptl.Str.C80_string_partial",
    "Ptl.Str.C80_reserve_exact",
    "Ptl.Str.C80_string_refuted",
    "Ptl.Str.C80_string_not_full",
    "Ptl.Optional.C80_optional",
    "Ptl.Variant.C80_variant",
    "Ptl.Arr.C80_array",
    "Ptl.Tuple.C80_tuple"
   ],
   "note": "Proved for vectors except insertions (and reading single-pass ranges), for these if twice the size fits, for strings up to 23 bytes below max_size(), and for optionals, variants, arrays and tuples. Growth by doubling refuses insertions into full vectors with more than max_size()/2 elements, and reserve(max_size()) of a string throws because of rounding: C80_refuted, C80_string_refuted; exact conditions: C80_insert_exact, C80_reserve_exact."
  },
  {
   "property": "C81",
   "status": "partial",
   "theorems": [
    "Ptl.Vector.C81_contiguous",
    "Ptl.Vector.C81_apart",
    "Ptl.Vector.C81_extent",
    "Ptl.Vector.C81_partial",
    "Ptl.Vector.C81_refuted"
   ],
   "note": "Contiguity, disjointness and extent are proved for all element types, alignment for types that are not over-aligned. calloc does not align for alignas above 16: C81_refuted."
  },
  {
   "property": "C82",
   "status": "proved",
   "theorems": [
    "Ptl.Str.C82_blocks",
    "Ptl.Str.C82_derefs",
    "Ptl.Vector.C82_blocks",
    "Ptl.Vector.C82_copies",
    "Ptl.Vector.C82_growths"
   ],
   "note": ""
  },
  {
   "property": "C83",
   "status": "partial",
   "theorems": [
    "Ptl.Iter.C83_same",
    "Ptl.Iter.C83_partial",
    "Ptl.Iter.C83_refuted",
    "Ptl.Iter.C83_exact"
   ],
   "note": "Proved for array, array_ref and string_ref, and for equal kinds in all containers. vector and string have conversions in both directions, one of them private, so mixed expressions are ambiguous: C83_refuted; exact condition: C83_exact."
  },
  {
   "property": "C84",
   "status": "partial",
   "theorems": [
    "Ptl.Text.C84_string",
    "Ptl.Text.C84_ref_partial",
    "Ptl.Text.C84_ref_refuted",
    "Ptl.Text.C84_exact",
    "Ptl.Text.C84_concat",
    "Ptl.Text.C84_append",
    "Ptl.Text.C84_assign",
    "Ptl.Text.C84_assign_moves"
   ],
   "note": "Proved for all operations with a ptl::string, and for string_ref with string_ref and C strings. string_ref with std::string_view is ambiguous and with std::string has no candidate: C84_ref_refuted; exact condition: C84_exact."
  },
  {
   "property": "C85",
   "status": "partial",
   "theorems": [
    "Ptl.Optional.C85_optional_partial",
    "Ptl.Optional.C85_optional_refuted",
    "Ptl.Optional.C85_optional_exact",
    "Ptl.Variant.C85_variant",
    "Ptl.Vector.C85_vector",
    "Ptl.Str.C85_string"
   ],
   "note": "Proved for vector, string and variant, and for optional of classes that {} cannot initialise. For optional<int> and other non-classes o = {} stores a zero, for other classes it is ambiguous: C85_optional_refuted; exact condition: C85_optional_exact."
  },
  {
   "property": "C86",
   "status": "partial",
   "theorems": [
    "Ptl.Bitset.C86_bitset_declared",
    "Ptl.Bitset.C86_bitset_functions",
    "Ptl.Bitset.C86_bitset_partial",
    "Ptl.Bitset.C86_bitset_exact",
    "Ptl.Bitset.C86_bitset_refuted",
    "Ptl.Bitset.C86_bitset_cxx20",
    "Ptl.Arr.C86_array_partial",
    "Ptl.Arr.C86_array_exact",
    "Ptl.Arr.C86_array_cxx20",
    "Ptl.Constexpr.C86_refuted",
    "Ptl.Constexpr.C86_partial",
    "Ptl.Constexpr.C86_cxx20"
   ],
   "note": "Proved for bitset functions without standard algorithms (all of them for size 0), for array construction, access and iteration, for creating function_ref to objects. False for the rest: C86_bitset_refuted, C86_array_exact, C86_refuted. With the rules of C++20 it holds for bitset and array (C86_bitset_cxx20, C86_array_cxx20)."
  },
  {
   "property": "C87",
   "status": "partial",
   "theorems": [
    "Ptl.Str.C87_partial",
    "Ptl.Str.C87_exact",
    "Ptl.Str.C87_refuted",
    "Ptl.Str.C87_refuted_abc"
   ],
   "note": "Proved for ranges of other strings and for calls that need a new buffer. False for the string's own bytes when there is room: C87_refuted for every such call, C87_exact says what happens instead."
  },
  {
   "property": "C88",
   "status": "proved",
   "theorems": [
    "Ptl.Str.C88_string",
    "Ptl.Str.C88_string_release",
    "Ptl.Str.C88_string_model",
    "Ptl.Vector.C88_vector",
    "Ptl.Vector.C88_vector_release",
    "Ptl.Vector.C88_vector_model"
   ],
   "note": ""
  },
  {
   "property": "C89",
   "status": "partial",
   "theorems": [
    "Ptl.Vector.C89_vector_partial",
    "Ptl.Vector.C89_vector_exact",
    "Ptl.Vector.C89_vector_refuted",
    "Ptl.Str.C89_string_partial",
    "Ptl.Str.C89_string_refuted",
    "Ptl.Str.C89_string_short",
    "Ptl.Optional.C89_optional_partial",
    "Ptl.Optional.C89_optional_refuted",
    "Ptl.Variant.C89_variant_partial",
    "Ptl.Variant.C89_variant_refuted"
   ],
   "note": "Proved for all calls except vector::shrink_to_fit, the literal operator _s, and moves of optionals and variants whose element type's braces pick a throwing constructor from std::initializer_list; refuted for these (C89_vector_refuted, C89_string_refuted, C89_optional_refuted, C89_variant_refuted)."
  },
  {
   "property": "C90",
   "status": "partial",
   "theorems": [
    "Ptl.Str.C90_partial",
    "Ptl.Str.C90_reserve",
    "Ptl.Str.C90_exact",
    "Ptl.Str.C90_new",
    "Ptl.Str.C90_refuted"
   ],
   "note": "Proved where the capacity suffices for the old and the new characters together (assign and replace with a range, copy assignment) or for the result (all other members); assign with input iterators always takes the buffer of a temporary. Refuted without that (C90_refuted); C90_exact says which capacity results, C90_new that of new strings."
  },
  {
   "property": "C91",
   "status": "partial",
   "theorems": [
    "Ptl.Optional.C91_overload",
    "Ptl.Optional.C91_overload_same",
    "Ptl.Optional.C91_partial",
    "Ptl.Optional.C91_exact",
    "Ptl.Optional.C91_exact_left",
    "Ptl.Optional.C91_refuted"
   ],
   "note": "Proved for every value whose conversion to Type does not change the result of the comparison, in particular for values of type Type; C91_exact shows that this is exactly when it holds. Refuted otherwise (C91_refuted): optional<int>{7} == 7.5. Types with a conversion function to the optional itself are not considered."
  },
  {
   "property": "C92",
   "status": "partial",
   "theorems": [
    "Ptl.Vector.C92_element",
    "Ptl.Vector.C92_buffer",
    "Ptl.Vector.C92_partial",
    "Ptl.Vector.C92_dangles",
    "Ptl.Vector.C92_resize",
    "Ptl.Vector.C92_refuted"
   ],
   "note": "Proved for histories of any length of all these calls except resize to a larger size within the capacity. Refuted for that (C92_refuted): resize always allocates a new buffer when it grows, so every reference dangles (C92_resize: reading through it is undefined), even after reserve."
  },
  {
   "property": "C93",
   "status": "proved",
   "theorems": [
    "Ptl.Arr.C93_array",
    "Ptl.Arr.C93_array_reads",
    "Ptl.Bitset.C93_bitset",
    "Ptl.Bitset.C93_bitset_sources",
    "Ptl.Optional.C93_optional",
    "Ptl.Optional.C93_optional_reads",
    "Ptl.Optional.C93_optional_compare",
    "Ptl.Str.C93_string",
    "Ptl.Str.C93_string_reads",
    "Ptl.Str.C93_string_sources",
    "Ptl.Tuple.C93_tuple",
    "Ptl.Tuple.C93_tuple_reads",
    "Ptl.Variant.C93_variant",
    "Ptl.Variant.C93_variant_reads",
    "Ptl.Vector.C93_vector",
    "Ptl.Vector.C93_vector_reads",
    "Ptl.Vector.C93_vector_sources"
   ],
   "note": ""
  },
  {
   "property": "C94",
   "status": "partial",
   "theorems": [
    "Ptl.Traits.C94_vector_exact",
    "Ptl.Traits.C94_array_exact",
    "Ptl.Traits.C94_tuple_exact",
    "Ptl.Traits.C94_optional_exact",
    "Ptl.Traits.C94_variant_exact",
    "Ptl.Traits.C94_partial",
    "Ptl.Traits.C94_tuple_refuted",
    "Ptl.Traits.C94_variant_ref_refuted",
    "Ptl.Traits.C94_function_ref_refuted",
    "Ptl.Traits.C94_variant_refuted"
   ],
   "note": "Proved for everything built from regular types with vector, string, optional, variant (within its limits on number, distinctness and sizes of alternatives), array, tuples of one component, bitset, array_ref, string_ref and optional_ref. Refuted for tuples of several components (no standard layout, C94_tuple_refuted) and variant_ref (copying is not noexcept and there is no move, C94_variant_ref_refuted), which go into nothing; for function_ref (no default constructor, C94_function_ref_refuted), which goes into optional and variant only; and for variant<T, optional<T>> of aligned T (C94_variant_refuted). C94_*_exact tell for every class template which types it takes."
  },
  {
   "property": "C95",
   "status": "partial",
   "theorems": [
    "Ptl.Traits.C95_exact",
    "Ptl.Traits.C95_partial",
    "Ptl.Traits.C95_refuted"
   ],
   "note": "Proved for all types in whose default construction no tuple with components takes part. Refuted for those (C95_refuted): the constructor template of tuple can be named without arguments, so the trait holds, but its body does not compile; a vector of such tuples compiles and cannot be resized. C95_exact is the characterisation."
  },
  {
   "property": "C96",
   "status": "partial",
   "theorems": [
    "Ptl.Refs.C96_array_partial",
    "Ptl.Refs.C96_array_exact",
    "Ptl.Refs.C96_size_refuted",
    "Ptl.Refs.C96_array_const",
    "Ptl.Refs.C96_count_partial",
    "Ptl.Refs.C96_count_refuted",
    "Ptl.Refs.C96_optional_exact",
    "Ptl.Refs.C96_optional_partial",
    "Ptl.Refs.C96_optional_const",
    "Ptl.Refs.C96_temporary_refuted",
    "Ptl.Refs.C96_both_refuted",
    "Ptl.Refs.C96_converts_refuted",
    "Ptl.Refs.C96_by_value_refuted"
   ],
   "note": "Const access never becomes non-const (C96_array_const, C96_optional_const). array_ref: proved for ranges with data() and an unsigned size(); refuted for ranges with a signed size() or none, which the constraint accepts and the body does not compile for (C96_size_refuted), and for a pointer with the literal 0 (C96_count_refuted). optional_ref: proved for variables; refuted for temporaries of anything but optional_ref<T> (C96_temporary_refuted), where both the object and its value are a T (C96_both_refuted), for types converting to T, where it dangles (C96_converts_refuted), and where *x is no lvalue (C96_by_value_refuted). C96_array_exact and C96_optional_exact are the characterisations."
  },
  {
   "property": "C97",
   "status": "partial",
   "theorems": [
    "Ptl.Refs.C97_array_partial",
    "Ptl.Refs.C97_array_ref",
    "Ptl.Refs.C97_array_exact",
    "Ptl.Refs.C97_array_compiles",
    "Ptl.Refs.C97_view_refuted",
    "Ptl.Refs.C97_mutable_view_refuted",
    "Ptl.Refs.C97_optional_exact",
    "Ptl.Refs.C97_optional_partial",
    "Ptl.Refs.C97_optional_ref",
    "Ptl.Refs.C97_temporary_refuted",
    "Ptl.Refs.C97_iterator_refuted",
    "Ptl.Refs.C97_pointer_refuted"
   ],
   "note": "array_ref: proved for containers, arrays and array_ref; refuted for variables that are views of const elements, which do not compile (C97_view_refuted), and for const or temporary views of non-const elements, where the elements become const (C97_mutable_view_refuted). optional_ref: proved for variables that own their value or have no operator*, and for optional_ref; refuted for temporaries and iterators, which do not compile (C97_temporary_refuted, C97_iterator_refuted), and const pointers, where the value becomes const (C97_pointer_refuted). C97_array_exact, C97_array_compiles and C97_optional_exact are the characterisations."
  },
  {
   "property": "C98",
   "status": "partial",
   "theorems": [
    "Ptl.Fun.Chain.C98_partial",
    "Ptl.Fun.Chain.C98_same_partial",
    "Ptl.Fun.Chain.C98_exact",
    "Ptl.Fun.Chain.C98_assigned_refuted",
    "Ptl.Fun.Chain.C98_destroyed_refuted",
    "Ptl.Fun.Chain.C98_cycle_refuted"
   ],
   "note": "Proved for function_refs of one signature (C98_same_partial), and for conversions between signatures as long as no function_ref is changed or destroyed while one of another signature made from it lives (C98_partial). Refuted otherwise: a function_ref of another signature is treated like a functor, so the new function_ref refers to the old one, not to its callable; it follows assignments to the old one (C98_assigned_refuted), dangles when that is gone (C98_destroyed_refuted), and recurses without end when assigned back (C98_cycle_refuted). C98_exact tells what a call does."
  },
  {
   "property": "C99",
   "status": "partial",
   "theorems": [
    "Ptl.Recursive.C99_exact",
    "Ptl.Recursive.C99_partial",
    "Ptl.Recursive.C99_references",
    "Ptl.Recursive.C99_vector_refuted",
    "Ptl.Recursive.C99_tree_refuted"
   ],
   "note": "Proved for programs in which no vector has elements of a class that is not complete yet (C99_partial), in particular for all references (C99_references). Refuted for vectors, whose static assertions ask for complete elements (C99_vector_refuted), so that no program has a class that owns objects of itself (C99_tree_refuted). C99_exact is the characterisation."
  },
  {
   "property": "C100",
   "status": "partial",
   "theorems": [
    "Ptl.Tags.C100_safe",
    "Ptl.Tags.C100_partial",
    "Ptl.Tags.C100_exact",
    "Ptl.Tags.C100_refuted"
   ],
   "note": "Proved for the standard categories (C100_partial); no iterator is used twice that must not be (C100_safe). Refuted for categories derived from std::input_iterator_tag and not from std::forward_iterator_tag, which are compared with std::is_same and rejected (C100_refuted). C100_exact is the characterisation."
  },
  {
   "property": "C101",
   "status": "proved",
   "theorems": [
    "Ptl.Vector.C101_vector",
    "Ptl.Vector.C101_vector_limit",
    "Ptl.Str.C101_string",
    "Ptl.Str.C101_string_limit",
    "Ptl.Bitset.C101_bitset",
    "Ptl.Arr.C101_array",
    "Ptl.View.C101_ref"
   ],
   "note": ""
  },
  {
   "property": "C102",
   "status": "partial",
   "theorems": [
    "Ptl.Numbers.C102_exact",
    "Ptl.Numbers.C102_accepted",
    "Ptl.Numbers.C102_partial",
    "Ptl.Numbers.C102_explicit",
    "Ptl.Numbers.C102_vector_refuted",
    "Ptl.Numbers.C102_array_refuted",
    "Ptl.Numbers.C102_nested",
    "Ptl.Numbers.C102_assign_refuted"
   ],
   "note": "Proved for all types without vectors and arrays of several elements (C102_partial); strings and bitsets take no number (C102_explicit). Refuted for every vector, where the number is the number of elements (C102_vector_refuted; v = n replaces the contents, C102_assign_refuted), and arrays of several numbers (C102_array_refuted). C102_exact is the characterisation, also for nested types; C102_accepted says exactly which types accept a number."
  },
  {
   "property": "C103",
   "status": "partial",
   "theorems": [
    "Ptl.Bindings.C103_tuple_exact",
    "Ptl.Bindings.C103_tuple_partial",
    "Ptl.Bindings.C103_tuple_refuted",
    "Ptl.Bindings.C103_array_exact",
    "Ptl.Bindings.C103_array_partial",
    "Ptl.Bindings.C103_array_refuted",
    "Ptl.Bindings.C103_distinct"
   ],
   "note": "Proved for tuples of several elements (C103_tuple_partial) and arrays except copies of const xvalues (C103_array_partial); every name is for another element and every element has a name (C103_distinct). Refuted for copies of one-element tuples, where the forwarding constructor is chosen (C103_tuple_refuted), and of const xvalues of arrays, which do not compile (C103_array_refuted). C103_tuple_exact and C103_array_exact are the characterisations."
  },
  {
   "property": "C104",
   "status": "proved",
   "theorems": [
    "Ptl.Nested.C104_call",
    "Ptl.Nested.C104_nothrow",
    "Ptl.Nested.C104_values",
    "Ptl.Nested.C104_no_leak"
   ],
   "note": ""
  },
  {
   "property": "C105",
   "status": "partial",
   "theorems": [
    "Ptl.Access.C105_const",
    "Ptl.Access.C105_const_element",
    "Ptl.Access.C105_mutable",
    "Ptl.Access.C105_refs_partial",
    "Ptl.Access.C105_refs_refuted"
   ],
   "note": "Proved for the classes that contain their elements (C105_const, C105_mutable), for references to const types (C105_const_element), and for the reference classes except begin, end, rbegin and rend of array_ref (C105_refs_partial). Refuted for these: a const array_ref<T> gives const iterators although its other functions, and the iterators of a copy of it, give non-const elements (C105_refs_refuted)."
  },
  {
   "property": "C106",
   "status": "partial",
   "theorems": [
    "Ptl.Deduce.C106_optional_partial",
    "Ptl.Deduce.C106_optional_const_rvalue_refuted",
    "Ptl.Deduce.C106_optional_array_refuted",
    "Ptl.Deduce.C106_optional_function_refuted",
    "Ptl.Deduce.C106_tuple_partial",
    "Ptl.Deduce.C106_tuple_refuted",
    "Ptl.Deduce.C106_array_partial",
    "Ptl.Deduce.C106_array_lvalue_refuted",
    "Ptl.Deduce.C106_array_array_refuted",
    "Ptl.Deduce.C106_array_function_refuted",
    "Ptl.Deduce.C106_array_const_rvalue_refuted",
    "Ptl.Deduce.C106_vector_partial",
    "Ptl.Deduce.C106_vector_refuted",
    "Ptl.Deduce.C106_function_ref",
    "Ptl.Deduce.C106_function_ref_other",
    "Ptl.Deduce.C106_refuted"
   ],
   "note": "Proved for function_ref (C106_function_ref, C106_function_ref_other), and for optional from objects that are not const rvalues (C106_optional_partial), array from rvalues and const lvalues of objects (C106_array_partial), tuple except for copies of a one-element tuple (C106_tuple_partial), vector except for one that converts to its own element type (C106_vector_partial). Refuted for the rest: C106_optional_const_rvalue_refuted, C106_optional_array_refuted, C106_optional_function_refuted, C106_array_lvalue_refuted, C106_array_array_refuted, C106_array_function_refuted, C106_array_const_rvalue_refuted, C106_tuple_refuted, C106_vector_refuted."
  },
  {
   "property": "C107",
   "status": "proved",
   "theorems": [
    "Ptl.Text.C107_string",
    "Ptl.Text.C107_string_ref",
    "Ptl.Text.C107_lines"
   ],
   "note": ""
  },
  {
   "property": "C108",
   "status": "partial",
   "theorems": [
    "Ptl.Includes.C108_exact",
    "Ptl.Includes.C108_array_ref_partial",
    "Ptl.Includes.C108_refuted",
    "Ptl.Includes.C108_names_refuted",
    "Ptl.Includes.C108_each_refuted",
    "Ptl.Includes.C108_remedy_partial",
    "Ptl.Includes.C108_remedy_minimal"
   ],
   "note": "Refuted for every header (C108_refuted): each uses names that none of the headers it includes has to declare (C108_names_refuted lists them, e.g. std::invoke in function_ref.hpp, std::forward and std::tuple_size in tuple.hpp). Proved: array_ref.hpp compiles if <iterator> declares size_t and ptrdiff_t (C108_array_ref_partial); every header compiles after the standard headers named in C108_remedy_partial, all of which are needed (C108_remedy_minimal)."
  },
  {
   "property": "C109",
   "status": "proved",
   "theorems": [
    "Ptl.C109_threads",
    "Ptl.Vector.C109_vector",
    "Ptl.Str.C109_string",
    "Ptl.Optional.C109_optional",
    "Ptl.Variant.C109_variant",
    "Ptl.Arr.C109_array",
    "Ptl.Tuple.C109_tuple",
    "Ptl.View.C109_views",
    "Ptl.OptRef.C109_optional_ref",
    "Ptl.VarRef.C109_variant_ref",
    "Ptl.Bitset.C109_bitset"
   ],
   "note": ""
  },
  {
   "property": "C110",
   "status": "proved",
   "theorems": [
    "Ptl.Arr.C110_array",
    "Ptl.Arr.C110_array_permutes",
    "Ptl.Str.C110_string_in_place",
    "Ptl.Str.C110_string_permutes",
    "Ptl.Str.C110_string_erase_remove",
    "Ptl.Vector.C110_in_place",
    "Ptl.Vector.C110_permutes",
    "Ptl.Vector.C110_move",
    "Ptl.Vector.C110_erase_remove",
    "Ptl.View.C110_array_ref",
    "Ptl.View.C110_array_ref_permutes"
   ],
   "note": ""
  },
  {
   "property": "C111",
   "status": "proved",
   "theorems": [
    "Ptl.Arr.C111_array",
    "Ptl.Bitset.C111_bitset",
    "Ptl.Optional.C111_optional",
    "Ptl.Str.C111_string",
    "Ptl.Tuple.C111_tuple",
    "Ptl.Variant.C111_variant",
    "Ptl.Vector.C111_vector"
   ],
   "note": ""
  },
  {
   "property": "C112",
   "status": "proved",
   "theorems": [
    "Ptl.Str.C112_string_inserter",
    "Ptl.Str.C112_string_back_inserter",
    "Ptl.Str.C112_string_reserved",
    "Ptl.Vector.C112_inserter",
    "Ptl.Vector.C112_back_inserter",
    "Ptl.Vector.C112_move_over",
    "Ptl.Vector.C112_reserved"
   ],
   "note": ""
  },
  {
   "property": "C113",
   "status": "proved",
   "theorems": [
    "Ptl.Str.C113_string",
    "Ptl.Str.C113_string_same",
    "Ptl.Vector.C113_vector",
    "Ptl.Vector.C113_same"
   ],
   "note": ""
  },
  {
   "property": "C114",
   "status": "partial",
   "theorems": [
    "Ptl.Optional.C114_optional",
    "Ptl.Optional.C114_optional_history",
    "Ptl.Variant.C114_variant_refuted",
    "Ptl.Variant.C114_variant_assignMove",
    "Ptl.Variant.C114_variant_assignValue",
    "Ptl.Variant.C114_variant_emplace",
    "Ptl.Variant.C114_variant_partial"
   ],
   "note": "Proved for optional (C114_optional, C114_optional_history), and for swap of two variants holding the same alternative (C114_variant_partial). Refuted for assignment to a variant and emplace: C114_variant_refuted; that happens in all states: C114_variant_assignMove, C114_variant_assignValue, C114_variant_emplace."
  },
  {
   "property": "C115",
   "status": "partial",
   "theorems": [
    "Ptl.Str.C115_string_partial",
    "Ptl.Str.C115_string_runs",
    "Ptl.Str.C115_string_refuted",
    "Ptl.Str.C115_string_case",
    "Ptl.Vector.C115_vector",
    "Ptl.Vector.C115_vector_runs",
    "Ptl.Vector.C115_vector_case"
   ],
   "note": "Proved for vectors (C115_vector, C115_vector_runs) and for strings that are not moved from (C115_string_partial, C115_string_runs). Refuted for moving from strings: what is left in a string that was moved from depends on whether it was on the heap (C115_string_refuted)."
  },
  {
   "property": "C116",
   "status": "partial",
   "theorems": [
    "Ptl.Vector.C116_partial",
    "Ptl.Vector.C116_resize",
    "Ptl.Vector.C116_refuted"
   ],
   "note": "Proved for all mixtures of insertions and removals (C116_partial; the elements of a single-pass range count twice, as they are collected in a temporary vector first). Refuted for resize: every resize to a greater size relocates all elements (C116_resize), so that growing one by one relocates a quadratic number (C116_refuted)."
  },
  {
   "property": "C117",
   "status": "proved",
   "theorems": [
    "Ptl.Str.C117_string",
    "Ptl.Vector.C117_memory"
   ],
   "note": ""
  }
 ]
}

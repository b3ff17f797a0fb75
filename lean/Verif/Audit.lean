import Verif.Access.Const
import Verif.Arr.Algorithms
import Verif.Arr.Frame
import Verif.Arr.Props
import Verif.Bitset.Props.Bits
import Verif.Bitset.Props.Frame
import Verif.Bitset.Props.Refs
import Verif.Bitset.Props.Streams
import Verif.Compare.Props
import Verif.Constexpr.Basic
import Verif.Constexpr.Classes
import Verif.Deduce.Props
import Verif.Fun.Chain
import Verif.Fun.Props
import Verif.Includes
import Verif.Iter.Containers
import Verif.Iter.Mixed
import Verif.Iter.Props
import Verif.Iter.Tags
import Verif.Layout.Props
import Verif.Layout.Vector
import Verif.Nested.Types
import Verif.OptRef.Props
import Verif.Optional.Props.Access
import Verif.Optional.Props.Frame
import Verif.Optional.Props.History
import Verif.Optional.Props.Lifetime
import Verif.Optional.Props.Mixed
import Verif.Overload.Bindings
import Verif.Overload.Braces
import Verif.Overload.Emplace
import Verif.Overload.Props
import Verif.Overload.Text
import Verif.Overload.Visit
import Verif.Progress
import Verif.Reads.Basic
import Verif.Reads.Props
import Verif.Refs.Props
import Verif.Sizes
import Verif.Str.Props.Access
import Verif.Str.Props.Algorithms
import Verif.Str.Props.Alike
import Verif.Str.Props.Buffer
import Verif.Str.Props.Cost
import Verif.Str.Props.Frame
import Verif.Str.Props.History
import Verif.Str.Props.Inserters
import Verif.Str.Props.Limits
import Verif.Str.Props.Memory
import Verif.Str.Props.Modules
import Verif.Str.Props.Terminator
import Verif.Str.Props.Values
import Verif.Str.Props.Ways
import Verif.Terminate.Props
import Verif.Text.Stream
import Verif.Threads.Arr
import Verif.Threads.Bitset
import Verif.Threads.Optional
import Verif.Threads.Str
import Verif.Threads.Tuple
import Verif.Threads.Variant
import Verif.Threads.Vector
import Verif.Traits.Numbers
import Verif.Traits.Props
import Verif.Traits.Recursive
import Verif.Tuple.Frame
import Verif.Tuple.Props
import Verif.Union.Props
import Verif.VarRef.Props
import Verif.Variant.Props.Access
import Verif.Variant.Props.Frame
import Verif.Variant.Props.History
import Verif.Variant.Props.Lifetime
import Verif.Variant.Props.Limits
import Verif.Vector.Props.Algorithms
import Verif.Vector.Props.Alike
import Verif.Vector.Props.Brace
import Verif.Vector.Props.Capacity
import Verif.Vector.Props.Cost
import Verif.Vector.Props.Frame
import Verif.Vector.Props.Growth
import Verif.Vector.Props.History
import Verif.Vector.Props.Inserters
import Verif.Vector.Props.Limits
import Verif.Vector.Props.Memory
import Verif.Vector.Props.Modules
import Verif.Vector.Props.References
import Verif.Vector.Props.Values
import Verif.Vector.Props.Ways
import Verif.View.Algorithms
import Verif.View.Props

/-! Axioms of every claimed theorem (generated by tools/manifest.py). -/

#print axioms Ptl.Vector.C01_contents
#print axioms Ptl.Vector.C01_call
#print axioms Ptl.Vector.C01_throws_only_for_a_reason
#print axioms Ptl.Vector.C01_frame
#print axioms Ptl.Vector.C01_spec_deterministic
#print axioms Ptl.Vector.C02_no_undefined_behaviour
#print axioms Ptl.Vector.C02_every_buffer_is_owned
#print axioms Ptl.Vector.C02_no_leak
#print axioms Ptl.Vector.C03_strong_guarantee
#print axioms Ptl.Vector.C03_observation
#print axioms Ptl.Vector.C04_insert_fill
#print axioms Ptl.Vector.C04_insert_range
#print axioms Ptl.Vector.C04_assign_range
#print axioms Ptl.Vector.C04_assign_fill
#print axioms Ptl.Vector.C04_emplace
#print axioms Ptl.Vector.C04_push_back
#print axioms Ptl.Vector.C04_push_back_move
#print axioms Ptl.Vector.C04_emplace_move
#print axioms Ptl.Vector.C04_resize
#print axioms Ptl.Vector.C05_capacity
#print axioms Ptl.Vector.C06_insert_in_place
#print axioms Ptl.Vector.C06_insert_input_in_place
#print axioms Ptl.Vector.C06_shrink_in_place
#print axioms Ptl.Vector.C07_insert_partial
#print axioms Ptl.Vector.C07_assign_fill_partial
#print axioms Ptl.Vector.C07_assign_range_partial
#print axioms Ptl.Vector.C07_resize
#print axioms Ptl.Vector.C07_resize_fill
#print axioms Ptl.Vector.C07_reserve
#print axioms Ptl.Vector.C07_construct_count
#print axioms Ptl.Vector.C07_construct_fill
#print axioms Ptl.Vector.C07_construct_range
#print axioms Ptl.Vector.C07_never_exceeded
#print axioms Ptl.Vector.C07_insert_refuted
#print axioms Ptl.Vector.C07_assign_refuted
#print axioms Ptl.Vector.C08_amortised_constant
#print axioms Ptl.Vector.C08_logarithmic_reallocations
#print axioms Ptl.Vector.C09_erase_partial
#print axioms Ptl.Vector.C09_empty_range
#print axioms Ptl.Vector.C09_refuted
#print axioms Ptl.Vector.C10_reserve
#print axioms Ptl.Vector.C10_no_reallocation_partial
#print axioms Ptl.Vector.C10_resize_always_reallocates
#print axioms Ptl.Vector.C10_resize_refuted
#print axioms Ptl.Tags.C100_safe
#print axioms Ptl.Tags.C100_partial
#print axioms Ptl.Tags.C100_exact
#print axioms Ptl.Tags.C100_refuted
#print axioms Ptl.Vector.C101_vector
#print axioms Ptl.Vector.C101_vector_limit
#print axioms Ptl.Str.C101_string
#print axioms Ptl.Str.C101_string_limit
#print axioms Ptl.Bitset.C101_bitset
#print axioms Ptl.Arr.C101_array
#print axioms Ptl.View.C101_ref
#print axioms Ptl.Numbers.C102_exact
#print axioms Ptl.Numbers.C102_accepted
#print axioms Ptl.Numbers.C102_partial
#print axioms Ptl.Numbers.C102_explicit
#print axioms Ptl.Numbers.C102_vector_refuted
#print axioms Ptl.Numbers.C102_array_refuted
#print axioms Ptl.Numbers.C102_nested
#print axioms Ptl.Numbers.C102_assign_refuted
#print axioms Ptl.Bindings.C103_tuple_exact
#print axioms Ptl.Bindings.C103_tuple_partial
#print axioms Ptl.Bindings.C103_tuple_refuted
#print axioms Ptl.Bindings.C103_array_exact
#print axioms Ptl.Bindings.C103_array_partial
#print axioms Ptl.Bindings.C103_array_refuted
#print axioms Ptl.Bindings.C103_distinct
#print axioms Ptl.Nested.C104_call
#print axioms Ptl.Nested.C104_nothrow
#print axioms Ptl.Nested.C104_values
#print axioms Ptl.Nested.C104_no_leak
#print axioms Ptl.Access.C105_const
#print axioms Ptl.Access.C105_const_element
#print axioms Ptl.Access.C105_mutable
#print axioms Ptl.Access.C105_refs_partial
#print axioms Ptl.Access.C105_refs_refuted
#print axioms Ptl.Deduce.C106_optional_partial
#print axioms Ptl.Deduce.C106_optional_const_rvalue_refuted
#print axioms Ptl.Deduce.C106_optional_array_refuted
#print axioms Ptl.Deduce.C106_optional_function_refuted
#print axioms Ptl.Deduce.C106_tuple_partial
#print axioms Ptl.Deduce.C106_tuple_refuted
#print axioms Ptl.Deduce.C106_array_partial
#print axioms Ptl.Deduce.C106_array_lvalue_refuted
#print axioms Ptl.Deduce.C106_array_array_refuted
#print axioms Ptl.Deduce.C106_array_function_refuted
#print axioms Ptl.Deduce.C106_array_const_rvalue_refuted
#print axioms Ptl.Deduce.C106_vector_partial
#print axioms Ptl.Deduce.C106_vector_refuted
#print axioms Ptl.Deduce.C106_function_ref
#print axioms Ptl.Deduce.C106_function_ref_other
#print axioms Ptl.Deduce.C106_refuted
#print axioms Ptl.Text.C107_string
#print axioms Ptl.Text.C107_string_ref
#print axioms Ptl.Text.C107_lines
#print axioms Ptl.Includes.C108_exact
#print axioms Ptl.Includes.C108_array_ref_partial
#print axioms Ptl.Includes.C108_refuted
#print axioms Ptl.Includes.C108_names_refuted
#print axioms Ptl.Includes.C108_each_refuted
#print axioms Ptl.Includes.C108_remedy_partial
#print axioms Ptl.Includes.C108_remedy_minimal
#print axioms Ptl.C109_threads
#print axioms Ptl.Vector.C109_vector
#print axioms Ptl.Str.C109_string
#print axioms Ptl.Optional.C109_optional
#print axioms Ptl.Variant.C109_variant
#print axioms Ptl.Arr.C109_array
#print axioms Ptl.Tuple.C109_tuple
#print axioms Ptl.View.C109_views
#print axioms Ptl.OptRef.C109_optional_ref
#print axioms Ptl.VarRef.C109_variant_ref
#print axioms Ptl.Bitset.C109_bitset
#print axioms Ptl.Vector.C11_shrink_to_fit
#print axioms Ptl.Arr.C110_array
#print axioms Ptl.Arr.C110_array_permutes
#print axioms Ptl.Str.C110_string_in_place
#print axioms Ptl.Str.C110_string_permutes
#print axioms Ptl.Str.C110_string_erase_remove
#print axioms Ptl.Vector.C110_in_place
#print axioms Ptl.Vector.C110_permutes
#print axioms Ptl.Vector.C110_move
#print axioms Ptl.Vector.C110_erase_remove
#print axioms Ptl.View.C110_array_ref
#print axioms Ptl.View.C110_array_ref_permutes
#print axioms Ptl.Arr.C111_array
#print axioms Ptl.Bitset.C111_bitset
#print axioms Ptl.Optional.C111_optional
#print axioms Ptl.Str.C111_string
#print axioms Ptl.Tuple.C111_tuple
#print axioms Ptl.Variant.C111_variant
#print axioms Ptl.Vector.C111_vector
#print axioms Ptl.Str.C112_string_inserter
#print axioms Ptl.Str.C112_string_back_inserter
#print axioms Ptl.Str.C112_string_reserved
#print axioms Ptl.Vector.C112_inserter
#print axioms Ptl.Vector.C112_back_inserter
#print axioms Ptl.Vector.C112_move_over
#print axioms Ptl.Vector.C112_reserved
#print axioms Ptl.Str.C113_string
#print axioms Ptl.Str.C113_string_same
#print axioms Ptl.Vector.C113_vector
#print axioms Ptl.Vector.C113_same
#print axioms Ptl.Optional.C114_optional
#print axioms Ptl.Optional.C114_optional_history
#print axioms Ptl.Variant.C114_variant_refuted
#print axioms Ptl.Variant.C114_variant_assignMove
#print axioms Ptl.Variant.C114_variant_assignValue
#print axioms Ptl.Variant.C114_variant_emplace
#print axioms Ptl.Variant.C114_variant_partial
#print axioms Ptl.Str.C115_string_partial
#print axioms Ptl.Str.C115_string_runs
#print axioms Ptl.Str.C115_string_refuted
#print axioms Ptl.Str.C115_string_case
#print axioms Ptl.Vector.C115_vector
#print axioms Ptl.Vector.C115_vector_runs
#print axioms Ptl.Vector.C115_vector_case
#print axioms Ptl.Vector.C116_partial
#print axioms Ptl.Vector.C116_resize
#print axioms Ptl.Vector.C116_refuted
#print axioms Ptl.Str.C117_string
#print axioms Ptl.Vector.C117_memory
#print axioms Ptl.Vector.C12_copy_construct
#print axioms Ptl.Vector.C12_copy_assign
#print axioms Ptl.Vector.C12_independent
#print axioms Ptl.Vector.C12_move_construct
#print axioms Ptl.Vector.C12_move_assign
#print axioms Ptl.Vector.C12_swap
#print axioms Ptl.Vector.C12_self
#print axioms Ptl.Vector.C13_less
#print axioms Ptl.Vector.C13_equal
#print axioms Ptl.Vector.C13_equal_iff_same
#print axioms Ptl.Vector.C13_consistent
#print axioms Ptl.Vector.C13_strict_weak_order
#print axioms Ptl.Vector.C13_strict_total_order
#print axioms Ptl.Vector.C14_construct
#print axioms Ptl.Vector.C14_assign
#print axioms Ptl.Vector.C14_insert
#print axioms Ptl.Str.C15_contents
#print axioms Ptl.Str.C15_call
#print axioms Ptl.Str.C15_throws_only_for_a_reason
#print axioms Ptl.Str.C15_frame
#print axioms Ptl.Str.C15_spec_deterministic
#print axioms Ptl.Str.C16_initialised
#print axioms Ptl.Str.C16_terminated_partial
#print axioms Ptl.Str.C16_preserved
#print axioms Ptl.Str.C16_refuted
#print axioms Ptl.Str.C17_representation
#print axioms Ptl.Str.C17_no_undefined_behaviour
#print axioms Ptl.Str.C17_every_buffer_is_owned
#print axioms Ptl.Str.C17_no_leak
#print axioms Ptl.Str.C18_strong_guarantee_partial
#print axioms Ptl.Str.C18_observation_partial
#print axioms Ptl.Str.C18_iterators
#print axioms Ptl.Str.C18_refuted
#print axioms Ptl.Str.C19_append
#print axioms Ptl.Str.C19_assign
#print axioms Ptl.Str.C19_insert
#print axioms Ptl.Str.C19_replace
#print axioms Ptl.Str.C19_append_input
#print axioms Ptl.Str.C20_no_longer_than_max_size
#print axioms Ptl.Str.C20_reserve
#print axioms Ptl.Str.C20_beyond_max_size_partial
#print axioms Ptl.Str.C20_append_wraps_refuted
#print axioms Ptl.Str.C20_refuted
#print axioms Ptl.Str.C21_copy_constructor
#print axioms Ptl.Str.C21_copy_assignment
#print axioms Ptl.Str.C21_independent
#print axioms Ptl.Str.C21_move_constructor
#print axioms Ptl.Str.C21_move_assignment
#print axioms Ptl.Str.C21_swap
#print axioms Ptl.Str.C21_self
#print axioms Ptl.Str.C22_shrink_to_fit
#print axioms Ptl.Str.C23_replace_range
#print axioms Ptl.Str.C23_replace_input
#print axioms Ptl.Str.C23_replace_ilist
#print axioms Ptl.Str.C23_replace_fill
#print axioms Ptl.Str.C24_substr
#print axioms Ptl.Str.C24_substr_count
#print axioms Ptl.Str.C24_substr_consuming
#print axioms Ptl.Str.C24_substr_count_consuming
#print axioms Ptl.Str.C25_string_string
#print axioms Ptl.Str.C25_string_view
#print axioms Ptl.Str.C25_view_string
#print axioms Ptl.Str.C25_total_order
#print axioms Ptl.Str.C25_hash
#print axioms Ptl.Str.C26_copied_partial
#print axioms Ptl.Str.C26_within_capacity
#print axioms Ptl.Str.C26_refuted
#print axioms Ptl.Str.C27_literal_partial
#print axioms Ptl.Str.C27_refuted
#print axioms Ptl.View.C27_sr_exact
#print axioms Ptl.View.C27_sr_refuted
#print axioms Ptl.View.C27_sr_partial
#print axioms Ptl.Str.C28_concat
#print axioms Ptl.Str.C28_string_string
#print axioms Ptl.Bitset.C29_refines
#print axioms Ptl.Bitset.C29_unused_bits_clear
#print axioms Ptl.Bitset.C29_operators
#print axioms Ptl.Bitset.C30_eq_iff
#print axioms Ptl.Bitset.C30_hash
#print axioms Ptl.Bitset.C31_queries
#print axioms Ptl.Bitset.C31_bool
#print axioms Ptl.Bitset.C32_shifts
#print axioms Ptl.Bitset.C33_out_of_range
#print axioms Ptl.Bitset.C33_in_range
#print axioms Ptl.Bitset.C33_get
#print axioms Ptl.Bitset.C34_from_integer
#print axioms Ptl.Bitset.C35_roundtrip_partial
#print axioms Ptl.Bitset.C35_output
#print axioms Ptl.Bitset.C35_refuted
#print axioms Ptl.Bitset.C35_whitespace_refuted
#print axioms Ptl.Bitset.C36_extraction_partial
#print axioms Ptl.Bitset.C36_not_good
#print axioms Ptl.Bitset.C36_early_end
#print axioms Ptl.Bitset.C36_refuted
#print axioms Ptl.Bitset.C37_never_returns
#print axioms Ptl.Bitset.C37_refuted
#print axioms Ptl.Bitset.C37_write_partial
#print axioms Ptl.Bitset.C37_value_partial
#print axioms Ptl.Bitset.C38_swap_partial
#print axioms Ptl.Bitset.C38_same_index
#print axioms Ptl.Bitset.C38_refuted
#print axioms Ptl.Bitset.C38_never_returns
#print axioms Ptl.Variant.C39_contents
#print axioms Ptl.Variant.C39_never_valueless
#print axioms Ptl.Variant.C39_call
#print axioms Ptl.Variant.C39_throws_only_for_a_reason
#print axioms Ptl.Variant.C40_lifetimes
#print axioms Ptl.Variant.C40_no_leak
#print axioms Ptl.Variant.C41_strong_guarantee
#print axioms Ptl.Variant.C41_observation
#print axioms Ptl.Variant.C42_holds_one
#print axioms Ptl.Variant.C42_get_if
#print axioms Ptl.Variant.C42_get
#print axioms Ptl.Variant.C42_visit
#print axioms Ptl.Variant.C43_compare
#print axioms Ptl.Variant.C43_weak_order
#print axioms Ptl.Variant.C43_total_order
#print axioms Ptl.Variant.C44_copy_construct
#print axioms Ptl.Variant.C44_copy_assign
#print axioms Ptl.Variant.C44_move_construct
#print axioms Ptl.Variant.C44_move_assign
#print axioms Ptl.Variant.C44_swap
#print axioms Ptl.Variant.C44_self
#print axioms Ptl.Variant.C44_others
#print axioms Ptl.Variant.C45_position
#print axioms Ptl.Variant.C45_distinct
#print axioms Ptl.Variant.C45_not_found
#print axioms Ptl.Variant.C45_accepted
#print axioms Ptl.Variant.C45_type_of_index
#print axioms Ptl.Variant.C45_limit_needed
#print axioms Ptl.Optional.C46_contents
#print axioms Ptl.Optional.C46_flag
#print axioms Ptl.Optional.C46_call
#print axioms Ptl.Optional.C46_throws_only_for_a_reason
#print axioms Ptl.Optional.C46_no_leak
#print axioms Ptl.Optional.C47_empty_stays_empty
#print axioms Ptl.Optional.C47_full_stays_full
#print axioms Ptl.Optional.C47_emplace
#print axioms Ptl.Optional.C47_construct
#print axioms Ptl.Optional.C47_others
#print axioms Ptl.Optional.C47_strong
#print axioms Ptl.Optional.C47_nothrow
#print axioms Ptl.Optional.C48_has_value
#print axioms Ptl.Optional.C48_value
#print axioms Ptl.Optional.C48_value_writes
#print axioms Ptl.Optional.C48_value_or_full
#print axioms Ptl.Optional.C48_value_or_move_full
#print axioms Ptl.Optional.C48_value_or_empty
#print axioms Ptl.Optional.C49_compare
#print axioms Ptl.Optional.C49_nullopt
#print axioms Ptl.Optional.C49_value
#print axioms Ptl.Optional.C49_weak_order
#print axioms Ptl.Optional.C49_total_order
#print axioms Ptl.Optional.C49_empty_least
#print axioms Ptl.Optional.C50_swap
#print axioms Ptl.Optional.C50_swap_self
#print axioms Ptl.Optional.C50_move_construct
#print axioms Ptl.Optional.C50_move_assign
#print axioms Ptl.Optional.C50_move_assign_self
#print axioms Ptl.Optional.C50_others
#print axioms Ptl.OptRef.C51_refers
#print axioms Ptl.OptRef.C51_call
#print axioms Ptl.OptRef.C51_bind
#print axioms Ptl.OptRef.C51_reads
#print axioms Ptl.OptRef.C51_reads_plain
#print axioms Ptl.OptRef.C51_writes
#print axioms Ptl.OptRef.C51_empty
#print axioms Ptl.OptRef.C51_full
#print axioms Ptl.OptRef.C51_stable
#print axioms Ptl.OptRef.C51_assign
#print axioms Ptl.OptRef.C51_value_or
#print axioms Ptl.OptRef.C51_value_or_default
#print axioms Ptl.OptRef.C51_dangles
#print axioms Ptl.VarRef.C52_alternatives
#print axioms Ptl.VarRef.C52_accepts
#print axioms Ptl.VarRef.C52_rejects
#print axioms Ptl.VarRef.C52_binds
#print axioms Ptl.VarRef.C52_unique
#print axioms Ptl.VarRef.C52_const_safe
#print axioms Ptl.VarRef.C52_refers
#print axioms Ptl.VarRef.C52_call
#print axioms Ptl.VarRef.C52_typed
#print axioms Ptl.VarRef.C52_const_object
#print axioms Ptl.VarRef.C52_assign
#print axioms Ptl.VarRef.C52_copy
#print axioms Ptl.VarRef.C52_reads
#print axioms Ptl.VarRef.C52_writes
#print axioms Ptl.VarRef.C52_visit
#print axioms Ptl.VarRef.C52_copy_dangling
#print axioms Ptl.View.C53_shows
#print axioms Ptl.View.C53_call
#print axioms Ptl.View.C53_first
#print axioms Ptl.View.C53_last
#print axioms Ptl.View.C53_subrange_from
#print axioms Ptl.View.C53_subrange
#print axioms Ptl.View.C53_remove_prefix
#print axioms Ptl.View.C53_remove_suffix
#print axioms Ptl.View.C53_compose
#print axioms Ptl.View.C53_within
#print axioms Ptl.View.C53_write
#print axioms Ptl.View.C53_cstr
#print axioms Ptl.View.C54_compare
#print axioms Ptl.View.C54_total_order
#print axioms Ptl.View.C54_hash
#print axioms Ptl.View.C54_view
#print axioms Ptl.Arr.C55_no_spurious
#print axioms Ptl.Arr.C55_shows
#print axioms Ptl.Arr.C55_call
#print axioms Ptl.Arr.C55_fill
#print axioms Ptl.Arr.C55_swap
#print axioms Ptl.Arr.C55_independent
#print axioms Ptl.Arr.C55_less
#print axioms Ptl.Arr.C55_equal
#print axioms Ptl.Arr.C55_equal_iff_same
#print axioms Ptl.Arr.C55_consistent
#print axioms Ptl.Arr.C55_strict_weak_order
#print axioms Ptl.Arr.C55_strict_total_order
#print axioms Ptl.Arr.C56_array
#print axioms Ptl.Iter.C56_vector
#print axioms Ptl.Iter.C56_string
#print axioms Ptl.Iter.C56_view
#print axioms Ptl.Iter.C56_add
#print axioms Ptl.Iter.C56_sub
#print axioms Ptl.Iter.C56_position
#print axioms Ptl.Iter.C56_add_sub
#print axioms Ptl.Iter.C56_diff
#print axioms Ptl.Iter.C56_distance
#print axioms Ptl.Iter.C56_add_add
#print axioms Ptl.Iter.C56_index
#print axioms Ptl.Iter.C56_element
#print axioms Ptl.Iter.C56_deref
#print axioms Ptl.Iter.C56_deref_distinct
#print axioms Ptl.Iter.C56_deref_end
#print axioms Ptl.Iter.C56_steps
#print axioms Ptl.Iter.C56_post
#print axioms Ptl.Iter.C56_inc_dec
#print axioms Ptl.Iter.C56_dec_inc
#print axioms Ptl.Iter.C56_compare
#print axioms Ptl.Iter.C56_null
#print axioms Ptl.Iter.C56_convert
#print axioms Ptl.Iter.C56_end
#print axioms Ptl.Iter.C56_traverse
#print axioms Ptl.Iter.C56_traverse_reverse
#print axioms Ptl.Iter.C56_traverse_back
#print axioms Ptl.Iter.C56_traverse_index
#print axioms Ptl.Tuple.C57_shows
#print axioms Ptl.Tuple.C57_call
#print axioms Ptl.Tuple.C57_wrong_count
#print axioms Ptl.Tuple.C57_construct
#print axioms Ptl.Tuple.C57_set
#print axioms Ptl.Tuple.C57_swap
#print axioms Ptl.Tuple.C57_tuple_element
#print axioms Ptl.Tuple.C57_equal
#print axioms Ptl.Tuple.C57_equal_iff_same
#print axioms Ptl.Tuple.C57_less
#print axioms Ptl.Tuple.C57_consistent
#print axioms Ptl.Tuple.C57_strict_weak_order
#print axioms Ptl.Tuple.C57_strict_total_order
#print axioms Ptl.Fun.C58_bind
#print axioms Ptl.Fun.C58_once
#print axioms Ptl.Fun.C58_result
#print axioms Ptl.Fun.C58_result_ref
#print axioms Ptl.Fun.C58_void
#print axioms Ptl.Fun.C58_throws
#print axioms Ptl.Fun.C58_dangling
#print axioms Ptl.Fun.C58_constness
#print axioms Ptl.Fun.C59_bound_const_partial
#print axioms Ptl.Fun.C59_same_partial
#print axioms Ptl.Fun.C59_refuted
#print axioms Ptl.Fun.C59_noexcept_refuted
#print axioms Ptl.Vector.C60_at
#print axioms Ptl.Vector.C60_read
#print axioms Ptl.Vector.C60_write
#print axioms Ptl.Str.C61_at
#print axioms Ptl.Str.C61_index
#print axioms Ptl.Str.C61_string_view
#print axioms Ptl.Str.C61_write
#print axioms Ptl.Bitset.C62_width_partial
#print axioms Ptl.Bitset.C62_refuted
#print axioms Ptl.Bitset.C62_one_partial
#print axioms Ptl.Bitset.C62_exact
#print axioms Ptl.Optional.C63_optional_refuted
#print axioms Ptl.Optional.C63_optional_partial
#print axioms Ptl.Variant.C63_copy_refuted
#print axioms Ptl.Variant.C63_assign_refuted
#print axioms Ptl.Variant.C63_emplace_refuted
#print axioms Ptl.Variant.C63_copy_partial
#print axioms Ptl.Variant.C64_refuted
#print axioms Ptl.Variant.C64_own_value_is_destroyed_first
#print axioms Ptl.Variant.C64_partial
#print axioms Ptl.Variant.C65_copy_from_part_refuted
#print axioms Ptl.Variant.C65_copy_partial
#print axioms Ptl.Variant.C66_refuted
#print axioms Ptl.Variant.C66_const_never_held
#print axioms Ptl.Variant.C66_partial
#print axioms Ptl.VarRef.C67_ref_refuted
#print axioms Ptl.VarRef.C67_ref_partial
#print axioms Ptl.Variant.C67_result
#print axioms Ptl.Variant.C67_refuted
#print axioms Ptl.Variant.C67_partial
#print axioms Ptl.Fun.C68_value_partial
#print axioms Ptl.Fun.C68_always_dangling
#print axioms Ptl.Fun.C68_refuted
#print axioms Ptl.Union.C69_first_partial
#print axioms Ptl.Union.C69_ref_first_partial
#print axioms Ptl.Union.C69_begun_partial
#print axioms Ptl.Union.C69_ref_begun_partial
#print axioms Ptl.Union.C69_refuted
#print axioms Ptl.Union.C69_ref_refuted
#print axioms Ptl.Union.C69_change_refuted
#print axioms Ptl.Layout.C70_variant_partial
#print axioms Ptl.Layout.C70_optional_partial
#print axioms Ptl.Layout.C70_bytes_partial
#print axioms Ptl.Layout.C70_tuple_partial
#print axioms Ptl.Layout.C70_optional_refuted
#print axioms Ptl.Layout.C70_variant_refuted
#print axioms Ptl.Layout.C70_tuple_refuted
#print axioms Ptl.Layout.C71_exact
#print axioms Ptl.Layout.C71_partial
#print axioms Ptl.Layout.C71_refuted
#print axioms Ptl.Layout.C72_optional
#print axioms Ptl.Layout.C72_tuple
#print axioms Ptl.Layout.C72_tuple_exact
#print axioms Ptl.Layout.C72_variant
#print axioms Ptl.Layout.C72_tuple_apart
#print axioms Ptl.Layout.C72_variant_apart
#print axioms Ptl.Layout.C72_optional_apart
#print axioms Ptl.Layout.C73_partial
#print axioms Ptl.Layout.C73_refuted
#print axioms Ptl.Layout.C73_inside_refuted
#print axioms Ptl.Overload.C74_tuple_partial
#print axioms Ptl.Overload.C74_tuple_one_partial
#print axioms Ptl.Overload.C74_tuple_refuted
#print axioms Ptl.Overload.C74_tuple_const_rvalue_refuted
#print axioms Ptl.Overload.C74_array_partial
#print axioms Ptl.Overload.C74_array_refuted
#print axioms Ptl.Overload.C75_exact
#print axioms Ptl.Overload.C75_partial
#print axioms Ptl.Overload.C75_lvalue_refuted
#print axioms Ptl.Overload.C75_conversion_refuted
#print axioms Ptl.Vector.C76_push_back_partial
#print axioms Ptl.Vector.C76_insert_move_partial
#print axioms Ptl.Vector.C76_insert_copy
#print axioms Ptl.Vector.C76_push_back_exact
#print axioms Ptl.Vector.C76_insert_move_exact
#print axioms Ptl.Vector.C76_push_back_refuted
#print axioms Ptl.Vector.C76_lost_refuted
#print axioms Ptl.Tuple.C76_tuple_partial
#print axioms Ptl.Tuple.C76_tuple_refuted
#print axioms Ptl.Compare.C77_range_partial
#print axioms Ptl.Compare.C77_range_refuted
#print axioms Ptl.Compare.C77_tuple_partial
#print axioms Ptl.Compare.C77_tuple_refuted
#print axioms Ptl.Compare.C77_optional_partial
#print axioms Ptl.Compare.C77_optional_refuted
#print axioms Ptl.Compare.C77_variant_partial
#print axioms Ptl.Compare.C77_variant_refuted
#print axioms Ptl.Compare.C77_refuted
#print axioms Ptl.Compare.C77_without_noexcept
#print axioms Ptl.Overload.C78_exact
#print axioms Ptl.Overload.C78_partial
#print axioms Ptl.Overload.C78_other_refuted
#print axioms Ptl.Overload.C78_refuted
#print axioms Ptl.Overload.C79_called
#print axioms Ptl.Overload.C79_called_ref
#print axioms Ptl.Overload.C79_partial
#print axioms Ptl.Overload.C79_ref_partial
#print axioms Ptl.Overload.C79_lvalue_refuted
#print axioms Ptl.Overload.C79_function_refuted
#print axioms Ptl.Overload.C79_refuted
#print axioms Ptl.Vector.C80_other
#print axioms Ptl.Vector.C80_partial
#print axioms Ptl.Vector.C80_insert_exact
#print axioms Ptl.Vector.C80_refuted
#print axioms Ptl.Str.C80_string_partial
#print axioms Ptl.Str.C80_reserve_exact
#print axioms Ptl.Str.C80_string_refuted
#print axioms Ptl.Str.C80_string_not_full
#print axioms Ptl.Optional.C80_optional
#print axioms Ptl.Variant.C80_variant
#print axioms Ptl.Arr.C80_array
#print axioms Ptl.Tuple.C80_tuple
#print axioms Ptl.Vector.C81_contiguous
#print axioms Ptl.Vector.C81_apart
#print axioms Ptl.Vector.C81_extent
#print axioms Ptl.Vector.C81_partial
#print axioms Ptl.Vector.C81_refuted
#print axioms Ptl.Str.C82_blocks
#print axioms Ptl.Str.C82_derefs
#print axioms Ptl.Vector.C82_blocks
#print axioms Ptl.Vector.C82_copies
#print axioms Ptl.Vector.C82_growths
#print axioms Ptl.Iter.C83_same
#print axioms Ptl.Iter.C83_partial
#print axioms Ptl.Iter.C83_refuted
#print axioms Ptl.Iter.C83_exact
#print axioms Ptl.Text.C84_string
#print axioms Ptl.Text.C84_ref_partial
#print axioms Ptl.Text.C84_ref_refuted
#print axioms Ptl.Text.C84_exact
#print axioms Ptl.Text.C84_concat
#print axioms Ptl.Text.C84_append
#print axioms Ptl.Text.C84_assign
#print axioms Ptl.Text.C84_assign_moves
#print axioms Ptl.Optional.C85_optional_partial
#print axioms Ptl.Optional.C85_optional_refuted
#print axioms Ptl.Optional.C85_optional_exact
#print axioms Ptl.Variant.C85_variant
#print axioms Ptl.Vector.C85_vector
#print axioms Ptl.Str.C85_string
#print axioms Ptl.Bitset.C86_bitset_declared
#print axioms Ptl.Bitset.C86_bitset_functions
#print axioms Ptl.Bitset.C86_bitset_partial
#print axioms Ptl.Bitset.C86_bitset_exact
#print axioms Ptl.Bitset.C86_bitset_refuted
#print axioms Ptl.Bitset.C86_bitset_cxx20
#print axioms Ptl.Arr.C86_array_partial
#print axioms Ptl.Arr.C86_array_exact
#print axioms Ptl.Arr.C86_array_cxx20
#print axioms Ptl.Constexpr.C86_refuted
#print axioms Ptl.Constexpr.C86_partial
#print axioms Ptl.Constexpr.C86_cxx20
#print axioms Ptl.Str.C87_partial
#print axioms Ptl.Str.C87_exact
#print axioms Ptl.Str.C87_refuted
#print axioms Ptl.Str.C87_refuted_abc
#print axioms Ptl.Str.C88_string
#print axioms Ptl.Str.C88_string_release
#print axioms Ptl.Str.C88_string_model
#print axioms Ptl.Vector.C88_vector
#print axioms Ptl.Vector.C88_vector_release
#print axioms Ptl.Vector.C88_vector_model
#print axioms Ptl.Vector.C89_vector_partial
#print axioms Ptl.Vector.C89_vector_exact
#print axioms Ptl.Vector.C89_vector_refuted
#print axioms Ptl.Str.C89_string_partial
#print axioms Ptl.Str.C89_string_refuted
#print axioms Ptl.Str.C89_string_short
#print axioms Ptl.Optional.C89_optional_partial
#print axioms Ptl.Optional.C89_optional_refuted
#print axioms Ptl.Variant.C89_variant_partial
#print axioms Ptl.Variant.C89_variant_refuted
#print axioms Ptl.Str.C90_partial
#print axioms Ptl.Str.C90_reserve
#print axioms Ptl.Str.C90_exact
#print axioms Ptl.Str.C90_new
#print axioms Ptl.Str.C90_refuted
#print axioms Ptl.Optional.C91_overload
#print axioms Ptl.Optional.C91_overload_same
#print axioms Ptl.Optional.C91_partial
#print axioms Ptl.Optional.C91_exact
#print axioms Ptl.Optional.C91_exact_left
#print axioms Ptl.Optional.C91_refuted
#print axioms Ptl.Vector.C92_element
#print axioms Ptl.Vector.C92_buffer
#print axioms Ptl.Vector.C92_partial
#print axioms Ptl.Vector.C92_dangles
#print axioms Ptl.Vector.C92_resize
#print axioms Ptl.Vector.C92_refuted
#print axioms Ptl.Arr.C93_array
#print axioms Ptl.Arr.C93_array_reads
#print axioms Ptl.Bitset.C93_bitset
#print axioms Ptl.Bitset.C93_bitset_sources
#print axioms Ptl.Optional.C93_optional
#print axioms Ptl.Optional.C93_optional_reads
#print axioms Ptl.Optional.C93_optional_compare
#print axioms Ptl.Str.C93_string
#print axioms Ptl.Str.C93_string_reads
#print axioms Ptl.Str.C93_string_sources
#print axioms Ptl.Tuple.C93_tuple
#print axioms Ptl.Tuple.C93_tuple_reads
#print axioms Ptl.Variant.C93_variant
#print axioms Ptl.Variant.C93_variant_reads
#print axioms Ptl.Vector.C93_vector
#print axioms Ptl.Vector.C93_vector_reads
#print axioms Ptl.Vector.C93_vector_sources
#print axioms Ptl.Traits.C94_vector_exact
#print axioms Ptl.Traits.C94_array_exact
#print axioms Ptl.Traits.C94_tuple_exact
#print axioms Ptl.Traits.C94_optional_exact
#print axioms Ptl.Traits.C94_variant_exact
#print axioms Ptl.Traits.C94_partial
#print axioms Ptl.Traits.C94_tuple_refuted
#print axioms Ptl.Traits.C94_variant_ref_refuted
#print axioms Ptl.Traits.C94_function_ref_refuted
#print axioms Ptl.Traits.C94_variant_refuted
#print axioms Ptl.Traits.C95_exact
#print axioms Ptl.Traits.C95_partial
#print axioms Ptl.Traits.C95_refuted
#print axioms Ptl.Refs.C96_array_partial
#print axioms Ptl.Refs.C96_array_exact
#print axioms Ptl.Refs.C96_size_refuted
#print axioms Ptl.Refs.C96_array_const
#print axioms Ptl.Refs.C96_count_partial
#print axioms Ptl.Refs.C96_count_refuted
#print axioms Ptl.Refs.C96_optional_exact
#print axioms Ptl.Refs.C96_optional_partial
#print axioms Ptl.Refs.C96_optional_const
#print axioms Ptl.Refs.C96_temporary_refuted
#print axioms Ptl.Refs.C96_both_refuted
#print axioms Ptl.Refs.C96_converts_refuted
#print axioms Ptl.Refs.C96_by_value_refuted
#print axioms Ptl.Refs.C97_array_partial
#print axioms Ptl.Refs.C97_array_ref
#print axioms Ptl.Refs.C97_array_exact
#print axioms Ptl.Refs.C97_array_compiles
#print axioms Ptl.Refs.C97_view_refuted
#print axioms Ptl.Refs.C97_mutable_view_refuted
#print axioms Ptl.Refs.C97_optional_exact
#print axioms Ptl.Refs.C97_optional_partial
#print axioms Ptl.Refs.C97_optional_ref
#print axioms Ptl.Refs.C97_temporary_refuted
#print axioms Ptl.Refs.C97_iterator_refuted
#print axioms Ptl.Refs.C97_pointer_refuted
#print axioms Ptl.Fun.Chain.C98_partial
#print axioms Ptl.Fun.Chain.C98_same_partial
#print axioms Ptl.Fun.Chain.C98_exact
#print axioms Ptl.Fun.Chain.C98_assigned_refuted
#print axioms Ptl.Fun.Chain.C98_destroyed_refuted
#print axioms Ptl.Fun.Chain.C98_cycle_refuted
#print axioms Ptl.Recursive.C99_exact
#print axioms Ptl.Recursive.C99_partial
#print axioms Ptl.Recursive.C99_references
#print axioms Ptl.Recursive.C99_vector_refuted
#print axioms Ptl.Recursive.C99_tree_refuted

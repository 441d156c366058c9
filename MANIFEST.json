{
 "claims": [
  {
   "property": "C01",
   "status": "proved",
   "theorems": [
    "Verif.Hashmap.C01_hashmap_is_dictionary"
   ],
   "note": "Uses the wrap-around result of the secondary hash (see C49)."
  },
  {
   "property": "C02",
   "status": "proved",
   "theorems": [
    "Verif.Hashmap.C02_size_counts_distinct_keys",
    "Verif.Hashmap.C02_collisions"
   ],
   "note": ""
  },
  {
   "property": "C03",
   "status": "proved",
   "theorems": [
    "Verif.Hashmap.C03_create_power_of_two",
    "Verif.Hashmap.C03_index_in_range"
   ],
   "note": ""
  },
  {
   "property": "C04",
   "status": "proved",
   "theorems": [
    "Verif.Hashmap.C04_forEach_prefix"
   ],
   "note": ""
  },
  {
   "property": "C05",
   "status": "proved",
   "theorems": [
    "Verif.Hashmap.C05_memoize_once"
   ],
   "note": ""
  },
  {
   "property": "C06",
   "status": "proved",
   "theorems": [
    "Verif.Hashmap.C06_expand_keeps_contents",
    "Verif.Hashmap.C06_load_bound",
    "Verif.Hashmap.C06_free_each_once"
   ],
   "note": ""
  },
  {
   "property": "C07",
   "status": "proved",
   "theorems": [
    "Verif.Iterator.C07_resumed_only_when_deps_ended"
   ],
   "note": "NULL also results when the selected task was created with a NULL input; the theorem states this second case explicitly."
  },
  {
   "property": "C08",
   "status": "proved",
   "theorems": [
    "Verif.Iterator.C08_next_is_depth_first"
   ],
   "note": ""
  },
  {
   "property": "C09",
   "status": "proved",
   "theorems": [
    "Verif.Iterator.C09_append_at_end",
    "Verif.Iterator.C09_dequeue_fifo",
    "Verif.Iterator.C09_get_dep_out"
   ],
   "note": ""
  },
  {
   "property": "C10",
   "status": "proved",
   "theorems": [
    "Verif.Iterator.C10_fold_is_recursion"
   ],
   "note": ""
  },
  {
   "property": "C100",
   "status": "proved",
   "theorems": [
    "Verif.Links.C100_tests"
   ],
   "note": "The check library is left out: a test passes or fails."
  },
  {
   "property": "C101",
   "status": "partial",
   "theorems": [
    "Verif.Lifecycle.C101_copy_free_partial",
    "Verif.Lifecycle.C101_untagged_partial"
   ],
   "note": "Under the conditions of C30 (shared data that can be copied): what C30 shows to fail is not a copy to begin with. Handlers are assumed to say of the copy what they said of the source; without a tag map nothing is assumed."
  },
  {
   "property": "C102",
   "status": "partial",
   "theorems": [
    "Verif.Lifecycle.C102_source_partial",
    "Verif.Lifecycle.C102_copy_partial",
    "Verif.Lifecycle.C102_both_partial"
   ],
   "note": "Under the conditions of C30, as C101."
  },
  {
   "property": "C103",
   "status": "proved",
   "theorems": [
    "Verif.Lifecycle.C103_objects",
    "Verif.Lifecycle.C103_print",
    "Verif.Lifecycle.C103_deep",
    "Verif.Lifecycle.C103_handlers"
   ],
   "note": "Accesses to memory that is not mapped are undefined in the model, so a completed operation touched mapped memory only."
  },
  {
   "property": "C104",
   "status": "partial",
   "theorems": [
    "Verif.Lifecycle.C104_print_partial",
    "Verif.Lifecycle.C104_untagged_partial",
    "Verif.Lifecycle.C104_later_partial",
    "Verif.Lifecycle.C104_later_untagged_partial",
    "Verif.Lifecycle.C104_unknown_false"
   ],
   "note": "FALSE of the code if pointers to something unknown are dropped: the address is printed for the source and NULL for the copy (C104_unknown_false). Proved under the conditions of C30 if such pointers are kept or rejected."
  },
  {
   "property": "C105",
   "status": "partial",
   "theorems": [
    "Verif.Replay.C105_recorded_partial",
    "Verif.Replay.C105_printf_partial",
    "Verif.Replay.C105_char_false"
   ],
   "note": "FALSE of the code for small integers in `...`: `%c` is kept as one byte and passed as one byte, not as an int (C105_char_false). Proved for all other calls that C40/C75 and C94 cover."
  },
  {
   "property": "C106",
   "status": "partial",
   "theorems": [
    "Verif.Trace.C106_traced_partial",
    "Verif.Trace.C106_void_partial",
    "Verif.Trace.C106_evaluated_twice",
    "Verif.Trace.C106_void_evaluated_twice",
    "Verif.Trace.C106_twice_false",
    "Verif.Trace.C106_unlinked_false"
   ],
   "note": "FALSE of the code if the arguments have effects: the macros evaluate them twice, print the first values and pass the second (C106_twice_false; C106_evaluated_twice says exactly what happens); and for functions without type information every call leaks a handle (C106_unlinked_false). Proved for arguments without effects and functions with type information."
  },
  {
   "property": "C107",
   "status": "partial",
   "theorems": [
    "Verif.Trace.C107_call",
    "Verif.Trace.C107_tells",
    "Verif.Trace.C107_numbers_partial",
    "Verif.Trace.C107_data",
    "Verif.Trace.C107_no_dots_false"
   ],
   "note": "FALSE of the code for a variadic call without variable arguments: it has no text (C107_no_dots_false). C107_call and C107_tells are exact for every text there is; that there is one is proved for arithmetic arguments (C107_numbers_partial) and, without following pointers, for all data (C107_data)."
  },
  {
   "property": "C108",
   "status": "partial",
   "theorems": [
    "Verif.Alt.C108_alt_partial",
    "Verif.Alt.C108_narrow_false",
    "Verif.Alt.C108_reinterpreted_false",
    "Verif.Alt.C108_const_false",
    "Verif.Alt.C108_va_list_false",
    "Verif.Alt.C108_memory_false"
   ],
   "note": "FALSE of the code: an argument of a smaller type than the parameter is read past its end (C108_narrow_false), one of another type is recorded unconverted (C108_reinterpreted_false), a const parameter is recorded as zero (C108_const_false), a va_list on x86-64 is undefined (C108_va_list_false), and an argument for which memory runs out is left out silently (C108_memory_false). Proved for arguments without effects that have the parameters' types or are integers not narrower than integer parameters."
  },
  {
   "property": "C109",
   "status": "partial",
   "theorems": [
    "Verif.PrintfText.C109_text_partial",
    "Verif.PrintfText.C109_recorded_partial",
    "Verif.PrintfText.C109_demo",
    "Verif.PrintfText.C109_no_conversions_false"
   ],
   "note": "FALSE of the code for a format without conversion specifications: the call has no text (C109_no_conversions_false). Otherwise proved, from the call to the text, for formats without %n and %% (C74), characters that can be in a literal, and strings of at most 7 characters (longer ones are cut wrongly, C74_long_string_false); an empty string is printed as (char [1]){0,}. C109_demo is the call of the documentation."
  },
  {
   "property": "C11",
   "status": "partial",
   "theorems": [
    "Verif.Iterator.C11_append_after_drain_aborts",
    "Verif.Iterator.C11_append_never_aborts_partial"
   ],
   "note": "FALSE of the code: appending after the queue was drained aborts (witness proved); partial theorem for all other cases."
  },
  {
   "property": "C110",
   "status": "proved",
   "theorems": [
    "Verif.Queries.C110_types",
    "Verif.Queries.C110_null",
    "Verif.Queries.C110_nothing",
    "Verif.Queries.C110_details",
    "Verif.Queries.C110_places",
    "Verif.Queries.C110_arithmetic",
    "Verif.Queries.C110_values",
    "Verif.Queries.C110_value_details",
    "Verif.Queries.C110_case"
   ],
   "note": "Base types have names (the builder rejects others, C66; an unnamed one fails an assertion)."
  },
  {
   "property": "C111",
   "status": "partial",
   "theorems": [
    "Verif.Queries.C111_known_partial",
    "Verif.Queries.C111_signed_char_false",
    "Verif.Queries.C111_case"
   ],
   "note": "FALSE of the code: signed char (int8_t) is not among the types the library knows, so such objects cannot be compared, copied, read or printed (C111_signed_char_false, for every such object). Proved for the 17 types it knows."
  },
  {
   "property": "C112",
   "status": "partial",
   "theorems": [
    "Verif.Tell.C112_tells_partial",
    "Verif.Tell.C112_prefix_partial",
    "Verif.Tell.C112_integers",
    "Verif.Tell.C112_enumerations",
    "Verif.Tell.C112_pointers",
    "Verif.Tell.C112_structs"
   ],
   "note": "Proved for types of data (no functions and parameters) on platforms that write different addresses differently (Formats), if handlers choose members of the union, answer for arrays of unknown length and unions without names, and two types they take one pointer to point to are never written the same (DataTypes). Of floating-point numbers the text tells the digits printed, of a union without a handler nothing."
  },
  {
   "property": "C113",
   "status": "partial",
   "theorems": [
    "Verif.SameText.C113_equal_partial",
    "Verif.SameText.C113_untagged_partial",
    "Verif.SameText.C113_different_partial",
    "Verif.SameText.C113_ignored_false",
    "Verif.SameText.C113_zero_false"
   ],
   "note": "FALSE of the code for zero and minus zero (found equal, printed with their signs: C113_zero_false) and where pointers that are not followed are ignored in comparisons (C113_ignored_false). Proved for all other data (no argument lists and calls), if handlers reply alike for both values."
  },
  {
   "property": "C114",
   "status": "partial",
   "theorems": [
    "Verif.CDecl.C114_recognised_partial",
    "Verif.CDecl.C114_other",
    "Verif.CDecl.C114_alias_false"
   ],
   "note": "FALSE of the code for parameters declared with another name for va_list (a typedef of it): they are not recognised (C114_alias_false). Otherwise an exact characterisation for all types."
  },
  {
   "property": "C115",
   "status": "partial",
   "theorems": [
    "Verif.Macro.C115_count_partial",
    "Verif.Macro.C115_each_partial",
    "Verif.Macro.C115_nested_partial",
    "Verif.Macro.C115_for",
    "Verif.Macro.C115_comma",
    "Verif.Macro.C115_recorded_partial",
    "Verif.Macro.C115_many_false"
   ],
   "note": "FALSE of the code for more than 1022 arguments: the 1023rd argument is taken for their number (C115_many_false). Proved for up to 1022."
  },
  {
   "property": "C116",
   "status": "partial",
   "theorems": [
    "Verif.DemoDb.C116_new",
    "Verif.DemoDb.C116_append",
    "Verif.DemoDb.C116_outside",
    "Verif.DemoDb.C116_null",
    "Verif.DemoDb.C116_remove_partial",
    "Verif.DemoDb.C116_remove_false",
    "Verif.DemoDb.C116_delete",
    "Verif.DemoDb.C116_history_partial",
    "Verif.DemoDb.C116_life_partial"
   ],
   "note": "FALSE of the code when a record is removed that has two or more behind it: memcpy is used on overlapping places, which is undefined (C116_remove_false). Proved for all other histories."
  },
  {
   "property": "C117",
   "status": "proved",
   "theorems": [
    "Verif.Inherit.C117_both",
    "Verif.Inherit.C117_first",
    "Verif.Inherit.C117_size",
    "Verif.Inherit.C117_levels",
    "Verif.Inherit.C117_layers",
    "Verif.Inherit.case117"
   ],
   "note": "Layout by the rules of the x86-64 ABI for structures and unions without bit-fields."
  },
  {
   "property": "C118",
   "status": "partial",
   "theorems": [
    "Verif.TagGen.C118_new",
    "Verif.TagGen.C118_outcome",
    "Verif.TagGen.C118_memory_partial",
    "Verif.TagGen.C118_append_partial",
    "Verif.TagGen.C118_append_null",
    "Verif.TagGen.C118_context_false",
    "Verif.TagGen.C118_append_false",
    "Verif.TagGen.case118"
   ],
   "note": "FALSE of the code in two points: the context made for a tag that is refused is not released (C118_context_false), and a failed append leaves the tags set before the failure in the map (C118_append_false). Proved for all else; the release of blocks if the hash map has memory for its entries (see C56)."
  },
  {
   "property": "C119",
   "status": "partial",
   "theorems": [
    "Verif.GoFuncs.C119_append_partial",
    "Verif.GoFuncs.C119_skip_false",
    "Verif.GoFuncs.C119_instance",
    "Verif.GoFuncs.case119"
   ],
   "note": "FALSE of the code for names that are in the map already: they are replaced, although skipping is reported (C119_skip_false). All else proved."
  },
  {
   "property": "C12",
   "status": "proved",
   "theorems": [
    "Verif.Iterator.C12_level_and_get_in"
   ],
   "note": ""
  },
  {
   "property": "C120",
   "status": "partial",
   "theorems": [
    "Verif.TagGen.C120_section_partial",
    "Verif.TagGen.C120_entry_partial",
    "Verif.TagGen.C120_names_partial",
    "Verif.TagGen.C120_backslash_false",
    "Verif.TagGen.case120"
   ],
   "note": "FALSE of the code in programs with a backslash in a file name: the generated table is not in order, and the type is not found (C120_backslash_false, see C51). Proved for all descriptions and tables with other file names and with identifiers as names."
  },
  {
   "property": "C121",
   "status": "partial",
   "theorems": [
    "Verif.Alt.C121_untagged_partial",
    "Verif.Alt.C121_more_partial",
    "Verif.Alt.C121_unlinked_partial",
    "Verif.Alt.C108_memory_false",
    "Verif.Alt.case121_untagged",
    "Verif.Alt.case121_more",
    "Verif.Alt.case121_unlinked"
   ],
   "note": "FALSE of the code where memory runs out for an argument: it is left out and nothing is reported (C108_memory_false). Proved, with sufficient memory, for variable arguments without a tag and for more arguments than known parameters, after any ordinary arguments, and for functions without type information. That nothing is reported if all arguments are recorded is C108_alt_partial. Missing: parameters of types without size (failures 2 and 3), which C does not have."
  },
  {
   "property": "C13",
   "status": "proved",
   "theorems": [
    "Verif.EntryDb.C13_lookup_unique"
   ],
   "note": "A NULL file name is not checked by the code (undefined behaviour, shown by an example)."
  },
  {
   "property": "C14",
   "status": "partial",
   "theorems": [
    "Verif.Printf.C14_parse_partial",
    "Verif.Printf.C14_recognised",
    "Verif.Printf.C14_rejects",
    "Verif.Printf.C14_success_is_specification",
    "Verif.Printf.C14_zero_flag_is_octal",
    "Verif.Printf.C14_space_flag_is_zero_flag",
    "Verif.Printf.C14_z_taken_as_conversion",
    "Verif.Printf.C14_star_refused",
    "Verif.Printf.C14_huge_width_undefined"
   ],
   "note": "FALSE of the code for the flags 0 and space (width read as octal), for *, j/z/t and for numbers beyond int (witnesses proved); proved for every other specification, and rejection proved for every string."
  },
  {
   "property": "C15",
   "status": "partial",
   "theorems": [
    "Verif.Printf.C15_count_partial",
    "Verif.Printf.C15_count_safe",
    "Verif.Printf.C15_adjacent_false",
    "Verif.Printf.C15_percent_after_false"
   ],
   "note": "FALSE of the code when a specification is directly followed by % (witnesses); proved for all other formats; memory safety proved for every string without ten digits in a row."
  },
  {
   "property": "C16",
   "status": "partial",
   "theorems": [
    "Verif.Printf.C16_collect_partial",
    "Verif.Printf.C16_long_string_overflows",
    "Verif.Printf.C16_percent_breaks_collection",
    "Verif.Printf.C16_percent_breaks_strings",
    "Verif.Printf.C16_adjacent_lost",
    "Verif.Printf.C16_lf_refused"
   ],
   "note": "FALSE of the code for %%, adjacent specifications, %s arguments of 8 or more characters (buffer overflow) and %lf (witnesses proved); proved for all other formats."
  },
  {
   "property": "C17",
   "status": "proved",
   "theorems": [
    "Verif.Entry.C17_byte_size",
    "Verif.Entry.C17_size_unique"
   ],
   "note": "Sizes are exact below 2^64 and reduced modulo 2^64 above."
  },
  {
   "property": "C18",
   "status": "proved",
   "theorems": [
    "Verif.Entry.C18_final_entry"
   ],
   "note": ""
  },
  {
   "property": "C19",
   "status": "proved",
   "theorems": [
    "Verif.Entry.C19_members",
    "Verif.Entry.C19_parameters",
    "Verif.Entry.C19_enumerators",
    "Verif.Entry.C19_no_enumerators",
    "Verif.Entry.C19_path",
    "Verif.Entry.C19_parameter_path"
   ],
   "note": ""
  },
  {
   "property": "C20",
   "status": "proved",
   "theorems": [
    "Verif.Entry.C20_offsets",
    "Verif.Entry.C20_other_cases"
   ],
   "note": ""
  },
  {
   "property": "C21",
   "status": "partial",
   "theorems": [
    "Verif.Value.C21_write_read_partial",
    "Verif.Value.C21_read_partial",
    "Verif.Value.C21_wide_undefined",
    "Verif.Value.C21_straddle_false"
   ],
   "note": "FALSE of the code for fields of 31 bits or more (undefined behaviour, proved for every such field) and for packed fields that straddle the bytes of their type (witness); proved for all other widths, positions, values and memory contents."
  },
  {
   "property": "C22",
   "status": "partial",
   "theorems": [
    "Verif.Value.C22_other_bits_partial",
    "Verif.Value.C22_neighbour_false"
   ],
   "note": "FALSE of the code for fields ending more than 32 bits after the start of their first byte (witness: five neighbouring bits are cleared); proved for all others up to 30 bits."
  },
  {
   "property": "C23",
   "status": "partial",
   "theorems": [
    "Verif.Value.C23_elements_partial",
    "Verif.Value.C23_count_false",
    "Verif.Value.C23_count_refused",
    "Verif.Value.C23_members"
   ],
   "note": "FALSE of the code for arrays of 2^31 elements or more (count truncated to int, witness); proved for all other arrays and for members."
  },
  {
   "property": "C24",
   "status": "partial",
   "theorems": [
    "Verif.Value.C24_typed_access_partial",
    "Verif.Value.C24_member_const_false",
    "Verif.Value.C24_enumeration_const_false",
    "Verif.Value.C24_pointer_const_false"
   ],
   "note": "FALSE of the code for const objects other than directly const base-type objects (witnesses: member of a const struct, const enumeration, const pointer are written); the rest proved for all types."
  },
  {
   "property": "C25",
   "status": "partial",
   "theorems": [
    "Verif.Value.C25_round_trip_partial",
    "Verif.Value.C25_string",
    "Verif.Value.C25_equal",
    "Verif.Value.C25_copy",
    "Verif.Value.C25_unsigned_false",
    "Verif.Value.C25_bitfield_false"
   ],
   "note": "FALSE of the code for unsigned enumerations with values in the upper half and for enumeration bit-fields (witnesses); proved for all signed values, sizes and memory contents."
  },
  {
   "property": "C26",
   "status": "partial",
   "theorems": [
    "Verif.Value.C26_num_partial",
    "Verif.Value.C26_bitfield_partial",
    "Verif.Value.C26_truncation_false"
   ],
   "note": "FALSE of the code for values outside int, which are truncated without an error (witness); proved for all representable values."
  },
  {
   "property": "C27",
   "status": "proved",
   "theorems": [
    "Verif.Value.C27_equal",
    "Verif.Value.C27_copy",
    "Verif.Value.C27_null"
   ],
   "note": "Plain objects (bit-fields: see C21); floating-point == and passing long double by value are parameters."
  },
  {
   "property": "C28",
   "status": "proved",
   "theorems": [
    "Verif.Value.C28_introduced_loop",
    "Verif.Value.C28_walk_no_repeat"
   ],
   "note": ""
  },
  {
   "property": "C29",
   "status": "partial",
   "theorems": [
    "Verif.Deep.C29_free_partial",
    "Verif.Deep.C29_root_false",
    "Verif.Deep.C29_empty_false"
   ],
   "note": "FALSE of the code when a pointer leads into the value itself (its own memory is not among the ranges: an address inside it is freed) and for empty objects inside a block (freed although interior): two witnesses. Proved for every other pointer graph, shared, interior and cyclic pointers included, every handler and every hash order, provided a pointer of the data leads to the start of each block."
  },
  {
   "property": "C30",
   "status": "partial",
   "theorems": [
    "Verif.DeepCopy.C30_copy_partial",
    "Verif.DeepCopy.C30_equal_partial",
    "Verif.DeepCopy.C30_equal_untagged_partial",
    "Verif.DeepCopy.C30_failure",
    "Verif.DeepCopy.C30_types",
    "Verif.DeepCopy.C30_inner_false",
    "Verif.DeepCopy.C30_const_false",
    "Verif.DeepCopy.C30_null_false",
    "Verif.DeepCopy.C30_put_false",
    "Verif.DeepCopy.C30_root_false",
    "Verif.DeepCopy.C30_tree_leak_false",
    "Verif.DeepCopy.C30_tree_free_false",
    "Verif.DeepCopy.C30_tree_partial"
   ],
   "note": "FALSE of the code as stated: an object inside a block reached by two pointers is never copied; a const member makes the copy fail; NULL is not written in the fail and one-byte modes (stale destination, success reported); a pointer into the source itself gets a second copy; a block of another allocator is given to free if the block table cannot grow; tree mode leaks and misuses free on failure (seven theorems, general where possible). Proved otherwise for shared (dag) mode: every graph, cyclic and interior pointers included, is copied object by object into fresh blocks with sharing and interior offsets kept and nothing else changed, or memory ran out and the state is as before; and whenever a dag copy fails, all blocks it allocated are released. And metac_value_equal_ex then tells 1 for source and destination (C30_equal_partial), if the data has no NaN, in as-values mode has no loops and no pointers to unmapped memory, and the handlers answer for the copy as for the source. Calls and argument lists are left out. Of tree mode it is proved that a copy that succeeds has made exactly one block per followed pointer, each as long as what is pointed to, none overlapping."
  },
  {
   "property": "C31",
   "status": "partial",
   "theorems": [
    "Verif.Deep.C31_equal_partial",
    "Verif.Deep.C31_fails",
    "Verif.Deep.C31_reflexive_partial",
    "Verif.Deep.C31_symmetric",
    "Verif.Deep.C31_transitive",
    "Verif.Deep.C31_sharing_false",
    "Verif.Deep.C31_null_false",
    "Verif.Deep.C31_nan_false",
    "Verif.Deep.C31_loop_false"
   ],
   "note": "FALSE of the code as stated: sharing is not compared; with pointers ignored NULL and an unknown pointer are equal; with pointers compared as values equal cyclic data at different addresses are unequal; a NaN makes a value unequal to itself (four witnesses). Proved: the result is 1 exactly if all corresponding objects of the two trees agree (sizes, parts, loops, offsets in blocks, kinds, contents), -14 exactly if numbers of different C types meet, else 0; reflexive without NaNs; symmetric; transitive. For all values whose contents are readable, all modes, handlers and hash orders."
  },
  {
   "property": "C32",
   "status": "proved",
   "theorems": [
    "Verif.Deep.C32_attribution",
    "Verif.Deep.C32_determined"
   ],
   "note": "for every value, handler, mode and hash order. Ranges are those of the entries the walk records, one for each object a pointer leads to. If several entries have one address, only the one in the hash map carries the offset (see C30)."
  },
  {
   "property": "C33",
   "status": "partial",
   "theorems": [
    "Verif.TagMap.C33_lookup_partial",
    "Verif.TagMap.C33_determined",
    "Verif.TagMap.C33_lookup_plain",
    "Verif.TagMap.C33_ext_false"
   ],
   "note": "FALSE of the code when an external map has no answer: the assertion fails instead of going on (witness, and proved for every such map); proved in all other cases."
  },
  {
   "property": "C34",
   "status": "proved",
   "theorems": [
    "Verif.TagMap.C34_history",
    "Verif.TagMap.C34_lookup",
    "Verif.TagMap.C34_simple"
   ],
   "note": "The hash map of a category is an association list (its refinement: C01-C06). Lookups after a history are stated for maps without external categories; with them see C33."
  },
  {
   "property": "C35",
   "status": "proved",
   "theorems": [
    "Verif.TagString.C35_lookup",
    "Verif.TagString.C35_sound"
   ],
   "note": ""
  },
  {
   "property": "C36",
   "status": "partial",
   "theorems": [
    "Verif.Handlers.C36_select_partial",
    "Verif.Handlers.C36_constant",
    "Verif.Handlers.C36_refused",
    "Verif.Handlers.C36_wide_selector_false"
   ],
   "note": "FALSE of the code for selector fields whose value does not fit int: metac_value_num truncates, so a 64-bit selector of 2^32+1 chooses the member of the case for 1 (witness). Proved for every struct, union, case table and selector value within int (integers, enumerations, bit-fields under the conditions of C26): exactly the member of the first matching case, otherwise error or no selection."
  },
  {
   "property": "C37",
   "status": "partial",
   "theorems": [
    "Verif.Handlers.C37_count_by_partial",
    "Verif.Handlers.C37_parameters_partial",
    "Verif.Handlers.C37_refused",
    "Verif.Handlers.C37_wide_count_false"
   ],
   "note": "FALSE of the code for counts that do not fit int (truncated: witness with 2^32+1 giving 1 element). Proved for all other counts, for sibling members and sibling call arguments, pointers and arrays."
  },
  {
   "property": "C38",
   "status": "partial",
   "theorems": [
    "Verif.ParamStorage.C38_append_history_partial",
    "Verif.ParamStorage.C38_index",
    "Verif.ParamStorage.C38_failed_append_changes_nothing",
    "Verif.ParamStorage.C38_null_storage",
    "Verif.ParamStorage.C38_null_nested_accepted"
   ],
   "note": "Full behaviour proved for all histories and allocation failures; the one deviation (a nested storage whose allocation failed is accepted as NULL) makes the claim FALSE under allocation failure, witness proved."
  },
  {
   "property": "C39",
   "status": "partial",
   "theorems": [
    "Verif.ParamStorage.C39_delete_frees_once",
    "Verif.ParamStorage.C39_no_leak",
    "Verif.ParamStorage.C39_copy_partial",
    "Verif.ParamStorage.C39_copy_after_failure_ub"
   ],
   "note": "Release part proved in full; copy proved for sources without NULL nested storages, which only arise from an unchecked allocation failure (witness: undefined behaviour)."
  },
  {
   "property": "C40",
   "status": "partial",
   "theorems": [
    "Verif.WrapCall.C40_wrap_partial",
    "Verif.WrapCall.C40_nothing_left_partial",
    "Verif.WrapCall.C40_types",
    "Verif.WrapCall.C40_bytes_unique",
    "Verif.WrapCall.C40_not_a_function",
    "Verif.WrapCall.C40_iterator_ub",
    "Verif.WrapCall.C40_no_handler_leaks",
    "Verif.WrapCall.C40_no_handler_wrong_argument",
    "Verif.WrapCall.C40_struct_double_free",
    "Verif.WrapCall.C40_struct_in_registers",
    "Verif.WrapCall.C40_not_a_function_leaks",
    "Verif.WrapCall.C40_storage_reused"
   ],
   "note": "FALSE of the code in seven cases, each with a witness: the iterator cannot be allocated (NULL dereferenced), variable arguments without a handler (leak; the next parameter gets the va_list), a struct without a generated fetch function (double free), a struct passed in floating-point registers, a value that is no function (handle kept, unlike other failures), a storage that is not empty. Proved otherwise for every signature, argument list, handler meeting the stated contract and outcome of the other allocations. va_list is modelled as a list of typed arguments; va_list detection, existence of fetch functions and double-to-float conversion are parameters."
  },
  {
   "property": "C41",
   "status": "partial",
   "theorems": [
    "Verif.PrintString.C41_literal_partial",
    "Verif.PrintString.C41_distinct_partial",
    "Verif.PrintString.C41_no_trigraph_partial",
    "Verif.PrintString.C41_not_literal_partial",
    "Verif.PrintString.C41_no_memory_partial",
    "Verif.PrintString.C41_huge_false"
   ],
   "note": "FALSE of the code for arrays of about 2^30 characters and more: the length of the escaped text is computed in an int and overflows (C41_huge_false, for every such array of quotation marks). Proved for all shorter arrays, every locale (isprint is a parameter; control characters are assumed unprintable), every memory and every outcome of the allocations."
  },
  {
   "property": "C42",
   "status": "partial",
   "theorems": [
    "Verif.CDecl.C42_one_placeholder",
    "Verif.CDecl.C42_unsupported",
    "Verif.CDecl.C42_named",
    "Verif.CDecl.C42_declares_partial",
    "Verif.CDecl.C42_variable_partial",
    "Verif.CDecl.C42_function_partial",
    "Verif.CDecl.C42_pointer_to_array_false",
    "Verif.CDecl.C42_two_qualifiers_false",
    "Verif.CDecl.C42_qualified_array_false",
    "Verif.CDecl.C42_returned_function_false"
   ],
   "note": "Exactly one placeholder (none for variables and functions): proved for every finite, sound description. That the text declares the name with that type is FALSE of the code for pointers to arrays, pointers with two qualifiers, qualified arrays of pointers and functions returning pointers to functions (four witnesses); proved for all other types, against C's declaration grammar given as inference rules. Missing also: qualified arrays of non-pointers (printed correctly, but the array type and its element type share the qualifier in C) and parameters or members of function type without a name."
  },
  {
   "property": "C43",
   "status": "proved",
   "theorems": [
    "Verif.ValueString.C43_shown",
    "Verif.ValueString.C43_balanced",
    "Verif.ValueString.C43_total"
   ],
   "note": "Shallow and deep mode, any tag handlers (arbitrary functions; those asked for the length of a flexible array are assumed to reply with an array). The result is the text t exactly if Shown holds of it; so arrays of unknown length without an answer are left out, and unions show the member the handler names. Character constants are read as the library prints them (quote, one character, quote; see C60). Assumes texts shorter than INT_MAX, successful allocations, arrays below 2^30 elements, and for the brackets names without brackets and quotes. Failures (for instance a double free if the type of a later variadic argument has no declaration, a va_list without arguments) are modelled as undefined outcomes and are not texts."
  },
  {
   "property": "C44",
   "status": "partial",
   "theorems": [
    "Verif.Str.C44_dsprintf_partial",
    "Verif.Str.C44_huge_false",
    "Verif.Str.C44_trim"
   ],
   "note": "FALSE of the code for texts of INT_MAX characters or more (witness proved); proved for all shorter texts; trimming proved in full."
  },
  {
   "property": "C45",
   "status": "proved",
   "theorems": [
    "Verif.BsdList.C45_list",
    "Verif.BsdList.C45_remove_local"
   ],
   "note": ""
  },
  {
   "property": "C46",
   "status": "proved",
   "theorems": [
    "Verif.GoMeta.C46_unique",
    "Verif.GoMeta.C46_found",
    "Verif.GoMeta.C46_reserved",
    "Verif.GoMeta.C46_text",
    "Verif.GoMeta.C46_stem"
   ],
   "note": "for every list of objects in every order and for every snake-case conversion (a parameter). Counters are unbounded in the model (int in Go)."
  },
  {
   "property": "C47",
   "status": "proved",
   "theorems": [
    "Verif.GoOverride.C47_merge",
    "Verif.GoOverride.C47_empty",
    "Verif.GoOverride.C47_self",
    "Verif.GoOverride.C47_order",
    "Verif.GoOverride.C47_all",
    "Verif.GoOverride.C47_bad_override",
    "Verif.GoOverride.C47_null_override_panics"
   ],
   "note": "for all tables of any depth and any map iteration order. An override document that decodes to a nil map (the text null) makes the merge panic unless the input is empty: C47_null_override_panics. Parsing, logging and failures of the deep copy are not modelled."
  },
  {
   "property": "C48",
   "status": "proved",
   "theorems": [
    "Verif.GoMeta.C48_dimensions",
    "Verif.GoMeta.C48_no_subrange",
    "Verif.GoMeta.C48_refused"
   ],
   "note": "for all subrange lists whose dimensions fit int64. An array entry without an element type leaves a typed nil link that later code dereferences; the link itself is modelled, the later passes are not."
  },
  {
   "property": "C49",
   "status": "partial",
   "theorems": [
    "Verif.Hashmap.C49_mix_always_undefined"
   ],
   "note": "The property is FALSE of the code; the theorem proves the negation for every input."
  },
  {
   "property": "C50",
   "status": "proved",
   "theorems": [
    "Verif.Iterator.C50_state_changes"
   ],
   "note": ""
  },
  {
   "property": "C51",
   "status": "partial",
   "theorems": [
    "Verif.EntryDb.C51_generated_table_partial",
    "Verif.EntryDb.C51_backslash_breaks_lookup"
   ],
   "note": "FALSE of the code for paths with backslashes (witness proved); proved for all other paths."
  },
  {
   "property": "C52",
   "status": "partial",
   "theorems": [
    "Verif.Entry.C52_accessors_partial",
    "Verif.Entry.C52_count_truncated",
    "Verif.Entry.C52_new_element_count"
   ],
   "note": "FALSE of the code for arrays of 2^31 or more elements (count returned as int, witness); all else proved."
  },
  {
   "property": "C53",
   "status": "proved",
   "theorems": [
    "Verif.Entry.C53_check_base_type"
   ],
   "note": ""
  },
  {
   "property": "C54",
   "status": "proved",
   "theorems": [
    "Verif.Value.C54_pointer_objects"
   ],
   "note": ""
  },
  {
   "property": "C55",
   "status": "proved",
   "theorems": [
    "Verif.Value.C55_element_count_value"
   ],
   "note": ""
  },
  {
   "property": "C56",
   "status": "partial",
   "theorems": [
    "Verif.TagMap.C56_release_partial",
    "Verif.TagMap.C56_leak_false"
   ],
   "note": "FALSE of the code when hashmapPut fails for lack of memory: the copied tag string leaks (witness); proved for all other histories, including failures of all other allocations."
  },
  {
   "property": "C57",
   "status": "partial",
   "theorems": [
    "Verif.Handlers.C57_string_partial",
    "Verif.Handlers.C57_long_string_false"
   ],
   "note": "FALSE of the code for strings of 2^31-1 or more characters: strlen+1 is put into an int and the array gets a negative length (witness). Proved for all shorter strings."
  },
  {
   "property": "C58",
   "status": "proved",
   "theorems": [
    "Verif.Handlers.C58_container_of"
   ],
   "note": "for every pointer, offset up to the pointer's value, and container type given (as the code expects) as a pointer type; a NULL pointer minus an offset is outside: the callers do not ask for NULL pointers."
  },
  {
   "property": "C59",
   "status": "partial",
   "theorems": [
    "Verif.Handlers.C59_cast_partial",
    "Verif.Handlers.C59_missing_count_false"
   ],
   "note": "FALSE of the code when the named count field does not exist: metac_value_delete is applied to NULL, which dereferences it (proved for every such context). Proved otherwise, for selector and count values within int."
  },
  {
   "property": "C60",
   "status": "partial",
   "theorems": [
    "Verif.ValueString.C60_text_partial",
    "Verif.ValueString.C60_content_partial",
    "Verif.ValueString.C60_bitfield_partial",
    "Verif.ValueString.C60_printed_partial",
    "Verif.ValueString.C60_char_false",
    "Verif.ValueString.C60_other"
   ],
   "note": "FALSE of the code for the quote and backslash characters, which are printed unescaped (proved for every such object); proved for all other objects, bit-fields (under the conditions of C26) too, alone and inside printed values. The texts of floating-point numbers are a parameter (printf %f)."
  },
  {
   "property": "C61",
   "status": "proved",
   "theorems": [
    "Verif.GoDedup.C61_merged",
    "Verif.GoDedup.C61_found"
   ],
   "note": "for every database of objects, every order of visits and every type graph, where names are as compilers write them (parentheses balanced, Spec.Names). Both directions; types nested in a merged type are excepted in the second (they are dropped with it). Together with building the objects from the entries: C66_merged."
  },
  {
   "property": "C62",
   "status": "partial",
   "theorems": [
    "Verif.GoDedup.C62_same_partial",
    "Verif.GoDedup.C62_names_false",
    "Verif.GoDedup.C62_fields_false"
   ],
   "note": "FALSE of the code: structures that differ in what their pointers refer to are merged because references to named types are compared by name (witness: two units with different struct B behind struct A), and so are structures whose bit-fields (DW_AT_bit_offset) are in different bytes (witness). Proved if types of one kind and name have one definition, fields have no bit offset or size of their own, and structures without fields have no other items."
  },
  {
   "property": "C63",
   "status": "partial",
   "theorems": [
    "Verif.GoDedup.C63_links_partial",
    "Verif.GoDedup.C63_false",
    "Verif.GoDedup.C63_dims_false"
   ],
   "note": "FALSE of the code for types nested in types and referred to from elsewhere (C++ nested classes: C63_false; arrays of three dimensions, in plain C: C63_dims_false): for some map orders a link ends with an empty identifier (witnesses). Proved if types within types are referred to only by the type around them. Parent links are the subject of C81."
  },
  {
   "property": "C64",
   "status": "partial",
   "theorems": [
    "Verif.GoDedup.C64_order_partial",
    "Verif.GoDedup.C64_false"
   ],
   "note": "FALSE of the code: identifiers of unnamed types depend on the map order (witness: two unnamed enumerations exchange identifiers). Proved where no type is within a type: success, the partition into merged types and the multiset of kinds and names of stored objects are the same for all orders."
  },
  {
   "property": "C65",
   "status": "proved",
   "theorems": [
    "Verif.GoDwarf.C65_tree",
    "Verif.GoDwarf.C65_errors",
    "Verif.GoDwarf.C65_links"
   ],
   "note": "for every forest whose entries are at different offsets other than 0, where an entry with children says so, units are not nested and no sibling attribute leads into the entry itself; for arbitrary sequences C65_errors and C65_links. Decoding of the bytes (debug/dwarf) is not modelled."
  },
  {
   "property": "C66",
   "status": "proved",
   "theorems": [
    "Verif.GoBuild.C66_objects",
    "Verif.GoBuild.C66_names",
    "Verif.GoBuild.C66_start",
    "Verif.GoBuild.C66_merged",
    "Verif.GoBuild.C66_imports_hang",
    "Verif.GoBuild.C66_imports_false",
    "Verif.GoBuild.C66_code_panic"
   ],
   "note": "for every forest with distinct offsets that is Sound (C65) and Good; C66_start and C66_merged require names as compilers write them, and C66_merged that merging the types succeeds. The requirement of no imports and no code directly below units is needed: an imported variable is stored twice (C66_imports_false), a namespace importing the one around it makes the build run forever (C66_imports_hang), and an inlined call directly below a unit makes it panic (C66_code_panic)."
  },
  {
   "property": "C67",
   "status": "partial",
   "theorems": [
    "Verif.GoBuild.C67_names_partial",
    "Verif.GoBuild.C67_false"
   ],
   "note": "FALSE of the code: long unsigned, long long signed and similar spellings stay as they are (in the table long unsigned has a space at its end). Proved for all strings: the C type is kept, no other type is taken for it, translation is idempotent, and names that differ are identified only if they name one type; and every spelling gcc and clang use is recognised."
  },
  {
   "property": "C68",
   "status": "proved",
   "theorems": [
    "Verif.Generate.C68_requests",
    "Verif.Generate.C68_succeeds",
    "Verif.Generate.C68_everything_unique"
   ],
   "note": "for every database of scopes, cyclic or incomplete ones included (there reading fails or does not end). Types of requests have no underscore, as the documentation requires; modules have a name."
  },
  {
   "property": "C69",
   "status": "partial",
   "theorems": [
    "Verif.Generate.C69_lookup_partial",
    "Verif.Generate.C69_generated_iff",
    "Verif.Generate.C69_repeats",
    "Verif.Generate.C69_header_false"
   ],
   "note": "FALSE of the code: a static function with a place of declaration in a header included by two units makes the whole generation fail (witness; general: C69_repeats). Proved: whenever the table is generated, every lookup returns what the program declares (files without a backslash, C identifiers); and it is generated exactly if no file, line and name repeats."
  },
  {
   "property": "C70",
   "status": "partial",
   "theorems": [
    "Verif.Generate.C70_definitions_partial",
    "Verif.Generate.C70_linked_partial",
    "Verif.Generate.C70_modules_false",
    "Verif.Generate.C70_namespace_false"
   ],
   "note": "FALSE of the code: the definitions of all modules are written under the name of the module compiled for (witness: two modules, none of the symbols is defined exactly once), and a namespace with a function in it makes the generation fail. Proved for programs whose namespaces hold no functions, types or further scopes: which definitions are written; with one requesting module each symbol is defined once, as the right object."
  },
  {
   "property": "C71",
   "status": "partial",
   "theorems": [
    "Verif.Generate.C71_tables_partial",
    "Verif.Generate.C71_generated",
    "Verif.Generate.C71_link_false"
   ],
   "note": "FALSE of the code for every program: the header declares the symbol as a pointer, the generated file defines it as the structure, so reading it through METAC_DB_LINK_PTR is undefined. The tables themselves are proved to be right."
  },
  {
   "property": "C72",
   "status": "proved",
   "theorems": [
    "Verif.Handles.C72_count_by_made",
    "Verif.Handles.C72_count_by_released",
    "Verif.Handles.C72_container_of_made",
    "Verif.Handles.C72_container_of_released",
    "Verif.Handles.C72_union_permanent_made",
    "Verif.Handles.C72_union_select_made",
    "Verif.Handles.C72_union_select_bad_size",
    "Verif.Handles.C72_union_released",
    "Verif.Handles.C72_ptr_cast_made",
    "Verif.Handles.C72_ptr_cast_needs_selector",
    "Verif.Handles.C72_ptr_cast_released",
    "Verif.Handles.C72_delete_null"
   ],
   "note": "for arrays of cases that have the size passed (fewer than 2^31 cases); a size that is not a multiple of the size of a case aborts the program (C72_union_select_bad_size)."
  },
  {
   "property": "C73",
   "status": "partial",
   "theorems": [
    "Verif.Handles.C73_new",
    "Verif.Handles.C73_new_null",
    "Verif.Handles.C73_delete",
    "Verif.Handles.C73_copy",
    "Verif.Handles.C73_element_count",
    "Verif.Handles.C73_call_params_partial",
    "Verif.Handles.C73_call_params_delete",
    "Verif.Handles.C73_call_result",
    "Verif.Handles.C73_call_no_result",
    "Verif.Handles.C73_call_result_delete",
    "Verif.Handles.C73_call_params_leak_false",
    "Verif.Handles.C73_delete_null_false"
   ],
   "note": "FALSE of the code: when only the handle of a call with parameters cannot be allocated, the storage of the parameters is lost (C73_call_params_leak_false), and deleting a NULL handle is undefined (C73_delete_null_false; other delete functions accept NULL). All the rest is proved."
  },
  {
   "property": "C74",
   "status": "partial",
   "theorems": [
    "Verif.PrintfCall.C74_collect_partial",
    "Verif.PrintfCall.C74_no_storage",
    "Verif.PrintfCall.C74_long_string_false",
    "Verif.PrintfCall.C74_leak_false"
   ],
   "note": "FALSE of the code: every string of 8 or more characters is written beyond its 8-byte buffer (C74_long_string_false), and the description made for a string is lost when the parameter cannot be appended (C74_leak_false). Proved for separated formats without %% (see C16) and strings of at most 7 characters; at most one block is lost."
  },
  {
   "property": "C75",
   "status": "partial",
   "theorems": [
    "Verif.PrintfCall.C75_call_partial"
   ],
   "note": "as C74, and the iterator over the parameters must be allocated (C40_iterator_ub)."
  },
  {
   "property": "C76",
   "status": "partial",
   "theorems": [
    "Verif.Emit.C76_compiles_partial",
    "Verif.Emit.C76_ids",
    "Verif.Emit.C76_imports_false",
    "Verif.Emit.C76_compiles_false"
   ],
   "note": "FALSE of the code: any import (using namespace) makes the file invalid (C76_imports_false, a comma is missing in _import.tpl), and so do strides, unknown encodings and languages, structures without size, C++ ids with <>, names with escapes, arrays of void, links to objects that were not added (C76_compiles_false). Proved for all databases without these; the ids the builder gives are different and reserved names are avoided (C76_ids)."
  },
  {
   "property": "C77",
   "status": "partial",
   "theorems": [
    "Verif.Emit.C77_entries_partial",
    "Verif.Emit.C77_name_false"
   ],
   "note": "FALSE of the code: names with quotes or backslashes compile to other names (C77_name_false). Proved for all databases of C76_compiles_partial. The underlying type of an enumeration and the declaration flag of a base type are not in the file."
  },
  {
   "property": "C78",
   "status": "partial",
   "theorems": [
    "Verif.Emit.C78_loadable",
    "Verif.Emit.C78_kind_partial",
    "Verif.Emit.C78_size_partial",
    "Verif.Emit.C78_members_partial",
    "Verif.Emit.C78_bitfields_partial",
    "Verif.Emit.C78_parameters_partial",
    "Verif.Emit.C78_enumerators_partial",
    "Verif.Emit.C78_links_partial",
    "Verif.Emit.C78_parents_partial",
    "Verif.Emit.C78_parents_members_partial",
    "Verif.Emit.C78_parents_parameters_partial"
   ],
   "note": "for the databases of C76_compiles_partial (the others have no program)."
  },
  {
   "property": "C79",
   "status": "partial",
   "theorems": [
    "Verif.Chain.C79_entries_partial",
    "Verif.Chain.C79_structures_partial",
    "Verif.Chain.C79_enumerations_partial",
    "Verif.Chain.C79_pointers_partial",
    "Verif.Chain.C79_aliases_partial",
    "Verif.Chain.C79_base_partial",
    "Verif.Chain.C79_functions_partial",
    "Verif.Chain.C79_arrays_partial",
    "Verif.Chain.C79_dims_false",
    "Verif.Chain.C79_opaque_false"
   ],
   "note": "FALSE of the code: of `int m[2][3][4]` in two units a program can be told that the second dimension has no elements (C79_dims_false), and a typedef of a structure that another unit only declares can be one of zero bytes without members (C79_opaque_false); both depend on the order of Go maps. Proved for debug information without types in types, imports and arrays of more than two dimensions, and whose file compiles (C80 gives conditions, and a concrete case). Links lead to an entry with the kind and the name of what the debug information refers to, and to the very entry of it if the units agree on it (Agreed). For declarations only kind and name."
  },
  {
   "property": "C80",
   "status": "partial",
   "theorems": [
    "Verif.Chain.C80_compiles_partial",
    "Verif.Chain.C80_program_partial",
    "Verif.Chain.C80_dims_false"
   ],
   "note": "FALSE of the code for arrays of three dimensions in two units: for some orders of the Go maps the file does not compile (witness). Proved for debug information of C programs without arrays of more than two dimensions; language, file names and places of declarations are arbitrary values within the limits of the file (WritableExtra). The conditions are met by a concrete case of two units. The compiler is the model of C76."
  },
  {
   "property": "C81",
   "status": "proved",
   "theorems": [
    "Verif.Chain.C81_parents",
    "Verif.Chain.C81_own",
    "Verif.Chain.C81_units",
    "Verif.Chain.C81_members",
    "Verif.Chain.C81_parameters"
   ],
   "note": "For the programs of C79 (debug information of C without types in types and imports, whose file compiles). The run-time half is C78_parents_partial and its companions."
  },
  {
   "property": "C82",
   "status": "proved",
   "theorems": [
    "Verif.Chain.C82_one",
    "Verif.Chain.C82_parents",
    "Verif.Chain.C79_pointers_partial",
    "Verif.Chain.C79_structures_partial"
   ],
   "note": "C82_one: one address; C82_parents: all the places are parents. The links: the last condition of Spec.Answer in the C79 theorems (members, pointers, aliases, functions, arrays). For the programs of C79. That units agree on a type (Spec.Agreed, a condition on that type alone) includes that it is declared in all of them or defined in all of them (else: C79_opaque_false)."
  },
  {
   "property": "C83",
   "status": "partial",
   "theorems": [
    "Verif.GoSerial.C83_unstructured_partial",
    "Verif.GoSerial.C83_unstructured_false"
   ],
   "note": "FALSE of the code for a unit with an empty table of files (it comes back without a table). Proved for all other data."
  },
  {
   "property": "C84",
   "status": "partial",
   "theorems": [
    "Verif.GoSerial.C84_yaml_partial",
    "Verif.GoSerial.C84_yaml_false"
   ],
   "note": "FALSE of the code for attributes of the classes of DWARF 5 and separate debug files (ClassAddrPtr, ClassStrOffsetsPtr, ClassRngListsPtr, ...): the value comes back as int instead of int64. Proved for all values of the documented classes. That yaml.v3 gives back strings and whole numbers is trusted."
  },
  {
   "property": "C85",
   "status": "partial",
   "theorems": [
    "Verif.GoSerial.C85_json_partial",
    "Verif.GoSerial.C85_numbers_partial",
    "Verif.GoSerial.C85_json_number_false",
    "Verif.GoSerial.C85_json_text_false",
    "Verif.GoSerial.C85_json_block_false"
   ],
   "note": "FALSE of the code for numbers of more than 53 significant bits (enumerators, addresses), names that are not UTF-8, and empty blocks. Proved for all other values of the documented classes; and for all numbers, that what comes back is a nearest number of 53 bits, except the largest ones (INT64_MAX among them), which come back as whatever the machine converts 2^63 to."
  },
  {
   "property": "C86",
   "status": "partial",
   "theorems": [
    "Verif.GoSerial.C86_unstructured_partial",
    "Verif.GoSerial.C86_document_partial",
    "Verif.GoSerial.C86_document_false",
    "Verif.GoSerial.C86_offsets_partial",
    "Verif.GoSerial.C86_offsets_false"
   ],
   "note": "FALSE of the code: a document with a null entry or field panics, and keys of more than 32 bits are cut, so that two of them can be one entry. Proved: unstructured values without nil pointers never panic; a document panics exactly if it has a null entry or field; keys of 32 bits are kept exactly."
  },
  {
   "property": "C87",
   "status": "proved",
   "theorems": [
    "Verif.GoModule.C87_inside",
    "Verif.GoModule.C87_refused",
    "Verif.GoModule.C87_first",
    "Verif.GoModule.C87_command"
   ],
   "note": "For names; a path (empty name) is taken apart by filepath.Dir and Base, which are parameters."
  },
  {
   "property": "C88",
   "status": "partial",
   "theorems": [
    "Verif.GoModule.C88_fallback_partial",
    "Verif.GoModule.C88_fallback_false"
   ],
   "note": "FALSE of the code: the factory of templates never refuses, and the file is read at the first run only, when the search path is chosen already. Proved: among the modules found, the first one accepted by the factory of its kind is taken."
  },
  {
   "property": "C89",
   "status": "partial",
   "theorems": [
    "Verif.GoModule.C89_directory_partial",
    "Verif.GoModule.C89_directory_false",
    "Verif.GoModule.C89_missing_false"
   ],
   "note": "FALSE of the code: a failing template leaves the process in the other directory; a directory that does not exist is ignored and the template is executed where the process is. Proved: on every other way out the process is where it was."
  },
  {
   "property": "C90",
   "status": "partial",
   "theorems": [
    "Verif.GoModule.C90_templates_partial",
    "Verif.GoModule.C90_kind_false",
    "Verif.GoModule.C90_rest_false"
   ],
   "note": "FALSE of the code: with several kinds of modules an included module of another kind is left out silently; what was parsed of a search path that failed midway stays. Proved for one kind (as the command has) and files that can be parsed."
  },
  {
   "property": "C91",
   "status": "partial",
   "theorems": [
    "Verif.GoModule.C91_settings",
    "Verif.GoModule.C91_again_partial",
    "Verif.GoModule.C91_again_false"
   ],
   "note": "FALSE of the code after a template that failed in another directory (C89): relative search paths are not found any more. Proved: the settings; and histories of any length without such a failure."
  },
  {
   "property": "C92",
   "status": "proved",
   "theorems": [
    "Verif.DeepEnds.C92_map",
    "Verif.DeepEnds.C92_free",
    "Verif.DeepEnds.C92_equal",
    "Verif.DeepEnds.C92_copy",
    "Verif.DeepEnds.C92_print",
    "Verif.DeepEnds.C92_handlers",
    "Verif.DeepEnds.C92_union_reply",
    "Verif.DeepEnds.C92_array_reply"
   ],
   "note": "Assumed of handlers: they come back, and reply inside the object asked about; proved of the library's own handlers (strings: if every run of bytes reaches a 0 or the end of memory). The number of steps may be exponential."
  },
  {
   "property": "C93",
   "status": "partial",
   "theorems": [
    "Verif.Ffi.C93_describes_partial",
    "Verif.Ffi.C93_unique",
    "Verif.Ffi.C93_union_false",
    "Verif.Ffi.C93_bitfield_false",
    "Verif.Ffi.C93_int128_false"
   ],
   "note": "FALSE of the code: unions are described as their first largest member (wrong class of registers for union {double; long}); bit-fields overflow the list of elements; base types unknown to libffi (__int128) give code 0 without a description, which cuts off structures and leaks. Proved for all other types, for every pattern of failing requests."
  },
  {
   "property": "C94",
   "status": "partial",
   "theorems": [
    "Verif.Ffi.C94_call_partial",
    "Verif.Ffi.C94_refused",
    "Verif.Ffi.C94_void_false",
    "Verif.Ffi.C94_promotion_false",
    "Verif.Ffi.C94_variadic_struct_false",
    "Verif.Ffi.C94_null_false"
   ],
   "note": "FALSE of the code: functions without result are undefined (NULL result type), char/short/float in `...` are not promoted, structures in `...` arrive as pointers, a failed request for the third block of arguments is not noticed and NULL is written to (C94_null_false). Proved for all other calls, as long as memory does not run out. libffi and the called function are parameters of the model."
  },
  {
   "property": "C95",
   "status": "partial",
   "theorems": [
    "Verif.Ffi.C95_result_partial"
   ],
   "note": "For the calls of C94; memory does not run out."
  },
  {
   "property": "C96",
   "status": "partial",
   "theorems": [
    "Verif.Ffi.C96_nothing_left_partial",
    "Verif.Ffi.C96_leak_false"
   ],
   "note": "FALSE of the code: after an error the description of the result stays allocated. Proved for calls that succeed."
  },
  {
   "property": "C97",
   "status": "proved",
   "theorems": [
    "Verif.Links.C97_requests"
   ],
   "note": "Structures have only members (C); debug information as in C66/C79. The maps may be read in any order."
  },
  {
   "property": "C98",
   "status": "partial",
   "theorems": [
    "Verif.Links.C98_symbols_partial"
   ],
   "note": "FALSE in general: several modules and namespaces break it (C70_modules_false, C70_namespace_false). Proved for one requesting module and no namespaces, each name requested once."
  },
  {
   "property": "C99",
   "status": "partial",
   "theorems": [
    "Verif.Links.C99_places_partial"
   ],
   "note": "FALSE in general: requests of one header in two units stop the generator (C69_header_false), backslashes break the table (C51). Proved for distinct requests, identifiers as names and files without a backslash; a full characterisation of what a lookup returns."
  }
 ]
}
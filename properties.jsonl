{"id": "C01", "title": "Hashmap is a finite map under every history", "statement": "After any sequence of hashmapPut / hashmapGet / hashmapContainsKey / hashmapMemoize / hashmapRemove calls on a map made by hashmapCreate, every call returns exactly what a plain key->value dictionary would return (put: previous value or NULL; get: stored value or NULL; contains: membership; remove: removed value or NULL), whatever the bucket layout, the number of collisions and the number of internal expansions, and whichever of the internal allocations fail (a put whose own allocation fails reports ENOMEM and changes nothing).", "quantifier": "all initial capacities, all hash/equals callbacks obeying the usual contract (equals is an equivalence, equal keys hash equally), all operation sequences, all patterns of allocation failure", "why_tests_cant": "histories, hash functions and malloc failure patterns are unbounded; collisions at an expansion boundary are easy to miss", "anchors": ["src/hashmap.c:hashmapCreate,hashmapPut,hashmapGet,hashmapContainsKey,hashmapMemoize,hashmapRemove,expandIfNecessary", "include/metac/backend/hashmap.h"]}
{"id": "C02", "title": "hashmapSize counts the distinct keys", "statement": "hashmapSize always equals the number of distinct keys currently stored, no key is stored twice, and hashmapForEach therefore reports each stored key exactly once with its current value.", "quantifier": "all histories and allocation-failure patterns as in C01", "why_tests_cant": "a duplicate chain entry needs a particular history and hash function to become visible", "anchors": ["src/hashmap.c:hashmapSize,hashmapForEach,hashmapPut,hashmapRemove"]}
{"id": "C03", "title": "Bucket array stays a power of two and is never indexed out of range", "statement": "For every initial capacity (including ones whose 4/3 scaling wraps around size_t) creation terminates with a power-of-two bucket count, every later bucket count is a power of two, and for every hash value (negative ones included) the selected bucket lies inside the array.", "quantifier": "all 64-bit capacities, all 32-bit hash values, all histories", "why_tests_cant": "negative hashes are sign-extended to 64 bits before masking; 2^64 capacities and 2^32 hashes cannot be enumerated", "anchors": ["src/hashmap.c:hashmapCreate,calculateIndex,expandIfNecessary"]}
{"id": "C04", "title": "hashmapForEach visits a prefix and stops on request", "statement": "hashmapForEach calls the callback once for each stored entry in a fixed order and stops immediately after the first callback that returns false; if no callback returns false all entries are visited.", "quantifier": "all map contents and all callbacks", "why_tests_cant": "depends on all contents and callback decisions", "anchors": ["src/hashmap.c:hashmapForEach"]}
{"id": "C05", "title": "hashmapMemoize computes at most once", "statement": "hashmapMemoize calls the initial-value callback if and only if the key is absent and the entry allocation succeeded, calls it at most once, stores its result, and later memoize/get calls return that result without calling it again.", "quantifier": "all maps, keys, callbacks, allocation outcomes", "why_tests_cant": "the at-most-once claim ranges over all histories", "anchors": ["src/hashmap.c:hashmapMemoize"]}
{"id": "C06", "title": "Expansion keeps the contents and restores the load bound", "statement": "When an insertion makes the table exceed its load factor the expansion never loses, duplicates or alters an entry, and when its allocation succeeds the number of entries afterwards is at most 3/4 of the buckets; a failed expansion leaves the map observably unchanged.", "quantifier": "all contents, all bucket counts, both allocation outcomes", "why_tests_cant": "loss during rehash depends on the chain layout", "anchors": ["src/hashmap.c:expandIfNecessary,hashmapCurrentCapacity"]}
{"id": "C07", "title": "A task is resumed only when all its dependents have ended", "statement": "When metac_recursive_iterator_next hands back a task, every dependent task appended to it (and not yet dequeued) has already been marked done or failed, and that task itself has not ended; next returns NULL only when the root task has ended.", "quantifier": "all client programs (sequences of append/set_state/done/fail/dequeue/next), all trees", "why_tests_cant": "schedule property over all client behaviours", "anchors": ["src/iterator.c:metac_recursive_iterator_next", "include/metac/backend/iterator.h"]}
{"id": "C08", "title": "Dependents run depth-first in the order they were appended", "statement": "Among the dependents of a task the iterator always hands out the first one (in append order) that has not ended yet, descending into that one's own dependents before moving to the next.", "quantifier": "all trees of pending tasks", "why_tests_cant": "ordering must hold for every tree shape", "anchors": ["src/iterator.c:metac_recursive_iterator_next,metac_recursive_iterator_create_and_append_dep"]}
{"id": "C09", "title": "Dequeue is first-in first-out and reports failure", "statement": "metac_recursive_iterator_dequeue_and_delete_dep returns the outputs of the dependents in the order in which they were appended, together with the input and fail flag of the right one; get_dep_out(i) reports the i-th without removing it.", "quantifier": "all numbers of dependents and outcomes", "why_tests_cant": "all queue lengths and mixes of success and failure", "anchors": ["src/iterator.c:metac_recursive_iterator_dequeue_and_delete_dep,metac_recursive_iterator_get_dep_out"]}
{"id": "C10", "title": "A fold over the iterator computes the recursive function", "statement": "For every finite tree, the standard client loop (start: append one dependent per child; resumed: dequeue all results, combine, done) terminates, calls the combine step exactly once per node, and delivers as the final output what the plain recursive definition computes.", "quantifier": "all finite trees and all combine functions", "why_tests_cant": "termination and equality with recursion for unbounded depth and width", "anchors": ["src/iterator.c:metac_recursive_iterator_next,metac_recursive_iterator_done,metac_recursive_iterator_get_out"]}
{"id": "C11", "title": "A task may append more dependents after consuming earlier ones", "statement": "As the header documents, a resumed task may dequeue its finished dependents and then append further dependents; doing so never aborts the process.", "quantifier": "all sequences of append/dequeue on one task", "why_tests_cant": "only a particular order (dequeue everything, then append) exposes it", "anchors": ["src/iterator.c:metac_recursive_iterator_create_and_append_dep,metac_recursive_iterator_dequeue_and_delete_dep", "include/metac/backend/iterator.h"]}
{"id": "C12", "title": "Iterator level and ancestor inputs", "statement": "metac_recursive_iterator_level is the number of unfinished ancestors of the current task and get_in(k) is the input of the k-th ancestor (0 = the current task), NULL outside 0..level.", "quantifier": "all iterator states, all k", "why_tests_cant": "all nesting depths", "anchors": ["src/iterator.c:metac_recursive_iterator_level,metac_recursive_iterator_get_in"]}
{"id": "C13", "title": "Declaration-location lookup finds exactly the unambiguous entry", "statement": "For tables sorted by name, looking up (file, location, variable) returns the entry recorded for that triple if exactly one entry is recorded, and NULL if the triple is absent or ambiguous or any argument is NULL - i.e. binary search agrees with linear search at all three levels.", "quantifier": "all sorted three-level tables and all query strings", "why_tests_cant": "off-by-one errors in binary search appear only at specific sizes and positions", "anchors": ["src/entry_db.c:metac_entry_by_declloc (bsearch over files/locations/names)"]}
{"id": "C14", "title": "Format specifiers are parsed as printf would", "statement": "metac_parse_format_specifier, started at a '%', recognises flags, width, precision, length modifier and conversion letter with the values printf gives them (width and precision decimal), consumes exactly the specifier on success, and reports failure otherwise.", "quantifier": "all format strings and start positions", "why_tests_cant": "flag/width interplay has unbounded combinations", "anchors": ["src/printf_format.c:metac_parse_format_specifier", "include/metac/backend/printf_format.h"]}
{"id": "C15", "title": "Counting format specifiers", "statement": "metac_count_format_specifiers returns the number of conversion specifications in the string (a literal %% counts zero), including adjacent ones such as %d%d, and never reads past the terminating NUL.", "quantifier": "all format strings", "why_tests_cant": "adjacency of specifiers is a corner tests rarely include", "anchors": ["src/printf_format.c:metac_count_format_specifiers"]}
{"id": "C16", "title": "Collected variadic arguments match the format", "statement": "Collecting the arguments of a printf-like call stores one parameter per conversion specification, in order, each with the type the specification promises, and each stored object fits the buffer reserved for it.", "quantifier": "all format strings and argument lists", "why_tests_cant": "string lengths and specifier mixes are unbounded", "anchors": ["src/printf_format.c:metac_new_value_from_format_specifier machinery (_new_value_from_format_specifier)"]}
{"id": "C17", "title": "Byte size of a type", "statement": "metac_entry_byte_size ignores typedefs, qualifiers, variables, members and parameters around a type, returns the stored size for sized types and multiplies the dimensions of arrays; it fails for flexible arrays and void, and the result is exact whenever the mathematical product fits 64 bits.", "quantifier": "all acyclic type descriptions", "why_tests_cant": "nesting depth and dimensions are unbounded", "anchors": ["src/entry.c:metac_entry_byte_size"]}
{"id": "C18", "title": "Final entry strips exactly the aliases and collects the qualifiers", "statement": "metac_entry_final_entry skips precisely variables, members, ordinary parameters, typedefs and qualifiers, never returns one of them (NULL if the chain ends in void; the `...` of a parameter list is its own final entry), is idempotent, and, when the result is a type, reports a qualifier set if and only if that qualifier occurs on the way.", "quantifier": "all acyclic type descriptions", "why_tests_cant": "chains of aliases are unbounded", "anchors": ["src/entry.c:metac_entry_final_entry"]}
{"id": "C19", "title": "Members, parameters and enumerators are looked up by first match and range-checked", "statement": "name_to_id returns the smallest index with the given name or a not-found error; by_id returns the item exactly for 0 <= id < count and NULL otherwise; enumeration_to_name returns the name of the first enumerator with the value; a path of ids descends member by member.", "quantifier": "all struct/union/enum/function descriptions, all names and ids (negative included)", "why_tests_cant": "boundaries and duplicates over all tables", "anchors": ["src/entry.c:metac_entry_member_name_to_id,metac_entry_by_member_id,metac_entry_by_member_ids,metac_entry_enumeration_to_name,metac_entry_parameter_name_to_id,metac_entry_by_parameter_id"]}
{"id": "C20", "title": "DWARF3 and DWARF4 bit-field descriptions select the same bits", "statement": "For a bit-field described in DWARF3 style (storage unit, big-endian bit offset) and the same field in DWARF4 style (bit offset from the start of the struct) metac_entry_member_bitfield_offsets reports the same byte and bit position, with bit position 0..7 and byte*8+bit equal to the field's bit address.", "quantifier": "all offsets and sizes", "why_tests_cant": "arithmetic over all layouts", "anchors": ["src/entry.c:metac_entry_member_bitfield_offsets"]}
{"id": "C21", "title": "Bit-field write then read returns the written value", "statement": "Writing a value to a bit-field member and reading it back yields the value reduced to the field's width (zero-extended for unsigned and boolean fields, sign-extended for signed ones), for every field width the language allows and every previous memory content.", "quantifier": "all widths, bit positions, values, memory contents", "why_tests_cant": "widths x positions x values x memory is far beyond testing; extreme widths hit undefined shifts", "anchors": ["src/value.c:_read_bitfield_data,_write_bitfield_data,metac_value_base_type,metac_value_set_base_type"]}
{"id": "C22", "title": "A bit-field write changes no other bit", "statement": "Writing a bit-field member leaves every bit of memory outside the field unchanged (neighbouring fields and bytes included).", "quantifier": "all widths, bit positions, values, memory contents", "why_tests_cant": "as C21", "anchors": ["src/value.c:_write_bitfield_data"]}
{"id": "C23", "title": "Element and member access stays inside the object", "statement": "metac_new_value_by_element_id succeeds exactly for 0 <= id < count and yields addr + id*element_size; distinct elements occupy disjoint ranges inside the array; member access yields addr + byte offset.", "quantifier": "all arrays, ids, struct layouts", "why_tests_cant": "all sizes and ids", "anchors": ["src/value.c:metac_new_value_by_element_id,metac_new_value_by_member_id"]}
{"id": "C24", "title": "Typed access is refused for any other type and for const objects", "statement": "Typed getters and setters succeed only when name, encoding and size of the underlying type match, setters refuse const-qualified objects without modifying them, and a successful set is read back unchanged.", "quantifier": "all type descriptions, values and memory contents", "why_tests_cant": "combinations of alias chains and qualifiers are unbounded", "anchors": ["src/value.c:metac_value_check_base_type,metac_value_base_type,metac_value_set_base_type,metac_value_set_enumeration,metac_value_set_pointer"]}
{"id": "C25", "title": "Enumeration objects round-trip", "statement": "Setting an enumeration object of 1, 2, 4 or 8 bytes to a value representable in it and reading it back gives the same value; other sizes are refused; only the object's bytes change; the string form is the first enumerator's name or the decimal number.", "quantifier": "all sizes, values, memory contents", "why_tests_cant": "2^64 values; sign extension at each width", "anchors": ["src/value.c:metac_value_enumeration,metac_value_set_enumeration,metac_value_enumeration_string"]}
{"id": "C26", "title": "metac_value_num returns the numeric value", "statement": "metac_value_num reads any integer or enumeration object and returns its mathematical value when it is representable; otherwise it must report an error rather than return a different number.", "quantifier": "all integer types and stored values", "why_tests_cant": "truncation only shows for large values", "anchors": ["src/value_base_type.c:metac_value_num"]}
{"id": "C27", "title": "Base-type equality and copy", "statement": "metac_value_equal_base_type returns 1 exactly when both objects have the same type and the same value, a negative code when the types differ; after metac_value_copy_base_type the two compare equal (floating NaN excepted), and copying changes only the destination.", "quantifier": "all type pairs, all values", "why_tests_cant": "the dispatch covers 17 types over all values", "anchors": ["src/value_base_type.c:metac_value_equal_base_type,metac_value_copy_base_type"]}
{"id": "C28", "title": "Pointer-loop detection", "statement": "While walking nested values, metac_value_level_introduced_loop reports the nearest enclosing pointer that has the same target as the current pointer, and reports none if no enclosing pointer has it; hence a walk that stops at reported loops never follows a pointer path that repeats a target.", "quantifier": "all walks and pointer graphs", "why_tests_cant": "graph shapes are unbounded; cyclic data makes a wrong answer non-terminating", "anchors": ["src/value.c:metac_value_level_introduced_loop"]}
{"id": "C29", "title": "Deep free releases each allocated block exactly once", "statement": "metac_value_free_ex on data reachable through pointers calls the free function exactly once for the start of every separately allocated block, never for an address inside another block (weak/interior pointer) and never twice, however many pointers refer to it.", "quantifier": "all pointer graphs (shared, interior and cyclic pointers included) whose blocks do not partially overlap", "why_tests_cant": "double frees and missed frees depend on the sharing pattern", "anchors": ["src/value_deep.c:metac_new_memory_map_ex,_identify_allocatable_entries,metac_value_free_ex"]}
{"id": "C30", "title": "Deep copy is equal to and independent of the source", "statement": "When metac_value_copy_ex succeeds the destination is deep-equal to the source (NULL pointers included), no pointer in it refers to the source's memory, and sharing between pointers is reproduced; when it fails everything it allocated has been released.", "quantifier": "all acyclic and shared pointer graphs, all allocation failure points", "why_tests_cant": "graph shapes and failure points are unbounded", "anchors": ["src/value_deep.c:metac_value_copy_ex"]}
{"id": "C31", "title": "Deep equality is an equivalence on comparable values", "statement": "metac_value_equal_ex is reflexive and symmetric, and returns 1 for two values of a type exactly when all their leaves agree and their pointer structure agrees.", "quantifier": "all values of a type", "why_tests_cant": "pairs of unbounded graphs", "anchors": ["src/value_deep.c:metac_value_equal_ex"]}
{"id": "C32", "title": "Interior pointers are recognised whatever the visiting order", "statement": "The set of addresses considered block starts depends only on the set of (address,size) ranges found, not on the order in which the pointers were met or on hash order; every non-start address lies inside the block it is attributed to, with the right offset.", "quantifier": "all sets of ranges, all orders", "why_tests_cant": "permutations of ranges are unbounded", "anchors": ["src/value_deep.c:_identify_allocatable_entries"]}
{"id": "C33", "title": "Tag lookup order", "statement": "metac_tag_map_tag returns the tag of the first category that applies to the kind of entry and knows the entry (external map first, then the entry itself, then - if the category asks for it - its final type), otherwise the default tag; it never aborts.", "quantifier": "all category lists, all tag assignments, all entries", "why_tests_cant": "combinations of categories and assignments are unbounded", "anchors": ["src/entry_tag.c:metac_tag_map_tag"]}
{"id": "C34", "title": "Setting tags: override and conflict", "statement": "metac_tag_map_set_tag stores the tag so that later lookups return it; without the override flag an existing tag is kept and the call reports the conflict, with it the tag is replaced; other entries' tags are unaffected.", "quantifier": "all histories of set calls", "why_tests_cant": "histories are unbounded", "anchors": ["src/entry_tag.c:metac_tag_map_set_tag"]}
{"id": "C35", "title": "Tag strings are looked up like Go struct tags", "statement": "For a well-formed tag string (space separated key:\"value\" pairs) metac_entry_tag_string_lookup returns the value text of the first pair with that key and nothing for absent keys; malformed input never yields a value that is not enclosed in quotes after the key and colon in the string.", "quantifier": "all strings and keys", "why_tests_cant": "parsers must be right for every string", "anchors": ["src/entry_tag.c:metac_entry_tag_string_lookup"]}
{"id": "C36", "title": "Union member selection by sibling value", "statement": "With the union-select handler the member chosen is that of the first case whose value equals the sibling field's value; if no case matches or the sibling is missing an error or no selection results - never a wrong member.", "quantifier": "all case tables and sibling values", "why_tests_cant": "all tables and values", "anchors": ["src/entry_tag.c:metac_handle_union_member_select"]}
{"id": "C37", "title": "Element-count handler uses the sibling count", "statement": "The count_by handler turns a pointer or flexible array into an array value whose number of elements is the value of the named sibling, starting at the pointer's target.", "quantifier": "all structs and sibling values", "why_tests_cant": "all values incl. zero and negative", "anchors": ["src/entry_tag.c:metac_handle_count_by"]}
{"id": "C38", "title": "Parameter storage is an indexed list", "statement": "After any sequence of appends, size is the number of successful appends, item i is the i-th appended one with the requested size and zero-initialised content, out-of-range ids give NULL, failed appends change nothing.", "quantifier": "all append sequences, ids, allocation failures", "why_tests_cant": "histories and failure points are unbounded", "anchors": ["src/value_with_args.c:metac_parameter_storage_append_by_buffer,metac_parameter_storage_append_by_parameter_storage,metac_parameter_storage_new_param_value,metac_parameter_storage_size"]}
{"id": "C39", "title": "Copy and cleanup of parameter storage", "statement": "Copying a storage (nested va_list storages included) produces an equal storage sharing no buffers with the original, and cleaning up a storage releases every buffer it owns exactly once, at every nesting depth.", "quantifier": "all storages of any nesting depth", "why_tests_cant": "nesting is unbounded; double frees depend on shape", "anchors": ["src/value_with_args.c:metac_parameter_storage_copy,metac_parameter_storage_cleanup"]}
{"id": "C40", "title": "Wrapping a call collects every argument in order", "statement": "metac_value_parameter_wrap stores exactly one item per declared parameter in declaration order, bytewise equal to the passed argument, or fails without leaking or double-freeing.", "quantifier": "all signatures and argument lists", "why_tests_cant": "signatures are unbounded", "anchors": ["src/value_with_args.c:_handle_subprogram"]}
{"id": "C41", "title": "Printed C strings read back as the same bytes", "statement": "When a char array is printed as a C string literal, un-escaping that literal gives exactly the original characters before the terminating NUL; the literal contains no unescaped quote, backslash or control character, and distinct strings print differently.", "quantifier": "all character arrays", "why_tests_cant": "all byte strings", "anchors": ["src/value_string.c:_dprintable_string"]}
{"id": "C42", "title": "Declaration strings have exactly one place for the name", "statement": "metac_entry_cdecl of a type yields a text with exactly one %s placeholder (variables and functions: none), for any nesting of pointers, arrays, qualifiers and function types, so that printing with a name is well-defined and puts the name where C's declarator syntax requires it.", "quantifier": "all acyclic type descriptions with names free of %", "why_tests_cant": "nesting is unbounded", "anchors": ["src/entry_cdecl.c:metac_entry_cdecl"]}
{"id": "C43", "title": "Printed values are balanced and complete", "statement": "metac_value_string of nested structs and arrays lists every member and element exactly once, in order, with balanced braces.", "quantifier": "all nested values", "why_tests_cant": "nesting is unbounded", "anchors": ["src/value_string.c:metac_value_string_ex"]}
{"id": "C44", "title": "String helpers", "statement": "dsprintf returns the complete formatted text whatever its length (short or longer than the internal buffer), and trim_trailing_spaces removes exactly the trailing spaces.", "quantifier": "all texts and lengths", "why_tests_cant": "boundary at the internal buffer size", "anchors": ["include/metac/backend/string.h:dsprintf,trim_trailing_spaces"]}
{"id": "C45", "title": "Intrusive list operations keep the list well formed", "statement": "After any sequence of insert-head / insert-after / remove operations on the BSD-style list, traversal visits exactly the inserted-and-not-removed elements in the expected order, and removal of an element needs no traversal and never disturbs the others.", "quantifier": "all operation sequences", "why_tests_cant": "pointer surgery over all histories", "anchors": ["include/metac/backend/list.h:LIST_INSERT_HEAD,LIST_INSERT_AFTER,LIST_INSERT_BEFORE,LIST_REMOVE,LIST_FOREACH"]}
{"id": "C46", "title": "Generated identifiers are unique", "statement": "However many types, variables and functions are added, the identifiers the reflection generator assigns to them are pairwise different.", "quantifier": "all sequences of additions and names", "why_tests_cant": "collisions would need crafted names", "anchors": ["pkg/metadb/metadb_builder.go:commonIdFromICommon,appendDb"]}
{"id": "C47", "title": "Override merge gives precedence to the override and keeps the rest", "statement": "Merging an override into a configuration: at every key path the override's value wins unless both are tables (then they merge recursively), keys only in the original are kept, merging an empty override changes nothing, merging a configuration into itself changes nothing, and the result does not depend on map iteration order.", "quantifier": "all nested tables", "why_tests_cant": "nesting is unbounded, Go map order is random", "anchors": ["pkg/override/override.go:Merge,mergeTables,MergeAll"]}
{"id": "C48", "title": "Array dimensions are derived correctly from debug information", "statement": "For an array type with subranges, the generated chain of array types has the dimensions in source order with count = Count, or UpperBound+1-LowerBound, or flexible when neither is known.", "quantifier": "all dimension lists", "why_tests_cant": "all numbers of dimensions", "anchors": ["pkg/metadb/metadb_builder.go:processArrayType"]}
{"id": "C49", "title": "Hashing is defined for every key", "statement": "hashmapHash (and through it every map operation) has defined behaviour for every value the client's hash callback can return, i.e. the secondary mixing never relies on signed overflow or on shifting negative numbers.", "quantifier": "all 32-bit hash values", "why_tests_cant": "2^32 values; the effect of undefined behaviour depends on compiler and optimisation level", "anchors": ["src/hashmap.c:hashKey (lines 86-99)"]}
{"id": "C50", "title": "Ending a task or changing its state touches only that task", "statement": "set_state stores any state except the reserved error value (refused, nothing changes) and get_state reads it back; done(o) and fail end the current task so that get_out reports o / failure; a task that has ended cannot be changed again (assertion); inputs, queue, position and all other tasks are untouched.", "quantifier": "all reachable iterator states, all state codes and outputs", "why_tests_cant": "must hold in every state of the task tree", "anchors": ["src/iterator.c:metac_recursive_iterator_set_state,metac_recursive_iterator_get_state,metac_recursive_iterator_done,metac_recursive_iterator_fail,metac_recursive_iterator_get_out"]}
{"id": "C51", "title": "Generated entry tables are sorted and searchable", "statement": "From any list of (file, location, variable, entry) records the generator produces tables that are strictly sorted by C string order on all three levels, so that the run-time lookup finds exactly the unambiguous records.", "quantifier": "all record lists with identifier names, all queries", "why_tests_cant": "the generator's order and the run-time order are computed by different programs; all inputs must agree", "anchors": ["modules/metac-reflect-gen/templates/_entry_db.tpl", "modules/metac-reflect-gen/templates/_escape_path.tpl", "src/entry_db.c:metac_entry_from_entry_db"]}
{"id": "C52", "title": "Accessors see through typedefs and qualifiers", "statement": "metac_entry_pointer_entry, metac_entry_element_entry and metac_entry_element_count give, through any chain of aliases, the pointee, the element type and the number of elements recorded for the pointer or array at its end, and refuse every other type; metac_new_element_count_entry creates an array of exactly the requested number of those elements (so of that many times the element's size), and nothing for void pointers or other types.", "quantifier": "all descriptions, all chains, all counts", "why_tests_cant": "descriptions are unboundedly nested and counts are 64 bits wide", "anchors": ["src/entry.c:metac_entry_pointer_entry,metac_entry_element_entry,metac_entry_element_count,metac_new_element_count_entry"]}
{"id": "C53", "title": "Base type check accepts exactly the described type", "statement": "metac_entry_check_base_type succeeds exactly if the final entry is a base type with the given name whose recorded encoding and size (where recorded) are the expected ones; every other type and NULL is refused with -EINVAL.", "quantifier": "all descriptions, names, encodings and sizes", "why_tests_cant": "the set of base types, names and encodings of all compilers is not enumerable by tests", "anchors": ["src/entry.c:metac_entry_check_base_type,_entry_check_base_type"]}
{"id": "C54", "title": "Pointer objects", "statement": "metac_value_pointer reads the address stored in a pointer object, metac_value_set_pointer stores one (changing only the object's 8 bytes, and it is read back), metac_value_equal_pointer is 1 exactly if both objects hold the same address and metac_value_copy_pointer makes them equal changing only the destination; all refuse objects that are not pointers.", "quantifier": "all values, addresses and memory contents", "why_tests_cant": "64-bit addresses and all memory contents", "anchors": ["src/value.c:metac_value_pointer,metac_value_set_pointer,metac_value_equal_pointer,metac_value_copy_pointer"]}
{"id": "C55", "title": "A pointer or array viewed as a given number of elements", "statement": "metac_new_element_count_value gives an array value of exactly the requested number of elements of the pointee (element) type, located where the pointer points to (where the array is); NULL pointers and other types are refused.", "quantifier": "all values, counts and memory contents", "why_tests_cant": "all 64-bit counts and descriptions", "anchors": ["src/value.c:metac_new_element_count_value", "src/entry.c:metac_new_element_count_entry"]}
{"id": "C56", "title": "Tag maps give back everything", "statement": "Creating a tag map, making any sequence of metac_tag_map_set_tag calls (with overrides, conflicts and allocation failures) and deleting it gives back all memory, and passes the context of the default tag and of every tag that was stored to its context_free_handler exactly once; a failed creation leaves no memory behind.", "quantifier": "all category lists, all histories of set calls, all allocation failures", "why_tests_cant": "leaks and double frees depend on the history", "anchors": ["src/entry_tag.c:metac_new_tag_map_ex,metac_tag_map_set_tag,metac_tag_map_delete"]}
{"id": "C57", "title": "Zero-ended strings", "statement": "With the zero-ended-string handler a pointer to char (through typedefs and qualifiers) is turned into an array value of strlen+1 elements at the pointer's target; NULL pointers, pointers to other types and other objects are refused.", "quantifier": "all type descriptions, addresses, string lengths and memory contents", "why_tests_cant": "string lengths and layouts are unbounded", "anchors": ["src/entry_tag.c:metac_handle_zero_ended_string"]}
{"id": "C58", "title": "Container-of", "statement": "With the container-of handler a pointer to a member is turned into exactly one object of the containing type, located at the pointer's target minus the member's offset.", "quantifier": "all pointers, offsets and type descriptions", "why_tests_cant": "all 64-bit addresses and offsets", "anchors": ["src/entry_tag.c:metac_handle_container_of"]}
{"id": "C59", "title": "Pointers cast by a selector field", "statement": "With the pointer-cast handler the pointer is read as a pointer of the type of the first case equal to the selector field's value, to as many objects as the count field says (one if none is named); a missing or non-numeric field is reported as an error, and no case matching selects nothing.", "quantifier": "all structs, field values, case tables and memory contents", "why_tests_cant": "combinations of field values and case tables are unbounded", "anchors": ["src/entry_tag.c:metac_handle_ptr_cast"]}
{"id": "C60", "title": "Texts of base-type objects", "statement": "metac_value_base_type_string gives the decimal text of integer objects, true or false for truth values, a C character constant denoting the character for printable chars (the number for others) and the floating-point text for floating types; objects of other types have no text.", "quantifier": "all base types, values and type descriptions, every locale", "why_tests_cant": "all values of all 17 base types cannot be enumerated by tests", "anchors": ["src/value_base_type.c:metac_value_base_type_string"]}
{"id": "C61", "title": "Types of different compile units are merged exactly if they look the same", "statement": "When the reflection database is built from debug information, two type entries end up as one object exactly if their kind, name and declaration state are equal and, for definitions, their listed attributes (sizes, members, enumerators, dimensions, parameters) are equal and refer to types of equal kind and name (unnamed types are compared by their attributes in turn); a type nested in a merged type disappears with it.", "quantifier": "all sets of compile units, all type graphs (cyclic and unnamed types included), all orders in which Go visits its maps", "why_tests_cant": "the order of map iteration is random and the number of units and types unbounded; whether two generated signatures can collide is a statement about all texts", "anchors": ["pkg/metadb/metadb_builder.go:deduplicateTypes", "pkg/metadb/metadb_types.go:Signature", "pkg/metadb/metadb.go:Signature"]}
{"id": "C62", "title": "Merged types are the same type", "statement": "Two types that the database makes one object have the same layout, and so have all types they refer to, directly or through pointers.", "quantifier": "all sets of compile units and type graphs, all map orders", "why_tests_cant": "the difference can be arbitrarily deep behind pointers", "anchors": ["pkg/metadb/metadb_builder.go:deduplicateTypes", "pkg/metadb/metadb_types.go:Signature"]}
{"id": "C63", "title": "Links of the database lead to objects of the database", "statement": "In the finished reflection database every link to a type ends with the kind and identifier of exactly one object stored in the database, which has the kind and name of the object the link was read with.", "quantifier": "all sets of compile units and type graphs, all map orders", "why_tests_cant": "which of several equal types is kept depends on the random order of map iteration", "anchors": ["pkg/metadb/metadb_builder.go:deduplicateTypes,appendDb", "pkg/metadb/metadb.go:streamline,Set"]}
{"id": "C64", "title": "The database does not depend on map iteration order", "statement": "Building the reflection database twice from the same debug information gives the same database: success or failure, which types are merged, the stored objects and their identifiers.", "quantifier": "all inputs, all pairs of map orders", "why_tests_cant": "Go randomises map iteration; a test sees a few of the n! orders", "anchors": ["pkg/metadb/metadb_builder.go:deduplicateTypes,commonIdFromICommon"]}
{"id": "C65", "title": "The tree of debug information is read as it was stored", "statement": "Reading the debug information of a program gives, for every entry, its tag, its attributes, the entry it is below and the entries below it in order; units are below the entry at 0 and nothing else is present. For any sequence of entries, however malformed, reading never panics, fails exactly if an entry or a line table cannot be read, and gives a tree in which each entry is among the children of exactly its parent, once, and comes after it.", "quantifier": "all forests of entries of any depth, with and without sibling attributes and padding; all malformed sequences", "why_tests_cant": "depth and number of entries are unbounded, and compilers differ in which entries carry siblings and ends of children", "anchors": ["pkg/dwarfy/dwarf.go:NewData"]}
{"id": "C66", "title": "The reflection database says what the debug information says", "statement": "Reading and building from complete debug information without imports (links lead to types, members have a place, no code directly below a unit) succeeds. Every type, variable, function, block, namespace and unit becomes exactly one object with the name, sizes, members, parameters, enumerators and links of its entry, a part of the object of the entry around it; an array becomes one array type for each dimension, outermost first; there are no other objects; functions, variables, blocks, namespaces and units are stored once each. Two type entries end up as one type only if tag, name (but for synonyms) and declaration state are equal and, for definitions of structures, size, alignment and members agree.", "quantifier": "all forests of entries of any depth and size, all type graphs (cyclic included), all map orders", "why_tests_cant": "the number and nesting of entries is unbounded; a test sees the debug information of a few programs and one compiler", "anchors": ["pkg/metadb/metadb_builder.go:build,processEntry,processCompileUnit,processTypeEntry,getIndex", "pkg/metadb/metadb_types.go:fromEntry", "pkg/dwarfy/dwarf.go:NewData"]}
{"id": "C67", "title": "A base type of C is recognised however the compiler spells its name", "statement": "The name of a base type in the database is a name of the same C type as in the debug information; every spelling C allows for one of the integer and complex types becomes the one name by which the library recognises the type at run time; a type is recognised only as what it is, and translating names twice changes nothing.", "quantifier": "all names (all strings)", "why_tests_cant": "the specifiers can come in any order and number of combinations; a false match is a statement about all strings", "anchors": ["pkg/metadb/metadb_types.go:deSynonim,baseTypeSynonims", "src/value_base_type.c:metac_entry_is_int"]}
{"id": "C68", "title": "All requests made in the program are found", "statement": "Every request a program makes with the request macros - in any scope, to any depth, in any compile unit - is found by the generator for the module it was made for and with the type and name it was made with; nothing else is taken for a request; the modules are the default one and those declared, once each.", "quantifier": "all programs: any number of units, nesting of scopes to any depth, any names of variables", "why_tests_cant": "requests sit anywhere in an unbounded tree of scopes; a test has a few of them in a few places", "anchors": ["modules/metac-reflect-gen/templates/_build_requests.tpl:build_requests,build_requests_hierarchy,module_name", "include/metac/reqresp.h:METAC_MODULE_REQUEST"]}
{"id": "C69", "title": "A place of declaration finds the objects declared there", "statement": "At run time, looking up a place of declaration and a name in the program built returns the one object with that name declared on the line of the request in the same scope, and nothing if there is none or several; every program whose requests can be read gets its tables.", "quantifier": "all programs; all files, places and names looked up, present or not", "why_tests_cant": "it is a statement about the generator, the table it writes and the search in it together, for every program", "anchors": ["modules/metac-reflect-gen/templates/_entry_db.tpl:entry_db", "src/entry_db.c:metac_entry_by_paths", "include/metac/reflect/entry_db.h"]}
{"id": "C70", "title": "A requested global symbol is linked to its entry", "statement": "For every request of a global symbol by a module, the generated code defines the symbol of that module exactly once, and it leads to the object with that name: that of the compile unit of the request, and if there is none, of the first unit that has one.", "quantifier": "all programs, all sets of modules and requests", "why_tests_cant": "requests, modules and units combine without bound", "anchors": ["modules/metac-reflect-gen/templates/_glob_responses.tpl:glob_responses,glob_responses_hierarchy", "include/metac/reflect/link.h:METAC_GSYM_LINK_ENTRY"]}
{"id": "C71", "title": "The database of names lists every object under its name", "statement": "A program that links the database can read, for each kind, every name exactly once with all objects of that name; the database is generated whenever it is requested under one name.", "quantifier": "all databases of objects, names repeated or missing", "why_tests_cant": "number of objects and coincidence of names are unbounded", "anchors": ["modules/metac-reflect-gen/templates/_db_v0.tpl:db_v0,name_to_entries", "include/metac/reflect/db.h:METAC_DB_LINK_PTR"]}
{"id": "C72", "title": "Contexts of tag handlers own their parts and are released completely", "statement": "Every constructor of a handler context either returns a context that holds its own copies of the names and cases passed, or returns NULL with nothing allocated; the matching delete function releases exactly the blocks of that context, whatever else is allocated, and accepts NULL.", "quantifier": "all arguments, all heaps, every pattern of allocation failures", "why_tests_cant": "every allocation may fail, in any heap", "anchors": ["src/entry_tag.c:metac_new_count_by_context,metac_count_by_context_delete,metac_new_container_of_context,metac_container_of_context_delete,metac_new_union_member_permanent_selection,metac_new_union_member_select_by_context,metac_union_member_select_by_context_delete,metac_new_ptr_cast_context,metac_ptr_cast_context_delete"]}
{"id": "C73", "title": "Value handles are independent and can be released without loss", "statement": "A handle has the address and the type it was made for and owns its copy of a dynamically made type description, so handles made from one another can be deleted in any order; handles for parameters and results of a call own the memory for them; constructors that fail leave nothing allocated; deleting a handle releases exactly what it owns.", "quantifier": "all descriptions and addresses, all heaps, every pattern of allocation failures", "why_tests_cant": "every allocation may fail, in any heap", "anchors": ["src/value.c:metac_init_value,metac_new_value,metac_new_value_from_value,metac_value_delete,metac_new_value_with_call_params,metac_value_with_call_params_delete,metac_new_value_with_call_result,metac_value_with_call_result_delete", "src/entry.c:metac_new_entry,metac_entry_delete,metac_entry_is_dynamic"]}
{"id": "C74", "title": "The arguments of a printf-like call are stored byte for byte", "statement": "Storing the arguments of a printf-like call into an empty parameter storage adds one parameter per conversion specification, of the promised type and with the bytes of the argument converted to it (of a string its characters), in order; it fails only when memory runs out, and then nothing but what the storage owns stays allocated.", "quantifier": "all formats, all argument lists that match the format, all heaps and patterns of allocation failures", "why_tests_cant": "formats, arguments and failing allocations form an infinite space; a failure may hit any allocation", "anchors": ["src/printf_format.c:metac_store_vprintf_params,metac_store_printf_params,_new_value_from_format_specifier"]}
{"id": "C75", "title": "A wrapped call of a printf-like function holds all its arguments", "statement": "Collecting a call of a function that ends in a format and an ellipsis handled by the printf handler gives one item per declared parameter with the bytes passed, and for the ellipsis one item per conversion specification of the string the format parameter points to; deleting the storage afterwards releases everything.", "quantifier": "all such functions, all leading parameters, all formats and matching arguments, all heaps and patterns of allocation failures", "why_tests_cant": "signature, format, arguments and failing allocations vary independently", "anchors": ["src/entry_tag.c:metac_handle_printf_format", "src/value_with_args.c:metac_value_parameter_wrap", "src/printf_format.c:_new_value_from_format_specifier"]}
{"id": "C76", "title": "The generated C file compiles", "statement": "The C file that metac-reflect-gen writes for a database of debug information is a valid translation unit: every initialiser parses, names only members of the structures, constants and entries that exist, and no name is defined twice.", "quantifier": "all databases (any number of objects of all kinds, any names, links, counts)", "why_tests_cant": "each object is a template instance over arbitrary names, optional fields and links; the failing combinations are found only by instantiating them", "anchors": ["modules/metac-reflect-gen/templates/_actual_data.tpl", "modules/metac-reflect-gen/templates/_early_declarations.tpl", "modules/metac-reflect-gen/templates/_struct_type.tpl", "modules/metac-reflect-gen/templates/_import.tpl", "modules/metac-reflect-gen/templates/_mixins.tpl", "include/metac/backend/entry.h", "include/metac/const.h"]}
{"id": "C77", "title": "The generated entries say what the debug information says", "statement": "Compiling the generated file gives exactly one entry per object of the database, with the kind, name, flags, sizes, counts, offsets, enumerators, members, parameters, links and hierarchy of that object, and everything else zero.", "quantifier": "all databases whose file compiles", "why_tests_cant": "a template may drop or swap any of dozens of optional fields in any combination", "anchors": ["modules/metac-reflect-gen/templates/_actual_data.tpl", "modules/metac-reflect-gen/templates/_base_type.tpl", "modules/metac-reflect-gen/templates/_enumeration_type.tpl", "modules/metac-reflect-gen/templates/_array_type.tpl", "modules/metac-reflect-gen/templates/_struct_type.tpl", "modules/metac-reflect-gen/templates/_subprogram.tpl", "modules/metac-reflect-gen/templates/_compile_unit.tpl", "include/metac/backend/entry.h"]}
{"id": "C78", "title": "A program is told the types that the database describes", "statement": "In a program compiled with the generated file, the reflection functions answer for every object as the database says: kind and name, size through typedefs, qualifiers, variables and arrays, members by number and by name with type and offset, bit-field positions, parameters and result, enumerators, what a pointer points to and the elements of an array.", "quantifier": "all databases whose file compiles, all placements of the entries in memory, all chains of typedefs, qualifiers and variables", "why_tests_cant": "the chain of templates, compiler and lookups is only sampled by example programs", "anchors": ["modules/metac-reflect-gen/templates/_actual_data.tpl", "src/entry.c:metac_entry_byte_size,metac_entry_final_entry,metac_entry_member_name_to_id,metac_entry_by_member_id,metac_entry_member_bitfield_offsets,metac_entry_by_paremeter_id,metac_entry_enumeration_to_name"]}
{"id": "C79", "title": "What a program is told is what the debug information says", "statement": "End to end: if metac-reflect-gen reads the debug information of a C program and the file it generates is compiled into that program, then for every entry of the debug information the reflection functions at run time answer what that entry says: kind and name; for structures the number, names, types, offsets and bit positions of the members and the size; for enumerations the enumerators; for pointers, typedefs, qualifiers and variables what they lead to; for arrays the dimensions; for functions the result and the parameters; for base types the size and the encoding.", "quantifier": "all debug information of C programs (any number of units, types, functions, any nesting of blocks), all orders in which Go visits its maps, all placements of the generated entries in memory", "why_tests_cant": "the answer depends on reading, merging of types of several units, links, generated text, compilation and lookup together; merging can make a link lead to another unit's type, which only shows for particular pairs of units and map orders", "anchors": ["pkg/dwarfy/dwarf.go:NewData", "pkg/metadb/metadb_builder.go:NewMetaDb,deduplicateTypes", "pkg/metadb/metadb.go:streamline", "pkg/metadb/metadb_types.go:Signature", "modules/metac-reflect-gen/templates/_actual_data.tpl", "src/entry.c:metac_entry_byte_size,metac_entry_final_entry,metac_entry_by_member_id,metac_entry_member_name_to_id,metac_entry_by_paremeter_id,metac_entry_enumeration_to_name"]}
{"id": "C80", "title": "The generator ends with a file that compiles", "statement": "For the debug information of every C program whose names and numbers can be written between quotes and as 64-bit numbers, metac-reflect-gen ends without an error, whatever order Go visits its maps in, and the file it generates is accepted by the C compiler: identifiers are different and are C names, everything that is referred to is defined in the file, counts fit their types. A program can be built with it.", "quantifier": "all debug information of C programs without arrays of more than two dimensions (any number of units, types, functions, any nesting of blocks, any sharing of types between units), all map orders, all orders of the templates over the objects", "why_tests_cant": "signatures recurse over types without names and only end if those are not cyclic; a reference to an object that merging removed would only be undefined for particular pairs of units and orders; identifiers are made of names and numbers and have to be different for all combinations", "anchors": ["pkg/metadb/metadb_builder.go:NewMetaDb,deduplicateTypes,appendDb,commonIdFromICommon", "pkg/metadb/metadb_types.go:Signature", "pkg/metadb/metadb.go:streamline", "modules/metac-reflect-gen/templates/_actual_data.tpl"]}
{"id": "C81", "title": "The parents a program is told of are where the debug information has the entry", "statement": "If the file generated for a program is compiled into it, then at run time metac_entry_parent_count and metac_entry_parent_entry enumerate, for every entry that is not a unit, exactly one parent for each entry of the debug information that the run-time entry stands for (a type that several units describe has several parents), and that parent is what the entry is written under; indices out of range give NULL; units have no parents; the parent of a member is its structure and of a parameter its function.", "quantifier": "all debug information of C programs without arrays of more than two dimensions and whose file compiles, all orders in which Go visits its maps, all placements of the generated entries in memory, all entries and all indices", "why_tests_cant": "which entry survives merging and which parents it collects depends on the order of Go maps and on every other entry of the same type in all units", "anchors": ["include/metac/reflect/entry.h:metac_entry_parent_count,metac_entry_parent_entry", "src/entry.c:metac_entry_parent_count,metac_entry_parent_entry,metac_entry_name", "pkg/metadb/metadb_builder.go:deduplicateTypes", "modules/metac-reflect-gen/templates/_parents.tpl"]}
{"id": "C82", "title": "A type that several units describe is one entry", "statement": "Types of different units (or of one) that say the same - same kind, name, sizes, members, enumerators, parameters, dimensions, and references to types that are called the same or, without names, say the same - are one entry at run time: the addresses are equal, so that comparing types by address works across units; and every place the type is written at is among the parents of that entry. If the units agree on a type (the types of that kind and name say the same, and are declared in all of them or defined in all of them), every link to it that a program follows leads to its very entry, whatever other types the units disagree on.", "quantifier": "all debug information of C programs without arrays of more than two dimensions and whose file compiles, all pairs of types, all orders in which Go visits its maps, all placements of the generated entries in memory", "why_tests_cant": "whether two types meet depends on the order of Go maps and on the merging of everything they refer to, to any depth and through cycles", "anchors": ["include/metac/reflect/entry.h:metac_entry_parent_count", "pkg/metadb/metadb_builder.go:deduplicateTypes", "pkg/metadb/metadb_types.go:Signature", "modules/metac-reflect-gen/templates/_actual_data.tpl"]}
{"id": "C83", "title": "Debug information survives the unstructured form", "statement": "Debug information turned into the maps and lists that templates work on (dwarfToUnstructured) and read back (dwarfFromUnstructured) is the same: every entry with its parent, children, attributes, values with their types, and files.", "quantifier": "all debug information (any entries, any attributes of any class with the value types Go's debug/dwarf documents), all orders in which Go visits maps", "why_tests_cant": "the values of an attribute and the order of the maps are unbounded; the test reads two files", "anchors": ["pkg/dwarfy/dwarf.go:ToUnstructured", "pkg/dwarfy/dwarf.go:NewDataFromUnstructured", "pkg/dwarfy/dwarf.go:NewFieldFromUnstructured"]}
{"id": "C84", "title": "Debug information survives YAML", "statement": "Debug information written to a YAML file (dwarfToYamlFile, the dwarfy module) and read back (path_type yaml) is the same, so that generating from the file gives what generating from the binary gives.", "quantifier": "all debug information, all values of attributes", "why_tests_cant": "all 64-bit values and all classes of attributes; the types of the values are lost in the file and are made again from the class", "anchors": ["pkg/dwarfy/dwarf.go:ToYamlBuffer", "pkg/dwarfy/dwarf.go:NewDataFromYamlBuffer", "pkg/dwarfy/dwarf.go:fixValBasedOnClass"]}
{"id": "C85", "title": "Debug information survives JSON", "statement": "Debug information written as JSON (dwarfToJsonFile) and read back (path_type json) is the same.", "quantifier": "all debug information, all values of attributes, all names", "why_tests_cant": "all 64-bit values and all byte strings; numbers pass through floating point", "anchors": ["pkg/dwarfy/dwarf.go:ToJsonBuffer", "pkg/dwarfy/dwarf.go:NewDataFromJsonBuffer", "pkg/dwarfy/dwarf.go:fixValBasedOnClass"]}
{"id": "C86", "title": "Malformed debug information is refused", "statement": "Reading debug information from an unstructured value, JSON or YAML that nothing here has written ends with data that has exactly the given entries, or with an error; it does not crash and does not depend on the order of maps.", "quantifier": "all unstructured values, all decoded JSON and YAML documents", "why_tests_cant": "the inputs are arbitrary values of any depth", "anchors": ["pkg/dwarfy/dwarf.go:NewDataFromUnstructured", "pkg/dwarfy/dwarf.go:NewOffsetFromUnstructured", "pkg/dwarfy/dwarf.go:NewDataFromYamlBuffer"]}
{"id": "C87", "title": "Module names stay inside the search paths", "statement": "A module given by name is taken from a directory directly below one of the search paths, from the first of them that holds a module of a known kind; a name with a separator, '.' or '..' is refused, and a name found nowhere is an error.", "quantifier": "all names, all search paths, all contents of the file system", "why_tests_cant": "names and file systems are arbitrary; a test tries a few", "anchors": ["pkg/module/module.go:InfoByName", "pkg/module/module.go:NewInstance", "cmd/run/run.go"]}
{"id": "C88", "title": "A module that cannot be loaded is looked for in the later search paths", "statement": "If the module in an earlier search path cannot be loaded, the one in a later search path is taken.", "quantifier": "all search paths, all contents of the file system", "why_tests_cant": "any number of paths, any way a load can fail", "anchors": ["pkg/module/module.go:NewInstance", "pkg/module/gotemplate/gotemplate.go:NewInstance", "pkg/module/gotemplate/gotemplate.go:LoadSpec"]}
{"id": "C89", "title": "Running a module leaves the working directory", "statement": "A run that was told to work in another directory executes the template there, or fails, and the process is where it was afterwards.", "quantifier": "all modules, all directories, all outcomes of the template", "why_tests_cant": "every way of failing is a way out of the function", "anchors": ["pkg/module/gotemplate/gotemplate.go:Run"]}
{"id": "C90", "title": "Included modules are there or the run fails", "statement": "A run that gives output has executed the module's template together with the templates of its own directory and of every module it includes, each from exactly one search path, later definitions replacing earlier ones.", "quantifier": "all modules, all lists of included modules, all search paths, all files of templates", "why_tests_cant": "any number of included modules, search paths and files; what is left of a path that failed midway", "anchors": ["pkg/module/gotemplate/gotemplate.go:Run", "pkg/module/gotemplate/gotemplate.go:handleIncludes"]}
{"id": "C91", "title": "Runs of a module do not affect each other", "statement": "The template sees the settings of the module with the overrides of this run applied in order, and a run gives what the first run of a new instance would give, whatever was run before.", "quantifier": "all settings, all lists of overrides, all histories of runs", "why_tests_cant": "histories are unbounded; the instance and the process keep state", "anchors": ["pkg/module/gotemplate/gotemplate.go:Run", "pkg/module/gotemplate/gotemplate.go:LoadSpec", "pkg/override/override.go:MergeAll"]}
{"id": "C92", "title": "Deep operations end on every memory", "statement": "Mapping, freeing, comparing, copying and printing a value come back after finitely many steps whatever pointers hold: rings, self references, pointers into the middle of objects; the handlers of the library come back and reply inside the object they are asked about.", "quantifier": "all type descriptions that are not circular, all memories, all values, all modes, all handlers that come back", "why_tests_cant": "cyclic data has infinitely many paths; a test runs a few shapes", "anchors": ["src/value.c:metac_value_level_introduced_loop", "src/value_deep.c", "src/value_string.c", "src/entry_tag.c"]}
{"id": "C93", "title": "libffi is told the right types", "statement": "For every type of a parameter or result the description made for libffi is the type's: scalars by kind and sign, structures by size and members in order, arrays by element and number; releasing it gives back all memory, and an error leaves nothing allocated.", "quantifier": "all type descriptions, all patterns of failing memory requests", "why_tests_cant": "types nest without bound, and each request for memory can fail at each point", "anchors": ["examples/c_ffi_call/value_ffi.c:_val_to_ffi_type", "examples/c_ffi_call/value_ffi.c:_cleanup_ffi_type"]}
{"id": "C94", "title": "A stored call reaches the function with the stored arguments", "statement": "Calling a function with a stored call runs that function exactly once, and it receives each stored argument with its type and bytes, in order; arguments of `...` and of va_list parameters can be read there as C passes them. What is no call of a function is refused without effect.", "quantifier": "all functions, all stored calls with any number and nesting of arguments, `...` and va_list, all memories", "why_tests_cant": "the combinations of types, counts, `...` and va_lists are unbounded", "anchors": ["examples/c_ffi_call/value_ffi.c:metac_value_ffi_call", "examples/c_ffi_call/value_ffi.c:_call", "examples/c_ffi_call/value_ffi.c:_call_wrapper"]}
{"id": "C95", "title": "The result of a called function arrives in the result value", "statement": "After a call the object given for the result holds the bytes the function returned, for every size of result, and nothing else in memory differs from what the function left.", "quantifier": "all functions with a result, all results, all memories", "why_tests_cant": "small and large results take different ways; any byte of memory could be overwritten", "anchors": ["examples/c_ffi_call/value_ffi.c:_call"]}
{"id": "C96", "title": "A call leaves nothing allocated", "statement": "After a stored call was made through libffi, whether it succeeded or not, the allocated memory is what it was before, apart from what the function itself did.", "quantifier": "all calls, all patterns of failing memory requests", "why_tests_cant": "leaks and double frees appear only on some of the many error paths", "anchors": ["examples/c_ffi_call/value_ffi.c:_call", "examples/c_ffi_call/value_ffi.c:_call_wrapper", "examples/c_ffi_call/value_ffi.c:metac_value_ffi_call"]}
{"id": "C97", "title": "Requests written anywhere in a program reach the generator", "statement": "For the debug information of any C program, the generator finds exactly the modules and the requests written in its sources with the METAC_..._REQUEST macros: each request once for each variable that makes it, in whatever compile unit, function, nested block or namespace it is written, with its unit, its variable and its name; nothing is lost in the deduplication of types, and nothing is added.", "quantifier": "every debug information (any number of units, any nesting of scopes) and any order in which its entries are visited and its maps are read", "why_tests_cant": "requests in deeply nested scopes, and programs of many units whose types are merged, are a space without bounds", "anchors": ["modules/metac-reflect-gen/templates/_build_requests.tpl", "pkg/metadb/metadb_builder.go:NewMetaDb", "pkg/metadb/metadb.go:MetaDb"]}
{"id": "C98", "title": "METAC_GSYM_LINK leads to the variable or function of that name, from source to run time", "statement": "If one module requests a global symbol once and no unit has two top-level objects of that name, the program built with the generated file links the symbol with exactly one definition: the entry of the variable or function of that name in the requesting unit, or of another unit if that one has none; the entry tells the kind and the name of that variable or function.", "quantifier": "every such C program", "why_tests_cant": "needs whole programs: compilation, debug information, generator, compiler and linker", "anchors": ["modules/metac-reflect-gen/templates/_glob_responses.tpl", "include/metac/reflect/link.h:METAC_GSYM_LINK", "pkg/metadb/metadb_builder.go:NewMetaDb"]}
{"id": "C99", "title": "A lookup by place of declaration finds the declared variable or function, from source to run time", "statement": "If no two requests for entries have the same file, line and name, the table of places of a module is generated, and a lookup of a name at a place of declaration finds the entry of the variable or function of that name declared on the line and in the scope of the requesting variable, if there is exactly one, and nothing otherwise; the entry tells its kind and name.", "quantifier": "every such C program, every file, place and name looked up", "why_tests_cant": "any nesting of scopes and any number of units and requests", "anchors": ["modules/metac-reflect-gen/templates/_entry_db.tpl", "src/entry_db.c:metac_entry_from_entry_db", "include/metac/reflect/loc.h:METAC_ENTRY_FROM_DECLLOC"]}
{"id": "C100", "title": "The generated test program runs every test", "statement": "For the debug information of any set of test files, the generated main adds each test written with METAC_START_TEST, as often as it is declared outside of functions, and nothing else, and exits with 0 exactly if all pass, otherwise with 1.", "quantifier": "every debug information, every result of the tests", "why_tests_cant": "a test that is silently not run leaves the suite green, so the suite cannot show it", "anchors": ["modules/metac-test-gen/templates/_build_requests.tpl", "modules/metac-test-gen/templates/_.tpl", "include/metac/test.h:METAC_START_TEST"]}
{"id": "C101", "title": "Copying and freeing the copy leaves no trace", "statement": "Freeing a deep copy releases exactly the blocks the copy allocated, each once, in whatever order maps are gone through; afterwards the live blocks are those that were live before the copy, and every byte outside the destination is what it was before the copy.", "quantifier": "all data that can be copied, with any sharing and cycles, all modes, all allocators and orders of hash maps", "why_tests_cant": "needs the shape of all data and the addresses of all blocks; a block freed twice or not at all shows only on some", "anchors": ["src/value_deep.c:metac_value_copy_ex", "src/value_deep.c:metac_value_free_ex", "src/value_deep.c:metac_value_memory_map_ex"]}
{"id": "C102", "title": "A deep copy and its source do not depend on each other", "statement": "After a copy the source is what it was: freeing it releases what it would have released before. The copy depends on nothing but its own memory: whatever happens to the source or to any other memory, the copy holds what it held, and freeing it releases the same blocks. So both can be freed, the source first, and the live blocks are then those from before without the source's.", "quantifier": "all data that can be copied, all later memories that agree on the bytes of the copy, all allocators and orders of hash maps", "why_tests_cant": "one pointer left to the source, somewhere deep in the data, is enough to break it, and shows only once the source is gone", "anchors": ["src/value_deep.c:metac_value_copy_ex", "src/value_deep.c:metac_value_free_ex", "src/value_deep.c:metac_value_memory_map_ex"]}
{"id": "C103", "title": "Results do not depend on memory that is not part of the data", "statement": "If reading, printing, mapping, freeing or comparing a value completes, with the library's handlers or any that keep their replies, it gives the same result in every memory that has the same bytes wherever there were any: what else is mapped, and what it holds, has no influence.", "quantifier": "all values, types, memories and extensions of them, all modes, handlers and orders of hash maps", "why_tests_cant": "needs all contents of all other memory; a read past an object is invisible as long as something harmless is there", "anchors": ["src/value_base_type.c", "src/value.c:metac_value_pointer", "src/value_string.c:metac_value_string_ex", "src/value_deep.c:metac_new_value_memory_map_ex", "src/value_deep.c:metac_value_free_ex", "src/value_deep.c:metac_value_equal_ex", "src/entry_tag.c"]}
{"id": "C104", "title": "A deep copy is printed as its source is", "statement": "If the data is printed in full as some text, and a deep copy of it succeeds, the copy is printed as the same text, although all its addresses are others; and it still is after anything has happened to the source or to other memory.", "quantifier": "all data that can be copied and printed, any nesting and sharing, all modes, handlers, allocators and orders of hash maps", "why_tests_cant": "needs all data: one pointer, count or member that comes out differently in the copy, at any depth, breaks it", "anchors": ["src/value_deep.c:metac_value_copy_ex", "src/value_string.c:metac_value_string_ex"]}
{"id": "C105", "title": "A recorded call, when it is made, is the call that was recorded", "statement": "When the arguments of a call are recorded with metac_value_parameter_wrap and the call is made later with metac_value_ffi_call, the function gets exactly the arguments the caller passed: one for each parameter, of its type and with its value, and the variable arguments (also those inside a va_list), strings by their characters; its result arrives, and nothing stays allocated.", "quantifier": "all functions, types and numbers of parameters, all arguments, all formats of printf-like functions, all memories that hold the recorded storage", "why_tests_cant": "needs all signatures and arguments; the two halves are tested apart, an argument that is kept in one way and passed in another only shows in their composition", "anchors": ["src/value_with_args.c:metac_value_parameter_wrap", "examples/c_ffi_call/value_ffi.c:metac_value_ffi_call", "src/printf_format.c", "src/entry_tag.c:metac_handle_printf_format"]}
{"id": "C106", "title": "A traced call is the call", "statement": "Wrapped in the tracing macros, a call of a function does what the plain call does: the function is called once, with the arguments written, its result and effects are those of the plain call, nothing stays allocated; before it a line with the text of the call is printed and after it one with its result, and if the call cannot be recorded or memory runs out, only lines are missing.", "quantifier": "all functions, arguments, results and effects, all signatures, all patterns of failing allocations", "why_tests_cant": "needs all argument expressions, functions and allocation failures; the tests print a few calls and compare lines by eye", "anchors": ["examples/c_print_args/print_args.h:METAC_WRAP_FN_RES", "examples/c_print_args/print_args.h:METAC_WRAP_FN_NORES", "src/value_with_args.c:metac_value_parameter_wrap"]}
{"id": "C107", "title": "The text of a recorded call is the call", "statement": "A recorded call is printed as the name of the function and, in parentheses and separated by commas, one text for each argument in order, each the text of what was passed for it; arithmetic arguments are printed with their values.", "quantifier": "all functions, types and numbers of parameters, all arguments, all memories that hold the recorded call", "why_tests_cant": "needs all signatures and values; a swapped, lost or wrongly read argument shows only for some of them", "anchors": ["src/value_string.c:metac_value_string_ex", "src/value_with_args.c:metac_value_parameter_wrap"]}
{"id": "C108", "title": "A call traced from its argument expressions is the call", "statement": "The alternative tracing macro, which stores each argument expression into an object of its own, does what the plain call does: the function is called once with the arguments written, its result and effects are those of the plain call, nothing stays allocated, and the lines printed before and after it show for each parameter the value that the function gets.", "quantifier": "all functions, argument expressions, results and effects, all signatures", "why_tests_cant": "needs all combinations of argument and parameter types, where C converts silently; the example's calls use matching types", "anchors": ["examples/c_print_args_alt/print_args.h:METAC_WRAP_FN_RES", "examples/c_print_args_alt/print_args.h:_APPEND_PARAM", "examples/c_print_args_alt/print_args.h:_WRAP"]}
{"id": "C109", "title": "A recorded printf-like call is printed as a C call", "statement": "The recorded call of a printf-like function is printed as the call in C: the name, the fixed arguments, the format as a string literal, then one argument for each conversion specification in order, numbers and pointers with the type the specification asks for and the value passed, converted to it, strings as literals, although the strings may no longer be in memory.", "quantifier": "all functions with arithmetic parameters before the format, all formats, arguments, memories and types", "why_tests_cant": "needs all formats and arguments; the documentation shows one call with two integers", "anchors": ["src/value_string.c:metac_value_string_ex", "src/entry_tag.c:metac_handle_printf_format", "src/entry_tag.c:metac_handle_zero_ended_string", "src/printf_format.c", "src/value_with_args.c:metac_value_parameter_wrap", "doc/demo/README.md"]}
{"id": "C110", "title": "A type is said to be what it is", "statement": "The questions whether a type is a base type, a pointer, an array, an enumeration, a function or has members are answered with yes or no for every type, whatever typedefs, qualifiers, variables, members and parameters lead to it: with yes exactly for the sort it is, so at most once; each of the 17 questions for an arithmetic type with yes exactly for the type described. The details (name, size and encoding of a base type, void and incomplete pointers, result of a function, place of a member) are the recorded ones and refused for other sorts. A value is answered for as its type is, without reading memory. NULL is nothing.", "quantifier": "all descriptions in which aliases do not run in a circle and base types have names, all values", "why_tests_cant": "needs all chains of aliases and all sorts of types, also those a compiler rarely produces", "anchors": ["src/entry.c:metac_entry_is_base_type", "src/entry.c:metac_entry_is_pointer", "src/entry.c:metac_entry_has_members", "src/entry.c:metac_entry_has_elements", "src/entry.c:metac_entry_is_enumeration", "src/entry.c:metac_entry_has_parameters", "src/value.c:metac_value_kind", "src/value.c:metac_value_is_base_type", "src/value_base_type.c:metac_entry_is_char"]}
{"id": "C111", "title": "Objects of all arithmetic types can be used", "statement": "An object of any arithmetic type of C is recognised as exactly that type, compares equal to itself, can be copied, read as a number and printed.", "quantifier": "all arithmetic types, objects and memories", "why_tests_cant": "needs all types and contents; the tests run through the types the library lists", "anchors": ["src/value_base_type.c:metac_value_equal_base_type", "src/value_base_type.c:metac_value_copy_base_type", "src/value_base_type.c:metac_value_num", "src/value_base_type.c:metac_value_base_type_string"]}
{"id": "C112", "title": "The printed text tells the data", "statement": "If two values of one type are printed as the same text (both with or both without following pointers), they hold the same data as far as it is printed: equal numbers (floating-point numbers: equal digits), equal enumeration values, equal addresses - or, where pointers are followed, equal data behind them -, member by member and element by element, with the same number of elements and the same chosen members of unions. No text is the beginning of another one with a comma or brace after it.", "quantifier": "all pairs of values of one type, all memories, types, depths and replies of handlers within the stated hypotheses", "why_tests_cant": "needs all pairs of contents; tests compare the text of a few objects with an expected one", "anchors": ["src/value_string.c:metac_value_string_ex", "src/value_base_type.c:metac_value_base_type_string", "src/value.c:metac_value_enumeration_string", "src/value_string.c:metac_value_string"]}
{"id": "C113", "title": "Equal values are printed alike", "statement": "If metac_value_equal finds two values of one type equal (in the mode that compares pointers that are not followed as values) and the first is printed, with all it points to, as some text, then the second is printed as exactly the same text; so values with different texts are never found equal. This does not depend on where the two values and the objects they point to are in memory.", "quantifier": "all types, all memories, all pairs of values and everything reachable from them, all handlers that reply alike for both", "why_tests_cant": "the two traversals are implemented separately; agreement must hold for every shape of data, not for the ones in tests", "anchors": ["src/value_deep.c:metac_value_equal_ex", "src/value_string.c:metac_value_string_ex"]}
{"id": "C114", "title": "Parameters that are argument lists are recognised", "statement": "metac_entry_is_va_list_parameter answers with yes exactly for the parameters whose type is the one called va_list or the pointer to struct __va_list_tag that it stands for on Linux; for every other parameter, for `...` and for entries that are not parameters the answer is no.", "quantifier": "all type descriptions that are finite and well named, all entries", "why_tests_cant": "the answer is decided by comparing texts of declarations; that no other type has the same text must hold for all types, to any depth", "anchors": ["src/entry.c:metac_entry_is_va_list_parameter", "src/entry_cdecl.c:metac_entry_cdecl"]}
{"id": "C115", "title": "Every argument of a call is handled, in order", "statement": "The loop macros of the alternative tracing example count their arguments and use the given macro on each of them, from the first to the last and only once; the nested loop also tells it how many arguments are left and which. So each argument of a traced call is recorded for its own parameter.", "quantifier": "all lists of arguments, all macros used on them", "why_tests_cant": "must hold for each number of arguments; the example has calls with up to three", "anchors": ["examples/c_print_args_alt/mr.h:MR_FOREACH", "examples/c_print_args_alt/mr.h:MR_FOREACH_EX", "examples/c_print_args_alt/mr.h:MR_FOR", "examples/c_print_args_alt/mr_pp.generated.h:MR_NARG", "examples/c_print_args_alt/mr_pp.generated.h:MR_HAS_COMMA", "examples/c_print_args_alt/print_args.h:_WRAP"]}
{"id": "C116", "title": "The database of the demo is a list of persons", "statement": "After any sequence of db_append and db_delete_record on a database made by new_db, the database holds, in order, the persons that were appended and not removed, each with copies of its names that belong to the database. db_append returns 0, or -ENOMEM with the database as it was if memory ran out; NULL and numbers of records that there are not are refused with -EINVAL. db_delete releases every block of the database and its names, and no other.", "quantifier": "all sequences of operations, all persons, all patterns of failing memory requests", "why_tests_cant": "the blocks in use depend on the whole history and on which requests failed; the removal of a record works or not depending on how many are behind it", "anchors": ["doc/demo/step_05/demodb.c:new_db", "doc/demo/step_05/demodb.c:db_delete", "doc/demo/step_05/demodb.c:db_append", "doc/demo/step_05/demodb.c:db_delete_record"]}
{"id": "C117", "title": "What a structure takes over is in one place under both names", "statement": "A structure declared with METAC_STRUCT_INHERIT... of another gives access to everything in the other one, at any depth, both directly and through a member with the name of the other one, and both are the same place: the place in the other one from the place of that member on; what is taken over first is at the beginning. The structure is as large and its own members are where they are as with one plain member for each one taken over. The compiler accepts it exactly if what it takes over was declared before and no macro is used on two levels of one line of ancestors, so with at most seven levels.", "quantifier": "all declarations, all numbers of members and ancestors, all sizes and alignments", "why_tests_cant": "the macros duplicate the members at each level; that both copies have one layout must hold for all nestings", "anchors": ["include/metac/inherit.h:METAC_STRUCT_CREATE", "include/metac/inherit.h:METAC_STRUCT_INHERIT0", "include/metac/inherit.h:METAC_STRUCT_INHERIT6"]}
{"id": "C118", "title": "A tag map generator sets all of its tags, or returns NULL and leaves nothing behind", "statement": "A function made with METAC_TAG_MAP_NEW \u2026 METAC_TAG_MAP_END returns a map exactly if memory sufficed, each selected entry exists and each METAC_TAG_MAP_SET_TAG could be done; the map then answers every lookup according to these tags, in the order written. Otherwise it returns NULL at the first statement that cannot be done, does nothing after it, and all memory and each context made on the way have been released once. A function made with METAC_TAG_MAP_APPEND returns the map under the same conditions, with its former tags and the new ones; otherwise NULL, and the map is as it was.", "quantifier": "all lists of sections and statements, all categories, all contents of the map before, all patterns of failing memory requests", "why_tests_cant": "each statement can be the one that fails, and what was made before it has to be released", "anchors": ["include/metac/reflect/entry_tag.h:METAC_TAG_MAP_NEW", "include/metac/reflect/entry_tag.h:METAC_TAG_MAP_APPEND", "include/metac/reflect/entry_tag.h:METAC_TAG_MAP_ENTRY", "include/metac/reflect/entry_tag.h:METAC_TAG_MAP_SET_TAG", "include/metac/reflect/entry_tag.h:METAC_TAG_MAP_END", "src/entry_tag.c:metac_tag_map_set_tag"]}
{"id": "C119", "title": "Templates find the functions they were given", "statement": "AppendTemplateFuncMap adds each generic function to the map under its name; a function that is in the map already stays and is reported as skipped; nil functions and a nil map are ignored. A template of an instance finds exactly the functions of its factory, and its own include exactly if the factory allows it. All this does not depend on the order in which Go goes over maps.", "quantifier": "all maps of functions, all orders of iteration", "why_tests_cant": "Go chooses the order of iteration anew on each run", "anchors": ["pkg/module/gotemplate/funcs/funcs.go:AppendTemplateFuncMap", "pkg/module/gotemplate/gotemplate.go:Run"]}
{"id": "C120", "title": "A type is found by any of its names", "statement": "METAC_TAG_MAP_ENTRY_FROM_TYPE opens a section for the type itself that the given name stands for, behind all typedefs and qualifiers, and METAC_ENTRY_OF gives that same entry. So the tags set for one name of a type are the tags for all of its names. For void, and where the place of the macro is not in the database exactly once, there is no entry.", "quantifier": "all descriptions of types, all chains of typedefs and qualifiers, all tables of places", "why_tests_cant": "chains of names can have any length, and the place has to be found among those of the whole program", "anchors": ["include/metac/reflect/entry_tag.h:METAC_TAG_MAP_ENTRY_FROM_TYPE", "include/metac/reflect/entry_tag.h:METAC_ENTRY_OF", "include/metac/reflect/loc.h:METAC_ENTRY_FROM_DECLLOC"]}
{"id": "C121", "title": "Arguments that cannot be recorded are reported, and the call is made all the same", "statement": "If the alternative tracing macro cannot record an argument - variable arguments without a handler in the tag map, more arguments than parameters - it prints the number of the failure before all else, has recorded all arguments before it with their values, and calls the function once with all arguments; its result and effects are those of the plain call, and nothing stays allocated.", "quantifier": "all functions, arguments, programs around the call, states of memory", "why_tests_cant": "the failure can come after any number of recorded arguments, each with memory of its own to be released", "anchors": ["examples/c_print_args_alt/print_args.h:_APPEND_PARAM", "examples/c_print_args_alt/print_args.h:_process_unspecified_params", "examples/c_print_args_alt/print_args.h:_WRAP", "examples/c_print_args_alt/print_args.h:METAC_WRAP_FN_RES"]}

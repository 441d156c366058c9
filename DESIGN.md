# Formal model of aodinokov/metac (Lean 4)

This file is the design record: what is modelled, how each property is proved,
what is trusted and where the code was found to disagree with a property.

## Layout

* `lean/Verif/<Area>/Model.lean` - executable model of the code, every definition cites `/repo` file and lines.
* `lean/Verif/<Area>/Spec.lean`  - small independent specification (where one is needed).
* `lean/Verif/<Area>/Lemmas.lean` - helper lemmas.
* `lean/Verif/<Area>/Props.lean` - the property theorems, each followed by an `example` showing that its hypotheses are met by a concrete non-trivial case.
* `properties.jsonl`, `MANIFEST.json`, `seeded/LOG.jsonl` - property list, status per property, mutation log.

## Plan per property

* **C01 Hashmap is a finite map under every history** - `Hashmap.Model`: bucket array as a list of chains, each operation in the source's chain-walking form, allocation outcomes as inputs. Refinement: abstraction to an association `key class -> value`; one-step simulation, lifted by induction over the operation list.
* **C02 hashmapSize counts the distinct keys** - Invariant (every entry in the bucket of its hash, keys pairwise unequal, size = number of entries) by induction over operations.
* **C03 Bucket array stays a power of two and is never indexed out of range** - `BitVec 64` model of the creation loop (well-founded on 2^64 - count) and of `calculateIndex` on sign-extended hashes; bit-vector arithmetic lemmas.
* **C04 hashmapForEach visits a prefix and stops on request** - ForEach modelled as the nested loop with a stateful callback; proved equal to a prefix of the entry list.
* **C05 hashmapMemoize computes at most once** - Memoize modelled with the callback as a state transformer that counts calls; decision logic.
* **C06 Expansion keeps the contents and restores the load bound** - Expansion modelled entry by entry (prepend); permutation proof; load inequality by omega on powers of two.
* **C07 A task is resumed only when all its dependents have ended** - `Iterator.Model`: zipper of task records, `next` as the source's do-while (well-founded recursion); invariant over all client call sequences.
* **C08 Dependents run depth-first in the order they were appended** - Same model; `next` characterised by the specification 'first unfinished dependent, depth first'.
* **C09 Dequeue is first-in first-out and reports failure** - Same model; queue lemmas.
* **C10 A fold over the iterator computes the recursive function** - Client loop defined on the model; structural induction on rose trees.
* **C11 A task may append more dependents after consuming earlier ones** - False of the code: concrete abort witness; partial theorem for the orders that are safe.
* **C12 Iterator level and ancestor inputs** - Zipper path length / nth.
* **C13 Declaration-location lookup finds exactly the unambiguous entry** - `EntryDb.Model`: C `bsearch` loop on arrays of (name, payload); refinement to linear search for sorted tables.
* **C14 Format specifiers are parsed as printf would** - `Printf.Model`: parser on NUL-terminated byte lists; expected false for width with flags '0'/' ' (octal): witness + partial.
* **C15 Counting format specifiers** - Expected false for adjacent specifiers: witness + partial theorem for separated ones and upper bound for all.
* **C16 Collected variadic arguments match the format** - Expected false (buffer of pointer size receives the whole string; index drift after %%): model the storage writes with an out-of-bounds outcome; witness + partial.
* **C17 Byte size of a type** - `Entry.Model`: inductive type descriptions (acyclic by construction), uint64 arithmetic; structural induction.
* **C18 Final entry strips exactly the aliases and collects the qualifiers** - Same model; structural induction.
* **C19 Members, parameters and enumerators are looked up by first match and range-checked** - Same model; list search lemmas.
* **C20 DWARF3 and DWARF4 bit-field descriptions select the same bits** - uint64 arithmetic on the two formulas; omega.
* **C21 Bit-field write then read returns the written value** - `Bitfield.Model`: byte memory, 16-byte buffer, shifts with an explicit undefined-behaviour outcome for int shift widths; bit-vector extensionality. Expected partial: widths >= 31/32 are UB in the code.
* **C22 A bit-field write changes no other bit** - Same model; bitwise extensionality.
* **C23 Element and member access stays inside the object** - `Value.Model`; linear arithmetic over ids and sizes.
* **C24 Typed access is refused for any other type and for const objects** - `Value.Model`; decision logic. const is only checked by base-type setters: witness for enumeration/pointer setters.
* **C25 Enumeration objects round-trip** - Byte-level little-endian encode/decode with truncation and sign extension at widths 8/16/32/64.
* **C26 metac_value_num returns the numeric value** - False for values outside int: witness; partial theorem for representable values.
* **C27 Base-type equality and copy** - `BaseType.Model`: dispatch over the 17 types on byte memory; floats as opaque bit patterns with a parameter equality.
* **C28 Pointer-loop detection** - `Value.Loop`: list of ancestor pointers; nearest match; no-repeat theorem on paths.
* **C29 Deep free releases each allocated block exactly once** - `Deep.Model`: tree of entries made by the walk, hash map of addresses, sort, sweep; free calls. `walk_sound`/`walk_complete` (the walk makes exactly the tree `Spec.Tree`), then blocks by `C32_attribution`; false for interior pointers into the value itself and empty objects (witnesses).
* **C30 Deep copy is equal to and independent of the source** - `DeepCopy.Model`: copy of the tree of entries into memory with an allocator oracle. Specification: what each copy is to hold (`Wants`), where it is (`Copy`), what the result is (`Copied`); invariant over the traversal (written cells, source unchanged), blocks by `C32_attribution`; seven theorems where the claim is false. The copy is deep-equal to the source: `image` is the tree of the copy, it is a `Tree` of the memory afterwards (`Image`), its numbering, table and offsets are those of the source moved (`ImageMap`), its contents agree (`ImageEqual`), and C31 tells the result.
* **C31 Deep equality is an equivalence on comparable values** - `Deep.Model.cmp` on two trees of entries, specification `EqualSpec` (contents of leaves, agreement of corresponding nodes); node lemma and structural induction on the trees; reflexive, symmetric, transitive from the characterisation; four witnesses where the claim is false.
* **C32 Interior pointers are recognised whatever the visiting order** - Sweep result depends on the sorted list only; permutation invariance.
* **C33 Tag lookup order** - `TagMap.Model`: categories as lists; abort outcome explicit; witness for the abort and for unreachable final-only categories; partial theorem.
* **C34 Setting tags: override and conflict** - Same model as a state machine over set operations.
* **C35 Tag strings are looked up like Go struct tags** - `TagString.Model`: the source's scanner as a state machine over bytes; round-trip against a rendering specification and soundness for all strings.
* **C36 Union member selection by sibling value** - `Verif.Handlers`: the handler over the stack of walked values; decision logic, search loops by induction over members and cases; value reading reused from the C26 model. Selectors outside `int` are truncated by metac_value_num: negation proved with a witness.
* **C37 Element-count handler uses the sibling count** - `Verif.Handlers`: as C36, for sibling members and sibling arguments of a recorded call; counts outside `int` are truncated: witness.
* **C38 Parameter storage is an indexed list** - `ParamStorage.Model`: list of items with cached size and allocation outcomes.
* **C39 Copy and cleanup of parameter storage** - Nested inductive storage with buffer identities; structural induction.
* **C40 Wrapping a call collects every argument in order** - `WrapCall.Model`: the loop over the declared parameters with allocator, variadic arguments as a list of typed values and handlers as arbitrary functions; `WrapCall.Spec`: which types are collected, how a value is passed, what a handler has to do. Induction on the argument list (`Call`), tracking the blocks the storage owns; every type is covered (`C40_types`); witnesses for the failures.
* **C41 Printed C strings read back as the same bytes** - `PrintString.Model`: measuring and filling loops on byte memory with int overflow and out-of-bounds writes undefined; the specification is the C grammar of string literals as a relation.
* **C42 Declaration strings have exactly one place for the name** - `CDecl.Model`: formats and %-substitution as in dsprintf, the walk as a partial fixpoint over `Outcome`; `CDecl.Spec`: the declaration grammar of C11 6.7 as mutually inductive relations between types, names and texts. One placeholder: well-founded induction on the types used. Placement of the name: every pattern is a context that turns declarators into declarations, by induction on regular types.
* **C43 Printed values are balanced and complete** - `ValueString.Model`: the two visits of each value (start, finish) and the walk as a partial fixpoint over `Outcome`; `ValueString.Spec.Shown`: inductive relation between values and texts. Both directions: fixpoint induction and induction on `Shown`. Brackets: a reader with a stack, induction on `Shown`, and on the declaration texts by fixpoint induction. Printing of plain data never fails: induction on `Data`.
* **C44 String helpers** - dsprintf two-phase buffer logic; trim loop.
* **C45 Intrusive list operations keep the list well formed** - `BsdList.Model`: pointer-level heap with next/prev-link cells; separation-style invariant.
* **C46 Generated identifiers are unique** - `GoMeta.Model`: counter map and padded decimal rendering; injectivity of stem + counter.
* **C47 Override merge gives precedence to the override and keeps the rest** - `GoOverride.Model`: nested tables; structural induction; iteration-order independence by permutation.
* **C48 Array dimensions are derived correctly from debug information** - `GoMeta.Model`: loop over the subranges in reverse; chain specification by induction.
* **C49 Hashing is defined for every key** - False of the code: `mixStrict` returns `none` on signed overflow / shift of a negative number; proved that this happens for every input.
* **C50 Ending a task or changing its state touches only that task** - Iterator model; direct computation under the history invariant.
* **C51 Generated entry tables are sorted and searchable** - Model of the template's three-level dictionary; equality with linear search over the input records. False for paths with backslashes (witness).
* **C52 Accessors see through typedefs and qualifiers** - Entry model; case analysis on the final entry, `Size` relation for the new entry. Counts beyond int are truncated (witness), hence partial.
* **C53 Base type check accepts exactly the described type** - Entry model; decision logic.
* **C54 Pointer objects** - `Value.Model` on byte memory; store/load laws.
* **C55 A pointer or array viewed as a given number of elements** - `Value.Model`; case analysis on the final entry.
* **C56 Tag maps give back everything** - TagMap model with the heap of `Verif.Heap`; ownership invariant (`Verif.HeapOwn`): live blocks = initial blocks plus the blocks of the map.
* **C57 Zero-ended strings** - `Verif.Handlers`: strlen as a possibly non-terminating loop over memory (undefined beyond accessible memory); counts beyond INT_MAX wrap: witness.
* **C58 Container-of** - `Verif.Handlers`: the local variable the handler takes the address of is an extra 8-byte object of the memory.
* **C59 Pointers cast by a selector field** - `Verif.Handlers`: decision logic; a count field that does not exist makes the handler delete a NULL value: proved undefined for all such contexts.
* **C60 Texts of base-type objects** - `ValueString.Model`; case analysis on the type. False for the characters quote and backslash (not escaped): negation for all such objects, partial theorem for the others.
* **C61 Types of different compile units are merged exactly if they look the same** - `GoDedup.Model`: signatures (texts), the loop of deduplicateTypes over any order. The spec says when two types look the same as a least relation over the type graph (`Spec.Alike`, `Spec.OneType`) without texts. Lemmas: signatures are closed in parentheses, hence parsed back (injective); signatures are unchanged by merges; invariant of the loop.
* **C62 Merged types are the same type** - `Spec.SameType`: a bisimulation (greatest relation). False of the code (named types behind pointers are compared by name only; the byte offset of old style bit-fields is not compared): two witnesses; partial theorem under one definition per name.
* **C63 Links of the database lead to objects of the database** - `streamline` of the links at the end, with the identifiers of `GoMeta`. False of the code for types nested in types (C++ classes) referred to from outside, and for arrays of three dimensions: witnesses; partial theorem otherwise.
* **C64 The database does not depend on map iteration order** - Two runs with different orders. False for identifiers of unnamed types: witness; partial theorem (success, partition and multiset of kinds and names agree) from C61 for flat inputs.
* **C65 The tree of debug information is read as it was stored** - Model NewData: the stack of open entries, cut by siblings and ends of children (GoDwarf/Model). Specification: a forest and the sequence of entries that stores it (GoDwarf/Spec). Induction over the forest; for arbitrary sequences an invariant of stack and table (bottom 0, all entries of the stack known, links both ways).
* **C66 The reflection database says what the debug information says** - Model metadb_builder.go from the entries to the objects, function by function, with the recursion of processEntry as a least fixed point (GoBuild/Model). Specification: which entries are parts of which, what an object has to say about its entry, dimensions of arrays, completeness (GoBuild/Spec). The events (objects made, in order) of a good forest are computed and shown by induction over the forest to be what the build does (GoBuild/Visit); the statements follow from the events (GoBuild/Objects, Props). Endless recursion by fixed point induction: all approximations are undefined there.
* **C67 A base type of C is recognised however the compiler spells its name** - Model the table of synonyms; specification: C11 6.7.2p2 as counts of specifiers. The table is checked row by row, all other strings are unchanged.
* **C68 All requests made in the program are found** - Model _build_requests.tpl with the walk over scopes as a least fixed point (Generate/Model). Specification: everything inside a unit as an inductive relation, and which names are requests (Generate/Spec). Fixed point induction gives that a successful walk collects exactly the requests of that list; the converse by induction over the relation.
* **C69 A place of declaration finds the objects declared there** - Model _entry_db.tpl; specification: the objects declared beside a request on its line. The records it makes are shown to be these up to order; with C51 (table and search) this gives the answer of the run-time lookup. Success is characterised by distinct places, as the text of a place is injective.
* **C70 A requested global symbol is linked to its entry** - Model _glob_responses.tpl; the definitions are computed for programs without namespaces; witnesses for two modules and for a namespace.
* **C71 The database of names lists every object under its name** - Model _db_v0.tpl: invariant of the dictionary by names; the symbol generated is an object, the header reads a pointer.
* **C72 Contexts of tag handlers own their parts and are released completely** - Model the constructors and delete functions of entry_tag.c over the heap of numbered blocks (Handles/Model); specification: the list of blocks of each context, makes and releases as changes of the set of live blocks (Handles/Spec). Cases over the failing allocation with the ownership lemmas of HeapOwn.
* **C73 Value handles are independent and can be released without loss** - Model metac_new_entry, metac_init_value, metac_new_value and the handles for calls over the same heap; specification as in C72. Witnesses for the leak of the storage of parameters and for deleting NULL.
* **C74 The arguments of a printf-like call are stored byte for byte** - Model _new_value_from_format_specifier down to bytes and allocations (PrintfCall/Model), over the parsing model of Printf, the storage of ParamStorage and the argument lists of WrapCall; specification: what each conversion takes and stores (PrintfCall/Spec). Induction over the pieces of the format. Negations: long strings, lost description.
* **C75 A wrapped call of a printf-like function holds all its arguments** - Model metac_handle_printf_format as a handler of WrapCall and run it inside the model of metac_value_parameter_wrap; induction over the leading parameters, then C74 for the ellipsis (PrintfCall/Call).
* **C76 The generated C file compiles** - Model all templates as functions from database objects to C tokens and, separately, the part of a C compiler that the file needs: parser of initialisers, designators, compound literals, string concatenation and escapes, tables of the members of struct metac_entry, scope (Emit/Model). Proof by a combinator library: each template's tokens are read back as the initialiser it means; then induction over the declarations and definitions. Negations: a theorem for every database with an import, concrete files for the other failures.
* **C77 The generated entries say what the debug information says** - Specification: the record for each kind of object, written with its own tables (Emit/Spec). The same combinators show that each initialiser sets exactly those members.
* **C78 A program is told the types that the database describes** - Relate records in memory (at arbitrary addresses) to the descriptions of the Entry area (Emit/Run), specify sizes, members, ... on the objects of the database (Emit/RunSpec) and compose C77 with C17, C19, C20 and C52. Emit/Memory shows that every good database can be placed in memory.
* **C79 What a program is told is what the debug information says** - Model the end of the build, where the objects that were kept get their ids and links (Chain/Model), and compose: C65/C66 (objects from debug information), C61-C63 (merging and links), C76-C78 (generated file and its entries at run time). The specification (Chain/Spec) speaks of the debug information and of the run-time functions only. Main step: an object that stands for an entry was either built from it or has the signature of it, and what a signature determines is what the entry says. Chain/Dims, Chain/Opaque: runs of the whole chain, computed by the kernel, after which an array has no elements and a typedef no size.
* **C80 The generator ends with a file that compiles** - On the models of C79. Chain/Reads: signatures end (induction over a rank of the types without names), so that every step of the merging goes through. Chain/Compile: each object of the database satisfies the conditions of C76 (Emit.Spec.Good); identifiers by C76_ids, links and parents by an invariant of the merging (parents of kept objects come from entries), names and numbers from the debug information. The conditions on the debug information are in Chain/Spec (Input, CTypes, Writable) and speak of its entries only. False of the code for arrays of three dimensions: Chain/Dims computes a run whose file does not compile.
* **C81 The parents a program is told of are where the debug information has the entry** - Extend the run-time entries with parents_count and parents (Entry/Model, Emit/Run: what _parents.tpl writes) and model the accessors; an invariant over the merging of types says which entries are written under which parents' lists (Chain/Parents: each merge moves the parents of the dropped object to the one that is kept). Specification: `Under` (what an entry is written under), in terms of the debug information only.
* **C82 A type that several units describe is one entry** - Specification (Chain/Spec: Level, Says, Like, Agreed) in terms of the debug information: when do two entries say the same. Like is the least relation, as types without names are compared by what they say. Main step (Chain/Same): entries that say the same become objects with equal signatures (Base.agree, Base.alike), so that C61_found merges them. The exact answers of C79 (the last condition of Spec.Answer) follow from the same: objects that are alike stand for entries that the units describe alike.
* **C83 Debug information survives the unstructured form** - Model GoSerial: interface{} values by Go type, fixValBasedOnClass, the writers and readers of the unstructured form (with strconv.Atoi), maps as lists in visiting order. Specification: the documented types of debug/dwarf (Documented, Newer). Round trip by cases on the class, then over lists; the map by lookups (lookup_puts, mem_lookup). False for a unit with an empty table of files.
* **C84 Debug information survives YAML** - What yaml.v3 gives back for each Go type is the definition yamlVal (trusted); the theorem is that fixValBasedOnClass makes the original of it, for every documented class. False for the classes of DWARF 5: the value comes back as int instead of int64.
* **C85 Debug information survives JSON** - What encoding/json gives back is jsonVal: numbers rounded to 53 bits (roundNat), bytes that are not UTF-8 replaced (utf8Fix; the specification of UTF-8 is by encoding code points). True within those limits, with witnesses that each limit is needed.
* **C86 Malformed debug information is refused** - Readers on arbitrary input. Total unless a nil pointer is in the value (HasNil) or an entry or field of the document is null; witnesses of the panics, and of two keys that fall on one entry.
* **C87 Module names stay inside the search paths** - Model GoModule: the file system seen from a directory is a record of functions (Disk); InfoByName, NewInstance. Specification: walking the components of a path (walk), First over the search paths. By cases on the separators, induction over the paths.
* **C88 A module that cannot be loaded is looked for in the later search paths** - NewInstance with arbitrary factories: the first accepted info is taken (partial). The factory of templates accepts everything, so a module whose file cannot be read is taken: witness.
* **C89 Running a module leaves the working directory** - The process is a record of working directory and loaded file; os.Chdir ignores its error. By cases on every way out of Run; Os states what a directory is. Witnesses: a failing template; a missing directory.
* **C90 Included modules are there or the run fails** - Templates as a finite map with the rule of text/template that an empty body does not replace. IncludesAll is the specification; induction over names and paths. Witnesses: another kind; a path that failed midway.
* **C91 Runs of a module do not affect each other** - Settings by the theorem about MergeAll (C47); histories by the invariant that the loaded file is the one on the disk and the directory the same. Witness: after a failing template in another directory.
* **C92 Deep operations end on every memory** - Area DeepEnds over the models of Deep, DeepCopy, ValueString and Handlers, whose recursion is a least fixed point with `hang` for what does not end. Tame is the assumption on descriptions and handlers (none on memory). Well-founded order: number of pointer targets below 2^64 not yet on the path, then the order of objects inside objects; every recursive call goes down.
* **C93 libffi is told the right types** - Area Ffi (examples/c_ffi_call/value_ffi.c). Descriptions are trees with the numbers of their blocks; the function is a least fixed point over the five mutually recursive parts. Spec: `Looks`, an inductive relation between types and what libffi reads. Proof: induction on `Looks` with ownership of blocks, for every failing request; release by mutual induction. Witnesses for unions, bit-fields and `__int128`.
* **C94 A stored call reaches the function with the stored arguments** - libffi is a parameter: which calls it accepts, and what the functions do with the arguments they get. Spec: `Arguments`. Theorem: the outcome of the call is the function's outcome on exactly these arguments, followed by code 0. Induction over parameters, arguments of `...` and va_lists. Witnesses: void functions, promotions, structures in `...`.
* **C95 The result of a called function arrives in the result value** - Same run: memory after the call is `Written` from the memory the function left.
* **C96 A call leaves nothing allocated** - Same run, with ownership of blocks (`Owns`); witness for a refused call.
* **C97 Requests written anywhere in a program reach the generator** - Area Links: the maps of the database (`Tables`) as rows of the objects kept by the build, read by the templates of Generate. Spec: `inside`, `asks`, `Module` over the trees of debug information. Proof: composition of C79 (which entries become objects), C46 (ids are distinct) and C68 through `db_visits`, `requests_perm`.
* **C98 METAC_GSYM_LINK leads to the variable or function of that name, from source to run time** - Area Links, on top of C70 and C79: `top` over the trees; `answer_eq` relates it to the rows.
* **C99 A lookup by place of declaration finds the declared variable or function, from source to run time** - Area Links, on top of C69 and C79: `Answer` over the trees; the answers of the database are a permutation of a list without duplicates of all pairs in `Answer`.
* **C100 The generated test program runs every test** - Area Links: `testsOf`, `mainOf`. Spec: `tests` over the trees.
* **C101 Copying and freeing the copy leaves no trace** - Area Lifecycle, on top of C30 and C32: what `freeEx` releases is read off the map of the copy, which is the map of the source with every address moved (`image_free`); `Freed` releases the blocks one by one. Partial for the same reasons as C30.
* **C102 A deep copy and its source do not depend on each other** - Area Lifecycle: the tree of the copy is the same in every memory with the same bytes at its nodes (`tree_same`), and these lie in the destination and the new blocks (`Setup.region`). Partial for the same reasons as C30.
* **C103 Results do not depend on memory that is not part of the data** - Area Lifecycle: every function that reads memory, on a memory and on an extension of it, by induction over the loops and the fixpoints (`Below`, `BelowDeep`).
* **C104 A deep copy is printed as its source is** - Area Lifecycle, on top of C30 and C43: by induction over the derivation of the text (`Shown`), every object of the source and its copy side by side (`Site`).
* **C105 A recorded call, when it is made, is the call that was recorded** - Area Replay: composition of C40/C75 (recording) and C94-C96 (making the call); the storage built by the first model is related to the memory read by the second (`Held`), and the caller's arguments to those the function gets (`Same`), by induction over the parameter list.
* **C106 A traced call is the call** - Area Trace: the macros as programs over an abstract caller (expressions, function, world); the traced call is written as the plain call followed by a continuation that always succeeds, with the heap invariant of C40 and C73 carried through. Witness: a concrete program with `x++` as argument.
* **C107 The text of a recorded call is the call** - Area Trace: composition of C40 (what is stored) with C43 (what is printed) through the relation `Held` of C105; both directions.
* **C108 A call traced from its argument expressions is the call** - Area Alt: the macro's expansion as a function over evaluated expressions (own bytes, type, and what they are in `...`), recording into the same storage as C38 and C40; announce, report and finish are those of area Trace. The failures are proved for whole classes of programs and shown for concrete ones.
* **C109 A recorded printf-like call is printed as a C call** - Area PrintfText: no code of its own; the composition of recording a printf-like call (C75), the handlers of the format string (C57) and printing a call (C43, C107), against a specification of how each argument is written in C.
* **C110 A type is said to be what it is** - Area Queries: every question and small accessor of entry.c and value.c as a function of the description only; classified against an independent relation between entries and sorts, through the chain of aliases of C17 (`Final`), and a separate table of the arithmetic types.
* **C111 Objects of all arithmetic types can be used** - Area Queries on top of area Value: a general refutation for `signed char`, and what C26, C27 and C110 give for the 17 types.
* **C112 The printed text tells the data** - Area Tell on top of ValueString: texts are prefix codes (every text is delimited by what follows it), by induction on the derivation of `Shown` (C43) with an inversion of the second one; the relation `Alike` is the specification, with theorems that say what it means for integers, enumerations, pointers and structs.
* **C113 Equal values are printed alike** - Area SameText on top of Deep and ValueString: by induction on the derivation of `Shown` (C43) of the first value, with the agreement of all corresponding nodes of the two trees (C31), the derivation of the second value is built, with the same text.
* **C114 Parameters that are argument lists are recognised** - Area CDecl: for each kind of type, what is before and after the placeholder of its text (by the lemmas of C42); the two texts looked for are then compared with all of these forms.
* **C115 Every argument of a call is handled, in order** - Area Macro: the numbered macros as functions of the number and the argument list (1025 lines each, all checked to follow one pattern), by induction over the arguments; the loop applied to the recording step is shown to be the recursion modelled in Alt.
* **C116 The database of the demo is a list of persons** - Area DemoDb: the four functions on a database with its block, the records written so far and the allocator; an invariant (the records are those of a list of persons, the blocks are exactly those of the database and of the names) kept by each function, then induction over the operations. Removal of a record with two or more behind it is shown to be undefined (memcpy of overlapping places).
* **C117 What a structure takes over is in one place under both names** - Area Inherit: the macros as a function from declarations to members, with the set of macros that are being rescanned (a macro is not replaced in its own replacement), and the compiler's rules for offsets, sizes and alignments. Induction over the declarations: the members do not depend on that set, so the halves of each union are equal; the rest follows by induction over members.
* **C118 A tag map generator sets all of its tags, or returns NULL and leaves nothing behind** - Area TagGen: the functions that the macros make as an interpreter of their statements on top of the model of tag maps (TagMap), with a record of the contexts made by the tag expressions. Induction over the statements relates it to a history of calls of metac_tag_map_set_tag up to the first failure, to which C34 and C56 apply. Two parts are false: the context of a refused tag is lost, and a failed append leaves the tags set before the failure.
* **C119 Templates find the functions they were given** - Area GoFuncs: maps as lists of pairs with distinct names, the order of iteration as an arbitrary permutation; induction over that order. A name that is in the map already is replaced although the message says that it is skipped (C119_skip_false).
* **C120 A type is found by any of its names** - Area TagGen (ModelTypes, PropsTypes): the lookup of C13 in the table of C51, followed by the pointer and final entries of C18. The specification gives the debug information of the declared variable (PointerTo, OfType) and the relation Final of C18.
* **C121 Arguments that cannot be recorded are reported, and the call is made all the same** - Area Alt (PropsFail, WitnessFail): the model of C108; induction over the ordinary arguments before the one that fails (Fixed), then the failing step; ownership of all blocks as in C108.

## Trusted base

* **Checker.** Lean 4.33.0's kernel. No `sorry`, no `native_decide`/`bv_decide`, no axioms of our own. `decide +kernel` is used on
  closed terms only, in examples and witnesses; it is evaluated by the kernel.
* **Axioms.** Every theorem depends at most on `propext`, `Classical.choice` and `Quot.sound`. Listed by theorem in *Axioms* below.
* **Reading.** The C and Go sources were read as text; nothing was compiled or run. That a model definition does what the lines it cites do
  is the main assumption. Each definition cites its lines and says where it simplifies.
* **Outcomes.** Functions return in `Outcome`: a result, `abort` (a failing `assert`; the project is built without `NDEBUG`), `ub`
  (undefined behaviour of C), `hang` (no result after any number of steps; loops are `partial_fixpoint`s). None of them is
  totalised away: theorems about results say that the outcome is `ok`.
* **Platform.** x86-64 System V, little-endian, 8-bit bytes, LP64, signed `char`, two's complement; `int` arithmetic that overflows is undefined
  (no `-fwrapv`). Addresses do not wrap. Effective types (strict aliasing) are not tracked.
* **Environment as parameters.** Allocators (any function that says when an allocation succeeds, with freshness where addresses matter),
  hash functions and iteration order of hash maps, event handlers, `isprint`, printing of floating-point numbers and pointers, floating-point
  equality and conversion, order of Go map iteration. Theorems quantify over them; contracts needed of them are hypotheses of the theorem and
  met by an instance in the example beside it.

### Modelled, by area, and what is simplified

| Area | Code | Simplifications |
| --- | --- | --- |
| `Hashmap` | src/hashmap.c | locks left out (empty in the build); bucket chains as lists; allocation outcomes as inputs; the byte loop of `hashmapHash` in strict arithmetic (C49) |
| `Iterator` | src/iterator.c, include/metac/backend/iterator.h | tasks as records in a zipper, pointers by position; allocation outcomes as inputs |
| `BsdList` | the `LIST_*` macros used | heap of next/prev cells |
| `EntryDb` | src/entry_db.c and the template that writes the tables | `bsearch` modelled by its contract on sorted arrays and by an implementation |
| `Printf` | src/printf_format.c:19-343 | strings end with NUL; `va_arg` as a typed list |
| `Entry` | src/entry.c | entries are indices into a database; alignment, linkage, stride, lower bound left out; accessors that only read a field are the field |
| `Bitfield`, `Value` | src/value.c:103-850, src/value_base_type.c | memory is a partial map from addresses to bytes; value objects are pairs of entry and address, their allocation succeeds; the union `buf` of bit fields is a byte buffer |
| `ValueString`, `PrintString` | src/value_string.c | mode: the default one; allocations succeed; texts of floats and pointers are parameters; descriptions made while printing are interned |
| `CDecl` | src/entry_cdecl.c, include/metac/backend/string.h | allocations succeed; texts shorter than INT_MAX |
| `Str` | include/metac/backend/string.h | `vsnprintf` by its contract |
| `TagString`, `TagMap` | src/entry_tag.c:15-349 | the hash map as an association list counted as one block; maps it refers to as snapshots |
| `Handlers` | src/entry_tag.c:378-787 | values allocated by handlers always exist; contexts are records; the va_list test and parameter storages are parameters |
| `ParamStorage`, `WrapCall` | src/value_with_args.c | variadic arguments as a typed list, signed and unsigned of one size interchangeable; aggregates by class as in the ABI (flag) |
| `Deep`, `DeepCopy` | src/value_deep.c | sizes are natural numbers (no wrap); allocations of the map succeed, those of copies are an oracle; the hash map as an association list with arbitrary order of iteration; identity of entries by number; parameter storage copy as a parameter |
| `GoOverride`, `GoMeta` | pkg/override/override.go, pkg/metadb/metadb_builder.go (in part) | Go maps as association lists with arbitrary order; counters are natural numbers |
| `GoDedup` | pkg/metadb/metadb_types.go, metadb.go (`Signature`, `streamline`), metadb_builder.go:826-912 | objects are numbers, links are index entries, `int64` as integers; the warning about types of one name is left out |
| `GoDwarf` | pkg/dwarfy/dwarf.go | what debug/dwarf reads is the input; offsets are natural numbers |
| `GoBuild` | pkg/metadb/metadb_builder.go:143-824, metadb_types.go (`fromEntry`, synonyms), encoding_string.go | an object is made when its entry has been processed (nothing reads it earlier); places of declarations, linkage, language and files of units are left out; an import without index entry panics at once |
| `Generate` | modules/metac-reflect-gen/templates/_build_requests.tpl, _entry_db.tpl, _glob_responses.tpl, _db_v0.tpl | what the templates compute, not their text; the maps of the database as association lists in the order of their keys; a missing entry of a map fails (in the templates an error at the use of the nil value) |
| `Emit` | modules/metac-reflect-gen/templates/_actual_data.tpl, _early_declarations.tpl and the 17 templates they use; include/metac/backend/entry.h, const.h | the text of the templates as C tokens (no white space and comments); the database is its streamlined form (links are ids); snakecase by its values for encodings and tags; C: initialisers of `struct metac_entry` only, octal, hexadecimal and universal escapes count as not compiling, keywords are not excluded as ids (ids end in a number); the body of the `_va_arg` functions is left out; alignment, linkage, level, lower bound, hierarchy are in C77 but not in the run-time descriptions of C78 |
| `GoSerial` | pkg/dwarfy/dwarf.go (unstructured, JSON, YAML) | what encoding/json and yaml.v3 give back for what they were given is a definition (`jsonVal`, `yamlVal`); the types debug/dwarf gives are the specification `Documented`/`Newer`; 64-bit machine; nil and empty slices are one |
| `GoModule` | pkg/module/module.go, pkg/module/gotemplate/gotemplate.go, cmd/run/run.go | the file system seen from a working directory is a record of functions and does not change; text/template is an arbitrary engine on a set of named bodies; filepath.Dir and Base are parameters; `/` as separator |
| `Ffi` | examples/c_ffi_call/value_ffi.c | libffi and the functions it calls are parameters (`Lib`): which descriptions it accepts, and what a function does with the arguments it gets; Linux on x86-64; the blocks made here are kept apart from C memory |
| `Links` | pkg/metadb/metadb.go:308-328 (the maps as the templates read them), modules/metac-test-gen/templates | the maps are read in any order (Go: by key); files and lines of declarations are related to the debug information by `Located`; the check library is a function from tests to results |
| `Lifecycle` | src/value_deep.c (copy, then free) | no new model: compositions of `DeepCopy` and `Deep`; released blocks are taken out of memory and of the list of live blocks |
| `Replay` | src/value_with_args.c and examples/c_ffi_call/value_ffi.c together | no new model: composition of `WrapCall`, `PrintfCall` and `Ffi`; that the blocks of a storage are at addresses in memory is a relation (`Held`) |
| `Trace` | examples/c_print_args/print_args.h 8-71, on top of `WrapCall`, `Handles` and `ValueString` | the caller's expressions and the function are parameters; capture of the macros' own variables by the expressions, the function's own heap and the transient blocks of the printer are left out |
| `Alt` | examples/c_print_args_alt/print_args.h 9-253, on top of `Trace`, `WrapCall` and `Value` | expressions without effects; string literals are recognised as such; the preprocessor's own limits (number of arguments, arrays and functions as arguments, names captured by the macro) are left out |
| `Macro` | examples/c_print_args_alt/mr.h 9-25, mr_pp.generated.h 4-3087, print_args.h 101-208 as a loop over arguments | macro arguments are wholes: no tokens, no prescan; limits of compilers are left out |
| `DemoDb` | doc/demo/step_00 to step_05 demodb.c (the same file in all) | `realloc` always moves; the address of a record that is not there yet may be taken; the names of a person are read when copied only |
| `Inherit` | include/metac/inherit.h | members are names with a size and an alignment; no bit-fields; the rules for layout are those of the x86-64 ABI; names of members are not checked to be different |
| `TagGen` | include/metac/reflect/entry_tag.h 202-282, 414 (macros that make tag map functions, entries of types) | the entry expressions of sections (other than for types, ModelTypes) and the contexts made by tag expressions are given; the rest as in `TagMap` and `Entry` |
| `GoFuncs` | pkg/module/gotemplate/funcs/funcs.go 117-131, gotemplate.go 108-123 | functions are opaque; the functions of the generic map themselves are not modelled here (see `GoSerial`, `GoDwarf`, `GoDedup`) |
| `PrintfText` | nothing new: composes `PrintfCall`, `Handlers`, `ValueString` and `Trace` | the stored parameters are in memory as `Held` (area Replay) says; the text of floating-point numbers and addresses is the C library's |
| `Queries` | src/entry.c 245-311, 343-345, 394-416, 467-469, 495-497, 536-538, 617-637, 655-660; src/value.c 237-290, 380-398, 415-434, 451-473, 510-513, 590-612, 774-777; src/value_base_type.c 13-116 | output pointers are not NULL; `metac_entry_is_va_list_parameter` is in `CDecl`, `metac_entry_has_parameter_load` in `Handlers` |
| `Tell` | nothing new: about the text of area `ValueString` | how the C library writes numbers and addresses is a hypothesis (`Formats`) |
| `SameText` | nothing new: about the areas `Deep` and `ValueString` | that equal floating-point numbers have equal texts is a hypothesis (`Data.reals`) |

### Not modelled

* Threads: the library has no synchronisation (locks are compiled out) and promises nothing about concurrent use.
* include/metac/reqresp.h, va_list_ex.h: macros that only rename or wrap compiler features.
* mk/, main.go, cmd/ but for cmd/run, the templates of modules/ not named above: build, command line.
* src/*_test.c, pkg/*/*_test.go, examples other than those named above.

### Where the code disagrees with the property

Each is a theorem with a name ending in `_false` (or a general negation), listed in MANIFEST.json with the claim:
* C69: a place of declaration in a static function of a header that two units include makes the generation fail.
* C70: responses ignore the module, so two modules requesting the same symbol do not link; a namespace with a function in it makes the generation fail.
* C71: the database is defined as an object and read as a pointer.
* C76: a comma is missing after the count of imports; strides use a type that does not exist; ids of C++ templates are not names of C; unknown encodings and languages.
* C77: names with quotes or backslashes.
* C83-C86: an empty table of files, classes of DWARF 5 in YAML, large numbers and other encodings in JSON, null entries (panic).
* C88-C91: no fallback to later search paths; a failing template leaves the process in the other directory and a missing one is ignored; included modules of another kind are left out; leftovers of a path that failed.
* C93, C94, C96: unions, bit-fields and `__int128` for libffi; functions without result; small types and structures in `...`; leaks after errors.
* **C104**: if pointers to something unknown are dropped: the address is printed for the source and NULL for the copy (C104_unknown_false). Theorems: `Lifecycle.C104_unknown_false`.
* **C105**: for small integers in `...`: `%c` is kept as one byte and passed as one byte, not as an int (C105_char_false). Theorems: `Replay.C105_char_false`.
* **C106**: if the arguments have effects: the macros evaluate them twice, print the first values and pass the second (C106_twice_false; C106_evaluated_twice says exactly what happens); and for functions without type information every call leaks a handle (C106_unlinked_false). Theorems: `Trace.C106_twice_false`, `Trace.C106_unlinked_false`.
* **C107**: for a variadic call without variable arguments: it has no text (C107_no_dots_false). Theorems: `Trace.C107_no_dots_false`.
* **C108**: an argument of a smaller type than the parameter is read past its end (C108_narrow_false), one of another type is recorded unconverted (C108_reinterpreted_false), a const parameter is recorded as zero (C108_const_false), a va_list on x86-64 is undefined (C108_va_list_false), and an argument for which memory runs out is left out silently (C108_memory_false). Theorems: `Alt.C108_narrow_false`, `Alt.C108_reinterpreted_false`, `Alt.C108_const_false`, `Alt.C108_va_list_false`, `Alt.C108_memory_false`.
* **C109**: for a format without conversion specifications: the call has no text (C109_no_conversions_false). Theorems: `PrintfText.C109_no_conversions_false`.
* **C11**: appending after the queue was drained aborts (witness proved); partial theorem for all other cases. 
* **C111**: signed char (int8_t) is not among the types the library knows, so such objects cannot be compared, copied, read or printed (C111_signed_char_false, for every such object). Theorems: `Queries.C111_signed_char_false`.
* **C113**: for zero and minus zero (found equal, printed with their signs: C113_zero_false) and where pointers that are not followed are ignored in comparisons (C113_ignored_false). Theorems: `SameText.C113_ignored_false`, `SameText.C113_zero_false`.
* **C114**: for parameters declared with another name for va_list (a typedef of it): they are not recognised (C114_alias_false). Theorems: `CDecl.C114_alias_false`.
* **C115**: for more than 1022 arguments: the 1023rd argument is taken for their number (C115_many_false). Theorems: `Macro.C115_many_false`.
* **C116**: when a record is removed that has two or more behind it: memcpy is used on overlapping places, which is undefined (C116_remove_false). Theorems: `DemoDb.C116_remove_false`.
* **C118**: in two points: the context made for a tag that is refused is not released (C118_context_false), and a failed append leaves the tags set before the failure in the map (C118_append_false). Theorems: `TagGen.C118_context_false`, `TagGen.C118_append_false`.
* **C119**: for names that are in the map already: they are replaced, although skipping is reported (C119_skip_false). Theorems: `GoFuncs.C119_skip_false`.
* **C120**: in programs with a backslash in a file name: the generated table is not in order, and the type is not found (C120_backslash_false, see C51). Theorems: `TagGen.C120_backslash_false`.
* **C121**: where memory runs out for an argument: it is left out and nothing is reported (C108_memory_false). Theorems: `Alt.C108_memory_false`.
* **C14**: for the flags 0 and space (width read as octal), for *, j/z/t and for numbers beyond int (witnesses proved); proved for every other specification, and rejection proved for every string. 
* **C15**: when a specification is directly followed by % (witnesses); proved for all other formats; memory safety proved for every string without ten digits in a row. Theorems: `Printf.C15_adjacent_false`, `Printf.C15_percent_after_false`.
* **C16**: for %%, adjacent specifications, %s arguments of 8 or more characters (buffer overflow) and %lf (witnesses proved); proved for all other formats. 
* **C21**: for fields of 31 bits or more (undefined behaviour, proved for every such field) and for packed fields that straddle the bytes of their type (witness); proved for all other widths, positions, values and memory contents. Theorems: `Value.C21_straddle_false`.
* **C22**: for fields ending more than 32 bits after the start of their first byte (witness: five neighbouring bits are cleared); proved for all others up to 30 bits. Theorems: `Value.C22_neighbour_false`.
* **C23**: for arrays of 2^31 elements or more (count truncated to int, witness); proved for all other arrays and for members. Theorems: `Value.C23_count_false`.
* **C24**: for const objects other than directly const base-type objects (witnesses: member of a const struct, const enumeration, const pointer are written); the rest proved for all types. Theorems: `Value.C24_member_const_false`, `Value.C24_enumeration_const_false`, `Value.C24_pointer_const_false`.
* **C25**: for unsigned enumerations with values in the upper half and for enumeration bit-fields (witnesses); proved for all signed values, sizes and memory contents. Theorems: `Value.C25_unsigned_false`, `Value.C25_bitfield_false`.
* **C26**: for values outside int, which are truncated without an error (witness); proved for all representable values. Theorems: `Value.C26_truncation_false`.
* **C29**: when a pointer leads into the value itself (its own memory is not among the ranges: an address inside it is freed) and for empty objects inside a block (freed although interior): two witnesses. Theorems: `Deep.C29_root_false`, `Deep.C29_empty_false`.
* **C30**: an object inside a block reached by two pointers is never copied; a const member makes the copy fail; NULL is not written in the fail and one-byte modes (stale destination, success reported); a pointer into the source itself gets a second copy; a block of another allocator is given to free if the block table cannot grow; tree mode leaks and misuses free on failure (seven theorems, general where possible). Theorems: `DeepCopy.C30_inner_false`, `DeepCopy.C30_const_false`, `DeepCopy.C30_null_false`, `DeepCopy.C30_put_false`, `DeepCopy.C30_root_false`, `DeepCopy.C30_tree_leak_false`, `DeepCopy.C30_tree_free_false`.
* **C31**: sharing is not compared; with pointers ignored NULL and an unknown pointer are equal; with pointers compared as values equal cyclic data at different addresses are unequal; a NaN makes a value unequal to itself (four witnesses). Theorems: `Deep.C31_sharing_false`, `Deep.C31_null_false`, `Deep.C31_nan_false`, `Deep.C31_loop_false`.
* **C33**: when an external map has no answer: the assertion fails instead of going on (witness, and proved for every such map); proved in all other cases. Theorems: `TagMap.C33_ext_false`.
* **C36**: for selector fields whose value does not fit int: metac_value_num truncates, so a 64-bit selector of 2^32+1 chooses the member of the case for 1 (witness). Theorems: `Handlers.C36_wide_selector_false`.
* **C37**: for counts that do not fit int (truncated: witness with 2^32+1 giving 1 element). Theorems: `Handlers.C37_wide_count_false`.
* **C38**: Full behaviour proved for all histories and allocation failures; the one deviation (a nested storage whose allocation failed is accepted as NULL) makes the claim FALSE under allocation failure, witness proved. 
* **C40**: in seven cases, each with a witness: the iterator cannot be allocated (NULL dereferenced), variable arguments without a handler (leak; the next parameter gets the va_list), a struct without a generated fetch function (double free), a struct passed in floating-point registers, a value that is no function (handle kept, unlike other failures), a storage that is not empty. 
* **C41**: for arrays of about 2^30 characters and more: the length of the escaped text is computed in an int and overflows (C41_huge_false, for every such array of quotation marks). Theorems: `PrintString.C41_huge_false`.
* **C42**: Exactly one placeholder (none for variables and functions): proved for every finite, sound description. Theorems: `CDecl.C42_pointer_to_array_false`, `CDecl.C42_two_qualifiers_false`, `CDecl.C42_qualified_array_false`, `CDecl.C42_returned_function_false`.
* **C44**: for texts of INT_MAX characters or more (witness proved); proved for all shorter texts; trimming proved in full. Theorems: `Str.C44_huge_false`.
* **C49**: The property is FALSE of the code; the theorem proves the negation for every input. 
* **C51**: for paths with backslashes (witness proved); proved for all other paths. 
* **C52**: for arrays of 2^31 or more elements (count returned as int, witness); all else proved. 
* **C56**: when hashmapPut fails for lack of memory: the copied tag string leaks (witness); proved for all other histories, including failures of all other allocations. Theorems: `TagMap.C56_leak_false`.
* **C57**: for strings of 2^31-1 or more characters: strlen+1 is put into an int and the array gets a negative length (witness). Theorems: `Handlers.C57_long_string_false`.
* **C59**: when the named count field does not exist: metac_value_delete is applied to NULL, which dereferences it (proved for every such context). Theorems: `Handlers.C59_missing_count_false`.
* **C60**: for the quote and backslash characters, which are printed unescaped (proved for every such object); proved for all other objects, bit-fields (under the conditions of C26) too, alone and inside printed values. Theorems: `ValueString.C60_char_false`.
* **C62**: structures that differ in what their pointers refer to are merged because references to named types are compared by name (witness: two units with different struct B behind struct A), and so are structures whose bit-fields (DW_AT_bit_offset) are in different bytes (witness). Theorems: `GoDedup.C62_names_false`, `GoDedup.C62_fields_false`.
* **C63**: for types nested in types and referred to from elsewhere (C++ nested classes: C63_false; arrays of three dimensions, in plain C: C63_dims_false): for some map orders a link ends with an empty identifier (witnesses). Theorems: `GoDedup.C63_false`, `GoDedup.C63_dims_false`.
* **C64**: identifiers of unnamed types depend on the map order (witness: two unnamed enumerations exchange identifiers). Theorems: `GoDedup.C64_false`.
* **C67**: long unsigned, long long signed and similar spellings stay as they are (in the table long unsigned has a space at its end). Theorems: `GoBuild.C67_false`.
* **C69**: a static function with a place of declaration in a header included by two units makes the whole generation fail (witness; general: C69_repeats). Theorems: `Generate.C69_header_false`.
* **C70**: the definitions of all modules are written under the name of the module compiled for (witness: two modules, none of the symbols is defined exactly once), and a namespace with a function in it makes the generation fail. Theorems: `Generate.C70_modules_false`, `Generate.C70_namespace_false`.
* **C71**: for every program: the header declares the symbol as a pointer, the generated file defines it as the structure, so reading it through METAC_DB_LINK_PTR is undefined. Theorems: `Generate.C71_link_false`.
* **C73**: when only the handle of a call with parameters cannot be allocated, the storage of the parameters is lost (C73_call_params_leak_false), and deleting a NULL handle is undefined (C73_delete_null_false; other delete functions accept NULL). Theorems: `Handles.C73_call_params_leak_false`, `Handles.C73_delete_null_false`.
* **C74**: every string of 8 or more characters is written beyond its 8-byte buffer (C74_long_string_false), and the description made for a string is lost when the parameter cannot be appended (C74_leak_false). Theorems: `PrintfCall.C74_long_string_false`, `PrintfCall.C74_leak_false`.
* **C76**: any import (using namespace) makes the file invalid (C76_imports_false, a comma is missing in _import.tpl), and so do strides, unknown encodings and languages, structures without size, C++ ids with <>, names with escapes, arrays of void, links to objects that were not added (C76_compiles_false). Theorems: `Emit.C76_imports_false`, `Emit.C76_compiles_false`.
* **C77**: names with quotes or backslashes compile to other names (C77_name_false). Theorems: `Emit.C77_name_false`.
* **C79**: of `int m[2][3][4]` in two units a program can be told that the second dimension has no elements (C79_dims_false), and a typedef of a structure that another unit only declares can be one of zero bytes without members (C79_opaque_false); both depend on the order of Go maps. Theorems: `Chain.C79_dims_false`, `Chain.C79_opaque_false`.
* **C80**: for arrays of three dimensions in two units: for some orders of the Go maps the file does not compile (witness). Theorems: `Chain.C80_dims_false`.
* **C83**: for a unit with an empty table of files (it comes back without a table). Theorems: `GoSerial.C83_unstructured_false`.
* **C84**: for attributes of the classes of DWARF 5 and separate debug files (ClassAddrPtr, ClassStrOffsetsPtr, ClassRngListsPtr, ...): the value comes back as int instead of int64. Theorems: `GoSerial.C84_yaml_false`.
* **C85**: for numbers of more than 53 significant bits (enumerators, addresses), names that are not UTF-8, and empty blocks. Theorems: `GoSerial.C85_json_number_false`, `GoSerial.C85_json_text_false`, `GoSerial.C85_json_block_false`.
* **C86**: a document with a null entry or field panics, and keys of more than 32 bits are cut, so that two of them can be one entry. Theorems: `GoSerial.C86_document_false`, `GoSerial.C86_offsets_false`.
* **C88**: the factory of templates never refuses, and the file is read at the first run only, when the search path is chosen already. Theorems: `GoModule.C88_fallback_false`.
* **C89**: a failing template leaves the process in the other directory; a directory that does not exist is ignored and the template is executed where the process is. Theorems: `GoModule.C89_directory_false`, `GoModule.C89_missing_false`.
* **C90**: with several kinds of modules an included module of another kind is left out silently; what was parsed of a search path that failed midway stays. Theorems: `GoModule.C90_kind_false`, `GoModule.C90_rest_false`.
* **C91**: after a template that failed in another directory (C89): relative search paths are not found any more. Theorems: `GoModule.C91_again_false`.
* **C93**: unions are described as their first largest member (wrong class of registers for union {double; long}); bit-fields overflow the list of elements; base types unknown to libffi (__int128) give code 0 without a description, which cuts off structures and leaks. Theorems: `Ffi.C93_union_false`, `Ffi.C93_bitfield_false`, `Ffi.C93_int128_false`.
* **C94**: functions without result are undefined (NULL result type), char/short/float in `...` are not promoted, structures in `...` arrive as pointers, a failed request for the third block of arguments is not noticed and NULL is written to (C94_null_false). Theorems: `Ffi.C94_void_false`, `Ffi.C94_promotion_false`, `Ffi.C94_variadic_struct_false`, `Ffi.C94_null_false`.
* **C96**: after an error the description of the result stays allocated. Theorems: `Ffi.C96_leak_false`.
* **C98**: FALSE in general: several modules and namespaces break it (C70_modules_false, C70_namespace_false). 
* **C99**: FALSE in general: requests of one header in two units stop the generator (C69_header_false), backslashes break the table (C51). 

## Axioms

* **no axioms** (13): `ParamStorage.C38_null_storage`, `GoOverride.C47_bad_override`, `GoOverride.C47_null_override_panics`, `Generate.C68_everything_unique`, `Handles.C72_ptr_cast_needs_selector`, `Handles.C72_delete_null`, `Handles.C73_new_null`, `GoModule.C88_fallback_false`, `GoModule.C89_directory_false`, `GoModule.C89_missing_false`, `GoModule.C90_kind_false`, `GoModule.C90_rest_false`, `GoModule.C91_again_false`.
* **propext** (16): `Hashmap.C04_forEach_prefix`, `Macro.C115_for`, `DemoDb.C116_outside`, `DemoDb.C116_null`, `ParamStorage.C38_null_nested_accepted`, `ParamStorage.C39_copy_after_failure_ub`, `WrapCall.C40_bytes_unique`, `GoMeta.C48_no_subrange`, `GoBuild.C67_false`, `Handles.C73_call_params_leak_false`, `Handles.C73_delete_null_false`, `GoSerial.C86_unstructured_partial`, `GoSerial.C86_document_false`, `GoSerial.C86_offsets_false`, `GoModule.C87_refused`, `GoModule.C89_directory_partial`.
* **Quot.sound, propext** (48): `Hashmap.C06_free_each_once`, `Queries.C110_places`, `Macro.C115_count_partial`, `Macro.C115_each_partial`, `Macro.C115_nested_partial`, `Macro.C115_comma`, `Macro.C115_many_false`, `Inherit.C117_both`, `Inherit.C117_first`, `Inherit.C117_size`, `Inherit.C117_levels`, `Inherit.case117`, `GoFuncs.C119_append_partial`, `GoFuncs.C119_skip_false`, `GoFuncs.C119_instance`, `Printf.C14_star_refused`, `Entry.C20_other_cases`, `TagString.C35_lookup`, `TagString.C35_sound`, `ParamStorage.C38_index`, `ParamStorage.C39_delete_frees_once`, `Str.C44_huge_false`, `GoOverride.C47_merge`, `GoOverride.C47_empty`, `GoOverride.C47_self`, `GoOverride.C47_order`, `GoOverride.C47_all`, `GoMeta.C48_refused`, `EntryDb.C51_backslash_breaks_lookup`, `GoDwarf.C65_tree`, `GoDwarf.C65_errors`, `GoDwarf.C65_links`, `Generate.C71_generated`, `Handles.C72_container_of_released`, `Handles.C72_union_select_bad_size`, `Emit.C76_imports_false`, `Emit.C76_compiles_false`, `Emit.C77_name_false`, `GoSerial.C84_yaml_false`, `GoSerial.C85_json_number_false`, `GoSerial.C85_json_text_false`, `GoSerial.C85_json_block_false`, `GoSerial.C86_document_partial`, `GoModule.C87_inside`, `GoModule.C87_first`, `GoModule.C87_command`, `GoModule.C88_fallback_partial`, `GoModule.C91_again_partial`.
* **Classical.choice, Quot.sound, propext** (394): `Hashmap.C01_hashmap_is_dictionary`, `Hashmap.C02_size_counts_distinct_keys`, `Hashmap.C02_collisions`, `Hashmap.C03_create_power_of_two`, `Hashmap.C03_index_in_range`, `Hashmap.C05_memoize_once`, `Hashmap.C06_expand_keeps_contents`, `Hashmap.C06_load_bound`, `Iterator.C07_resumed_only_when_deps_ended`, `Iterator.C08_next_is_depth_first`, `Iterator.C09_append_at_end`, `Iterator.C09_dequeue_fifo`, `Iterator.C09_get_dep_out`, `Iterator.C10_fold_is_recursion`, `Links.C100_tests`, `Lifecycle.C101_copy_free_partial`, `Lifecycle.C101_untagged_partial`, `Lifecycle.C102_source_partial`, `Lifecycle.C102_copy_partial`, `Lifecycle.C102_both_partial`, `Lifecycle.C103_objects`, `Lifecycle.C103_print`, `Lifecycle.C103_deep`, `Lifecycle.C103_handlers`, `Lifecycle.C104_print_partial`, `Lifecycle.C104_untagged_partial`, `Lifecycle.C104_later_partial`, `Lifecycle.C104_later_untagged_partial`, `Lifecycle.C104_unknown_false`, `Replay.C105_recorded_partial`, `Replay.C105_printf_partial`, `Replay.C105_char_false`, `Trace.C106_traced_partial`, `Trace.C106_void_partial`, `Trace.C106_evaluated_twice`, `Trace.C106_void_evaluated_twice`, `Trace.C106_twice_false`, `Trace.C106_unlinked_false`, `Trace.C107_call`, `Trace.C107_tells`, `Trace.C107_numbers_partial`, `Trace.C107_data`, `Trace.C107_no_dots_false`, `Alt.C108_alt_partial`, `Alt.C108_narrow_false`, `Alt.C108_reinterpreted_false`, `Alt.C108_const_false`, `Alt.C108_va_list_false`, `Alt.C108_memory_false`, `PrintfText.C109_text_partial`, `PrintfText.C109_recorded_partial`, `PrintfText.C109_demo`, `PrintfText.C109_no_conversions_false`, `Iterator.C11_append_after_drain_aborts`, `Iterator.C11_append_never_aborts_partial`, `Queries.C110_types`, `Queries.C110_null`, `Queries.C110_nothing`, `Queries.C110_details`, `Queries.C110_arithmetic`, `Queries.C110_values`, `Queries.C110_value_details`, `Queries.C110_case`, `Queries.C111_known_partial`, `Queries.C111_signed_char_false`, `Queries.C111_case`, `Tell.C112_tells_partial`, `Tell.C112_prefix_partial`, `Tell.C112_integers`, `Tell.C112_enumerations`, `Tell.C112_pointers`, `Tell.C112_structs`, `SameText.C113_equal_partial`, `SameText.C113_untagged_partial`, `SameText.C113_different_partial`, `SameText.C113_ignored_false`, `SameText.C113_zero_false`, `CDecl.C114_recognised_partial`, `CDecl.C114_other`, `CDecl.C114_alias_false`, `Macro.C115_recorded_partial`, `DemoDb.C116_new`, `DemoDb.C116_append`, `DemoDb.C116_remove_partial`, `DemoDb.C116_remove_false`, `DemoDb.C116_delete`, `DemoDb.C116_history_partial`, `DemoDb.C116_life_partial`, `Inherit.C117_layers`, `TagGen.C118_new`, `TagGen.C118_outcome`, `TagGen.C118_memory_partial`, `TagGen.C118_append_partial`, `TagGen.C118_append_null`, `TagGen.C118_context_false`, `TagGen.C118_append_false`, `TagGen.case118`, `GoFuncs.case119`, `Iterator.C12_level_and_get_in`, `TagGen.C120_section_partial`, `TagGen.C120_entry_partial`, `TagGen.C120_names_partial`, `TagGen.C120_backslash_false`, `TagGen.case120`, `Alt.C121_untagged_partial`, `Alt.C121_more_partial`, `Alt.C121_unlinked_partial`, `Alt.case121_untagged`, `Alt.case121_more`, `Alt.case121_unlinked`, `EntryDb.C13_lookup_unique`, `Printf.C14_parse_partial`, `Printf.C14_recognised`, `Printf.C14_rejects`, `Printf.C14_success_is_specification`, `Printf.C14_zero_flag_is_octal`, `Printf.C14_space_flag_is_zero_flag`, `Printf.C14_z_taken_as_conversion`, `Printf.C14_huge_width_undefined`, `Printf.C15_count_partial`, `Printf.C15_count_safe`, `Printf.C15_adjacent_false`, `Printf.C15_percent_after_false`, `Printf.C16_collect_partial`, `Printf.C16_long_string_overflows`, `Printf.C16_percent_breaks_collection`, `Printf.C16_percent_breaks_strings`, `Printf.C16_adjacent_lost`, `Printf.C16_lf_refused`, `Entry.C17_byte_size`, `Entry.C17_size_unique`, `Entry.C18_final_entry`, `Entry.C19_members`, `Entry.C19_parameters`, `Entry.C19_enumerators`, `Entry.C19_no_enumerators`, `Entry.C19_path`, `Entry.C19_parameter_path`, `Entry.C20_offsets`, `Value.C21_write_read_partial`, `Value.C21_read_partial`, `Value.C21_wide_undefined`, `Value.C21_straddle_false`, `Value.C22_other_bits_partial`, `Value.C22_neighbour_false`, `Value.C23_elements_partial`, `Value.C23_count_false`, `Value.C23_count_refused`, `Value.C23_members`, `Value.C24_typed_access_partial`, `Value.C24_member_const_false`, `Value.C24_enumeration_const_false`, `Value.C24_pointer_const_false`, `Value.C25_round_trip_partial`, `Value.C25_string`, `Value.C25_equal`, `Value.C25_copy`, `Value.C25_unsigned_false`, `Value.C25_bitfield_false`, `Value.C26_num_partial`, `Value.C26_bitfield_partial`, `Value.C26_truncation_false`, `Value.C27_equal`, `Value.C27_copy`, `Value.C27_null`, `Value.C28_introduced_loop`, `Value.C28_walk_no_repeat`, `Deep.C29_free_partial`, `Deep.C29_root_false`, `Deep.C29_empty_false`, `DeepCopy.C30_copy_partial`, `DeepCopy.C30_equal_partial`, `DeepCopy.C30_equal_untagged_partial`, `DeepCopy.C30_failure`, `DeepCopy.C30_types`, `DeepCopy.C30_inner_false`, `DeepCopy.C30_const_false`, `DeepCopy.C30_null_false`, `DeepCopy.C30_put_false`, `DeepCopy.C30_root_false`, `DeepCopy.C30_tree_leak_false`, `DeepCopy.C30_tree_free_false`, `DeepCopy.C30_tree_partial`, `Deep.C31_equal_partial`, `Deep.C31_fails`, `Deep.C31_reflexive_partial`, `Deep.C31_symmetric`, `Deep.C31_transitive`, `Deep.C31_sharing_false`, `Deep.C31_null_false`, `Deep.C31_nan_false`, `Deep.C31_loop_false`, `Deep.C32_attribution`, `Deep.C32_determined`, `TagMap.C33_lookup_partial`, `TagMap.C33_determined`, `TagMap.C33_lookup_plain`, `TagMap.C33_ext_false`, `TagMap.C34_history`, `TagMap.C34_lookup`, `TagMap.C34_simple`, `Handlers.C36_select_partial`, `Handlers.C36_constant`, `Handlers.C36_refused`, `Handlers.C36_wide_selector_false`, `Handlers.C37_count_by_partial`, `Handlers.C37_parameters_partial`, `Handlers.C37_refused`, `Handlers.C37_wide_count_false`, `ParamStorage.C38_append_history_partial`, `ParamStorage.C38_failed_append_changes_nothing`, `ParamStorage.C39_no_leak`, `ParamStorage.C39_copy_partial`, `WrapCall.C40_wrap_partial`, `WrapCall.C40_nothing_left_partial`, `WrapCall.C40_types`, `WrapCall.C40_not_a_function`, `WrapCall.C40_iterator_ub`, `WrapCall.C40_no_handler_leaks`, `WrapCall.C40_no_handler_wrong_argument`, `WrapCall.C40_struct_double_free`, `WrapCall.C40_struct_in_registers`, `WrapCall.C40_not_a_function_leaks`, `WrapCall.C40_storage_reused`, `PrintString.C41_literal_partial`, `PrintString.C41_distinct_partial`, `PrintString.C41_no_trigraph_partial`, `PrintString.C41_not_literal_partial`, `PrintString.C41_no_memory_partial`, `PrintString.C41_huge_false`, `CDecl.C42_one_placeholder`, `CDecl.C42_unsupported`, `CDecl.C42_named`, `CDecl.C42_declares_partial`, `CDecl.C42_variable_partial`, `CDecl.C42_function_partial`, `CDecl.C42_pointer_to_array_false`, `CDecl.C42_two_qualifiers_false`, `CDecl.C42_qualified_array_false`, `CDecl.C42_returned_function_false`, `ValueString.C43_shown`, `ValueString.C43_balanced`, `ValueString.C43_total`, `Str.C44_dsprintf_partial`, `Str.C44_trim`, `BsdList.C45_list`, `BsdList.C45_remove_local`, `GoMeta.C46_unique`, `GoMeta.C46_found`, `GoMeta.C46_reserved`, `GoMeta.C46_text`, `GoMeta.C46_stem`, `GoMeta.C48_dimensions`, `Hashmap.C49_mix_always_undefined`, `Iterator.C50_state_changes`, `EntryDb.C51_generated_table_partial`, `Entry.C52_accessors_partial`, `Entry.C52_count_truncated`, `Entry.C52_new_element_count`, `Entry.C53_check_base_type`, `Value.C54_pointer_objects`, `Value.C55_element_count_value`, `TagMap.C56_release_partial`, `TagMap.C56_leak_false`, `Handlers.C57_string_partial`, `Handlers.C57_long_string_false`, `Handlers.C58_container_of`, `Handlers.C59_cast_partial`, `Handlers.C59_missing_count_false`, `ValueString.C60_text_partial`, `ValueString.C60_content_partial`, `ValueString.C60_bitfield_partial`, `ValueString.C60_printed_partial`, `ValueString.C60_char_false`, `ValueString.C60_other`, `GoDedup.C61_merged`, `GoDedup.C61_found`, `GoDedup.C62_same_partial`, `GoDedup.C62_names_false`, `GoDedup.C62_fields_false`, `GoDedup.C63_links_partial`, `GoDedup.C63_false`, `GoDedup.C63_dims_false`, `GoDedup.C64_order_partial`, `GoDedup.C64_false`, `GoBuild.C66_objects`, `GoBuild.C66_names`, `GoBuild.C66_start`, `GoBuild.C66_merged`, `GoBuild.C66_imports_hang`, `GoBuild.C66_imports_false`, `GoBuild.C66_code_panic`, `GoBuild.C67_names_partial`, `Generate.C68_requests`, `Generate.C68_succeeds`, `Generate.C69_lookup_partial`, `Generate.C69_generated_iff`, `Generate.C69_repeats`, `Generate.C69_header_false`, `Generate.C70_definitions_partial`, `Generate.C70_linked_partial`, `Generate.C70_modules_false`, `Generate.C70_namespace_false`, `Generate.C71_tables_partial`, `Generate.C71_link_false`, `Handles.C72_count_by_made`, `Handles.C72_count_by_released`, `Handles.C72_container_of_made`, `Handles.C72_union_permanent_made`, `Handles.C72_union_select_made`, `Handles.C72_union_released`, `Handles.C72_ptr_cast_made`, `Handles.C72_ptr_cast_released`, `Handles.C73_new`, `Handles.C73_delete`, `Handles.C73_copy`, `Handles.C73_element_count`, `Handles.C73_call_params_partial`, `Handles.C73_call_params_delete`, `Handles.C73_call_result`, `Handles.C73_call_no_result`, `Handles.C73_call_result_delete`, `PrintfCall.C74_collect_partial`, `PrintfCall.C74_no_storage`, `PrintfCall.C74_long_string_false`, `PrintfCall.C74_leak_false`, `PrintfCall.C75_call_partial`, `Emit.C76_compiles_partial`, `Emit.C76_ids`, `Emit.C77_entries_partial`, `Emit.C78_loadable`, `Emit.C78_kind_partial`, `Emit.C78_size_partial`, `Emit.C78_members_partial`, `Emit.C78_bitfields_partial`, `Emit.C78_parameters_partial`, `Emit.C78_enumerators_partial`, `Emit.C78_links_partial`, `Emit.C78_parents_partial`, `Emit.C78_parents_members_partial`, `Emit.C78_parents_parameters_partial`, `Chain.C79_entries_partial`, `Chain.C79_structures_partial`, `Chain.C79_enumerations_partial`, `Chain.C79_pointers_partial`, `Chain.C79_aliases_partial`, `Chain.C79_base_partial`, `Chain.C79_functions_partial`, `Chain.C79_arrays_partial`, `Chain.C79_dims_false`, `Chain.C79_opaque_false`, `Chain.C80_compiles_partial`, `Chain.C80_program_partial`, `Chain.C80_dims_false`, `Chain.C81_parents`, `Chain.C81_own`, `Chain.C81_units`, `Chain.C81_members`, `Chain.C81_parameters`, `Chain.C82_one`, `Chain.C82_parents`, `GoSerial.C83_unstructured_partial`, `GoSerial.C83_unstructured_false`, `GoSerial.C84_yaml_partial`, `GoSerial.C85_json_partial`, `GoSerial.C85_numbers_partial`, `GoSerial.C86_offsets_partial`, `GoModule.C90_templates_partial`, `GoModule.C91_settings`, `DeepEnds.C92_map`, `DeepEnds.C92_free`, `DeepEnds.C92_equal`, `DeepEnds.C92_copy`, `DeepEnds.C92_print`, `DeepEnds.C92_handlers`, `DeepEnds.C92_union_reply`, `DeepEnds.C92_array_reply`, `Ffi.C93_describes_partial`, `Ffi.C93_unique`, `Ffi.C93_union_false`, `Ffi.C93_bitfield_false`, `Ffi.C93_int128_false`, `Ffi.C94_call_partial`, `Ffi.C94_refused`, `Ffi.C94_void_false`, `Ffi.C94_promotion_false`, `Ffi.C94_variadic_struct_false`, `Ffi.C94_null_false`, `Ffi.C95_result_partial`, `Ffi.C96_nothing_left_partial`, `Ffi.C96_leak_false`, `Links.C97_requests`, `Links.C98_symbols_partial`, `Links.C99_places_partial`.



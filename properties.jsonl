{"id": "C01", "title": "Allocations never overlap", "statement": "In one StickyImmixHeap, the address ranges (header + object/array + rounding) handed out by any two successful alloc / alloc_array calls are disjoint.", "quantifier": "every history of alloc and alloc_array calls of every size, every header size, every pattern of out-of-memory answers and every placement of blocks by the system allocator", "why_tests_cant": "the number of histories is unbounded; a test fixes sizes and one placement of blocks", "anchors": ["crates/stickyimmix/src/heap.rs: StickyImmixHeap::alloc, alloc_array, find_space, BlockList::overflow_alloc", "crates/stickyimmix/src/bumpblock.rs: BumpBlock::inner_alloc"]}
{"id": "C02", "title": "Allocations stay inside their block and off the metadata word", "statement": "Every successful allocation lies completely inside one 32 KiB block obtained from the system allocator and still owned by the heap, at or after byte offset 16, and the first word of every block still holds the pointer to that block's metadata, which is allocated and not freed, after any history.", "quantifier": "every history, every size, every block placement", "why_tests_cant": "needs every reachable cursor position of every block", "anchors": ["crates/stickyimmix/src/heap.rs: find_space, overflow_alloc", "crates/stickyimmix/src/bumpblock.rs: BumpBlock::new, write, inner_alloc", "crates/stickyimmix/src/constants.rs: FIRST_OBJECT_OFFSET, BLOCK_SIZE"]}
{"id": "C03", "title": "The heap behaves like a map from pointers to contents", "statement": "After any history of alloc, alloc_array and in-bounds writes through returned pointers, reading any object returns exactly the bytes last written to it (its initial value if never overwritten), and its header bytes are exactly the ones created at its allocation: no operation corrupts another object.", "quantifier": "every interleaving of allocations and writes, every object value, every block placement", "why_tests_cant": "heap corruption depends on the entire history; tests sample one", "anchors": ["crates/stickyimmix/src/heap.rs: StickyImmixHeap::alloc, alloc_array"]}
{"id": "C04", "title": "Arrays start zeroed", "statement": "alloc_array(n) returns a pointer to n bytes that are all zero, whatever garbage the system allocator handed out.", "quantifier": "every n that is accepted, every prior heap history and prior memory content", "why_tests_cant": "depends on arbitrary initial memory contents", "anchors": ["crates/stickyimmix/src/heap.rs: alloc_array"]}
{"id": "C05", "title": "Header and object addresses convert both ways", "statement": "For every pointer returned by alloc or alloc_array, get_header gives the address at which that object's own header was written, and get_object of that address gives the pointer back.", "quantifier": "every successful allocation in every history, every header size", "why_tests_cant": "header sizes and addresses are unbounded", "anchors": ["crates/stickyimmix/src/heap.rs: get_header, get_object, alloc"]}
{"id": "C06", "title": "The header records the true size and size class", "statement": "The header built for an allocation receives the exact object/array size in bytes (no truncation by the cast to u32), the size class of the rounded header+object size, and mark Allocated.", "quantifier": "every object size and array size for which the allocation succeeds", "why_tests_cant": "the cast to u32 could truncate for sizes no test uses", "anchors": ["crates/stickyimmix/src/heap.rs: alloc, alloc_array", "crates/stickyimmix/src/allocator.rs: AllocHeader::new, new_array, SizeClass"]}
{"id": "C07", "title": "Exact acceptance condition", "statement": "alloc/alloc_array of rounded total size r returns BadRequest exactly when r is 0 or r > 32752 (this covers large objects), and otherwise succeeds or returns OOM; it returns OOM only when the system allocator refused a block.", "quantifier": "every size, every heap state reachable by any history, every system allocator behaviour", "why_tests_cant": "boundary over all 2^64 sizes in all reachable states", "anchors": ["crates/stickyimmix/src/heap.rs: find_space, alloc, alloc_array", "crates/stickyimmix/src/allocator.rs: SizeClass::get_for_size", "crates/stickyimmix/src/constants.rs"]}
{"id": "C08", "title": "Allocation never panics", "statement": "No call of alloc or alloc_array panics (neither the assert nor any expect nor an overflow check fires), for any history, as long as header size + object size + 7 fits in usize.", "quantifier": "every history, every size, every system allocator behaviour, both overflow-check profiles", "why_tests_cant": "panic freedom is a statement about all reachable states", "anchors": ["crates/stickyimmix/src/heap.rs: expect(\"Unexpected error!\"), expect(\"We expected this object to fit!\"), assert! in overflow_alloc"]}
{"id": "C09", "title": "A failed allocation changes nothing", "statement": "If alloc or alloc_array returns an error (BadRequest or OOM), the heap's blocks, cursors and all memory are unchanged, so later calls behave as if the failed call had not happened.", "quantifier": "every reachable heap state, every failing request", "why_tests_cant": "needs every failure point in every state", "anchors": ["crates/stickyimmix/src/heap.rs: find_space, overflow_alloc (replace(.., BumpBlock::new()?))"]}
{"id": "C10", "title": "Header alignment, and when object pointers are aligned", "statement": "Every allocation's header address is a multiple of 8; the returned object pointers are multiples of 8 exactly when the size of the header type is (for any other header type every returned pointer is misaligned).", "quantifier": "every history, every header size and every object type", "why_tests_cant": "alignment depends on the header size, which the library does not choose", "anchors": ["crates/stickyimmix/src/heap.rs: alloc", "crates/stickyimmix/src/allocator.rs: alloc_size_of"]}
{"id": "C11", "title": "Rounding is the least multiple of the word size", "statement": "alloc_size_of(n) is the least multiple of 8 that is >= n, for every n up to usize::MAX - 7; above that it overflows (panic with overflow checks, 0 without, which is then refused).", "quantifier": "every usize value", "why_tests_cant": "2^64 inputs", "anchors": ["crates/stickyimmix/src/allocator.rs: alloc_size_of"]}
{"id": "C12", "title": "Size classes partition the sizes", "statement": "get_for_size returns Small exactly for 1..=128, Medium exactly for 129..=32752, Large exactly for 32753..=2^32-1 and BadRequest for everything else.", "quantifier": "every usize value", "why_tests_cant": "2^64 inputs", "anchors": ["crates/stickyimmix/src/allocator.rs: SizeClass::get_for_size", "crates/stickyimmix/src/constants.rs"]}
{"id": "C13", "title": "A hole contains only free lines", "statement": "If find_next_available_hole(p) returns (cursor, limit), then cursor < limit <= 32768, both are line boundaries not before the line of p, no line in the hole is marked, and the line just before the hole (when it is searched) is not a marked line whose last object may spill into the hole.", "quantifier": "every one of the 2^256 mark patterns and every start position", "why_tests_cant": "2^256 mark patterns", "anchors": ["crates/stickyimmix/src/blockmeta.rs: BlockMeta::find_next_available_hole"]}
{"id": "C14", "title": "The hole found is the first and the largest", "statement": "find_next_available_hole(p) returns the lowest usable run of lines at or after p's line, extended until the next marked line or the end of the block; it returns None exactly when no usable line remains.", "quantifier": "every mark pattern, every start position in the block", "why_tests_cant": "2^256 mark patterns", "anchors": ["crates/stickyimmix/src/blockmeta.rs: BlockMeta::find_next_available_hole"]}
{"id": "C15", "title": "Recycled blocks never hand out marked lines", "statement": "On a recycled block (limit set to the cursor) with any set of marked lines, every region returned by any sequence of inner_alloc calls lies within the block, in unmarked lines only, is disjoint from all regions returned before, and is never in the conservatively kept first line of a hole.", "quantifier": "every mark pattern, every sequence of request sizes", "why_tests_cant": "2^256 patterns times all request sequences", "anchors": ["crates/stickyimmix/src/bumpblock.rs: BumpBlock::inner_alloc", "crates/stickyimmix/src/blockmeta.rs: find_next_available_hole"]}
{"id": "C16", "title": "When the block's metadata pointer survives recycling", "statement": "On a recycled block, the regions handed out by inner_alloc never touch the first 16 bytes of the block, which hold the pointer to the block metadata, if and only if line 0 of the block is marked or the block is recycled from beyond line 0. (With line 0 unmarked the first request of at most 128 bytes is answered with the block's own start address.)", "quantifier": "every mark pattern, every sequence of request sizes", "why_tests_cant": "the failing pattern (line 0 unmarked) is one no test allocates into and inspects", "anchors": ["crates/stickyimmix/src/bumpblock.rs: BumpBlock::inner_alloc, BumpBlock::new", "crates/stickyimmix/src/blockmeta.rs: find_next_available_hole", "crates/stickyimmix/src/constants.rs: FIRST_OBJECT_OFFSET"]}
{"id": "C17", "title": "Block allocation terminates and fails only when full", "statement": "inner_alloc always terminates; it returns None only if the rest of the current hole and every later hole of the block are too small for the request; a fresh block serves any sequence of requests as long as their sum is at most 32752 bytes, and refuses exactly the first one that would exceed it.", "quantifier": "every block state, every request size, every request sequence", "why_tests_cant": "recursion depth and request sequences are unbounded", "anchors": ["crates/stickyimmix/src/bumpblock.rs: BumpBlock::inner_alloc"]}
{"id": "C18", "title": "Block::new accepts exactly powers of two", "statement": "Block::new(size) returns BadRequest exactly when size is not a power of two, else a block whose address has all bits below size clear, or OOM.", "quantifier": "every usize size, every system allocator behaviour", "why_tests_cant": "2^64 sizes", "anchors": ["crates/stickyimmix/src/blockalloc.rs: Block::new, internal::alloc_block"]}
{"id": "C19", "title": "Every block is freed exactly once, and only when the heap is dropped", "statement": "While the heap lives no block it obtained is returned to the system allocator, and no metadata box of a block is freed; dropping the heap returns each block exactly once with the size and alignment it was allocated with, and frees each metadata box exactly once.", "quantifier": "every history before the drop", "why_tests_cant": "use-after-free and double free depend on the entire history", "anchors": ["crates/stickyimmix/src/blockalloc.rs: impl Drop for Block, dealloc_block", "crates/stickyimmix/src/heap.rs: BlockList, StickyImmixHeap"]}
{"id": "C20", "title": "Block::into_mut_ptr returns a dangling pointer", "statement": "Block::into_mut_ptr returns the address of the block, but the block is given back to the system allocator before the call returns: after any program, the returned pointer points into no memory that is still allocated.", "quantifier": "every program of Block::new, drop and into_mut_ptr, every owned block, every system allocator (which may reuse freed memory)", "why_tests_cant": "the use after free is invisible to a test that does not touch the memory", "anchors": ["crates/stickyimmix/src/blockalloc.rs: Block::into_mut_ptr, impl Drop for Block"]}
{"id": "C21", "title": "Retired allocation blocks waste less than one line", "statement": "When small objects exhaust the current block and it is retired, fewer than 128 of its bytes are unused; medium objects that do not fit go to an overflow block and never retire the current one.", "quantifier": "every history", "why_tests_cant": "fragmentation bound over all histories", "anchors": ["crates/stickyimmix/src/heap.rs: find_space, overflow_alloc"]}
{"id": "C22", "title": "Line marks behave like a set", "statement": "After any sequence of mark_line, mark_block and reset, line i reads marked exactly when mark_line(i) was called since the last reset, and the block is marked exactly when mark_block was called since the last reset; mark_line panics exactly for i >= 256.", "quantifier": "every operation sequence, every index", "why_tests_cant": "unbounded sequences", "anchors": ["crates/stickyimmix/src/blockmeta.rs: BlockMeta::mark_line, mark_block, reset, line_iter"]}
{"id": "C23", "title": "Reads consume exactly what they report", "statement": "For every decoding entry point, the bytes consumed are a prefix of the input, file_position advances by exactly their number and never moves back, and position + remaining length is constant.", "quantifier": "every input, every decoder function, every decoder state", "why_tests_cant": "all inputs", "anchors": ["crates/brass/src/decoder.rs: Decoder::advance, read_bytes, read_index", "crates/brass/src/code.rs"]}
{"id": "C24", "title": "Fixed-width integers decode little-endian", "statement": "Decoding u8/i8/u16/i16/u32/i32/u64/i64 (and the bits of f64) from the little-endian encoding of any value returns that value and consumes exactly its width; with too few bytes it returns NoMoreData at the current position and consumes nothing.", "quantifier": "every value of every width, every remaining input", "why_tests_cant": "2^64 values", "anchors": ["crates/brass/src/decoder.rs: impl_decode!, Decode for f64, read_bytes"]}
{"id": "C25", "title": "Variable-length indexes round-trip below 0x2000 and only there", "statement": "read_index applied to the HashLink encoding of any integer n with |n| < 0x2000 returns n and consumes exactly its encoding; for every other integer the format can represent (0x2000 <= |n| < 2^29) it consumes the encoding but returns a different number.", "quantifier": "every representable n, every trailing input", "why_tests_cant": "2^30 values; the failing range is never reached by small test files", "anchors": ["crates/brass/src/decoder.rs: Decoder::read_index"]}
{"id": "C26", "title": "Header validation is exact", "statement": "Code::read on input whose first bytes are not 'HLB' returns InvalidBytecodeHeader, and on 'HLB' followed by a version outside 2..=5 returns UnsupportedBytecodeVersion, in each case with the position of the offending byte.", "quantifier": "every input", "why_tests_cant": "all inputs", "anchors": ["crates/brass/src/code.rs: Code::read"]}
{"id": "C27", "title": "Truncated files never decode, but may panic", "statement": "If Code::read accepts an input, then on every strict truncation of the consumed part it either returns Err(NoMoreData) or panics, nothing else; the empty input panics (so Code::read is not panic-free).", "quantifier": "every accepted input and every truncation point", "why_tests_cant": "all inputs; fuzzing samples", "anchors": ["crates/brass/src/code.rs: Code::read, UINDEX, INDEX, read_strings, get_type", "crates/brass/src/decoder.rs: read_index"]}
{"id": "C28", "title": "Truncated constant pools are reported as errors", "statement": "If the input ends inside the int pool or the float pool, Code::read returns Err(NoMoreData) (no panic, no Ok).", "quantifier": "every input with a well-formed header and a truncated int or float pool", "why_tests_cant": "all truncation points", "anchors": ["crates/brass/src/code.rs: Code::read lines 683-695"]}
{"id": "C29", "title": "Ok means no error was recorded", "statement": "Code::read returns Ok only if no decoding error whatsoever was recorded during the call.", "quantifier": "every input, every initial global error state", "why_tests_cant": "all inputs", "anchors": ["crates/brass/src/code.rs: ERRORS, check_error, map_err, Code::read"]}
{"id": "C30", "title": "A recorded error poisons later reads; otherwise reads are independent", "statement": "After a successful Code::read the next read depends only on its own input. After a read that recorded an error no later read ever returns Ok, and every later file whose header is well formed is answered with the stale error of the earlier file.", "quantifier": "every history of reads in a process", "why_tests_cant": "needs histories; each test runs read once", "anchors": ["crates/brass/src/code.rs: static mut ERRORS"]}
{"id": "C31", "title": "Trailing bytes are ignored and prefixes are not accepted as something else", "statement": "If Code::read accepts buf, it accepts buf followed by anything with the same result; hence no strict truncation of the consumed part is accepted.", "quantifier": "every accepted input, every suffix, every truncation point", "why_tests_cant": "all inputs", "anchors": ["crates/brass/src/code.rs: Code::read"]}
{"id": "C32", "title": "Int and float pools are decoded exactly", "statement": "On an accepted file ints[i] / floats[i] are the i-th little-endian words of the pools and the pool lengths equal nints / nfloats.", "quantifier": "every accepted input", "why_tests_cant": "all inputs", "anchors": ["crates/brass/src/code.rs: Code::read lines 683-695"]}
{"id": "C33", "title": "String pool round-trips", "statement": "read_strings on a pool of NUL-terminated valid UTF-8 strings followed by their sizes returns exactly these strings and their byte lengths, and stops right after the sizes, if each string is shorter than 0x2000 bytes and the pool shorter than 2^31 bytes; if some string is longer (but shorter than 2^29 bytes) it does not return the strings.", "quantifier": "every list of Unicode strings within the bounds, every trailing input, every decoder state", "why_tests_cant": "all string lists", "anchors": ["crates/brass/src/code.rs: Code::read_strings"]}
{"id": "C34", "title": "String pool has at most as many strings as declared", "statement": "On an accepted file strings.len() <= nstrings and strings_lens are the byte lengths of the strings; there are accepted files with fewer strings than declared, and in such a file a string reference below nstrings can make the read panic.", "quantifier": "every accepted input", "why_tests_cant": "the early break depends on the pool's bytes", "anchors": ["crates/brass/src/code.rs: read_strings, read_string, get_ustring"]}
{"id": "C35", "title": "What string lookups return", "statement": "A lookup get_ustring(i) returns the string held by slot i of the cache; if the slot is empty it returns string i and inserts it at slot i, which moves the contents of slot i and all later slots on by one (if string i is not present, it returns the empty string and inserts an empty slot). So any sequence of lookups in range runs without panic; a lookup of i returns one of the strings 0..=i; if no two strings are equal, all lookups are right exactly if each slot looked up is empty or holds its own index. Lookups in which each index was looked up before or is beyond all earlier ones are right. But looking up k, then a smaller i, then k+1 returns string k for the last one; there are accepted files with a wrong field name for this reason.", "quantifier": "every sequence of lookups", "why_tests_cant": "depends on lookup history; the cache shifts entries", "anchors": ["crates/brass/src/code.rs: Code::get_ustring"]}
{"id": "C36", "title": "Type references resolve to the referenced type, except forward references inside types", "statement": "In an accepted file every global, every native's and function's type and every register type is one of the declared types, and every type referred to by type i is one of the types before i or the default type. Reading a serialised module, reference j of type i resolves to type j if j < i and to the default type otherwise, and reference j of a global, native or function always resolves to type j.", "quantifier": "every accepted input, every reference", "why_tests_cant": "forward references only occur in some files", "anchors": ["crates/brass/src/code.rs: get_type, read_type, Code::read lines 730-747"]}
{"id": "C37", "title": "Decoded table lengths", "statement": "On an accepted file natives.len() == nnatives, functions.len() == nfunctions, constants.len() == nconstants, while types and globals have twice the declared length: the ntypes (nglobals) decoded entries followed by ntypes (nglobals) default types.", "quantifier": "every accepted input", "why_tests_cant": "all inputs; the test only checks is_ok()", "anchors": ["crates/brass/src/code.rs: Code::read (types.insert, globals.insert)"]}
{"id": "C38", "title": "Bad references make the read fail", "statement": "If any string or type reference met while decoding is out of range, or any index that must be non-negative is negative, or a type kind or opcode byte is invalid, Code::read does not return Ok.", "quantifier": "every input, every position of the bad reference", "why_tests_cant": "all inputs", "anchors": ["crates/brass/src/code.rs: UINDEX, get_type, read_string, read_ustring, read_type, read_opcode"]}
{"id": "C39", "title": "Opcodes round-trip, argument lists with zeros appended", "statement": "For every opcode and operand list of the right shape with operands below 0x2000, decoding its HashLink encoding consumes exactly its bytes and returns an opcode from which the instruction can be recovered; operands 1-3 are p1, p2, p3 and the rest is in extra, which for argument lists and more than four operands is followed by as many zeros.", "quantifier": "all 99 opcodes, all operands in range, all list lengths", "why_tests_cant": "unbounded operand lists", "anchors": ["crates/brass/src/code.rs: read_opcode", "crates/brass/src/op.rs: Op, OP_NARGS"]}
{"id": "C40", "title": "Every valid opcode byte is decodable", "statement": "For every opcode byte below 99 the decoder knows the argument layout (CouldNotProcessOpcode is unreachable) and the decoded op has that byte as discriminant; bytes >= 99 are rejected as InvalidOpcode.", "quantifier": "all opcode bytes, every input", "why_tests_cant": "table consistency must hold for each entry", "anchors": ["crates/brass/src/op.rs: Op, OP_NARGS", "crates/brass/src/code.rs: read_opcode"]}
{"id": "C41", "title": "Debug info has two words per instruction", "statement": "debug_infos(n) terminates on every input and, when it returns, returns exactly 2n words.", "quantifier": "every input, every n", "why_tests_cant": "unbounded input; a missed progress step would hang", "anchors": ["crates/brass/src/code.rs: debug_infos"]}
{"id": "C42", "title": "Debug info gives each instruction its file and line, for exactly the streams without runs and large absolute lines", "statement": "debug_infos applied to a HashLink debug stream returns, for each instruction, the file index and the line the stream assigns to it and consumes exactly the stream, if and only if the stream contains no run of instructions (items with a positive count) and no absolute line above 255.", "quantifier": "every well-formed debug stream of fewer than 2^24 items, every trailing input", "why_tests_cant": "the failing stream shapes need specific bytes", "anchors": ["crates/brass/src/code.rs: debug_infos"]}
{"id": "C43", "title": "Whole files round-trip", "statement": "Code::read applied to the HashLink serialisation of a module, followed by anything, consumes exactly the serialisation and returns a Code whose version, entry point, debug flag, pools, types, globals, natives, functions (with opcodes and debug info) and constants are those of the module, if all numbers are below 0x2000, strings are looked up in order (C35), debug streams are supported (C42) and the module is not bare (C44); types that refer forward get the default type there (C36).", "quantifier": "every well-formed module of every size", "why_tests_cant": "unbounded modules", "anchors": ["crates/brass/src/code.rs: Code::read and everything it calls"]}
{"id": "C44", "title": "The accepted file's header fields are reported, unless the file is bare", "statement": "Every accepted input starts with a well-formed header. If it declares debug info or at least one type, global, native, function or constant, the version, entry point, debug flag and all counts in the result equal those of the header; otherwise the result is the empty Code (version 0 and no pools), whatever pools the file contains.", "quantifier": "every accepted input", "why_tests_cant": "degenerate files (no types, functions, ...) are never tested", "anchors": ["crates/brass/src/code.rs: Code::read lines 612-681, 805"]}
{"id": "C45", "title": "Debug file table lengths are lost", "statement": "On every accepted file debugfiles_lens is empty, with or without debug info.", "quantifier": "every accepted input with the debug flag", "why_tests_cant": "only the final Code shows it", "anchors": ["crates/brass/src/code.rs: Code::read lines 717-728"]}
{"id": "C46", "title": "CRC-32 hashing is incremental", "statement": "Feeding a byte string to the hasher in any number of pieces gives the hash of the concatenation; the hash is the standard CRC-32.", "quantifier": "every byte string, every split", "why_tests_cant": "unbounded inputs", "anchors": ["crates/brass/src/code_hash.rs: uses of crc32fast::Hasher", "crates/brass/src/types.rs: ValueType::hash"]}
{"id": "C47", "title": "A changed word changes the hash", "statement": "Two byte strings of the same length that differ only within a window of at most 4 consecutive bytes, or of at most 32 consecutive bits, have different hashes (a window of 5 bytes can collide). Two that differ in exactly two bits have the same hash exactly if the distance of the two bits is a multiple of 2^32 - 1, so never in strings shorter than 512 megabytes. So changing one operand, the integer constant an operand refers to, the hash of the type or function an operand refers to, the opcode, or the hash of a register type changes the hash of a function.", "quantifier": "every function, every operand position, every pair of values", "why_tests_cant": "2^64 pairs of values; collision freedom cannot be sampled", "anchors": ["crates/brass/src/code_hash.rs: hash_fun, code_hash_type, hash_native", "crates/brass/src/types.rs: ValueType::hash"]}
{"id": "C48", "title": "Type hashes look one level deep, ignore run-time fields, and do not contain the kind", "statement": "ValueType::hash(false) depends only on the kind, the names, the counts and the shallow hashes of the directly referenced types: not on global_value, bindings, proto contents, super type or the structure below the first level. The kind itself is not hashed: all primitive types hash to 0, and a method (struct, null) type hashes like the function (object, reference) type with the same contents.", "quantifier": "every type", "why_tests_cant": "all types", "anchors": ["crates/brass/src/types.rs: ValueType::hash"]}
{"id": "C49", "title": "Hashing a decoded type never panics", "statement": "ValueType::hash does not panic on any declared type of a Code returned by Code::read (it does panic on the default types that follow the declared ones in the table).", "quantifier": "every accepted input, every type in it", "why_tests_cant": "all inputs", "anchors": ["crates/brass/src/types.rs: ValueType::hash", "crates/brass/src/code.rs: read_type"]}
{"id": "C50", "title": "findex maps to the function's table position", "statement": "After CodeHash::alloc, functions_indexes[f.findex] is the position of f among the functions, and for natives nfunctions plus the position among the natives, whenever no two functions or natives have the same findex.", "quantifier": "every code with distinct findexes on which alloc returns (at most 2^31 functions, for natives at most 2^31 functions and natives)", "why_tests_cant": "all codes", "anchors": ["crates/brass/src/code_hash.rs: CodeHash::alloc lines 34-44"]}
{"id": "C51", "title": "Exactly which decoded files can be hashed", "statement": "On a Code returned by Code::read, CodeHash::alloc returns if and only if: all findexes are below nfunctions + nnatives; no component of a type that the recursive hash reads is a forward reference; every object, struct and enum type belongs to a declared global (global_value is not 0); every constant belongs to a declared global and its fields fit the type of that global and refer to existing pool entries; there is a function and the entry point is not a native; and the boot function has no OSetGlobal at a position beyond the globals table and only refers to existing integers and globals where an enum value is set. Otherwise it panics.", "quantifier": "every accepted input", "why_tests_cant": "depends on forward references, global_value 0, constants and the boot function of arbitrary files", "anchors": ["crates/brass/src/code_hash.rs: CodeHash::alloc, hash_type_rec"]}
{"id": "C52", "title": "CodeHash::finalize panics on every decoded file", "statement": "finalize panics on the CodeHash of every decoded file, because hash_fun_sign needs the owner (field) of each function, which Code::read never fills in; in general finalize returns only if every function has its owner.", "quantifier": "every accepted input", "why_tests_cant": "needs a run of finalize, which no test does", "anchors": ["crates/brass/src/code_hash.rs: finalize, hash_fun_sign"]}
{"id": "C53", "title": "Native signatures overwrite function signatures", "statement": "After finalize, functions_signs has nfunctions + nnatives entries: entry i is the signature of native i if i < nnatives, otherwise the signature of function i if i < nfunctions, otherwise 0. So with natives present the signatures of the first functions are lost.", "quantifier": "every CodeHash on which finalize returns", "why_tests_cant": "depends on the number of natives", "anchors": ["crates/brass/src/code_hash.rs: finalize"]}
{"id": "C54", "title": "Function hashes ignore debug info and pool numbering", "statement": "hash_fun(f) is unchanged by changing f's debug info, its findex, or renumbering the int / string pools as long as the referenced values are the same.", "quantifier": "every function, every pair of pools", "why_tests_cant": "all renumberings", "anchors": ["crates/brass/src/code_hash.rs: hash_fun"]}
{"id": "C55", "title": "Global signatures are distinguishable by position", "statement": "If a global has no other source of signature (its type is not abstract; it is not the global of a type, of a constant or of an enum value set in the boot function), CodeHash::alloc gives it the signature (2^31 + position) xor the hash of its type; so two such globals of the same type have different signatures.", "quantifier": "every accepted input on which alloc returns, every pair of globals", "why_tests_cant": "all codes", "anchors": ["crates/brass/src/code_hash.rs: CodeHash::alloc lines 58-65, 154-156"]}
{"id": "C56", "title": "Module initialisation handles the globals it is given", "statement": "HLModule::init on a new module completes exactly if every global is of kind HVOID or HUI8 (and, with hot reload, the module can be hashed); otherwise it panics. It then has declared exactly one writable data object for each global of kind HUI8, in order, with distinct names $global{i}, and one global value loading from each; with hot reload the hash is kept.", "quantifier": "every code", "why_tests_cant": "all global kind sequences", "anchors": ["crates/brass/src/compiler.rs: HLModule::init_globals"]}
{"id": "C57", "title": "The used part of every block is tiled by its objects", "statement": "At any time the bytes between offset 16 and the cursor of every block owned by a heap are exactly covered, without gap or overlap, by the (header + object + rounding) ranges of the objects allocated in it: no allocated byte is lost.", "quantifier": "every history of alloc, alloc_array and writes, every block placement", "why_tests_cant": "lost or doubly used bytes depend on the whole history", "anchors": ["crates/stickyimmix/src/heap.rs: find_space, overflow_alloc", "crates/stickyimmix/src/bumpblock.rs: inner_alloc"]}
{"id": "C58", "title": "Float constants are hashed from the wrong pool slots", "statement": "OFloat with operand i contributes the pool entries 2i and 2i+1, converted to i32, instead of entry i: a function that loads a constant of the upper half of the pool cannot be hashed (hash_fun panics), and the constant i itself is covered only if some 2j or 2j+1 equals i.", "quantifier": "every function with a float constant, every pool", "why_tests_cant": "depends on pool sizes and indexes", "anchors": ["crates/brass/src/code_hash.rs: hash_fun, OFloat"]}
{"id": "C59", "title": "A function that calls a native cannot be hashed", "statement": "If a function refers to a native (call or closure), finalize panics, because the table of function hashes has no entries for natives.", "quantifier": "every code with fewer than 2^31 functions and fewer than 2^31 natives on which alloc returns, distinct findexes or not", "why_tests_cant": "depends on the callee table", "anchors": ["crates/brass/src/code_hash.rs: finalize, hash_fun, hfun"]}
{"id": "C60", "title": "Decoded types, functions and constants are well formed", "statement": "Every declared type of an accepted file has the contents of its kind (function types have arguments and a result, objects fields and methods, references a parameter, ...) and its counts equal the lengths of its lists. Every function has as many registers and instructions as it declares, two debug words per instruction (if there is debug info), no owner, and each instruction has the operands of its opcode, all 32-bit. Every constant has as many fields as it declares.", "quantifier": "every accepted input, every type, function, instruction and constant in it", "why_tests_cant": "all inputs", "anchors": ["crates/brass/src/code.rs: read_type, read_function, read_opcode, debug_infos"]}
{"id": "C61", "title": "Primitive types are indistinguishable in hashes", "statement": "Every primitive or packed type hashes to 0, and its entry in the type hash table computed by CodeHash::alloc is 0; so changing the type of a register from one primitive type to another (e.g. i32 to f64) does not change the hash of the function.", "quantifier": "every code on which alloc returns, every function and register, every pair of primitive types", "why_tests_cant": "all types and functions", "anchors": ["crates/brass/src/types.rs: ValueType::hash", "crates/brass/src/code_hash.rs: CodeHash::alloc, hash_fun"]}
{"id": "C62", "title": "A function's hash covers only the callees before it", "statement": "finalize computes the hash of function i while the hashes of the functions from i on are still 0: replacing a function does not change the hash of any function before it in the table, even of its callers.", "quantifier": "every CodeHash on which finalize returns, every function replaced", "why_tests_cant": "depends on the order of the functions", "anchors": ["crates/brass/src/code_hash.rs: finalize, hfun"]}
{"id": "C63", "title": "Objects are placed as by a two-block bump allocator", "statement": "The addresses and errors returned by alloc and alloc_array, the number of blocks requested from the system and the blocks obtained are those of this allocator: an object (header included, rounded up to 8) goes to the current block if it fits; otherwise, if it has at most 128 bytes, to a new current block, and if it is bigger to the overflow block if it fits there, else to a new overflow block; 0 bytes or more than 32752 are refused; a failed block request leaves everything as it was.", "quantifier": "every client program, every answer of the system allocator, both build profiles", "why_tests_cant": "the placement of an object depends on all allocations before it", "anchors": ["crates/stickyimmix/src/heap.rs: find_space, alloc, alloc_array", "crates/stickyimmix/src/heap.rs: overflow_alloc", "crates/stickyimmix/src/bumpblock.rs: inner_alloc"]}
{"id": "C64", "title": "The heap holds at most twice the memory it needs plus two blocks", "statement": "After any program, with k blocks obtained and b bytes reserved for objects (headers and rounding included), 32760*k <= 2*b + 2*32760. The bound is reached up to the additive constant: for every n there is a program after which k = 2n+1 and 2*b = 32760*k + 32744.", "quantifier": "every client program, every answer of the system allocator", "why_tests_cant": "space bounds range over all histories", "anchors": ["crates/stickyimmix/src/heap.rs: find_space, overflow_alloc", "crates/stickyimmix/src/bumpblock.rs: inner_alloc"]}
{"id": "C65", "title": "Type hashes are the CRC-32 of the type's contents", "statement": "On every declared type of an accepted file, ValueType::hash(false) is the CRC-32 (IEEE) of the names, counts and field name hashes of the type with the hash(true) of each component at its place, and hash(true) is the CRC-32 of the same without the components.", "quantifier": "every accepted input, every declared type", "why_tests_cant": "the hash must be the same for every type on every platform; all inputs", "anchors": ["crates/brass/src/types.rs: ValueType::hash"]}
{"id": "C66", "title": "The table of type hashes", "statement": "After CodeHash::alloc on an accepted file, entry i of type_hashes is hash(false) of type i xor the CRC-32 of the hash(false) of its components (arguments and result, fields, reference parameter, enum parameters).", "quantifier": "every accepted input on which alloc returns, every declared type", "why_tests_cant": "all inputs", "anchors": ["crates/brass/src/code_hash.rs: alloc, hash_type_rec"]}
{"id": "C67", "title": "What the hash of a function covers", "statement": "hash_fun returns the CRC-32 of: the type hash of each register, then for each instruction its opcode byte and its operands, where the constant, text or type an operand refers to is hashed instead of its index, and for calls and closures the hash of the callee; float constants as the i32 truncation of pool entries 2i and 2i+1. It panics exactly if one of these does not exist.", "quantifier": "every function with 32-bit operands (in particular every function of an accepted file), every state of the table of function hashes", "why_tests_cant": "all functions and instruction sequences", "anchors": ["crates/brass/src/code_hash.rs: hash_fun, hfun"]}
{"id": "C68", "title": "What the signatures of functions and natives cover", "statement": "hash_native returns the CRC-32 of library, name and type hash. hash_fun_sign returns the CRC-32 of the type hash, the names of the owner and of the function in it, and, if the owner's field refers to another function, the names of that one and the reference; it panics exactly if the field (or that of the referred function) is missing or the type is unknown.", "quantifier": "every function, every native, every state", "why_tests_cant": "all functions", "anchors": ["crates/brass/src/code_hash.rs: hash_native, hash_fun_sign"]}
{"id": "C69", "title": "finalize computes exactly these signatures and hashes", "statement": "finalize returns s' if and only if s' differs from s only in functions_signs and functions_hashes, and these have the specified entries (natives first, then the signatures of the functions that remain, then zeros; hash i computed with the hashes of the functions before i); otherwise it panics.", "quantifier": "every state with fewer than 2^31 functions and 32-bit operands", "why_tests_cant": "all states; result of three loops over mutable tables", "anchors": ["crates/brass/src/code_hash.rs: finalize"]}
{"id": "C70", "title": "The signature of every global", "statement": "After CodeHash::alloc on an accepted file the signature of a global is the value of its source xor the hash of its type, where the source is the last instruction of the boot function that (supposedly) stores an enum value into it, or else its last constant, or else the last type it belongs to, or else its type, if that is abstract, or else 2^31 + its position. So every global of an abstract type without other source has signature 0.", "quantifier": "every accepted input on which alloc returns, every global", "why_tests_cant": "last-writer order over four loops; all inputs", "anchors": ["crates/brass/src/code_hash.rs: alloc"]}
{"id": "C71", "title": "Histories of reads in which panics are caught", "statement": "The value Code::read leaves in the process-wide error slot survives a panic. Once an error is recorded, by a call that returned Err or by one that panicked, it is never erased and no later call returns Ok; as long as none is recorded, failed and panicking calls leave no trace and the next files are read as in a fresh process. Both kinds of panicking calls exist: a file that ends inside the magic bytes panics without a trace, one that ends just after them, or inside the section of bytes, panics and makes all later reads fail.", "quantifier": "every sequence of files, every initial value of the error slot, both build profiles", "why_tests_cant": "quantifies over histories and panic points", "anchors": ["crates/brass/src/code.rs: ERRORS, map_err, check_error, read"]}
{"id": "C72", "title": "Concurrent reads of good files do not disturb each other", "statement": "If every file read by any thread of a process is accepted when read alone, then every call of Code::read returns Ok with the same contents as when read alone, however the threads' accesses to the error slot are interleaved.", "quantifier": "every number of threads, every list of files per thread, every schedule", "why_tests_cant": "quantifies over schedules", "anchors": ["crates/brass/src/code.rs: ERRORS, read"]}
{"id": "C73", "title": "Concurrent reads: Ok is always right, errors may be someone else's", "statement": "Whatever the other threads read and however they are interleaved, a call that returns Ok(c) returns what the file decodes to alone. After an error is recorded by any thread, no call that starts later returns Ok. A call on a good file can return the error of a bad file read by another thread.", "quantifier": "every number of threads, every list of files per thread, every schedule, every initial value of the error slot", "why_tests_cant": "quantifies over schedules", "anchors": ["crates/brass/src/code.rs: ERRORS, map_err, check_error, read, read_function"]}
{"id": "C74", "title": "Every read ends under every fair schedule", "statement": "If a thread is scheduled again and again, each of its calls of Code::read returns or panics after finitely many steps, whatever the other threads write to the error slot, and the calls are answered in order. If it is the only thread, the answers and the final error are those of C71.", "quantifier": "every number of threads, every list of files per thread, every infinite schedule that is fair to the thread", "why_tests_cant": "liveness over all infinite schedules", "anchors": ["crates/brass/src/code.rs: read"]}
{"id": "C75", "title": "Block values own their memory", "statement": "What the system allocator handed out is at any time exactly what was returned to it plus what the Block values in scope own: nothing is freed twice or leaked. The memory of an owned block (size() bytes from as_ptr()) is allocated, its size is a power of two, its address a non-zero multiple of it, and the memory of different blocks never overlaps.", "quantifier": "every program of Block::new, drop and into_mut_ptr, every system allocator that hands out aligned memory disjoint from what is allocated", "why_tests_cant": "quantifies over histories and allocator behaviours, including reuse of freed memory", "anchors": ["crates/stickyimmix/src/blockalloc.rs: Block::new, size, as_ptr, into_mut_ptr, Drop"]}
{"id": "C76", "title": "into_mut_ptr and from_raw_parts always free twice", "statement": "Rebuilding a block with Block::from_raw_parts from the pointer returned by into_mut_ptr and the block's size, and letting it go out of scope, returns the block to the system once more than it was obtained.", "quantifier": "every program, every owned block, every system allocator as in C75", "why_tests_cant": "quantifies over histories", "anchors": ["crates/stickyimmix/src/blockalloc.rs: Block::into_mut_ptr, from_raw_parts, Drop"]}
{"id": "C77", "title": "Several heaps do not interfere, even if panics are caught", "statement": "A program may have any number of heaps with different header types, drop them in any order and catch the panics of its header constructors; the rest of the process may use the system allocator and all memory outside of the heaps' blocks, and the memory of dropped heaps may be reused. At any time all objects of the heaps not dropped are disjoint (headers and padding included), lie in blocks that are allocated, behind the metadata word, and hold the bytes put there by their allocation and the client's writes. Besides header constructors and size overflow nothing panics: a call whose constructor does not panic panics exactly if overflow checks are on and rounding up the size of header plus object overflows usize (an array never does). A call whose constructor panics takes blocks and space exactly like the same call without the panic, but writes nothing there (only the metadata word of a block it has obtained).", "quantifier": "every program over any number of heaps, every point at which a constructor panics, every behaviour of the rest of the process, every system allocator that hands out memory that is not in use", "why_tests_cant": "quantifies over histories, crash points and allocator behaviours", "anchors": ["crates/stickyimmix/src/heap.rs: StickyImmixHeap::new, alloc, alloc_array, find_space", "crates/stickyimmix/src/bumpblock.rs: BumpBlock::new, drop", "crates/stickyimmix/src/blockalloc.rs: Block"]}
{"id": "C78", "title": "Blocks and metadata are freed exactly once, over all heaps", "statement": "In the programs of C77 a block is allocated exactly as long as a heap that has not been dropped owns it; no block or metadata box is freed more often than it was obtained, the metadata of a heap's blocks is not freed, and when all heaps are dropped everything has been freed.", "quantifier": "as in C77", "why_tests_cant": "double free and leaks depend on the entire history of all heaps", "anchors": ["crates/stickyimmix/src/bumpblock.rs: Drop for BumpBlock", "crates/stickyimmix/src/blockalloc.rs: Drop for Block", "crates/stickyimmix/src/heap.rs: BlockList"]}
{"id": "C79", "title": "Values put into a heap are never destroyed, others exactly once", "statement": "The value passed to alloc is destroyed (its destructor is run, once) exactly if the call returns Err or panics; a value that alloc has put into the heap is never destroyed by the heap, not even when the heap is dropped.", "quantifier": "as in C77, every call of alloc, including those whose header constructor panics", "why_tests_cant": "quantifies over histories and crash points", "anchors": ["crates/stickyimmix/src/heap.rs: alloc"]}
{"id": "C80", "title": "RawPtr values are not null and identify objects", "statement": "The pointer of every object is not null (as NonNull::new_unchecked in RawPtr::new requires) and fits in a word; as_ptr, as_word and as_untyped of the RawPtr and of its copies give the address at which the object is (and from which get_header gets its header); and two RawPtr values are equal exactly if they point to the same object of the same heap; also for objects of size 0.", "quantifier": "as in C77, every pair of objects of heaps not dropped", "why_tests_cant": "addresses depend on the entire history of all heaps", "anchors": ["crates/stickyimmix/src/rawptr.rs: RawPtr::new, as_word, PartialEq", "crates/stickyimmix/src/heap.rs: alloc, alloc_array"]}
{"id": "C81", "title": "The contract of the system allocator is kept, except for Block::new(2^63)", "statement": "dealloc is only called for memory obtained from alloc, with the size and alignment it was obtained with, not more often than it was obtained, and when everything is dropped for all memory obtained. All requests of heaps have a valid Layout (power of two alignment, rounded size at most isize::MAX, size not 0). Block::new makes only valid requests for every size except 2^63, which is_power_of_two accepts but Layout forbids.", "quantifier": "every program over any number of heaps as in C77, every program of Block values, every usize passed to Block::new", "why_tests_cant": "quantifies over histories, and over all sizes", "anchors": ["crates/stickyimmix/src/blockalloc.rs: Block::new, alloc_block, dealloc_block"]}
{"id": "C82", "title": "Errors never come from nowhere: who can disturb whom", "statement": "Call a file quiet if reading it in a fresh process leaves no error recorded (every accepted file is quiet). If all files read in a process are quiet, every call gets the answer its file gets in a fresh process, under every schedule. If all are quiet except one, the call on that one still returns Ok, Err or panics as in a fresh process (the error reported may differ). A call on a good file can panic because of a bad file read by another thread.", "quantifier": "every number of threads, every list of files per thread, every schedule", "why_tests_cant": "quantifies over schedules", "anchors": ["crates/brass/src/code.rs: ERRORS, map_err, check_error, read, read_function"]}
{"id": "C83", "title": "Every reported error lies in one of the files read", "statement": "Every error returned by Code::read or left in the error slot either was there before or has a position that is not after the end of one of the files that are read in the process.", "quantifier": "every number of threads, every list of files per thread, every schedule, every initial value of the error slot", "why_tests_cant": "quantifies over schedules and inputs", "anchors": ["crates/brass/src/code.rs: ERRORS, map_err, check_error, read", "crates/brass/src/errors.rs: DecodeError"]}
{"id": "C84", "title": "Types can be exponentially bigger than the file", "statement": "A decoded type owns a copy of every type it refers to. In an accepted file of n bytes no type consists of more than 2^n type values, and none is nested deeper than the number of declared types plus one. Both bounds are reached up to constants: for every n below 8192 there is an accepted file of at most 6n+20 bytes with n types, one of which consists of 2^(n+1)-1 type values and is nested n+1 deep.", "quantifier": "every accepted input, every type in it; every n", "why_tests_cant": "a bound over all inputs; the growth appears only for sizes no test can run", "anchors": ["crates/brass/src/code.rs: read_type, get_type", "crates/brass/src/types.rs: ValueType"]}
{"id": "C85", "title": "All other tables are linear in the file, except the string cache", "statement": "In an accepted file the tables of types, ints, floats, strings, bytes, debug files, globals, natives, functions (with their registers, instructions, operands and debug words) and constants (with their fields) have together at most twice as many entries as the file has bytes. The cache of looked up strings is not bounded: a file of 22 bytes is accepted and gets 2^31-1 slots.", "quantifier": "every accepted input; every number of strings that an index can express", "why_tests_cant": "a bound over all inputs", "anchors": ["crates/brass/src/code.rs: read, read_strings, get_ustring"]}
{"id": "C86", "title": "Errors are true", "statement": "Every error returned by Code::read or left in the error slot was there before, or is true of one of the files read in the process: at its position ends the first byte that differs from HLB, or a version other than 2 to 5, or a negative index after the version, or (after the debug file names) a type or string index that is out of range, an unknown type kind or opcode, a debug file that does not exist, a run of debug positions that is too long; or it is the position at which the version, an integer, a float, the size of the byte table or the byte table is missing or cut. (In a file without types every string index counts as out of range.) CouldNotProcessOpcode, CouldNotReadIndex, CouldNotReadStringAtIndex and InvalidString are never reported. An error other than NoMoreData cannot be repaired by appending to the file.", "quantifier": "every number of threads, every list of files per thread, every schedule, every initial value of the error slot", "why_tests_cant": "quantifies over inputs and schedules", "anchors": ["crates/brass/src/code.rs: ERRORS, map_err, check_error, get_type, read_string, read_ustring, read_type, read_opcode, debug_infos, read", "crates/brass/src/decoder.rs: read_bytes", "crates/brass/src/errors.rs: DecodeError"]}
{"id": "C87", "title": "Exactly which files are rejected, and with which error", "statement": "Code::read returns Err exactly in these cases (and panics exactly on the files that are neither accepted nor rejected). A byte of the header differs from HLB: InvalidBytecodeHeader after the first such byte. The version is not 2 to 5: UnsupportedBytecodeVersion. The file ends in the integers, the floats or the size of the byte table: NoMoreData where the missing item should start. Otherwise the file is right up to the start of one of its sections (counts; strings; byte positions; debug file names; types and globals; natives; functions; each constant) and the section can be read to its end, with faulty items replaced (a negative number by 0, a type out of range by the first type, a string out of range by the empty string, an unknown type kind by the default type without contents, an unknown opcode by one without operands, and no instructions at all after a fault among the functions), and there is a fault: then the error is that of the last fault of the section that is not an unknown type kind, or the first unknown type kind if there is no other fault. If an error of an earlier read is still recorded it counts as the first fault, and is reported at the end of the counts. E.g. of several negative counts the last one is reported; and if globals (or natives) of a module that could be read are changed to refer to types that do not exist, it is rejected with InvalidTypeIndex after the last such reference; likewise if registers of the last function of a module without debug information are changed in this way, whatever its instructions are then; and if a constant is changed to have a negative field, with NegativeIndex after the last such field. If bytes that are no kinds are written in the place of some types, it is rejected with InvalidType after the first such byte, even if other types refer to these, except that a global out of range hides this. If bytes that are no instructions are written in the place of some instructions of a function of a module without debug information, it is rejected with InvalidOpcode after the last such byte, if the remaining functions follow without their instructions, e.g. if it is the last function. If the debug information of the last function of a module is changed so that items refer to files that do not exist, or are runs longer than the instructions left, it is rejected with InvalidDebugFile or OutsideRange after the last such item.", "quantifier": "every input, every error kind and position, every recorded error, both build profiles", "why_tests_cant": "the set of rejected files and the error chosen depend on all items of a section", "anchors": ["crates/brass/src/code.rs: read, map_err, check_error, get_type, read_string, read_ustring, read_type, read_function, read_opcode, debug_infos", "crates/brass/src/decoder.rs: read_bytes, read_i32, read_f64", "crates/brass/src/errors.rs: DecodeError"]}
{"id": "C88", "title": "Everything CodeHash::alloc computes", "statement": "On an accepted file CodeHash::alloc returns ch if and only if the file is hashable (C51) and: the code is unchanged; type_hashes holds the hashes of the declared types (C66) followed by as many zeros; globals_signs holds one signature for each global (C70); functions_indexes has one entry for each function and native, which for index x is nfunctions plus the position of the last native with this index (as i32), or else the position of the last function with it, or else 0; functions_signs and functions_hashes are empty. So a function that has the index of a native is never found by it.", "quantifier": "every accepted input, every result", "why_tests_cant": "duplicate and unused indexes, arbitrary globals, constants and types", "anchors": ["crates/brass/src/code_hash.rs: CodeHash::alloc"]}
{"id": "C89", "title": "String tables are cut between characters", "statement": "Reading a string table with n declared strings succeeds exactly if its bytes are a size, a blob of that size, and the sizes in bytes of strings into which the text of the blob can be cut: the text is the blob as UTF-8 with U+FFFD for everything that is not UTF-8 (sizes count the replaced text), between two strings lies a one-byte character, whatever it is, and reading stops after n strings or when the text is used up. All strings and debug file names of an accepted file are well-formed UTF-8, whatever bytes the file contains.", "quantifier": "every byte sequence, every number of declared strings, every accepted input", "why_tests_cant": "every blob, including invalid UTF-8, and every way of cutting it", "anchors": ["crates/brass/src/code.rs: read_strings", "crates/brass/src/decoder.rs: read_bytes"]}
{"id": "C90", "title": "Names are strings of the module", "statement": "In an accepted file every name in a type (of objects, enums and abstracts, of fields, methods and constructors) is one of the strings of the module, or is empty if fewer strings are present than declared; the library and the name of every native are strings of the module; and the hash of each field and method is the CRC-32 hash of its name.", "quantifier": "every accepted input, every type and native", "why_tests_cant": "the string cache makes every name depend on all earlier lookups (C35)", "anchors": ["crates/brass/src/code.rs: read_type, read_ustring, get_ustring, read_string, get_string, read"]}
{"id": "C91", "title": "Which rejected files spoil later reads", "statement": "In a process without a recorded error, a Code::read that returns Err because of a wrong byte in the magic, an unsupported version or a missing size of the byte table records nothing, and all later files are read as if it had not been there. Every other error returned is also recorded, and then every later file with well-formed counts is answered with this error. If an error is recorded already, it stays when the magic or the version is wrong, and is replaced by the returned error otherwise.", "quantifier": "every input, every recorded error, every sequence of later files, both build profiles", "why_tests_cant": "it relates the result of each of infinitely many bad files to the fate of all later reads", "anchors": ["crates/brass/src/code.rs: Code::read, check_error, map_err, ERRORS", "crates/brass/src/errors.rs"]}
{"id": "C92", "title": "Requests to a recycled block are placed by next fit", "statement": "A request of n bytes to a block (inner_alloc) takes the next bytes of the current hole if they suffice. Otherwise it is placed at the start of the first hole behind the current one that has room for it, where a hole is a maximal run of reusable lines, and this hole becomes the current one. If no hole has room the request is refused and the last hole becomes the current one (if there is none nothing changes). So what a refused request skips is lost: no later request is answered with an address before the last hole, even if it would have fitted there.", "quantifier": "every state of marks, cursor and limit, every size below 2^63, every sequence of later requests, both build profiles", "why_tests_cant": "all 2^256 patterns of line marks, and all later histories", "anchors": ["crates/stickyimmix/src/bumpblock.rs: BumpBlock::inner_alloc", "crates/stickyimmix/src/blockmeta.rs: BlockMeta::find_next_available_hole"]}
{"id": "C93", "title": "What a panicking read leaves behind, and every history of reads", "statement": "Code::read panics exactly in these cases, and an error is left recorded exactly as follows. The file ends in the magic: nothing. It ends just after the magic: NoMoreData at 3. The size of the byte table is negative: nothing. The file ends in the byte table: NoMoreData where the table should start. Otherwise the file is right up to the start of one of the sections of C87 and the section can be read, with faulty items replaced as described there, up to an item that is cut or has no replacement: what is left is the error that C87 selects from the faults so far in this section (nothing, if there are none). If an error is already recorded, a file that ends in or after the magic leaves it, one whose counts are cut leaves the last negative count, if there is one, or else the old error; no other file panics. Together with C38, C87 and C91 this determines the answers of Code::read to every sequence of files and the error that is recorded at the end; once an error is recorded no file is accepted and the record is never cleared.", "quantifier": "every input, every recorded error, every sequence of files, panics being caught, both build profiles", "why_tests_cant": "quantifies over crash points and histories: the state left by a panic depends on all items read before it", "anchors": ["crates/brass/src/code.rs: Code::read, map_err, check_error, ERRORS, get_type, read_string, read_ustring, read_type, read_function, read_opcode, debug_infos, read_strings", "crates/brass/src/decoder.rs: read_bytes"]}
{"id": "C94", "title": "Reading a file that is still being written", "statement": "Of the proper beginnings of an accepted file (with nothing behind its end) Code::read answers those that end in the integers, in the floats or in the size of the byte table with NoMoreData, and panics on all others. It leaves an error recorded, always NoMoreData, exactly for those that end just after the magic, in the integers, in the floats or in the byte table. So a program that reads a file again and again while it is being written, catching panics, gets the program in the end if and only if none of its attempts hit one of these places; otherwise the complete file is refused too.", "quantifier": "every accepted file, every cut, every sequence of beginnings of accepted files, both build profiles", "why_tests_cant": "crash points: every prefix of every accepted file, and every history of attempts", "anchors": ["crates/brass/src/code.rs: Code::read, map_err, check_error, ERRORS, read_strings", "crates/brass/src/decoder.rs: read_bytes, read_i32, read_f64"]}
{"id": "C95", "title": "Objects covered by line marks survive collections", "statement": "A block is used, collected (some objects are given up, the marks are changed with reset, mark_line and mark_block, cursor and limit are set to one place, in line 0 only if this line is marked) and used again, any number of times. If at the end of each collection every byte of each surviving object lies in a marked line or in the line behind a marked line, then at any time the objects not given up are disjoint and lie in the block behind its metadata word, and no request panics. It suffices to mark the first line of an object of at most 128 bytes, and all lines but the last of a larger one. The condition is exact: in a block recycled from its first line on, an object is safe from all later requests if and only if it is covered in this way.", "quantifier": "every history of requests and collections of a block, every set of survivors, every sequence of mark operations, both build profiles", "why_tests_cant": "histories and all patterns of marks", "anchors": ["crates/stickyimmix/src/bumpblock.rs: BumpBlock::new, inner_alloc", "crates/stickyimmix/src/blockmeta.rs: BlockMeta::find_next_available_hole, mark_line, mark_block, reset"]}
{"id": "C96", "title": "The metadata of a block can be found from its objects", "statement": "In the programs of C77, the address of any byte of an object or of its header, masked with BLOCK_PTR_MASK, is the address of the block that contains the object; the word there is the address of the metadata of this block, which has not been freed. The pointer of an empty object has this property exactly if it is not a multiple of the block size; if it is, the object is at the very end of its block, masking does not change its pointer, and it may be the address of a block of another heap.", "quantifier": "every program as in C77, every object of every heap that is not dropped, every byte of it", "why_tests_cant": "addresses depend on the entire history of all heaps; the exception needs a block filled to its last byte", "anchors": ["crates/stickyimmix/src/constants.rs: BLOCK_PTR_MASK, FIRST_OBJECT_OFFSET", "crates/stickyimmix/src/bumpblock.rs: BumpBlock::new", "crates/stickyimmix/src/heap.rs: alloc, alloc_array, get_header"]}
{"id": "C97", "title": "The work of a read: wait-free, but not bounded by the length of the file", "statement": "However the threads of a process are scheduled and whatever they do to the error slot, a call of Code::read returns or panics after a bounded number of accesses to the error slot: at most 2*length + 2*(nints + nfloats) accesses if the file begins with a header that announces nints integers and nfloats floats, at most 2*length + 2^33 for any bytes. Reading an accepted file in a fresh process only reads the slot, exactly 7 times plus once from version 5 on, once with debug info, and once for each function and constant. The announced numbers matter: a file that ends in the integers or floats makes one access for every announced value that is missing, so that a file of 16 bytes causes more than 2^31 accesses before it is rejected.", "quantifier": "every sequence of bytes, every process state, every schedule; for the exact counts every header and every body that ends in a pool, every accepted file", "why_tests_cant": "a bound over all inputs and schedules; the worst case takes too long to run", "anchors": ["crates/brass/src/code.rs: ERRORS, map_err, check_error, read, read_function, read_type", "crates/brass/src/decoder.rs: read_bytes"]}
{"id": "C98", "title": "Modules that differ decode differently", "statement": "Take two modules that Code::read reads correctly (C113), in each of which no two strings are equal, no two types are equal once their references are followed, and types only refer back. Their serialisations decode to equal Codes (apart from the cache of looked up strings) if and only if the modules are equal in everything except how the debug info of functions is written down (it must give each instruction the same file and line) and its assignments, which are not kept. So nothing else in a module is lost, merged or swapped by the decoder. Without the condition this fails: which of two equal types a global has, or which of two equal strings names a native, cannot be told from the Code.", "quantifier": "every pair of such modules of every size, anything following them", "why_tests_cant": "it is a statement about all pairs of modules: tests compare a few decoded modules with expected values", "anchors": ["crates/brass/src/code.rs: read, read_type, get_type, read_string, read_function, read_opcode, debug_infos"]}
{"id": "C99", "title": "Tables are requested before their contents are seen", "statement": "Code::read creates tables of a length taken from the file with vec![x; n]. For an accepted file that is not bare these are exactly: the string cache, the bytes (from version 5 on), the types, the globals, and for each function the operand lists of its instructions and two debug words per instruction; all but the string cache have together at most twice as many entries as the file has bytes. On any input no table of more than 2*(2^31-1) entries is requested. The length of a file that is not accepted is no bound: 20 bytes are enough to request 2^31-1 types.", "quantifier": "every input, every value of the error slot, both build profiles; every number of types that an index can express", "why_tests_cant": "bounds over all inputs, accepted or not", "anchors": ["crates/brass/src/code.rs: read, read_opcode, debug_infos, read_function"]}
{"id": "C100", "title": "Builds with and without overflow checks", "statement": "Code::read contains additions of i32 that panic on overflow in a build with overflow checks and wrap around without. With checks, a read panics or does exactly what it does without checks (same result, same error, same state left behind). On files of at most 69273657 bytes it always does the same. The bound is exact up to 164 bytes: some file of 69273822 bytes makes one build panic and is rejected by the other; and some file of 715827912 bytes makes one build panic and is accepted by the other, with a negative line number.", "quantifier": "every input, every value of the error slot", "why_tests_cant": "a statement about all inputs of two builds; the difference needs files of at least 69 MB", "anchors": ["crates/brass/src/code.rs: debug_infos, read_function, read"]}
{"id": "C101", "title": "Header constructors may use the heaps", "statement": "The header constructor called by alloc and alloc_array is code of the client and may itself use the heaps: make calls of alloc and alloc_array in the same heap or in others, to any depth, write to objects, create heaps, drop heaps that no running call uses, and panic at any point. Still no operation fails inside a heap; the space of all objects of heaps that are not dropped, including those whose constructor is still running or has panicked, is disjoint and lies in live blocks behind the metadata word; a constructor is given the size of its object and the size class for header and object; when it returns, the call returns a pointer to the object with the returned header in front of it; objects and headers keep their contents; and blocks and metadata are freed as in C78.", "quantifier": "every program with any number of heaps and any nesting of constructors, every behaviour of the system allocator within its contract, both build profiles", "why_tests_cant": "histories of nested calls of any depth; the code relies on no reference to the block list being held while client code runs", "anchors": ["crates/stickyimmix/src/heap.rs: alloc, alloc_array, find_space", "crates/stickyimmix/src/allocator.rs: AllocHeader::new, AllocHeader::new_array"]}
{"id": "C102", "title": "What a panicking finalize leaves behind; finalize can be repeated", "statement": "CodeHash::finalize changes only functions_signs and functions_hashes. It fills them entry by entry; if it panics, the entries before the function or native that has no signature or no hash are computed, the rest are zero, and if it panics among the signatures the old functions_hashes stay. The old contents of the two tables influence neither whether it panics nor what it computes, so calling it again, after a return or a caught panic, has the same outcome and leaves the same state. On the hash of a decoded module every call panics on the first function, leaving zero signatures for all functions and natives and no hashes.", "quantifier": "every CodeHash (for the exact contents: fewer than 2^31 functions and machine-sized operands), every crash point, any number of calls; every accepted input", "why_tests_cant": "crash points: the state left behind depends on where the panic happens", "anchors": ["crates/brass/src/code_hash.rs: CodeHash::finalize, hash_fun_sign, hash_native, hash_fun"]}
{"id": "C103", "title": "Heaps do not influence each other", "statement": "In the programs of C101, what the calls of alloc and alloc_array in one heap lead to depends only on their sizes and on the answers of the system to the block requests of this heap: an abstract allocator (C63) that is given just these says for each call whether and with which space its constructor is called or with which error it ends, how many blocks are requested, which blocks the heap holds, and where its objects are. So two heaps with the same requests and answers behave the same, whatever happens in other heaps, inside constructors (including panics), or is written to objects. No byte is skipped: everything in a block in front of an object belongs to objects of the same heap; and the blocks of each heap are bounded as in C64.", "quantifier": "every program with any number of heaps and any nesting of constructors, every heap in it, every pair of such programs", "why_tests_cant": "it compares all histories of a process with those of each heap alone", "anchors": ["crates/stickyimmix/src/heap.rs: alloc, alloc_array, find_space, overflow_alloc", "crates/stickyimmix/src/bumpblock.rs: BumpBlock::new, inner_alloc"]}
{"id": "C104", "title": "What a read prints", "statement": "Code::read writes to standard output. For an accepted file it prints one line for each function, in order, which shows the function of the result without its debug words. For a file of an unknown version it prints one line which shows the version. For any other input it prints only functions; while an error is recorded it prints none. What is printed for a file is a prefix of what is printed for every continuation of it, so the beginning of an acceptable file makes Code::read print the first few functions of the file, whether it then returns an error or panics: exactly those to whose end the cut file reaches (the debug information of the last one need not be there). The file has at least four bytes for each line. Nothing else in the crate prints: the message about an opcode that cannot be hashed is never reached.", "quantifier": "every input, every value of the error slot, every cut of every accepted file, both build profiles", "why_tests_cant": "every input, and every crash point: the output before a panic depends on how far the reader got", "anchors": ["crates/brass/src/code.rs: read (lines 623 and 768), read_function, debug_infos", "crates/brass/src/code_hash.rs: hash_fun (line 436)"]}
{"id": "C105", "title": "Reading copies the whole module again and again", "statement": "Code::read copies the module it is building with clone(). For an accepted file it makes exactly 2*ntypes + 2*nglobals + nnatives + 2*nfunctions + nconstants copies, and two more if the file has debug information: the module before and after each type, global and function and after each native and constant, in this order; the last copy is the result. All copies together hold nfunctions^2 + nconstants*nfunctions functions and 3*ntypes^2 + 2*ntypes*(2*nglobals + nnatives + 2*nfunctions + nconstants) types, and at most 4*length^2 table entries (not counting the string cache, and each type as one entry): the number of copied entries is at most quadratic in the length of the file, and not less, since for every n there is an accepted file of n bytes and at most 20 more for which 3*n^2 types are copied. A copied type may be large: for every n below 8192 an accepted file of at most 6*n+20 bytes makes Code::read copy a type that consists of 2^(n+1)-1 types (C84). On any input, accepted or not, at most two modules per byte are copied.", "quantifier": "every input, every recorded error; every n that an index can express", "why_tests_cant": "a bound and an exact count over all inputs", "anchors": ["crates/brass/src/code.rs: read, Code (derive Clone)"]}
{"id": "C106", "title": "Initialising a module again", "statement": "HLModule::init and init_globals may be called any number of times on a module, in any order, and panics of these calls be caught. Whether a call returns depends only on the code, not on the calls before: if every global can be handled (C56) all calls return, except that init with hot reload panics if the module cannot be hashed (C51); otherwise every call panics. Repeated calls declare no further data objects: there is one for each global of kind HUI8 in front of the first global that cannot be handled, with distinct names. But each call that gets to the globals adds the loads from all of them once more. The hash is kept from the first call of init with hot reload on, even if this call then panics because of a global. Nothing else is changed.", "quantifier": "every code, every sequence of calls", "why_tests_cant": "all call histories, with panics in any place", "anchors": ["crates/brass/src/compiler.rs: HLModule::new, init, init_globals, translate_global"]}
{"id": "C107", "title": "The text that is printed", "statement": "The text Code::read writes to standard output is that of println! with the derived Debug implementations, one line for each line of C104: exactly HLFunction { t: ..., findex: ..., nregs: ..., nops: ..., rf: ..., regs: [...], ops: [...], debug: [], obj: None, field: None }, with types, fields and instructions written out in the same way and strings in quotes with escapes. Whatever a function contains, its text contains no line break, so a successful read writes as many lines as the module has functions. For every input all strings in printed functions are valid UTF-8. Then the text says everything: two printed functions with the same text are equal, two reads (of any files, in any state) that write the same characters have printed the same functions and versions, and two accepted files with the same output have the same functions up to the debug words. For an unsupported version v the text is exactly Found version v while HL 1.12 supports up to 5. The output is not bounded by a polynomial in the size of the file: for every n below 8192 some accepted file of at most 6*n+25 bytes with a single function makes it longer than 2^n characters.", "quantifier": "every input, profile and recorded error; every table of printable characters; every function with valid strings", "why_tests_cant": "texts can be ambiguous (quotes, separators and line breaks in names); tests print a few functions", "anchors": ["crates/brass/src/code.rs: read (lines 622-629, 767-768)", "crates/brass/src/types.rs: derived Debug of HLFunction, ValueType, ValueTypeU, ObjField, ObjProto, EnumConstruct, FuncField, TypeKind", "crates/brass/src/op.rs: derived Debug of Op, Opcode"]}
{"id": "C108", "title": "Each lookup copies a whole table", "statement": "Every lookup of a type or of a string in Code::read copies the whole table (or the whole string cache) with clone() and takes one entry of the copy. For an accepted file with n types the copied type tables are, in order: while type number i (from 0) is read, a table of n+i entries for each type it refers to (except possibly a super type that is missing in the result), then the full table of 2*n entries once for each global, native, function and register. The string table is copied twice for each native, and once for each entry that the string cache gains. The string cache is copied once for each name in a declared type, each time with at least as many entries as strings are declared and at most as many as it has in the end. On any input at most two tables per byte are copied; for accepted files the copies of the type and string tables have at most 4*length^2 entries; but the copies of the string cache are not bounded by the length: for all n and m an accepted file of at most 24+2*m bytes makes Code::read copy m caches of at least n entries, so 221 bytes are enough for 2*10^11 entries.", "quantifier": "every input, every recorded error, both build profiles; all n and m that an index can express", "why_tests_cant": "exact counts and bounds over all inputs", "anchors": ["crates/brass/src/code.rs: read, get_type, read_string, get_string, read_ustring, get_ustring, read_type"]}
{"id": "C109", "title": "Hashing compares types by searching the whole table", "statement": "On an accepted file on which CodeHash::alloc returns, it compares types exactly in its linear searches through the type table: one search for each component of each declared type (arguments and results of functions, fields of objects and structs, parameters of enum constructors, targets of references and nulls), for each global of an abstract type, for each object, struct and enum, and once more for each global, in this order; each search compares the type with the entries of the table up to the first equal one. It copies the whole module once, the functions once for each function, the natives once for each native, the types twice for each type and the globals once for each global. A search makes at least one comparison and at most one for each declared type; a file of L bytes leads to at most 3*L searches and 3*L^2 comparisons. One comparison of two types looks at at least one type and at most at all types that either is made up of, at all of them if they are equal, and its result is whether they are equal. So the hash is not computed in polynomial time: for every n below 8191 some accepted file of at most 6*n+26 bytes makes alloc return only after comparing two equal types that consist of 2^n-1 types.", "quantifier": "every accepted input on which alloc returns; every pair of types; every n below 8191", "why_tests_cant": "exact counts and bounds over all inputs; the worst case takes too long to run", "anchors": ["crates/brass/src/code_hash.rs: CodeHash::alloc, hash_type_rec, code_hash_type", "crates/brass/src/types.rs: derived PartialEq of ValueType, ValueTypeU, ObjField, EnumConstruct"]}
{"id": "C110", "title": "The numbers of types do not matter", "statement": "Types are referred to by their number in the module. If types are added to a module (anywhere, changing the numbers) and strings, globals, natives and functions are added behind the others, everything that was there decodes as before: each type under its new number, the globals, the natives, and the functions except for the operands that are numbers of types (OType). Equal types have equal entries in type_hashes, wherever they are and in whatever modules. If the types are only put into another order, the decoded module is the same up to this order, these operands and the string cache; CodeHash::alloc returns for both modules or for none; each type has the same hash, functions_indexes is the same, hash_native and (if the operands of OType are numbers of types) hash_fun give the same results, and globals_signs is the same if no two different types belong to the same global. Without this condition it need not be the same.", "quantifier": "every pair of modules that Code::read reads correctly (C113), in which types only refer back, and every renumbering", "why_tests_cant": "The hashes are meant to be order-independent (the comment in alloc says so); tests cannot try all orders of all type tables", "anchors": ["crates/brass/src/code_hash.rs::CodeHash::alloc", "crates/brass/src/code_hash.rs::CodeHash::hash_fun", "crates/brass/src/code_hash.rs::CodeHash::hash_native", "crates/brass/src/code.rs::Code::read"]}
{"id": "C111", "title": "The numbers of strings and integers do not matter", "statement": "Strings and integer constants are referred to by their number in the module. If they get other numbers (and possibly more are added), the decoded module is the same except for the pools and for these numbers in the instructions (OInt, OString, ODynGet, ODynSet), in the fields of constants and in the string cache: names in types and natives are the same texts. If CodeHash::alloc returns for the first module, it returns for the second with the same type_hashes, globals_signs and functions_indexes, and hash_native and hash_fun give the same results (functions that can be hashed). The second module must be one that is read correctly: exchanging two strings can change the order of lookups, and then a type can be decoded with the name of another (C35).", "quantifier": "every pair of modules that Code::read reads correctly (C113) and every renumbering", "why_tests_cant": "Tests cannot try all pools and all renumberings; the cache of strings makes the numbers observable in some orders", "anchors": ["crates/brass/src/code_hash.rs::CodeHash::alloc", "crates/brass/src/code_hash.rs::CodeHash::hash_fun", "crates/brass/src/code_hash.rs::CodeHash::hash_native", "crates/brass/src/code.rs::Code::read", "crates/brass/src/code.rs::get_ustring"]}
{"id": "C112", "title": "What is read if the names are not looked up in order", "statement": "Names in types go through the cache of looked up strings (C35). Whatever the order in which the types of a module refer to their names, Code::read on its serialisation returns Ok, consumes exactly the serialisation, and returns the module as in C43 in every respect (pools, type references, globals, natives, functions, constants, all numbers), except that each name in a type is the string found for it in the cache: the names in the decoded types, in the order of the file, are exactly the strings the lookups of C35 return. The module is read correctly if and only if for every name a string with the right text is found (if no two strings are equal: every name is found as itself); names referred to in order are enough for that, but not necessary.", "quantifier": "every module of every size that satisfies the bounds of C43, with its names in any order; every trailing input", "why_tests_cant": "the wrong names depend on the whole history of lookups, over all types of a file", "anchors": ["crates/brass/src/code.rs::Code::read", "crates/brass/src/code.rs::get_ustring", "crates/brass/src/code.rs::read_type"]}
{"id": "C113", "title": "Exactly which modules are read correctly", "statement": "A module may have any version, any integers and floats, and any counts, sizes and numbers that a HashLink index can hold (below 2^29), with references to things that exist. Code::read returns on its serialisation the module as it is (C43) if and only if: its version is 2 to 5; all its counts, string sizes and other numbers are below 0x2000, in absolute value if they can be negative; its integers fit in 32 bits and its floats in 64; it has no bytes before version 5, no constants before version 4 and no debug files without debug info; it declares debug info, or a type, global, native, function or constant; and for each name in its types a string with its text is found in the cache of looked up strings (C112). So a single larger number anywhere makes the result wrong, or the read fail. (It is assumed that debug positions are of the supported forms of C42, and that the numbers of the assignments, which are skipped, are small.)", "quantifier": "every module that can be written, every continuation of the file, both build profiles", "why_tests_cant": "the converse of the round trip: no wrong reading, however it goes on, ends with the right result", "anchors": ["crates/brass/src/code.rs: read, read_type, read_function, read_opcode, read_strings, get_ustring", "crates/brass/src/decoder.rs: read_index, read_uindex"]}
{"id": "C114", "title": "The size of the current hole", "statement": "At any time in the life of a block (C95) current_hole_size returns a number k (it neither panics nor wraps around), and there are k bytes of the block, from some address on, such that: a request of at most k bytes is answered with this address, and the hole gets smaller by its size; a request of more than k bytes is refused or answered with an address behind these bytes, and if it is answered the k bytes are lost, no later request gets them. For a new block k is 32752, for a block that has just been recycled it is 0.", "quantifier": "every history of requests and collections of a block, every size of the next request, every later sequence of requests, both build profiles", "why_tests_cant": "must hold in every state a block can get into, whatever the line marks are", "anchors": ["crates/stickyimmix/src/bumpblock.rs: current_hole_size, inner_alloc, new", "crates/stickyimmix/src/heap.rs: find_space"]}
{"id": "C115", "title": "Allocation looks at few line marks", "statement": "Any sequence of requests to one block, marked in any way, reads at most 341 line marks in total and none more than twice as long as no request is refused; each refused request adds at most one look at each of the 256 marks. (341 and twice are attained; a block without holes is searched anew by every request.) A request that fits into the current hole reads none. One search for a hole reads the marks from its starting place on in order, up to the marked line that ends the hole it finds, or to the end of the block if it finds none. The heap itself never reads a line mark: no request to one of its blocks, after any history of calls, does.", "quantifier": "every state of a block, every pattern of line marks, every sequence of requests; every history of calls of a heap; both build profiles", "why_tests_cant": "the worst case over all mark patterns and all request sequences; a test measures a few of them", "anchors": ["crates/stickyimmix/src/blockmeta.rs: find_next_available_hole", "crates/stickyimmix/src/bumpblock.rs: inner_alloc", "crates/stickyimmix/src/heap.rs: find_space, overflow_alloc"]}
{"id": "C116", "title": "Requests to a block whose size overflows", "statement": "A block computes the end of a request, start + size, before it compares it with the limit. If this overflows usize in the current hole, or does not there but first in a later hole that the request gets to, then inner_alloc panics if overflow checks are on; otherwise it answers with the start of that hole's free part although nothing of this size fits, and moves the cursor back by 2^64 - size. So memory is handed out twice: after a request of 2^64 - k bytes, the next k bytes that are requested are the k bytes before the cursor. In all other cases, whatever the size, the request is placed by next fit (C92). (The heap never makes such a request, cf. C01 and C07.)", "quantifier": "every state of a block, every pattern of line marks, every size below 2^64, both build profiles", "why_tests_cant": "all sizes, and every hole in which the sum may overflow first", "anchors": ["crates/stickyimmix/src/bumpblock.rs: inner_alloc", "crates/stickyimmix/src/blockmeta.rs: find_next_available_hole"]}

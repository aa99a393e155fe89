# Formal model of darmie/brass_vm in Lean 4

`properties.jsonl` lists the properties (C01, C02, ...), `MANIFEST.json` the theorems that prove each one. A theorem's name starts
with the number of its property: `c17_refused_iff_full` belongs to C17.

## 1. What is modelled

Two crates, function by function. Every definition of the model cites the file and lines of `/repo` it models, and says where it
simplifies.

| Lean module | Rust source |
|---|---|
| `Verif/Rust.lean` | panics, `unwrap`, overflow of `usize` additions in both Cargo profiles |
| `Verif/Immix/Basic.lean` | `stickyimmix`: constants.rs, allocator.rs, blockalloc.rs, the example header of the tests |
| `Verif/Immix/BlockApi.lean` | blockalloc.rs: `size`, `as_ptr`, `from_raw_parts` |
| `Verif/Immix/BlockMeta.lean` | blockmeta.rs (line marks, hole search) |
| `Verif/Immix/BumpBlock.lean` | bumpblock.rs |
| `Verif/Immix/Scan.lean` | blockmeta.rs `find_next_available_hole` and bumpblock.rs `inner_alloc` once more, with the line marks they read |
| `Verif/Immix/RawPtr.lean` | rawptr.rs |
| `Verif/Immix/Unwind.lean` | heap.rs `alloc`, `alloc_array` once more, with header constructors that panic, and the fate of the value passed in |
| `Verif/Immix/Reentrant.lean` | the same in two halves, before and after the header constructor, which may use the heaps itself |
| `Verif/Immix/Heap.lean` | heap.rs (block list, head/overflow/rest, alloc, alloc_array, header/object conversion, drop) |
| `Verif/Brass/Types.lean` | `brass`: types.rs (data), errors.rs, native.rs, the `Code` structure |
| `Verif/Brass/Op.lean` | op.rs (opcodes, `TryFrom<u8>`, `OP_NARGS`) |
| `Verif/Brass/Monad.lean`, `Decoder.lean` | decoder.rs; state = rest of the input, position, `Code` under construction, `static mut ERRORS` |
| `Verif/Brass/Par.lean`, `ParCode.lean`, `Threads.lean` | decoder.rs and code.rs once more, with every access to `static mut ERRORS` as a separate step, and processes of several threads |
| `Verif/Brass/Utf8.lean` | the functions of `std` used by code.rs (`String::from_utf8_lossy`, splitting at NUL) |
| `Verif/Brass/Code.lean` | code.rs: everything from `Code::read` down |
| `Verif/Brass/Requests.lean`, `Print.lean`, `Copies.lean`, `Lookups.lean` | code.rs `read` once more, with the tables it requests with `vec!`, with the lines it prints, with the modules it copies with `clone()`, and with the tables it copies to look up an entry |
| `Verif/Brass/HashWork.lean` | code_hash.rs `CodeHash::alloc` once more, with every comparison of two types and every `clone()` of a table; the derived `PartialEq` of types, with the number of types it looks at |
| `Verif/Brass/DebugText.lean` | the `Debug` implementations derived in types.rs and op.rs and the parts of `core::fmt` they use: the text of printed lines |
| `Verif/Brass/Crc.lean` | `crc32fast::Hasher` and the integer writers of `std::hash::Hasher` |
| `Verif/Brass/TypeHash.lean` | types.rs `ValueType::hash` |
| `Verif/Brass/CodeHash.lean` | code_hash.rs: `alloc`, `finalize` and everything they call |
| `Verif/Brass/FinalizeUnwind.lean` | `finalize` once more, with what it leaves behind when it panics |
| `Verif/Brass/Compiler.lean`, `Reinit.lean` | compiler.rs: `HLModule::new`, `init`, `init_globals`, `translate_global`; `init` and `init_globals` once more with the module they leave behind when they panic |

The other modules under `Immix/` and `Brass/` contain lemmas (invariants, the correspondence of decoder and grammar, step lemmas of
`alloc`). `Verif/Spec/` contains the specifications. They use the data types of the model but none of its functions, except that client programs
(`Spec/Heap`, `Spec/Heaps`, `Spec/Blocks`, `Spec/Calls`) call the public functions. Apart from literal example files, everything a property theorem
mentions is defined in the model or in `Verif/Spec/`. The tables of the model
(`Op.lean`, `Types.lean`) are proved equal to those of `Spec/Base.lean` in `Brass/SpecEq.lean`, `from_utf8_lossy` to its specification in
`Brass/Lossy.lean`. `Verif/Props/` contains the property theorems and, next to them, the examples showing that their
hypotheses are met; `Props/Witness.lean` and `Props/HeapWitness.lean` apply the general theorems to concrete files and heaps.

| Specification | Content |
|---|---|
| `Spec/Heap.lean`, `Spec/Placement.lean` | client programs, what the objects of a history are, abstract placement by two bump pointers |
| `Spec/Blocks.lean` | programs that use `Block` values, contract of a system allocator that reuses memory |
| `Spec/Heaps.lean` | programs with several heaps, caught panics, dropped heaps and a system allocator that reuses memory |
| `Spec/Reentrant.lean` | programs whose header constructors use the heaps: calls in progress, nested to any depth |
| `Spec/Separate.lean` | the record of all calls of a process, and the abstract allocator of one heap that sees only the sizes and answers of this heap |
| `Spec/Layout.lean` | the contract of `std::alloc` |
| `Spec/Hole.lean` | line marks as a set, holes, what the recycled part of a block may hand out |
| `Spec/Encode.lean`, `Spec/Header.lean`, `Spec/Module.lean`, `Spec/Elab.lean` | HashLink's number encoding, header and module serialisation (written from the format), and what a module should be decoded to |
| `Spec/Writable.lean` | Which modules can be written to a file (C113) |
| `Spec/Grammar.lean` | exactly which byte strings `Code::read` accepts, as an attribute grammar |
| `Spec/Size.lean` | number of values a type consists of, nesting, number of entries of all tables |
| `Spec/BadNumbers.lean` | which numbers of the natives and of a function are wrong; types without a kind |
| `Spec/Fault.lean` | what an error (kind and position) says about the bytes of a file |
| `Spec/Alloc.lean` | every field of the result of `CodeHash::alloc` |
| `Spec/Report.lean` | sections with faults marked in their bytes, which fault is reported, exactly which files are rejected and with which error |
| `Spec/LeftBehind.lean` | exactly which files make a read panic and which error is left recorded; one call, sequences of calls |
| `Spec/Work.lean` | the accesses to the error record of a call that runs alone |
| `Spec/Requests.lean` | the tables of a module whose length is taken from the file |
| `Spec/Print.lean` | files of an unknown version, files that reach to the end of a function |
| `Spec/DebugText.lean`, `Spec/DebugFormat.lean` | the strings in a function, when they are texts; the text of a function as templates |
| `Spec/Renumber.lean`, `Spec/Pools.lean` | modules with other numbers for their types, and with additions; modules with other numbers for strings and integers |
| `Spec/Copies.lean`, `Spec/Lookups.lean`, `Spec/HashWork.lean` | the modules that are copied while a file is read, stated in terms of the result; the same for the tables copied by lookups; and for the comparisons and copies of `CodeHash::alloc` |
| `Spec/Same.lean` | when two modules are the same for a reader |
| `Spec/Cut.lean` | places at which a file can end too early, incomplete files |
| `Spec/Collect.lean` | objects covered by marks, the life of a block that is collected and used again |
| `Spec/Base.lean` | the tables and conversions all other specifications use: opcodes and kinds with their numbers, operand counts, UTF-8 with replacement, two's complement |
| `Spec/Calls.lean` | calls of the decoder: the functions that read, sequences of lookups, files read alone and by threads |
| `Spec/Compiler.lean` | the globals `HLModule::init` can handle, and their names |
| `Spec/Reinit.lean` | what calls of `init` and `init_globals` declare and load, and how far they get |
| `Spec/Answered.lean` | a module with the names in types replaced by those found for them |
| `Spec/Text.lean` | how a text is cut into strings, which names a type consists of |
| `Spec/Crc.lean` | CRC-32 as remainder of polynomial division over GF(2) |
| `Spec/Hash.lean`, `Spec/CodeHash.lean`, `Spec/Preimage.lean` | well-formed types and functions, when a module is hashable, and the bytes whose CRC-32 each hash is |
| `Spec/Unfinished.lean` | what a panicking `finalize` has computed |

### Modelling decisions

* `usize` is 64 bits. Sizes and addresses are `Nat`; additions that can overflow go through a checked addition with a `Profile`
  argument (`dev`: overflow panics, `release`: wraps). Conversions (`as i32`, `as usize`, `try_into`) are modelled with their
  wrapping or failing behaviour; `f64 as i32` saturates.
* A panic (`unwrap` on `None`/`Err`, index out of range, `assert!`, `expect`, `todo!`, capacity overflow of `Vec`) is an explicit
  outcome. In `Code.lean` it carries no state (C30 is about reads that return `Ok` or `Err`); the value of `ERRORS` after a panicking
  `Code::read` is given by the finer model of `ParCode.lean` (C71). `Sim.read` proves that this model, run alone, is that of `Code.lean`.
* Threads (C72-C74): an access to `ERRORS` is atomic and immediately visible to all threads; everything between two accesses is
  private to a call. (In Rust, racing accesses to a `static mut` are undefined behaviour; the theorems say what interleaving can do.)
* `&mut` becomes a returned value; `static mut ERRORS` is a field of the decoder state, so histories of `Code::read` can be stated.
* The system allocator is a parameter: an answer (`none` = null, or a base address) for each call. Its contract (aligned,
  non-null, inside the address space, disjoint from the other blocks still allocated) is an explicit hypothesis of the theorems.
* Memory is a total function from addresses to bytes with arbitrary initial contents. Clients write only inside their objects.
* A Rust `String` is its list of bytes; an `f64` is its 64 bits; `i32`/`u32` hashes are 32-bit words.
* `crc32fast` computes CRC-32/ISO-HDLC: its model is the bitwise shift register; C46 relates that to the polynomial division.
* cranelift is represented by the list of declared data objects and global values; `declare_data` on a fresh name succeeds.

### Not modelled

`main.rs` (an empty `main`), decoder.rs `file_position` (unused), the unused `FunctionCompiler` structure, allocation failure or stack overflow of
the Rust runtime itself (C84 and C85 bound the size of the result, which is what a call has to allocate at least), the panic of `println!` when standard output is closed, Rust's table of printable characters (a parameter of C107), torn or reordered accesses to `ERRORS` (see above), cranelift code generation, running
time. `HLModule` and `CodeHash` have no other behaviour in the repository at this commit.

C50 (natives) assumes `nfunctions + nnatives <= 2^31`, because positions are converted with `as i32`; C88 covers the conversion.

## 2. Plan and method per property

* C01-C09, C19, C21, C57: invariant over all histories of a client program (`alloc`, `alloc_array`, writes into objects, drop), for
  every sequence of answers of the system allocator and both profiles; C03 is a refinement to a map from pointers to contents.
* C10-C12, C18: arithmetic for all `usize`. C10 and C20 state what the code does (alignment only for header sizes divisible by
  8; the pointer returned by `into_mut_ptr` always dangles).
* C20, C75, C76: invariant over all programs that use `Block` values (obtained = freed + owned as multisets), with a system allocator
  that may reuse freed memory.
* C77-C80: invariant over all programs with several heaps (each heap's own invariant, all blocks disjoint, obtained = freed + owned as
  multisets), interleaved with steps of the rest of the process; C79 and C80 follow.
* C81: invariant of the logs of `alloc` and `dealloc`; "only valid requests" is stated as independence of the answers to invalid ones.
* C82, C83: one traversal of the whole decoder (`Brass/Trav.lean`) for predicates closed under sequencing, used three times: only
  `Some` is ever recorded, only *whether* an error is recorded matters, and all errors lie inside the file; then invariants of all threads.
* C84, C85: lower bounds on the bytes of each phrase of the grammar of C38, added up over the loops; the exponential file is a module of C43,
  the file with 2^31-1 string slots is derived in the grammar.
* C86: a Hoare logic for the interleaved decoder (`Brass/FaultLemmas.lean`, `Brass/FaultFile.lean`) with a flag "an error was recorded or seen"; while the flag is
  down what was read is a phrase of the grammar of C38, which gives the counts against which items are checked. Thread invariant as for C83.
* C87: a second grammar (`Spec/Report.lean`) whose phrases contain fault marks; `Brass/Report.lean` proves that the part of the decoder between two
  checks reads exactly its phrases, `Brass/ReportFile.lean` puts the sections together. `c87_unmarked`: without marks it is the grammar of C38.
  `Props/BadRefs.lean` instantiates it: bad references among the globals or natives of any file that is right before, and of any serialised module;
  `Props/BadFuns.lean` does the same for the numbers of the last function (its instructions are then not read) and of a constant.
  `Props/BadKinds.lean`: unknown kinds in the place of types, and how a bad global hides them (the grammar of types does not look at earlier faults, by induction).
  `Props/BadOps.lean`: unknown instructions in a function; of the functions after it only the numbers before the instructions are read. `Props/BadDebug.lean`: bad items in the debug information of the last function.
* C13, C14, C22: loop invariant of the hole search over all mark patterns; marks refine a set. C15-C17: invariant over sequences of
  `inner_alloc` on a recycled block; C16 gives the exact condition under which the metadata word is kept.
* C23, C29, C31: one compositional predicate on decoder actions (consumes a prefix, error flag sticky, stable under extension of the
  input), proved for each primitive and lifted to each function of code.rs. C27, C28: the same for truncated inputs.
* C38: equivalence of `Code::read` with the attribute grammar, by induction over all loops of code.rs; C26, C30, C32, C34, C36, C37,
  C40, C41, C44, C45, C60 are derived from it.
* C24, C25, C33, C39, C42, C43: round trips against an independent encoder. C25 and C42 are exact (they characterise the values and
  debug streams that work, and show that all others do not).
* C35: state machine of the string cache over all lookup sequences; refinement to slots that hold indexes (`answered` in Spec/Text).
* C46, C47: linear algebra of the CRC register over GF(2), and for two changed bits the order of the register, 2^32 - 1, by
  repeated squaring and the prime factors of 2^32 - 1 (`Brass/CrcOrder.lean`); C47 is then lifted to functions by a transcript semantics of the hash
  functions. C54, C58, C59, C61: the same transcripts.
* C48, C49, C65: induction on types; C66: the two passes over the type table.
* C50-C53, C55, C62, C69, C70: invariants of the loops of `alloc` and `finalize` (last writer per table entry); C51 is an exact
  characterisation of the files on which `alloc` does not panic, C69 of `finalize`, C67/C68 of the hash functions.
* C88: C51, C66, C70 and the invariant of the two loops over `functions_indexes`; the converse because the specified result is unique.
* C91: every part of the reader between the start and the end either returns no error or returns the recorded one (closure under composition).
* C92: `NextFit` (Spec/Hole) lists the four outcomes; induction on the distance of `limit` from the end of the block, as for C17. The outcomes exclude each other (`c92_determined`).
* C93: Spec/LeftBehind. A grammar of marked texts also says where a text cannot be read any further (`F.stop`); `PSem` proves for each function of the interleavable model that it ends without `Ok` exactly there, with the error slot given by the marks so far, by the same structural induction as C87. `Calls` puts C38, C87, C91 and C93 together: an exact description of every sequence of reads.
* C94: Spec/Cut. Beginnings of accepted files. Each grammar of marked texts is deterministic and coherent with extension (`Coh`): if a text can be read with marks up to a place where it stops, every extension read without marks agrees up to there; so the only marks a beginning of an accepted file can have are those about missing bytes (`CutOK.readM`). With C86, C87, C91 and C93 this gives the exact places; the retries are an induction over the history.
* C95: Spec/Collect. An invariant of `Life` (each object is covered or lies before the cursor) by induction with the specification of `inner_alloc` of C14-C17; exactness by next fit (C92): requests of one line each get every reusable line in the end. The collections themselves are not in the code (there is no collector yet): the theorem says what a collector has to do for the code that exists.
* C96: the invariant of C77 (blocks are aligned, in the address space, and contain their objects) and arithmetic of the mask; a concrete program for the exception.
* C97: over the model with single accesses to `ERRORS` (`Brass/ParCode.lean`) a potential argument, two accesses per byte read, for all paths (`Brass/Work.lean`), carried over to the schedules of `Brass/Threads.lean`; exact traces (`Spec/Work.lean`) of accepted files by a second traversal (`Brass/WorkCount.lean`) and of files that end in a pool by induction over the loop. Accesses to `ERRORS` stand for the work: rounds of other loops read at least a byte each, as the loops of the model show; the time of a `Vec` operation is not modelled.
* C98: from the round trip for all modules that are read correctly (`right_roundtrip`, `Brass/Right.lean`, cf. C113), by finding back each entry of the module from what it is decoded to (`Props/Same.lean`): indexes of strings and types because the entries are distinct, instructions by `instrOf`. `Spec/Same.lean` says when modules are the same; it does not mention what they decode to, except that distinct types are compared with their references followed.
* C99: the functions with `vec![x; n]` and their callers once more with a log of all such `n` (`Brass/Requests.lean`), proved equal to the reader of the other properties without the log (`c99_same_reader`); a Hoare logic over value, `decoder.code` and log (`Brass/RequestLemmas.lean`), then the well-formedness of C60 and the size bound of C85. That a request is refused (the process is aborted) is not modelled.
* C100: two relations between the programs of the two profiles, proved function by function (`Props/Profile.lean`): "panics or does the same", and "the same on at most L bytes", where the invariant of the debug loop is that the line plus 31 times the bytes left stays below 2^31. The files on which they differ are run through the model symbolically, by induction on the number of rounds.
* C101: the two halves of a call of `alloc` (before and after the header constructor) are separate steps, so that anything may happen in between. By simulation with C77: a state with running constructors looks like one of a program in which a call stores in its space what is there already, and header and object are stored later.
* C102: a version of `finalize` that returns the state also when it panics, proved to agree with the first one; the loops fill their tables from the left (`filled`), the entries characterised by C67/C68; the first two loops depend on neither table (`unwind_tables`).
* C103: one record of the calls of all heaps (`Spec/Separate.lean`). Each first half of a call is a step of the abstract allocator of C63 (`allocEnter_agrees`); the abstract allocator looks at no answer but the next one (`put_shift`), so the steps in one heap are those of an allocator that sees only the answers to this heap; everything else keeps the places of all slots. The statements do not mention cursors or block lists except as the set of blocks held.
* C104: the two functions with `println!` and their callers once more with the list of printed lines (`Brass/Print.lean`), proved equal to the reader of the other properties without it (`c104_same_reader`). The output is that of the version check and that of the loop over the functions; `readFunction` and `readFunctionDebug` return the same on every continuation of their input, even with recorded errors (`ExtAll`), which gives the prefix property; everything before the functions returns without a recorded error or not at all. The exact crash point (`c104_crash_point`) is stated with the grammar of C24: a line is printed iff a beginning of the cut file is a phrase that ends with that function.
* C105: the functions with `clone()` of a module and their callers once more with the list of copied modules (`Brass/Copies.lean`), proved equal to the reader without it (`c105_same_reader`). Each round of the five loops copies the module before and/or after; an induction over the loop with the grammar of C24 gives the list of copies in terms of the result (`copiesOf`), up to the cache of strings; counts and sums follow. The bound for arbitrary inputs is an amortised argument: each round reads at least one byte for its at most two copies (`Cost`). The quadratic file is built in the grammar. Copies of tables by lookups are the subject of C108; copies of single types and strings are not counted.
* C106: `init` and `init_globals` with the module they leave behind (`Brass/Reinit.lean`), proved equal to those of C56 where these return (`c106_same_init`). Induction over the calls; within a call, induction over the globals, with the data objects of earlier calls already declared (`declare_data` finds them again).
* C107: a printed value becomes a tree, as in `core::fmt`, and the tree a text (`Brass/DebugText.lean`). The text of a tree determines it: induction over two trees with
  arbitrary text behind them (`Dbg.unique`: unique readability); the tree determines the function if its strings are UTF-8 (`HLFunction.dbg_inj`), and they are, for every input,
  by a Hoare logic for the decoder (`Brass/DebugTexts.lean`). The exponential output is that of `bomb n` of C84 with a function. The texts are proved equal to templates written independently (`Spec/DebugFormat`).
* C108: the functions that clone a table to take one entry and their callers once more with a log of the copied tables (`Brass/Lookups.lean`), proved equal to the reader without it (`c108_same_reader`). A log of a reading function is summed up by three numbers (types, strings, names looked up) that depend only on its result (`Summed`, `Brass/LookupLemmas.lean`); induction over the loops (`Brass/LookupFile.lean`). Bound for arbitrary inputs: each lookup reads a byte for its at most two copies (`Pays`). The file with the large cache copies is built in the grammar.
* C109: `CodeHash::alloc` and the functions it calls once more with a log (`Brass/HashWork.lean`), proved equal to `alloc` (`c109_same`). The log of each function, if it returns, is determined by the types of the module (`HLogs`, `Brass/HashWorkLemmas.lean`); for accepted files these are well-formed (C60). The counted comparison is bounded by induction over both types (`Cmp`, `Brass/CompareLemmas.lean`). The number of searches is bounded through C85 and C108. For the exponential file, `c43_file_roundtrip` gives the decoded module and C51 that it can be hashed. Copies of single entries and the time of the hash function itself are not counted.
* C110: a renumbering of type numbers acts on the module descriptions of C43 (`Spec/Renumber.lean`); induction on the number of a type (types refer back) shows that a type decodes to the same value under its new number; the rest is by the round trip (`right_roundtrip`) and the specification of `alloc` (C88), whose clauses are invariant.
* C111: as C110, for the numbers of strings and integers (`Spec/Pools.lean`); the decoded types are equal by induction over the list of types, and the clauses of C88 are invariant, constants included.
* C112: the round trip of C43 for every order of names: a phrase is read in a state of the slots of C35, with the names that the slots give (`Enc`, `Brass/Enc.lean`); C43 is the special case in which each name is found (`asAnswered_good`). C36 also holds for every order of names. If for each name a string with the same text is found, the decoded module is the module itself (`asAnswered_decoded`); this is also necessary.
* C113: for each phrase of the grammar of C38 (`Back`, `Brass/Back.lean`): if it is read where the serialisation of an item stands, and its value is that of the item, then it is exactly this serialisation and the item's numbers are small. An index of four bytes is read as four bytes but with a wrong value (C25), so it cannot shift the rest. Added up over header, loops and sections in `Brass/Exact.lean`; the other direction is C112.
* C114: the invariant of C95 (cursor ≤ limit, free bytes in between) and the complete description of one request.
* C115: the hole search and `inner_alloc` once more with a log of the lines whose mark is read (`Immix/Scan.lean`), proved equal to the functions without it (`c115_same`). The log of one search by induction over the loop; the totals by a potential (`stillLooks`, `stillSeen`): a search that starts in a marked line finds no hole that ends within the next two lines.
* C116: as C92, with the sum that wraps around; `nextFit_of_noOverflow` is C92 for all sizes whose sums do not overflow, `c116_cases` says that the three cases are all there are.
* C89: the recursive cutting of the replaced text, by induction on the number of strings; C90: invariant of the string cache over all types.
* C56: induction over the globals.
* C71: the finer model run alone; C72, C73: invariants of all threads under every schedule, from a big-step semantics with
  interference that never erases an error; C74: induction on the finitely deep, infinitely branching tree of accesses of a call.
* C63: refinement of the heap to the two-bump-pointer allocator (same addresses, errors and block requests for every program);
  C64: amortised argument over the abstract allocator.

All 116 properties are proved in full; none is partial. Properties whose first formulation turned out to be false were reworded to
what the code does, with the counterexample kept as a theorem (next section).

## 3. Defects found

The following are theorems about the model, i.e. the code at this commit behaves like this.

| Property | Behaviour |
|---|---|
| C10 | objects are misaligned if the header size is not a multiple of 8 |
| C16 | allocation in a recycled block can hand out the word in which the block's metadata pointer is stored (`c16_metadata_word_handed_out`) |
| C20 | `Block::into_mut_ptr` returns a pointer to memory that has just been freed |
| C81 | `Block::new(2^63)` passes a `Layout` that is not allowed (undefined behaviour) |
| C76 | `from_raw_parts` on that pointer leads to a double free |
| C25, C33 | variable-length indexes from 0x2000 on (and negative ones) are decoded wrongly (`c25_large_wrong`), so long strings are misread |
| C105 | reading a module takes time at least quadratic in its size (`c105_quadratic`), exponential for nested types (`c105_deep`) |
| C108 | every lookup of a type or string copies a whole table; 221 bytes can make a read copy 2·10^11 entries of the string cache (`c108_large`) |
| C109 | component types are looked up by value: computing the hash of a file of 206 bytes can take 2^30 comparisons of types (`c109_exponential`) |
| C110 | if two different types belong to the same global, its signature depends on their order (`c110_order_matters`) |
| C111 | exchanging two strings of a module (and all references to them) can give a type the name of another (`c111_order_matters`, from C35) |
| C107 | a file of 6 n + 25 bytes can make a read print more than 2^n characters (`c107_exponential`) |
| C106 | a second `init_globals` adds all global values again |
| C27 | truncated files can panic instead of returning an error (`c27_panics`) |
| C30 | an error recorded by one read makes every later read fail, with the error of the earlier file |
| C71 | this holds also after a panic that is caught (`c71_panic_poisons`) |
| C73 | a good file can be rejected with the error of a file read by another thread (`c73_error_of_another_thread`) |
| C71 | a file of just "HLB" makes `Code::read` panic and all later reads in the process fail (`c71_missing_version_poisons`) |
| C82 | a good file can make `Code::read` panic because of a bad file read by another thread (`c82_panic_of_another_thread`) |
| C91 | a rejected file spoils all later reads, except for a wrong magic or version or a missing size of the byte table (`c91_later`) |
| C92 | a refused request to a recycled block gives up all free lines before the last hole (`c92_given_up`) |
| C93 | a panic caught by the client leaves the faults of the unfinished section recorded, and then no file is accepted any more (`c93_left_behind`, `c93_never_accepted_again`) |
| C94 | reading a file too early, at an unlucky moment, makes the process refuse the complete file later (`c94_accepted_iff`) |
| C96 | the masked pointer of an empty object at the end of a block points behind the block, possibly to a block of another heap (`c96_other_heap`) |
| C97 | a file of 16 bytes that announces 2^31 - 1 ints keeps the decoder busy for 2^31 rounds after the end of the file (`c97_sixteen_bytes`): the loop of code.rs:683-687 does not stop at the first error |
| C87 | of several faults in a section the last one is reported (an unknown type kind only if there is no other fault), so an error often is a consequence of an earlier one |
| C84 | a file of 6n + 20 bytes can decode to a type of more than 2^n values (`c84_exponential`), so reading it exhausts the memory |
| C85 | 22 bytes are enough to make `Code::read` allocate 2^31 - 1 slots of the string cache (`c85_string_slots_max`) |
| C99 | 20 bytes are enough to make `Code::read` allocate 2^31 - 1 types before it looks at the first of them (`c99_types_max`) |
| C100 | debug line numbers overflow in files of 69 MB or more: panic or negative line, depending on the build (`c100_differs`) |
| C34, C38 | a string pool with fewer strings than declared is accepted, and references to the missing ones panic |
| C35 | string lookups out of order return the wrong string (`c35_out_of_order`; `c35_wrong_field_name` in an accepted file) |
| C36 | a type that refers to a later type gets the default type instead (`c36_forward_reference_lost`) |
| C37, C45 | type and global tables have twice the declared length; the debug file lengths are always empty |
| C42 | debug streams with runs or absolute lines above 255 are decoded wrongly |
| C44 | a file with constant pools only is decoded to the empty `Code` |
| C48, C61 | the kind is not hashed: all primitive types collide, so do methods with functions, structs with objects, nulls with references |
| C51 | `CodeHash::alloc` panics on files with forward references in types, object or enum types without global, entry point in a native, ... |
| C52 | `finalize` panics on every decoded file |
| C53 | the signatures of natives overwrite those of the first functions |
| C58 | float constants are hashed from pool slots 2i and 2i+1 |
| C59 | a function that calls a native cannot be hashed |
| C62 | hashes of functions do not cover callees defined later |
| C70 | the signature of a global of abstract type is 0 |

## 4. Testing the theorems

The model was also run (outside the proofs) on `/repo/example/bin/test.hl`, the file of the only test of the brass crate: it decodes
header, pools, debug files, types, globals and natives and then loses its place in the debug information of the first functions, because
runs of instructions are not expanded (C42), and panics.

`seeded/LOG.jsonl` records edits of the model (in a scratch copy) that make a claim false, and the theorems that then fail to
compile. C63 and C65-C70 were added because of edits that the earlier theorems did not notice.
For the entries from `ao` to `az` only the modules of the claim that breaks were rebuilt, so theorems of other claims may fail as well.

## 5. Trusted base

* Lean 4.33.0's kernel. Axioms: at most `propext`, `Classical.choice`, `Quot.sound`; `AXIOMS.md` lists them for each theorem. No axioms of our own, no `native_decide`, no
  compiled code: examples on concrete files are evaluated by the kernel (`decide +kernel`).
* The reading of the Rust code: the correspondence of the definitions with `/repo` is not machine-checked. Every definition carries
  its citation so that it can be compared.
* The specifications in `Verif/Spec/`, and for round trips the description of the HashLink format there.
* The modelling decisions and omissions of section 1.

PARTIAL = set()
NOTES = {
"C01": "All modes, keys, inputs that fit in memory, SIMD platforms and pointer widths.",
"C04": "Any number of reads up to 2^58 - 1, debug and release builds.",
"C05": "",
"C06": "Any interleaving of read and to_hash.",
"C07": "At the level of the intrinsics used by sse41.rs.",
"C08": "Equality of results including panics; out-of-bounds raw accesses are an error of the model.",
"C09": "The specification is the 4x4 matrix form of the rounds, in Verif/Spec.lean.",
"C10": "Corollary of the exact results: every debug assertion, bound, capacity and overflow check is modelled.",
"C12": "Debug: panic at read number 2^58. Release: the stream repeats with period 2^64 bytes.",
"C33": "",
"C34": "",
"C35": "",
"C02": "All slicings, modes, platforms, reads; equality with the specification and with the one-shot functions.",
"C03": "Programs are lists of calls on any number of hashers and outputs, checked against a state of byte strings.",
"C11": "Every debug assertion, overflow, bound and capacity check of the code is modelled.",
"C22": "write_all is std's provided method.",
"C36": "The n chunks are those whose hashes are in the stack.",
"C13": "Any slicing of the input, any output slice; equality with the library's one-shot functions and Hasher; exact limit of 2^64 bytes.",
"C14": "No bound on input or output length. For Python's recursion limit see C46.",
"C37": "Documents a shortcoming: keys of the wrong length.",
"C18": "All 2^256 values; unhex is a separate decoder of either case.",
"C19": "Both PartialEq instances; also reflexive, symmetric, transitive. Timing is not modelled.",
"C20": "Arbitrary finite event-list readers and arbitrary write_all implementations. Readers that never end or react to the buffer: C78.",
"C21": "Also from a hasher that already holds input, and after a read error.",
"C23": "Debug and release builds; C25 extends it to the whole program.",
"C24": "Documents a shortcoming.",
"C25": "docopt parsing is not modelled; write errors on standard output in C48; standard input is shared between several '-' arguments.",
"C26": "hex::decode and the length check; rejection for the whole program.",
"C27": "Also covers standard input; a file whose mapping fails is an error (no fallback), see Gives.noMap.",
"C31": "The block pointer may point into a longer object. At the level of the intrinsics.",
"C32": "Contract of the callers as HashManyPre; the hasher's table and the tests' tables meet it. Out-of-bounds accesses are an error of the model. NEON for little-endian ARM; see C53 for big-endian.",
"C29": "Arbitrary key and flags byte; C29_modes for the library's modes; C29_wrapper_eq_rust for src/c.rs against the Rust Hasher.",
"C30": "Documents a shortcoming.",
"C38": "Documents a shortcoming; safety below 2^63 bytes is part of C29_wrapper_eq_rust.",
"C15": "Compressions of hash_many on SIMD platforms are recorded per input in the portable order (equal results by C08).",
"C16": "Also across modes, keys, machines and ways of hashing; stated as 'equal hashes imply equal (mode, key, input) or a collision among the recorded calls'.",
"C17": "For whole sessions of updates, finalizations and reads, and for the one-shot functions.",
"C39": "Logs are permutations of the tree's compressions; the traced functions are proved to return what the untraced model returns.",
"C28": "Byte-level interleaving semantics of join at every level of the recursion; C28_every_schedule also gives absence of data races and termination. The stealing scheduler itself is not modelled: any interleaving is allowed.",
"C40": "Specification in Spec64.lean, from RFC 7693.",
"C41": "The block pointer may point into a longer object. At the level of the intrinsics.",
"C42": "Contract of the callers as HashManyPre64. NEON for little-endian ARM.",
"C43": "The rounds are a permutation of the state for each block (Proofs/Inject.lean).",
"C44": "Longer inputs are covered by C16 up to a collision of the compression function.",
"C45": "The compression functions themselves are straight-line code in the source; instruction timing is not modelled.",
"C46": "Room is counted in nested calls of hash_recurse, not in bytes of stack. Without the rayon feature.",
"C47": "The RFC is transcribed in SpecBlake2.lean and checked there against published hashes.",
"C48": "The standard library's buffering is modelled in Model/Stdout.lean (both versions of LineWriter). EBADF, which std takes for success, counts as a device that accepts everything; an infinite sequence of interruptions is out of scope.",
"C49": "Documents a shortcoming.",
"C50": "The symbol tables, calls and instruction sets of the C files are transcribed by hand in Model/Build.lean. The C compiler and the linker are trusted.",
"C51": "Documents shortcomings. That rustc's triples for 32-bit x86 start with i386, i586 or i686 is a fact about rustc.",
"C52": "Functions are recorded at the granularity of #[target_feature]. For the rayon feature see C76. The hidden public modules avx2 and sse41 can be called directly and are not covered.",
"C53": "Documents a shortcoming. ByteOrder in Model/SimdNeon.lean gives the memcpy of vectors and words their big-endian meaning (procedure call standards of Arm).",
"C54": "hash4_neon for little-endian hosts (C53 has big-endian ones).",
"C55": "",
"C56": "The events recorded are calls of compress, compress_xof, hash_many, the kernels and ChunkState::fill_buf. The Hasher makes no use of the rayon feature.",
"C57": "Whole chunks only; for the kernels used for parent nodes see C79. For the rayon feature see C76.",
"C58": "Performance means the recorded calls: compress, compress_xof, hash_many, the kernels and ChunkState::fill_buf with their lengths. For the rayon feature see C76.",
"C59": "Compressions are counted in Model/Trace.lean, copies (those of ChunkState::fill_buf and hash_one_chunk) in Model/Isa.lean.",
"C60": "The recorded functions are proved to return what the C model of C29 returns (C60_same_results). A SIMD kernel counts as the compressions of hash_many_portable on the same inputs, with which it agrees (C32).",
"C61": "No statement mentions the specification, apart from the names of the modes. In the test the list of cases, the pipe and the environment are parameters; make_test_input itself fails beyond 4 * (2^32 - 1) bytes.",
"C62": "Time is counted in compressions, as if the lanes of a kernel worked one after the other; scheduling costs nothing. join returns both results; that interleaving cannot change them is C28.",
"C63": "A SIMD kernel counts as the compressions of hash_many_portable on the same inputs, with which it agrees (C32). What happens within a compression is not part of the statement.",
"C64": "Bytes that a test fixes are a parameter of the modelled test. test_reference_impl_size is not modelled. One assertion of test_xof_output and those of test_domain_separation hold for no general reason; for their fixed inputs the kernel computes the compressions.",
"C65": "Compressions are counted in Model/C/Trace.lean, where a SIMD kernel counts as the compressions of hash_many_portable on the same inputs.",
"C66": "The recorded functions are proved to return what the C model of C29 returns (C66_same_results). A build with AVX2 counts as containing the SSE4.1 file, whose functions hash_many_avx2 calls; C50 says when builds link.",
"C67": "Bytes that a test fixes are a parameter of the modelled test. The NEON tests are those of a little-endian machine. The start of a process and temporary files are outside the model: the program is Cli.main on an environment that holds the files.",
"C68": "The search is Spec.Record.message (SpecExtract.lean). The calls of a computation are those recorded by the traced models (C39, C60). The assumption on the record is that no two of its calls collide; nothing is assumed about the compression function otherwise.",
"C69": "Page size, random bytes, shuffle, number of calls and uninitialised memory are parameters; times are not modelled. With overflow checks bench_xof panics at call 2^58 - 1, as proved.",
"C70": "A computation is traced by recording the arguments of every call of compress; that the results are those of the untraced model is C70_same_results. The order of the calls is not stated.",
"C71": "Model/Release.lean has every function with arithmetic or a debug_assert! once more. The command line program and Output::read have the build profile as a parameter elsewhere (C04, C25).",
"C72": "Documents a shortcoming: no check remains when NDEBUG is defined. What happens after a write beyond the object is not modelled.",
"C73": "NEON on little-endian targets.",
"C74": "Documents a shortcoming. NEON on little-endian hosts, or pieces below 2048 bytes. Makes C30, C38 and C72 exact.",
"C75": "Makes C11 exact for builds with checks. Which panic it is beyond the limit is not said (with checks: full stack or overflowing offset).",
"C76": "Orders of recorded events (compressions; functions entered and bytes copied), with every sequential part in its order. That the results do not depend on the interleaving of memory accesses is C28.",
"C77": "The format strings are interpreted by a small model of write!. The types contain no other Debug implementation.",
"C78": "The reader is any state machine that sees the buffer. Exact conditions for running, Ok, Err and panic; C78_lists ties this model to that of C20.",
"C79": "Kernel calls as recorded by Model/Isa.lean. The incremental hasher merges parents one at a time and is not part of the statement.",
"C80": "A shortcoming of the code under C17 and before: hasher_update(self, NULL, 0) with a partial chunk. NEON only on little-endian hosts (see C53), unless no piece has a whole chunk.",
"C81": "C81_code and C81_stream connect the mode with questions (SpecOracle.lean) to the code: with the compression function itself it asks exactly the recorded compressions and returns the hash. The guarantees are about the mode; whether the compression function behaves like a random function is not a question that proofs can settle.",
"C82": "The answers of the holder are output blocks of the mode with questions, C82_answer; with the compression function itself they are what the library returns (C81_code, C81_stream). The probabilities are over the function in the place of the compression function and over the key, which is independent of it. Timing and other side channels are outside (see C19 for comparisons).",
"C83": "C83_indifferentiable is the bound, C83_library ties the first world to the library (streamBlock is what reads return, C06; the hash is the first half of block 0, C82_answer), C83_consistent says that the simulator fits the random output. The simulator is Spec.simulated with Spec.seen (SpecSim.lean). An example shows that the bound fails for a simulator that recognises nothing. Security of protocols in which several parties share no state (multi-stage games) does not follow from this notion.",
"C84": "C84_secret is the bound, C84_mac the consequence for hashes that were not requested. Both are for any finite set of secrets and any jointly injective way to insert them; examples instantiate them with 32 bytes before the input. inserted is made of wordsWith, which C82_answer and C81_stream tie to the library.",
"C85": "C85_second and C85_targets. As in C81 these count functions. The bound for long inputs grows with their length: C85 does not say whether that is necessary.",
"C86": "C86_users is the bound, C86_mac, C86_mac_block and C86_key are its consequences. holders answers with wordsWith, which C82_answer and C81_stream tie to the library. The keys are independent of each other; for keys derived from one another see C88.",
"C87": "C87_struct is about the rules of layout, C87_members, C87_offsets, C87_short and C87_moved about the two structs, C87_uninit about what hasher_init writes, C87_functions, C87_prototypes and C87_names about functions, C87_reference_least and C87_reference_size about the size that the test expects. The declarations are data in Model/Decl.lean. That size_t and usize are the same type, and that compilers follow these rules for repr(C), is assumed; what order rustc chooses for other structs is not.",
"C88": "C88_tree is the bound and C88_mac the consequence for hashes that were not requested. C88_leaf, C88_inner and C88_all say what the answers are, C88_code that the library computes them. With a key from which others are derived, derive_key output is not available to the attacker: block 0 of it would be the derived keys.",
"C89": "C89_same_results ties the recording versions to the model, C89_compress and C89_hash_many compare runs, C89_compress_counts shows what is recorded. The steps are those of the source text: that an addition, a shuffle or an unaligned load takes the same time for all operands, and that compilers do not introduce branches, is outside the model. Accesses to arrays of SIMD registers at literal positions are not recorded.",
"C90": "C90_same_results ties the recording versions to the model, C90_one_shot and C90_session compare runs, C90_operations and C90_operations_incremental count additions and rotations on the portable platform. As in C89 the steps are those of the source text; unchecked arithmetic on lengths, the evaluation of flags and copies of whole structs are not recorded. The stack's loop of merges is written with a bound on its repetitions, proved to be enough by C90_same_results.",
"C91": "Joins the models of build.rs (C50) and of the C hasher (C29, C66): `program` reads the macros off the build. That the compiler accepts and translates the files is trusted. The wrapper's results are tied to the Rust hasher and the specification; the functions entered are those recorded in Model/C/Isa.lean.",
"C92": "C92_compress and C92_hash_many_portable compare with lists written in StepsSpec.lean; C92_hash_many_sse41, C92_hash_many_avx2 and C92_eighth count. The hypotheses (room for the results, no overflow of the offset) are those under which hash_many does not panic, C08_hash_many_spec. The steps are recorded by Model/Steps.lean (C89).",
"C93": "C93_attempts is the bound, C93_attempts_bytes that for the first n bytes of output; C93_library and C93_library_bytes tie the checks to the library. A check compares with Hash.eq, the model of impl PartialEq for Hash. Bounds on questions and attempts are required for all answers that could be given. The time that a check takes is not among the answers.",
"C94": "C94_compare gives the list, C94_check and C94_check_parts compare whole checks, C94_check_result says what they return, C94_to_hex is about printing, C94_same_results ties the recording versions to the model. The loop of the comparison is in the crate constant_time_eq (0.1), which is not in the repository: it is modelled after its published text. As in C89 the steps are those of the source text, not of what compilers make of it.",
"C95": "C95_collision, C95_targets, C95_preimage and C95_second are the bounds; C95_library and C95_library_hash tie the bytes to the library. The bounds hold for a random compression function, not for the one in the code, as in C81. The bound on questions is required for all answers that could be given.",
"C96": "C96_secret is the bound for secrets put into inputs, C96_password its consequence for passwords that are hashed themselves; C96_library and C96_library_hash tie the answers to the library. h58 (the holder performs fewer than 2^58 compressions) leaves a block number that was not requested. That the bound is reached by trying passwords one by one is remarked, not proved. As in C81 the compression function is random.",
}

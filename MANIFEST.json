{"claims": [
  {"property": "C01", "status": "proved", "theorems": ["Baokeshed.Props.C01_one_shot_eq_spec", "Baokeshed.Props.C01_hash_keyed_derive"], "note": "All modes, keys, inputs that fit in memory, SIMD platforms and pointer widths."},
  {"property": "C02", "status": "proved", "theorems": ["Baokeshed.Props.C02_finalize", "Baokeshed.Props.C02_finalize_xof", "Baokeshed.Props.C02_eq_one_shot", "Baokeshed.Props.C02_split_independent"], "note": "All slicings, modes, platforms, reads; equality with the specification and with the one-shot functions."},
  {"property": "C03", "status": "proved", "theorems": ["Baokeshed.Props.C03_histories"], "note": "Programs are lists of calls on any number of hashers and outputs, checked against a state of byte strings."},
  {"property": "C04", "status": "proved", "theorems": ["Baokeshed.Props.C04_reads", "Baokeshed.Props.C04_kth_read"], "note": "Any number of reads up to 2^58 - 1, debug and release builds."},
  {"property": "C05", "status": "proved", "theorems": ["Baokeshed.Props.C05_hash_is_prefix"], "note": ""},
  {"property": "C06", "status": "proved", "theorems": ["Baokeshed.Props.C06_interleaved", "Baokeshed.Props.C06_to_hash_after_read"], "note": "Any interleaving of read and to_hash."},
  {"property": "C07", "status": "proved", "theorems": ["Baokeshed.Props.C07_sse41_compress"], "note": "At the level of the intrinsics used by sse41.rs."},
  {"property": "C08", "status": "proved", "theorems": ["Baokeshed.Props.C08_chaining_values", "Baokeshed.Props.C08_hash_many_spec", "Baokeshed.Props.C08_simd_hash_many", "Baokeshed.Props.C08_no_ub"], "note": "Equality of results including panics; out-of-bounds raw accesses are an error of the model."},
  {"property": "C09", "status": "proved", "theorems": ["Baokeshed.Props.C09_portable_compress", "Baokeshed.Props.C09_platform_compress"], "note": "The specification is the 4x4 matrix form of the rounds, in Verif/Spec.lean."},
  {"property": "C10", "status": "proved", "theorems": ["Baokeshed.Props.C10_one_shot_no_panic"], "note": "Corollary of the exact results: every debug assertion, bound, capacity and overflow check is modelled."},
  {"property": "C11", "status": "proved", "theorems": ["Baokeshed.Props.C11_histories_no_panic", "Baokeshed.Props.C11_no_panic"], "note": "Every debug assertion, overflow, bound and capacity check of the code is modelled."},
  {"property": "C12", "status": "proved", "theorems": ["Baokeshed.Props.C12_debug_last_read_panics", "Baokeshed.Props.C12_release_wraps", "Baokeshed.Props.C12_release_restarts"], "note": "Debug: panic at read number 2^58. Release: the stream repeats with period 2^64 bytes."},
  {"property": "C13", "status": "proved", "theorems": ["Baokeshed.Props.C13_reference", "Baokeshed.Props.C13_reference_long", "Baokeshed.Props.C13_eq_one_shot", "Baokeshed.Props.C13_eq_hasher"], "note": "Any slicing of the input, any output slice; equality with the library's one-shot functions and Hasher; exact limit of 2^64 bytes."},
  {"property": "C14", "status": "proved", "theorems": ["Baokeshed.Props.C14_python", "Baokeshed.Props.C14_length", "Baokeshed.Props.C14_eq_one_shot", "Baokeshed.Props.C14_eq_reference"], "note": "No bound on input or output length. For Python's recursion limit see C46."},
  {"property": "C15", "status": "proved", "theorems": ["Baokeshed.Props.C15_one_shot", "Baokeshed.Props.C15_incremental", "Baokeshed.Props.C15_disjoint"], "note": "Compressions of hash_many on SIMD platforms are recorded per input in the portable order (equal results by C08)."},
  {"property": "C16", "status": "proved", "theorems": ["Baokeshed.Props.C16_collision", "Baokeshed.Props.C16_distinct"], "note": "Also across modes, keys, machines and ways of hashing; stated as 'equal hashes imply equal (mode, key, input) or a collision among the recorded calls'."},
  {"property": "C17", "status": "proved", "theorems": ["Baokeshed.Props.C17_incremental", "Baokeshed.Props.C17_one_shot", "Baokeshed.Props.C17_internal"], "note": "For whole sessions of updates, finalizations and reads, and for the one-shot functions."},
  {"property": "C18", "status": "proved", "theorems": ["Baokeshed.Props.C18_to_hex", "Baokeshed.Props.C18_injective", "Baokeshed.Props.C18_debug"], "note": "All 2^256 values; unhex is a separate decoder of either case."},
  {"property": "C19", "status": "proved", "theorems": ["Baokeshed.Props.C19_eq", "Baokeshed.Props.C19_equivalence"], "note": "Both PartialEq instances; also reflexive, symmetric, transitive. Timing is not modelled."},
  {"property": "C20", "status": "proved", "theorems": ["Baokeshed.Props.C20_copy", "Baokeshed.Props.C20_write_error", "Baokeshed.Props.C20_bad_reader", "Baokeshed.Props.C20_collect"], "note": "Arbitrary finite event-list readers and arbitrary write_all implementations. Readers that never end or react to the buffer: C78."},
  {"property": "C21", "status": "proved", "theorems": ["Baokeshed.Props.C21_copy_hasher"], "note": "Also from a hasher that already holds input, and after a read error."},
  {"property": "C22", "status": "proved", "theorems": ["Baokeshed.Props.C22_write", "Baokeshed.Props.C22_empty"], "note": "write_all is std's provided method."},
  {"property": "C23", "status": "proved", "theorems": ["Baokeshed.Props.C23_print_hex"], "note": "Debug and release builds; C25 extends it to the whole program."},
  {"property": "C24", "status": "proved", "theorems": ["Baokeshed.Props.C24_release", "Baokeshed.Props.C24_debug"], "note": "Documents a shortcoming."},
  {"property": "C25", "status": "proved", "theorems": ["Baokeshed.Props.C25_main", "Baokeshed.Props.C25_stdin"], "note": "docopt parsing is not modelled; write errors on standard output in C48; standard input is shared between several '-' arguments."},
  {"property": "C26", "status": "proved", "theorems": ["Baokeshed.Props.C26_key", "Baokeshed.Props.C26_digits", "Baokeshed.Props.C26_reject"], "note": "hex::decode and the length check; rejection for the whole program."},
  {"property": "C27", "status": "proved", "theorems": ["Baokeshed.Props.C27_mmap_eq_stream"], "note": "Also covers standard input; a file whose mapping fails is an error (no fallback), see Gives.noMap."},
  {"property": "C28", "status": "proved", "theorems": ["Baokeshed.Props.C28_every_schedule", "Baokeshed.Props.C28_internal", "Baokeshed.Props.C28_xof", "Baokeshed.Props.C28_hash"], "note": "Byte-level interleaving semantics of join at every level of the recursion; C28_every_schedule also gives absence of data races and termination. The stealing scheduler itself is not modelled: any interleaving is allowed."},
  {"property": "C29", "status": "proved", "theorems": ["Baokeshed.Props.C29_c_hasher", "Baokeshed.Props.C29_modes", "Baokeshed.Props.C29_wrapper_eq_rust"], "note": "Arbitrary key and flags byte; C29_modes for the library's modes; C29_wrapper_eq_rust for src/c.rs against the Rust Hasher."},
  {"property": "C30", "status": "proved", "theorems": ["Baokeshed.Props.C30_aborts", "Baokeshed.Props.C30_only_then"], "note": "Documents a shortcoming."},
  {"property": "C31", "status": "proved", "theorems": ["Baokeshed.Props.C31_c_compress", "Baokeshed.Props.C31_c_eq_rust"], "note": "The block pointer may point into a longer object. At the level of the intrinsics."},
  {"property": "C32", "status": "proved", "theorems": ["Baokeshed.Props.C32_portable", "Baokeshed.Props.C32_sse41", "Baokeshed.Props.C32_avx2", "Baokeshed.Props.C32_avx512", "Baokeshed.Props.C32_neon", "Baokeshed.Props.C32_agree", "Baokeshed.Props.C32_chunk", "Baokeshed.Props.C32_parent", "Baokeshed.Props.C32_c_eq_rust"], "note": "Contract of the callers as HashManyPre; the hasher's table and the tests' tables meet it. Out-of-bounds accesses are an error of the model. NEON for little-endian ARM; see C53 for big-endian."},
  {"property": "C33", "status": "proved", "theorems": ["Baokeshed.Props.C33_left_len"], "note": ""},
  {"property": "C34", "status": "proved", "theorems": ["Baokeshed.Props.C34_key_words", "Baokeshed.Props.C34_block_words", "Baokeshed.Props.C34_key_roundtrip", "Baokeshed.Props.C34_words_roundtrip", "Baokeshed.Props.C34_key_injective", "Baokeshed.Props.C34_block_bijective"], "note": ""},
  {"property": "C35", "status": "proved", "theorems": ["Baokeshed.Props.C35_hash_many_frame", "Baokeshed.Props.C35_recursion_count"], "note": ""},
  {"property": "C36", "status": "proved", "theorems": ["Baokeshed.Props.C36_memory"], "note": "The n chunks are those whose hashes are in the stack."},
  {"property": "C37", "status": "proved", "theorems": ["Baokeshed.Props.C37_long_key", "Baokeshed.Props.C37_short_key"], "note": "Documents a shortcoming: keys of the wrong length."},
  {"property": "C38", "status": "proved", "theorems": ["Baokeshed.Props.C38_overrun", "Baokeshed.Props.C38_wrapper_overrun"], "note": "Documents a shortcoming; safety below 2^63 bytes is part of C29_wrapper_eq_rust."},
  {"property": "C39", "status": "proved", "theorems": ["Baokeshed.Props.C39_same_results", "Baokeshed.Props.C39_one_shot", "Baokeshed.Props.C39_incremental"], "note": "Logs are permutations of the tree's compressions; the traced functions are proved to return what the untraced model returns."},
  {"property": "C40", "status": "proved", "theorems": ["Baokeshed.Props.C40_compress", "Baokeshed.Props.C40_prefix", "Baokeshed.Props.C40_hash1", "Baokeshed.Props.C40_hash_many"], "note": "Specification in Spec64.lean, from RFC 7693."},
  {"property": "C41", "status": "proved", "theorems": ["Baokeshed.Props.C41_c_compress", "Baokeshed.Props.C41_c_eq_rust"], "note": "The block pointer may point into a longer object. At the level of the intrinsics."},
  {"property": "C42", "status": "proved", "theorems": ["Baokeshed.Props.C42_portable", "Baokeshed.Props.C42_sse41", "Baokeshed.Props.C42_avx2", "Baokeshed.Props.C42_avx512", "Baokeshed.Props.C42_neon", "Baokeshed.Props.C42_agree", "Baokeshed.Props.C42_c_eq_rust", "Baokeshed.Props.C42_load_key_words", "Baokeshed.Props.C42_chunk_deltas"], "note": "Contract of the callers as HashManyPre64. NEON for little-endian ARM."},
  {"property": "C43", "status": "proved", "theorems": ["Baokeshed.Props.C43_compress_xof", "Baokeshed.Props.C43_compress_xof64", "Baokeshed.Props.C43_one_shot", "Baokeshed.Props.C43_hasher", "Baokeshed.Props.C43_no_repeat"], "note": "The rounds are a permutation of the state for each block (Proofs/Inject.lean)."},
  {"property": "C44", "status": "proved", "theorems": ["Baokeshed.Props.C44_padding", "Baokeshed.Props.C44_modes"], "note": "Longer inputs are covered by C16 up to a collision of the compression function."},
  {"property": "C45", "status": "proved", "theorems": ["Baokeshed.Props.C45_one_shot", "Baokeshed.Props.C45_session"], "note": "The compression functions themselves are straight-line code in the source; instruction timing is not modelled."},
  {"property": "C46", "status": "proved", "theorems": ["Baokeshed.Props.C46_rust", "Baokeshed.Props.C46_rust_53", "Baokeshed.Props.C46_python", "Baokeshed.Props.C46_python_54"], "note": "Room is counted in nested calls of hash_recurse, not in bytes of stack. Without the rayon feature."},
  {"property": "C47", "status": "proved", "theorems": ["Baokeshed.Props.C47_python", "Baokeshed.Props.C47_rust_rounds", "Baokeshed.Props.C47_spec", "Baokeshed.Props.C47_spec64"], "note": "The RFC is transcribed in SpecBlake2.lean and checked there against published hashes."},
  {"property": "C48", "status": "proved", "theorems": ["Baokeshed.Props.C48_files", "Baokeshed.Props.C48_stdin", "Baokeshed.Props.C48_reject", "Baokeshed.Props.C48_info", "Baokeshed.Props.C48_panic"], "note": "The standard library's buffering is modelled in Model/Stdout.lean (both versions of LineWriter). EBADF, which std takes for success, counts as a device that accepts everything; an infinite sequence of interruptions is out of scope."},
  {"property": "C49", "status": "proved", "theorems": ["Baokeshed.Props.C49_full_device"], "note": "Documents a shortcoming."},
  {"property": "C50", "status": "proved", "theorems": ["Baokeshed.Props.Build.C50_links", "Baokeshed.Props.Build.C50_proviso", "Baokeshed.Props.Build.C50_instructions", "Baokeshed.Props.Build.C50_options"], "note": "The symbol tables, calls and instruction sets of the C files are transcribed by hand in Model/Build.lean. The C compiler and the linker are trusted."},
  {"property": "C51", "status": "proved", "theorems": ["Baokeshed.Props.Build.C51_completes", "Baokeshed.Props.Build.C51_x86", "Baokeshed.Props.Build.C51_windows"], "note": "Documents shortcomings. That rustc's triples for 32-bit x86 start with i386, i586 or i686 is a fact about rustc."},
  {"property": "C52", "status": "proved", "theorems": ["Baokeshed.Props.Isa.C52_same_results", "Baokeshed.Props.Isa.C52_one_shot", "Baokeshed.Props.Isa.C52_incremental", "Baokeshed.Props.Isa.C52_finalize", "Baokeshed.Props.Isa.C52_proviso"], "note": "Functions are recorded at the granularity of #[target_feature]. For the rayon feature see C76. The hidden public modules avx2 and sse41 can be called directly and are not covered."},
  {"property": "C53", "status": "proved", "theorems": ["Baokeshed.Props.C53_neon_exact", "Baokeshed.Props.C53_without_neon", "Baokeshed.Props.C53_small_pieces", "Baokeshed.Props.C53_big_neon", "Baokeshed.Props.C53_wrong", "Baokeshed.Props.C53_c64_neon_exact", "Baokeshed.Props.C53_c64_wrong"], "note": "Documents a shortcoming. ByteOrder in Model/SimdNeon.lean gives the memcpy of vectors and words their big-endian meaning (procedure call standards of Arm)."},
  {"property": "C54", "status": "proved", "theorems": ["Baokeshed.Props.C54_hash4_sse41", "Baokeshed.Props.C54_hash8_avx2", "Baokeshed.Props.C54_hash4_avx512", "Baokeshed.Props.C54_hash8_avx512", "Baokeshed.Props.C54_hash16_avx512", "Baokeshed.Props.C54_hash4_neon", "Baokeshed.Props.C54_c64_hash2_sse41", "Baokeshed.Props.C54_c64_hash4_avx2", "Baokeshed.Props.C54_c64_hash2_avx512", "Baokeshed.Props.C54_c64_hash4_avx512", "Baokeshed.Props.C54_c64_hash8_avx512", "Baokeshed.Props.C54_c64_hash2_neon", "Baokeshed.Props.C54_rust_hash4", "Baokeshed.Props.C54_rust_hash8"], "note": "hash4_neon for little-endian hosts (C53 has big-endian ones)."},
  {"property": "C55", "status": "proved", "theorems": ["Baokeshed.Props.C55_chunk_state", "Baokeshed.Props.C55_chunk_state_reset", "Baokeshed.Props.C55_chunk_spec", "Baokeshed.Props.C55_wraps"], "note": ""},
  {"property": "C56", "status": "proved", "theorems": ["Baokeshed.Props.Lanes.C56_updates", "Baokeshed.Props.Lanes.C56_no_copy", "Baokeshed.Props.Lanes.C56_as_one_shot", "Baokeshed.Props.Lanes.C56_any_update", "Baokeshed.Props.Lanes.C56_too_small", "Baokeshed.Props.Lanes.C56_constants", "Baokeshed.Props.Lanes.C56_recorder", "Baokeshed.Props.Lanes.C56_copy_wide", "Baokeshed.Props.Lanes.C56_first_chunk"], "note": "The events recorded are calls of compress, compress_xof, hash_many, the kernels and ChunkState::fill_buf. The Hasher makes no use of the rayon feature."},
  {"property": "C57", "status": "proved", "theorems": ["Baokeshed.Props.Lanes.C57_kernels", "Baokeshed.Props.Lanes.C57_kernels_least", "Baokeshed.Props.Lanes.C57_one_shot"], "note": "Whole chunks only; for the kernels used for parent nodes see C79. For the rayon feature see C76."},
  {"property": "C58", "status": "proved", "theorems": ["Baokeshed.Props.C58_one_shot", "Baokeshed.Props.C58_session"], "note": "Performance means the recorded calls: compress, compress_xof, hash_many, the kernels and ChunkState::fill_buf with their lengths. For the rayon feature see C76."},
  {"property": "C59", "status": "proved", "theorems": ["Baokeshed.Props.C59_depth", "Baokeshed.Props.C59_finalize", "Baokeshed.Props.C59_update", "Baokeshed.Props.C59_session", "Baokeshed.Props.C59_copies"], "note": "Compressions are counted in Model/Trace.lean, copies (those of ChunkState::fill_buf and hash_one_chunk) in Model/Isa.lean."},
  {"property": "C60", "status": "proved", "theorems": ["Baokeshed.Props.C60_same_results", "Baokeshed.Props.C60_each_once", "Baokeshed.Props.C60_flags", "Baokeshed.Props.C60_collision"], "note": "The recorded functions are proved to return what the C model of C29 returns (C60_same_results). A SIMD kernel counts as the compressions of hash_many_portable on the same inputs, with which it agrees (C32)."},
  {"property": "C61", "status": "proved", "theorems": ["Baokeshed.Props.C61_python_eq_program", "Baokeshed.Props.C61_test_input", "Baokeshed.Props.C61_test_passes", "Baokeshed.Props.C61_agree"], "note": "No statement mentions the specification, apart from the names of the modes. In the test the list of cases, the pipe and the environment are parameters; make_test_input itself fails beyond 4 * (2^32 - 1) bytes."},
  {"property": "C62", "status": "proved", "theorems": ["Baokeshed.Props.C62_work", "Baokeshed.Props.C62_span", "Baokeshed.Props.C62_logarithmic"], "note": "Time is counted in compressions, as if the lanes of a kernel worked one after the other; scheduling costs nothing. join returns both results; that interleaving cannot change them is C28."},
  {"property": "C63", "status": "proved", "theorems": ["Baokeshed.Props.C63_same", "Baokeshed.Props.C63_modes"], "note": "A SIMD kernel counts as the compressions of hash_many_portable on the same inputs, with which it agrees (C32). What happens within a compression is not part of the statement."},
  {"property": "C64", "status": "proved", "theorems": ["Baokeshed.Props.C64_paint_offsets", "Baokeshed.Props.C64_three_blocks", "Baokeshed.Props.C64_three_chunks", "Baokeshed.Props.C64_constructions", "Baokeshed.Props.C64_incremental", "Baokeshed.Props.C64_zero_bytes", "Baokeshed.Props.C64_one_byte", "Baokeshed.Props.C64_regular_xof_match", "Baokeshed.Props.C64_xof_output", "Baokeshed.Props.C64_reference", "Baokeshed.Props.C64_paint", "Baokeshed.Props.C64_incremental_cases", "Baokeshed.Props.C64_reference_cases", "Baokeshed.Props.C64_largest_power_of_two_leq", "Baokeshed.Props.C64_tables", "Baokeshed.Props.C64_tests_pass", "Baokeshed.Props.C64_domain_separation", "Baokeshed.Props.C64_xof_output_test"], "note": "Bytes that a test fixes are a parameter of the modelled test. test_reference_impl_size is not modelled. One assertion of test_xof_output and those of test_domain_separation hold for no general reason; for their fixed inputs the kernel computes the compressions."},
  {"property": "C65", "status": "proved", "theorems": ["Baokeshed.Props.C65_finalize", "Baokeshed.Props.C65_update", "Baokeshed.Props.C65_session"], "note": "Compressions are counted in Model/C/Trace.lean, where a SIMD kernel counts as the compressions of hash_many_portable on the same inputs."},
  {"property": "C66", "status": "proved", "theorems": ["Baokeshed.Props.CLanes.C66_same_results", "Baokeshed.Props.CLanes.C66_built", "Baokeshed.Props.CLanes.C66_best", "Baokeshed.Props.CLanes.C66_kernels", "Baokeshed.Props.CLanes.C66_kernels_least", "Baokeshed.Props.CLanes.C66_updates", "Baokeshed.Props.CLanes.C66_any_update", "Baokeshed.Props.CLanes.C66_copies"], "note": "The recorded functions are proved to return what the C model of C29 returns (C66_same_results). A build with AVX2 counts as containing the SSE4.1 file, whose functions hash_many_avx2 calls; C50 says when builds link."},
  {"property": "C67", "status": "proved", "theorems": ["Baokeshed.Props.C67_portable_hash1_1", "Baokeshed.Props.C67_portable_hash1_3", "Baokeshed.Props.C67_portable_hash_many", "Baokeshed.Props.C67_transposed", "Baokeshed.Props.C67_test_transpose", "Baokeshed.Props.C67_sse41_compress", "Baokeshed.Props.C67_parents", "Baokeshed.Props.C67_chunks", "Baokeshed.Props.C67_sse41_hash1", "Baokeshed.Props.C67_simd_hash_many", "Baokeshed.Props.C67_c_compress", "Baokeshed.Props.C67_c_hash_many", "Baokeshed.Props.C67_c_chunk", "Baokeshed.Props.C67_c_tree", "Baokeshed.Props.C67_portable64_hash1_1", "Baokeshed.Props.C67_portable64_hash1_3", "Baokeshed.Props.C67_portable64_hash_many", "Baokeshed.Props.C67_c64_compress", "Baokeshed.Props.C67_c64_hash_many", "Baokeshed.Props.C67_compress_detects", "Baokeshed.Props.C67_compare_out_detects", "Baokeshed.Props.C67_portable_tests", "Baokeshed.Props.C67_simd_tests", "Baokeshed.Props.C67_c_tests", "Baokeshed.Props.C67_tests64", "Baokeshed.Props.C67_copy_wide", "Baokeshed.Props.C67_test_copy_wide", "Baokeshed.Props.C67_copy_buffer_sizes", "Baokeshed.Props.C67_cli_hash_one", "Baokeshed.Props.C67_cli_hash_key", "Baokeshed.Props.C67_cli_derive_key", "Baokeshed.Props.C67_cli_hash_length", "Baokeshed.Props.C67_cli_hash_many", "Baokeshed.Props.C67_cli_tests"], "note": "Bytes that a test fixes are a parameter of the modelled test. The NEON tests are those of a little-endian machine. The start of a process and temporary files are outside the model: the program is Cli.main on an environment that holds the files."},
  {"property": "C68", "status": "proved", "theorems": ["Baokeshed.Props.C68_hash", "Baokeshed.Props.C68_session", "Baokeshed.Props.C68_inner", "Baokeshed.Props.C68_injective"], "note": "The search is Spec.Record.message (SpecExtract.lean). The calls of a computation are those recorded by the traced models (C39, C60). The assumption on the record is that no two of its calls collide; nothing is assumed about the compression function otherwise."},
  {"property": "C69", "status": "proved", "theorems": ["Baokeshed.Props.C69_get", "Baokeshed.Props.C69_offsets", "Baokeshed.Props.C69_compress", "Baokeshed.Props.C69_chunks", "Baokeshed.Props.C69_chunks64", "Baokeshed.Props.C69_hash", "Baokeshed.Props.C69_hasher_c", "Baokeshed.Props.C69_xof"], "note": "Page size, random bytes, shuffle, number of calls and uninitialised memory are parameters; times are not modelled. With overflow checks bench_xof panics at call 2^58 - 1, as proved."},
  {"property": "C70", "status": "proved", "theorems": ["Baokeshed.Props.C70_same_results", "Baokeshed.Props.C70_reference", "Baokeshed.Props.C70_python", "Baokeshed.Props.C70_python_long_key", "Baokeshed.Props.C70_calls", "Baokeshed.Props.C70_collision", "Baokeshed.Props.C70_extract"], "note": "A computation is traced by recording the arguments of every call of compress; that the results are those of the untraced model is C70_same_results. The order of the calls is not stated."},
  {"property": "C71", "status": "proved", "theorems": ["Baokeshed.Props.C71_refines", "Baokeshed.Props.C71_one_shot", "Baokeshed.Props.C71_hasher", "Baokeshed.Props.C71_hasher_limit", "Baokeshed.Props.C71_never_wrong", "Baokeshed.Props.C71_reference", "Baokeshed.Props.C71_hash_many", "Baokeshed.Props.C71_hash_many_64"], "note": "Model/Release.lean has every function with arithmetic or a debug_assert! once more. The command line program and Output::read have the build profile as a parameter elsewhere (C04, C25)."},
  {"property": "C72", "status": "proved", "theorems": ["Baokeshed.Props.C72_never_wrong", "Baokeshed.Props.C72_limit", "Baokeshed.Props.C72_at_limit", "Baokeshed.Props.C72_wrapper"], "note": "Documents a shortcoming: no check remains when NDEBUG is defined. What happens after a write beyond the object is not modelled."},
  {"property": "C73", "status": "proved", "theorems": ["Baokeshed.Props.C73_portable", "Baokeshed.Props.C73_sse41", "Baokeshed.Props.C73_avx2", "Baokeshed.Props.C73_avx512", "Baokeshed.Props.C73_neon", "Baokeshed.Props.C73_c64_portable", "Baokeshed.Props.C73_c64_sse41", "Baokeshed.Props.C73_c64_avx2", "Baokeshed.Props.C73_c64_avx512", "Baokeshed.Props.C73_c64_neon", "Baokeshed.Props.C73_linear_iff"], "note": "NEON on little-endian targets."},
  {"property": "C74", "status": "proved", "theorems": ["Baokeshed.Props.C74_asserts", "Baokeshed.Props.C74_no_asserts", "Baokeshed.Props.C74_wrapper", "Baokeshed.Props.C74_one_call"], "note": "Documents a shortcoming. NEON on little-endian hosts, or pieces below 2048 bytes. Makes C30, C38 and C72 exact."},
  {"property": "C75", "status": "proved", "theorems": ["Baokeshed.Props.C75_hasher", "Baokeshed.Props.C75_reference"], "note": "Makes C11 exact for builds with checks. Which panic it is beyond the limit is not said (with checks: full stack or overflowing offset)."},
  {"property": "C76", "status": "proved", "theorems": ["Baokeshed.Props.Ord.C76_compressions", "Baokeshed.Props.Ord.C76_oblivious", "Baokeshed.Props.Ord.C76_same_calls", "Baokeshed.Props.Ord.C76_isa", "Baokeshed.Props.Ord.C76_lanes", "Baokeshed.Props.Ord.C76_modes", "Baokeshed.Props.Ord.C76_right_first"], "note": "Orders of recorded events (compressions; functions entered and bytes copied), with every sequential part in its order. That the results do not depend on the interleaving of memory accesses is C28."},
  {"property": "C77", "status": "proved", "theorems": ["Baokeshed.Props.C77_secret", "Baokeshed.Props.C77_hash", "Baokeshed.Props.C77_convert"], "note": "The format strings are interpreted by a small model of write!. The types contain no other Debug implementation."},
  {"property": "C78", "status": "proved", "theorems": ["Baokeshed.Props.CopyStep.C78_running", "Baokeshed.Props.CopyStep.C78_ok", "Baokeshed.Props.CopyStep.C78_error", "Baokeshed.Props.CopyStep.C78_panic", "Baokeshed.Props.CopyStep.C78_interrupted", "Baokeshed.Props.CopyStep.C78_endless", "Baokeshed.Props.CopyStep.C78_hash", "Baokeshed.Props.CopyStep.C78_lists"], "note": "The reader is any state machine that sees the buffer. Exact conditions for running, Ok, Err and panic; C78_lists ties this model to that of C20."},
  {"property": "C79", "status": "proved", "theorems": ["Baokeshed.Props.Parents.C79_calls", "Baokeshed.Props.Parents.C79_all", "Baokeshed.Props.Parents.C79_bound", "Baokeshed.Props.Parents.C79_full", "Baokeshed.Props.Parents.C79_schedule"], "note": "Kernel calls as recorded by Model/Isa.lean. The incremental hasher merges parents one at a time and is not part of the statement."},
  {"property": "C80", "status": "proved", "theorems": ["Baokeshed.Props.C80_object", "Baokeshed.Props.C80_reads", "Baokeshed.Props.C80_null"], "note": "A shortcoming of the code under C17 and before: hasher_update(self, NULL, 0) with a partial chunk. NEON only on little-endian hosts (see C53), unless no piece has a whole chunk."},
  {"property": "C81", "status": "proved", "theorems": ["Baokeshed.Props.C81_code", "Baokeshed.Props.C81_stream", "Baokeshed.Props.C81_questions", "Baokeshed.Props.C81_collision", "Baokeshed.Props.C81_preimage", "Baokeshed.Props.C81_predict", "Baokeshed.Props.C81_predict_block", "Baokeshed.Props.C81_uniform"], "note": "C81_code and C81_stream connect the mode with questions (SpecOracle.lean) to the code: with the compression function itself it asks exactly the recorded compressions and returns the hash. The guarantees are about the mode; whether the compression function behaves like a random function is not a question that proofs can settle."},
  {"property": "C82", "status": "proved", "theorems": ["Baokeshed.Props.C82_answer", "Baokeshed.Props.C82_prf", "Baokeshed.Props.C82_mac", "Baokeshed.Props.C82_mac_block", "Baokeshed.Props.C82_key"], "note": "The answers of the holder are output blocks of the mode with questions, C82_answer; with the compression function itself they are what the library returns (C81_code, C81_stream). The probabilities are over the function in the place of the compression function and over the key, which is independent of it. Timing and other side channels are outside (see C19 for comparisons)."},
  {"property": "C83", "status": "proved", "theorems": ["Baokeshed.Props.C83_library", "Baokeshed.Props.C83_indifferentiable", "Baokeshed.Props.C83_consistent"], "note": "C83_indifferentiable is the bound, C83_library ties the first world to the library (streamBlock is what reads return, C06; the hash is the first half of block 0, C82_answer), C83_consistent says that the simulator fits the random output. The simulator is Spec.simulated with Spec.seen (SpecSim.lean). An example shows that the bound fails for a simulator that recognises nothing. Security of protocols in which several parties share no state (multi-stage games) does not follow from this notion."},
  {"property": "C84", "status": "proved", "theorems": ["Baokeshed.Props.C84_secret", "Baokeshed.Props.C84_mac"], "note": "C84_secret is the bound, C84_mac the consequence for hashes that were not requested. Both are for any finite set of secrets and any jointly injective way to insert them; examples instantiate them with 32 bytes before the input. inserted is made of wordsWith, which C82_answer and C81_stream tie to the library."},
  {"property": "C85", "status": "proved", "theorems": ["Baokeshed.Props.C85_second", "Baokeshed.Props.C85_targets"], "note": "C85_second and C85_targets. As in C81 these count functions. The bound for long inputs grows with their length: C85 does not say whether that is necessary."},
  {"property": "C86", "status": "proved", "theorems": ["Baokeshed.Props.C86_users", "Baokeshed.Props.C86_mac", "Baokeshed.Props.C86_mac_block", "Baokeshed.Props.C86_key"], "note": "C86_users is the bound, C86_mac, C86_mac_block and C86_key are its consequences. holders answers with wordsWith, which C82_answer and C81_stream tie to the library. The keys are independent of each other; for keys derived from one another see C88."},
  {"property": "C87", "status": "proved", "theorems": ["Baokeshed.Props.C87_struct", "Baokeshed.Props.C87_members", "Baokeshed.Props.C87_offsets", "Baokeshed.Props.C87_short", "Baokeshed.Props.C87_moved", "Baokeshed.Props.C87_uninit", "Baokeshed.Props.C87_reference_least", "Baokeshed.Props.C87_reference_size", "Baokeshed.Props.C87_functions", "Baokeshed.Props.C87_prototypes", "Baokeshed.Props.C87_names"], "note": "C87_struct is about the rules of layout, C87_members, C87_offsets, C87_short and C87_moved about the two structs, C87_uninit about what hasher_init writes, C87_functions, C87_prototypes and C87_names about functions, C87_reference_least and C87_reference_size about the size that the test expects. The declarations are data in Model/Decl.lean. That size_t and usize are the same type, and that compilers follow these rules for repr(C), is assumed; what order rustc chooses for other structs is not."},
  {"property": "C88", "status": "proved", "theorems": ["Baokeshed.Props.C88_leaf", "Baokeshed.Props.C88_inner", "Baokeshed.Props.C88_all", "Baokeshed.Props.C88_code", "Baokeshed.Props.C88_tree", "Baokeshed.Props.C88_mac"], "note": "C88_tree is the bound and C88_mac the consequence for hashes that were not requested. C88_leaf, C88_inner and C88_all say what the answers are, C88_code that the library computes them. With a key from which others are derived, derive_key output is not available to the attacker: block 0 of it would be the derived keys."},
  {"property": "C89", "status": "proved", "theorems": ["Baokeshed.Props.C89_same_results", "Baokeshed.Props.C89_compress", "Baokeshed.Props.C89_hash_many", "Baokeshed.Props.C89_compress_counts"], "note": "C89_same_results ties the recording versions to the model, C89_compress and C89_hash_many compare runs, C89_compress_counts shows what is recorded. The steps are those of the source text: that an addition, a shuffle or an unaligned load takes the same time for all operands, and that compilers do not introduce branches, is outside the model. Accesses to arrays of SIMD registers at literal positions are not recorded."},
  {"property": "C90", "status": "proved", "theorems": ["Baokeshed.Props.C90_same_results", "Baokeshed.Props.C90_one_shot", "Baokeshed.Props.C90_session", "Baokeshed.Props.C90_operations", "Baokeshed.Props.C90_operations_incremental"], "note": "C90_same_results ties the recording versions to the model, C90_one_shot and C90_session compare runs, C90_operations and C90_operations_incremental count additions and rotations on the portable platform. As in C89 the steps are those of the source text; unchecked arithmetic on lengths, the evaluation of flags and copies of whole structs are not recorded. The stack's loop of merges is written with a bound on its repetitions, proved to be enough by C90_same_results."},
  {"property": "C91", "status": "proved", "theorems": ["Baokeshed.Props.BuildRun.C91_hash", "Baokeshed.Props.BuildRun.C91_compiled", "Baokeshed.Props.BuildRun.C91_instructions", "Baokeshed.Props.BuildRun.C91_detect_runs", "Baokeshed.Props.BuildRun.C91_best"], "note": "Joins the models of build.rs (C50) and of the C hasher (C29, C66): `program` reads the macros off the build. That the compiler accepts and translates the files is trusted. The wrapper's results are tied to the Rust hasher and the specification; the functions entered are those recorded in Model/C/Isa.lean."},
  {"property": "C92", "status": "proved", "theorems": ["Baokeshed.Props.C92_compress", "Baokeshed.Props.C92_hash_many_portable", "Baokeshed.Props.C92_hash_many_sse41", "Baokeshed.Props.C92_hash_many_avx2", "Baokeshed.Props.C92_eighth"], "note": "C92_compress and C92_hash_many_portable compare with lists written in StepsSpec.lean; C92_hash_many_sse41, C92_hash_many_avx2 and C92_eighth count. The hypotheses (room for the results, no overflow of the offset) are those under which hash_many does not panic, C08_hash_many_spec. The steps are recorded by Model/Steps.lean (C89)."},
  {"property": "C93", "status": "proved", "theorems": ["Baokeshed.Props.C93_attempts", "Baokeshed.Props.C93_attempts_bytes", "Baokeshed.Props.C93_library", "Baokeshed.Props.C93_library_bytes"], "note": "C93_attempts is the bound, C93_attempts_bytes that for the first n bytes of output; C93_library and C93_library_bytes tie the checks to the library. A check compares with Hash.eq, the model of impl PartialEq for Hash. Bounds on questions and attempts are required for all answers that could be given. The time that a check takes is not among the answers."},
  {"property": "C94", "status": "proved", "theorems": ["Baokeshed.Props.C94_same_results", "Baokeshed.Props.C94_compare", "Baokeshed.Props.C94_check", "Baokeshed.Props.C94_check_parts", "Baokeshed.Props.C94_check_result", "Baokeshed.Props.C94_to_hex"], "note": "C94_compare gives the list, C94_check and C94_check_parts compare whole checks, C94_check_result says what they return, C94_to_hex is about printing, C94_same_results ties the recording versions to the model. The loop of the comparison is in the crate constant_time_eq (0.1), which is not in the repository: it is modelled after its published text. As in C89 the steps are those of the source text, not of what compilers make of it."},
  {"property": "C95", "status": "proved", "theorems": ["Baokeshed.Props.C95_collision", "Baokeshed.Props.C95_targets", "Baokeshed.Props.C95_preimage", "Baokeshed.Props.C95_second", "Baokeshed.Props.C95_library", "Baokeshed.Props.C95_library_hash"], "note": "C95_collision, C95_targets, C95_preimage and C95_second are the bounds; C95_library and C95_library_hash tie the bytes to the library. The bounds hold for a random compression function, not for the one in the code, as in C81. The bound on questions is required for all answers that could be given."},
  {"property": "C96", "status": "proved", "theorems": ["Baokeshed.Props.C96_secret", "Baokeshed.Props.C96_password", "Baokeshed.Props.C96_library", "Baokeshed.Props.C96_library_hash"], "note": "C96_secret is the bound for secrets put into inputs, C96_password its consequence for passwords that are hashed themselves; C96_library and C96_library_hash tie the answers to the library. h58 (the holder performs fewer than 2^58 compressions) leaves a block number that was not requested. That the bound is reached by trying passwords one by one is remarked, not proved. As in C81 the compression function is random."}
]}

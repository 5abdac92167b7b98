{"id": "C01", "title": "One-shot hashing computes the specified tree hash", "statement": "hash(input), keyed_hash(key, input) and derive_key(key, context) return exactly the 32-byte value that the BLAKE3-prototype tree-hash specification (2048-byte chunks, left-balanced binary tree, mode flag, chunk byte offset fed to the compression function, ROOT flag on the last compression only) assigns to that mode, key and input.", "quantifier": "every input byte string of every length the platform can hold in a slice, every 32-byte key, all three modes, every supported platform (portable / SSE4.1 / AVX2, SIMD width 1, 4 or 8, 32- or 64-bit usize)", "why_tests_cant": "The tree shape depends on the input length; the tests sample a couple dozen lengths on the machine at hand and compare the implementation with itself through the C port. A mistake in splitting, in a buffer boundary or in one SIMD-degree path for some unlisted length is invisible to them.", "anchors": ["src/lib.rs: hash, keyed_hash, derive_key, hash_internal, hash_recurse, condense_root, hash_chunks_parallel, hash_parents_parallel, left_len", "src/platform.rs: Platform::hash_many"]}
{"id": "C02", "title": "Incremental hashing does not depend on how the input is split", "statement": "Feeding an input to a Hasher through any sequence of update calls (including empty ones) and then calling finalize gives the same hash as the one-shot function of the same mode on the concatenated input; likewise finalize_xof and the one-shot *_xof functions give streams that agree on every read.", "quantifier": "every mode and key, every finite list of update slices with total length below 2^64 bytes, every platform, every read position", "why_tests_cant": "The number of ways to split an input is exponential; the buffering code has separate paths for partially filled blocks, partially filled chunks, exactly full chunks and the wide SIMD loop.", "anchors": ["src/lib.rs: Hasher::update, Hasher::finalize, Hasher::finalize_xof, ChunkState::update, push_chunk_hash, merge_parent, needs_merge"]}
{"id": "C03", "title": "finalize and finalize_xof do not disturb the hasher", "statement": "In any interleaving of update, finalize, finalize_xof, clone and io::Write::write on a family of hashers, every finalize returns the hash of exactly the bytes given so far to that particular hasher (with its clone ancestors), and no call on one hasher changes what another returns.", "quantifier": "every finite sequence of API calls over any number of hashers, every mode and key, totals below 2^64 bytes", "why_tests_cant": "It is a statement about all histories; tests finalize once or twice per hasher.", "anchors": ["src/lib.rs: Hasher (derive Clone), Hasher::finalize, Hasher::finalize_xof, impl Write for Hasher"]}
{"id": "C04", "title": "The extendable output is the specified stream", "statement": "The k-th read from an Output returns bytes 64k .. 64k+63 of the output stream that the specification assigns to that mode, key and input.", "quantifier": "every k below 2^58 - 1, every input, mode, key and platform", "why_tests_cant": "Unbounded number of reads; tests read two blocks.", "anchors": ["src/lib.rs: Output::read, hash_xof, keyed_hash_xof, derive_key_xof, Hasher::finalize_xof", "src/platform.rs: Platform::compress_xof"]}
{"id": "C05", "title": "The default hash is a prefix of the extended output", "statement": "Output::to_hash on a fresh Output equals the default 32-byte hash and equals the first 32 bytes of the first read.", "quantifier": "every input, mode, key, platform", "why_tests_cant": "A relation between two different code paths (compress and compress_xof) on all inputs.", "anchors": ["src/lib.rs: Output::to_hash, Output::read"]}
{"id": "C06", "title": "to_hash after reads returns the next 32 bytes of the stream", "statement": "After k calls of read, to_hash returns bytes 64k .. 64k+31 of the stream (so it is the default hash only when k = 0); to_hash never moves the read position.", "quantifier": "every k below 2^58 and every interleaving of reads and to_hash calls, every input, mode, key, platform", "why_tests_cant": "Depends on the whole call history of the Output object.", "anchors": ["src/lib.rs: Output::to_hash, Output::read"]}
{"id": "C07", "title": "SSE4.1 single-block compression equals the portable one", "statement": "The SSE4.1 compress and compress_xof return the same words/bytes as the portable ones.", "quantifier": "every 8-word chaining value, every 64-byte block, every block length byte, every 64-bit offset, every flags byte", "why_tests_cant": "The argument space has more than 2^800 points; the repository test compares the two on one point.", "anchors": ["src/sse41.rs: compress, compress_xof, compress_inner", "src/portable.rs: compress, compress_xof"]}
{"id": "C08", "title": "SSE4.1 and AVX2 hash_many equal the portable hash_many", "statement": "Each SIMD hash_many writes the same output bytes as the portable hash_many, panics in exactly the same situations, and performs no memory access outside its inputs and its output slice.", "quantifier": "every number of inputs, every input length that is a multiple of 64 (including 0), every key, offset, offset delta, flag bytes, output buffer", "why_tests_cant": "Unbounded batch sizes and > 2^1000 argument space; transposition and remainder handling differ per batch size.", "anchors": ["src/sse41.rs: hash_many, hash4, hash1, transpose_vecs, transpose_msg_vecs, load_offsets, round", "src/avx2.rs: hash_many, hash8, transpose_vecs, transpose_msg_vecs, load_offsets, round", "src/portable.rs: hash_many, hash1"]}
{"id": "C09", "title": "Portable compression is the specified permutation", "statement": "The portable compress and compress_xof compute the specified compression function: seven rounds of the BLAKE2s quarter-round (rotations 16, 12, 8, 7) over the 4x4 word matrix with the BLAKE2s message schedule, feed-forward as specified.", "quantifier": "every chaining value, block, block length, offset and flags byte", "why_tests_cant": "More than 2^800 arguments; a wrong schedule entry or rotation would be reproduced by every implementation that copies it.", "anchors": ["src/portable.rs: g, round, compress_inner, compress, compress_xof, words_from_block", "src/lib.rs: IV, MSG_SCHEDULE, bytes_from_state_words, words_from_key_bytes"]}
{"id": "C10", "title": "One-shot hashing never panics or accesses memory out of bounds", "statement": "No assertion, debug assertion, arithmetic-overflow check, slice index, array capacity or raw pointer access fails while a one-shot function runs; internal fixed-size buffers are always large enough.", "quantifier": "every input, key, mode, platform, usize width", "why_tests_cant": "Absence of panics over all lengths; fixed-size buffers are sized by an argument about SIMD degree and recursion shape that no finite set of lengths establishes.", "anchors": ["src/lib.rs: hash_recurse, condense_root, hash_chunks_parallel, hash_parents_parallel, hash_one_chunk, left_len"]}
{"id": "C11", "title": "A Hasher never panics below 2^64 bytes", "statement": "No check fails in any sequence of update and finalize calls whose total input stays below 2^64 bytes; in particular the fixed-capacity subtree stack of 53 entries never overflows.", "quantifier": "every sequence of calls with total input below 2^64 bytes, every platform", "why_tests_cant": "The stack bound only matters after petabytes of input.", "anchors": ["src/lib.rs: Hasher::update, push_chunk_hash, ChunkState::update, MAX_DEPTH"]}
{"id": "C12", "title": "What happens at the end of the output stream", "statement": "The read that produces the last 64-byte block whose offset fits in 64 bits panics in a build with overflow checks, and in a build without them the stream silently restarts from its first byte.", "quantifier": "every input, mode, key; the 2^58-th read", "why_tests_cant": "Reaching the 2^58-th read by running the code is impossible.", "anchors": ["src/lib.rs: Output::read"]}
{"id": "C13", "title": "The reference implementation computes the specified hash", "statement": "reference_impl's Hasher, fed through any sequence of update calls, fills an output slice of any length with the first bytes of the specified stream, and so agrees with the optimised crate. Up to and including 2^64 bytes of input nothing overflows; with one byte more it panics in a build with overflow checks (without them: C71).", "quantifier": "every split of every input of up to 2^64 bytes, every output length up to 2^64 - 64, all three modes", "why_tests_cant": "Two independent implementations with different merging strategies (eager and lazy) must agree for all inputs and all splits.", "anchors": ["reference_impl/reference_impl.rs: Hasher::update, Hasher::finalize, ChunkState, Output::root_output_bytes, push_chunk_chaining_value"]}
{"id": "C14", "title": "The Python implementation computes the specified hash", "statement": "python/baokeshed.py's hash, keyed_hash and derive_key return the first out_len bytes of the specified stream for their mode, 32-byte key and input, raising no exception.", "quantifier": "every input of any length, every 32-byte key, every output length, all three modes", "why_tests_cant": "Agreement of an independent recursive implementation over all inputs.", "anchors": ["python/baokeshed.py: hash_recurse, left_len, hash_chunk, hash_parent, compress, Output.root_output_bytes"]}
{"id": "C15", "title": "The three modes are separated", "statement": "Every compression call made in hash, keyed_hash or derive_key mode carries a flag pattern that no call in another mode carries; so no compression input used in one mode is ever used in another, whatever the keys and inputs (even if the key equals the IV bytes).", "quantifier": "every pair of different modes, all keys, all inputs, every compression call and output block", "why_tests_cant": "A universally quantified disjointness statement about all pairs of inputs.", "anchors": ["src/lib.rs: Flags, hash_internal, keyed_hash, derive_key"]}
{"id": "C16", "title": "Hash collisions come only from the compression function", "statement": "If two different inputs hash to the same value under the same mode and key, then among the compression calls made while hashing these two inputs there are two with different arguments and equal chaining-value output; for different modes, or different keys, likewise.", "quantifier": "every pair of distinct (mode, key, input) triples", "why_tests_cant": "Tree-mode soundness (no ambiguity between leaves, parents, roots, lengths, chunk positions) quantifies over all pairs of inputs.", "anchors": ["src/lib.rs: hash_one_chunk, hash_recurse, condense_root, IsRoot, Flags, hash_one_parent"]}
{"id": "C17", "title": "The ROOT flag marks exactly the final compression", "statement": "While hashing, exactly the compressions that produce returned output carry the ROOT flag, and every compression producing an internal chaining value lacks it; hence no internal chaining value is computed by a call that also produces output.", "quantifier": "every input, mode, key", "why_tests_cant": "A statement about every call of every run; it rules out length-extension.", "anchors": ["src/lib.rs: IsRoot, Flags::ROOT, hash_one_chunk, hash_one_parent, condense_root, Hasher::finalize_xof"]}
{"id": "C18", "title": "Hash::to_hex is faithful", "statement": "to_hex returns exactly 64 lowercase hexadecimal digits; decoding them gives back the hash bytes, so different hashes print differently, and it never exceeds its fixed string capacity.", "quantifier": "all 2^256 hash values", "why_tests_cant": "2^256 values.", "anchors": ["src/lib.rs: Hash::to_hex"]}
{"id": "C19", "title": "Hash comparison is byte equality", "statement": "The constant-time equality of Hash (with Hash, byte array) returns true exactly when all 32 bytes agree.", "quantifier": "all pairs of 32-byte values", "why_tests_cant": "2^512 pairs.", "anchors": ["src/lib.rs: impl PartialEq for Hash"]}
{"id": "C20", "title": "copy_wide delivers exactly what the reader produced", "statement": "copy_wide passes every byte the reader returned, in order and exactly once, to the writer and returns their number; it retries Interrupted reads, stops at the first Ok(0), and on another read error or any write error returns that error having written exactly the bytes read before it.", "quantifier": "every reader behaviour (any sequence of short reads, interruptions, errors), every writer behaviour", "why_tests_cant": "Ranges over all environment behaviours.", "anchors": ["src/copy.rs: copy_wide"]}
{"id": "C21", "title": "Hashing through a reader equals hashing the bytes", "statement": "Copying any reader into a Hasher with copy_wide and finalizing gives the hash of the concatenation of the bytes the reader returned, whatever the sizes of the individual reads.", "quantifier": "every reader behaviour that ends normally, every mode, key and platform", "why_tests_cant": "Ranges over all read-size schedules.", "anchors": ["src/copy.rs: copy_wide", "src/lib.rs: impl Write for Hasher", "baokeshed_bin/src/main.rs: hash_one"]}
{"id": "C22", "title": "Writing to a Hasher is update", "statement": "Hasher's io::Write::write consumes the whole slice and reports its full length, write_all and flush never fail, and the effect is that of update.", "quantifier": "every hasher state reachable below 2^64 bytes, every slice", "why_tests_cant": "Ranges over all hasher states.", "anchors": ["src/lib.rs: impl Write for Hasher"]}
{"id": "C23", "title": "The CLI prints exactly the requested bytes", "statement": "For an output length below 2^63 the CLI prints exactly 2*length lowercase hex digits, which decode to the first length bytes of the specified stream.", "quantifier": "every length below 2^63, every input, key and mode", "why_tests_cant": "Unbounded lengths; block remainder handling.", "anchors": ["baokeshed_bin/src/main.rs: print_hex"]}
{"id": "C24", "title": "The CLI miscounts lengths of 2^63 bytes and more", "statement": "For --length of 2^63 or more, the CLI does not print 2*length digits: the digit count is computed modulo 2^64 (in a build without overflow checks), and it panics in a build with them.", "quantifier": "every length from 2^63 to 2^64 - 1", "why_tests_cant": "Observing it needs only the arithmetic, but tests never exercise lengths beyond 100.", "anchors": ["baokeshed_bin/src/main.rs: print_hex"]}
{"id": "C25", "title": "The CLI processes its arguments in order and reports failure", "statement": "With one or more file arguments the CLI prints one line per readable input in argument order, reports each unreadable one without stopping, and exits with status 1 exactly when at least one failed.", "quantifier": "every list of file arguments and every pattern of success and failure", "why_tests_cant": "All failure patterns.", "anchors": ["baokeshed_bin/src/main.rs: hash, main"]}
{"id": "C26", "title": "The CLI accepts exactly 32-byte hexadecimal keys", "statement": "A --key or --derive-key argument is accepted exactly when it is 64 hexadecimal digits (either case), and then the key is the bytes they denote.", "quantifier": "every argument string", "why_tests_cant": "All strings.", "anchors": ["baokeshed_bin/src/main.rs: hash"]}
{"id": "C27", "title": "Memory-mapped and streamed input give the same hash", "statement": "The CLI's result for a file does not depend on whether it takes the memory-map path or the read loop.", "quantifier": "every file content, key, mode, length and read schedule", "why_tests_cant": "All contents and schedules.", "anchors": ["baokeshed_bin/src/main.rs: hash_one, maybe_memmap_input"]}
{"id": "C28", "title": "Thread scheduling cannot affect the result", "statement": "With the rayon feature, any interleaving of the two sides of every join gives the same output bytes as the sequential execution; every interleaving terminates, and no two threads ever access the same byte of shared memory with one of them writing it.", "quantifier": "every input, every fork-join schedule", "why_tests_cant": "The number of schedules is exponential and tests see a handful.", "anchors": ["src/lib.rs: join, hash_recurse"]}
{"id": "C29", "title": "The C hasher computes the specified hash", "statement": "The C hasher (hasher_init with a key and a flags byte, hasher_update, hasher_finalize), fed through any sequence of updates, writes the specified hash for that key and those flags to the first 32 bytes of its output and stays within its objects, whatever SIMD back ends are compiled in (NEON: on little-endian hosts, see C53), whatever the width of size_t and whatever uninitialised memory contains. With the keys and flags of the three modes the result is that of the Rust crate.", "quantifier": "every split of every input below 2^64 bytes without assertions, below 2^63 + 2048 bytes (or in pieces shorter than a chunk) with assertions, below 2^63 bytes through the wrapper of src/c.rs; all keys and flags; all combinations of back ends", "why_tests_cant": "All splits and lengths; the repository compares on a few lengths.", "anchors": ["c/baokeshed.c: hasher_init, hasher_update, hasher_finalize, hasher_push_chunk_hash, chunk_state_update, hash_many, compress", "src/c.rs: Hasher"]}
{"id": "C30", "title": "The C hasher aborts spuriously on huge inputs", "statement": "The C hasher checks its capacity before merging, so with assertions enabled every update that takes a hasher from less than 2^63 bytes of input to 2^63 + 2048 bytes or more aborts, although 53 stack entries would suffice and although the same build without assertions, and the Rust hasher, accept the input. No sequence of updates with a shorter total aborts, and none whose pieces are all shorter than a chunk.", "quantifier": "every input in that length range (any content and split)", "why_tests_cant": "Reaching the state takes 2^63 bytes of input.", "anchors": ["c/baokeshed.c: hasher_push_chunk_hash", "c/baokeshed_impl.h: MAX_DEPTH"]}
{"id": "C31", "title": "C compression kernels agree", "statement": "compress_portable, compress_sse41 and compress_avx512 in C compute the specified compression function.", "quantifier": "every chaining value, block, block length, offset and flags byte", "why_tests_cant": "More than 2^800 arguments.", "anchors": ["c/baokeshed_portable.c: compress_portable", "c/baokeshed_sse41.c: compress_sse41", "c/baokeshed_avx512.c: compress_avx512"]}
{"id": "C32", "title": "C hash_many kernels agree", "statement": "hash_many_portable, _sse41, _avx2, _avx512 and _neon write the same bytes for the same arguments and touch nothing outside the first 32 * num_inputs output bytes.", "quantifier": "every number of inputs and blocks, key, offset, flags; offset deltas as used by the hasher (multiples of one delta)", "why_tests_cant": "Unbounded batch sizes, huge argument space, hardware most test machines do not have.", "anchors": ["c/baokeshed_avx512.c: hash_many_avx512", "c/baokeshed_avx2.c: hash_many_avx2", "c/baokeshed_sse41.c: hash_many_sse41", "c/baokeshed_neon.c: hash_many_neon"]}
{"id": "C33", "title": "Subtree splitting is left-balanced", "statement": "For content longer than one chunk, the left part chosen by the recursion is the largest power-of-two number of whole chunks that leaves at least one byte for the right part.", "quantifier": "every content length above 2048 that fits in usize", "why_tests_cant": "All lengths; tests list a few.", "anchors": ["src/lib.rs: left_len, largest_power_of_two_leq"]}
{"id": "C34", "title": "Byte and word conversions are mutually inverse", "statement": "Key bytes to words, block bytes to words and state words to bytes are little-endian bijections: converting back and forth gives the original on every value, and distinct keys give distinct key words.", "quantifier": "all 2^256 keys, all 2^512 blocks", "why_tests_cant": "All values.", "anchors": ["src/lib.rs: words_from_key_bytes, bytes_from_state_words", "src/portable.rs: words_from_block"]}
{"id": "C35", "title": "hash_many writes only its own output", "statement": "hash_many leaves every byte of the output slice beyond 32 * number of inputs unchanged, and the tree recursion reports exactly the number of chaining values it wrote, all within the slice it was given.", "quantifier": "every call", "why_tests_cant": "All batch sizes and buffer contents.", "anchors": ["src/platform.rs: hash_many", "src/lib.rs: hash_recurse, hash_chunks_parallel, hash_parents_parallel"]}
{"id": "C36", "title": "Hasher memory depends only logarithmically on the input", "statement": "After any sequence of updates the number of stored subtree hashes is the number of 1 bits in the number n of chunks hashed so far, or one more than the number of 1 bits in n - 1 when the last chunk has not been merged yet; hence at most log2 of the input length in chunks plus one, and never more than 53. The number of input bytes buffered is at most one block.", "quantifier": "every update history below 2^64 bytes", "why_tests_cant": "All histories.", "anchors": ["src/lib.rs: Hasher, needs_merge, push_chunk_hash"]}
{"id": "C37", "title": "The Python implementation does not check key lengths", "statement": "Python keyed_hash and derive_key given a key longer than 32 bytes silently use its first 32 bytes, so different keys with a common 32-byte prefix give the same result; given a shorter key they raise IndexError whenever any output is requested.", "quantifier": "every key of every length, every input, every positive output length", "why_tests_cant": "All keys of all lengths and all inputs; the test vectors only use 32-byte keys.", "anchors": ["python/baokeshed.py: keyed_hash, derive_key, words_from_bytes, compress"]}
{"id": "C38", "title": "The Rust declaration of the C hasher is 32 bytes too small", "statement": "src/c.rs declares the C hasher's stack of subtree hashes with 1664 bytes where the C code has 1696, so the C code writes beyond the end of the Rust value (also beyond its padding) in every update that takes such a hasher from less than 2^63 bytes of input to more than 2^63 bytes. As long as the total is below 2^63 bytes the wrapper is memory safe.", "quantifier": "every key, flags byte, content and split in that length range, every build", "why_tests_cant": "Reaching the state takes 2^63 bytes of input.", "anchors": ["src/c.rs: Hasher", "c/baokeshed.c: hasher, hasher_push_chunk_hash"]}
{"id": "C39", "title": "Every compression of the tree is performed exactly once", "statement": "Hashing an input of n bytes, in one call or through any sequence of updates followed by finalize, calls the compression function exactly once for each block of each chunk and each parent node of the tree, and for nothing else: max(1, ceil(n / 64)) + max(1, ceil(n / 2048)) - 1 calls in total. Cutting the input into more slices costs no extra compression.", "quantifier": "every input, mode, key, platform and way of cutting the input into slices", "why_tests_cant": "The number and the arguments of internal calls are not observable by tests, and all slicings are quantified over.", "anchors": ["src/lib.rs: hash_internal, hash_recurse, condense_root, Hasher::update, push_chunk_hash, Hasher::finalize"]}
{"id": "C40", "title": "The portable 64-bit variant computes the specified functions", "statement": "portable64::compress and compress_xof compute the BLAKE2b-style compression specified for the 64-bit variant on every input; hash1 of whole 128-byte blocks is the specified chain of compressions with the start flags on the first and the end flags on the last block, and panics on any other length; hash_many writes one such chaining value per input at offset + i * delta, touches nothing beyond 32 bytes per input, and panics exactly if the output is too short or the running offset overflows.", "quantifier": "every key, block, length byte, offset, flags, number of inputs and number of blocks", "why_tests_cant": "All inputs; the repository has no test vectors for this variant.", "anchors": ["src/portable64.rs: compress, compress_xof, hash1, hash_many"]}
{"id": "C41", "title": "The 64-bit C compression functions agree with the Rust one", "statement": "baokeshed64_compress_portable, _avx2 and _avx512 all replace the state by the specified compression of it, which is what portable64::compress computes, and read nothing outside the 128 bytes of the block.", "quantifier": "every state, block, length byte, offset and flags byte", "why_tests_cant": "The tests compare one input per function.", "anchors": ["c64/baokeshed64_portable.c: compress_portable", "c64/baokeshed64_avx2.c: compress_avx2", "c64/baokeshed64_avx512.c: compress_avx512", "src/portable64.rs: compress"]}
{"id": "C42", "title": "The 64-bit C hash_many functions agree with each other and with Rust", "statement": "For inputs of the same number of 128-byte blocks and a table offset_deltas[i] = i * d, baokeshed64_hash_many_portable, _sse41, _avx2, _avx512 and _neon write the same bytes, namely the specified chaining value of each input at offset + i * d, access no memory outside the inputs, the table and 32 bytes of output per input, and agree with portable64::hash_many whenever that does not panic.", "quantifier": "every number of inputs and blocks, content, key, offset, delta and flags", "why_tests_cant": "The tests use 31 inputs of one content at one offset.", "anchors": ["c64/baokeshed64_portable.c", "c64/baokeshed64_sse41.c", "c64/baokeshed64_avx2.c", "c64/baokeshed64_avx512.c", "c64/baokeshed64_neon.c", "src/portable64.rs: hash_many"]}
{"id": "C43", "title": "Extended output never repeats a block before the offset wraps", "statement": "Of the 64-byte blocks read from one Output, whether from a one-shot _xof function or from Hasher::finalize_xof, two are equal exactly when their numbers are congruent modulo 2^58. So all blocks read before the 64-bit offset wraps are different, and the period of the release build's stream is exactly 2^64 bytes. Underneath: for a given chaining value and block, compress_xof (all platforms, and the 64-bit variant) is injective in block length, offset and flags.", "quantifier": "every input, mode, key, machine, way of cutting the input, number of reads, and both build profiles", "why_tests_cant": "Two of 2^58 blocks cannot be compared by running the code, and no cryptographic assumption is made.", "anchors": ["src/lib.rs: Output::read", "src/portable.rs: compress_xof, round, g", "src/portable64.rs: compress_xof"]}
{"id": "C44", "title": "Padding and modes are separated without cryptographic assumptions", "statement": "If x followed by some zero bytes is still one chunk and ends in the same block as x, the output streams of the two inputs have no aligned 64-byte block in common, in any mode and at any positions: zero padding is never confused with input. Likewise two different modes with the same key words (keyed_hash and derive_key with one key) share no block of output on an input of at most 64 bytes.", "quantifier": "every mode, key, input, number of zero bytes in range, positions and number of reads", "why_tests_cant": "All inputs and all positions of the stream.", "anchors": ["src/lib.rs: hash_one_chunk, Output::read, Flags", "src/portable.rs: compress_xof"]}
{"id": "C45", "title": "What is compressed when does not depend on keys or content", "statement": "Two runs of the same calls in the same kind of mode, on slices of the same lengths but with any other content and any other key, perform the same number of compressions with the same block lengths, offsets and flags in the same order, and panic alike (if at all). So at the level of calls of the compression function the control flow depends on public lengths only.", "quantifier": "every pair of keys and contents, every sequence of update, finalize_xof and reads, every one-shot function, machine and build profile", "why_tests_cant": "A relation between all pairs of runs; tests see single runs and no internal calls.", "anchors": ["src/lib.rs: hash_internal, hash_recurse, condense_root, hash_one_chunk, ChunkState, Hasher, Output", "src/portable.rs: hash1, hash_many"]}
{"id": "C46", "title": "Recursion is as deep as the tree and no deeper", "statement": "On a call stack with room for n nested calls of hash_recurse, the one-shot functions of lib.rs return the specified hash exactly when the input is at most one chunk or at most 2^(n-1) * simd_degree chunks long, and exhaust the stack otherwise; so 53 calls are enough for every input that fits in memory. The functions of baokeshed.py likewise need exactly the n with input length at most 2^(n-1) chunks, so 54 calls, far below CPython's limit of 1000, are enough for less than 2^64 bytes.", "quantifier": "every n, input, mode, key, machine, pointer width and (Python) output length", "why_tests_cant": "The depth for inputs of 2^63 bytes cannot be tried, and a depth that grows with the length of the input would only show there.", "anchors": ["src/lib.rs: hash_recurse, hash_internal, left_len", "python/baokeshed.py: hash_recurse, hash_internal, left_len"]}
{"id": "C47", "title": "The round functions are those of BLAKE2", "statement": "BLAKE2s as assembled in python/test_baokeshed.py from the IV, message schedule and round function of baokeshed.py is BLAKE2s of RFC 7693. The rounds of portable.rs and portable64.rs are the first seven rounds of BLAKE2s and the first eight of BLAKE2b, and so are those of the two specifications used by the other properties, with the RFC's constants.", "quantifier": "every message of at most one block (the range of the Python test's code), every state, block and round", "why_tests_cant": "test_round_fn_compatible_with_blake2s tries one message, and there is no such test for Rust.", "anchors": ["python/test_baokeshed.py: test_round_fn_compatible_with_blake2s", "python/baokeshed.py: round, g", "src/portable.rs: round, g", "src/portable64.rs: round, g", "src/lib.rs: IV, MSG_SCHEDULE"]}
{"id": "C48", "title": "Standard output that fails: nothing wrong is printed and nothing is lost silently", "statement": "Whatever short writes, interruptions and errors the device behind standard output produces, it receives a prefix of the bytes the command line program should print; all of them, and the right exit status, if no write fails; and the status is the 101 of a panic only if a write fails (or the library panics). With the standard library since Rust 1.46, an exit status of 0 or 1 means that everything was received, and 0 also that every argument could be read.", "quantifier": "every list of arguments, files, standard input, device behaviour, buffer capacity, way of cutting error messages into pieces, and build profile; --help and --version too", "why_tests_cant": "Tests do not write to failing devices, let alone at every position.", "anchors": ["baokeshed_bin/src/main.rs: main, hash, print_hex", "Rust standard library: print!, LineWriter, BufWriter"]}
{"id": "C49", "title": "With the standard library of its time, the program exits with success on a full device", "statement": "For one readable input and an output that fits std's buffer, on a device all of whose writes fail (/dev/full), the program built with Rust 1.40's LineWriter prints nothing and exits with status 0, because LineWriter::write ignores a failing flush once the newline is in the buffer and nothing in main.rs flushes standard output. With the current LineWriter it panics. (Documents a shortcoming.)", "quantifier": "every input that can be read, mode, key, output length fitting the buffer, machine and build profile", "why_tests_cant": "Depends on a failing device; not covered by any test.", "anchors": ["baokeshed_bin/src/main.rs: print_hex, hash", "Rust standard library: LineWriter"]}
{"id": "C50", "title": "Every build that build.rs completes links", "statement": "For every set of cargo features (with the features they enable), every target and every host on which AVX2 implies SSE4.1, a build that build.rs completes defines each symbol once and defines every symbol that a compiled C file calls under its macros or that src/c.rs and src/c64.rs declare under the resulting cfg. Without that implication a c_detect build on a host with AVX2 does not link. Code for an instruction set is compiled only if its feature is enabled or, with c_detect, the host has it; and, except for Windows targets, with the compiler options for all instruction sets it uses.", "quantifier": "every set of features closed under Cargo.toml's dependencies, every result of CPU detection, every target string", "why_tests_cant": "CI builds a few combinations on a few hosts; which files get compiled under c_detect depends on the CPU.", "anchors": ["build.rs: main, detect_x86_features", "Cargo.toml: features", "c/baokeshed.c: compress, hash_many", "src/c.rs: ffi", "src/c64.rs: ffi"]}
{"id": "C51", "title": "Which targets build.rs refuses or mishandles", "statement": "With a C feature enabled, build.rs completes exactly when the target has at least three parts and, with c_detect, the target's first part is x86 or x86_64 and the host is x86. So c_detect refuses all 32-bit x86 targets (i386, i586, i686), which it means to allow, and on every target with windows as third part, including x86_64-pc-windows-gnu where the compiler is gcc, no file is given gcc's option for an instruction set it uses. (Documents shortcomings.)", "quantifier": "every set of features, host and target string", "why_tests_cant": "CI uses none of these targets.", "anchors": ["build.rs: main, detect_x86_features"]}
{"id": "C52", "title": "No instruction is used that the processor does not have", "statement": "The one-shot functions, every sequence of calls on a hasher, and every use of the outputs they return enter only functions whose target_feature is present on the processor (and none on other architectures), provided that AVX2 implies SSE4.1. The proviso is needed: on a processor with AVX2 but without SSE4.1 every hash would enter a function compiled for SSE4.1, because Platform::detect does not check it.", "quantifier": "every processor, mode, key, input, sequence of calls (also those that panic)", "why_tests_cant": "A test run shows only what one processor does; executing unsupported instructions is undefined behaviour.", "anchors": ["src/platform.rs: detect, compress, compress_xof, hash_many", "src/avx2.rs: hash_many", "src/sse41.rs: hash_many, compress, compress_xof", "src/lib.rs: ChunkState::new, hash_internal"]}
{"id": "C53", "title": "The C code on big-endian hosts", "statement": "Without the NEON back end, or if every update passes less than 2048 bytes, the C hasher returns the specified hash on hosts of every byte order. With the NEON back end on a big-endian ARM it does not: after one update with a chunk and a shorter rest it returns the hash of a tree in which the bytes of each word of the chunk's chaining value are exchanged, so that for 2049 zeros the result is wrong and changes if the same bytes are passed in two pieces. baokeshed_hash_many_neon exchanges groups of 16 (AArch64) or 8 (AArch32) bytes of the inputs it takes four at a time and of their results, and groups of 4 bytes of the results of the others. baokeshed64_hash_many_neon reads the words of inputs it takes in pairs with their bytes reversed and writes groups of 16 (AArch64, which also exchanges the results of a pair) or 8 (AArch32) bytes reversed, and the result of a single input as reversed words, so that for any number of inputs of one block of zeros it differs from the portable code. (Documents a shortcoming; the source has a TODO about it.)", "quantifier": "both kinds of big-endian ARM and little-endian hosts; every input, key, mode, number of inputs and blocks, offset and sequence of updates in range", "why_tests_cant": "The tests never run on a big-endian machine, as the TODO in the source says.", "anchors": ["c/baokeshed_neon.c: loadu_128, storeu_128, hash4_neon, hash_one_neon, hash_many_neon", "c64/baokeshed64_neon.c: loadu_128, storeu_128, transpose_vecs_128, hash2_neon, hash_one_neon, hash_many_neon", "c/baokeshed.c: hasher_update", "c/baokeshed_portable.c: load_msg_words, write_state_bytes"]}
{"id": "C54", "title": "The kernels of fixed width, for every array of offset deltas", "statement": "Each of the C functions hash4_sse41, hash8_avx2, hash4/8/16_avx512, hash4_neon and of hash2_sse41, hash4_avx2, hash2/4/8_avx512, hash2_neon of the 64-bit code returns, for each of its inputs, the chaining value over its blocks at the offset plus that input's own delta modulo 2^64, and changes nothing behind; no undefined behaviour. The Rust functions sse41::hash4 and avx2::hash8 do so for deltas 0, d, 2d, ..., and panic exactly if the last of these offsets exceeds 2^64 - 1.", "quantifier": "every list of inputs that are long enough, number of blocks, key, offset, array of deltas, flags and output buffer", "why_tests_cant": "The callers only pass the two tables of multiples of CHUNK_LEN and of zeros; no test calls these functions.", "anchors": ["c/baokeshed_sse41.c: hash4_sse41", "c/baokeshed_avx2.c: hash8_avx2", "c/baokeshed_avx512.c: hash4_avx512, hash8_avx512, hash16_avx512", "c/baokeshed_neon.c: hash4_neon", "c64/baokeshed64_sse41.c: hash2_sse41", "c64/baokeshed64_avx2.c: hash4_avx2", "c64/baokeshed64_avx512.c: hash2_avx512, hash4_avx512, hash8_avx512", "c64/baokeshed64_neon.c: hash2_neon", "src/sse41.rs: hash4", "src/avx2.rs: hash8"]}
{"id": "C55", "title": "The C chunk state, for every length", "statement": "chunk_state_init or chunk_state_reset, any sequence of chunk_state_update calls and chunk_state_finalize have no undefined behaviour and yield the chaining value over the concatenation of the pieces, whatever the division. Up to 65536 bytes this is the specified chunk; beyond, the counter of 16 bits wraps around and block 1024 carries the start flag again.", "quantifier": "every key, flags, offset, earlier state, list of pieces of any total length, compile-time configuration and size of size_t", "why_tests_cant": "The hasher never passes more than 2048 bytes, and no test calls these functions.", "anchors": ["c/baokeshed.c: chunk_state_init, chunk_state_reset, chunk_state_len, chunk_state_fill_buf, chunk_state_maybe_start_flag, chunk_state_update, chunk_state_finalize"]}
{"id": "C56", "title": "The buffer sizes recommended for the incremental hasher occupy the SIMD lanes", "statement": "If every slice given to a new Hasher is a multiple of WIDE_BUF_LEN bytes, its chunks are hashed with the least number of kernel calls the platform allows, the same as in one-shot hashing, and no byte is copied. Slices below 16384 bytes (such as std::io::copy's 8192) never use the eight lanes of AVX2 for chunks, slices below 8192 bytes not even four lanes. copy_wide achieves the least number for every reader that fills its buffer. COPY_BUF_LEN is a multiple of WIDE_BUF_LEN, at least 8192 and at most 65536. Exception: a first slice of exactly 2048 bytes, the WIDE_BUF_LEN of machines without SIMD, is put aside.", "quantifier": "every processor, mode, key, list of slices, reader, total length below 2^64", "why_tests_cant": "Tests see results, not which kernels computed them; a benchmark shows one size on one machine.", "anchors": ["src/copy.rs: WIDE_BUF_LEN, COPY_BUF_LEN, copy_wide", "src/lib.rs: Hasher::update", "src/platform.rs: hash_many, MAX_SIMD_DEGREE", "src/avx2.rs: hash_many", "src/sse41.rs: hash_many"]}
{"id": "C57", "title": "One-shot hashing occupies the SIMD lanes", "statement": "The one-shot functions hash the whole chunks of every input of more than one chunk with the least number of kernel calls the platform allows: with AVX2 one call for every eight chunks, then one for four, then single ones; with SSE4.1 one for every four; the recursion never splits a group. An input of at most one chunk uses no chunk kernel.", "quantifier": "every processor, mode, key and input that fits in the address space", "why_tests_cant": "Tests see results, not which kernels computed them.", "anchors": ["src/lib.rs: hash_internal, hash_recurse, left_len, hash_chunks_parallel", "src/platform.rs: hash_many, simd_degree", "src/avx2.rs: hash_many", "src/sse41.rs: hash_many"]}
{"id": "C58", "title": "The three modes have the same performance characteristics", "statement": "As the documentation says: hashing, keyed hashing and key derivation of inputs of the same length, in one call or through the same sequence of updates and reads, call the same compression functions and kernels on the same lengths in the same order, copy the same bytes and panic alike, with flags that differ at most in the two bits that name the mode; whatever the keys and the contents.", "quantifier": "every pair of modes with any keys, every pair of inputs or sequences of slices of equal lengths, every processor, both profiles, also beyond the supported lengths", "why_tests_cant": "Benchmarks sample some lengths on one machine.", "anchors": ["src/lib.rs: documentation of the crate, hash_internal, hash_recurse, Hasher::update, Hasher::finalize_xof, Output::read", "src/platform.rs: compress, compress_xof, hash_many", "src/sse41.rs: hash_many", "src/avx2.rs: hash_many"]}
{"id": "C59", "title": "What calls cost", "statement": "After n bytes in any slices, finalize_xof performs at most d = floor(log2(n / 2048)) + 1 compressions (at most 53), and an update with s bytes at most ceil(s / 64) + ceil(s / 2048) + d. A session of updates, finalizations and reads performs at most the compressions of one hash of all n bytes, d more for each finalization and one for each block read; so hashing every prefix costs no more than that. A hasher copies no byte of input more than once, and the one-shot functions copy exactly the n mod 64 bytes of an incomplete last block.", "quantifier": "every processor, mode, key, list of slices with total below 2^64 and sequence of calls; the last sentence for every state of a hasher", "why_tests_cant": "A statement about the number of calls in all sessions; tests see results.", "anchors": ["src/lib.rs: Hasher::update, Hasher::push_chunk_hash, Hasher::finalize_xof, Output::read, ChunkState::fill_buf, ChunkState::update"]}
{"id": "C60", "title": "The C hasher performs each compression of the tree once, and only finalize uses the ROOT flag", "statement": "Hashing an input with the C hasher, in any pieces, performs exactly the compressions of the specified tree, each once, the same as the Rust library: max(1, ceil(n / 64)) for blocks and one less than the number of chunks for parents. In any sequence of updates and finalizes every compression carries the mode in its flags, and those with the ROOT flag are, in order, exactly the ones whose chaining values finalize returns. If the C hasher and the Rust library, or either of them twice, return equal hashes, then modes, keys and inputs are equal or two of the compressions performed collide.", "quantifier": "every compile-time configuration of the C code, mode, key, list of pieces that C29 covers, sequence of updates and finalizes", "why_tests_cant": "Tests see results, not the calls that lead to them; repeated or additional work leaves results unchanged, and a missing domain separation shows only under attack.", "anchors": ["c/baokeshed.c: hasher_init, hasher_update, hasher_finalize, hasher_push_chunk_hash, hasher_merge_parent, chunk_state_update, chunk_state_finalize, hash_one_parent", "c/baokeshed_portable.c: hash_many_portable, compress_portable", "src/lib.rs: hash_internal, Hasher"]}
{"id": "C61", "title": "All implementations agree", "statement": "For every mode, key, input and output length the one-shot functions, the incremental hasher, the reference implementation, the Python implementation and the command line program produce the same bytes, each with the input divided in its own way; for 32 bytes so does the C hasher. In particular the repository's own comparison of baokeshed.py with the program, test_compare_to_rust, passes for every key, input and length, not only for its list of cases; and its inputs, from make_test_input, are those that paint_test_input makes for the tests of the library.", "quantifier": "every processor, C configuration with correct byte order, profile, mode, key, input that fits in the address space, division into pieces, output length below 2^63", "why_tests_cant": "The repository compares two of the implementations at a time, on about twenty lengths, with one key and one output length.", "anchors": ["src/lib.rs: hash, hash_xof, Hasher, Output", "reference_impl/reference_impl.rs", "python/baokeshed.py", "python/test_baokeshed.py: test_compare_to_rust, make_test_input", "baokeshed_bin/src/main.rs: main", "c/baokeshed.c: hasher_update, hasher_finalize"]}
{"id": "C62", "title": "With the rayon feature the critical path is logarithmic", "statement": "With the rayon feature the one-shot functions return the same, and perform the same compressions, as without it; but with enough processors the longest chain of compressions that have to follow each other is short: for at most d * 2^L chunks and d SIMD lanes no more than 32 d for the chunks and max(d, 2) for each of L + 1 levels. On every processor it is at most 256 + 8 (log2(n / 2048) + 2), and never more than 688, whatever the length.", "quantifier": "every processor, mode, key and input that fits in the address space", "why_tests_cant": "Speed-up on one machine with a few cores says little about the critical path; a recursion that degenerates to sequential or lopsided work returns the same results.", "anchors": ["src/lib.rs: join, hash_recurse, left_len, hash_internal, condense_root"]}
{"id": "C63", "title": "What the C hasher compresses when depends on lengths only", "statement": "The compressions performed by any sequence of updates and finalizes on a C hasher, in order, with their block lengths, offsets and flags, depend on the calls and the lengths of the pieces only: not on the content of the pieces or the key, on what lies behind them in memory, on what uninitialised memory contains, or on the SIMD instructions the code is built for. Between different modes they differ in the flags KEYED_HASH and DERIVE_KEY only, so all modes cost the same.", "quantifier": "every two compile-time configurations with the same width of size_t, modes, keys, sequences of updates and finalizes that C29 covers with pieces of equal lengths", "why_tests_cant": "A statement about pairs of runs and about calls, which results do not show; timing tests see one machine and a few inputs.", "anchors": ["c/baokeshed.c: hasher_update, hasher_finalize, hasher_push_chunk_hash, hasher_merge_parent, hasher_needs_merge, chunk_state_update, chunk_state_finalize, compress, hash_many"]}
{"id": "C64", "title": "The library passes its own tests for every input", "statement": "The tests of src/test.rs contain constructions of the hash, written out by hand, for empty inputs, one byte, three blocks and three chunks. hash, keyed_hash, derive_key and the Hasher agree with these constructions for every key and every input of these lengths. The comparisons of the recursive with the incremental implementation, of the regular with the extended output and of both with the reference implementation succeed for every key, input and output length. Every test but the one of a struct's size passes, as it stands, on every processor. The pattern that paint_test_input writes does not repeat: eight bytes of it occur at one position only.", "quantifier": "every processor and width of usize (17 bits and more where the fixed buffers need them), profile, key, input of the stated length or that fits in the address space, output length below 2^63", "why_tests_cant": "The tests try one pattern of bytes, about twenty lengths, and the processor they run on.", "anchors": ["src/test.rs: exercise_construction, three_blocks_construction, hash_whole_chunk_for_testing, three_chunks_construction, paint_test_input, test_recursive_incremental_same, test_zero_bytes, test_one_byte, test_xof_output, test_domain_separation, test_regular_xof_match, test_lib_against_reference_impl, test_left_len, test_largest_power_of_two_leq, test_offset_words", "src/lib.rs: hash, keyed_hash, derive_key, hash_xof, keyed_hash_xof, derive_key_xof, Hasher, Output"]}
{"id": "C65", "title": "What calls of the C hasher cost", "statement": "After n bytes in any pieces, hasher_finalize performs at most d + 1 compressions, where d = floor(log2(n / 2048)) + 1 (so at most 54), and hasher_update with s bytes at most ceil(s / 64) + ceil(s / 2048) + d. A session of updates with n bytes in all and k finalizes anywhere between them performs fewer compressions than one hash of n bytes and k (d + 1) together.", "quantifier": "every compile-time configuration, mode, key, list of pieces that C29 covers, sequence of updates and finalizes", "why_tests_cant": "A statement about the number of calls in all sessions; tests see results.", "anchors": ["c/baokeshed.c: hasher_update, hasher_finalize, hasher_push_chunk_hash, hasher_merge_parent, chunk_state_update"]}
{"id": "C66", "title": "The C hasher occupies the SIMD lanes of its build", "statement": "The C hasher calls no function of a file that its build does not contain, and compresses single blocks with the best function the build has. When pieces of multiples of 2048 bytes times the number of lanes (32768 bytes are enough for every build) are added to a new hasher, all chunks are hashed with the least number of kernel calls possible with the kernels of the build, and nothing is copied (except that a first piece of exactly 2048 bytes, such a multiple only in builds without SIMD, is put aside). Of a piece of any length, added at any time, all whole chunks, or all but one, are hashed with the least number of kernel calls. No byte is copied more than once, and finalizing copies nothing.", "quantifier": "every compile-time configuration, mode, key, list of pieces that C29 covers; for the functions called and the copies every sequence of updates and finalizes on every state", "why_tests_cant": "Kernel choice and copies cannot be seen in results; tests run on one processor with the kernels it has.", "anchors": ["c/baokeshed.c: hasher_update, hasher_finalize, compress, hash_many, chunk_state_fill_buf, chunk_state_update, chunk_state_finalize, hash_one_parent", "c/baokeshed_portable.c: hash_many_portable", "c/baokeshed_sse41.c: hash_many_sse41", "c/baokeshed_avx2.c: hash_many_avx2", "c/baokeshed_avx512.c: hash_many_avx512", "c/baokeshed_neon.c: hash_many_neon"]}
{"id": "C67", "title": "Every module passes its own tests for every input", "statement": "The tests inside portable.rs, sse41.rs, avx2.rs, c.rs, portable64.rs, c64.rs and copy.rs and the tests of the command line program compare two ways to obtain the same bytes on one fixed input. Every one of these comparisons succeeds for all bytes, keys, flags and offsets that do not overflow, for any number of inputs and blocks where the test fixes one, for every build of the C code and every pattern of reads of standard input: the transposition of a matrix of any entries, hash1 against compressions block by block, the SIMD functions for parents and for chunks, every C compression function and every C hash_many, the C chunk state and the C hasher fed at once or byte by byte, copy_wide, and the program with one input, several inputs, a length, a key and a derived key. The comparisons fail when a compression function returns another state or an output differs in one byte. All the tests pass, as they stand, on every processor.", "quantifier": "every processor, C build (little-endian if it has NEON), profile, input of the shape that the test uses, key, flags, offset within 2^64, number of inputs; for the program all paths but -, all files, all pieces and interruptions of standard input", "why_tests_cant": "The tests try one pattern of bytes, one number of inputs and one offset, skip what the processor does not have, and need the C compiler of one machine.", "anchors": ["src/portable.rs: test_hash1_1, test_hash1_3, test_hash_many", "src/sse41.rs: test_transpose, test_compress, test_compress_xof, test_parents, test_chunks, test_hash1_1, test_hash1_3, test_hash_many", "src/avx2.rs: test_transpose, test_parents, test_chunks, test_hash_many", "src/c.rs: ChunkState, compare_compress_fn, compare_hash_many_fn, test_compare_hash_chunk, test_compare_hash_tree", "src/portable64.rs: test_hash1_1, test_hash1_3, test_hash_many", "src/c64.rs: compare_compress_fn, compare_hash_many_fn", "src/copy.rs: test_copy_wide, test_copy_buffer_sizes", "baokeshed_bin/tests/test.rs: test_hash_one, test_hash_many, test_hash_length, test_hash_key, test_derive_key"]}
{"id": "C68", "title": "What was hashed can be read back from the compressions", "statement": "Record every call of the compression function with the chaining value it returned: those made while computing one hash, and any other calls besides, by the same or by other computations or by an adversary. If no two different calls in the record returned the same chaining value, then a search of the record that starts from the 32 bytes of the hash and computes nothing finds the mode, the key and the complete input. The same holds for the first 32 bytes of every block of extended output and for every finalize in the middle of incremental hashing: the search finds exactly the bytes fed before. A chaining value from inside the computation of a hash leads to no input at all. Hence in such a record hashes are equal only if mode, key and input are equal.", "quantifier": "every mode and key, every input of less than 2^64 bytes (2^63 for the C code), every processor and build, every sequence of calls on a hasher, every collision-free record that contains the calls", "why_tests_cant": "The claim quantifies over all inputs and all records, including calls chosen by an adversary; tests compare hashes of a few inputs and never look at compressions.", "anchors": ["src/lib.rs: hash_xof, keyed_hash_xof, derive_key_xof, Hasher, Output, ChunkState, hash_recurse, Flags", "c/baokeshed.c: hasher_update, hasher_finalize", "src/portable.rs: compress"]}
{"id": "C69", "title": "The benchmarks measure what they say they measure", "statement": "For every page size, whatever bytes the generator produces and into whatever order it shuffles the offsets, and for any number of calls of the measured closure: no benchmark panics or reads or writes outside its arrays. The number of bytes it declares is the number of bytes each call works on. Call number j gets exactly that many bytes, beginning within the first page of the buffer, and as many consecutive calls as a page has bytes use every offset within the page exactly once. Benchmarks meant to be compared with each other (the compression functions of one word size, the kernels of one width, the one-shot function, the hasher and the reference implementation on one length) compute the same specified values from the same random input. The C hasher's benchmarks compute the tree under an all-zero key, which is no mode of the library. The benchmark of the extensible output reads consecutive blocks.", "quantifier": "every page size, content, shuffle and number of calls; every processor and build (NEON: little-endian hosts)", "why_tests_cant": "Benchmarks have no assertions: a benchmark that reads out of bounds, measures the wrong length or reuses one alignment still reports a time. The number of calls is chosen by the clock and the inputs are random.", "anchors": ["benches/bench.rs: RandomInput::new, RandomInput::get, bench_compress_*, bench_chunks_*, bench_hash_*, bench_hasher_*, bench_reference_*, bench_xof"]}
{"id": "C70", "title": "The reference and the Python implementation do each compression once, and inherit collision resistance", "statement": "However the input is cut into slices, the reference implementation calls its compression function exactly once for every block of the input but the last of the last chunk, once for every inner node of the tree but the topmost, and once for every 64 bytes of output begun, with exactly the arguments the specification gives; the Python implementation makes the same compressions, for inputs and outputs of any length and keys longer than 32 bytes. If any two computations by the Rust library, the C code, the reference implementation or the Python implementation return the same first 32 bytes, then mode, key and input are the same or the compressions they made contain a collision of the compression function. What was hashed can be read back from the compressions made.", "quantifier": "every mode, key, input, slicing and output length (reference: input below 2^64 bytes, output up to 2^64 - 64 bytes; Python: no bound)", "why_tests_cant": "Work done twice or for nothing gives the same hash. A collision across implementations cannot be searched for by testing; reducing it to one of the compression function needs every computation.", "anchors": ["src/reference_impl.rs: compress, Output::chaining_value, Output::root_output_bytes, ChunkState::update, Hasher::update, Hasher::finalize", "baokeshed.py: compress, Output, hash_chunk, hash_recurse, hash_internal"]}
{"id": "C71", "title": "Without overflow checks and debug assertions nothing changes for possible inputs, and impossible ones give no wrong hash", "statement": "Whatever the Rust code returns when compiled with overflow checks and debug assertions, it also returns when compiled without them: hash_many of every platform, the one-shot functions, the Hasher, the reference implementation, copy_wide. So the release build computes the specified hash of every input. It is also defined beyond the limits: updated with any number of bytes in any pieces, a Hasher either returns the specified hash or panics because its stack is full, the first always below 2^64 bytes, the second always above, and at exactly 2^64 bytes according to whether the last update begins the last chunk. The build with checks returns no wrong hash either. The reference implementation is right up to and including 2^64 bytes and panics beyond, also when the offset wraps around silently. hash_many without checks does not panic for any offset, offset delta and length of the output: it hashes as many inputs as there is room for, at offsets modulo 2^64.", "quantifier": "every platform, mode, key, input and slicing, input lengths without bound; hash_many: every number of inputs of any whole number of blocks, every offset, delta and output length", "why_tests_cant": "Nobody can hash 2^64 bytes in a test. Tests are compiled with the checks, users run the code without them.", "anchors": ["src/lib.rs: hash_internal, hash_recurse, left_len, condense_root, Hasher::update, Hasher::merge_parent, Hasher::push_chunk_hash, Hasher::finalize_xof, ChunkState::update", "src/portable.rs: hash_many", "src/sse41.rs: hash_many, load_offsets", "src/avx2.rs: hash_many, load_offsets", "src/portable64.rs: hash_many", "reference_impl/reference_impl.rs: Hasher::update, push_chunk_chaining_value", "src/copy.rs: copy_wide"]}
{"id": "C72", "title": "The C hasher never returns a wrong hash, and overruns its object beyond 2^64 bytes", "statement": "Whatever is passed to a C hasher, of any total length and in any pieces: either an update fails, by its assertion or, if assertions are disabled, by a write beyond the end of the hasher object; or the hasher returns the specified hash of everything passed. Below 2^64 bytes a build without assertions never fails (C29); beyond 2^64 bytes every build does; with exactly 2^64 bytes a build without assertions fails if and only if the last piece has 2048 bytes or more. The hasher of src/c.rs with its smaller object never returns a wrong hash either.", "quantifier": "every compile-time configuration of the C code with the right byte order, key, flags, list of pieces of any total length, contents of uninitialised memory", "why_tests_cant": "Nobody can pass 2^64 bytes in a test, and a write beyond the end of the object may go unnoticed.", "anchors": ["c/baokeshed.c: hasher_init, hasher_update, hasher_push_chunk_hash, hasher_merge_parent, hasher_finalize", "src/c.rs: Hasher"]}
{"id": "C73", "title": "What the C hash_many functions do with any table of offset deltas", "statement": "Every hash_many of the C code (five back ends, 32- and 64-bit) takes its inputs in batches, the widest first (16, 8, 4, 1 for AVX-512, 8, 4, 1 for AVX2, 4, 1 for SSE4.1 and NEON, 1 for the portable code; 64-bit: 8, 4, 2, 1 / 4, 2, 1 / 2, 1 / 1). For every array of deltas reaching to the widest batch: input j of a batch of several is hashed at offset + deltas[j], a single input at offset, and after a batch of w the offset has moved by deltas[w], modulo 2^64. Nothing outside the given objects is accessed and the rest of the output is left alone. The offsets agree with those of the portable code for every number of inputs if and only if deltas[i] = i * deltas[1] up to the widest batch.", "quantifier": "every back end, array of deltas, number of inputs and blocks, key, offset, flags and input contents", "why_tests_cant": "The tests and the library only pass the two tables 0 and i * CHUNK_LEN; the functions are exported and accept any array.", "anchors": ["c/baokeshed_portable.c: hash_many_portable", "c/baokeshed_sse41.c: hash_many_sse41", "c/baokeshed_avx2.c: hash_many_avx2", "c/baokeshed_avx512.c: hash_many_avx512", "c/baokeshed_neon.c: hash_many_neon", "c64/*: hash_many_*"]}
{"id": "C74", "title": "Exactly which sequences of updates the C hasher accepts", "statement": "Call a chunk whole if its 2048 bytes all come from one call of hasher_update. With assertions, a C hasher accepts a sequence of updates if and only if it passes at most 2^64 bytes in total and none of the chunks number 2^53 - 2^j (j from 0 to 52) is whole; otherwise the assertion in hasher_push_chunk_hash fails. (One call may therefore pass at most 2^63 + 2047 bytes.) Without assertions, if and only if it passes at most 2^64 bytes and chunk number 2^53 - 1 is not whole; otherwise it writes beyond its subtree_hashes. With the smaller object of src/c.rs, if and only if it passes at most 2^63 bytes and chunk number 2^52 - 1 is not whole; otherwise it writes beyond its subtree_hashes, even with assertions. Nothing else about the pieces or their contents matters.", "quantifier": "every build (back ends, assertions, size_t of at least 16 bits), key, flags, and every sequence of updates with pieces of any length and content", "why_tests_cant": "The cases that decide it need more than 2^63 bytes of input.", "anchors": ["c/baokeshed.c: hasher_update", "c/baokeshed.c: hasher_push_chunk_hash", "c/baokeshed.c: hasher_needs_merge", "c/baokeshed_impl.h: MAX_DEPTH", "src/c.rs: Hasher"]}
{"id": "C75", "title": "Exactly which sequences of updates the Rust hashers accept", "statement": "Call a chunk whole if its 2048 bytes all come from one call of update. A Hasher built with overflow checks and debug assertions accepts a sequence of updates if and only if it passes at most 2^64 bytes in total and chunk number 2^53 - 1, the last below 2^64 bytes, is not whole; otherwise it panics. It accepts exactly the same sequences when built without checks, and ends in the same state. Whenever it accepts, finalize and finalize_xof give the specified hash and output. The reference implementation with checks accepts every sequence of at most 2^64 bytes and no other, and gives the specified output.", "quantifier": "every platform, mode, key, and every sequence of updates with pieces of any length and content", "why_tests_cant": "The cases that decide it need 2^64 bytes of input.", "anchors": ["src/lib.rs: Hasher::update", "src/lib.rs: Hasher::push_chunk_hash", "src/lib.rs: Hasher::finalize_xof", "src/lib.rs: MAX_DEPTH", "reference_impl/reference_impl.rs: Hasher::update"]}
{"id": "C76", "title": "With the rayon feature the same work is done, in whatever order", "statement": "With the rayon feature, whatever the schedule of the halves that join runs side by side: the one-shot functions return the same and perform each compression of the tree exactly once and no other, the root last; they enter the same functions and kernels on as many bytes, equally often, as without the feature, hash the whole chunks with the least number of kernel calls and copy exactly the bytes of an incomplete last block; they enter only functions whose target_feature the processor has, also if there is a panic; the orders in which things can happen, and a panic, depend neither on the content of the input nor on the key, and but for the bits that name it not on the mode. The order without the feature is one of the possible ones, and at every division of the input the right half may be done first.", "quantifier": "every platform, mode, key, input, sequence of reads of the output, and every interleaving of the two sides of every join", "why_tests_cant": "A test runs few of the possible schedules and sees results, not what was called in which order.", "anchors": ["src/lib.rs: join", "src/lib.rs: hash_recurse", "src/lib.rs: hash_internal"]}
{"id": "C77", "title": "Debug output of hashers and outputs reveals nothing", "statement": "Formatting a Hasher or an Output with Debug gives the same text whatever key, input or chaining values it contains (Hasher { ... } and Output { ... }), so logging one cannot leak a secret. A Hash, which is not secret to whoever prints it, prints as Hash(0x, its 64 hexadecimal digits and ), so that hashes that print alike are equal. Conversions between Hash and arrays keep the bytes.", "quantifier": "every state of a Hasher or an Output, every 32-byte hash", "why_tests_cant": "A test can format some states only; that none of them shows in the text is a statement about all of them.", "anchors": ["src/lib.rs: impl fmt::Debug for Hasher", "src/lib.rs: impl fmt::Debug for Output", "src/lib.rs: impl fmt::Debug for Hash", "src/lib.rs: impl From<[u8; OUT_LEN]> for Hash"]}
{"id": "C78", "title": "copy_wide holds nothing back, whatever the reader does", "statement": "copy_wide(reader, writer), looked at after any number of calls of read, with any reader (one that keeps state, looks at the buffer, scribbles on it even when it fails, or never ends) and any writer: as long as the calls delivered data and interruptions only and the writer accepted the data, copy_wide is still running and the writer has got exactly the bytes read, each piece as soon as it was read. It returns Ok(t) exactly when a call of read returns Ok(0), and t is the number of bytes; it returns an error exactly when a call of read fails with an error other than Interrupted or the writer refuses a piece; it panics exactly when read claims more bytes than the buffer has, the writer panics, or (with overflow checks) the total reaches 2^64. Afterwards the reader is not called again. Hence a stream that never ends is hashed as it comes: a hasher that is the writer is, at every moment, the hasher of the bytes read so far.", "quantifier": "every reader, also adaptive and endless ones, every writer, every number of calls, both build profiles, every configuration", "why_tests_cant": "A test ends; a reader that never ends and a reader that reacts to the buffer are infinitely many behaviours, and nothing a test observes rules out bytes held back in the buffer for some of them.", "anchors": ["src/copy.rs: copy_wide"]}
{"id": "C79", "title": "Parent nodes are hashed several at a time", "statement": "The one-shot functions hash the parent nodes of a tree of n chunks, all but the root, with at most n/d + 3 log2 n + 5 calls of SIMD kernels, where d is the number of lanes of the platform (8 with AVX2, 4 with SSE4.1), so that the lanes are busy in all but a vanishing part of the calls: at least as many calls as n - 2 parents need in the best case are unavoidable. If n is a power of two, every call is of full width but for those of the last two levels. With the rayon feature the same calls are made, in some other order.", "quantifier": "all modes, keys, inputs that fit in memory, platforms; every schedule", "why_tests_cant": "A benchmark shows a time for some lengths on one machine; that the number of narrow calls grows no faster than the logarithm of the length is a statement about all lengths.", "anchors": ["src/lib.rs: hash_recurse", "src/lib.rs: hash_parents_parallel", "src/lib.rs: condense_root", "src/avx2.rs: hash_many", "src/sse41.rs: hash_many"]}
{"id": "C80", "title": "Pointers and lengths passed to the C hasher: short objects and null", "statement": "hasher_update reads every byte of its input: called with a length that exceeds what may be read through the pointer, or with a null pointer and a length other than 0, its behaviour is undefined (unless an assertion fails first), whatever the state of the hasher. With a null pointer and the length 0 it leaves the hasher as it is, with one exception: up to C17, where memcpy must not be given a null pointer, the call is undefined behaviour exactly if bytes are held in the chunk state, that is, unless the hasher has been given nothing, or more than one whole chunk and no more, the last within one piece.", "quantifier": "all builds of the C code, hasher states (for the first part: also unreachable ones), sequences of updates, pointers, lengths; both rules about null pointers", "why_tests_cant": "The tests reach the C code through Rust slices, whose pointers are never null and whose lengths are right; undefined behaviour of memcpy(dest, NULL, 0) has no visible effect with most compilers, so running the code does not show it.", "anchors": ["c/baokeshed.c: hasher_update", "c/baokeshed.c: chunk_state_update", "c/baokeshed.c: chunk_state_fill_buf", "src/c.rs: Hasher::update"]}
{"id": "C81", "title": "Attacks that treat the compression function as a black box", "statement": "Put an arbitrary function in the place of the compression function: the way in which the library and the C code hash (tree, flags, lengths, keys, offsets) then has these guarantees against an attacker who may ask for any compressions, adaptively, and choose modes, keys and inputs. Counted over all functions: with q compressions, including those for hashing the inputs that are named in the end, an attacker finds two different inputs (or modes, or keys) with the same hash for at most q(q-1)/2 of every 2^256 functions, and an input with a given hash for at most q of every 2^256. For an input whose final compression the attacker has not asked for, a guess of the hash is right for exactly one of every 2^256 functions, and a guess of a block of extended output for exactly one of every 2^512, even if the attacker knows all other blocks. Every value is the hash of a given input for equally many functions.", "quantifier": "all attackers (adaptive algorithms, without bound on their work), all numbers of questions, all modes, keys, inputs and output blocks", "why_tests_cant": "A statement about all functions in the place of the compression function and all attackers; tests run one function on a few inputs and no attackers.", "anchors": ["src/lib.rs: hash_recurse", "src/lib.rs: ChunkState", "src/lib.rs: hash_one_parent", "src/lib.rs: Output", "c/baokeshed.c: hasher_finalize"]}
{"id": "C82", "title": "keyed_hash and derive_key with a secret key", "statement": "Let the compression function be a random function, as in C81, and the 32-byte key a random secret. Somebody who holds the key answers requests for blocks of the output of keyed_hash and derive_key, both with the same key, for inputs of up to N < 2^64 bytes; an attacker makes requests and asks for compressions, in any order, each depending on the answers before (hash without key is among the compressions the attacker may ask for). If the attacker asks for q compressions and the holder performs s, no observation of the attacker tells the holder from somebody who answers every new request with 64 fresh random bytes: the probabilities differ by at most (2qs + s(s-1)) / 2^257. So the hash of an input in one of the modes cannot be forged with a probability of more than 1/2^256 plus that bound, even if the attacker knows every other block of its output and its hash in the other mode; a block of output not with more than 1/2^512 plus the bound; and the key is found with a probability of at most 1/2^512 + (2(q+1)(s+1) + (s+1)s) / 2^257.", "quantifier": "all attackers (adaptive, without bound on their work), all observations, all numbers of questions, all inputs below 2^64 bytes, all output blocks", "why_tests_cant": "A probability over all functions and all keys, for all attackers; a test runs one function with a few keys and can only fail to find an attack.", "anchors": ["src/lib.rs: keyed_hash", "src/lib.rs: derive_key", "src/lib.rs: keyed_hash_xof", "src/lib.rs: derive_key_xof", "src/lib.rs: hash_recurse", "src/lib.rs: Flags"]}
{"id": "C83", "title": "The output is like that of a random function", "statement": "Let the compression function be a random function, as in C81. Compare two worlds, in both of which an algorithm asks for compressions and for blocks of output of hash, keyed_hash and derive_key, with keys and inputs (up to N < 2^64 bytes) of its choice, in any order, each question depending on the answers before. In one world the output is made from the compressions, in the way of the library and the C code. In the other the output is random, a fresh 64 bytes for every mode, key, input and block number, and a fixed, explicitly given simulator makes up the compressions; it sees only the questions for compressions and may ask for the same random output, once per question, but does not see which output the algorithm asks for. If the algorithm asks for q compressions and the output it asks for takes s compressions, whatever it finds out has nearly the same probability in both worlds: the difference is at most (3(q+s)^2 + (q+s)) / 2^257. Hence there are no attacks on the structure, such as extending an input whose hash is known, that a random function does not have as well. In the second world, who makes a block of output from the made-up compressions gets the random block, unless two of the compressions gave the same chaining value.", "quantifier": "all algorithms (adaptive, without bound on their work), all observations, all numbers of questions, all modes, keys, inputs below 2^64 bytes, all output blocks", "why_tests_cant": "A probability over all functions and a statement about all algorithms; that a structural weakness is absent cannot be seen from the outputs for any number of inputs.", "anchors": ["src/lib.rs: hash_recurse", "src/lib.rs: ChunkState", "src/lib.rs: hash_one_parent", "src/lib.rs: Output", "src/lib.rs: Flags", "c/baokeshed.c: hasher_finalize"]}
{"id": "C84", "title": "Secrets in the input: no length extension", "statement": "Let the compression function be a random function, as in C81. Somebody who holds a random secret, one of |K|, answers requests for blocks of output of hash, keyed_hash and derive_key, with inputs and keys that the attacker chooses, but puts the secret into the input first: before it, behind it, or in any other way from which secret and input can both be recovered (inputs stay below 2^64 bytes). If the attacker asks for q compressions and the holder performs t, in any order, each question depending on the answers before, no observation of the attacker tells the holder from somebody who answers every new request with 64 random bytes, up to a difference of q/|K| + (3(q+t)^2 + (q+t) + 3q^2 + q)/2^257 in its probability. In particular the probability that the attacker names the hash for an input that was not requested is at most 1/2^256 more than that: the hash for one input does not help with an extension of it.", "quantifier": "all attackers (adaptive, without bound on their work), all observations, all sets of secrets, all ways to put them into the input, all numbers of questions, all modes, keys and inputs below 2^64 bytes", "why_tests_cant": "A probability over all functions and all secrets, for all attackers; a test can try known attacks on a few inputs.", "anchors": ["src/lib.rs: hash", "src/lib.rs: Hasher::finalize", "src/lib.rs: Output", "src/lib.rs: Flags", "src/lib.rs: hash_recurse"]}
{"id": "C85", "title": "Second preimages, and many targets", "statement": "Let an arbitrary function take the place of the compression function, as in C81. For every given input, in a given mode with a given key, an attacker finds a different input (or mode, or key) with the same hash for at most q c + c(c-1)/2 of every 2^256 functions, where c is the number of compressions of the given input and q counts the attacker's compressions, including those for hashing the input that is named in the end. For an input of at most 64 bytes that is q. And an attacker who wants an input whose hash is any one of n given values finds one for at most q n of every 2^256 functions.", "quantifier": "all attackers (adaptive, without bound on their work), all given inputs, modes, keys and sets of hashes, all numbers of questions", "why_tests_cant": "A count over all functions in the place of the compression function and a statement about all attackers; tests run one function and no attackers.", "anchors": ["src/lib.rs: hash_recurse", "src/lib.rs: ChunkState", "src/lib.rs: hash_one_parent", "src/lib.rs: Output", "src/lib.rs: Flags"]}
{"id": "C86", "title": "Many secret keys", "statement": "Let the compression function be a random function, as in C81, and let any finite set of people each hold a random 32-byte key of their own. Each answers requests as the one holder of C82 does: for blocks of the output of keyed_hash and derive_key with their key, for inputs of up to N < 2^64 bytes. An attacker chooses, each time depending on the answers before, whom to ask for what, and asks for compressions. If the attacker asks for q compressions and all holders together perform s, no observation tells the holders from people who answer every new request with 64 fresh random bytes, independently of each other: the probabilities differ by at most (2qs + s(s-1)) / 2^257, whatever the number of holders. So the hash of an input for one of the holders cannot be forged with a probability of more than 1/2^256 plus that bound, even if all others have answered for the same input; a block of output not with more than 1/2^512 plus the bound; and to find the key of any one of them, which the attacker may choose, has a probability of at most 1/2^512 + (2(q+1)(s+1) + (s+1)s) / 2^257, for s < 2^58.", "quantifier": "all finite sets of holders, all attackers (adaptive, without bound on their work), all observations, all numbers of questions, all inputs below 2^64 bytes, all output blocks", "why_tests_cant": "A probability over all functions and all families of keys, for all attackers and any number of holders; a test runs one function with a few keys.", "anchors": ["src/lib.rs: keyed_hash", "src/lib.rs: derive_key", "src/lib.rs: keyed_hash_xof", "src/lib.rs: derive_key_xof", "src/lib.rs: hash_recurse", "src/lib.rs: Flags"]}
{"id": "C87", "title": "What Rust and C declare about each other", "statement": "The structs ChunkState and Hasher of src/c.rs, laid out by the rules of C (members in order, each aligned, no shorter layout in that order exists), have every member at the offset at which the C structs have it, with the same size, on every platform whatever its alignment of integers; the one exception is the end of subtree_hashes. The C struct is 32 bytes longer than the Rust value, and its array ends at least 25 bytes after the padding of the Rust value. So when Rust copies a hasher without its padding, the C code finds all members unchanged, and of subtree_hashes the 1664 bytes that Rust knows of. hasher_init leaves those 1664 bytes as they were: the value that Hasher::new declares initialised with assume_init is not initialised there. Every function that the crate declares is defined in C with arguments of the same types (also in the prototypes by which the C files call each other). The Hasher of the reference implementation cannot take less than the 1848 bytes that test_reference_impl_size expects, in whatever order a compiler arranges the members of its two structs, where u64 is aligned to 8 bytes, and members in the order of decreasing alignment give exactly that; where u64 is aligned to 4 bytes, as on 32-bit x86, this order gives 1844 bytes.", "quantifier": "all alignments of 16, 32 and 64-bit integers (divisors of their sizes), all contents of memory, all structs (rules of layout), all arrangements of members (reference implementation), all declared functions", "why_tests_cant": "A test runs on one platform, and a wrong declaration of a foreign function or struct is not noticed by any compiler: it shows as corrupted memory for some inputs on some machines.", "anchors": ["src/c.rs: ChunkState, Hasher, Hasher::new, ffi", "src/c64.rs: ffi", "c/baokeshed.c: chunk_state, hasher, hasher_init", "c/baokeshed_impl.h", "c64/baokeshed64_impl.h", "reference_impl/reference_impl.rs: ChunkState, Hasher", "src/test.rs: test_reference_impl_size"]}
{"id": "C88", "title": "Keys derived from keys", "statement": "Let the compression function be a random function, as in C81, and let any finite set of people each hold a random 32-byte key. From each key, keys are derived with derive_key for contexts of up to N < 2^64 bytes, from these keys others, and so on, down to any depth. An attacker asks, each time depending on the answers before, for blocks of keyed_hash output with the key at any place of these trees, on the last level also of derive_key output, and for compressions. If the attacker asks for q compressions and the requests take t (with the derivation of all keys on the way, counted anew for each request), no observation tells this from a separate random function at each place: the probabilities differ by at most (2qt + t(t-1)) / 2^257, whatever the number of holders, contexts and levels. So derive_key followed by keyed_hash may be used like independent keys, although the keys come from each other, and the hash of the context itself with the key that it is derived from may be known. The probability that the attacker names the hash at a place for an input that was not requested there is at most 1/2^256 plus that bound, even if the input was requested at all other places.", "quantifier": "all finite sets of holders, all numbers of levels, all contexts, all attackers (adaptive, without bound on their work), all observations, all numbers of questions, all inputs below 2^64 bytes, all output blocks", "why_tests_cant": "A probability over all functions and all families of keys, for all attackers and trees of any depth; a test runs one function with a few keys and contexts.", "anchors": ["src/lib.rs: derive_key", "src/lib.rs: keyed_hash", "src/lib.rs: derive_key_xof", "src/lib.rs: keyed_hash_xof", "src/lib.rs: Flags", "src/lib.rs: hash_recurse"]}
{"id": "C89", "title": "The compression functions execute the same steps whatever the data", "statement": "The portable, the SSE4.1 and the AVX2 code that compresses blocks executes a sequence of steps (operations on words, SIMD intrinsics with their immediate operands, array accesses with their indices, conditions with their outcome) that keys and contents do not influence. Every call of compress and of compress_xof executes the same list of steps, one for portable.rs and one for sse41.rs, whatever the chaining value, the block, its length, the offset and the flags. What hash_many executes, and whether it panics, depends on the number and the lengths of the inputs, the length of the output buffer, and the offsets: not on the bytes of the inputs, not on the key, not on the flags. In particular no table is read at a secret index and no branch depends on a secret. compress of portable.rs executes 336 additions, 232 exclusive ors and 224 rotations and reads the 16 message words 7 times, in the order of the schedule.", "quantifier": "all pairs of keys, blocks, contents and flags, all numbers and lengths of inputs, all offsets and output buffers", "why_tests_cant": "It compares the executions on all pairs of inputs; a test sees outputs, and timing measurements see a few inputs on one machine.", "anchors": ["src/portable.rs: compress, compress_xof, hash_many", "src/sse41.rs: compress, compress_xof, hash_many", "src/avx2.rs: hash_many"]}
{"id": "C90", "title": "Hashing executes the same steps whatever the data", "statement": "For the whole Rust library, from the public functions down to the operations on words: the sequence of steps that hash, keyed_hash, derive_key, their _xof versions, Output::read and to_hash, Hasher::new, new_keyed, new_derive_key, update and finalize execute (operations on words, SIMD intrinsics, copies and slices with positions and lengths, array accesses with indices, checked arithmetic, pushes and pops with the height of the stack, assertions and conditions with their outcome), and whether and why they panic, depends on the kind of the function, the lengths of the inputs, the sequence of calls and the machine only. Two runs with any two keys and any two contents of the same lengths execute exactly the same list of steps, for single calls and for every sequence of update, finalize and read on one hasher. So no branch, no array index and no number of repetitions depends on a secret, at any level of the code. On machines without SIMD the number of operations is exact: 336 additions and 224 rotations of words for every block and every parent below the root and for every block of output read, with the one-shot functions and with a hasher, however the input is cut into slices.", "quantifier": "all machines (instruction sets, widths of usize), all pairs of keys, all pairs of contents of equal length, all lengths (also unsupported ones), all sequences of calls, debug and release", "why_tests_cant": "It compares the executions on all pairs of inputs of all lengths and all histories of calls; a test sees outputs, and timing measurements see a few inputs on one machine.", "anchors": ["src/lib.rs: hash_internal, hash_recurse, hash_chunks_parallel, hash_parents_parallel, hash_one_chunk, condense_root", "src/lib.rs: ChunkState", "src/lib.rs: Hasher", "src/lib.rs: Output", "src/platform.rs: compress, compress_xof, hash_many", "src/portable.rs", "src/sse41.rs", "src/avx2.rs"]}
{"id": "C91", "title": "What the build script builds computes the hash, with instructions that are there", "statement": "Whatever C features are enabled, whatever machine runs build.rs and whatever the target: if build.rs completes, the C hasher compiled with the macros it passes returns, through the wrapper in src/c.rs, the hash in every mode for every input below 2^63 bytes in any pieces, the same as the Rust hasher on any machine (with c_neon on little-endian machines). In every sequence of updates and finalizations it enters only functions of files that were compiled, and so uses SSE4.1, AVX2, AVX-512F, AVX-512VL or NEON instructions only if the feature for them is enabled, or if c_detect is and the building machine has them. With c_detect alone the result runs on the machine that built it. Single blocks are compressed by the AVX-512 function exactly if c_avx512 is enabled or detected (both AVX-512F and AVX-512VL), otherwise by the SSE4.1 function if that is enabled or detected, otherwise by the portable one. (A machine with AVX2 has SSE4.1, as build.rs says.)", "quantifier": "all sets of features (closed under Cargo.toml's dependencies), all building machines, all target triples, all machines that run the result, all modes, inputs, pieces and sequences of calls", "why_tests_cant": "CI builds and runs a few sets of features on a few machines; the statement covers all combinations of features, hosts, and histories of calls.", "anchors": ["build.rs: main, detect_x86_features", "Cargo.toml: features", "c/baokeshed.c: compress, hash_many", "c/baokeshed_avx2.c: hash_many_avx2", "src/c.rs: Hasher"]}
{"id": "C92", "title": "The vector code hashes four and eight inputs for the additions of one", "statement": "compress and compress_xof of portable.rs execute exactly the steps of BLAKE2s with seven rounds, in order: load 16 words, set up the state, seven times the eight mixing functions on columns and diagonals with the message words of the schedule of RFC 7693, and combine the halves of the state. hash_many of portable.rs executes exactly these steps for each block of each input in turn, with one comparison of the remaining length before each block, and nothing that depends on anything but the number of inputs and blocks. hash_many of sse41.rs hashes m inputs of n blocks with 336 n additions of vectors for every four inputs and 84 n for each of the last m mod 4; hash_many of avx2.rs with 336 n additions of vectors of eight words for every eight inputs, 336 n of four words for the next four if there are as many, and 84 n for each of the rest. So for a multiple of eight inputs the SSE4.1 code executes exactly a quarter, and the AVX2 code exactly an eighth, of the 336 n m additions of the portable code.", "quantifier": "all keys, offsets, flags and contents, all numbers of blocks, all numbers of inputs for which hash_many does not panic", "why_tests_cant": "Unit tests see results and benchmarks see times; a kernel that does needless work, or falls back to narrower vectors for some numbers of inputs, returns the same hashes.", "anchors": ["src/portable.rs: compress, compress_xof, hash1, hash_many", "src/sse41.rs: hash4, hash1, hash_many", "src/avx2.rs: hash8, hash_many"]}
{"id": "C93", "title": "Many attempts at a hash that somebody checks", "statement": "Let the compression function be a random function and let any finite set of people hold random 32-byte keys, as in C86. Besides answering requests for output blocks, each of them checks hashes: an attacker sends a mode (keyed_hash or derive_key), an input of up to N < 2^64 bytes and 32 bytes, and learns whether Hash's comparison finds the hash equal to the 32 bytes. Requests, checks and questions for compressions come in any order, each depending on all answers before. If the attacker asks for q compressions and makes v attempts, and the holders perform s compressions for requests and checks together, the probability that any attempt succeeds for a hash that had not been requested from this holder before is at most v/2^256 + (2qs + s(s-1))/2^257. Learning the outcome of attempts does not help, and the error is not paid once per attempt. If the first n bytes of output are checked instead, for any n up to 64, as with shortened tags, the bound is v/2^(8n) + (2qs + s(s-1))/2^257. With the compression function itself a check accepts exactly what the library returns for the key and the input, in any of the ways to call it.", "quantifier": "all finite sets of holders, all attackers (adaptive, without bound on their work), all orders of requests and checks, all numbers of attempts and questions, all inputs below 2^64 bytes", "why_tests_cant": "A probability over all functions and all families of keys, for all attackers with any number of attempts; a test compares a few hashes.", "anchors": ["src/lib.rs: keyed_hash", "src/lib.rs: derive_key", "src/lib.rs: impl PartialEq for Hash", "src/lib.rs: hash_recurse", "src/lib.rs: Flags"]}
{"id": "C94", "title": "Comparing hashes executes the same steps, printing them does not", "statement": "The comparison of a Hash with a Hash or with 32 bytes executes one fixed list of steps for all pairs of hashes: it reads all 32 bytes of both in order, combines them, and has no condition but that on the lengths, so nothing tells where or whether they differ before the result. To check a message, that is to hash it with a key, in one call or with a hasher in pieces, and to compare the result with 32 bytes, executes the same steps and panics in the same way for all keys, all contents of the message, all 32 bytes, right or wrong; and the result says whether they are the hash. Hash::to_hex, and with it Debug, is different: it reads a table at the hexadecimal digits of the hash, so the positions of its reads are the hash, and two hashes are printed with the same steps only if they are equal.", "quantifier": "all pairs of hashes, all keys, all messages of equal length, all ways to cut them into pieces, all machines", "why_tests_cant": "It compares the executions on all pairs of inputs; tests see results only, and a comparison that stops early returns the same.", "anchors": ["src/lib.rs: impl PartialEq for Hash", "src/lib.rs: impl PartialEq<[u8; OUT_LEN]> for Hash", "src/lib.rs: Hash::to_hex", "src/lib.rs: keyed_hash", "src/lib.rs: Hasher::finalize"]}
{"id": "C95", "title": "Shortened hashes and other blocks of the output", "statement": "Let the compression function be a random function, known to the attacker only through questions. A place is a mode with its key, an input, and the number k < 2^58 of a 64-byte block of its output; users keep the first n bytes of it (for k = 0 and n at most 32 a shortened hash). Let q bound the attacker's questions and the compressions for what is named in the end. An attacker who wants two different places (different inputs, modes, keys or blocks) with the same first n bytes finds them with probability at most q(q-1)/2 over 2^(8 min(n, 32)); one who wants a place with one of t given values of n bytes, n up to 64, with probability at most q t/2^(8n); one who is given a place, whose input takes c compressions, and wants another with the same n bytes, with probability at most q/2^(8n) + (c-1)(c+2q)/2^257, which is q/2^(8n) for an input of one block. So shortening a hash costs only what its length costs, and later blocks of the output are as good as the hash; bytes beyond the first 32 do not make collisions harder. With the compression function itself the bytes are those of the hash that the library returns in any of the ways to call it, and of the read after k reads.", "quantifier": "all attackers (adaptive, without bound on their work), all n, all numbers of questions, all modes, keys, inputs and blocks", "why_tests_cant": "A probability over all compression functions, for all attackers; a test looks at a few outputs of one function.", "anchors": ["src/lib.rs: hash", "src/lib.rs: keyed_hash", "src/lib.rs: derive_key", "src/lib.rs: Output::read", "src/lib.rs: hash_recurse", "src/lib.rs: Flags"]}
{"id": "C96", "title": "Passwords behind hashes can only be guessed", "statement": "Let the compression function be a random function, known only through questions, and let a password be drawn from a finite list of possible ones that the attacker knows, each of at most L < 2^64 bytes. Somebody who has the password returns up to r blocks of output for it, of hash, keyed_hash or derive_key, with keys (salts) and block numbers that the attacker chooses after all answers before. Let c be the number of compressions for an input of L bytes (1 for up to 64 bytes), and let the attacker ask for q compressions. The attacker names the password with probability at most 2^-512 + (q + c) divided by the number of possible passwords + (6T^2 + 2T)/2^257, where T = q + (r + 2)c. So there is hardly a better way than to try the passwords one by one, at c compressions each: neither many salts nor later output blocks help. The same holds for a secret of any finite set that is put into inputs of the attacker's choice in any injective way (before, behind, with its length), as in C84. With the compression function itself the blocks are those that the library reads, and the first half of block 0 is the hash, in any of the ways to call it.", "quantifier": "all finite sets of secrets, all injective ways to put them into inputs, all attackers (adaptive, without bound on their work), all numbers of questions and requests", "why_tests_cant": "A probability over all compression functions and all secrets, for all attackers; tests hash a few known inputs.", "anchors": ["src/lib.rs: hash", "src/lib.rs: keyed_hash", "src/lib.rs: derive_key", "src/lib.rs: Output::read", "src/lib.rs: hash_recurse", "src/lib.rs: Flags"]}

# Formal model of baokeshed in Lean 4

Properties: `properties.jsonl` (C01 ...).  Status per property: `MANIFEST.json`.
Lean project: `lean/` (`lake build`).  Seeded-bug experiments: `seeded/LOG.jsonl`.
`tools/` generates `properties.jsonl` and `MANIFEST.json`; `tools/check_citations.py` lists functions of /repo that no definition cites, and
`tools/compare_text.py` compares definitions of the vector code with the cited lines token by token.

## Layout

| module | content |
| --- | --- |
| `Verif/Basic.lean` | bytes, words, panics, checked arithmetic, slices |
| `Verif/Spec.lean` | specification of the hash function: compression, chunks, tree, modes, extended output |
| `Verif/SpecMany.lean` | specification of "hash many inputs of the same number of blocks" |
| `Verif/SpecTable.lean` | which offset `hash_many` gives to each input, for any table of deltas |
| `Verif/SpecCalls.lean` | specification of the set of compression calls of a hash computation |
| `Verif/SpecExtract.lean` | specification of the search for a message in a record of compression calls (C68) |
| `Verif/SpecOracle.lean` | the hash as an algorithm that asks for compressions (C81, C82) |
| `Verif/SpecSim.lean` | the world in which the output is random and a simulator makes up the compressions (C83) |
| `Verif/StepsSpec.lean` | the steps that portable.rs is expected to execute (C92) |
| `Verif/SpecText.lean` | hexadecimal text, decoding |
| `Verif/Spec64.lean` | specification of the 64-bit variant |
| `Verif/SpecOrder.lean` | reversing groups of bytes |
| `Verif/SpecSchedule.lean` | events in series and in parallel, and the orders in which they can happen |
| `Verif/SpecLong.lean` | the chunk state of the C code for any length |
| `Verif/SpecLanes.lean` | the least list of kernel calls for a number of chunks |
| `Verif/SpecParents.lean` | the kernel calls for the parent nodes of a tree |
| `Verif/SpecCLanes.lean` | the same for the builds of the C code |
| `Verif/SpecCost.lean` | the number of compressions in a tree, the number of bytes copied by a list of recorded events |
| `Verif/SpecSpan.lean` | calls in series and in parallel, the longest chain |
| `Verif/SpecBlake2.lean` | BLAKE2s and BLAKE2b, RFC 7693 |
| `Verif/Model/...` | the code, function by function, with file and line citations |
| `Verif/Proofs/...` | lemmas: the model refines the specification |
| `Verif/Props/...` | the property theorems (`Cnn_...`), each with `example`s that meet its hypotheses |

The specification files import only `Basic.lean`; they share no definition with the model.  (`SpecLanes.lean`, `SpecParents.lean`, `SpecCLanes.lean` and `SpecCost.lean` use the
model's types for platforms and recorded events, and none of its functions.)

## What is modelled

| source | model | remarks |
| --- | --- | --- |
| `src/lib.rs` one-shot functions, `Output` | `Model/Lib.lean`, `Model/Api.lean` | with output buffers, bounds, assertions |
| `src/lib.rs` `ChunkState`, `Hasher`, `io::Write` | `Model/Hasher.lean` | the stack's capacity is checked |
| `src/lib.rs` `Hash`, `to_hex`, equality, `Debug` | `Model/Hash.lean` | |
| `src/lib.rs` `join` with the `rayon` feature | `Model/Rayon.lean` | processes over shared memory, arbitrary interleaving of single byte accesses |
| `src/portable.rs`, `src/sse41.rs`, `src/avx2.rs` once more, recording operations, array accesses and conditions | `Model/Steps.lean` | proved to return what the model returns; made from the text of `Model/Sse41.lean` and `Model/Avx2.lean` |
| `src/lib.rs` and `src/platform.rs` once more, recording operations, slices, copies, assertions and conditions | `Model/StepsLib.lean` | proved to return what the model returns; on top of `Model/Steps.lean` |
| `src/lib.rs:161-214` (`Hash`) once more, recording the steps of comparison and `to_hex` | `Model/StepsHash.lean` | proved to return what the model returns; the loop of the crate constant_time_eq is included |
| `src/lib.rs` once more, recording compressions | `Model/Trace.lean` | proved to return what the untraced model returns |
| the one-shot functions once more, recording which compressions can happen side by side | `Model/Par.lean` | sequential parts from `Model/Trace.lean` |
| the same, recording the functions entered and the bytes copied | `Model/ParIsa.lean` | sequential parts from `Model/Isa.lean` |
| `src/lib.rs` `Debug` and `From` of the public types | `Model/Fmt.lean` | `write!` with `{}` and doubled braces only |
| call histories on many `Hasher`/`Output` values | `Model/World.lean` | clones, moves, any order |
| `src/portable.rs`, `src/sse41.rs`, `src/avx2.rs`, `src/platform.rs` | `Model/Portable.lean`, `Sse41.lean`, `Avx2.lean`, `Platform.lean`, `Simd.lean` | at the level of single intrinsics |
| `src/copy.rs` | `Model/Copy.lean` | arbitrary finite readers, arbitrary writers |
| `src/copy.rs` with any reader, call by call | `Model/CopyStep.lean` | none |
| `c/baokeshed.c`: `hasher_update` and what it passes `input` to, with pointers that may be null | `Model/C/Pointer.lean` | storing a null pointer in `chunks` and adding 2048 to it are one step |
| `baokeshed_bin/src/main.rs` | `Model/Cli.lean` | from parsed arguments on; files, mappings, standard input |
| `build.rs`, features of `Cargo.toml`, symbols of the C files, `extern` blocks of `src/c.rs`, `src/c64.rs` | `Model/Build.lean` | reduced to files, flags, macros and symbol names |
| structs and `extern` blocks of `src/c.rs`, `src/c64.rs`; structs, definitions and prototypes of the C files; the structs of `reference_impl.rs` and `test_reference_impl_size` | `Model/Decl.lean` | as declarations, with the rules of layout |
| `src/lib.rs` and the `hash_many` functions with a record of the functions and kernels entered and of the bytes copied | `Model/Isa.lean` | erases to `Model/Lib.lean`, `Model/Hasher.lean` |
| the same with its standard output, and `LineWriter`/`BufWriter` of std | `Model/CliIo.lean`, `Model/Stdout.lean` | devices with short, interrupted and failing writes; std of Rust 1.40 and since 1.46 |
| `reference_impl/reference_impl.rs` | `Model/Reference.lean` | |
| `python/baokeshed.py` | `Model/Python.lean` | |
| `hash_recurse` of both with limited room on the call stack | `Model/Depth.lean` | exhaustion is `Panic.stack` |
| `python/test_baokeshed.py` `test_round_fn_compatible_with_blake2s` | `Model/PythonTest.lean` | the message is a parameter |
| `python/test_baokeshed.py` `test_compare_to_rust` | `Model/PythonCompare.lean` | the cases are a parameter |
| `src/test.rs` (`test_reference_impl_size` in `Model/Decl.lean`) | `Model/RustTest.lean` | the bytes and lengths that the tests fix are parameters |
| the test modules of `src/portable.rs`, `sse41.rs`, `avx2.rs`, `c.rs`, `portable64.rs`, `c64.rs`, `copy.rs`; `baokeshed_bin/tests/test.rs` | `Model/UnitTest.lean` | the bytes that the tests fix are parameters; processes and temporary files are not modelled |
| `benches/bench.rs` | `Model/Bench.lean` | page size, random bytes, shuffle and number of calls are parameters |
| `c/*.c`, `c/*.h` | `Model/C/*.lean`, `Simd512.lean`, `SimdNeon.lean` | all kernels and the hasher; undefined behaviour is an error |
| `c/baokeshed.c` once more, recording compressions | `Model/C/Trace.lean` | proved to return what the untraced model returns |
| `reference_impl/reference_impl.rs` and `python/baokeshed.py` once more, recording the calls of `compress` | `Model/TraceRef.lean` | proved to return what the untraced models return |
| the Rust code once more, without overflow checks and `debug_assert!` | `Model/Release.lean` | every function in which it makes a difference; proved to return what the checked model returns |
| `c/baokeshed.c` and the `hash_many_…` loops once more, recording the compression functions entered and the bytes copied | `Model/C/Isa.lean` | proved to return what the model returns |
| `src/c.rs` (wrapper of the C hasher) | `Model/C/Hasher.lean` | including the size of the Rust declaration |
| `src/portable64.rs`, `c64/*` | `Model/Portable64.lean`, `Model/C64/*.lean`, `Simd64.lean` | all functions except `popcnt`/flags constants of the header that nothing in `c64/` uses |

Not modelled: CI, the times of benchmarks; docopt's parsing of the command line; the size of stack frames; the detection
of CPU features (its result is a parameter); timing, caches and memory exhaustion; rayon's scheduler (every
interleaving is allowed instead); compilers.

## Modelling decisions

* `u8`/`u32`/`u64` are `BitVec 8/32/64`.  `usize` values are `Nat`; where a `usize`
  operation could overflow or underflow it is written with an explicit check.
* Fixed-size arrays are `Vector _ n`; slices are `List`.  `&mut` parameters become
  results.  A `&mut [u8]` output buffer is passed in and returned, with every index
  and slice operation bounds checked.
* Every panic path is an explicit error: `Except Panic`.  `debug_assert!`, arithmetic
  overflow checks, slice bounds, `ArrayVec` capacity and reads through raw pointers
  outside the slice are all checked in the model, so a theorem `f x = .ok y` says that
  no check fails *and* the value is right.  Where debug and release builds observably
  differ (`Output::read` at the end of the stream, the CLI's `2 * byte_length`) the
  build profile is a parameter.  `Model/Release.lean` has the library without the checks, and
  C71 carries the results over to it.
* The architecture (x86 or not), the CPU features found by `Platform::detect` and the
  pointer width are parameters; theorems hold for all of them.
* SIMD registers are `BitVec 128/256/512`; each intrinsic used is defined from Intel's
  (ARM's) published pseudo-code.
* C: a pointer is the list of elements up to the end of its object; an access beyond it is
  `Panic.ub`.  Uninitialised memory is a parameter.  Unsigned arithmetic wraps.  Loops are
  recursive functions.
* Byte order: the portable C code composes words by shifting and does not depend on it.  The NEON code of
  `c/` and `c64/` has the byte order of the host as a parameter (`ByteOrder`): big-endian AArch64 stores a vector as one
  number of 128 bits, big-endian AArch32 as two of 64 bits, and copies words in the order of the host.  All
  x86 code is modelled for little-endian hosts.
* Traces: SIMD versions of `hash_many` compress several inputs at a time.  Their compressions
  are recorded per input in the order of the portable version, which computes the same (C08, C32).
* Rayon: each call of `hash_recurse` has its own buffer of children, named by its path in the
  recursion; a leaf first reads the whole slice it may write and then writes it back, byte by
  byte, which has more races than the code.

## Plan per property

| property | proof idea |
| --- | --- |
| C01, C10, C33, C35 | well-founded induction on length; free binary trees describe what the buffers hold; `shape (pairs xs) = shape xs` |
| C02, C03, C11, C36 | representation invariant (lazy-merge stack = binary representation of the chunk count) preserved by every operation |
| C04, C05, C06, C12 | induction over reads |
| C07, C08 | lane homomorphism, round by round; induction over blocks and batches |
| C09, C34 | matrix form of the rounds in the specification |
| C13 | eager-merge stack invariant, same tree theory |
| C14, C37 | recursion refinement |
| C15, C16, C17, C39 | traced model: the log is a permutation of the compressions of the tree; injectivity of the tree encoding by structural induction |
| C18, C19 | per-byte table lemma lifted to lists |
| C20, C21, C22, C27 | induction over reader events |
| C23, C24, C25, C26 | induction over the list of files, arithmetic |
| C28 | separation of the ranges written by the two sides, commutation of disjoint steps, induction over the schedule |
| C29, C30, C38 | simulation of the Rust hasher by the C hasher; the reachable states in which the assertion fails or the array overruns |
| C31, C32 | as C07, C08, generic over the register width |
| C40, C41, C42 | as C09, C31, C32 for the 64-bit variant |
| C43, C44 | Proofs/Inject.lean: each round is a permutation of the state for a given block, so that block length, offset and flags can be recovered from the 64 bytes of output |
| C45 | Proofs/Oblivious.lean: a relational (two-run) proof over every function of Model/Trace.lean; no invariant is needed |
| C46 | Proofs/Depth.lean: induction on the room; the limited function is the unlimited one or fails, by the size of the halves |
| C47 | Proofs/Blake2.lean: the rounds, one quarter round at a time; the loop of the test unrolled against RFC 7693 |
| C48, C49 | Proofs/Stdout.lean: delivered ++ buffered is what was printed; Proofs/CliIo.lean: simulation of Model/Cli.lean, with the buffer empty after each end of line |
| C50, C51 | `main` of build.rs in closed form; the symbol tables by evaluation over the 4 variables that matter |
| C52 | writer monad, invariant `platform = detect` |
| C53 | loads and stores of the other byte order are those of little-endian hosts on reversed groups; one case by kernel evaluation of 35 compressions |
| C54 | `kern_each`: the lane-wise simulation of a kernel for any function from lanes to offset deltas |
| C55 | `Long`: invariant relating a chunk state to the bytes absorbed, with the block counter modulo 1024 |
| C56, C57 | `Logs`: the filtered record of a successful call is a given list; `kernels` of a multiple of the SIMD degree is a prefix of `kernels` of more |
| C58 | the relation of C45 for the recorded calls, with flags that may differ in the bits of the mode |
| C59 | C39's permutation gives the work done so far as the total less what `finalize_xof` still does, which is at most the stack; `Cp`: copied bytes and remaining input together never grow |
| C60 | the C hasher simulates the Rust one (C29's relation), call for call: equal recorded compressions, so C39's account `Work` carries over |
| C61 | from C01, C02, C04, C13, C14, C25, C29; hexadecimal text encodes and decodes |
| C62 | the parallel model simulates the recording one; bounds on the number of compressions of each sequential part, induction on the levels |
| C63 | Proofs/C/Oblivious.lean: a two-run relation on successful runs (C29 says that they succeed) over every function of Model/C/Trace.lean |
| C64 | Props/RustTest.lean: the hand-written constructions unfold to the specification for their lengths; the rest from C01, C02, C13, C43; where a counter is followed by the next, a byte above the lowest changes only with a carry (Props/Paint.lean) |
| C65 | Props/CCost.lean: from the logs of C60 and the length of the stack of C29's invariant |
| C66 | Proofs/C/Lanes.lean: `Each` (a property of all that is recorded), `Logs` as in C56; Proofs/C/Copies.lean: the bytes copied so far and those left never exceed the input |
| C67 | Props/UnitTest.lean, Props/UnitTestCli.lean: from C07, C08, C20, C25, C31, C32, C40 - C42, C54, C55 and the lemmas behind C29 for any key and flags |
| C68 | Proofs/Extract.lean: backwards along the blocks of a chunk, by recursion along the tree; Props/Extract.lean: induction over sessions |
| C69 | Props/Bench.lean: invariant of the closure (state of RandomInput, length of the output); the kernels by C54, C31, C41, the hashers by C01, C02, C13, C29 |
| C70 | Props/TraceRef.lean: erasure (Proofs/TraceRef.lean), then the calls made so far as an invariant of the reference hasher (Proofs/TraceRefLog.lean) and by induction on hash_recurse (Proofs/TracePyLog.lean); collisions by C60's `hash_inj`, reading back by C68 |
| C71 | Props/Release.lean: simulation of the checked by the unchecked functions (Proofs/RelLe.lean); the kernels with wrapped offsets (Proofs/RelHashMany.lean); beyond 2^64 bytes the length of the stack alone decides (Proofs/RelHasher.lean, Proofs/RelRef.lean) |
| C72 | Props/CHasherBig.lean: partial correctness of the simulation of C29 without a bound on the length (Proofs/C/HasherBig.lean) |
| C73 | Props/CTable.lean: the loops of hash_many for any table (Proofs/C/Table.lean) over the kernels of C54; offsets in closed form in SpecTable.lean |
| C74 | Props/CHasherExact.lean: success of every push decided by the length of the stack before and after it (Proofs/C/HasherExact.lean); populations of 52 and 53 of 53 bits |
| C75 | Props/HasherExact.lean: an update with checks either is one of C02, fills the last chunk, or fails because the one without checks does (C71) |
| C76 | Proofs/ParIsa.lean: every order is a permutation of the events from left to right; the parallel model simulates the recording one; two runs have the same tree of visible events |
| C77 | Props/Fmt.lean: evaluation of the format strings |
| C78 | Props/CopyStep.lean: one turn of the loop from the contracts of `read` and `write_all` (`Turn`), induction on the number of turns |
| C79 | Proofs/Parents.lean: the calls follow the recursion of `Spec.parentCalls` (with `Logs` of C57); left subtrees are full and use the widest kernel only, right subtrees lose a level each |
| C80 | Proofs/C/Pointer.lean: what a pointer still gives access to, step by step, for any state; Proofs/C/Ends.lean: the ways in which the C functions fail; which bytes stay in the chunk state, with the exact simulation of C74 |
| C81 | Proofs/Count.lean: counting functions along an adaptive algorithm (one more question, equally many functions for every answer); Proofs/Oracle.lean: the proofs of C16 with any function in place of the compression function; the root question is new because of `ROOT` |
| C82 | Proofs/Prf.lean: a bijection between (random answers, secret chaining values, key) and (random function, ...) that exchanges the answers to requests with those of the compressions they stand for; it works unless two compressions coincide or the attacker hits one. Proofs/Keyed.lean: names for compressions that do not mention key or chaining values; Proofs/KeyedCount.lean: different names give different compressions unless two secret chaining values coincide |
| C83 | Proofs/Indiff.lean: a run that notes for every root node where its answer comes from; exchanging the answers of root nodes with those of the requests is a bijection on all answers, so this run is like reality; it is like the run with the simulator unless an answer repeats a chaining value or was used before it was given. Proofs/Caught.lean counts such answers along an adaptive algorithm. Proofs/Simulator.lean: the simulator reads inputs back (as C68, for any function), and everything below a node was asked before it |
| C84 | from C83, twice: first to random output, where the requests with the secret can be exchanged with answers that have nothing to do with the output (Proofs/Inserted.lean), unless the simulator recognises an input with the secret in it, which `q` of the secrets at most allow; then back from the simulator to the compressions |
| C85 | Proofs/Caught.lean: one of the later answers repeats one of the answers for the given input; the many targets from C81 |
| C86 | the same bijection as C82, with names that say whose compression it is (Proofs/Users.lean); two compressions of different holders coincide only if two secret chaining values or keys do |
| C87 | Props/Decl.lean: induction over the members for the rules of layout; the platforms one by one (24 combinations of alignments) for the structs; disjoint intervals do not exceed the size for any arrangement |
| C88 | induction over the levels: an algorithm that uses the keys of the first level only for answers and does everything below by itself is in the scope of C86; then the derived keys are parts of random answers, hence independent random keys (Props/Derived.lean) |
| C89 | Proofs/Steps.lean: a two-run relation (equal lists of steps) over every kernel function, composed along the binds; values by unfolding (Props/Steps.lean) |
| C90 | Proofs/StepsLib.lean: the two-run relation of C89 continued through every function of lib.rs; Proofs/Operations.lean: relation between the recorded steps and the compressions recorded for C39, which counts the operations (Props/StepsLib.lean) |
| C91 | the macros of a build in closed form, then C29, C50 and C66 with the configuration they select (Props/BuildRun.lean) |
| C92 | StepsSpec.lean lists the expected steps; Proofs/ExactSteps.lean: equality of lists by induction over blocks and inputs, one closed computation for `compress`; Proofs/VectorOps.lean: additions counted along the binds of `hash4`, `hash8` and `hash_many` (Props/StepsExact.lean) |
| C93 | one attacker who asks where something is to be checked gives the step to random answers (C86); there, attempt number i is made by an attacker who takes all attempts before it to have failed, and the union over i remains (Props/Verify.lean) |
| C94 | the list of steps by induction over the loop; whole checks by the two-run relation of C90; the list of `to_hex` by induction over the bytes, and its injectivity (Props/StepsHash.lean) |
| C95 | the counting of C81 and C85, with the answers that start with given bytes in place of those with a given first half; the last questions of two places are the same only if the places are, or if two chaining values collide (Props/Short.lean) |
| C96 | whoever names the secret can compute a block that was not requested, and compare: with C84 that succeeds as often as with random answers, that is once in 2^512 (Props/Guess.lean) |

## Trusted base

* Lean's kernel.  Axioms: only `propext`, `Classical.choice`, `Quot.sound` (checked
  with `#print axioms`).  No `sorry`, no own axioms, no `native_decide`/`bv_decide`.
  C81 to C88, C93, C95 and C96 use Mathlib's finite sums and cardinalities, C82 to C84, C86, C88, C93, C95 and C96 also its rational numbers; everything else needs core Lean only.
* The transcription of the Rust, C and Python text into Lean (each definition cites its
  source lines), and the semantics given to intrinsics and library functions.
* The specification files, as the reading of what the functions are meant to compute.

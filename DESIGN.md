# Formal model of open-vcdiff

Lean 4.33.0, project in `lean/`. Properties are in `properties.jsonl` (C01, C02, ...), their status
in `MANIFEST.json`, mutation experiments in `seeded/LOG.jsonl`.

* `Verif/Model`: the code, function by function. Every definition cites the file and lines it models.
* `Verif/Spec`: small specifications that do not use the model's helpers (positional notation, RFC 3284
  grammar and semantics, JSON grammar, Adler-32 recurrence, protocols).
* `Verif/Proof`: lemmas.
* `Verif/Props`: the property theorems (namespace `Vcd.Props`), each with a concrete case meeting its
  hypotheses.

## Trusted base

* Lean's kernel. Axioms used by the theorems: at most `propext`, `Classical.choice`, `Quot.sound`
  (see `#print axioms`; no axiom of our own, no `sorry`, no `native_decide`, no `bv_decide`).
  `decide +kernel` is used for witnesses and for facts about the finite default table; it is checked by the
  kernel and adds no axiom.
* That the Lean definitions under `Verif/Model` say what the C++ in /repo does. They are written
  function by function; every definition cites the file and lines it models and names its
  simplifications.
* Platform assumptions: LP64 (`size_t` 64 bits, `int` 32 bits, two's complement conversions; for the decoder C71 and
  for the encoder C77 show that a `size_t` of 32 bits does as well), memory allocation succeeds (except in C78 and C79), caller-supplied buffers (dictionary, chunk data) are valid for the
  lengths given and are not modified or freed during the calls that use them.
* For the theorems about threads: memory is sequentially consistent, and the reads and writes of pointers and array elements are atomic.
* `VCD_DFATAL` logs, and in a debug build (without `NDEBUG`) the process exits; in a release build execution goes on with the next
  statement. For the decoder the model is that of the release build, with `Model/Debug` beside it for the debug build. For the encoder
  the model has the fault `assertion`, as in a debug build, the proofs show when it is reached, and `Model/Release` beside it is
  the release build (C68).

## Modelling conventions

* Bytes are `UInt8`, buffers are `List UInt8`. A `[position, end)` pointer pair is the list of the
  bytes that remain. Reading past the end of such a list, past the dictionary or past the decoded
  target is an explicit `Fault`, not a default value. So is signed overflow, appending
  beyond the reserved capacity, and running out of loop fuel (non-termination).
* Sizes are `Nat`; where the code casts or can wrap (int32 casts, `size_t` subtraction, `uint32_t` checksum
  accumulators) the model has the cast or the wrap.
* Log messages are modelled apart from the code (`Model/Log`, `Model/EncoderLog`), as the statements that write them, without their texts.
  Object lifetimes are modelled for the decoder's pointers and section objects
  (`Model/Lifetime`) and for the objects of dictionaries and encoders (`Model/Ownership`), not elsewhere.

## What is modelled

| code | model |
| --- | --- |
| `varint_bigendian.{h,cc}` (both instances: 31 and 63 bits) | `Model/Varint` |
| `addrcache.{h,cc}` | `Model/AddrCache` |
| `codetable.{h,cc}`, `vcdiff_defs.h` | `Model/CodeTable` |
| `instruction_map.{h,cc}` | `Model/InstructionMap` |
| `decodetable.{h,cc}` | `Model/DecodeTable` |
| `headerparser.{h,cc}` | `Model/HeaderParser` |
| `vcdecoder.cc`: streaming decoder, header and window decoder, custom code tables | `Model/Decoder` |
| `vcdecoder.h`, `vcdecoder.cc`: `VCDiffDecoder` | `Model/SimpleDecoder` |
| `logging.h`: the messages of the decoder | `Model/Log` |
| `logging.h`: the messages of the encoder | `Model/EncoderLog` |
| `logging.h`: `VCD_DFATAL` without `NDEBUG`, at all places the decoder can come to | `Model/Debug` |
| `VCD_DFATAL` with `NDEBUG`, at all places the encoder can come to; `HashedDictionary::Init` among the calls | `Model/Release` |
| `checksum.h` and `zlib/adler32.c` (`adler32`, also with `NO_DIVIDE`; `adler32_combine`, `adler32_range`) | `Model/Adler` |
| `rolling_hash.h` | `Model/RollingHash` |
| `blockhash.{h,cc}` | `Model/BlockHash` |
| `vcdiffengine.{h,cc}` | `Model/Engine` |
| the same two files, with counts of the operations performed | `Model/Work` |
| src/vcencoder.cc `EncodeChunk`, src/encodetable.cc, src/jsonwriter.cc, src/addrcache.cc (encoding), src/varint_bigendian.cc (encoding), with a count of the steps performed (not what `std::string` does to grow) | `Model/EncodeWork` |
| src/vcdecoder.cc and what it calls, with a count of the steps performed (not what `std::string` does to grow, in particular `decoded_target_.reserve`) | `Model/DecodeWork` |
| the same, and headerparser.cc, with the sums and differences of sizes modulo the number of values of `size_t` | `Model/WordSize` |
| src/vcdecoder.cc: the room that `ReadHeader` asks for in `decoded_target_` | `Model/Requests` |
| src/vcdecoder.cc, headerparser.h, decodetable.h: pointers, the buffers they point into and when these move or end, `ParseableChunk` objects | `Model/Lifetime` |
| src/google/vcencoder.h, vcencoder.cc, vcdiffengine.cc, blockhash.cc: constructors, destructors and pointers of dictionaries, engines, block hashes, encoders and writers | `Model/Ownership` |
| src/blockhash.cc, vcdiffengine.cc, encodetable.cc, jsonwriter.cc, vcencoder.cc: where a `size_t` is computed with and where blocks are compared, for any width of `size_t`, word size and byte order | `Model/Machine` |
| vcdecoder.cc, encodetable.cc, jsonwriter.cc, vcencoder.cc: what is in the members and in the output string when an exception passes through a call | `Model/Exceptions` |
| `encodetable.{h,cc}` | `Model/Writer` |
| `output_string.h`: the operations on the output string, with `ReserveAdditionalBytes` (decoder; encoder in all formats) | `Model/OutputString` |
| `jsonwriter.{h,cc}` | `Model/JsonWriter` |
| `vcencoder.{h,cc}`: `HashedDictionary`, `VCDiffStreamingEncoder`, `VCDiffEncoder` | `Model/Encoder` |
| the same in several threads: accesses to `RollingHash::remove_table_`, `VCDiffInstructionMap::default_instruction_map` and what they point to | `Model/Threads` |
| `codetablewriter_interface.h`; `vcencoder.cc` with a writer of the caller, whatever it does | `Model/WriterInterface` |
| `vcdiff_main.cc`: encode, decode, decode-and-compare loops, buffer sizes | `Model/Cli` |
| `vcdiff_main.cc`: all of it but flag parsing: files, standard streams, I/O errors, `main`, exit status, kills | `Model/Main` |
| `vcdiff_main.cc`: the messages, with those of the library | `Model/MainLog` |
| `vcdiff_main.cc`: the sizes reported with `--stats` | `Model/MainStats` |
| `output_string.h`: arbitrary classes derived from `OutputStringInterface`, the calls of their methods by both encoders and decoders, and the check of `size()` in `Output` | `Model/OutputClass` |

## Not modelled

The texts of messages; gflags parsing and the percentage of the statistics in `vcdiff_main.cc`, links between its files and other processes that change them; `mmap`;
`unique_ptr` shims; threads that use decoders (they share only constant
tables); weak memory; exceptions (and so allocation failure) at other places than those of `Model/Exceptions`, and what memory is lost
when one passes; the test-only functions (`PrintAddressesAndBytes`, block-hash consistency checks).

## Evidence that the model is the program

The correspondence between the model and the C++ code is by reading; nothing was compiled. As a check on that reading, the library's own
tests are transcribed in `Verif/Vectors/` and run on the model when it is compiled (`#guard`; these are tests, and no theorem depends on
them): all 265 regular tests of `vcdecoder1_test.cc` to `vcdecoder4_test.cc` with their expected verdicts, positions of failure and
outputs, the tests that alter or cut a file at every position, the exact bytes expected by `encodetable_test.cc`, `jsonwriter_test.cc`,
`vcencoder_test.cc` and `vcdiffengine_test.cc`, and the tests of `vcdiff_test.sh` that do not concern the parsing of the command line.
The unit tests of the parts are there too (`Vectors/Units.lean`: varints, header parser, address cache, code table, instruction map,
instruction reader, rolling hash, block hash). All of them agree. Not transcribed: tests of 64 MB windows (`vcdecoder5_test.cc`), tests with
unmapped pages, timing tests, and unit tests driven by random numbers, whose claims are theorems here.

## Findings: where the code does not do what the property says

Each has a kernel-checked witness in the model (theorem name in brackets) unless it says otherwise; the
statement in `properties.jsonl` names the exception, and the theorem for the part that does hold is beside it.

1. NEAR-mode addresses can overflow a signed 32-bit addition on untrusted input, `addrcache.cc:289-299`
   [`decodeAddress_overflow_reachable`, `near_overflow_reachable`].
2. A cache with 254 NEAR slots is accepted, but its first SAME mode wraps around to 0, so every mode counts as
   SAME and the read is out of bounds [`addrCache_254_broken`, `custom_cache_out_of_bounds`].
3. A custom code table stays installed for later decodes with the same decoder [`custom_table_leaks`];
   nothing else does [`only_code_table_survives`].
4. An invalid custom code table is ignored and decoding goes on with the old one [`invalid_table_ignored`].
5. Custom code tables nest without bound, seven bytes a level [`nesting_unbounded`].
6. Interleaved window with excess instruction bytes: the verdict depends on the chunks
   [`verdict_depends_on_chunks`], and the excess may be accepted [`interleaved_excess_accepted`].
7. The second half of an opcode may remain unexecuted at the end of a window [`dangling_opcode_accepted`];
   instructions of size 0 after the end of the target are refused [`trailing_instruction_refused`]; the
   empty delta is accepted [`empty_delta_accepted`].
8. `SetMaximumTargetFileSize` accepts every value, although documented to refuse some
   [`set_file_size_accepts_all`]; lowering it during a decode can switch it off [`lowered_limit_ignored`].
9. Building the instruction map of a valid custom table can write out of bounds [`instruction_map_oob`].
10. `Add`, `Run`, `Copy` of size 0 on the writer corrupt the window [`zero_size_add_corrupts`].
11. `VCDiffEncoder::SetFormatFlags`/`SetTargetMatching` after the first `Encode` have no effect
    [`late_settings_ignored`].
12. JSON: an empty target gives an empty document, or "]" with a used encoder [`json_empty_target`];
    several chunks with target matching give a document that cannot be read back
    [`json_chunks_with_matching`]; `Run` does not escape its byte [`json_run_not_escaped`].
13. The command line tool does not end on an empty regular input file [`cli_empty_file_never_ends`].
14. Custom code tables are not read in the format of RFC 3284: the length of the code table data is not read,
    and the sizes of the caches are read as integers instead of bytes [`rfc_table_refused`].
15. The command line tool ignores errors at `fclose`, so its exit status is 0 although the disk was full [`full_disk_unnoticed`]; with the same
    file as input and output it destroys the input and its exit status is 0 [`decode_in_place_destroys`, `encode_in_place_destroys`].
16. `SetAllowVcdTarget(false)` does not reach the nested decoder that reads a custom code table [`nested_target_window_accepted`].
17. The tool ignores the result of the window-size setter, so a limit that the library refuses leaves the default in force,
    with a message of the library but no other sign of it [`cli_large_limit_ignored`].
18. With a dictionary of 2^31 bytes or more a debug build exits in `AddAllBlocks` when it is initialised [`huge_dictionary_exits`]; in a
    release build everything returns true, but the length of the source segment is left out of the windows (`VarintBE` refuses
    negative numbers, and its result is not looked at), so that no decoder reads the delta
    [`huge_dictionary_unreadable`]. A dictionary of 2^31 - 1 bytes is taken, but a chunk of 48 bytes then makes `FindBestMatch` overflow
    `int` in `source_match_offset + starting_offset_`, in both builds [`source_offset_overflows`]; the encoder theorems assume dictionary
    and chunk below 2^31 bytes together.
19. "output_string is guaranteed to be resized no more than once for each window" (`vcdecoder.h:76-78`) does not hold for strings that give
    back capacity when less is reserved, as C++17 allows, because `OutputString::ReserveAdditionalBytes` reserves without a look at the
    capacity [`resized_twice_for_one_window`].
20. `GetDefaultInstructionMap` (`instruction_map.cc:27-34`) and `RollingHash::Init` initialise static pointers without locking. Encoders of
    several threads do it in `StartEncoding` and `HashedDictionary::Init`. If accesses are sequentially consistent that only
    leaks tables [`threads_do_not_interfere`, `tables_made_at_most`, `table_leaked_in_race`]; by the letter of C++11 it is a data race.
21. `StartEncoding` that returns false in the middle of an encode leaves the encoder as it was, so that `EncodeChunk` goes on to return true,
    although `vcencoder.h` says it returns false if `StartEncoding` did. With the writers of the library it cannot happen after a
    `StartEncoding` that succeeded; with others it can [`failed_restart_ignored`].
22. An encoder constructed with a `VCDiffCodeTableWriter` for a custom code table writes a header that does not announce the table
    (`encodetable.cc`, `WriteHeader`), so its delta is not decoded as it is [`custom_table_undeclared`]; the windows are right
    [`custom_writer_encodes`] and decode once a header brings the table [`custom_writer_round_trip`].
23. `VCDiffCodeTableWriter::Init` does not "restore the initial state of the object" (`encodetable.h`): the checksum of an earlier window
    stays in force [`checksum_sticks`], and so does an unfinished window, without its length [`init_keeps_instructions`]. The streaming
    encoder is not affected: it gives a checksum for every window or for none and finishes each window it begins.
24. No setting bounds the memory a decoder uses for its input, although the limits for target sizes are offered "to guard against running
    out of memory" (`vcdecoder.h`). (a) Numbers in headers may begin with any number of zeros (`0x80`), all of which are kept and read again
    at each call (`header_kept_without_bound`). (b) A window with an empty target may announce sections of nearly 2^31 bytes
    (`sections_kept_for_empty_target`). (c) If an interleaved section ends inside an instruction, the window can never be completed, but
    `DecodeChunk` goes on returning true and keeps all further input (`overlong_instruction_keeps_all_input`); in the standard format
    this is an error.
25. In a build without `NDEBUG` a delta can end the process of the caller with `exit(1)`: sizes of the near or same cache above 255, sizes
    that add up to more than 254, and an opcode with a mode that the declared caches do not have are reported with `VCD_DFATAL`, as if
    they were errors of the caller (`debug_exit_near`, `debug_exit_same`, `debug_exit_init`, `debug_exit_mode`); so is a position of 2^31
    (`debug_exit_here`). Only files that bring a code table can do the first four (`debug_plain_file`).
26. `VCDiffDecoder::Decode` with the same string as encoding and target clears it before it reads it, and then accepts the empty delta: it
    returns true and the data is lost (`decode_in_place_empties`).
27. The header comments leave open what happens if the decoder is given another dictionary than the encoder had. Unless it is too short,
    nothing is noticed without the checksum extension: `Decode` returns true with a wrong target of the right length
    (`other_dictionary`, `wrong_dictionary_unnoticed`). The checksum catches every one or two wrong bytes of a window up to 65521 bytes
    (`wrong_dictionary_noticed`).
28. `EncodeAddress` prefers the SAME cache at equal length, but the default code table has no opcode for an ADD together with a COPY
    of 5 or 6 bytes in SAME mode: for such a pair a writer may use a byte more than need be (`same_cache_costs_a_byte`). The encoder's
    COPYs have at least 32 bytes, so its windows are not affected (`encoder_windows_shortest`).
29. Input that is kept is parsed again from the beginning of the window or of the instruction in each call, and copied. A delta that is
    fed in small pieces can take a time quadratic in its size (`bytewise_work_is_quadratic`); the limits on target sizes do not bound it.
30. If `Init` of the `HashedDictionary` is forgotten, a release build of the streaming encoder returns true from every call and writes
    no more than the file header, a valid delta of the empty target: the data are lost without a sign of it
    [`uninitialised_dictionary_loses_data`]. A debug build exits at the first chunk [`debug_build_exits_iff`].
31. `vcdiff test -json` can never succeed: the delta is JSON, and the decoder does not read it [`json_test_fails`]. On a full disk `vcdiff test`
    goes on for ever if the C library holds the delta back until `fclose`: the failure is not noticed, and an empty delta file is read without
    ever coming to its end [`test_full_disk_never_ends`; findings 13 and 15].
32. Encoders do not survive exceptions from the output string (or from an allocation while instructions are written): the strings of the writer
    keep the instructions of the window that could not be output, and `StartEncoding` does not empty them. If `EncodeChunk` is called again
    the chunk is in the delta twice, and a decoder accepts it [`retried_chunk_is_duplicated`]; if the encode is started again, or by the next
    `Encode` of a `VCDiffEncoder`, every call returns true and the delta cannot be decoded [`restarted_encode_is_broken`]. (By reading: the
    hash table of the target, a raw pointer in `EncodeInternal`, is lost.)
33. A `VCDiffDecoder` whose target string has thrown stays in the middle of the decode: the next `Decode` goes on with it, its dictionary (which
    may be gone) and its output, whatever it is given [`vcdiff_decoder_after_exception_false`]; the one after that works again
    (`vcdiff_decoder_recovers_partial`).
34. `JSONCodeTableWriter::VerifyDictionary` and `VerifyChunk` (src/jsonwriter.cc:112-130) write "JSON writer does not allow non-ASCII characters"
    as an error before they look at the characters, so that every successful JSON encode reports errors, one for `StartEncoding` and
    one for each chunk [`json_encoder_never_silent`, `json_errors_without_cause`].
35. After `SetAllowVcdTarget(false)` an exception from the output string in `FlushDecodedTarget` (src/vcdecoder.cc:850-858, called in the loop over
    windows before `unparsed_bytes_` is assigned to, lines 899-924) loses the rest of the chunk, if nothing was left of the chunk before, and makes
    the decoder read the window again, if something was; the calls that follow return true [`not_resumed_without_target`,
    `repeated_without_target`].
36. A delta can mean two things: of an interleaved window with instructions that produce nothing behind the one that completes its target,
    `DecodeBody` (src/vcdecoder.cc:1241, 1311) reads no more than the latter, and if a chunk ends there, what follows is taken for another window.
    There is a delta that follows the format and that the library refuses in one chunk and decodes to another target in two
    [`library_reads_another_target`].
37. The comment src/vcdecoder.cc:366-375 says that bit 0x08 of the window indicator announces a checksum. It is bit 0x04
    (src/vcdiff_defs.h:133); a file made as the comment says has its bit 0x08 ignored [`window_indicator_bits_ignored`].

## Plan per property

* C01 round trip: composition of the encoder model (hash, engine, writer, stream) with the decoder
  model. Proof: engine emits instructions that denote the chunk (C28); the writer's bytes are a
  conforming window (C25); every conforming delta is accepted (C08); chunk independence (C02).
* C02, C03, C13: prefix/resume lemmas for every parser in the decoder; induction over chunk lists.
  C03 is refuted by a concrete interleaved delta; by C07 and C08 the verdict differs only for deltas with
  such a surplus (`Props/Stream`).
* C04, C05: invariant over all API histories saying that no step reaches a `fault` other than the
  NEAR overflow; witness for the overflow. The only other fault, the read outside a cache with 254 NEAR slots, is traced
  back to a header announcing that number among the bytes fed (`Spec/Faults`).
* C06: invariant relating bytes output, `total_of_target_window_sizes_` and the limit.
* C07, C08: separate declarative specification of RFC 3284 (`Verif/Spec`), refinement both ways.
* C09, C10: from the decoder invariant; algebra of Adler-32 modulo 65521.
* C11, C12, C14, C15: state-machine theorems about the decoder, induction over histories. For C12 a simulation shows
  that of all earlier uses only settings and a code table matter (`Proof/Leftover`), and the grammar takes the table
  left over as a parameter.
* C16, C17: induction on the byte list, against a positional-notation specification.
* C18-C21: induction over address histories; specification of the cache in terms of the history.
* C22-C24: kernel evaluation over the whole default table (256 opcodes); for arbitrary tables,
  induction over the table.
* C25: induction over the call sequence with an invariant tying emitted bytes to decoded bytes; with custom tables (`Props/Custom.lean`)
  the header carries the library's own delta from the default table, and many windows in any chunks are read back.
* C26: algebra modulo 2^23.
* C27, C28, C36, C37: invariants of the block hash; induction over the engine's main loop.
* C29: potential argument: each COPY saves at least 32 bytes and costs less.
* C30, C34: state-machine theorems about the encoder.
* C31: induction over the buffer; bound on the accumulators within one NMAX block. `NO_DIVIDE`: each conditional subtraction halves the
  bound and keeps the value modulo 65521. `adler32_combine`: both halves in closed form (`adlerRun_low`, `adlerRun_high`).
* C32, C33: JSON reader specification; inductions over the emitted text; counterexamples.
* C35: loop model of the tool over an abstract file; composition with C01.
* C38, C39, C40: counterexamples plus the true part (for C40 a potential of seven bytes per level). For C39 the grammar covers custom code tables, nested to
  any depth (`FileHeaderCode`): soundness in `Proof/RfcChain`, completeness in `Proof/RfcComplete`.
* C41, C42: invariants of the match search loop (`FindBestMatch`), with the chain limits spelled out.
* C44: refinement of the chunks to single bytes, cut at the end of the last whole window (C02, C08).
* C52: `WindowBegun` (`Spec/Stream`) describes what has arrived; the loop of `DecodeBody` performs exactly those instructions and then
  waits (`Proof/Eager`), and refinement to single bytes as for C44.
* C53: `Spec/Pipe` runs an encoder, a channel and a decoder under any schedule; invariant: the bytes delivered and those in the channel are
  the encoder's output for the chunks sent so far, which the decoder accepts in any pieces (C01).
* C54: `Model/OutputString` has the operations on the output string; a credit argument (`Proof/OutputString`: each window that is announced
  pays for one resize) and a count of the windows announced against the grammar (`Proof/OutputCount`, `FileCodeN`).
* C55: `Model/Threads` has the accesses to shared memory as steps of programs; a calculus of weakest preconditions with ghost ownership
  (`Proof/Threads`: a thread owns the object it is making, and knows of objects that are complete) and an invariant of the whole system
  (`Proof/ThreadSystem`).
* C56: the encoder is modelled for an arbitrary implementation of the interface; a writer that records its calls (`Spec/WriterInterface`)
  is shown to be transparent by simulation and its record to follow the protocol, by cases on each call and C28.
* C57: invariant over histories of calls (`Proof/WriterHistory`: `Knows`), with the window of C25 for whatever checksum is in force.
* C58: an invariant of what is kept (`Proof/Memory`: `Kept`), and for the input a quantity that is the same for all divisions into chunks
  (`spanOf`: bytes since the beginning of the open window's sections); the general division is compared with that into single bytes,
  which passes the end of each window.
* C59: functions that follow those of the decoder and say at which `VCD_DFATAL` the execution first arrives (`Model/Debug`); the invariants
  of C05 and C07 with two more (instruction types, a pending second instruction is one: `Proof/Debug`) exclude thirteen of eighteen
  places; for files without a code table of their own an invariant of sizes (`Proof/DebugPlain`) excludes the rest.
* C60: a window of the grammar without a source in earlier target data does not depend on what precedes it; the soundness proof of
  the decoder, started in the state after the header and again in the state after the first delta, says that what follows are
  windows in the coding of that header. For the encoder from the windows being functions of their chunks (C29).
* C61: the functions of the engine again, with counts of searches, comparisons, hash computations and table entries; proved equal to
  the functions without counts, so that the counts are those of the modelled engine. Bounds by induction over the main loop: a
  search compares at most 65 matching candidates per table, each after at most 16 others; each byte of the chunk is compared
  64 times per table at most plus 31 to its left for each search (`Proof/Work`, `Props/Work`). The writers are counted in the same
  way: each instruction costs a bounded number of steps and its literal bytes, and puts as many bytes in the sections; `Output` costs
  what the sections hold (`Proof/EncodeWork`, `Props/EncodeWork`).
* C62: the instructions of `Engine.Whole` (C28, C45) with maximality of each COPY added to the invariant. The positions of the
  pieces are counted: an ADD has at most 31 bytes of an old piece (C45); a COPY that begins in an old piece reaches its end, because
  32 distinct bytes determine the source and the COPY is maximal; so each piece is charged with at most one COPY and 31 bytes. The
  size of the window follows from the writer's bound per instruction.
* C63: `Decode` as a session of the streaming decoder (C12), which may lack its `FinishDecoding`; a failing chunk has no output while
  VCD_TARGET is allowed (C13). String variables of the caller for the case that encoding and target are one string.
* C64: a simulation of the decoder between a dictionary and a longer one (`Proof/Dictionary`). For other dictionaries on the side of
  the grammar: windows are self-delimiting and their instructions are determined by their bytes (`Proof/SelfDelimiting`), so that
  the same windows are read with either dictionary (`Proof/OtherDictionary`), with targets of the same lengths; the encoder's windows
  have the whole dictionary as source segment (`SourceIs`). C10 for one and two wrong bytes.
* C65: a lower bound for the items of any program, by induction over the grammar: taking the next instruction into the opcode whenever
  there is an opcode for both is optimal (`Proof/Shortest`: `greedy`); the writer reaches it, by an invariant about the opcode that can
  still be extended and an exact description of the two look-ups in the default table.
* C66: the functions of the decoder again, with a count of steps; proved equal to them without the count. A credit for each byte of the
  sections and of the target that remains pays for the loop of `DecodeBody`; each window pays for its cache with the seven bytes of its
  header; the limit on the target bounds what a rejected delta can do. Nested decoders by induction over the chain.
* C67: on the grammar. The header of a window can be read in one way, so that a window which begins like the damaged one has the same
  lengths, and the same items up to the data of one instruction (`sections_unique`, `Program.like`); what it produces differs in one byte
  (`like_text`), which the sum of the bytes notices (`adlerOf_one_byte`). The lemmas about the writer say as which items it writes a
  window (`WrittenAs`), and C28 says from where the engine copies.
* C68: the encoder's functions are modelled twice, with the process exiting at `VCD_DFATAL` and with it going on (`Model/Release`). That
  one follows the other up to the exit is proved function by function (`Proof/Release`, `builds_agree`). When the exit is reached is
  said by the rules for the use of a dictionary alone (`Spec/Builds`), by the invariant of the encoder under arbitrary histories
  (`Proof/ReleaseUse`). For dictionaries that break the size limit the window is computed and refused by the grammar
  (`Proof/ReleaseHuge`). What a release build answers to calls in any order is `releaseProtocol` (`Proof/ReleaseAny`).
  That the limit is on dictionary and chunk together has a witness found by following the search through 2^31 - 1 zero bytes in which it
  finds nothing (`Proof/OffsetOverflow`).
* C69: the loop of `Encode` (C48, C50) with the JSON library theorems (C32 to C34); the chunks of the loop are the pieces of `buffersize`
  bytes (`CutEvery`). For `test`: an accepted delta begins with the magic number (C07), JSON with a bracket.
* C70: each turn that is not the last reads `buffersize` bytes (`Proof/Command`), whatever the turn before has met with.
* C71: the decoder once more with each sum and difference of sizes modulo `W` (`Model/WordSize`). Function by function it equals the model
  with natural numbers if `W ≥ 2^32`, because the sizes that are read are below 2^31 and what has been decoded with what is still to
  come is within the limit, which is a `size_t` (`Fits`, an invariant of all calls that do not lower the limit inside a decode,
  `Proof/WordSize`).
* C72: the invariant of the loop of `Decode` (C48) says that what has been written is what the library has output, so C06, C04 and C05 carry
  over to the command (`Props/Hostile`).
* C73: `Model/Requests` lists the requests of `ReadHeader`; the invariant of C71 (the target so far and what is owed is at most the sum of the
  window sizes, which is at most each limit) bounds them, and with C54's events the requests to the output string (`Props/Requests`).
* C74: the decoder with pointers, buffers that move and objects that are deleted (`Model/Lifetime`), in which every access asks whether what it
  accesses still exists. It follows the decoder without pointers function by function (`Proof/Lifetime*`, `Rel`): the sections of an open
  window are positioned anew in each call, pointers into the decoded target are taken after room for the window has been reserved, and
  the sections share one object, or have none when no window is open (`Props/Lifetime`).
* C75: dictionaries, engines, block hashes, encoders and writers as objects in memory with pointers to one another (`Model/Ownership`), any
  number of them, and the rules of vcencoder.h for their lifetimes (`Spec/Ownership`). The invariant says which objects each dictionary and
  encoder owns, that no two own the same, and what each encoder would be without pointers; each step keeps it (`Proof/Ownership`,
  `step_all`). So the run of a program is, for each encoder, the run of that encoder and its dictionary alone (`Props/Ownership`).
* C76: what is stored in the objects of `Model/Ownership` (`Spec/EncoderMemory`). By the invariant of C75 every array and block hash belongs to
  one dictionary, so the sum over the objects is at most a sum over the dictionaries that exist (`Proof/EncoderMemory`: `sumTo_le`,
  `Inv.stored_le`); a property of one encoder that its calls keep holds of every encoder of a program (`run_keeps`), and that its strings are
  empty is one. While a chunk is encoded the strings only grow, and at the end they are part of the window, whose length C29 bounds.
* C77: the encoder with sums, differences and products of `size_t` modulo `2 ^ bits` and block comparison in words of any size and byte order
  (`Model/Machine`), and each function shown equal to that of the 64-bit model for sizes below 2^31 (`Proof/Machine`), with the
  encoder's invariant (C13) for the sizes of its strings. With C71 for the decoder, deltas travel between machines.
* C78: the members after an exception in each operation of C54 on the output string, and at each point where a string of the writer grows
  (`Model/Exceptions`). What has been output is a prefix of what C54 says is appended; then C13. Restart: an interrupted call leaves the same
  limits and the same code table as one that returns (`Proof/Exceptions`), and by C12 nothing else matters after `StartDecoding`.
* C79 is false; witnesses, for the repeated `EncodeChunk` in general: the writer then has the instructions of both chunks, and the window is
  that for both (`Proof/ExceptionsEncoder`, `retried`, from `window_ok`). What holds: by the invariant of C34 for exceptions that leave the
  strings empty, and because `Init` of the JSON writer empties its string.
* C80, C81: functions that follow those of the decoder and of the encoder and list the messages on the way (`Model/Log`, `Model/EncoderLog`). For
  each function: there is a message if and only if it ends in an error (`Proof/Log`), one level of embedded code table after the other. For
  silence, the bytes passed so far of the file being decoded (`Spec/Log`) decide whether it has a code table of its own
  (`Proof/LogCalls`); the warnings of the binary writer are excluded by the invariants of C25 and C28. C81 is false of the JSON format.
* C82: functions that follow those of the command and list the lines on standard error (`Model/MainLog`). The number of errors by cases over
  where a run ends, by induction on the turns; silence from C80 and C81 with the invariants of the loops (`Proof/Main`).
* C83: with target windows allowed all output comes from `AppendNewOutputText`, after the other members have been set, so that an exception leaves
  the decoder as the call would have left it, but for the output position (`Behind`, `Proof/ExceptionsResume`); by `winRun_setOut` (C02) an output
  position that lags behind changes nothing but what is output. Induction over the chunks, each with or without an exception
  (`Spec/ExceptionsResume`). Without target windows it is false.
* C84: by C45 the first ADD ends no later than where the pattern begins again, since block 0 of the chunk is the first of its bucket; by C62 a COPY from the
  chunk goes on to the end of the chunk, since after 32 equal bytes the next ones are equal, too (`Props/Repeat`).
* C85: functions that follow those of the command and compute `input_size` and `output_size` (`Model/MainStats`); invariant of the loops: they are the
  offset in the input and the number of bytes given to `fwrite` (for `test`, the offset in the target), modulo 2^64.
* C86: `OutClass` is a type of states with the five methods of the interface as arbitrary functions; `callsTo` etc. make the calls
  (`Model/OutputClass`). `Output` calls `size()` twice, and the difference of the values is compared with the calculated length as in the code. Proof by
  simulation: the text of the object after each function is the text before and what the function without `To` outputs
  (`Proof/OutputClass`). The decoder's operations are those of C54.
* C87: the setters are calls of the decoder's model and may come anywhere in a history. Simulation between decoders that differ only in their limits:
  the only place that looks at them is the header of a window, so the decoders do the same until one of them refuses a window (`Proof/Limits`). The file
  limit by the invariant of C06, with the size of the window under way. `Spec/Limits` compares the replies.
* C88: simulation between a decoder that drops the target of earlier windows and one that keeps it: the latter has the same members, with the dropped
  text `p` in front of the target and all positions moved by its length (`Level.keep`). Every function from `DecodeBody` up commutes with that, except
  that the window header is refused when its indicator asks for target data (`decodeWindow_keep`); the loop over windows keeps the invariant that what
  one has output and what the other one has not yet output are the same text (`Linked`). Which deltas are refused follows from the grammar of C07.
* C89: `Spec/Reference` is a second decoder, written from the RFC alone as a total function on whole files. `Proof/Reference` shows by induction on
  the grammar that it finds the target of every derivation it does not refuse, and that it refuses none of those the writer makes; the latter needs that
  the writer sets no other indicator bits than it should, which `Layout` (C46) says. `Proof/ReferenceSound` goes the other way, from a successful run of
  that decoder to a derivation in the grammar, by induction on its fuel; the theorems of C04 and C07 do the rest.
* C90: the same for `Spec/ReferenceExtended`, with the interleaved format and checksums (`Proof/ReferenceExtended`, in both directions). The grammar of the
  RFC with nothing behind the complete target is part of what the library accepts, so both directions go through `FileCode library`; without that
  condition there is a witness against it (finding 36).
* C91: `Spec/Common` is the strict grammar with no undefined bits; `Proof/Common` shows by induction on the windows, with the lemmas of C89 and C90,
  that the picky decoder accepts exactly that.
* C92: headers that differ in undefined bits are read to the same result, whatever follows them (`Twin`, `Proof/Undefined`); two decoders that differ
  in such bytes of an incomplete header only are a simulation under all calls (`Alike`). `Spec/Undefined` says where `Delta_Indicator` is.
  With the chunking theorem of C07 the cut before the altered byte can be left out for the standard format; in the interleaved format it decides
  what is an indicator (finding 36).
* C93: a header that the parser refuses for every decoder with the dictionary, the limits and the size decoded so far at hand is refused however it is cut, since a longer
  input never turns a refused or a complete header into another one (`Stable.readHeader`); by induction on the chunks (`refused_feed`,
  `Proof/Unsupported`).
* C45: invariant of the engine's main loop: no candidate since the last COPY had a match (`Proof/Engine`,
  `NoneAt`), from C42 and the rolling hash (C26).
* C46: `Layout` (`Spec/Rfc`) of the bytes that `VCDiffCodeTableWriter::Output` puts together, in the proof of
  `window_ok` (`Proof/Writer`), then through the encoder's windows.
* C47-C51: `Model/Main` runs the commands on a file system (`System`) under arbitrary failures (`Trouble`) for any number of loop turns.
  Invariants of the loops (`Proof/MainRun`: `SysAt`, `CmpAt`) tie what is on the disk to a history of library calls; then C01, C13.
* C43: state machine over `Encode` calls; each reduces to a fresh streaming encoder (C30). For JSON the
  same with the invariant of the JSON coder (C20): `Spec/SimpleJson.lean` says what each call returns.

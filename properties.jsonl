{"id": "C01", "title": "Encode/decode round trip", "statement": "Encoding any target against any dictionary with the streaming encoder (target fed in any number of chunks, any combination of the interleaved and checksum extensions, target self-matching on or off) and feeding the resulting delta bytes to a fresh decoder holding the same dictionary, in any division into chunks, makes every call return true and makes the decoder output exactly the original target.", "quantifier": "every dictionary, every list of target chunks, every format flag combination (binary formats), both look_for_target_matches values, and every chunking of the delta, with dictionary+chunk sizes inside the 32-bit limits of the format and the decoder's configured size limits", "why_tests_cant": "infinitely many dictionaries, targets, chunkings and instruction interleavings; the address cache, code table compounding and chunk boundaries interact", "anchors": ["src/vcencoder.cc:VCDiffStreamingEncoderImpl::EncodeChunk", "src/vcdiffengine.cc:VCDiffEngine::EncodeInternal", "src/encodetable.cc:VCDiffCodeTableWriter", "src/vcdecoder.cc:VCDiffStreamingDecoderImpl::DecodeChunk"]}
{"id": "C02", "title": "Decoder output does not depend on how the delta is cut into chunks", "statement": "If decoding a delta delivered in some sequence of chunks succeeds with some output, then delivering the same bytes with any finer division into chunks (in particular one byte at a time) also succeeds with the same output; hence any two successful deliveries of the same bytes give the same output, and a delta that decodes in one call decodes to the same output under every chunking.", "quantifier": "every dictionary, every byte sequence, every chunking and every refinement of it, every decoder setting", "why_tests_cant": "the number of chunkings is exponential in the input length and the resume state at each boundary differs", "anchors": ["src/vcdecoder.cc:VCDiffStreamingDecoderImpl::DecodeChunk", "src/vcdecoder.cc:VCDiffDeltaFileWindow::DecodeBody", "src/vcdecoder.cc:VCDiffDeltaFileWindow::UpdateInterleavedSectionPointers"]}
{"id": "C03", "title": "The accept/reject verdict does not depend on chunking", "statement": "For the same bytes, success or failure of the whole decode is the same for every chunking. (False for interleaved windows with trailing bytes in the instruction section: a chunk boundary right after the last needed byte hides the excess; true for deltas in the standard format.)", "quantifier": "every dictionary, every byte sequence, every pair of chunkings", "why_tests_cant": "needs a statement about all pairs of chunkings, including of malformed input", "anchors": ["src/vcdecoder.cc:VCDiffDeltaFileWindow::DecodeBody", "src/vcdecoder.cc:VCDiffDeltaFileWindow::MoreDataExpected"]}
{"id": "C04", "title": "Decoder memory safety and termination on untrusted input", "statement": "Whatever bytes are fed, in whatever chunks and whatever order of API calls, the decoder never reads outside the dictionary, the decoded target, the input buffers, the address caches or the code table, never appends beyond the reserved target capacity while pointers into it are live, and every call terminates. (False for deltas whose embedded code table announces 254 NEAR slots: the first SAME mode wraps around to 0 and the decoder reads outside the SAME cache. True otherwise.)", "quantifier": "every sequence of API calls with every argument", "why_tests_cant": "malicious inputs are adversarial; absence of an out-of-bounds access is a universal claim", "anchors": ["src/vcdecoder.cc:VCDiffDeltaFileWindow::DecodeCopy", "src/addrcache.cc:VCDiffAddressCache::DecodeAddress", "src/headerparser.cc:VCDiffHeaderParser", "src/decodetable.cc:VCDiffCodeTableReader::GetNextInstruction"]}
{"id": "C05", "title": "No signed-integer overflow while decoding untrusted input", "statement": "No input makes the decoder execute a signed 32-bit addition that overflows. (False: a NEAR-mode address whose encoded offset plus the cached address exceeds 2^31-1 overflows; every other signed operation is safe.)", "quantifier": "every sequence of API calls with every argument", "why_tests_cant": "overflow needs a specific combination of cached address and offset; sanitizer runs only see tested inputs", "anchors": ["src/addrcache.h:VCDiffAddressCache::DecodeNearAddress", "src/addrcache.cc:VCDiffAddressCache::DecodeAddress"]}
{"id": "C06", "title": "Decoder respects the configured size limits", "statement": "If the maximum target file size and maximum target window size are set before decoding starts, the total number of bytes output by one decode never exceeds the file limit, and no window larger than the window limit is accepted, even while the delta is malformed or incomplete. (Lowering the file limit in mid-decode below what was already decoded disables it.)", "quantifier": "every dictionary, limits, byte sequence and chunking", "why_tests_cant": "an attacker chooses the delta; the claim is about the sum over an unbounded number of windows", "anchors": ["src/vcdecoder.cc:VCDiffStreamingDecoderImpl::TargetWindowWouldExceedSizeLimits", "src/vcdecoder.cc:VCDiffStreamingDecoderImpl::SetMaximumTargetFileSize"]}
{"id": "C07", "title": "A successful decode follows RFC 3284", "statement": "If the decoder reports success for a delta that uses no custom code table, the delta is a sequence of windows as laid out in RFC 3284 (plus the SDCH interleaved/checksum extensions) and the output is the concatenation of the windows' targets as defined by the RFC semantics of ADD, RUN and COPY with the RFC address cache and default code table.", "quantifier": "every dictionary and every byte sequence", "why_tests_cant": "the language of accepted deltas is infinite", "anchors": ["src/vcdecoder.cc", "src/decodetable.cc", "src/addrcache.cc", "src/codetable.cc"]}
{"id": "C08", "title": "Every conforming delta within the limits is accepted", "statement": "Every delta that is a sequence of RFC 3284 windows (standard or interleaved layout, with or without checksum) whose declared sizes are consistent, whose COPY addresses are in range and whose window sizes respect the limits is decoded successfully to the target defined by the RFC semantics.", "quantifier": "every dictionary, every conforming delta whatever encoder produced it", "why_tests_cant": "third-party encoders use opcodes and layouts this encoder never produces", "anchors": ["src/vcdecoder.cc", "src/decodetable.cc", "src/headerparser.cc"]}
{"id": "C09", "title": "Checksummed windows are only accepted with a matching Adler-32", "statement": "Whenever the decoder completes a window whose header carries a checksum in the extended format, the Adler-32 of the bytes output for that window equals the checksum in the header.", "quantifier": "every dictionary, byte sequence and chunking", "why_tests_cant": "a missing check is only visible on corrupted inputs; there are infinitely many corruptions", "anchors": ["src/vcdecoder.cc:VCDiffDeltaFileWindow::DecodeBody", "src/checksum.h:ComputeAdler32"]}
{"id": "C10", "title": "Adler-32 detects every single-byte corruption", "statement": "Two byte strings of equal length that differ in exactly one position have different Adler-32 checksums as computed by the library, so a checksummed window in which one output byte is wrong is rejected. The same holds for two positions, unless their distance is a multiple of 65521; three wrong bytes can go unnoticed.", "quantifier": "every pair of strings of any length differing in one byte", "why_tests_cant": "unbounded lengths and positions", "anchors": ["src/checksum.h:ComputeAdler32", "src/zlib/adler32.c:adler32"]}
{"id": "C11", "title": "Decode failure is sticky", "statement": "After DecodeChunk returns false, every later DecodeChunk and FinishDecoding returns false and outputs nothing until StartDecoding is called again.", "quantifier": "every history of API calls", "why_tests_cant": "the claim ranges over unbounded call histories", "anchors": ["src/vcdecoder.cc:VCDiffStreamingDecoderImpl::DecodeChunk", "src/vcdecoder.cc:VCDiffStreamingDecoderImpl::FinishDecoding", "src/vcdecoder.cc:VCDiffStreamingDecoderImpl::Reset"]}
{"id": "C12", "title": "A decoder object can be reused", "statement": "After FinishDecoding or a failed DecodeChunk, a new StartDecoding/DecodeChunk/FinishDecoding sequence gives exactly the results a brand-new decoder with the same settings would give. (False if an earlier delta installed a custom code table: the table leaks into later decodes; true for histories without custom code tables.)", "quantifier": "every history of earlier decodes, every later decode", "why_tests_cant": "leaked state only shows for particular pairs of histories", "anchors": ["src/vcdecoder.cc:VCDiffStreamingDecoderImpl::Reset", "src/vcdecoder.cc:VCDiffStreamingDecoderImpl::StartDecoding", "src/decodetable.cc:VCDiffCodeTableReader::UseCodeTable"]}
{"id": "C13", "title": "Streaming output is monotone and a truncated delta never yields wrong data", "statement": "While decoding, output is only ever appended; the output after feeding a prefix of a decodable delta is a prefix of the full target, and if FinishDecoding accepts the truncated delta the output is a prefix of the full target made of whole windows.", "quantifier": "every decodable delta, every prefix of it, every chunking", "why_tests_cant": "every cut point of every delta", "anchors": ["src/vcdecoder.cc:VCDiffStreamingDecoderImpl::AppendNewOutputText", "src/vcdecoder.cc:VCDiffStreamingDecoderImpl::IsDecodingComplete"]}
{"id": "C14", "title": "Input that is not a supported delta file is rejected at once", "statement": "If the first bytes fed differ from the VCDIFF magic number, or the version byte is neither 0 nor 'S', or the header requests secondary compression, decoding fails as soon as the offending byte is available, with no output.", "quantifier": "every byte sequence and chunking, every dictionary", "why_tests_cant": "all byte sequences with a bad header", "anchors": ["src/vcdecoder.cc:VCDiffStreamingDecoderImpl::ReadDeltaFileHeader"]}
{"id": "C15", "title": "VCD_TARGET windows are rejected when disallowed", "statement": "If SetAllowVcdTarget(false) was called before decoding, no window of the delta, other than those that describe a custom code table in its header, is accepted if it takes its source from earlier target data, and at the end of each call the decoder retains at most one window of target data.", "quantifier": "every dictionary, byte sequence and chunking", "why_tests_cant": "retention over unbounded streams", "anchors": ["src/vcdecoder.cc:VCDiffStreamingDecoderImpl::FlushDecodedTarget", "src/headerparser.cc:VCDiffHeaderParser::ParseWinIndicatorAndSourceSegment"]}
{"id": "C16", "title": "Varint encode/parse round trip", "statement": "For every non-negative 32- or 64-bit value, parsing the encoded bytes followed by anything returns the value and consumes exactly the encoded bytes; the encoding has the length announced by Length(), at most 5 (9) bytes, and no shorter byte string parses to the same value.", "quantifier": "every value of each type and every continuation of the buffer", "why_tests_cant": "2^31 and 2^63 values times arbitrary suffixes", "anchors": ["src/varint_bigendian.cc:VarintBE::Parse", "src/varint_bigendian.cc:VarintBE::Encode", "src/varint_bigendian.cc:VarintBE::Length"]}
{"id": "C17", "title": "Varint parser is exact", "statement": "Parse returns a value v exactly when the buffer starts with bytes having the continuation bit set followed by one byte without it, whose 7-bit digits denote v and v fits the type; it reports END_OF_DATA exactly when the buffer is an incomplete such prefix still within range, ERROR otherwise; the read position moves only on success; a result for a buffer is never contradicted by giving more bytes.", "quantifier": "every buffer", "why_tests_cant": "all byte strings", "anchors": ["src/varint_bigendian.cc:VarintBE::Parse"]}
{"id": "C18", "title": "Address cache encode/decode agreement", "statement": "If an encoder cache and a decoder cache are initialised with the same (legal) sizes, then for every sequence of COPY addresses, each below its current position, decoding the encoded mode and bytes returns the same addresses and consumes exactly the bytes produced, in both the SAME and varint forms. (Legal sizes are at most 253 NEAR slots, and at most 254 slots altogether; the library also accepts 254 NEAR slots, and then the claim is false.)", "quantifier": "every legal pair of cache sizes, every sequence of addresses and positions", "why_tests_cant": "state of both caches depends on the whole history", "anchors": ["src/addrcache.cc:VCDiffAddressCache::EncodeAddress", "src/addrcache.cc:VCDiffAddressCache::DecodeAddress", "src/addrcache.cc:VCDiffAddressCache::UpdateCache"]}
{"id": "C19", "title": "Decoded addresses are always in range and failures have no effect", "statement": "DecodeAddress returns either an address in [0, here) or a failure code; on failure neither the read position nor the cache changes. (Except for the overflow of C05, and with 254 NEAR slots, which the library accepts.)", "quantifier": "every cache state, here value, mode byte and input buffer", "why_tests_cant": "all modes times all states times all inputs", "anchors": ["src/addrcache.cc:VCDiffAddressCache::DecodeAddress"]}
{"id": "C20", "title": "The encoder picks the shortest available address encoding", "statement": "EncodeAddress uses the one-byte SAME form if the address is in the SAME cache, and otherwise the mode among SELF, HERE and NEAR whose encoded integer is least. (False with 254 NEAR slots, which the library accepts.)", "quantifier": "every cache state reachable by updates, every address below here", "why_tests_cant": "optimality over all cache contents", "anchors": ["src/addrcache.cc:VCDiffAddressCache::EncodeAddress"]}
{"id": "C21", "title": "Address caches behave as RFC 3284 section 5.1 prescribes", "statement": "After any sequence of addresses, NEAR slot i holds the latest address whose index in the sequence is congruent to i (or 0), and SAME slot j holds the latest address congruent to j modulo 256 times the SAME size (or 0).", "quantifier": "every sequence of addresses, every legal pair of sizes", "why_tests_cant": "unbounded histories", "anchors": ["src/addrcache.cc:VCDiffAddressCache::UpdateCache", "src/addrcache.cc:VCDiffAddressCache::Init"]}
{"id": "C22", "title": "The default code table is the RFC's, and is valid", "statement": "The built-in 256-entry code table equals the table described in RFC 3284 section 5.6 and passes the library's own validity check.", "quantifier": "every opcode and field", "why_tests_cant": "a unit test of selected opcodes leaves others unchecked (this finite claim is settled for the whole table)", "anchors": ["src/codetable.cc:VCDiffCodeTableData::kDefaultCodeTableData", "src/codetable.cc:VCDiffCodeTableData::Validate"]}
{"id": "C23", "title": "Validate accepts exactly the usable code tables", "statement": "Validate(max_mode) returns true iff every opcode's two halves are well-formed (known type, mode 0 for non-COPY and at most max_mode for COPY, NOOPs with size 0) and every ADD, RUN and COPY mode up to max_mode has an opcode that expresses it alone with an explicit size.", "quantifier": "every 1536-byte table and max_mode", "why_tests_cant": "the space of tables is astronomically large", "anchors": ["src/codetable.cc:VCDiffCodeTableData::Validate", "src/codetable.cc:VCDiffCodeTableData::ValidateOpcode"]}
{"id": "C24", "title": "Instruction map lookups are sound and complete", "statement": "LookupFirstOpcode returns an opcode whose only non-NOOP half is the requested instruction, and returns none only if no such opcode exists; LookupSecondOpcode returns an opcode equivalent to the first followed by the requested second instruction. The map is built without out-of-bounds access. (The last sentence is false for some valid custom tables: a NOOP-first opcode whose second size exceeds every first size writes out of bounds.)", "quantifier": "every valid code table, instruction, size and mode", "why_tests_cant": "quantifies over all valid tables", "anchors": ["src/instruction_map.cc:VCDiffInstructionMap::VCDiffInstructionMap", "src/instruction_map.h:FirstInstructionMap::Add"]}
{"id": "C25", "title": "Writer and reader agree on every instruction sequence", "statement": "For every sequence of Add, Run and Copy calls with non-zero sizes and copy addresses below the current position, in either layout, with or without checksum, the window the code-table writer outputs decodes to the bytes those calls denote. (False for zero-size instructions: the explicit size is omitted and the stream is corrupted.)", "quantifier": "every call sequence, dictionary size, layout", "why_tests_cant": "opcode compounding depends on adjacent instructions; sequences are unbounded", "anchors": ["src/encodetable.cc:VCDiffCodeTableWriter::EncodeInstruction", "src/encodetable.cc:VCDiffCodeTableWriter::Output", "src/decodetable.cc:VCDiffCodeTableReader::GetNextInstruction"]}
{"id": "C26", "title": "Rolling hash update equals hashing from scratch", "statement": "For every window size of at least 2 and every byte sequence, updating the hash of a window with the byte leaving and the byte entering gives the hash of the shifted window; no intermediate value overflows 32 bits in a way that matters.", "quantifier": "every window size, every byte sequence", "why_tests_cant": "all byte sequences", "anchors": ["src/rolling_hash.h:RollingHash::Hash", "src/rolling_hash.h:RollingHash::UpdateHash", "src/rolling_hash.h:RollingHash::Init"]}
{"id": "C27", "title": "Block hash only reports true matches", "statement": "Every match found in a dictionary or target block hash denotes equal byte ranges of source and target lying inside both, covering the candidate block, and never reaches before the data still to be encoded or past its end.", "quantifier": "every source, target, candidate position and insertion history", "why_tests_cant": "hash collisions are exactly the inputs tests do not hit", "anchors": ["src/blockhash.cc:BlockHash::FindBestMatch", "src/blockhash.cc:BlockHash::FirstMatchingBlock", "src/blockhash.cc:BlockHash::NextMatchingBlock", "src/blockhash.cc:BlockHash::MatchingBytesToLeft"]}
{"id": "C28", "title": "The engine's instructions reconstruct the target", "statement": "For every dictionary and target chunk, executing the ADD and COPY instructions the engine emits, with COPY reading dictionary-then-target addresses byte by byte, produces exactly the chunk; every ADD is non-empty, every COPY has at least 32 bytes and starts below its own position; every COPY lies inside the dictionary or, with target matching on, starts in the target: none extends from the dictionary into the target.", "quantifier": "every dictionary, target and setting", "why_tests_cant": "the matching heuristics branch on all content", "anchors": ["src/vcdiffengine.cc:VCDiffEngine::EncodeInternal", "src/vcdiffengine.cc:VCDiffEngine::EncodeCopyForBestMatch"]}
{"id": "C29", "title": "Encoding never expands the input by more than a constant per chunk", "statement": "The bytes output for one target chunk are at most the chunk size plus a fixed constant.", "quantifier": "every dictionary, chunk and flag combination", "why_tests_cant": "worst case over all contents", "anchors": ["src/vcdiffengine.cc:VCDiffEngine::EncodeInternal", "src/encodetable.cc:VCDiffCodeTableWriter::Output"]}
{"id": "C30", "title": "An encoder object can be reused and its output depends only on its inputs", "statement": "The bytes the encoder outputs for a chunk depend only on the dictionary, the flags, the chunk and whether it is the first after StartEncoding, never on earlier chunks or earlier encodings; a used encoder behaves like a new one (binary formats).", "quantifier": "every history of earlier encodings", "why_tests_cant": "unbounded histories", "anchors": ["src/vcencoder.cc:VCDiffStreamingEncoderImpl", "src/encodetable.cc:VCDiffCodeTableWriter::Init", "src/encodetable.cc:VCDiffCodeTableWriter::Output"]}
{"id": "C31", "title": "The Adler-32 implementation computes its mathematical definition", "statement": "For every starting value with both halves below 65521 and every buffer, the deferred-modulo implementation returns the defining recurrence's result, no accumulator exceeds 32 bits, and checksumming a concatenation piecewise equals checksumming it at once. A build with NO_DIVIDE computes the same. adler32_combine gives the checksum of a concatenation from those of its parts (with zlib's starting value 1), and all checksums are in the range of adler32_range.", "quantifier": "every buffer and starting value", "why_tests_cant": "overflow only occurs for long buffers with particular content", "anchors": ["src/zlib/adler32.c:adler32", "src/zlib/adler32.c:adler32_combine", "src/zlib/adler32.c:adler32_range", "src/checksum.h:UpdateAdler32"]}
{"id": "C32", "title": "JSON output denotes the target", "statement": "For ASCII dictionaries and non-empty ASCII targets the JSON format's output, from any encoder, new or used, is a well-formed JSON array whose elements (strings, and pairs of numbers) denote ADD and COPY instructions that reconstruct the target. (False for targets given in several chunks with target matching on: COPY addresses then count from the beginning of a chunk, and the document does not say where chunks begin.) A dictionary or chunk that is not ASCII is refused.", "quantifier": "every ASCII dictionary and list of non-empty ASCII chunks", "why_tests_cant": "escaping must be right for all characters in all positions", "anchors": ["src/jsonwriter.cc:JSONCodeTableWriter"]}
{"id": "C33", "title": "JSON output is well-formed for every encode", "statement": "Every completed encode in the JSON format outputs a well-formed JSON array. (False: an empty target gives an empty document, and a reused encoder gives just \"]\".)", "quantifier": "every history of encodings", "why_tests_cant": "depends on history", "anchors": ["src/jsonwriter.cc:JSONCodeTableWriter::FinishEncoding", "src/jsonwriter.cc:JSONCodeTableWriter::Init"]}
{"id": "C34", "title": "Encoder call-order protocol", "statement": "EncodeChunk and FinishEncoding succeed only between a successful StartEncoding and the next FinishEncoding; out-of-order calls return false and output nothing; a complete encode consists of one file header followed by one window per non-empty chunk.", "quantifier": "every history of API calls", "why_tests_cant": "unbounded call histories", "anchors": ["src/vcencoder.cc:VCDiffStreamingEncoderImpl::StartEncoding", "src/vcencoder.cc:VCDiffStreamingEncoderImpl::EncodeChunk", "src/vcencoder.cc:VCDiffStreamingEncoderImpl::FinishEncoding"]}
{"id": "C35", "title": "Command-line encode then decode restores the file", "statement": "For every dictionary file, non-empty target file and buffer sizes, running the tool's encode loop and then its decode loop writes a file identical to the target, and the test mode reports a match; an empty regular input file makes the loop run forever.", "quantifier": "every file content and buffer size", "why_tests_cant": "all file sizes relative to all buffer sizes", "anchors": ["src/vcdiff_main.cc:VCDiffFileBasedCoder::Encode", "src/vcdiff_main.cc:VCDiffFileBasedCoder::Decode", "src/vcdiff_main.cc:VCDiffFileBasedCoder::DecodeAndCompare"]}
{"id": "C36", "title": "Hash table sizing", "statement": "For every dictionary size up to 2^31-1 the hash table size is a power of two no less than the number of bytes divided by the word size, and initialisation succeeds, so every hash value masks to a valid bucket.", "quantifier": "every dictionary size", "why_tests_cant": "2^31 sizes", "anchors": ["src/blockhash.cc:BlockHash::CalcTableSize", "src/blockhash.cc:BlockHash::Init"]}
{"id": "C37", "title": "Block hash chains record every added block exactly once, in order", "statement": "After adding blocks, following the chain from a bucket visits exactly the added blocks whose hash falls in that bucket, each once, in increasing position order, and ends.", "quantifier": "every insertion sequence the engine can perform, every data", "why_tests_cant": "all collision patterns", "anchors": ["src/blockhash.cc:BlockHash::AddBlock", "src/blockhash.cc:BlockHash::FirstMatchingBlock"]}
{"id": "C38", "title": "SetMaximumTargetFileSize and SetMaximumTargetWindowSize validate their argument", "statement": "As documented, both setters return false and change nothing for values above 2^31-1. (False for the file size setter, which accepts everything.)", "quantifier": "every argument", "why_tests_cant": "all size_t values", "anchors": ["src/vcdecoder.cc:VCDiffStreamingDecoderImpl::SetMaximumTargetFileSize", "src/vcdecoder.cc:VCDiffStreamingDecoderImpl::SetMaximumTargetWindowSize"]}
{"id": "C39", "title": "Custom code tables take effect or are rejected", "statement": "A delta with an embedded custom code table is decoded with exactly that table, or rejected if the table is invalid. (False: an invalid table is ignored, with messages on standard error but no other sign of it, and decoding goes on with the previous table.)", "quantifier": "every embedded table", "why_tests_cant": "space of tables", "anchors": ["src/vcdecoder.cc:VCDiffStreamingDecoderImpl::ReadCustomCodeTable", "src/decodetable.cc:VCDiffCodeTableReader::UseCodeTable"]}
{"id": "C40", "title": "Bounded nesting of custom code table decoders", "statement": "Decoding uses a bounded number of nested decoders. (False: embedded code tables may themselves announce code tables, so nesting depth is limited only by the input length: one level per seven input bytes.)", "quantifier": "every byte sequence", "why_tests_cant": "unbounded inputs", "anchors": ["src/vcdecoder.cc:VCDiffStreamingDecoderImpl::InitCustomCodeTable", "src/vcdecoder.cc:VCDiffStreamingDecoderImpl::ReadCustomCodeTable"]}
{"id": "C41", "title": "A chunk equal to the dictionary becomes one COPY", "statement": "Encoding a chunk of at least 32 bytes that is equal to the dictionary emits a single COPY of the whole dictionary, whatever the contents, so the delta has constant size.", "quantifier": "every dictionary of 32 bytes or more, matching on or off", "why_tests_cant": "hash collisions and repeated blocks could make the search settle for something shorter", "anchors": ["src/vcdiffengine.cc:VCDiffEngine::EncodeInternal", "src/blockhash.cc:BlockHash::FindBestMatch"]}
{"id": "C42", "title": "The match search misses nothing within its limits", "statement": "If no more than 17 of the hashed blocks share a bucket with the candidate block, no range of equal bytes around the candidate and a hashed block is longer than the match reported; and the first equal block in the bucket is always considered if no more than 16 blocks come before it.", "quantifier": "every source, target, candidate and insertion history", "why_tests_cant": "collision patterns and tie-breaking over all inputs", "anchors": ["src/blockhash.cc:BlockHash::FindBestMatch", "src/blockhash.cc:BlockHash::SkipNonMatchingBlocks"]}
{"id": "C43", "title": "VCDiffEncoder gives the streaming encoder's output, whatever it was used for before", "statement": "Every call of VCDiffEncoder::Encode returns true and replaces the output string by what a new streaming encoder outputs for that target alone, with the format flags and target matching that were set when Encode was first called (later settings have no effect), so it decodes to the target. In the JSON format Encode returns true exactly if the dictionary and the target are ASCII, and leaves nothing in the output string otherwise; for a target that is not empty it leaves the array a new streaming encoder outputs, which stands for instructions that rebuild the target.", "quantifier": "every dictionary, history of Encode, SetFormatFlags and SetTargetMatching calls, and target", "why_tests_cant": "unbounded call histories and targets", "anchors": ["src/vcencoder.cc:VCDiffEncoder::EncodeToInterface", "src/google/vcencoder.h:VCDiffEncoder"]}
{"id": "C44", "title": "Whole windows are output at once", "statement": "As long as every DecodeChunk call since StartDecoding has returned true, the output already contains, in order, the targets of all the windows whose bytes have been fed completely: nothing is held back until FinishDecoding or until more bytes arrive.", "quantifier": "every dictionary, every delta prefix (whole windows followed by any bytes), every cut into chunks, every setting of the limits", "why_tests_cant": "unbounded streams and all cuts", "anchors": ["src/vcdecoder.cc:VCDiffStreamingDecoderImpl::DecodeChunk", "src/vcdecoder.cc:VCDiffStreamingDecoderImpl::AppendNewOutputText"]}
{"id": "C45", "title": "Nothing long is sent literally that the search could reach", "statement": "No 32 consecutive bytes that occur in the dictionary, at whatever position, are part of an ADD of the delta, and with target matching no 32 bytes that occur earlier in the same chunk, provided no hash bucket is shared by more than 17 blocks (in particular for all dictionaries below 288 bytes). In general, at every position of an ADD there is no match of 32 bytes or more around a block within the reach of the search.", "quantifier": "every dictionary and chunk (together below 2^31 bytes), every contents, target matching on or off, every ADD and position in it", "why_tests_cant": "all alignments of repeated data, hash collisions and interactions of rolling hash, incremental hashing of the target and earlier copies", "anchors": ["src/vcdiffengine.cc:VCDiffEngine::EncodeInternal", "src/vcdiffengine.cc:VCDiffEngine::EncodeCopyForBestMatch", "src/blockhash.cc:BlockHash::FindBestMatch", "src/rolling_hash.h:RollingHash::UpdateHash"]}
{"id": "C46", "title": "The format flags do what they say", "statement": "The delta of the encoder begins with version 0 if neither the interleaved nor the checksum flag is set and with version 'S' otherwise; every window is interleaved (all in the instructions section) exactly if the interleaved flag is set, and carries a checksum, the Adler-32 of its target, exactly if the checksum flag is set. The vcdiff command passes its --interleaved, --checksum and --json flags on, each without regard to the others.", "quantifier": "every dictionary, list of chunks, and combination of the flags, target matching on or off; every command line", "why_tests_cant": "the flags must be honoured in every window for every input; a wrong combination decodes all the same, so round trip tests do not notice", "anchors": ["src/vcencoder.cc:VCDiffStreamingEncoderImpl::EncodeChunk", "src/encodetable.cc:VCDiffCodeTableWriter::Output", "src/encodetable.cc:VCDiffCodeTableWriter::WriteHeader", "src/vcdiff_main.cc:VCDiffFileBasedCoder::Encode"]}
{"id": "C47", "title": "The vcdiff command touches only its output file", "statement": "Whatever goes wrong and whenever the command stops, no file is changed but the one named as output (delta for encode and test, target for decode), standard output is written only if it is the output, and if the command line makes no sense, or the dictionary, input or output cannot be opened, the exit status is 1 and nothing at all has changed. So the input survives if it is not named as output as well. (If it is, decode and encode destroy it and still end with exit status 0.)", "quantifier": "every command line, file system, I/O failure and number of loop iterations before the command ends or is killed", "why_tests_cant": "all combinations of failures, kill points and files", "anchors": ["src/vcdiff_main.cc:VCDiffFileBasedCoder::OpenOutputFile", "src/vcdiff_main.cc:VCDiffFileBasedCoder::OpenDictionary", "src/vcdiff_main.cc:main"]}
{"id": "C48", "title": "Exit status 0 means that the result has been written", "statement": "If encode or decode ends with exit status 0, the output file holds the whole delta of the library for the target, or the whole target that the library decodes the delta to. (False if the output does not fit on the disk: errors at fclose are ignored, and the rest is missing although the status is 0.)", "quantifier": "every command line, file system and I/O failure, every way in which the C library buffers its output", "why_tests_cant": "all failures at all offsets", "anchors": ["src/vcdiff_main.cc:VCDiffFileBasedCoder::Encode", "src/vcdiff_main.cc:VCDiffFileBasedCoder::Decode", "src/vcdiff_main.cc:VCDiffFileBasedCoder::WriteOutput", "src/vcdiff_main.cc:VCDiffFileBasedCoder::~VCDiffFileBasedCoder"]}
{"id": "C49", "title": "An interrupted command leaves a prefix of the right output", "statement": "At whatever time decode is killed or gives up because of an I/O error, its output file is untouched or holds a prefix of the right target; for encode, a prefix of a delta that decodes to the target.", "quantifier": "every crash point, I/O failure, buffering behaviour, file system and command line (binary formats)", "why_tests_cant": "all crash points on all inputs", "anchors": ["src/vcdiff_main.cc:VCDiffFileBasedCoder::Encode", "src/vcdiff_main.cc:VCDiffFileBasedCoder::Decode", "src/vcdiff_main.cc:VCDiffFileBasedCoder::WriteOutput"]}
{"id": "C50", "title": "The vcdiff commands complete, and decode undoes encode", "statement": "If nothing goes wrong, encode and decode end with exit status 0 after finitely many reads, and decode, run on the output of encode with the same dictionary contents, in whatever file system and with whatever buffer size and limits that are large enough, outputs the original target; with files, standard input and output or pipes.", "quantifier": "all dictionaries and targets (non-empty if they are files), names, buffer sizes and flags (binary formats)", "why_tests_cant": "all sizes relative to all buffer sizes, all contents", "anchors": ["src/vcdiff_main.cc:VCDiffFileBasedCoder::Encode", "src/vcdiff_main.cc:VCDiffFileBasedCoder::Decode", "src/vcdiff_main.cc:main"]}
{"id": "C51", "title": "vcdiff test tells the truth", "statement": "If the test command ends with exit status 0, the delta file as it is on the disk decodes to the contents of the target file, whatever has gone wrong in between and even if names coincide; and if nothing goes wrong it does end with exit status 0.", "quantifier": "every command line, file system and I/O failure", "why_tests_cant": "all failures on all inputs", "anchors": ["src/vcdiff_main.cc:VCDiffFileBasedCoder::DecodeAndCompare", "src/vcdiff_main.cc:VCDiffFileBasedCoder::CompareOutput", "src/vcdiff_main.cc:main"]}
{"id": "C52", "title": "In the interleaved format whole instructions are output at once", "statement": "As long as every DecodeChunk call since StartDecoding has returned true, the output already contains what has been produced by all the instructions of an interleaved window whose bytes have been fed completely, although the window itself has not: the decoder does not wait for the rest of the window, nor for the second instruction of an opcode.", "quantifier": "every dictionary, every delta prefix (whole windows, then the beginning of an interleaved window that could be continued, then any bytes), every cut into chunks, every setting of the limits", "why_tests_cant": "unbounded streams, all cuts, all positions within a window", "anchors": ["src/vcdecoder.cc:VCDiffDeltaFileWindow::DecodeBody", "src/vcdecoder.cc:VCDiffDeltaFileWindow::DecodeWindow", "src/decodetable.cc:VCDiffCodeTableReader::GetNextInstruction", "src/vcdecoder.cc:VCDiffStreamingDecoderImpl::DecodeChunk"]}
{"id": "C53", "title": "A stream keeps up with its sender", "statement": "If a sender encodes chunks as they come and sends each output at once, and the bytes reach a decoder in pieces of any size at any time, no call fails, what the receiver has is always a beginning of what has been sent, and whenever all bytes sent have arrived the receiver has everything: neither the encoder nor the decoder holds anything back, and both may finish.", "quantifier": "every schedule of sending and delivering (so every cut-off point too), all dictionaries, chunks and binary formats, any earlier use of the encoder, limits of the decoder that the target respects", "why_tests_cant": "all interleavings of two parties, unbounded streams", "anchors": ["src/vcencoder.cc:VCDiffStreamingEncoderImpl::EncodeChunk", "src/encodetable.cc:VCDiffCodeTableWriter::Output", "src/vcdecoder.cc:VCDiffStreamingDecoderImpl::DecodeChunk"]}
{"id": "C54", "title": "Output strings are resized at most once per window", "statement": "However a delta file is cut into chunks, the string to which DecodeChunk appends the target is resized at most once for each window of the delta file (if repeating a reserve() does not change its capacity), and it never has been resized more often than sizes of target windows have been read so far; EncodeChunk resizes the string to which it appends a window (or the JSON items of a chunk) at most once.", "quantifier": "every delta file that is accepted, every cut into chunks; at every moment of every sequence of decoder calls; every capacity the string has at first and every way it grows; every state of an encoder, in every format, and every chunk", "why_tests_cant": "all cuts of all files, all growth policies", "anchors": ["src/vcdecoder.cc:VCDiffStreamingDecoderImpl::AppendNewOutputText", "src/vcdecoder.cc:VCDiffDeltaFileWindow::TargetBytesRemaining", "src/encodetable.cc:VCDiffCodeTableWriter::Output", "src/google/output_string.h:OutputString::ReserveAdditionalBytes"]}
{"id": "C55", "title": "Threads with encoders of their own do not disturb one another", "statement": "Several threads may use a HashedDictionary together, each with its own VCDiffStreamingEncoder, and may construct dictionaries and encoders at any time, also for the first time in the process: however their accesses to shared data are interleaved, every call has the result and the output it would have if the thread were alone, no thread waits for another, and the delta of each decodes to its target. At worst two tables per thread are allocated for nothing.", "quantifier": "every number of threads, every program of commands of each (dictionaries and chunks of less than 2^30 bytes), every interleaving of their accesses to shared memory, all formats; memory is sequentially consistent", "why_tests_cant": "all interleavings of any number of threads", "anchors": ["src/google/vcencoder.h:HashedDictionary", "src/rolling_hash.h:RollingHash::Init", "src/rolling_hash.h:RollingHash::UpdateHash", "src/instruction_map.cc:VCDiffInstructionMap::GetDefaultInstructionMap", "src/vcdiffengine.cc:VCDiffEngine::Encode"]}
{"id": "C56", "title": "Writers of the caller get a well-formed sequence of calls", "statement": "A VCDiffStreamingEncoder constructed with a CodeTableWriterInterface of the caller calls its methods in a fixed order (StartEncoding: Init, VerifyDictionary, WriteHeader; EncodeChunk: VerifyChunk, AddChecksum if the format has checksums, Add and Copy calls that together build exactly the chunk from the dictionary, Output; FinishEncoding: FinishEncoding), returns false exactly when the writer refuses or the call is out of order, in which case it calls nothing else, and outputs exactly what the writer outputs; so a writer that passes the calls on and gathers statistics does not change the delta, and its statistics are true. With a VCDiffCodeTableWriter for any usable custom code table the windows decode to the chunks once the header brings the table.", "quantifier": "every writer (any state, any behaviour of its methods), dictionary, flags, target matching on or off, and every history of StartEncoding, EncodeChunk and FinishEncoding calls (sizes below 2^31)", "why_tests_cant": "arbitrary code of the caller, all histories", "anchors": ["src/google/codetablewriter_interface.h:CodeTableWriterInterface", "src/vcencoder.cc:VCDiffStreamingEncoderImpl::StartEncoding", "src/vcencoder.cc:VCDiffStreamingEncoderImpl::EncodeChunk", "src/vcencoder.cc:VCDiffStreamingEncoderImpl::FinishEncoding", "src/google/encodetable.h:VCDiffCodeTableWriter"]}
{"id": "C57", "title": "A code table writer can be used over and over", "statement": "In every history of Init, Add, Copy, Run, AddChecksum and Output calls on a VCDiffCodeTableWriter (Init first and never in the middle of a window), for every usable code table, each Output appends exactly one window, which stands for the instructions since the last Output and carries the checksum given last, or nothing if there were no instructions; AddChecksum may come before or after the instructions of its window; the windows together decode to what the instructions produce; and Init between windows restores the initial state of a writer that was given no checksum.", "quantifier": "every history of calls with sensible instructions, code table, dictionary, layout (sizes below 2^31)", "why_tests_cant": "unbounded histories, all orders of calls", "anchors": ["src/google/encodetable.h:VCDiffCodeTableWriter", "src/encodetable.cc:VCDiffCodeTableWriter::Init", "src/encodetable.cc:VCDiffCodeTableWriter::Output", "src/google/encodetable.h:AddChecksum"]}
{"id": "C58", "title": "What a decoder keeps between calls", "statement": "Between DecodeChunk calls a decoder keeps of its input only what follows the file header and the windows that have been fed completely, and in the interleaved format only what follows the last complete instruction (unless the code table has opcodes that begin with no instruction). With SetAllowVcdTarget(false) it keeps no target data from earlier windows, and less than one window may be long; otherwise it keeps exactly the target so far. For custom code tables it keeps less than two tables per nested decoder and nothing once they have been read. No setting bounds the input it keeps: headers with padded numbers, windows with large sections and empty targets, and sections that end inside an instruction make it keep all further input.", "quantifier": "every dictionary, delta, division of it into chunks, setting, and code table left by earlier uses, as long as all chunks have been accepted", "why_tests_cant": "memory use after arbitrary histories of input; unit tests see outputs only", "anchors": ["src/google/vcdecoder.h:SetAllowVcdTarget", "src/vcdecoder.cc:VCDiffStreamingDecoderImpl::DecodeChunk", "src/vcdecoder.cc:FlushDecodedTarget", "src/vcdecoder.cc:VCDiffDeltaFileWindow::DecodeWindow", "src/vcdecoder.cc:ReadCustomCodeTable"]}
{"id": "C59", "title": "A debug build of the decoder does what a release build does, or exits for a documented reason", "statement": "In a build without NDEBUG, every history of calls on a VCDiffStreamingDecoder gives the same results and output as in a release build until the process exits. It exits only because a call is out of place (StartDecoding or SetAllowVcdTarget while a file is being decoded, DecodeChunk while none is; and then always), or in a DecodeChunk that in a release build returns false, with one of five messages about the input; none of the internal errors that the code reports in this way can occur. If no call is out of place and no chunk is refused, the builds agree. A file without a code table of its own never makes the process exit, valid or not, as long as dictionary and limits keep positions below 2^31.", "quantifier": "every history of calls on a new decoder, every dictionary, delta and division of it into chunks, settings as stated", "why_tests_cant": "internal-error branches are unreachable only if an invariant holds in every history", "anchors": ["src/logging.h:VCD_DFATAL", "src/google/vcdecoder.h:VCDiffStreamingDecoder", "src/vcdecoder.cc:VCDiffStreamingDecoderImpl::DecodeChunk", "src/vcdecoder.cc:InitCustomCodeTable", "src/vcdecoder.cc:VCDiffDeltaFileWindow::DecodeWindow", "src/addrcache.cc:VCDiffAddressCache::DecodeAddress", "src/decodetable.h:UnGetInstruction", "src/headerparser.cc:ParseableChunk::Advance"]}
{"id": "C60", "title": "Deltas can be joined and split between windows", "statement": "With SetAllowVcdTarget(false), the windows of a delta stand on their own: if several deltas with the same header (possibly with a custom code table) are accepted relative to the same dictionary, then the header followed by their windows one after the other, in any order, with any left out or repeated, is accepted and decodes to their targets one after the other, as long as this is within the limit for files; conversely what follows a complete prefix of a delta is, behind the header, a delta for the rest of the target. Encoding two lists of chunks in one session gives exactly the delta of the first followed by the delta of the second without its five bytes of header.", "quantifier": "every header, dictionary, settings, list of deltas with that header; every two lists of chunks (sizes below 2^31), binary format, target matching on or off", "why_tests_cant": "all lists of deltas, all cuts", "anchors": ["src/google/vcdecoder.h:SetAllowVcdTarget", "src/vcdecoder.cc:VCDiffStreamingDecoderImpl::DecodeChunk", "src/vcdecoder.cc:VCDiffDeltaFileWindow::DecodeWindow", "src/google/vcencoder.h:VCDiffStreamingEncoder"]}
{"id": "C61", "title": "Encoding takes a time proportional to the size of the chunk", "statement": "EncodeChunk looks for a match at most once for each byte of the chunk, compares at most 1105 blocks of 16 bytes and 2048 pairs of bytes for each byte of the chunk (twice as many with target matching), computes at most two hash values for each byte, enters each block of the chunk into a table at most once, and calls the writer at most once for each 16 bytes and twice more, however repetitive the dictionary and the chunk are and however large the dictionary is. HashedDictionary::Init hashes and enters each block of the dictionary once, and its tables take places in proportion to the dictionary. The whole of a call of EncodeChunk, with the verification, the checksum and all the writer does in whichever format, takes at most 20000 steps for each byte of the chunk (40000 with target matching) and 1000 more, after any history of calls.", "quantifier": "every dictionary and chunk (less than 2^31 bytes together), target matching on or off; for the whole call every format and every history of calls of the encoder", "why_tests_cant": "adversarial contents of any size: timing tests cover only some of them", "anchors": ["src/vcdiffengine.cc:VCDiffEngine::EncodeInternal", "src/blockhash.cc:BlockHash::FindBestMatch", "src/blockhash.cc:BlockHash::SkipNonMatchingBlocks", "src/blockhash.h:BlockHash::kMaxMatchesToCheck", "src/blockhash.h:BlockHash::kMaxProbes", "src/blockhash.cc:BlockHash::AddAllBlocksThroughIndex", "src/vcencoder.cc:VCDiffStreamingEncoderImpl::EncodeChunk", "src/encodetable.cc:VCDiffCodeTableWriter::Output", "src/jsonwriter.cc:JSONCodeTableWriter::JSONEscape"]}
{"id": "C62", "title": "Small edits give small deltas", "statement": "If a chunk is made of pieces of the dictionary and fresh bytes, then the delta is at most 5 bytes for the file and, for each chunk, twice its fresh bytes, 48 bytes for each piece and 44 bytes more, however long the pieces are: replacing a part of the dictionary by n bytes gives a delta of at most 2n + 193 bytes. This holds if no 32 bytes occur twice in the dictionary (nor in the chunk, with target matching) and no bucket of the dictionary's hash table has more than 17 blocks. The instructions add at most 31 bytes per piece that are not fresh, and use at most one COPY per piece and per 32 fresh bytes. Every COPY is maximal: it can be extended neither to the right nor, into the ADD before it, to the left.", "quantifier": "every dictionary and list of chunks as stated (sizes below 2^31), every list of pieces, every binary format, target matching on or off; maximality for every dictionary and chunk", "why_tests_cant": "a bound on the output for all edits of all dictionaries; tests compare sizes for a few files", "anchors": ["src/vcdiffengine.cc:VCDiffEngine::EncodeInternal", "src/vcdiffengine.cc:VCDiffEngine::EncodeCopyForBestMatch", "src/blockhash.cc:BlockHash::FindBestMatch", "src/blockhash.cc:BlockHash::MatchingBytesToLeft", "src/blockhash.cc:BlockHash::MatchingBytesToRight", "src/encodetable.cc:VCDiffCodeTableWriter::Output"]}
{"id": "C63", "title": "VCDiffDecoder: the result of Decode", "statement": "After any calls of Decode on a VCDiffDecoder, whatever their results, Decode does what it does on a new object, except that a code table brought by an earlier delta stays in force for deltas that bring none. It returns true exactly if a new streaming decoder accepts the delta in one chunk, and then the target string contains what the delta stands for and nothing of its old contents; after false the target string is empty, unless the delta was acceptable as far as it goes but incomplete. Of the strings of the caller only the target is changed. What a VCDiffEncoder object made, after whatever uses, is decoded by it. If the same string is passed as encoding and target, Decode returns true and the string is empty, whatever it contained.", "quantifier": "every history of Decode calls, every dictionary, delta, contents of the strings of the caller", "why_tests_cant": "unbounded histories of calls with arbitrary input", "anchors": ["src/google/vcdecoder.h:VCDiffDecoder", "src/vcdecoder.cc:VCDiffDecoder::DecodeToInterface", "src/google/vcencoder.h:VCDiffEncoder"]}
{"id": "C64", "title": "Decoding with another dictionary", "statement": "A delta made by this library is refused if the dictionary is shorter than the one it was made with (unless the target is empty). With any other dictionary, what is accepted has the right length; without checksums every dictionary that is long enough is accepted, so a wrong one is never noticed; with checksums each chunk of what is accepted has the Adler-32 of the right chunk, so a wrong dictionary is noticed unless it makes three bytes of the target wrong (two, if chunks are longer than 65521 bytes), which it can without being noticed. Bytes that are put after the dictionary never change what a delta, made by whatever encoder, decodes to.", "quantifier": "every dictionary used for encoding and every other one used for decoding, every list of chunks, binary format, target matching on or off, limits the target respects, any division of the delta into chunks; for bytes after the dictionary: every state of a decoder, every delta; for standard deltas of other encoders: every one without a custom code table", "why_tests_cant": "all pairs of dictionaries", "anchors": ["src/google/vcdecoder.h:VCDiffStreamingDecoder::StartDecoding", "src/google/vcdecoder.h:VCDiffDecoder", "src/headerparser.cc:VCDiffHeaderParser::ParseSourceSegmentLengthAndPosition", "src/vcdecoder.cc:VCDiffDeltaFileWindow::SetUpWindowSections", "src/vcdecoder.cc:VCDiffDeltaFileWindow::DecodeBody", "src/encodetable.cc:VCDiffCodeTableWriter::Output"]}
{"id": "C65", "title": "Windows are as short as their instructions allow", "statement": "The window that EncodeChunk writes for a chunk is the shortest there is with the same source segment, layout, checksum and sequence of ADD, COPY and RUN instructions: no choice of opcodes, address modes or ways to write the integers gives a shorter one. The same holds for whatever instructions VCDiffCodeTableWriter is given with the default code table, among all windows whose COPYs have the same address modes, and among all windows if no ADD of up to 4 bytes is directly followed by a COPY of 5 or 6.", "quantifier": "every dictionary and chunk (sizes below 2^31), binary format, target matching on or off; every non-empty sequence of instructions, either layout, any checksum; every other window", "why_tests_cant": "the comparison is with all other windows", "anchors": ["src/encodetable.cc:VCDiffCodeTableWriter::EncodeInstruction", "src/encodetable.cc:VCDiffCodeTableWriter::Output", "src/instruction_map.cc:VCDiffInstructionMap", "src/addrcache.cc:VCDiffAddressCache::EncodeAddress", "src/varint_bigendian.cc:VarintBE::Encode"]}
{"id": "C66", "title": "The time decoding takes does not depend on the dictionary", "statement": "Decode of a delta without a custom code table takes at most 139 steps per byte of the delta, 4 per byte of the target and 1564 more, whatever the dictionary is and however large; if the delta is rejected, the maximum size of a target takes the place of the size of the target, so no delta takes more than its size and the limit allow. A step is a byte looked at, copied or summed, an iteration of a loop, or an element of a cache cleared. The same holds for one DecodeChunk in the middle of a delta, where the input that the decoder has kept counts as well, and the part of the current window decoded before. Custom code tables nested in one another make it at most quadratic in the delta. Over all chunks the size of the delta is counted at most once for each chunk, and that can be necessary: a delta fed byte by byte can take time quadratic in its size.", "quantifier": "every dictionary, delta (valid or not), division of it into chunks, setting, and code table left by earlier uses", "why_tests_cant": "adversarial deltas of any size: timing tests cover only some of them", "anchors": ["src/vcdecoder.cc:VCDiffStreamingDecoderImpl::DecodeChunk", "src/vcdecoder.cc:VCDiffDeltaFileWindow::DecodeBody", "src/vcdecoder.cc:VCDiffDeltaFileWindow::DecodeWindow", "src/vcdecoder.cc:VCDiffDecoder::DecodeToInterface", "src/headerparser.cc:VCDiffHeaderParser", "src/decodetable.cc:VCDiffCodeTableReader::GetNextInstruction", "src/addrcache.cc:VCDiffAddressCache::Init"]}
{"id": "C67", "title": "With checksums, a damaged checksum or literal is noticed", "statement": "If a delta has been made with VCD_FORMAT_CHECKSUM and, in one of its windows, the checksum is replaced by any other one of the same number of bytes, then decoding fails, whatever follows that window. The same holds if the encoder was not told to look for matches in the target and one byte of the data section, or one byte of literal text in the interleaved layout, is replaced. More generally it holds for a byte of the text of an ADD in every delta with a checksum whose window has no RUN and copies only from its source segment. (It does not hold for the byte of a RUN: a RUN of 65521 bytes has the same checksum for every byte.)", "quantifier": "every dictionary and list of chunks (sizes below 2^31), binary format with checksums, window, replacement, rest of the delta, division into chunks, limits of the decoder", "why_tests_cant": "every possible replacement at every place of every delta", "anchors": ["src/vcdecoder.cc:VCDiffDeltaFileWindow::DecodeWindow", "src/vcdecoder.cc:VCDiffDeltaFileWindow::SetUpWindowSections", "src/headerparser.cc:VCDiffHeaderParser::ParseSectionLengths", "src/headerparser.cc:VCDiffHeaderParser::ParseChecksum", "src/checksum.h:ComputeAdler32", "src/encodetable.cc:VCDiffCodeTableWriter::Output"]}
{"id": "C68", "title": "Debug and release builds of the encoder agree", "statement": "Whatever is done with a HashedDictionary and a streaming encoder, a release build gives the same results and output as a debug build, up to the call at which the debug build exits. With a dictionary and chunks that are below 2^31 bytes, dictionary and chunk together, the debug build exits exactly if Init of the dictionary is called a second time, or a chunk is encoded before the first Init; so without that the two builds do the same. In a release build a second Init returns false and changes nothing. With such a dictionary and chunks no call of a release build crashes, in whatever order the calls come, and what it answers in the binary formats is known: Init succeeds once, calls out of order are refused, and chunks of an encoding under way before Init are taken and lost. If Init is not called at all, a release build returns true from every call, but writes only a file header, which decodes to nothing. With a dictionary of 2^31 bytes or more a debug build exits in Init (shown up to 2^32 - 16); a release build returns true from every call, but what it writes for a chunk of 1 to 7 bytes in the usual layout is accepted by no decoder with any dictionary. Together is needed: with a dictionary of 2^31 - 1 bytes, which Init takes, there is a chunk of 48 bytes for which both builds overflow an int.", "quantifier": "every dictionary, format, setting, and sequence of Init, StartEncoding, EncodeChunk and FinishEncoding calls with any chunks (sizes of dictionary and chunk below 2^31 where it says so; dictionaries of 2^31 to 2^32 bytes in the last sentence)", "why_tests_cant": "all histories of calls in both builds; tests run one build, and no test uses dictionaries of gigabytes", "anchors": ["src/google/vcencoder.h:HashedDictionary::Init", "src/google/vcencoder.h:VCDiffStreamingEncoder", "src/vcencoder.cc:VCDiffStreamingEncoderImpl", "src/vcdiffengine.cc:VCDiffEngine::Init", "src/vcdiffengine.cc:VCDiffEngine::Encode", "src/blockhash.cc:BlockHash::AddAllBlocksThroughIndex", "src/encodetable.cc:VCDiffCodeTableWriter::Output", "src/varint_bigendian.cc:VarintBE::Encode", "src/logging.h:VCD_DFATAL"]}
{"id": "C69", "title": "vcdiff encode -json writes a JSON array that rebuilds the target", "statement": "If dictionary and target are ASCII, the target is not empty and no file operation fails, vcdiff encode -json ends with exit status 0, and its output is one JSON array. It stands for instructions that rebuild, one after the other, the pieces of buffersize bytes into which the target is cut, each from the dictionary; if the target fits into the buffer or -target_matches is not given, they rebuild the whole target from the dictionary. If dictionary or target is not ASCII, the exit status is never 0. vcdiff test -json never ends with exit status 0, because the decoder does not read JSON.", "quantifier": "every dictionary, target, buffer size, combination of flags, and file or standard stream; for the negative parts also every failure of the file system", "why_tests_cant": "unbounded files and buffer sizes, all points of failure", "anchors": ["src/vcdiff_main.cc:VCDiffFileBasedCoder::Encode", "src/vcdiff_main.cc:VCDiffFileBasedCoder::DecodeAndCompare", "src/jsonwriter.cc:JSONCodeTableWriter"]}
{"id": "C70", "title": "The vcdiff command comes to an end with exit status 0 or 1", "statement": "Whatever goes wrong with its files and whatever bytes they hold, vcdiff encode and vcdiff decode end with exit status 0 or 1 after no more turns of their loop than the input has bytes, and one, if the input is another file than the output and is not an empty file; so does vcdiff test if there is space for the delta. Encoding performs no undefined operation for sizes within the format.", "quantifier": "every dictionary, input, flags, failure of opening, seeking, reading and writing at any position, and way in which the C library buffers output", "why_tests_cant": "unbounded inputs and every point of failure; a test cannot tell a long run from an endless one", "anchors": ["src/vcdiff_main.cc:VCDiffFileBasedCoder::Encode", "src/vcdiff_main.cc:VCDiffFileBasedCoder::Decode", "src/vcdiff_main.cc:main"]}
{"id": "C71", "title": "The decoder does the same with a size_t of 32 bits", "statement": "Every sequence of calls to a streaming decoder, with any data, gets the same answers and the same output from a build whose size_t has 32 bits as from one with 64 bits, or from one that counts without bounds, provided the limits set are size_t values and the limit on the size of the target file is not lowered between StartDecoding and FinishDecoding: no sum or difference of sizes that wraps around changes a decision or sends a read outside its buffer. The check before the lengths of a window's sections are added up finds exactly the sums that do not fit.", "quantifier": "every sequence of StartDecoding, DecodeChunk, FinishDecoding and setting calls, every dictionary and data, every width of size_t from 32 bits on", "why_tests_cant": "the values that wrap are sums of lengths near 2^31 in crafted headers; tests run on one width", "anchors": ["src/headerparser.cc:SumWouldOverflow4", "src/headerparser.cc:VCDiffHeaderParser::ParseSectionLengths", "src/headerparser.cc:VCDiffHeaderParser::ParseSourceSegmentLengthAndPosition", "src/vcdecoder.cc:VCDiffDeltaFileWindow::ReadHeader", "src/vcdecoder.cc:VCDiffDeltaFileWindow::DecodeBody", "src/vcdecoder.cc:VCDiffStreamingDecoderImpl::DecodeChunk"]}
{"id": "C72", "title": "vcdiff decode can be run on deltas nobody has to trust", "statement": "Whatever bytes the delta file holds and whatever goes wrong, vcdiff decode never writes more than -max_target_file_size bytes, touches no file but its output, ends after at most one turn of its loop for each byte of the delta, and one (if the delta is not an empty file, for which it never ends), and performs no undefined operation, except that a signed addition of addresses can overflow (C05), and that a delta which announces an address cache of 254 NEAR slots can make it read outside that cache (C04).", "quantifier": "every delta, dictionary, combination of flags, failure of the file system, and moment at which the command is interrupted; input and output are different files", "why_tests_cant": "every content of a file and every point of failure", "anchors": ["src/vcdiff_main.cc:VCDiffFileBasedCoder::Decode", "src/vcdiff_main.cc:VCDiffFileBasedCoder::WriteOutput", "src/vcdecoder.cc:VCDiffStreamingDecoderImpl::DecodeChunk", "src/google/vcdecoder.h:VCDiffStreamingDecoder::SetMaximumTargetFileSize"]}
{"id": "C73", "title": "The memory a delta makes the decoder ask for keeps to the limits", "statement": "The size of a target window is read from the delta, and room for the whole window is asked for before it is decoded. Whatever is fed, in whatever chunks and whether or not it is accepted, a decoder never asks for room for more target data than the maximum target file size; if copying from earlier target data has been disallowed, not for more than the maximum target window size; and while it reads a custom code table, for no more than the 1536 bytes of one. When it asks the output string for room, what has been output since StartDecoding and the room asked for are together at most the maximum target file size.", "quantifier": "every decoder that is not decoding, with any limits, every dictionary, every data (valid or not) and division of it into chunks", "why_tests_cant": "a header of a few bytes can announce any size; tests try some", "anchors": ["src/vcdecoder.cc:VCDiffDeltaFileWindow::ReadHeader", "src/vcdecoder.cc:VCDiffStreamingDecoderImpl::TargetWindowWouldExceedSizeLimits", "src/vcdecoder.cc:VCDiffStreamingDecoderImpl::AppendNewOutputText", "src/vcdecoder.cc:VCDiffStreamingDecoderImpl::InitCustomCodeTable"]}
{"id": "C74", "title": "The decoder never uses memory that has been freed or moved", "statement": "A streaming decoder keeps pointers from one call to the next: into the dictionary, into the data of DecodeChunk, into its own strings, which move when they grow, and to section objects that share data. If the caller keeps the dictionary until FinishDecoding returns or DecodeChunk fails, and the data of a DecodeChunk until that call returns, then no sequence of calls with any data makes a decoder, or the decoder nested in it for a custom code table, read memory that has been freed, moved or reused, or use a null pointer, read outside a buffer, compare pointers into different buffers, delete an object twice or, when it is destroyed at any moment, leave one behind. Between calls there is at most one section object for each of these decoders, however many windows and chunks have gone by.", "quantifier": "every sequence of StartDecoding, DecodeChunk, FinishDecoding and setting calls, whether they succeed or fail, every dictionary and data (valid or not), every moment at which the decoder is destroyed", "why_tests_cant": "a stale pointer usually still reads the right bytes, so that tests pass; which pointers are stale depends on where chunks end and when strings grow", "anchors": ["src/headerparser.h:ParseableChunk", "src/headerparser.h:DeltaWindowSection", "src/decodetable.h:VCDiffCodeTableReader::UpdatePointers", "src/decodetable.h:VCDiffCodeTableReader::UnGetInstruction", "src/vcdecoder.cc:VCDiffDeltaFileWindow::SetUpWindowSections", "src/vcdecoder.cc:VCDiffDeltaFileWindow::UpdateInterleavedSectionPointers", "src/vcdecoder.cc:VCDiffDeltaFileWindow::ReadHeader", "src/vcdecoder.cc:VCDiffDeltaFileWindow::DecodeBody", "src/vcdecoder.cc:VCDiffStreamingDecoderImpl::Reset", "src/vcdecoder.cc:VCDiffStreamingDecoderImpl::DecodeChunk"]}
{"id": "C75", "title": "Encoders do not disturb one another, and only the HashedDictionary has to be kept alive", "statement": "A program constructs any number of HashedDictionary and VCDiffStreamingEncoder objects, several encoders for one dictionary if it likes, calls them in turn in any order, and deletes them. If it uses an object only while it exists and deletes no dictionary before the encoders for it, then every encoder gives exactly the replies and the output that it would give if it and its dictionary were alone. The dictionary's contents may be freed as soon as the constructor has returned, and a chunk's data as soon as EncodeChunk has: nothing that has been freed or deleted is used, nothing is deleted twice, and when all dictionaries and encoders have been deleted nothing is left.", "quantifier": "every program that keeps to the rules, of any number of dictionaries, encoders and calls in any order, with any contents, flags and data; also calls out of order, refused ones, and dictionaries that are initialised late, never or twice", "why_tests_cant": "whether two users of one object get in each other's way depends on the order of their calls; a stale pointer usually still reads the right bytes", "anchors": ["src/google/vcencoder.h:HashedDictionary", "src/vcencoder.cc:VCDiffStreamingEncoder::VCDiffStreamingEncoder", "src/vcencoder.cc:VCDiffStreamingEncoder::~VCDiffStreamingEncoder", "src/vcencoder.cc:VCDiffStreamingEncoderImpl::EncodeChunk", "src/vcdiffengine.cc:VCDiffEngine::VCDiffEngine", "src/vcdiffengine.cc:VCDiffEngine::~VCDiffEngine", "src/vcdiffengine.cc:VCDiffEngine::EncodeInternal", "src/blockhash.cc:BlockHash::CreateDictionaryHash"]}
{"id": "C76", "title": "Encoders keep nothing of what they have encoded", "statement": "Between calls the HashedDictionary and VCDiffStreamingEncoder objects of a program store nothing but, for each HashedDictionary of n bytes that exists, its copy and tables of at most 5n/2 + 4 bytes, and a byte for each encoder that exists, apart from members of a fixed size; how much has been encoded does not matter. While EncodeChunk encodes n bytes, there are in addition tables of at most 5n/2 + 4 bytes and, in a binary format, at most n + 44 bytes in the strings of the writer. (What is counted is what is stored: room that a string keeps when it is cleared is not.)", "quantifier": "every program that keeps to the rules for the lifetimes of dictionaries and encoders, of any number of objects and calls in any order (sizes below 2^31); every moment between two calls of the engine to the writer", "why_tests_cant": "histories of any length: a leak or a buffer that is not emptied shows only in long runs", "anchors": ["src/blockhash.cc:BlockHash::CalcTableSize", "src/blockhash.cc:BlockHash::Init", "src/vcdiffengine.cc:VCDiffEngine::VCDiffEngine", "src/vcdiffengine.cc:VCDiffEngine::EncodeInternal", "src/encodetable.cc:VCDiffCodeTableWriter::Output", "src/jsonwriter.cc:JSONCodeTableWriter::Output"]}
{"id": "C77", "title": "Deltas do not depend on the machine they are made on", "statement": "Any calls of HashedDictionary::Init and of the methods of a streaming encoder get the same answers and the same output on every machine whose size_t has 32 bits or more, whichever its byte order, whether blocks are compared byte by byte or in machine words, and whatever size of machine word that divides the block size of 16; so a delta made on one such machine is decoded to the target by a decoder with a size_t of any such width on another", "quantifier": "every dictionary, sequence of calls, combination of format flags, width of size_t from 32 bits on, word size that divides 16 and byte order (dictionary and chunk below 2^31 bytes together; memory for the tables can be had; for decoding, targets within the default limits)", "why_tests_cant": "a test run sees the one machine it is run on", "anchors": ["src/blockhash.cc:BlockHash::CalcTableSize", "src/blockhash.cc:BlockHash::BlockContentsMatch", "src/blockhash.cc:BlockHash::BlockCompareWords", "src/blockhash.cc:BlockHash::FindBestMatch", "src/vcdiffengine.cc:VCDiffEngine::EncodeInternal", "src/encodetable.cc:VCDiffCodeTableWriter::CalculateLengthOfTheDeltaEncoding", "src/vcencoder.cc:VCDiffStreamingEncoderImpl::EncodeChunk"]}
{"id": "C78", "title": "An exception leaves a prefix of the right output, and a decoder that can be started again", "statement": "The library catches no exceptions. If one passes through DecodeChunk, because the output string throws, then all that has been output by then is a prefix of what would have been output, so a prefix of the target if the delta is valid; and after FinishDecoding the decoder can be started again: from StartDecoding on every call is answered as if the call that was interrupted had returned. Whatever state an exception, from wherever, has left a decoder in, after FinishDecoding and StartDecoding only the limits and the code table of it matter. If one passes through EncodeChunk, then what is in the output string is a prefix of what would have been there, and a decoder to which it is given outputs nothing but a prefix of the target.", "quantifier": "every history of calls, dictionary and data (valid or not), every operation on the output string as the one that throws, every number of bytes that the string has taken of what was appended; for the encoder every point at which one of its strings grows, and every binary format", "why_tests_cant": "an exception can strike at any of many points in any history; tests do not make output strings throw", "anchors": ["src/vcdecoder.cc:VCDiffStreamingDecoderImpl::DecodeChunk", "src/vcdecoder.cc:VCDiffStreamingDecoderImpl::FlushDecodedTarget", "src/vcdecoder.cc:VCDiffStreamingDecoderImpl::AppendNewOutputText", "src/vcdecoder.cc:VCDiffStreamingDecoderImpl::FinishDecoding", "src/google/output_string.h:OutputStringInterface", "src/encodetable.cc:VCDiffCodeTableWriter::Output", "src/vcencoder.cc:VCDiffStreamingEncoderImpl::EncodeChunk"]}
{"id": "C79", "title": "An object through which an exception has passed can be used for the next job", "statement": "When an exception has passed through a call, the next use of the object from the beginning (Decode of a VCDiffDecoder, Encode of a VCDiffEncoder, StartEncoding and what follows it) does what it would do with a new object, and EncodeChunk of a streaming encoder can be repeated. This does not hold: the Decode that follows goes on with the decode that was interrupted, with its dictionary; the next encode is preceded by instructions of the one that was interrupted, so that the delta, although every call returns true, cannot be decoded; and a repeated EncodeChunk gives a delta with the chunk twice. It does hold of a VCDiffDecoder once a further Decode has returned; of an encoder if the exception came in StartEncoding or before the first instruction of a chunk was written; and of StartEncoding in the JSON format (where everything is as if the interrupted call had not been made, or had returned).", "quantifier": "every history of calls, dictionary and data, every point at which a string grows or memory is allocated as the one where the exception comes", "why_tests_cant": "an exception can strike at any of many points in any history; tests do not make output strings throw", "anchors": ["src/vcdecoder.cc:VCDiffDecoder::DecodeToInterface", "src/vcdecoder.cc:VCDiffStreamingDecoderImpl::StartDecoding", "src/encodetable.cc:VCDiffCodeTableWriter::Init", "src/encodetable.cc:VCDiffCodeTableWriter::EncodeInstruction", "src/encodetable.cc:VCDiffCodeTableWriter::Output", "src/jsonwriter.cc:JSONCodeTableWriter::Init", "src/vcencoder.cc:VCDiffEncoder::EncodeToInterface"]}
{"id": "C80", "title": "Whatever is refused is explained on standard error", "statement": "Every call of a streaming decoder, a streaming encoder (with one of the library's writers or with a writer of the caller) or a VCDiffEncoder that returns false writes a message to standard error that says what was refused; so does every call of a decoder that is out of place and ignored. In particular no delta is rejected without a message. Conversely the messages that say so (for the decoder: all but those about an embedded code table) are written by no other call.", "quantifier": "every history of calls, dictionary and data, valid or not, in any chunks; for the encoder every state and every behaviour of a writer of the caller", "why_tests_cant": "there are some seventy places at which a call can fail, reached by different files cut into different chunks; tests discard the messages", "anchors": ["src/logging.h:VCD_ERROR", "src/vcdecoder.cc:VCDiffStreamingDecoderImpl::DecodeChunk", "src/vcdecoder.cc:VCDiffDeltaFileWindow::DecodeWindow", "src/headerparser.cc:VCDiffHeaderParser", "src/vcencoder.cc:VCDiffStreamingEncoderImpl::StartEncoding", "src/vcencoder.cc:VCDiffStreamingEncoderImpl::EncodeChunk", "src/vcencoder.cc:VCDiffEncoder::EncodeToInterface"]}
{"id": "C81", "title": "Nothing is written to standard error when nothing is wrong", "statement": "A call of a decoder or an encoder that returns true and is in place writes nothing to standard error. This holds of the decoder for files without a code table of their own, and of the encoder in the binary formats. It does not hold of the JSON format: every StartEncoding and every EncodeChunk that succeeds writes an error about characters that are not ASCII, although there are none. A file whose own code table cannot be used is accepted, with messages; a code table is reported if and only if it cannot be used.", "quantifier": "every history of calls, dictionary and data in any chunks (dictionary and chunk below 2^31 bytes together for the encoder)", "why_tests_cant": "histories and chunkings of any length; tests discard the messages", "anchors": ["src/logging.h:VCD_ERROR", "src/logging.h:VCD_WARNING", "src/jsonwriter.cc:JSONCodeTableWriter::VerifyDictionary", "src/jsonwriter.cc:JSONCodeTableWriter::VerifyChunk", "src/encodetable.cc:VCDiffCodeTableWriter::Output", "src/encodetable.cc:VCDiffCodeTableWriter::Add", "src/codetable.cc:VCDiffCodeTableData::Validate", "src/vcdecoder.cc:VCDiffStreamingDecoderImpl::DecodeChunk"]}
{"id": "C82", "title": "The vcdiff command says why it fails, and is silent if it does not", "statement": "A run of the vcdiff command that ends with exit status 1 has written exactly one error message of its own to standard error; one that ends with 0, or is still running, has written none. A message that a file cannot be opened, measured, read or written names a file with which there is such trouble. A decode (or patch) that ends with 0 has written nothing at all to standard error, unless the delta has a code table of its own that the decoder does not use; an encode (or delta), or a test, in a binary format that ends with 0 has written nothing at all. In the JSON format every encode that succeeds writes errors of the library. (Statistics, which are asked for, and the usage that the flag parser prints are not counted.)", "quantifier": "every command line, all files, every trouble with opening, reading and writing them, every number of turns of the loops (for silence: input and output are different files, a window limit below 2^31, dictionary and buffer below 2^31 bytes together)", "why_tests_cant": "files of any size in buffers of any size, with faults at any point; the tests of the command look at the exit status", "anchors": ["src/vcdiff_main.cc:main", "src/vcdiff_main.cc:VCDiffFileBasedCoder::OpenDictionary", "src/vcdiff_main.cc:VCDiffFileBasedCoder::OpenFileForReading", "src/vcdiff_main.cc:VCDiffFileBasedCoder::OpenOutputFile", "src/vcdiff_main.cc:VCDiffFileBasedCoder::ReadInput", "src/vcdiff_main.cc:VCDiffFileBasedCoder::WriteOutput", "src/vcdiff_main.cc:VCDiffFileBasedCoder::Encode", "src/vcdiff_main.cc:VCDiffFileBasedCoder::Decode", "src/vcdiff_main.cc:VCDiffFileBasedCoder::DecodeAndCompare"]}
{"id": "C83", "title": "Decoding goes on after an exception from the output string", "statement": "When the output string throws an exception out of DecodeChunk (and has taken nothing of what it was given, as std::string promises), the caller can go on with the data that follow: the next call outputs what is missing, and in the end the whole target has been output, each byte once. This holds with any number of exceptions, at any operations on the string, if VCD_TARGET is allowed (the default). It does not hold after SetAllowVcdTarget(false): windows are lost, or output twice, and no call returns false. Nor must the chunk be passed again with which the exception came: its text is then output twice.", "quantifier": "every delta that decodes, its chunks, every set of calls and of operations on the output string that throw; every history of calls before", "why_tests_cant": "exceptions can strike at any operation, and any number of times; tests do not make output strings throw", "anchors": ["src/vcdecoder.cc:VCDiffStreamingDecoderImpl::DecodeChunk", "src/vcdecoder.cc:VCDiffStreamingDecoderImpl::FlushDecodedTarget", "src/vcdecoder.cc:VCDiffStreamingDecoderImpl::AppendNewOutputText", "src/google/output_string.h:OutputStringInterface"]}
{"id": "C84", "title": "Data that repeat themselves give short deltas", "statement": "With target matching, a chunk that repeats a pattern of up to 32 bytes to its end (and has at least 32 bytes more than the pattern), with a dictionary that has no 32 bytes in common with it, is encoded as one ADD of no more bytes than the pattern has and one COPY of all the rest, which extends into the data it produces. The same holds for longer patterns if the chunk has equal 32 bytes only at distances that are multiples of the pattern's size. So the delta has at most 87 bytes for each such chunk, however long it is.", "quantifier": "every pattern, every length of the chunk, every number of chunks, every dictionary that shares no 32 bytes with them, all binary formats (sizes below 2^31)", "why_tests_cant": "patterns and lengths are without bound, and whether a repetition is found depends on where the blocks of the hash table lie", "anchors": ["src/google/vcencoder.h:VCDiffStreamingEncoder", "src/vcdiffengine.cc:VCDiffEngine::EncodeInternal", "src/vcdiffengine.cc:VCDiffEngine::EncodeCopyForBestMatch", "src/blockhash.cc:BlockHash::FindBestMatch", "src/blockhash.cc:BlockHash::AddAllBlocksThroughIndex", "src/blockhash.h:BlockHash::AddOneIndexHash"]}
{"id": "C85", "title": "The statistics of the vcdiff command are those of its files", "statement": "With --stats, a run of the vcdiff command that ends with exit status 0 has reported the sizes of the target and of the delta as they are in its input and output: encode and decode report them once, test twice with the same numbers, from the encoder and from the decoder. Nothing is reported if the target is empty. A run that fails or is still running has reported nothing, except for a test that fails after its delta was written, which has reported what encode would. (The sizes are below 2^64, input and output are different files, and the output has not hit a limit of space.)", "quantifier": "every command line, every contents of the files, every buffer size, every number of turns of the loops and all I/O errors", "why_tests_cant": "the sums are over all turns of the loops, and what is left for the end differs between the commands", "anchors": ["src/vcdiff_main.cc:VCDiffFileBasedCoder::Encode", "src/vcdiff_main.cc:VCDiffFileBasedCoder::Decode", "src/vcdiff_main.cc:VCDiffFileBasedCoder::DecodeAndCompare", "src/vcdiff_main.cc:FLAGS_stats"]}
{"id": "C86", "title": "The output does not depend on the class of the output object", "statement": "The methods that write to an OutputStringInterface work with any class derived from it. If append and push_back extend what the object holds as those of std::string do, and ReserveAdditionalBytes leaves it alone (it may do nothing), then after any sequence of calls of a streaming encoder or decoder the object has received, after what it held before, exactly the bytes a std::string would have received, and the calls return the same results; the streaming classes never clear it. If clear also empties it, then after Encode or Decode of the simple classes the object holds the delta or the target and nothing else. If size() is the number of bytes held, the encoder never reports that the length of a delta encoding does not match; if size() stays the same, it does so for each chunk with output in the binary formats, although the output is right.", "quantifier": "all classes derived from OutputStringInterface (all state types and methods), all objects and earlier contents, all encoders, formats, dictionaries and sequences of calls of the streaming encoder, all sequences of calls of a decoder, all uses of the simple classes", "why_tests_cant": "A test uses std::string and perhaps one other class; the claim is about every class a caller may write, with every sequence of calls.", "anchors": ["src/google/output_string.h:OutputStringInterface", "src/encodetable.cc:VCDiffCodeTableWriter::Output", "src/jsonwriter.cc:JSONCodeTableWriter::Output", "src/vcencoder.cc:VCDiffEncoder::EncodeToInterface", "src/vcdecoder.cc:VCDiffDecoder::DecodeToInterface", "src/vcdecoder.cc:VCDiffStreamingDecoderImpl::AppendNewOutputText"]}
{"id": "C87", "title": "Limits may be changed at any time, and only decide how far is decoded", "statement": "SetMaximumTargetFileSize and SetMaximumTargetWindowSize may be called at any time, also between two calls of DecodeChunk. Histories of calls that differ only in which limits they set where get the same replies and output, up to the first DecodeChunk that one of them refuses at an earlier window than the other, and there the output of the one is a prefix of the output of the other. Earlier limits leave no trace: once both limits have been set, everything that follows depends on them alone. The limit for files set last is respected, unless it was below the one before and less than 2147483647 bytes above what had been output. A delta that is accepted with limits changed on the way is accepted, with the same output, under the largest limits set once and for all.", "quantifier": "every pair of histories of calls that differ in the setting of limits, all data and chunkings, all values of the limits (the last statement: targets of at most 2^63 bytes)", "why_tests_cant": "the places where a limit can be changed and the values it can have are as many as the histories; a test changes one limit once", "anchors": ["src/google/vcdecoder.h:VCDiffStreamingDecoder::SetMaximumTargetFileSize", "src/google/vcdecoder.h:VCDiffStreamingDecoder::SetMaximumTargetWindowSize", "src/vcdecoder.cc:VCDiffStreamingDecoderImpl::TargetWindowWouldExceedSizeLimits", "src/vcdecoder.cc:VCDiffDeltaFileWindow::ReadHeader"]}
{"id": "C88", "title": "Disallowing VCD_TARGET only refuses", "statement": "SetAllowVcdTarget(false) makes the decoder drop the target of earlier windows, to save memory. That changes nothing but which deltas are refused: for the same calls, in whatever chunks, such a decoder returns the same values and outputs the same bytes at the same calls as one that allows VCD_TARGET, up to the first chunk that it refuses and the other one accepts; there, what it has output is a prefix of what the other one has. A delta it accepts is accepted, with the same output, by the other one. Of the deltas the other one accepts, it refuses exactly those with a window that takes its source from target data.", "quantifier": "every history of calls, dictionary, delta and chunking (which deltas are refused: fed byte by byte, or in the standard format without a custom code table in any chunks)", "why_tests_cant": "dropping the target moves every position in the decoder's buffer; whether each is moved alike matters for every sequence of windows, instructions and chunk ends, and a test tries a few", "anchors": ["src/google/vcdecoder.h:VCDiffStreamingDecoder::SetAllowVcdTarget", "src/vcdecoder.cc:VCDiffStreamingDecoderImpl::FlushDecodedTarget", "src/vcdecoder.cc:VCDiffStreamingDecoderImpl::DecodeChunk", "src/vcdecoder.cc:VCDiffDeltaFileWindow::ReadHeader"]}
{"id": "C89", "title": "Other decoders for the standard format", "statement": "Deltas made without format extensions are for any VCDIFF decoder, and deltas of other programs are for this one. A decoder written from RFC 3284 alone, without secondary compression, custom code tables and application headers, which refuses every bit it does not know and anything left over, decodes what the encoder outputs for flags 0 to the target. Whatever the bytes: if both it and this library accept them, the targets are the same. What it accepts, this library accepts with the same target, in any chunks, if the dictionary and target together and the delta are below 2^31 bytes, the target is within the limits that have been set and no opcode follows the one that completes the target of its window (without the last condition that is false: C04). What it accepts, with or without that condition, follows the grammar by which C03 and C04 are stated.", "quantifier": "every dictionary, list of chunks and target matching (encoding); every byte string, dictionary, settings and chunking (decoding)", "why_tests_cant": "a test can run a few deltas through a few other decoders; that no delta means something else elsewhere is a statement about all byte strings", "anchors": ["src/google/vcencoder.h:VCDiffStreamingEncoder", "src/encodetable.cc:VCDiffCodeTableWriter::Output", "src/google/vcdecoder.h:VCDiffStreamingDecoder::DecodeChunk", "src/vcdecoder.cc:VCDiffDeltaFileWindow::DecodeWindow", "src/addrcache.cc:VCDiffAddressCache::DecodeAddress"]}
{"id": "C90", "title": "Other decoders for the extended format", "statement": "What C89 says of the standard format holds of the format extensions, too. A decoder as in C89 that also knows version 'S', interleaved windows and checksums decodes what the encoder outputs, for any flags but JSON, to the target. If it refuses opcodes behind the one that completes the target of a window, then, whatever the bytes, it and this library never accept them with different targets, and what it accepts, this library accepts with the same target, in any chunks, if sizes are below 2^31 and within the limits that have been set. If it does not refuse those, what it accepts follows the grammar by which C03 and C04 are stated, but this library may accept the same bytes with another target: it takes what follows in an interleaved window for another window if a chunk ends before it.", "quantifier": "every dictionary, list of chunks, format flags but JSON and target matching (encoding); every byte string, dictionary, settings and chunking (decoding)", "why_tests_cant": "a test can run a few deltas through a few other decoders; that no delta means something else elsewhere ranges over all byte strings, and the delta that means two things came up when the proof over all of them failed", "anchors": ["src/google/vcencoder.h:VCDiffStreamingEncoder", "src/encodetable.cc:VCDiffCodeTableWriter::Output", "src/google/vcdecoder.h:VCDiffStreamingDecoder::DecodeChunk", "src/vcdecoder.cc:VCDiffDeltaFileWindow::DecodeBody", "src/vcdecoder.cc:VCDiffDeltaFileWindow::SetUpWindowSections"]}
{"id": "C91", "title": "Deltas that every decoder can read", "statement": "There is a common subset of what RFC 3284 (with the extensions of version 'S') and this library take for a delta: the default code table, no bits set whose meaning is not defined, every opcode complete and none behind the end of the target of its window. A delta of whatever encoder that keeps to it is decoded to its target by this library, in any chunks, and by the other decoder of C90; that decoder, if it refuses opcodes behind the end of the target, accepts exactly these deltas; and the encoder makes no others, in all binary formats. This library accepts more: bits that are not defined, for example.", "quantifier": "every delta, dictionary, settings that the target respects, chunking; for the encoder every dictionary, list of chunks, binary format, target matching on or off (sizes below 2^31)", "why_tests_cant": "which deltas an independent decoder may be given is a statement about all deltas of all encoders", "anchors": ["src/google/vcencoder.h:VCDiffStreamingEncoder", "src/encodetable.cc:VCDiffCodeTableWriter::Output", "src/google/vcdecoder.h:VCDiffStreamingDecoder::DecodeChunk", "src/vcdecoder.cc:VCDiffDeltaFileWindow::ReadHeader", "src/vcdecoder.cc:VCDiffDeltaFileWindow::DecodeBody"]}
{"id": "C92", "title": "Bits without a meaning are ignored", "statement": "The format leaves bits of the indicator bytes undefined: all but three of Win_Indicator (all but two in a file without extensions) and of Delta_Indicator, and all but two of Hdr_Indicator. Whatever they are in a file, every call returns the same and outputs the same, now and later: for the window and delta indicators of the window that follows any delta the decoder accepts, and for the header indicator. In a file without extensions this includes the bit that announces a checksum. This is for input with a cut before the altered byte (the rest is cut anywhere); the result of decoding a file without extensions and without a code table of its own does not depend on any cuts.", "quantifier": "every settings, dictionary, delta accepted so far and its chunks, every two values of the byte that agree in the defined bits, every continuation, valid or not, and every later calls; for files without extensions and code table every two divisions into chunks of the two files", "why_tests_cant": "the bytes before and after the altered one are arbitrary, and so are the places where the input is cut and the calls that follow", "anchors": ["src/google/vcdecoder.h:VCDiffStreamingDecoder::DecodeChunk", "src/headerparser.cc:VCDiffHeaderParser::ParseWinIndicatorAndSourceSegment", "src/headerparser.cc:VCDiffHeaderParser::ParseDeltaIndicator", "src/vcdecoder.cc:VCDiffStreamingDecoderImpl::ReadDeltaFileHeader", "src/vcdecoder.cc:VCDiffDeltaFileWindow::ReadHeader"]}
{"id": "C93", "title": "A window that cannot be decoded is refused as soon as its header says so", "statement": "After any delta that the decoder accepts, let a window follow that takes its source segment from the dictionary and from the target at once, or whose source segment is not within the dictionary, or whose target is longer than SetMaximumTargetWindowSize allows, or longer with what has been decoded than SetMaximumTargetFileSize allows, or with a section that is compressed further. The call that brings the byte of the header that says so returns false, and neither it nor the calls with the bytes of the header before output anything. A caller is not kept waiting for the rest of a window that is lost, and nothing of it is output.", "quantifier": "every settings, dictionary, delta accepted so far and its chunks, every such window header and whatever follows it, every division into chunks", "why_tests_cant": "the header may be cut anywhere, may be preceded by any accepted data, and may have redundant or overlong integers", "anchors": ["src/google/vcdecoder.h:VCDiffStreamingDecoder::DecodeChunk", "src/headerparser.cc:VCDiffHeaderParser::ParseWinIndicatorAndSourceSegment", "src/headerparser.cc:VCDiffHeaderParser::ParseSourceSegmentLengthAndPosition", "src/headerparser.cc:VCDiffHeaderParser::ParseDeltaIndicator", "src/vcdecoder.cc:VCDiffStreamingDecoderImpl::TargetWindowWouldExceedSizeLimits", "src/vcdecoder.cc:VCDiffDeltaFileWindow::ReadHeader"]}

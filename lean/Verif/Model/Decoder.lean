import Verif.Model.DecodeTable
import Verif.Model.Adler

/-!
# The streaming decoder (src/vcdecoder.cc)

Conventions.

* `parseable_chunk` is the list of bytes not yet parsed; functions that advance it return the rest.
* An operation that would be undefined behaviour or break an internal assertion ends in
  `.fault`. That no API call can end in most of these is proved, not assumed.
* `VCD_ERROR`/`VCD_DFATAL` messages are in `Verif.Model.Log`; `VCD_DFATAL` is taken in its release
  (`NDEBUG`) meaning of a logged error followed by the code after it.
* Loops carry a bound; reaching it is `.fault .diverge`.
-/

namespace Vcd

/-- `kDefaultMaximumTargetFileSize` (src/vcdecoder.cc:327). -/
def defaultMaximumTargetFileSize : Nat := 67108864

/-- `kTargetSizeLimit` (src/vcdecoder.cc:331). -/
def targetSizeLimit : Nat := 2147483647

/-- `sizeof(VCDiffCodeTableData)`: six arrays of 256 bytes (src/codetable.h:73-106). -/
def codeTableSize : Nat := 1536

/-- The contents of a window header (src/vcdecoder.cc:268-300): `source_segment_length_`, the bytes
from `source_segment_ptr_` on, `target_window_length_`, `has_checksum_`/`expected_checksum_`,
whether the sections are interleaved (`IsInterleaved()`, src/vcdecoder.cc:240-244), and the section
lengths. `source` is a copy of the segment: the dictionary is constant, and target data before the
current window does not change while the window is decoded. -/
structure WinHeader where
  srcLen : Nat
  source : Bytes
  targetLen : Nat
  checksum : Option Nat
  interleaved : Bool
  dataLen : Nat
  instLen : Nat
  addrLen : Nat
  deriving DecidableEq, Repr

/-- A window whose header has been read (`found_header_`) and whose decoding was interrupted by the
end of the available data: its header, `interleaved_bytes_expected_`, and the reader's
`pending_second_instruction_`. -/
structure OpenWindow where
  hdr : WinHeader
  expected : Nat
  pending : Option UInt8
  deriving DecidableEq, Repr

/-- The members of one `VCDiffStreamingDecoderImpl` (src/vcdecoder.cc:539-614) and of its
`VCDiffDeltaFileWindow` (src/vcdecoder.cc:260-302), except `custom_code_table_decoder_`:

* `table`: the table `reader_.code_table_data_` points to;
* `planned`: `planned_target_file_size_`, `none` for `kUnlimitedBytes`;
* `cache`: `addr_cache_`, also the flag `FoundFileHeader()`;
* `startPos`: `target_window_start_pos_`; `win`: see `OpenWindow`, `none` when `!found_header_`;
* `outPos`: `decoded_target_output_position_`; `tableString`: `custom_code_table_string_`.

`custom_code_table_` is left out: it is non-null whenever the nested decoder is
(src/vcdecoder.cc:783-798), and its contents are copied into `reader_` as soon as they are known. -/
structure Level where
  table : CodeTable := defaultTable
  started : Bool := false
  dict : Bytes := []
  version : UInt8 := 0
  planned : Option Nat := none
  maxFile : Nat := defaultMaximumTargetFileSize
  maxWin : Nat := defaultMaximumTargetFileSize
  total : Nat := 0
  cache : Option AddrCache := none
  allowTarget : Bool := true
  unparsed : Bytes := []
  decoded : Bytes := []
  outPos : Nat := 0
  startPos : Nat := 0
  win : Option OpenWindow := none
  tableString : Bytes := []
  deriving DecidableEq

/-- A decoder: its own members, and the chain of nested decoders
`custom_code_table_decoder_`, `custom_code_table_decoder_->custom_code_table_decoder_`, ... -/
structure Decoder where
  top : Level := {}
  nested : List Level := []
  deriving DecidableEq

namespace Level

/-- `VCDiffStreamingDecoderImpl::Reset` (src/vcdecoder.cc:637-649) with
`VCDiffDeltaFileWindow::Reset` (src/vcdecoder.cc:988-1006). Neither changes the reader's code
table. -/
def reset (L : Level) : Level :=
  { L with started := false, dict := [], version := 0, planned := none, total := 0, cache := none,
           win := none, startPos := L.decoded.length, outPos := 0 }

/-- `VCDiffStreamingDecoderImpl::StartDecoding` (src/vcdecoder.cc:651-664). -/
def start (L : Level) (dict : Bytes) : Level :=
  if L.started then L
  else { ({ L with unparsed := [], decoded := [] } : Level).reset with dict := dict, started := true }

/-- `AllowInterleaved()` and `AllowChecksum()` (src/vcdecoder.cc:364, 376): version `'S'`. -/
def allowExtensions (L : Level) : Bool := L.version == 0x53

/-- `TargetWindowWouldExceedSizeLimits` (src/vcdecoder.cc:946-984). -/
def wouldExceed (L : Level) (windowSize : Nat) : Bool :=
  windowSize > L.maxWin ||
  (match L.planned with
   | some planned => windowSize > szSub planned L.total
   | none => false) ||
  windowSize > szSub L.maxFile L.total

/-- `ReachedPlannedTargetFileSize` (src/vcdecoder.cc:408-425). -/
def reachedPlanned (L : Level) : Bool :=
  match L.planned with
  | none => false
  | some planned => planned ≤ L.total

/-- `TargetBytesDecoded()` (src/vcdecoder.cc:1134-1136). -/
def targetBytesDecoded (startPos : Nat) (decoded : Bytes) : Nat := szSub decoded.length startPos

end Level

/-! ## Window header -/

/-- `VCDiffDeltaFileWindow::ReadHeader` with `SetUpWindowSections` (src/vcdecoder.cc:1008-1122), as
far as it depends on the input: the header, and the position after it. In the standard format the
whole window must be available (lines 1033-1037). The comparison with `EndOfDeltaWindow()`
(line 1043) repeats the comparison made by `ParseSectionLengths` and is left out. -/
def readHeader (L : Level) (s : Bytes) : Parsed WinHeader :=
  (parseWinIndicator L.dict.length L.decoded.length L.allowTarget s).bind fun isp s =>
    let hasChecksum := L.allowExtensions && (isp.1 &&& vcdChecksum != 0)
    -- ParseWindowLengths (src/headerparser.cc:260-275)
    (parseSize s).bind fun deltaLen deltaStart =>
    (parseSize deltaStart).bind fun targetLen s =>
      if L.wouldExceed targetLen then .error
      else
        (parseDeltaIndicator s).bind fun _ s =>
        (parseSectionLengths hasChecksum deltaLen deltaStart s).bind fun lens s =>
          let interleaved := L.allowExtensions && lens.dataLen == 0 && lens.addrLen == 0
          if !interleaved && s.length < lens.dataLen + lens.instLen + lens.addrLen then .endOfData
          else
            let source :=
              if isp.1 &&& vcdSource ≠ 0 then L.dict.drop isp.2.2
              else if isp.1 &&& vcdTarget ≠ 0 then L.decoded.drop isp.2.2
              else []
            .ok { srcLen := isp.2.1, source := source.take isp.2.1, targetLen := targetLen,
                  checksum := lens.checksum, interleaved := interleaved,
                  dataLen := lens.dataLen, instLen := lens.instLen, addrLen := lens.addrLen } s

/-! ## Window body -/

/-- What stays constant during `DecodeBody`. -/
structure BodyEnv where
  table : CodeTable
  hdr : WinHeader
  startPos : Nat

/-- What changes during `DecodeBody`: the reader's pending second instruction, the unparsed parts of
`instructions_and_sizes_`, `data_for_add_and_run_` and `addresses_for_copy_` (the last two share
the first one's position in the interleaved format, and are unused here then), the address cache,
and `decoded_target_`. -/
structure Body where
  pending : Option UInt8
  inst : Bytes
  data : Bytes
  addr : Bytes
  cache : AddrCache
  decoded : Bytes
  deriving DecidableEq, Repr

/-- The capacity reserved for `decoded_target_` while a window is decoded (src/vcdecoder.cc:1102-1107;
the real capacity may be larger). -/
def BodyEnv.reserved (env : BodyEnv) : Nat := env.startPos + env.hdr.targetLen

/-- `CopyBytes` and `RunByte` (src/vcdecoder.cc:1147-1153). Growing past the reserved capacity may
move the buffer while `source_segment_ptr_` and `target_segment_ptr` point into it. -/
def appendTarget (env : BodyEnv) (decoded bytes : Bytes) : Except Fault Bytes :=
  if decoded.length + bytes.length > env.reserved then .error .realloc
  else .ok (decoded ++ bytes)

/-- The bytes `[pos, pos + size)` of a buffer. -/
def readRange (buf : Bytes) (pos size : Nat) : Except Fault Bytes :=
  if pos + size > buf.length then .error .oobRead
  else .ok ((buf.drop pos).take size)

/-- The `while` loop and the final copy of `DecodeCopy` (src/vcdecoder.cc:1221-1229). `address` and
`tbd` (`target_bytes_decoded`) count from the start of the target window. An iteration with
`tbd = address` would make no progress. -/
def copyTarget (env : BodyEnv) : (fuel : Nat) → (decoded : Bytes) → (address tbd size : Nat) →
    Except Fault Bytes
  | 0, _, _, _, _ => .error .diverge
  | fuel + 1, decoded, address, tbd, size =>
    if size > szSub tbd address then do
      let n := szSub tbd address
      let bytes ← readRange decoded (env.startPos + address) n
      let decoded ← appendTarget env decoded bytes
      copyTarget env fuel decoded (address + n) (tbd + n) (size - n)
    else do
      let bytes ← readRange decoded (env.startPos + address) size
      appendTarget env decoded bytes

/-- The copying part of `DecodeCopy` (src/vcdecoder.cc:1202-1230), after the address has been
decoded. Where the source segment is empty and `size` is 0, the code forms `&source_segment_ptr_[0]`
of a null pointer and copies no bytes; this is not counted as a fault. -/
def copyBytes (env : BodyEnv) (decoded : Bytes) (tbd address size : Nat) : Except Fault Bytes :=
  if address + size ≤ env.hdr.srcLen then do
    let bytes ← readRange env.hdr.source address size
    appendTarget env decoded bytes
  else if address < env.hdr.srcLen then do
    let n := env.hdr.srcLen - address
    let bytes ← readRange env.hdr.source address n
    let decoded ← appendTarget env decoded bytes
    copyTarget env (size - n + 1) decoded 0 (tbd + n) (size - n)
  else
    copyTarget env (size + 1) decoded (address - env.hdr.srcLen) tbd size

/-- Result of executing one instruction: the rest of the stream the operand came from, the address
cache and `decoded_target_`; or one of the failure codes. -/
inductive Exec where
  | ok (rest : Bytes) (cache : AddrCache) (decoded : Bytes)
  | endOfData
  | error
  | fault (f : Fault)
  deriving DecidableEq, Repr

/-- Turns the outcome of an append into the result of an instruction. -/
def Exec.ofAppend (rest : Bytes) (cache : AddrCache) : Except Fault Bytes → Exec
  | .ok decoded => .ok rest cache decoded
  | .error f => .fault f

/-- `DecodeAdd` (src/vcdecoder.cc:1155-1163); `operand` is the data section. -/
def decodeAdd (env : BodyEnv) (cache : AddrCache) (decoded operand : Bytes) (size : Nat) : Exec :=
  if size > operand.length then .endOfData
  else .ofAppend (operand.drop size) cache (appendTarget env decoded (operand.take size))

/-- `DecodeRun` (src/vcdecoder.cc:1165-1173). -/
def decodeRun (env : BodyEnv) (cache : AddrCache) (decoded operand : Bytes) (size : Nat) : Exec :=
  match operand with
  | [] => .endOfData
  | b :: rest => .ofAppend rest cache (appendTarget env decoded (List.replicate size b))

/-- `DecodeCopy` (src/vcdecoder.cc:1175-1231); `operand` is the address section. The check of line
1194 can never fire because `DecodeAddress` has made a stronger one (src/addrcache.cc:211-224);
it is left out. -/
def decodeCopy (env : BodyEnv) (cache : AddrCache) (decoded operand : Bytes) (size : Nat)
    (mode : UInt8) : Exec :=
  let tbd := Level.targetBytesDecoded env.startPos decoded
  match cache.decodeAddress (toInt32 (env.hdr.srcLen + tbd)) mode.toNat operand with
  | .error => .error
  | .endOfData => .endOfData
  | .fault f => .fault f
  | .ok address rest cache' => .ofAppend rest cache' (copyBytes env decoded tbd address size)

/-- The `switch (instruction)` of `DecodeBody` (src/vcdecoder.cc:1269-1284), with the streams the
three instructions take their operands from: `instRest` is the instruction stream after the
instruction, which is also the operand stream in the interleaved format. The result is the new
body state without `pending`. -/
def execute (env : BodyEnv) (b : Body) (type : UInt8) (size : Nat) (mode : UInt8)
    (instRest : Bytes) : Exec :=
  let dataStream := if env.hdr.interleaved then instRest else b.data
  let addrStream := if env.hdr.interleaved then instRest else b.addr
  if type = vcdAdd then decodeAdd env b.cache b.decoded dataStream size
  else if type = vcdRun then decodeRun env b.cache b.decoded dataStream size
  else if type = vcdCopy then decodeCopy env b.cache b.decoded addrStream size mode
  else .error

/-- Stores the rest of the operand stream back into the section it came from. -/
def Body.afterExec (env : BodyEnv) (b : Body) (type : UInt8) (instRest : Bytes)
    (pending : Option UInt8) (rest : Bytes) (cache : AddrCache) (decoded : Bytes) : Body :=
  if env.hdr.interleaved then { b with pending, inst := rest, cache, decoded }
  else if type = vcdCopy then { b with pending, inst := instRest, addr := rest, cache, decoded }
  else { b with pending, inst := instRest, data := rest, cache, decoded }

/-- Results of the loop of `DecodeBody` and of `DecodeBody` itself. -/
inductive BodyResult where
  | ok (b : Body)
  | endOfData (b : Body)
  | error
  | fault (f : Fault)
  deriving DecidableEq, Repr

/-- The loop of `DecodeBody` (src/vcdecoder.cc:1241-1295). On `RESULT_END_OF_DATA` from an
instruction, `UnGetInstruction` goes back to the state before it. -/
def bodyLoop (env : BodyEnv) : (fuel : Nat) → Body → BodyResult
  | 0, _ => .fault .diverge
  | fuel + 1, b =>
    let tbd := Level.targetBytesDecoded env.startPos b.decoded
    if tbd < env.hdr.targetLen then
      match getNextInstruction env.table b.pending b.inst with
      | .endOfData rest pending => .endOfData { b with inst := rest, pending := pending }
      | .error => .error
      | .inst type size mode instRest pending =>
        if size > env.hdr.targetLen ∨ size + tbd > env.hdr.targetLen then .error
        else
          match execute env b type size mode instRest with
          | .endOfData => .endOfData b
          | .error => .error
          | .fault f => .fault f
          | .ok rest cache decoded =>
            bodyLoop env fuel (b.afterExec env type instRest pending rest cache decoded)
    else .ok b

/-- `VCDiffDeltaFileWindow::DecodeBody` (src/vcdecoder.cc:1233-1337), except the updates of
`parseable_chunk`, which are made in `decodeWindow`. The check at its beginning (lines 1234-1240)
holds by construction: `decodeWindow` takes the instruction section from the input position. Each
iteration of the loop consumes a pending instruction or a byte. -/
def decodeBody (env : BodyEnv) (b : Body) : BodyResult :=
  match bodyLoop env (2 * b.inst.length + 2) b with
  | .ok b =>
    let window := b.decoded.drop env.startPos
    if Level.targetBytesDecoded env.startPos b.decoded ≠ env.hdr.targetLen then .error
    else if env.hdr.checksum.any fun c => computeAdler32 (window.take env.hdr.targetLen) != c then
      .error
    else if b.inst ≠ [] then .error
    else if env.hdr.interleaved then .ok b
    else if b.data ≠ [] then .error
    else if b.addr ≠ [] then .error
    else .ok b
  | r => r

/-! ## Windows -/

/-- Results of `DecodeWindow`: the decoder members and the rest of the input. -/
inductive WinResult where
  | ok (L : Level) (rest : Bytes)
  | endOfData (L : Level) (rest : Bytes)
  | error
  | fault (f : Fault)
  deriving DecidableEq

/-- The part of `DecodeWindow` after the header is known (src/vcdecoder.cc:1373-1390), with the set-up
of the section pointers (`UpdateInterleavedSectionPointers`, lines 222-233, and lines 1038-1042) and
`UpdateInstructionPointer` (lines 1124-1132). `s` is the input from the start of the window's
sections on. -/
def decodeWindowBody (L : Level) (w : OpenWindow) (cache : AddrCache) (s : Bytes) : WinResult :=
  let env : BodyEnv := { table := L.table, hdr := w.hdr, startPos := L.startPos }
  if w.hdr.interleaved then
    let avail := s.take w.expected
    let b : Body := { pending := w.pending, inst := avail, data := [], addr := [], cache := cache,
                      decoded := L.decoded }
    match decodeBody env b with
    | .fault f => .fault f
    | .error => .error
    | .ok b' =>
      let parsed := avail.length - b'.inst.length
      .ok { L with cache := some b'.cache, decoded := b'.decoded, win := none,
                   startPos := b'.decoded.length } (s.drop parsed)
    | .endOfData b' =>
      let parsed := avail.length - b'.inst.length
      if w.expected - parsed > 0 then  -- MoreDataExpected()
        .endOfData { L with cache := some b'.cache, decoded := b'.decoded,
                            win := some { w with expected := w.expected - parsed,
                                                 pending := b'.pending } } (s.drop parsed)
      else .error
  else
    let data := s.take w.hdr.dataLen
    let inst := (s.drop w.hdr.dataLen).take w.hdr.instLen
    let addr := (s.drop (w.hdr.dataLen + w.hdr.instLen)).take w.hdr.addrLen
    let b : Body := { pending := w.pending, inst, data, addr, cache := cache, decoded := L.decoded }
    match decodeBody env b with
    | .fault f => .fault f
    | .error => .error
    | .endOfData _ => .error  -- !MoreDataExpected()
    | .ok b' =>
      .ok { L with cache := some b'.cache, decoded := b'.decoded, win := none,
                   startPos := b'.decoded.length }
        (s.drop (w.hdr.dataLen + w.hdr.instLen + w.hdr.addrLen))

/-- `VCDiffDeltaFileWindow::DecodeWindow` (src/vcdecoder.cc:1339-1390). `addr_cache_` is non-null
here because `DecodeChunk` has read the file header. -/
def decodeWindow (L : Level) (s : Bytes) : WinResult :=
  match L.win with
  | none =>
    match readHeader L s with
    | .endOfData => .endOfData L s
    | .error => .error
    | .ok hdr rest =>
      match L.cache.bind AddrCache.init with
      | none => .error
      | some cache =>
        decodeWindowBody { L with total := L.total + hdr.targetLen }
          { hdr := hdr, expected := hdr.instLen, pending := none } cache rest
  | some w =>
    if !w.hdr.interleaved then .error
    else
      match L.cache with
      | none => .error
      | some cache => decodeWindowBody L w cache s

/-! ## File header -/

/-- What `ReadDeltaFileHeader` finds: the version byte and, with `VCD_CODETABLE`, the sizes of the
NEAR and SAME caches. -/
structure FileHeader where
  version : UInt8
  caches : Option (Nat × Nat)
  deriving DecidableEq, Repr

/-- The `switch (data_size)` of `ReadDeltaFileHeader` (src/vcdecoder.cc:699-733): `some true` if the
five fixed header bytes are there and acceptable, `some false` for `RESULT_END_OF_DATA`, `none`
for `RESULT_ERROR`. -/
def checkMagic : Bytes → Option Bool
  | [] => some false
  | [h1] => if h1 ≠ 0xD6 then none else some false
  | [h1, h2] => if h2 ≠ 0xC3 ∨ h1 ≠ 0xD6 then none else some false
  | [h1, h2, h3] => if h3 ≠ 0xC4 ∨ h2 ≠ 0xC3 ∨ h1 ≠ 0xD6 then none else some false
  | h1 :: h2 :: h3 :: h4 :: rest =>
    if h4 ≠ 0x00 ∧ h4 ≠ 0x53 then none
    else if h3 ≠ 0xC4 ∨ h2 ≠ 0xC3 ∨ h1 ≠ 0xD6 then none
    else some !rest.isEmpty

/-- `ReadDeltaFileHeader` and the parsing part of `InitCustomCodeTable` (src/vcdecoder.cc:690-781).
`VCD_DECOMPRESS = 1`, `VCD_CODETABLE = 2` (src/vcdiff_defs.h:95-96). `vcdiff_version_code_` is also
assigned when the header is still incomplete; it is assigned again, from the same byte, when the
header is complete, and not used in between. -/
def readFileHeader (s : Bytes) : Parsed FileHeader :=
  match checkMagic s with
  | none => .error
  | some false => .endOfData
  | some true =>
    let version := s.getD 3 0
    let indicator := s.getD 4 0
    if indicator &&& 1 ≠ 0 then .error
    else if indicator &&& 2 ≠ 0 then
      (parseInt32 (s.drop 5)).bind fun near rest =>
      (parseInt32 rest).bind fun same rest =>
        if near > 255 then .error
        else if same > 255 then .error
        else .ok { version, caches := some (near, same) } rest
    else .ok { version, caches := none } (s.drop 5)

/-- The nested decoder set up by `InitCustomCodeTable` (src/vcdecoder.cc:796-804): a new
`VCDiffStreamingDecoderImpl` with the bytes of the default code table as its dictionary. -/
def Level.forCodeTable : Level :=
  { ({} : Level).start defaultTable.toBytes with planned := some codeTableSize }

/-! ## Chunks -/

namespace Level

/-- `IsDecodingComplete` (src/vcdecoder.cc:445-469); `hasNested` is
`custom_code_table_decoder_ != NULL`. -/
def isComplete (L : Level) (hasNested : Bool) : Bool :=
  match L.cache with
  | none => L.unparsed.isEmpty
  | some _ =>
    if hasNested then false
    else if L.win.isSome then false
    else if L.reachedPlanned then true
    else L.unparsed.isEmpty

/-- `AppendNewOutputText` (src/vcdecoder.cc:860-878): the text and the new members. The
`ReserveAdditionalBytes` hint to the output string is in `Model.OutputString`. -/
def appendNewOutput (L : Level) : Level × Bytes :=
  ({ L with outPos := L.decoded.length }, L.decoded.drop L.outPos)

/-- `FlushDecodedTarget` (src/vcdecoder.cc:850-858). -/
def flush (L : Level) : Level × Bytes :=
  ({ L with decoded := [], startPos := 0, outPos := 0 }, L.decoded.drop L.outPos)

end Level

/-- Results of the loop over windows in `DecodeChunk`: the members, the rest of the input and the
text output by `FlushDecodedTarget`. -/
inductive WindowsResult where
  | done (L : Level) (rest : Bytes) (out : Bytes)
  | error (out : Bytes)
  | fault (f : Fault)
  deriving DecidableEq

/-- The loop `while (!parseable_chunk.Empty())` of `DecodeChunk` (src/vcdecoder.cc:900-915). -/
def windowLoop : (fuel : Nat) → Level → Bytes → (out : Bytes) → WindowsResult
  | 0, _, _, _ => .fault .diverge
  | fuel + 1, L, s, out =>
    if s = [] then .done L s out
    else
      match decodeWindow L s with
      | .fault f => .fault f
      | .error => .error out
      | .endOfData L' rest => .done L' rest out
      | .ok L' rest =>
        if L'.reachedPlanned then .done L' rest out
        else if !L'.allowTarget then
          windowLoop fuel L'.flush.1 rest (out ++ L'.flush.2)
        else windowLoop fuel L' rest out

/-- Results of `DecodeChunk`: `true` or `false`, the members afterwards and the text output. -/
inductive ChunkResult where
  | ok (L : Level) (nested : List Level) (out : Bytes)
  | error (L : Level) (out : Bytes)
  | fault (f : Fault)
  deriving DecidableEq

/-- The end of `DecodeChunk` without an error (src/vcdecoder.cc:921-924). -/
def endChunk (L : Level) (nested : List Level) (rest out : Bytes) : ChunkResult :=
  let (L', text) := ({ L with unparsed := rest } : Level).appendNewOutput
  .ok L' nested (out ++ text)

/-- `DecodeChunk` from the loop over windows on (src/vcdecoder.cc:899-924). The loop may run once
for a resumed window and then takes at least one byte per iteration. After an error, the stale
`unparsed_bytes_` and `decoded_target_` are dropped here; the code clears them in `StartDecoding`
before looking at them again. -/
def decodeChunkWindows (L : Level) (s : Bytes) : ChunkResult :=
  match windowLoop (s.length + 2) L s [] with
  | .fault f => .fault f
  | .error out => .error ({ L with unparsed := [], decoded := [] } : Level).reset out
  | .done L' rest out => endChunk L' [] rest out

/-- The part of `ReadCustomCodeTable` after the nested `DecodeChunk` has succeeded
(src/vcdecoder.cc:824-847), and the rest of `DecodeChunk`. `n`, `ns` is the nested decoder, `text`
what it has output, `s` the input that was passed to it. `UseCodeTable` leaves the reader's table
alone if the new table is not valid; its result is ignored (line 846).  -/
def afterCodeTableChunk (L : Level) (n : Level) (ns : List Level) (s text : Bytes) : ChunkResult :=
  let str := L.tableString ++ text
  let fail (L : Level) : ChunkResult :=
    .error ({ L with unparsed := [], decoded := [], tableString := str } : Level).reset []
  if str.length < codeTableSize then
    endChunk { L with tableString := str } (n :: ns) [] []
  else if !n.isComplete (!ns.isEmpty) then fail L
  else if h : str.length = codeTableSize then
    if n.unparsed.length > s.length then .fault .assertion
    else
      let rest := s.drop (s.length - n.unparsed.length)
      let t := CodeTable.ofBytes str h
      let maxMode := (L.cache.map AddrCache.lastMode).getD 0
      decodeChunkWindows
        { L with tableString := [], table := if t.validate maxMode then t else L.table } rest
  else fail L

/-- `VCDiffStreamingDecoderImpl::DecodeChunk` (src/vcdecoder.cc:880-925), with
`ReadCustomCodeTable` (lines 808-848). `fuel` bounds the nesting depth of decoders. -/
def decodeChunkFuel : (fuel : Nat) → Level → List Level → (data : Bytes) → ChunkResult
  | 0, _, _, _ => .fault .diverge
  | fuel + 1, L, nested, data =>
    if !L.started then .error L.reset []
    else
      let s := L.unparsed ++ data
      let fail (L : Level) : ChunkResult :=
        .error ({ L with unparsed := [], decoded := [] } : Level).reset []
      let readCustomCodeTable (L : Level) (nested : List Level) (s : Bytes) : ChunkResult :=
        match nested with
        | [] => decodeChunkWindows L s
        | n :: ns =>
          match decodeChunkFuel fuel n ns s with
          | .fault f => .fault f
          | .error _ _ => fail L
          | .ok n' ns' text => afterCodeTableChunk L n' ns' s text
      match L.cache with
      | some _ => readCustomCodeTable L nested s
      | none =>
        match readFileHeader s with
        | .error => fail L
        | .endOfData => endChunk L nested s []
        | .ok hdr rest =>
          match hdr.caches with
          | none =>
            readCustomCodeTable
              { L with version := hdr.version, cache := some AddrCache.newDefault } nested rest
          | some (near, same) =>
            readCustomCodeTable
              { L with version := hdr.version, cache := some (AddrCache.new near same),
                       tableString := [] } [Level.forCodeTable] rest

namespace Decoder

/-- A bound on the nesting depth that one call of `DecodeChunk` can reach: the levels that exist
plus one for every byte that can be part of a further file header. -/
def depthBound (d : Decoder) (data : Bytes) : Nat :=
  ((d.top :: d.nested).map fun L => L.unparsed.length + 1).sum + data.length + 1

/-- `VCDiffStreamingDecoder::DecodeChunk` (src/vcdecoder.cc:1403-1408). -/
def decodeChunk (d : Decoder) (data : Bytes) : ChunkResult :=
  decodeChunkFuel (d.depthBound data) d.top d.nested data

/-- `VCDiffStreamingDecoder::StartDecoding` (src/vcdecoder.cc:1399-1401). `Reset` deletes the
nested decoder, but not when the call is refused. -/
def start (d : Decoder) (dict : Bytes) : Decoder :=
  if d.top.started then d else { top := d.top.start dict, nested := [] }

/-- `VCDiffStreamingDecoder::FinishDecoding` (src/vcdecoder.cc:929-944, 1410-1412). -/
def finish (d : Decoder) : Bool × Decoder :=
  (d.top.started && d.top.isComplete (!d.nested.isEmpty), { top := d.top.reset, nested := [] })

/-- `SetMaximumTargetFileSize` (src/vcdecoder.cc:378-381). -/
def setMaxFile (d : Decoder) (n : Nat) : Bool × Decoder :=
  (true, { d with top := { d.top with maxFile := n } })

/-- `SetMaximumTargetWindowSize` (src/vcdecoder.cc:383-392). -/
def setMaxWin (d : Decoder) (n : Nat) : Bool × Decoder :=
  if n > targetSizeLimit then (false, d)
  else (true, { d with top := { d.top with maxWin := n } })

/-- `SetAllowVcdTarget` (src/vcdecoder.cc:481-488). -/
def setAllowTarget (d : Decoder) (b : Bool) : Decoder :=
  if d.top.started then d else { d with top := { d.top with allowTarget := b } }

end Decoder

/-! ## API -/

/-- A call of a public method of `VCDiffStreamingDecoder` (src/google/vcdecoder.h). -/
inductive DecoderCall where
  | start (dict : Bytes)
  | chunk (data : Bytes)
  | finish
  | setMaxFile (n : Nat)
  | setMaxWin (n : Nat)
  | setAllowTarget (b : Bool)
  deriving DecidableEq, Repr

/-- What the caller sees of a call: the returned value (`true` for the `void` methods) and the bytes
appended to the output string. -/
structure DecoderReply where
  ret : Bool
  out : Bytes
  deriving DecidableEq, Repr

/-- One API call. -/
def Decoder.call (d : Decoder) : DecoderCall → Except Fault (DecoderReply × Decoder)
  | .start dict => .ok (⟨true, []⟩, d.start dict)
  | .chunk data =>
    match d.decodeChunk data with
    | .ok L nested out => .ok (⟨true, out⟩, { top := L, nested := nested })
    | .error L out => .ok (⟨false, out⟩, { top := L, nested := [] })
    | .fault f => .error f
  | .finish => .ok (⟨d.finish.1, []⟩, d.finish.2)
  | .setMaxFile n => .ok (⟨(d.setMaxFile n).1, []⟩, (d.setMaxFile n).2)
  | .setMaxWin n => .ok (⟨(d.setMaxWin n).1, []⟩, (d.setMaxWin n).2)
  | .setAllowTarget b => .ok (⟨true, []⟩, d.setAllowTarget b)

/-- A sequence of API calls: the replies and the final state, or the first fault. -/
def Decoder.calls (d : Decoder) : List DecoderCall → Except Fault (List DecoderReply × Decoder)
  | [] => .ok ([], d)
  | c :: cs =>
    match d.call c with
    | .error f => .error f
    | .ok (r, d') =>
      match d'.calls cs with
      | .error f => .error f
      | .ok (rs, d'') => .ok (r :: rs, d'')

/-- Feeding a list of chunks to a started decoder: the concatenated output and the final state if
every `DecodeChunk` returns `true`. -/
def Decoder.feed (d : Decoder) : List Bytes → Option (Bytes × Decoder)
  | [] => some ([], d)
  | c :: cs =>
    match d.decodeChunk c with
    | .ok L nested out =>
      match Decoder.feed { top := L, nested := nested } cs with
      | some (outs, d') => some (out ++ outs, d')
      | none => none
    | _ => none

/-- A complete decode: `StartDecoding(dict)`, `DecodeChunk` for each chunk, `FinishDecoding()`; the
output if every call returns `true`. -/
def Decoder.decode (d : Decoder) (dict : Bytes) (chunks : List Bytes) : Option Bytes :=
  match (d.start dict).feed chunks with
  | some (out, d') => if d'.finish.1 then some out else none
  | none => none

/-- `VCDiffDecoder::Decode` (src/vcdecoder.cc:1428-1440): the whole delta in one chunk. -/
def vcdiffDecode (dict delta : Bytes) : Option Bytes := ({} : Decoder).decode dict [delta]

end Vcd

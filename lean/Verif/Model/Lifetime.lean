import Verif.Model.Decoder

/-!
# The decoder with its pointers (src/vcdecoder.cc, src/headerparser.h, src/headerparser.cc, src/decodetable.h, src/decodetable.cc)

In `Model.Decoder` the functions of the decoder are given the bytes they read. In the program they
are given pointers: into the data that the caller passes to `DecodeChunk`, into the dictionary of the
caller, and into strings of the decoder, which are moved in memory when they grow. Some of the pointers
are members, which remain when the call in which they were set returns. The `ParseableChunk` objects which
hold the positions in the sections of a window are allocated with `new`, are shared by sections, and
have to be deleted. Here is the decoder once more with all of these, and with the question, at each
access, whether what is accessed still exists.

What the functions compute from the bytes that they find is taken from `Model.Decoder` and the files it
imports.
-/

namespace Vcd.Lifetime

/-! ## Memory -/

/-- A piece of memory that a `const char*` of a decoder can point into: the dictionary
(`StartDecoding`, src/vcdecoder.cc:651-664), the `data` of a call of `DecodeChunk` (src/vcdecoder.cc:880-895),
and the buffers of `unparsed_bytes_` and `decoded_target_` (src/vcdecoder.cc:535-545). Calls are numbered, and so
are the buffers that a string has had. -/
inductive Buf where
  | dict
  | input (call : Nat)
  | unparsed (version : Nat)
  | decoded (version : Nat)
  deriving DecidableEq, Repr

/-- A `const char*` that is not `NULL` (e.g. src/headerparser.h:84-90). -/
structure Ptr where
  buf : Buf
  off : Nat
  deriving DecidableEq, Repr

/-- What a program must never do with memory:

* `dead`: access a piece of memory that does not exist any more, or an object that has been deleted, or delete
  it again, or use `NULL`;
* `outside`: read outside of a piece of memory;
* `unrelated`: compare or subtract pointers into different pieces of memory;
* `leak`: give up the last pointer to an object that has not been deleted (src/headerparser.h:170-177);
* `fault`: one of the faults of `Model.Decoder`. -/
inductive Bad where
  | dead
  | outside
  | unrelated
  | leak
  | fault (f : Fault)
  deriving DecidableEq, Repr

/-- A `std::string` that has pointers into it (src/vcdecoder.cc:535-545): its text, the number of its buffer, and
`capacity()`. Simplification: the capacity is as small as it may be; with more, pointers remain valid longer. -/
structure Str where
  text : Bytes := []
  version : Nat := 0
  capacity : Nat := 0
  deriving DecidableEq, Repr

/-- `append` (src/vcdecoder.cc:1147-1153): pointers remain valid if the capacity is sufficient. -/
def Str.append (s : Str) (bytes : Bytes) : Str :=
  if s.text.length + bytes.length ≤ s.capacity then { s with text := s.text ++ bytes }
  else { text := s.text ++ bytes, version := s.version + 1, capacity := s.text.length + bytes.length }

/-- The conditional `reserve` in `ReadHeader` (src/vcdecoder.cc:1105-1107). -/
def Str.reserve (s : Str) (wanted : Nat) : Str :=
  if s.capacity < wanted then { s with version := s.version + 1, capacity := wanted } else s

/-- `assign` (src/vcdecoder.cc:921-922) and `clear` (src/vcdecoder.cc:658-659, 855), which invalidate pointers. The
bytes may have come from the string itself. -/
def Str.assign (s : Str) (bytes : Bytes) : Str :=
  { text := bytes, version := s.version + 1, capacity := bytes.length }

/-- A `ParseableChunk` (src/headerparser.h:28-94): `start_`, `end_`, `position_`. -/
structure Chunk where
  start : Ptr
  stop : Ptr
  pos : Ptr
  deriving DecidableEq, Repr

/-- The memory that one `VCDiffStreamingDecoderImpl` has pointers into: the dictionary, while the decoder may use
it (`none` after `Reset`, src/vcdecoder.cc:637-649: from then on the caller may have freed it); the number of calls
of `DecodeChunk` so far; the data of the current call (`none` between calls: the caller may have freed it);
the two strings; and the `ParseableChunk` objects that have been allocated, `none` if they have been deleted. -/
structure Mem where
  dict : Option Bytes := none
  call : Nat := 0
  input : Option Bytes := none
  unparsed : Str := {}
  decoded : Str := {}
  objects : List (Option Chunk) := []
  deriving DecidableEq, Repr

/-- The contents of a piece of memory, if it exists (src/vcdecoder.cc:532-545, 880-895). -/
def Mem.block (m : Mem) : Buf → Option Bytes
  | .dict => m.dict
  | .input call => if call = m.call then m.input else none
  | .unparsed version => if version = m.unparsed.version then some m.unparsed.text else none
  | .decoded version => if version = m.decoded.version then some m.decoded.text else none

/-- Reading `n` bytes from `p` on (e.g. src/vcdecoder.cc:1160). -/
def Mem.read (m : Mem) (p : Ptr) (n : Nat) : Except Bad Bytes :=
  match m.block p.buf with
  | none => .error .dead
  | some b => if p.off + n > b.length then .error .outside else .ok ((b.drop p.off).take n)

/-- `p + n` (e.g. src/headerparser.h:81). -/
def Ptr.add (p : Ptr) (n : Nat) : Ptr := { p with off := p.off + n }

/-- `e - p` as a `size_t` (e.g. src/headerparser.h:40). -/
def Ptr.diff (e p : Ptr) : Except Bad Nat :=
  if e.buf = p.buf then .ok (szSub e.off p.off) else .error .unrelated

/-- The bytes from `p` up to `e`, for functions that parse what is between two pointers
(src/varint_bigendian.h:77-93, src/headerparser.h:197, src/addrcache.h:176-179). Simplification: all of them
have to exist, even if some are not read. -/
def Mem.view (m : Mem) (p e : Ptr) : Except Bad Bytes := do
  let n ← e.diff p
  m.read p n

namespace Chunk

/-- `SetDataBuffer` (src/headerparser.h:79-83) and the constructor (src/headerparser.h:30-32). -/
def over (start : Ptr) (size : Nat) : Chunk := { start, stop := start.add size, pos := start }

/-- `UnparsedSize` (src/headerparser.h:39-41). -/
def unparsedSize (c : Chunk) : Except Bad Nat := c.stop.diff c.pos

/-- `ParsedSize` (src/headerparser.h:44-46). -/
def parsedSize (c : Chunk) : Except Bad Nat := c.pos.diff c.start

/-- `Advance` (src/headerparser.cc:40-49); the `VCD_DFATAL` is a fault. -/
def advance (c : Chunk) (n : Nat) : Except Bad Chunk := do
  let size ← c.unparsedSize
  if n > size then .error (.fault .assertion) else .ok { c with pos := c.pos.add n }

/-- `SetPosition` (src/headerparser.cc:51-65), with faults as above. -/
def setPosition (c : Chunk) (p : Ptr) : Except Bad Chunk :=
  if p.buf ≠ c.start.buf ∨ p.buf ≠ c.stop.buf then .error .unrelated
  else if p.off < c.start.off ∨ p.off > c.stop.off then .error (.fault .assertion)
  else .ok { c with pos := p }

/-- `FinishExcept` (src/headerparser.cc:67-76), with faults as above. -/
def finishExcept (c : Chunk) (n : Nat) : Except Bad Chunk := do
  let size ← c.unparsedSize
  if n > size then .error (.fault .assertion) else .ok { c with pos := { c.stop with off := c.stop.off - n } }

end Chunk

/-- Access to a `ParseableChunk` through a pointer (e.g. src/headerparser.h:138-168). -/
def Mem.get (m : Mem) (p : Option Nat) : Except Bad Chunk :=
  match p with
  | none => .error .dead
  | some i =>
    match m.objects[i]? with
    | some (some c) => .ok c
    | _ => .error .dead

/-- Assigning to a `ParseableChunk` (e.g. src/headerparser.h:116). -/
def Mem.put (m : Mem) (i : Nat) (c : Chunk) : Mem := { m with objects := m.objects.set i (some c) }

/-- `new ParseableChunk` (src/headerparser.h:118). -/
def Mem.new (m : Mem) (c : Chunk) : Mem := { m with objects := m.objects ++ [some c] }

/-- `delete parseable_chunk_` (src/headerparser.h:172); deleting `NULL` does nothing. -/
def Mem.delete (m : Mem) (p : Option Nat) : Except Bad Mem :=
  match p with
  | none => .ok m
  | some i =>
    match m.objects[i]? with
    | some (some _) => .ok { m with objects := m.objects.set i none }
    | _ => .error .dead

/-! ## Sections -/

/-- A `DeltaWindowSection` (src/headerparser.h:108-193): `parseable_chunk_` and `owned_`. -/
structure Section where
  chunk : Option Nat := none
  owned : Bool := true
  deriving DecidableEq, Repr

namespace Section

/-- `FreeChunk` (src/headerparser.h:170-175) and `Invalidate` (line 131). -/
def free (s : Section) (m : Mem) : Except Bad (Mem × Section) := do
  let m ← if s.owned then m.delete s.chunk else .ok m
  .ok (m, { s with chunk := none })

/-- `Init(const char*, size_t)` (src/headerparser.h:116-124). -/
def init (s : Section) (m : Mem) (start : Ptr) (size : Nat) : Except Bad (Mem × Section) :=
  match s.owned, s.chunk with
  | true, some i => do
    let _ ← m.get (some i)
    .ok (m.put i (.over start size), s)
  | _, _ => .ok (m.new (.over start size), { chunk := some m.objects.length, owned := true })

/-- `Init(DeltaWindowSection*)` (src/headerparser.h:126-130). -/
def share (s : Section) (m : Mem) (original : Section) : Except Bad (Mem × Section) := do
  let (m, _) ← s.free m
  .ok (m, { chunk := original.chunk, owned := false })

/-- `Advance` (src/headerparser.h:166-168). -/
def advance (s : Section) (m : Mem) (n : Nat) : Except Bad Mem :=
  match s.chunk with
  | none => .error .dead
  | some i => do
    let c ← m.get (some i)
    let c ← c.advance n
    .ok (m.put i c)

end Section

/-! ## Reading instructions -/

/-- A `VCDiffCodeTableReader` (src/decodetable.h:124-146): `code_table_data_`; the `ParseableChunk` into which
`instructions_and_sizes_` points (to its `position_`) and `instructions_and_sizes_end_`, both `NULL` before `Init`;
`last_instruction_start_`; `pending_second_instruction_`; `last_pending_second_instruction_`. The tables
that `code_table_data_` can point to exist as long as the reader (src/decodetable.cc:37-45). -/
structure Reader where
  table : CodeTable := defaultTable
  position : Option (Nat × Ptr) := none
  lastStart : Option Ptr := none
  pending : Option UInt8 := none
  lastPending : Option UInt8 := none
  deriving DecidableEq

namespace Reader

/-- `Init` (src/decodetable.h:58-65). -/
def init (r : Reader) (i : Nat) (stop : Ptr) : Reader :=
  { r with position := some (i, stop), lastStart := none, pending := none, lastPending := none }

/-- `UpdatePointers` (src/decodetable.h:73-81). -/
def update (r : Reader) (m : Mem) (i : Nat) (stop : Ptr) : Except Bad Reader := do
  let c ← m.get (some i)
  .ok { r with position := some (i, stop), lastStart := some c.pos, lastPending := r.pending }

/-- `UnGetInstruction` (src/decodetable.h:108-122). The first `VCD_DFATAL` compares two pointers; that neither
applies is said in `Model.DecodeTable`. -/
def unget (r : Reader) (m : Mem) : Except Bad (Mem × Reader) :=
  match r.lastStart with
  | none => .ok (m, r)
  | some p =>
    match r.position with
    | none => .error .dead
    | some (i, _) => do
      let c ← m.get (some i)
      let _ ← c.pos.diff p
      .ok (m.put i { c with pos := p }, { r with pending := r.lastPending })

/-- What `GetNextInstruction` returns (src/decodetable.cc:47-110): type, size and mode of an instruction,
`VCD_INSTRUCTION_END_OF_DATA`, or `VCD_INSTRUCTION_ERROR`. -/
inductive Next where
  | inst (type : UInt8) (size : Nat) (mode : UInt8)
  | endOfData
  | error
  deriving DecidableEq, Repr

/-- `GetNextInstruction` (src/decodetable.cc:47-110). -/
def next (r : Reader) (m : Mem) : Except Bad (Next × Mem × Reader) :=
  match r.position with
  | none => .ok (.error, m, r)
  | some (i, stop) => do
    let c ← m.get (some i)
    let r : Reader := { r with lastStart := some c.pos, lastPending := r.pending }
    let s ← m.view c.pos stop
    match fetchHalf r.table s r.pending with
    | none => .ok (.endOfData, m.put i { c with pos := c.pos.add s.length }, { r with pending := none })
    | some (h, pending, s') =>
      let c : Chunk := { c with pos := c.pos.add (s.length - s'.length) }
      let r : Reader := { r with pending := pending }
      if h.size = 0 then
        match parseVarint32 s' with
        | .error => .ok (.error, m.put i c, r)
        | .endOfData => do
          let (m, r) ← r.unget (m.put i c)
          .ok (.endOfData, m, r)
        | .ok size rest =>
          .ok (.inst h.inst size h.mode, m.put i { c with pos := c.pos.add (s'.length - rest.length) }, r)
      else .ok (.inst h.inst h.size.toNat h.mode, m.put i c, r)

end Reader

/-! ## Windows -/

/-- A `VCDiffDeltaFileWindow` (src/vcdecoder.cc:254-302): `found_header_`, `source_segment_ptr_`,
`source_segment_length_`, the three sections, `interleaved_bytes_expected_`, `target_window_length_`,
`target_window_start_pos_`, `has_checksum_` with `expected_checksum_`, and `reader_`. -/
structure Window where
  found : Bool := false
  source : Option Ptr := none
  sourceLen : Nat := 0
  inst : Section := {}
  data : Section := {}
  addr : Section := {}
  expected : Int := 0
  targetLen : Nat := 0
  startPos : Nat := 0
  checksum : Option Nat := none
  reader : Reader := {}
  deriving DecidableEq

/-- The members of one `VCDiffStreamingDecoderImpl` (src/vcdecoder.cc:530-614), as in `Vcd.Level`, except
`custom_code_table_decoder_`. -/
structure Level where
  mem : Mem := {}
  window : Window := {}
  started : Bool := false
  dictSize : Nat := 0
  version : UInt8 := 0
  planned : Option Nat := none
  maxFile : Nat := defaultMaximumTargetFileSize
  maxWin : Nat := defaultMaximumTargetFileSize
  total : Nat := 0
  cache : Option AddrCache := none
  allowTarget : Bool := true
  outPos : Nat := 0
  tableString : Bytes := []
  deriving DecidableEq

/-- The members that are numbers and flags, for `AllowInterleaved`, `TargetWindowWouldExceedSizeLimits` and
`ReachedPlannedTargetFileSize` (src/vcdecoder.cc:364, 408-425, 946-984). -/
def Level.numbers (L : Level) : Vcd.Level :=
  { started := L.started, version := L.version, planned := L.planned, maxFile := L.maxFile, maxWin := L.maxWin,
    total := L.total, cache := L.cache, allowTarget := L.allowTarget, outPos := L.outPos }

/-- `VCDiffDeltaFileWindow::Reset` (src/vcdecoder.cc:988-1006). -/
def Window.reset (w : Window) (m : Mem) : Except Bad (Mem × Window) := do
  let (m, inst) ← w.inst.free m
  let (m, data) ← w.data.free m
  let (m, addr) ← w.addr.free m
  .ok (m, { inst, data, addr, startPos := m.decoded.text.length, reader := w.reader })

namespace Level

/-- `IsInterleaved` (src/vcdecoder.cc:240-244). -/
def isInterleaved (L : Level) : Bool := !L.window.addr.owned

/-- `TargetBytesDecoded` (src/vcdecoder.cc:1134-1136). -/
def targetBytesDecoded (L : Level) : Nat := szSub L.mem.decoded.text.length L.window.startPos

/-- `UpdateInterleavedSectionPointers` (src/vcdecoder.cc:222-233). -/
def updateInterleaved (L : Level) (dataPos dataEnd : Ptr) : Except Bad Level := do
  let available ← dataEnd.diff dataPos
  let size := if (available : Int) > L.window.expected then L.window.expected.toNat else available
  let (m, inst) ← L.window.inst.init L.mem dataPos size
  let (m, data) ← L.window.data.share m inst
  let (m, addr) ← L.window.addr.share m inst
  .ok { L with mem := m, window := { L.window with inst, data, addr } }

/-- `UpdateInstructionPointer` (src/vcdecoder.cc:1124-1132). The number of bytes parsed is at most the number of
bytes expected, so that its conversion to `int` is exact. -/
def updateInstructionPointer (L : Level) (chunk : Chunk) : Except Bad (Level × Chunk) :=
  if L.isInterleaved then do
    let c ← L.mem.get L.window.inst.chunk
    let parsed ← c.parsedSize
    let chunk ← chunk.advance parsed
    .ok ({ L with window := { L.window with expected := L.window.expected - parsed } }, chunk)
  else .ok (L, chunk)

end Level

/-- What is in a window header up to the lengths of the sections (`ReadHeader`, src/vcdecoder.cc:1073-1098, and
`ParseSectionLengths` in `SetUpWindowSections`, lines 1010-1020). -/
structure Fields where
  indicator : UInt8
  sourceLen : Nat
  sourcePos : Nat
  targetLen : Nat
  lens : SectionLengths
  deriving DecidableEq, Repr

/-- Parsing a window header (src/vcdecoder.cc:1073-1098, 1010-1020), for the members of a decoder, the size of the
dictionary and of the decoded target. Members that are assigned before the header turns out to be incomplete
are assigned again when it is parsed again; they are left out. -/
def headerFields (L : Vcd.Level) (dictSize decodedSize : Nat) (s : Bytes) : Parsed Fields :=
  (parseWinIndicator dictSize decodedSize L.allowTarget s).bind fun isp s =>
    let hasChecksum := L.allowExtensions && (isp.1 &&& vcdChecksum != 0)
    (parseSize s).bind fun deltaLen deltaStart =>
    (parseSize deltaStart).bind fun targetLen s =>
      if L.wouldExceed targetLen then .error
      else
        (parseDeltaIndicator s).bind fun _ s =>
        (parseSectionLengths hasChecksum deltaLen deltaStart s).bind fun lens s =>
          .ok { indicator := isp.1, sourceLen := isp.2.1, sourcePos := isp.2.2, targetLen := targetLen, lens := lens } s

/-- `RESULT_SUCCESS`, `RESULT_END_OF_DATA`, `RESULT_ERROR` (src/vcdiff_defs.h:80-90). -/
inductive Outcome where
  | ok
  | endOfData
  | error
  deriving DecidableEq, Repr

namespace Level

/-- `SetUpWindowSections` after the lengths have been parsed (src/vcdecoder.cc:1021-1052), up to
`reader_.Init`; `rest` is `header_parser->UnparsedData()`, `size` its `UnparsedSize()`, `stop` its `End()`; `none` for
`RESULT_END_OF_DATA`. The comparison with `EndOfDeltaWindow()` (line 1043) is left out, as in `Vcd.readHeader`. -/
def setUpSections (L : Level) (lens : SectionLengths) (rest stop : Ptr) (size : Nat) : Except Bad (Option Level) := do
  let ready ← (
    if L.numbers.allowExtensions && lens.dataLen == 0 && lens.addrLen == 0 then do
      let L ← ({ L with window := { L.window with expected := lens.instLen } } : Level).updateInterleaved rest stop
      .ok (some L)
    else if size < lens.dataLen + lens.instLen + lens.addrLen then .ok none
    else do
      let (m, data) ← L.window.data.init L.mem rest lens.dataLen
      let c ← m.get data.chunk
      let (m, inst) ← L.window.inst.init m c.stop lens.instLen
      let c ← m.get inst.chunk
      let (m, addr) ← L.window.addr.init m c.stop lens.addrLen
      .ok (some { L with mem := m, window := { L.window with inst, data, addr } }) : Except Bad (Option Level))
  match ready with
  | none => .ok none
  | some L =>
    match L.window.inst.chunk with
    | none => .error .dead
    | some i => do
      let c ← L.mem.get (some i)
      .ok (some { L with window := { L.window with reader := L.window.reader.init i c.stop } })

/-- `ReadHeader` (src/vcdecoder.cc:1073-1122). -/
def readHeader (L : Level) (chunk : Chunk) : Except Bad (Outcome × Level × Chunk) := do
  let s ← L.mem.view chunk.pos chunk.stop
  match headerFields L.numbers L.dictSize L.mem.decoded.text.length s with
  | .error => .ok (.error, L, chunk)
  | .endOfData => .ok (.endOfData, L, chunk)
  | .ok f rest => do
    let parsed := s.length - rest.length
    match ← L.setUpSections f.lens (chunk.pos.add parsed) chunk.stop rest.length with
    | none => .ok (.endOfData, L, chunk)
    | some L =>
      let decoded := L.mem.decoded.reserve (L.window.startPos + f.targetLen)
      let source :=
        if f.indicator &&& vcdSource ≠ 0 then some ⟨.dict, f.sourcePos⟩
        else if f.indicator &&& vcdTarget ≠ 0 then some ⟨.decoded decoded.version, f.sourcePos⟩
        else L.window.source
      let chunk ← chunk.advance parsed
      .ok (.ok, { L with
        mem := { L.mem with decoded }
        total := L.total + f.targetLen
        window := { L.window with
          found := true, source, sourceLen := f.sourceLen, targetLen := f.targetLen, checksum := f.lens.checksum } },
        chunk)

/-! ### Instructions -/

/-- `CopyBytes` and `RunByte` (src/vcdecoder.cc:1147-1153). -/
def append (L : Level) (bytes : Bytes) : Level :=
  { L with mem := { L.mem with decoded := L.mem.decoded.append bytes } }

/-- `CopyBytes(&source_segment_ptr_[address], size)` (src/vcdecoder.cc:1205, 1212). Copying 0 bytes from a null pointer is
not counted as a fault. -/
def copySource (L : Level) (address size : Nat) : Except Bad Level :=
  match L.window.source with
  | none => if address = 0 ∧ size = 0 then .ok (L.append []) else .error .dead
  | some p => do
    let bytes ← L.mem.read (p.add address) size
    .ok (L.append bytes)

/-- The `while` loop and the final copy of `DecodeCopy` (src/vcdecoder.cc:1221-1229); `p` is `target_segment_ptr`. -/
def copyTarget (p : Ptr) : (fuel : Nat) → (L : Level) → (address tbd size : Nat) → Except Bad Level
  | 0, _, _, _, _ => .error (.fault .diverge)
  | fuel + 1, L, address, tbd, size =>
    if size > szSub tbd address then do
      let n := szSub tbd address
      let bytes ← L.mem.read (p.add address) n
      copyTarget p fuel (L.append bytes) (address + n) (tbd + n) (size - n)
    else do
      let bytes ← L.mem.read (p.add address) size
      .ok (L.append bytes)

/-- `target_segment_ptr` (src/vcdecoder.cc:1219-1220). -/
def targetSegment (L : Level) : Ptr := ⟨.decoded L.mem.decoded.version, L.window.startPos⟩

/-- The copying part of `DecodeCopy` (src/vcdecoder.cc:1202-1230). -/
def copyBytes (L : Level) (tbd address size : Nat) : Except Bad Level :=
  if address + size ≤ L.window.sourceLen then L.copySource address size
  else if address < L.window.sourceLen then do
    let n := L.window.sourceLen - address
    let L ← L.copySource address n
    copyTarget L.targetSegment (size - n + 1) L 0 (tbd + n) (size - n)
  else
    copyTarget L.targetSegment (size + 1) L (address - L.window.sourceLen) tbd size

/-- `DecodeAdd` (src/vcdecoder.cc:1155-1163). -/
def decodeAdd (L : Level) (size : Nat) : Except Bad (Outcome × Level) := do
  let c ← L.mem.get L.window.data.chunk
  let available ← c.unparsedSize
  if size > available then .ok (.endOfData, L)
  else do
    let bytes ← L.mem.read c.pos size
    let L := L.append bytes
    let m ← L.window.data.advance L.mem size
    .ok (.ok, { L with mem := m })

/-- `DecodeRun` (src/vcdecoder.cc:1165-1173). -/
def decodeRun (L : Level) (size : Nat) : Except Bad (Outcome × Level) := do
  let c ← L.mem.get L.window.data.chunk
  let available ← c.unparsedSize
  if available = 0 then .ok (.endOfData, L)
  else do
    let byte ← L.mem.read c.pos 1
    let L := L.append (List.replicate size (byte.headD 0))
    let m ← L.window.data.advance L.mem 1
    .ok (.ok, { L with mem := m })

/-- `DecodeCopy` (src/vcdecoder.cc:1175-1231), with the simplification of `Vcd.decodeCopy`. `addr_cache_` is not null
here, because `DecodeChunk` has read the file header. -/
def decodeCopy (L : Level) (size : Nat) (mode : UInt8) : Except Bad (Outcome × Level) :=
  match L.cache, L.window.addr.chunk with
  | some cache, some i => do
    let tbd := L.targetBytesDecoded
    let c ← L.mem.get (some i)
    let s ← L.mem.view c.pos c.stop
    match cache.decodeAddress (toInt32 (L.window.sourceLen + tbd)) mode.toNat s with
    | .error => .ok (.error, L)
    | .endOfData => .ok (.endOfData, L)
    | .fault f => .error (.fault f)
    | .ok address rest cache =>
      let L := { L with cache := some cache, mem := L.mem.put i { c with pos := c.pos.add (s.length - rest.length) } }
      do
        let L ← L.copyBytes tbd address size
        .ok (.ok, L)
  | _, _ => .error .dead

/-- The `switch (instruction)` of `DecodeBody` (src/vcdecoder.cc:1269-1284). -/
def execute (L : Level) (type : UInt8) (size : Nat) (mode : UInt8) : Except Bad (Outcome × Level) :=
  if type = vcdAdd then L.decodeAdd size
  else if type = vcdRun then L.decodeRun size
  else if type = vcdCopy then L.decodeCopy size mode
  else .ok (.error, L)

/-- The end of `DecodeBody` with `RESULT_END_OF_DATA` (src/vcdecoder.cc:1249-1250, 1287-1288). -/
def stopBody (L : Level) (chunk : Chunk) : Except Bad (Outcome × Level × Chunk) := do
  let (L, chunk) ← L.updateInstructionPointer chunk
  .ok (.endOfData, L, chunk)

/-- The loop of `DecodeBody` (src/vcdecoder.cc:1241-1295). -/
def bodyLoop : (fuel : Nat) → Level → Chunk → Except Bad (Outcome × Level × Chunk)
  | 0, _, _ => .error (.fault .diverge)
  | fuel + 1, L, chunk =>
    if L.targetBytesDecoded < L.window.targetLen then do
      let (next, m, reader) ← L.window.reader.next L.mem
      let L := { L with mem := m, window := { L.window with reader } }
      match next with
      | .endOfData => L.stopBody chunk
      | .error => .ok (.error, L, chunk)
      | .inst type size mode =>
        if size > L.window.targetLen ∨ size + L.targetBytesDecoded > L.window.targetLen then .ok (.error, L, chunk)
        else do
          let (result, L) ← L.execute type size mode
          match result with
          | .endOfData => do
            let (m, reader) ← L.window.reader.unget L.mem
            ({ L with mem := m, window := { L.window with reader } } : Level).stopBody chunk
          | .error => .ok (.error, L, chunk)
          | .ok => bodyLoop fuel L chunk
    else .ok (.ok, L, chunk)

/-- The comparison of checksums in `DecodeBody` (src/vcdecoder.cc:1302-1310). -/
def checksumWrong (L : Level) : Except Bad Bool :=
  match L.window.checksum with
  | none => .ok false
  | some c => do
    let window ← L.mem.read L.targetSegment L.window.targetLen
    .ok (computeAdler32 window != c)

/-- `DecodeBody` after its loop (src/vcdecoder.cc:1296-1336). -/
def finishBody (L : Level) (chunk : Chunk) : Except Bad (Outcome × Level × Chunk) :=
  if L.targetBytesDecoded ≠ L.window.targetLen then .ok (.error, L, chunk)
  else do
    let bad ← L.checksumWrong
    if bad then .ok (.error, L, chunk)
    else do
      let inst ← L.mem.get L.window.inst.chunk
      let left ← inst.unparsedSize
      if left ≠ 0 then .ok (.error, L, chunk)
      else if L.isInterleaved then do
        let (L, chunk) ← L.updateInstructionPointer chunk
        .ok (.ok, L, chunk)
      else do
        let data ← L.mem.get L.window.data.chunk
        let left ← data.unparsedSize
        if left ≠ 0 then .ok (.error, L, chunk)
        else do
          let addr ← L.mem.get L.window.addr.chunk
          let left ← addr.unparsedSize
          if left ≠ 0 then .ok (.error, L, chunk)
          else do
            let chunk ← chunk.setPosition addr.stop
            .ok (.ok, L, chunk)

/-- `DecodeBody` (src/vcdecoder.cc:1233-1337). The check at its beginning (lines 1234-1240) compares two pointers. -/
def decodeBody (L : Level) (chunk : Chunk) : Except Bad (Outcome × Level × Chunk) := do
  let inst ← L.mem.get L.window.inst.chunk
  if L.isInterleaved && inst.pos != chunk.pos then .error (.fault .assertion)
  else do
    let size ← inst.unparsedSize
    match ← bodyLoop (2 * size + 2) L chunk with
    | (.ok, L, chunk) => L.finishBody chunk
    | r => .ok r

/-- The part of `DecodeWindow` after the header is known (src/vcdecoder.cc:1373-1390). -/
def decodeWindowBody (L : Level) (chunk : Chunk) : Except Bad (Outcome × Level × Chunk) := do
  match ← L.decodeBody chunk with
  | (.endOfData, L, chunk) =>
    -- MoreDataExpected (src/vcdecoder.cc:132-140)
    if L.isInterleaved && decide (L.window.expected > 0) then .ok (.endOfData, L, chunk)
    else .ok (.error, L, chunk)
  | (.error, L, chunk) => .ok (.error, L, chunk)
  | (.ok, L, chunk) => do
    let (mem, window) ← L.window.reset L.mem
    .ok (.ok, { L with mem, window }, chunk)

/-- `DecodeWindow` (src/vcdecoder.cc:1339-1390). -/
def decodeWindow (L : Level) (chunk : Chunk) : Except Bad (Outcome × Level × Chunk) :=
  if L.window.found then
    if !L.isInterleaved then .ok (.error, L, chunk)
    else do
      let L ← L.updateInterleaved chunk.pos chunk.stop
      match L.window.inst.chunk with
      | none => .error .dead
      | some i => do
        let c ← L.mem.get (some i)
        let reader ← L.window.reader.update L.mem i c.stop
        ({ L with window := { L.window with reader } } : Level).decodeWindowBody chunk
  else do
    match ← L.readHeader chunk with
    | (.ok, L, chunk) =>
      match L.cache with
      | none => .error .dead
      | some cache =>
        match cache.init with
        | none => .ok (.error, L, chunk)
        | some cache => ({ L with cache := some cache } : Level).decodeWindowBody chunk
    | r => .ok r

/-! ## Chunks -/

/-- `VCDiffStreamingDecoderImpl::Reset` (src/vcdecoder.cc:637-649), but for the nested decoder. From here on the
decoder has no pointer to the dictionary. -/
def reset (L : Level) : Except Bad Level := do
  let (m, window) ← L.window.reset L.mem
  .ok { L with mem := { m with dict := none }, window, started := false, dictSize := 0, version := 0, planned := none,
               total := 0, cache := none, outPos := 0 }

/-- The destructor (src/vcdecoder.cc:634-635), with those of the members: `ParseableChunk` objects that have not been
deleted by then never will be. -/
def destroy (L : Level) : Except Bad Unit := do
  let L ← L.reset
  let (m, _) ← L.window.inst.free L.mem
  let (m, _) ← L.window.data.free m
  let (m, _) ← L.window.addr.free m
  if m.objects.all Option.isNone then .ok () else .error .leak

/-- The destructors of a decoder and those nested in it. -/
def destroyAll : List Level → Except Bad Unit
  | [] => .ok ()
  | L :: Ls => do
    destroyAll Ls
    L.destroy

/-- `StartDecoding` (src/vcdecoder.cc:651-664). -/
def start (L : Level) (dict : Bytes) : Except Bad Level :=
  if L.started then .ok L
  else do
    let L ← ({ L with mem := { L.mem with unparsed := L.mem.unparsed.assign [], decoded := L.mem.decoded.assign [] } } : Level).reset
    .ok { L with mem := { L.mem with dict := some dict }, dictSize := dict.length, started := true }

/-- `IsDecodingComplete` (src/vcdecoder.cc:445-469). -/
def isComplete (L : Level) (hasNested : Bool) : Bool :=
  match L.cache with
  | none => L.mem.unparsed.text.isEmpty
  | some _ =>
    if hasNested then false
    else if L.window.found then false
    else if L.numbers.reachedPlanned then true
    else L.mem.unparsed.text.isEmpty

/-- `FlushDecodedTarget` (src/vcdecoder.cc:850-858). -/
def flush (L : Level) : Level × Bytes :=
  ({ L with mem := { L.mem with decoded := L.mem.decoded.assign [] }, window := { L.window with startPos := 0 }, outPos := 0 },
    L.mem.decoded.text.drop L.outPos)

/-- The loop over windows in `DecodeChunk` (src/vcdecoder.cc:900-915): how it ends, the members, the position in the
input, the text output by `FlushDecodedTarget`. -/
def windowLoop : (fuel : Nat) → Level → Chunk → (out : Bytes) → Except Bad (Outcome × Level × Chunk × Bytes)
  | 0, _, _, _ => .error (.fault .diverge)
  | fuel + 1, L, chunk, out => do
    let left ← chunk.unparsedSize
    if left = 0 then .ok (.ok, L, chunk, out)
    else
      match ← L.decodeWindow chunk with
      | (.error, L, chunk) => .ok (.error, L, chunk, out)
      | (.endOfData, L, chunk) => .ok (.endOfData, L, chunk, out)
      | (.ok, L, chunk) =>
        if L.numbers.reachedPlanned then .ok (.ok, L, chunk, out)
        else if !L.allowTarget then windowLoop fuel L.flush.1 chunk (out ++ L.flush.2)
        else windowLoop fuel L chunk out

end Level

/-- What `DecodeChunk` leaves behind: the result, the members, those of the nested decoders, the text output. -/
structure Reply where
  ret : Bool
  top : Level
  nested : List Level
  out : Bytes

/-- The end of `DecodeChunk` with an error (src/vcdecoder.cc:917-920): `Reset` deletes the nested decoders. -/
def failChunk (L : Level) (nested : List Level) (out : Bytes) : Except Bad Reply := do
  Level.destroyAll nested
  let L ← L.reset
  .ok ⟨false, { L with mem := { L.mem with input := none } }, [], out⟩

/-- The end of `DecodeChunk` without an error (src/vcdecoder.cc:921-924). After it the caller may free `data`. -/
def endChunk (L : Level) (nested : List Level) (chunk : Chunk) (out : Bytes) : Except Bad Reply := do
  let rest ← L.mem.view chunk.pos chunk.stop
  let text := L.mem.decoded.text.drop L.outPos
  .ok ⟨true, { L with mem := { L.mem with unparsed := L.mem.unparsed.assign rest, input := none },
                      outPos := L.mem.decoded.text.length }, nested, out ++ text⟩

/-- `DecodeChunk` from the loop over windows on (src/vcdecoder.cc:899-924). -/
def decodeChunkWindows (L : Level) (chunk : Chunk) : Except Bad Reply := do
  let left ← chunk.unparsedSize
  match ← L.windowLoop (left + 2) chunk [] with
  | (.error, L, _, out) => failChunk L [] out
  | (_, L, chunk, out) => endChunk L [] chunk out

/-- `ReadCustomCodeTable` after the nested `DecodeChunk` (src/vcdecoder.cc:815-848), and the rest of `DecodeChunk`; `r`
is what that has left behind. The nested decoder is deleted when it has done its work (line 845). -/
def afterCodeTableChunk (L : Level) (r : Reply) (chunk : Chunk) : Except Bad Reply :=
  if !r.ret then failChunk L (r.top :: r.nested) []
  else
    let str := L.tableString ++ r.out
    let L := { L with tableString := str }
    if str.length < codeTableSize then endChunk L (r.top :: r.nested) { chunk with pos := chunk.stop } []
    else if !r.top.isComplete (!r.nested.isEmpty) then failChunk L (r.top :: r.nested) []
    else if h : str.length = codeTableSize then do
      let chunk ← chunk.finishExcept r.top.mem.unparsed.text.length
      Level.destroyAll (r.top :: r.nested)
      let t := CodeTable.ofBytes str h
      let maxMode := (L.cache.map AddrCache.lastMode).getD 0
      let reader := if t.validate maxMode then { L.window.reader with table := t } else L.window.reader
      decodeChunkWindows { L with tableString := [], window := { L.window with reader } } chunk
    else failChunk L (r.top :: r.nested) []

/-- The nested decoder set up by `InitCustomCodeTable` (src/vcdecoder.cc:796-804). -/
def Level.forCodeTable : Except Bad Level := do
  let L ← ({} : Level).start defaultTable.toBytes
  .ok { L with planned := some codeTableSize }

/-- The input at the beginning of `DecodeChunk` (src/vcdecoder.cc:889-895): the data of the call, which has a number,
or `unparsed_bytes_` after they have been appended to it. -/
def Level.beginChunk (L : Level) (data : Bytes) : Level × Chunk :=
  let m := { L.mem with call := L.mem.call + 1, input := some data }
  if L.mem.unparsed.text = [] then ({ L with mem := m }, .over ⟨.input m.call, 0⟩ data.length)
  else
    let unparsed := L.mem.unparsed.assign (L.mem.unparsed.text ++ data)
    ({ L with mem := { m with unparsed } }, .over ⟨.unparsed unparsed.version, 0⟩ unparsed.text.length)

/-- `ReadCustomCodeTable` (src/vcdecoder.cc:808-848) and the rest of `DecodeChunk`, where `rec` is the
`DecodeChunk` of a nested decoder. It is given a pointer to the unparsed data; these do not change while it runs, and so its
`input` is a copy of them. -/
def readCodeTable (rec : Level → List Level → Bytes → Except Bad Reply) (L : Level) (nested : List Level) (chunk : Chunk) :
    Except Bad Reply :=
  match nested with
  | [] => decodeChunkWindows L chunk
  | n :: ns => do
    let s ← L.mem.view chunk.pos chunk.stop
    let r ← rec n ns s
    afterCodeTableChunk L r chunk

/-- `DecodeChunk` (src/vcdecoder.cc:880-925). `fuel` bounds the nesting depth of decoders. -/
def decodeChunkFuel : (fuel : Nat) → Level → List Level → (data : Bytes) → Except Bad Reply
  | 0, _, _, _ => .error (.fault .diverge)
  | fuel + 1, L, nested, data =>
    if !L.started then do
      Level.destroyAll nested
      let L ← L.reset
      .ok ⟨false, L, [], []⟩
    else
      let (L, chunk) := L.beginChunk data
      match L.cache with
      | some _ => readCodeTable (decodeChunkFuel fuel) L nested chunk
      | none => do
        let s ← L.mem.view chunk.pos chunk.stop
        match readFileHeader s with
        | .error => failChunk L nested []
        | .endOfData => endChunk L nested chunk []
        | .ok hdr rest => do
          let chunk ← chunk.advance (s.length - rest.length)
          match hdr.caches with
          | none =>
            readCodeTable (decodeChunkFuel fuel)
              { L with version := hdr.version, cache := some AddrCache.newDefault } nested chunk
          | some (near, same) => do
            -- `custom_code_table_decoder_.reset(new ...)` (line 797) deletes what was there before
            Level.destroyAll nested
            let n ← Level.forCodeTable
            readCodeTable (decodeChunkFuel fuel)
              { L with version := hdr.version, cache := some (AddrCache.new near same), tableString := [] } [n] chunk

/-! ## API -/

/-- A decoder: its own members and the chain of nested decoders, as in `Vcd.Decoder`. -/
structure Decoder where
  top : Level := {}
  nested : List Level := []

namespace Decoder

/-- A bound on the nesting depth, as in `Vcd.Decoder.depthBound`. -/
def depthBound (d : Decoder) (data : Bytes) : Nat :=
  ((d.top :: d.nested).map fun L => L.mem.unparsed.text.length + 1).sum + data.length + 1

/-- One API call (src/google/vcdecoder.h; src/vcdecoder.cc:1394-1426, 378-392, 481-488, 929-944), as in
`Vcd.Decoder.call`. -/
def call (d : Decoder) : DecoderCall → Except Bad (DecoderReply × Decoder)
  | .start dict =>
    if d.top.started then .ok (⟨true, []⟩, d)
    else do
      let top ← d.top.start dict
      Level.destroyAll d.nested
      .ok (⟨true, []⟩, { top, nested := [] })
  | .chunk data => do
    let r ← decodeChunkFuel (d.depthBound data) d.top d.nested data
    .ok (⟨r.ret, r.out⟩, { top := r.top, nested := r.nested })
  | .finish => do
    let ret := d.top.started && d.top.isComplete (!d.nested.isEmpty)
    Level.destroyAll d.nested
    let top ← d.top.reset
    .ok (⟨ret, []⟩, { top, nested := [] })
  | .setMaxFile n => .ok (⟨true, []⟩, { d with top := { d.top with maxFile := n } })
  | .setMaxWin n =>
    if n > targetSizeLimit then .ok (⟨false, []⟩, d)
    else .ok (⟨true, []⟩, { d with top := { d.top with maxWin := n } })
  | .setAllowTarget b =>
    .ok (⟨true, []⟩, if d.top.started then d else { d with top := { d.top with allowTarget := b } })

/-- A sequence of API calls. -/
def calls (d : Decoder) : List DecoderCall → Except Bad (List DecoderReply × Decoder)
  | [] => .ok ([], d)
  | c :: cs => do
    let (r, d) ← d.call c
    let (rs, d) ← d.calls cs
    .ok (r :: rs, d)

end Decoder

/-- The life of a decoder (src/vcdecoder.cc:1394-1397): construction, any calls, and destruction. The replies to the
calls, or the first thing that must not happen. -/
def life (cs : List DecoderCall) : Except Bad (List DecoderReply) := do
  let (rs, d) ← ({} : Decoder).calls cs
  Level.destroyAll (d.top :: d.nested)
  .ok rs

end Vcd.Lifetime

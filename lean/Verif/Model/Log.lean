import Verif.Model.Debug

/-!
# What the decoder writes to the standard error stream (src/logging.h)

The functions here say which messages the function of the same name without `Log` writes, in their order; they use that function for the state in
which the next part of it is entered. The texts of the messages and the numbers in them are left out.

The build is one with `NDEBUG`: `VCD_DFATAL` writes its message and the code goes on. (Without `NDEBUG` the messages are the same up to the first
of these, after which the process ends: `Verif.Model.Debug`.)
-/

namespace Vcd

/-- The messages of the decoder. -/
inductive Message where
  /-- `VCD_DFATAL`, see `Site`. -/
  | fatal (s : Site)
  /-- src/headerparser.cc:110, 137: `Expected ...; found invalid variable-length integer`. -/
  | varint
  /-- src/headerparser.cc:146: `Value of ... is too large for unsigned 32-bit integer`. -/
  | unsignedSize
  /-- src/headerparser.cc:190: `Source segment length ... is larger than ...`. -/
  | sourceLength
  /-- src/headerparser.cc:201: `Source segment position ... is past ...`. -/
  | sourcePosition
  /-- src/headerparser.cc:210: `Source segment end position ... is past ...`. -/
  | sourceEnd
  /-- src/headerparser.cc:240: `Delta file contains VCD_TARGET flag, which is not allowed by current decoder settings`. -/
  | targetFlag
  /-- src/headerparser.cc:251: `Win_Indicator must not have both VCD_SOURCE and VCD_TARGET set`. -/
  | bothFlags
  /-- src/headerparser.cc:292: `Secondary compression of delta file sections is not supported`. -/
  | deltaIndicator
  /-- src/headerparser.cc:338: `The length of the delta encoding does not match ...`. -/
  | deltaLength
  /-- src/vcdecoder.cc:949: `Length of target window ... exceeds limit of ...`. -/
  | windowSize
  /-- src/vcdecoder.cc:965: `... would exceed planned size of ...`. -/
  | plannedSize
  /-- src/vcdecoder.cc:976: `... would exceed maximum target file size of ...`. -/
  | fileSize
  /-- src/addrcache.cc:76: `Using near cache size ... would exceed maximum number of COPY modes`. -/
  | cacheSizes
  /-- src/addrcache.cc:214: `Decoded address ... is invalid`. -/
  | addressNegative
  /-- src/addrcache.cc:218: `Decoded address ... is beyond location in target file`. -/
  | addressBeyond
  /-- src/addrcache.cc:289: `Found invalid variable-length integer as encoded address value`. -/
  | addressVarint
  /-- src/vcdecoder.cc:1189: `Unable to decode address for COPY`. -/
  | copyAddress
  /-- src/decodetable.cc:96: `Instruction size is not a valid variable-length integer`. -/
  | sizeVarint
  /-- src/codetable.cc:40: `Unexpected instruction type ...`. -/
  | instructionName
  /-- src/vcdecoder.cc:1261: `... exceeds length of target window`. -/
  | instructionSize
  /-- src/vcdecoder.cc:1297: `Decoded target window size ... does not match expected size`. -/
  | decodedSize
  /-- src/vcdecoder.cc:1307: `Target data does not match checksum; ...`. -/
  | checksum
  /-- src/vcdecoder.cc:1312: `Excess instructions and sizes left over after decoding target window`. -/
  | excessInstructions
  /-- src/vcdecoder.cc:1320: `Excess ADD/RUN data left over after decoding target window`. -/
  | excessData
  /-- src/vcdecoder.cc:1325: `Excess COPY addresses left over after decoding target window`. -/
  | excessAddresses
  /-- src/vcdecoder.cc:1378: `End of data reached while decoding VCDIFF delta file`. -/
  | endOfData
  /-- src/vcdecoder.cc:706: `Unrecognized VCDIFF format version`. -/
  | version
  /-- src/vcdecoder.cc:727: `Did not find VCDIFF header bytes; input is not a VCDIFF delta file`. -/
  | magic
  /-- src/vcdecoder.cc:736: `Secondary compression is not supported`. -/
  | secondary
  /-- src/codetable.cc:197, 203, 211, 218, 261, 264: `VCDiff: Bad code table; ...`. -/
  | badTable
  /-- src/vcdecoder.cc:937: `FinishDecoding() called before parsing entire delta file window`. -/
  | incomplete
  /-- src/vcdecoder.cc:932, a warning: `FinishDecoding() called before StartDecoding(), or called after DecodeChunk() returned false`. -/
  | finishNotStarted
  /-- src/vcdecoder.cc:385: `Specified maximum target window size ... exceeds limit of ...`. -/
  | windowLimit
  deriving DecidableEq, Repr

/-! ## Headers -/

/-- A message under a condition. -/
def messageIf (c : Prop) [Decidable c] (m : Message) : List Message := if c then [m] else []

/-- The messages of a sequence under the sticky `return_code_`, as in `Parsed.bind`: those of the first part, then those of the second part if it is
entered (src/headerparser.h:204-227). -/
def Parsed.log {α : Type} (p : Parsed α) (first : List Message) (second : α → Bytes → List Message) : List Message :=
  first ++
    match p with
    | .ok v rest => second v rest
    | _ => []

/-- `ParseInt32` and `ParseSize` (src/headerparser.cc:100-121, 168-176). -/
def parseInt32Log (s : Bytes) : List Message :=
  match parseVarint32 s with
  | .error => [.varint]
  | _ => []

/-- `ParseUInt32` (src/headerparser.cc:127-156). -/
def parseUInt32Log (s : Bytes) : List Message :=
  match parseVarint64 s with
  | .error => [.varint]
  | .ok v _ => messageIf (v > 0xFFFFFFFF) .unsignedSize
  | .endOfData => []

/-- `ParseSourceSegmentLengthAndPosition` (src/headerparser.cc:178-217). -/
def parseSourceSegmentLog (fromSize : Nat) (s : Bytes) : List Message :=
  (parseSize s).log (parseInt32Log s) fun len s =>
    if len > fromSize then [.sourceLength]
    else
      (parseSize s).log (parseInt32Log s) fun pos _ =>
        if pos ≥ fromSize ∧ len > 0 then [.sourcePosition]
        else messageIf (pos + len > fromSize) .sourceEnd

/-- `ParseWinIndicatorAndSourceSegment` (src/headerparser.cc:219-258). -/
def parseWinIndicatorLog (dictSize decodedSize : Nat) (allowTarget : Bool) (s : Bytes) : List Message :=
  (parseByte s).log [] fun ind s =>
    let flags := ind &&& (vcdSource ||| vcdTarget)
    if flags = vcdSource then parseSourceSegmentLog dictSize s
    else if flags = vcdTarget then
      if !allowTarget then [.targetFlag]
      else parseSourceSegmentLog decodedSize s
    else messageIf (flags = vcdSource ||| vcdTarget) .bothFlags

/-- `ParseDeltaIndicator` (src/headerparser.cc:286-298). -/
def parseDeltaIndicatorLog (s : Bytes) : List Message :=
  (parseByte s).log [] fun b _ => messageIf (b &&& 7 ≠ 0) .deltaIndicator

/-- `ParseSectionLengths` (src/headerparser.cc:300-345). The sum does not overflow, see `parseSectionLengths`. -/
def parseSectionLengthsLog (hasChecksum : Bool) (deltaLen : Nat) (deltaStart : Bytes) (s : Bytes) : List Message :=
  (parseSize s).log (parseInt32Log s) fun dataLen s =>
  (parseSize s).log (parseInt32Log s) fun instLen s =>
  (parseSize s).log (parseInt32Log s) fun addrLen s =>
  (if hasChecksum then (parseUInt32 s).bind fun c s => .ok (some c) s else .ok none s).log
    (if hasChecksum then parseUInt32Log s else [])
    fun (_ : Option Nat) s => messageIf (deltaLen ≠ deltaStart.length - s.length + dataLen + instLen + addrLen) .deltaLength

/-- `TargetWindowWouldExceedSizeLimits` (src/vcdecoder.cc:946-984). -/
def Level.wouldExceedLog (L : Level) (windowSize : Nat) : List Message :=
  if windowSize > L.maxWin then [.windowSize]
  else if L.planned.any (fun planned => decide (windowSize > szSub planned L.total)) then [.plannedSize]
  else messageIf (windowSize > szSub L.maxFile L.total) .fileSize

/-- `ReadHeader` with `SetUpWindowSections` (src/vcdecoder.cc:1008-1122). -/
def readHeaderLog (L : Level) (s : Bytes) : List Message :=
  (parseWinIndicator L.dict.length L.decoded.length L.allowTarget s).log
      (parseWinIndicatorLog L.dict.length L.decoded.length L.allowTarget s) fun isp s =>
    let hasChecksum := L.allowExtensions && (isp.1 &&& vcdChecksum != 0)
    (parseSize s).log (parseInt32Log s) fun deltaLen deltaStart =>
    (parseSize deltaStart).log (parseInt32Log deltaStart) fun targetLen s =>
      if L.wouldExceed targetLen then L.wouldExceedLog targetLen
      else
        (parseDeltaIndicator s).log (parseDeltaIndicatorLog s) fun _ s =>
        parseSectionLengthsLog hasChecksum deltaLen deltaStart s

/-! ## Windows -/

/-- `IsDecodedAddressValid` (src/addrcache.cc:211-224). -/
def addressLog (here decoded : Int) : List Message :=
  if decoded < 0 then [.addressNegative] else messageIf (decoded ≥ here) .addressBeyond

/-- `DecodeAddress` (src/addrcache.cc:265-317). -/
def AddrCache.decodeAddressLog (c : AddrCache) (here : Int) (mode : Nat) (stream : Bytes) : List Message :=
  if here < 0 then [.fatal .negativeHere]
  else
    match stream with
    | [] => []
    | b :: bs =>
      if c.isSameMode mode then
        match c.same[(mode - c.firstSameMode) * 256 + b.toNat]? with
        | none => []
        | some a => addressLog here a
      else
        match parseVarint32 (b :: bs) with
        | .error => [.addressVarint]
        | .endOfData => []
        | .ok enc _ =>
          if mode = 0 then addressLog here enc
          else if mode = 1 then addressLog here (here - enc)
          else if c.isNearMode mode then
            match c.near[mode - 2]? with
            | none => []
            | some a => if a + enc > int32Max then [] else addressLog here ((a + enc : Nat) : Int)
          else [.fatal .invalidMode]

/-- The `switch (instruction)` of `DecodeBody` (src/vcdecoder.cc:1269-1284), with `DecodeCopy` up to the address check (lines 1175-1201).
`DecodeAdd` and `DecodeRun` write nothing. -/
def executeLog (env : BodyEnv) (b : Body) (type : UInt8) (mode : UInt8) (instRest : Bytes) : List Message :=
  let addrStream := if env.hdr.interleaved then instRest else b.addr
  if type = vcdAdd then []
  else if type = vcdRun then []
  else if type = vcdCopy then
    let here := toInt32 (env.hdr.srcLen + Level.targetBytesDecoded env.startPos b.decoded)
    b.cache.decodeAddressLog here mode.toNat addrStream ++
      messageIf (b.cache.decodeAddress here mode.toNat addrStream = .error) .copyAddress
  else [.fatal .instructionType]

/-- `GetNextInstruction` (src/decodetable.cc:47-110). -/
def getNextInstructionLog (t : CodeTable) (pending : Option UInt8) (s : Bytes) : List Message :=
  messageIf (getNextInstruction t pending s = .error) .sizeVarint

/-- The loop of `DecodeBody` (src/vcdecoder.cc:1241-1295). -/
def bodyLoopLog (env : BodyEnv) : (fuel : Nat) → Body → List Message
  | 0, _ => []
  | fuel + 1, b =>
    let tbd := Level.targetBytesDecoded env.startPos b.decoded
    if tbd < env.hdr.targetLen then
      getNextInstructionLog env.table b.pending b.inst ++
        match getNextInstruction env.table b.pending b.inst with
        | .inst type size mode instRest pending =>
          if size > env.hdr.targetLen ∨ size + tbd > env.hdr.targetLen then
            messageIf (type.toNat > 3) .instructionName ++ [.instructionSize]
          else
            executeLog env b type mode instRest ++
              match execute env b type size mode instRest with
              | .ok rest cache decoded => bodyLoopLog env fuel (b.afterExec env type instRest pending rest cache decoded)
              | _ => []
        | _ => []
    else []

/-- `DecodeBody` (src/vcdecoder.cc:1233-1337). -/
def decodeBodyLog (env : BodyEnv) (b : Body) : List Message :=
  bodyLoopLog env (2 * b.inst.length + 2) b ++
    match bodyLoop env (2 * b.inst.length + 2) b with
    | .ok b =>
      let window := b.decoded.drop env.startPos
      if Level.targetBytesDecoded env.startPos b.decoded ≠ env.hdr.targetLen then [.decodedSize]
      else if env.hdr.checksum.any fun c => computeAdler32 (window.take env.hdr.targetLen) != c then [.checksum]
      else if b.inst ≠ [] then [.excessInstructions]
      else if env.hdr.interleaved then []
      else if b.data ≠ [] then [.excessData]
      else messageIf (b.addr ≠ []) .excessAddresses
    | _ => []

/-- The part of `DecodeWindow` after the header is known (src/vcdecoder.cc:1373-1390). -/
def decodeWindowBodyLog (L : Level) (w : OpenWindow) (cache : AddrCache) (s : Bytes) : List Message :=
  let env : BodyEnv := { table := L.table, hdr := w.hdr, startPos := L.startPos }
  if w.hdr.interleaved then
    let avail := s.take w.expected
    let b : Body := { pending := w.pending, inst := avail, data := [], addr := [], cache := cache, decoded := L.decoded }
    decodeBodyLog env b ++
      match decodeBody env b with
      | .endOfData b' => messageIf (¬ w.expected - (avail.length - b'.inst.length) > 0) .endOfData
      | _ => []
  else
    let data := s.take w.hdr.dataLen
    let inst := (s.drop w.hdr.dataLen).take w.hdr.instLen
    let addr := (s.drop (w.hdr.dataLen + w.hdr.instLen)).take w.hdr.addrLen
    let b : Body := { pending := w.pending, inst, data, addr, cache := cache, decoded := L.decoded }
    decodeBodyLog env b ++
      match decodeBody env b with
      | .endOfData _ => [.endOfData]
      | _ => []

/-- `DecodeWindow` (src/vcdecoder.cc:1339-1390), with `VCDiffAddressCache::Init` (src/addrcache.cc:71-91). -/
def decodeWindowLog (L : Level) (s : Bytes) : List Message :=
  match L.win with
  | none =>
    readHeaderLog L s ++
      match readHeader L s with
      | .ok hdr rest =>
        match L.cache.bind AddrCache.init with
        | none => [.cacheSizes, .fatal .cacheInit]
        | some cache =>
          decodeWindowBodyLog { L with total := L.total + hdr.targetLen }
            { hdr := hdr, expected := hdr.instLen, pending := none } cache rest
      | _ => []
  | some w =>
    if !w.hdr.interleaved then [.fatal .resumed]
    else
      match L.cache with
      | none => []
      | some cache => decodeWindowBodyLog L w cache s

/-- The loop over windows in `DecodeChunk` (src/vcdecoder.cc:900-915). -/
def windowLoopLog : (fuel : Nat) → Level → Bytes → List Message
  | 0, _, _ => []
  | fuel + 1, L, s =>
    if s = [] then []
    else
      decodeWindowLog L s ++
        match decodeWindow L s with
        | .ok L' rest =>
          if L'.reachedPlanned then []
          else if !L'.allowTarget then windowLoopLog fuel L'.flush.1 rest
          else windowLoopLog fuel L' rest
        | _ => []

/-! ## Chunks -/

/-- `ReadDeltaFileHeader` and `InitCustomCodeTable` (src/vcdecoder.cc:690-781). -/
def readFileHeaderLog (s : Bytes) : List Message :=
  match checkMagic s with
  | none => [if 4 ≤ s.length ∧ s.getD 3 0 ≠ 0x00 ∧ s.getD 3 0 ≠ 0x53 then .version else .magic]
  | some false => []
  | some true =>
    let indicator := s.getD 4 0
    if indicator &&& 1 ≠ 0 then [.secondary]
    else if indicator &&& 2 ≠ 0 then
      (parseInt32 (s.drop 5)).log (parseInt32Log (s.drop 5)) fun near rest =>
      (parseInt32 rest).log (parseInt32Log rest) fun same _ =>
        if near > 255 then [.fatal .nearSize]
        else messageIf (same > 255) (.fatal .sameSize)
    else []

/-- `ValidateOpcode` (src/codetable.cc:187-225): a message for each of its four checks that fails. -/
def validateOpcodeLog (h : Half) (maxMode : Nat) : List Message :=
  messageIf (h.inst.toNat > 3) .badTable ++ messageIf (h.mode.toNat > maxMode) .badTable ++
    messageIf (h.inst = vcdNoop ∧ h.size ≠ 0) .badTable ++ messageIf (h.inst ≠ vcdCopy ∧ h.mode ≠ 0) .badTable

/-- `VCDiffCodeTableData::Validate(max_mode)` (src/codetable.cc:232-272): the messages of the loop over opcodes, and one for each element of
`hasOpcodeForTypeAndMode` but the first that is not set. -/
def CodeTable.validateLog (t : CodeTable) (maxMode : Nat) : List Message :=
  (allOpcodes.flatMap fun op => validateOpcodeLog (t.first op) maxMode ++ validateOpcodeLog (t.second op) maxMode) ++
    ((allOpcodes.foldl (validateStep t maxMode)
      { noErrors := true, has := List.replicate (3 + maxMode + 1) false }).has.drop 1).flatMap fun b => messageIf (b = false) .badTable

/-- The part of `ReadCustomCodeTable` after the nested `DecodeChunk` has succeeded (src/vcdecoder.cc:824-847): `FinishDecoding` of the nested decoder, and
`Validate` in `UseCodeTable` (src/decodetable.cc:36-46); and the loop over windows. -/
def afterCodeTableChunkLog (L : Level) (n : Level) (ns : List Level) (s text : Bytes) : List Message :=
  let str := L.tableString ++ text
  if str.length < codeTableSize then []
  else if !n.isComplete (!ns.isEmpty) then [.incomplete]
  else if h : str.length = codeTableSize then
    if n.unparsed.length > s.length then []
    else
      let rest := s.drop (s.length - n.unparsed.length)
      let t := CodeTable.ofBytes str h
      let maxMode := (L.cache.map AddrCache.lastMode).getD 0
      t.validateLog maxMode ++
        windowLoopLog (rest.length + 2)
          { L with tableString := [], table := if t.validate maxMode then t else L.table } rest
  else [.fatal .tableSize]

/-- `DecodeChunk` (src/vcdecoder.cc:880-925) with `ReadCustomCodeTable` (lines 808-848). -/
def decodeChunkLogFuel : (fuel : Nat) → Level → List Level → (data : Bytes) → List Message
  | 0, _, _, _ => []
  | fuel + 1, L, nested, data =>
    if !L.started then [.fatal .notStarted]
    else
      let s := L.unparsed ++ data
      let readCustomCodeTable (L : Level) (nested : List Level) (s : Bytes) : List Message :=
        match nested with
        | [] => windowLoopLog (s.length + 2) L s
        | n :: ns =>
          decodeChunkLogFuel fuel n ns s ++
            match decodeChunkFuel fuel n ns s with
            | .ok n' ns' text => afterCodeTableChunkLog L n' ns' s text
            | _ => []
      match L.cache with
      | some _ => readCustomCodeTable L nested s
      | none =>
        readFileHeaderLog s ++
          match readFileHeader s with
          | .ok hdr rest =>
            match hdr.caches with
            | none =>
              readCustomCodeTable { L with version := hdr.version, cache := some AddrCache.newDefault } nested rest
            | some (near, same) =>
              readCustomCodeTable
                { L with version := hdr.version, cache := some (AddrCache.new near same), tableString := [] }
                [Level.forCodeTable] rest
          | _ => []

/-- The places with `VCD_DFATAL` after which the function does not return at once, and :1195 of src/vcdecoder.cc, whose check is not in
`decodeCopy`. -/
def Site.inPassing : Site → Bool
  | .address | .ungetPosition | .ungetPending | .advance | .setPosition | .finishExcept | .planned => true
  | _ => false

namespace Decoder

/-- Messages written in passing: if the first place with `VCD_DFATAL` that a call comes to is one of these, it is listed (later ones are not). -/
def passingLog (d : Decoder) (c : DecoderCall) : List Message :=
  match d.callSite c with
  | some x => messageIf (x.inPassing = true) (.fatal x)
  | none => []

/-- `FinishDecoding` (src/vcdecoder.cc:929-944). -/
def finishLog (d : Decoder) : List Message :=
  if !d.top.started then [.finishNotStarted]
  else messageIf (d.top.isComplete (!d.nested.isEmpty) = false) .incomplete

/-- The messages of a call: `StartDecoding` (src/vcdecoder.cc:651-664), `DecodeChunk`, `FinishDecoding`, `SetMaximumTargetFileSize`,
`SetMaximumTargetWindowSize` (lines 378-392), `SetAllowVcdTarget` (lines 481-488). -/
def callLog (d : Decoder) (c : DecoderCall) : List Message :=
  d.passingLog c ++
    match c with
    | .start _ => messageIf (d.top.started = true) (.fatal .startTwice)
    | .chunk data => decodeChunkLogFuel (d.depthBound data) d.top d.nested data
    | .finish => d.finishLog
    | .setMaxFile _ => []
    | .setMaxWin n => messageIf (n > targetSizeLimit) .windowLimit
    | .setAllowTarget _ => messageIf (d.top.started = true) (.fatal .allowTargetLate)

/-- The messages of a sequence of calls, up to the first fault. -/
def callsLog (d : Decoder) : List DecoderCall → List Message
  | [] => []
  | c :: cs =>
    d.callLog c ++
      match d.call c with
      | .ok (_, d') => d'.callsLog cs
      | .error _ => []

end Decoder
end Vcd

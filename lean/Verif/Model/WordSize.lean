import Verif.Model.Decoder

/-!
# The decoder on a machine whose `size_t` has `W` values

`Verif.Model.Decoder` and `Verif.Model.HeaderParser` add sizes as natural numbers, leave out the overflow guards of the
header parser, and subtract modulo `2^64`. The definitions here are the same functions with every sum and difference of
`size_t` values taken modulo `W`, and with the guards. `W = 2^32` is a build for a 32-bit machine, `W = 2^64` one for a
64-bit machine.

Conversions from `int32_t` to `size_t` (src/headerparser.cc:174, src/vcdecoder.cc:1255) are of values that are not negative,
and keep them. Adding to a pointer is not `size_t` arithmetic: here a pointer that is moved past the end of its buffer is a
`Fault`. Comparisons and `ParsedSize()` are of pointers into one buffer and do not wrap.

Functions without `size_t` sums are taken from `Verif.Model.Decoder`: the file header, the address cache, the instruction
reader, `DecodeAdd` and `DecodeRun` up to the capacity.
-/

namespace Vcd.Word

/-- `a + b` for `size_t`. -/
def add (W a b : Nat) : Nat := (a + b) % W

/-- `a - b` for `size_t`. -/
def sub (W a b : Nat) : Nat := if b ≤ a then a - b else a + W - b

/-- `SumWouldOverflow2` (src/headerparser.cc:24-26). -/
def sumWouldOverflow2 (W a b : Nat) : Bool := a > sub W (W - 1) b

/-- `SumWouldOverflow4` (src/headerparser.cc:28-32). -/
def sumWouldOverflow4 (W a b c d : Nat) : Bool :=
  sumWouldOverflow2 W a b || sumWouldOverflow2 W (add W a b) c || sumWouldOverflow2 W (add W (add W a b) c) d

/-- `ParseSourceSegmentLengthAndPosition` (src/headerparser.cc:178-217). -/
def parseSourceSegment (W fromSize : Nat) (s : Bytes) : Parsed (Nat × Nat) :=
  (parseSize s).bind fun len s =>
    if len > fromSize then .error
    else (parseSize s).bind fun pos s =>
      if pos ≥ fromSize ∧ len > 0 then .error
      else if add W pos len > fromSize then .error
      else .ok (len, pos) s

/-- `ParseWinIndicatorAndSourceSegment` (src/headerparser.cc:219-258). -/
def parseWinIndicator (W dictSize decodedSize : Nat) (allowTarget : Bool) (s : Bytes) : Parsed (UInt8 × Nat × Nat) :=
  (parseByte s).bind fun ind s =>
    let flags := ind &&& (vcdSource ||| vcdTarget)
    if flags = vcdSource then
      (parseSourceSegment W dictSize s).bind fun lp s => .ok (ind, lp.1, lp.2) s
    else if flags = vcdTarget then
      if !allowTarget then .error
      else (parseSourceSegment W decodedSize s).bind fun lp s => .ok (ind, lp.1, lp.2) s
    else if flags = vcdSource ||| vcdTarget then .error
    else .ok (ind, 0, 0) s

/-- `ParseSectionLengths` (src/headerparser.cc:300-345) with the guard of lines 323-332. -/
def parseSectionLengths (W : Nat) (hasChecksum : Bool) (deltaLen : Nat) (deltaStart : Bytes) (s : Bytes) :
    Parsed SectionLengths :=
  (parseSize s).bind fun dataLen s =>
  (parseSize s).bind fun instLen s =>
  (parseSize s).bind fun addrLen s =>
  (if hasChecksum then (parseUInt32 s).bind fun c s => .ok (some c) s else .ok none s).bind
    fun checksum s =>
      let headerLen := deltaStart.length - s.length
      if sumWouldOverflow4 W headerLen dataLen instLen addrLen then .error
      else if deltaLen ≠ add W (add W (add W headerLen dataLen) instLen) addrLen then .error
      else .ok { dataLen, instLen, addrLen, checksum } s

/-- `TargetWindowWouldExceedSizeLimits` (src/vcdecoder.cc:946-984). -/
def wouldExceed (W : Nat) (L : Level) (windowSize : Nat) : Bool :=
  windowSize > L.maxWin ||
  (match L.planned with
   | some planned => windowSize > sub W planned L.total
   | none => false) ||
  windowSize > sub W L.maxFile L.total

/-- `ReadHeader` with `SetUpWindowSections` (src/vcdecoder.cc:1008-1122). `.ok (.error f)` is a fault: the sections of the
standard format are set up (lines 1038-1042) although they are not inside the input, or (lines 1109-1116) the source segment
is not inside the dictionary or the decoded text. The comparison with `EndOfDeltaWindow()` is that of line 1043. -/
def readHeader (W : Nat) (L : Level) (s : Bytes) : Parsed (Except Fault WinHeader) :=
  (parseWinIndicator W L.dict.length L.decoded.length L.allowTarget s).bind fun isp s =>
    let hasChecksum := L.allowExtensions && (isp.1 &&& vcdChecksum != 0)
    (parseSize s).bind fun deltaLen deltaStart =>
    (parseSize deltaStart).bind fun targetLen s =>
      if wouldExceed W L targetLen then .error
      else
        (parseDeltaIndicator s).bind fun _ s =>
        (parseSectionLengths W hasChecksum deltaLen deltaStart s).bind fun lens s =>
          let interleaved := L.allowExtensions && lens.dataLen == 0 && lens.addrLen == 0
          if !interleaved && s.length < add W (add W lens.dataLen lens.instLen) lens.addrLen then .endOfData
          else if !interleaved && s.length < lens.dataLen + lens.instLen + lens.addrLen then .ok (.error .oobRead) s
          else if !interleaved &&
              deltaStart.length - s.length + (lens.dataLen + lens.instLen + lens.addrLen) != deltaLen then .error
          else
            let source :=
              if isp.1 &&& vcdSource ≠ 0 then L.dict.drop isp.2.2
              else if isp.1 &&& vcdTarget ≠ 0 then L.decoded.drop isp.2.2
              else []
            if source.length < isp.2.1 then .ok (.error .oobRead) s
            else
              .ok (.ok { srcLen := isp.2.1, source := source.take isp.2.1, targetLen := targetLen,
                         checksum := lens.checksum, interleaved := interleaved,
                         dataLen := lens.dataLen, instLen := lens.instLen, addrLen := lens.addrLen }) s

/-- `CopyBytes` and `RunByte` (src/vcdecoder.cc:1147-1153) within the capacity `wanted_capacity` (lines 1102-1107). -/
def appendTarget (W : Nat) (env : BodyEnv) (decoded bytes : Bytes) : Except Fault Bytes :=
  if decoded.length + bytes.length > add W env.startPos env.hdr.targetLen then .error .realloc
  else .ok (decoded ++ bytes)

/-- `TargetBytesDecoded()` (src/vcdecoder.cc:1134-1136). -/
def targetBytesDecoded (W startPos : Nat) (decoded : Bytes) : Nat := sub W decoded.length startPos

/-- The `while` loop and the final copy of `DecodeCopy` (src/vcdecoder.cc:1221-1229). -/
def copyTarget (W : Nat) (env : BodyEnv) : (fuel : Nat) → (decoded : Bytes) → (address tbd size : Nat) → Except Fault Bytes
  | 0, _, _, _, _ => .error .diverge
  | fuel + 1, decoded, address, tbd, size =>
    if size > sub W tbd address then do
      let n := sub W tbd address
      let bytes ← readRange decoded (env.startPos + address) n
      let decoded ← appendTarget W env decoded bytes
      copyTarget W env fuel decoded (add W address n) (add W tbd n) (sub W size n)
    else do
      let bytes ← readRange decoded (env.startPos + address) size
      appendTarget W env decoded bytes

/-- The copying part of `DecodeCopy` (src/vcdecoder.cc:1202-1230). -/
def copyBytes (W : Nat) (env : BodyEnv) (decoded : Bytes) (tbd address size : Nat) : Except Fault Bytes :=
  if add W address size ≤ env.hdr.srcLen then do
    let bytes ← readRange env.hdr.source address size
    appendTarget W env decoded bytes
  else if address < env.hdr.srcLen then do
    let n := sub W env.hdr.srcLen address
    let bytes ← readRange env.hdr.source address n
    let decoded ← appendTarget W env decoded bytes
    copyTarget W env (size - n + 1) decoded (sub W (add W address n) env.hdr.srcLen) (add W tbd n) (sub W size n)
  else
    copyTarget W env (size + 1) decoded (sub W address env.hdr.srcLen) tbd size

/-- `DecodeAdd` (src/vcdecoder.cc:1155-1163). -/
def decodeAdd (W : Nat) (env : BodyEnv) (cache : AddrCache) (decoded operand : Bytes) (size : Nat) : Exec :=
  if size > operand.length then .endOfData
  else .ofAppend (operand.drop size) cache (appendTarget W env decoded (operand.take size))

/-- `DecodeRun` (src/vcdecoder.cc:1165-1173). -/
def decodeRun (W : Nat) (env : BodyEnv) (cache : AddrCache) (decoded operand : Bytes) (size : Nat) : Exec :=
  match operand with
  | [] => .endOfData
  | b :: rest => .ofAppend rest cache (appendTarget W env decoded (List.replicate size b))

/-- `DecodeCopy` (src/vcdecoder.cc:1175-1231). -/
def decodeCopy (W : Nat) (env : BodyEnv) (cache : AddrCache) (decoded operand : Bytes) (size : Nat) (mode : UInt8) : Exec :=
  let tbd := targetBytesDecoded W env.startPos decoded
  match cache.decodeAddress (toInt32 (add W env.hdr.srcLen tbd)) mode.toNat operand with
  | .error => .error
  | .endOfData => .endOfData
  | .fault f => .fault f
  | .ok address rest cache' => .ofAppend rest cache' (copyBytes W env decoded tbd address size)

/-- The `switch (instruction)` of `DecodeBody` (src/vcdecoder.cc:1269-1284). -/
def execute (W : Nat) (env : BodyEnv) (b : Body) (type : UInt8) (size : Nat) (mode : UInt8) (instRest : Bytes) : Exec :=
  let dataStream := if env.hdr.interleaved then instRest else b.data
  let addrStream := if env.hdr.interleaved then instRest else b.addr
  if type = vcdAdd then decodeAdd W env b.cache b.decoded dataStream size
  else if type = vcdRun then decodeRun W env b.cache b.decoded dataStream size
  else if type = vcdCopy then decodeCopy W env b.cache b.decoded addrStream size mode
  else .error

/-- The loop of `DecodeBody` (src/vcdecoder.cc:1241-1295). -/
def bodyLoop (W : Nat) (env : BodyEnv) : (fuel : Nat) → Body → BodyResult
  | 0, _ => .fault .diverge
  | fuel + 1, b =>
    let tbd := targetBytesDecoded W env.startPos b.decoded
    if tbd < env.hdr.targetLen then
      match getNextInstruction env.table b.pending b.inst with
      | .endOfData rest pending => .endOfData { b with inst := rest, pending := pending }
      | .error => .error
      | .inst type size mode instRest pending =>
        if size > env.hdr.targetLen ∨ add W size tbd > env.hdr.targetLen then .error
        else
          match execute W env b type size mode instRest with
          | .endOfData => .endOfData b
          | .error => .error
          | .fault f => .fault f
          | .ok rest cache decoded =>
            bodyLoop W env fuel (b.afterExec env type instRest pending rest cache decoded)
    else .ok b

/-- `DecodeBody` (src/vcdecoder.cc:1233-1337). -/
def decodeBody (W : Nat) (env : BodyEnv) (b : Body) : BodyResult :=
  match bodyLoop W env (2 * b.inst.length + 2) b with
  | .ok b =>
    let window := b.decoded.drop env.startPos
    if targetBytesDecoded W env.startPos b.decoded ≠ env.hdr.targetLen then .error
    else if env.hdr.checksum.any fun c => computeAdler32 (window.take env.hdr.targetLen) != c then
      .error
    else if b.inst ≠ [] then .error
    else if env.hdr.interleaved then .ok b
    else if b.data ≠ [] then .error
    else if b.addr ≠ [] then .error
    else .ok b
  | r => r

/-- The part of `DecodeWindow` after the header is known (src/vcdecoder.cc:1373-1390). `interleaved_bytes_expected_` is an
`int` (line 296), not a `size_t`. -/
def decodeWindowBody (W : Nat) (L : Level) (w : OpenWindow) (cache : AddrCache) (s : Bytes) : WinResult :=
  let env : BodyEnv := { table := L.table, hdr := w.hdr, startPos := L.startPos }
  if w.hdr.interleaved then
    let avail := s.take w.expected
    let b : Body := { pending := w.pending, inst := avail, data := [], addr := [], cache := cache,
                      decoded := L.decoded }
    match decodeBody W env b with
    | .fault f => .fault f
    | .error => .error
    | .ok b' =>
      let parsed := avail.length - b'.inst.length
      .ok { L with cache := some b'.cache, decoded := b'.decoded, win := none,
                   startPos := b'.decoded.length } (s.drop parsed)
    | .endOfData b' =>
      let parsed := avail.length - b'.inst.length
      if w.expected - parsed > 0 then
        .endOfData { L with cache := some b'.cache, decoded := b'.decoded,
                            win := some { w with expected := w.expected - parsed,
                                                 pending := b'.pending } } (s.drop parsed)
      else .error
  else
    let data := s.take w.hdr.dataLen
    let inst := (s.drop w.hdr.dataLen).take w.hdr.instLen
    let addr := (s.drop (w.hdr.dataLen + w.hdr.instLen)).take w.hdr.addrLen
    let b : Body := { pending := w.pending, inst, data, addr, cache := cache, decoded := L.decoded }
    match decodeBody W env b with
    | .fault f => .fault f
    | .error => .error
    | .endOfData _ => .error
    | .ok b' =>
      .ok { L with cache := some b'.cache, decoded := b'.decoded, win := none,
                   startPos := b'.decoded.length }
        (s.drop (w.hdr.dataLen + w.hdr.instLen + w.hdr.addrLen))

/-- `DecodeWindow` (src/vcdecoder.cc:1339-1390), with `AddToTotalTargetWindowSize` (lines 403-405). -/
def decodeWindow (W : Nat) (L : Level) (s : Bytes) : WinResult :=
  match L.win with
  | none =>
    match readHeader W L s with
    | .endOfData => .endOfData L s
    | .error => .error
    | .ok (.error f) _ => .fault f
    | .ok (.ok hdr) rest =>
      match L.cache.bind AddrCache.init with
      | none => .error
      | some cache =>
        decodeWindowBody W { L with total := add W L.total hdr.targetLen }
          { hdr := hdr, expected := hdr.instLen, pending := none } cache rest
  | some w =>
    if !w.hdr.interleaved then .error
    else
      match L.cache with
      | none => .error
      | some cache => decodeWindowBody W L w cache s

/-- The loop of `DecodeChunk` (src/vcdecoder.cc:900-915). -/
def windowLoop (W : Nat) : (fuel : Nat) → Level → Bytes → (out : Bytes) → WindowsResult
  | 0, _, _, _ => .fault .diverge
  | fuel + 1, L, s, out =>
    if s = [] then .done L s out
    else
      match decodeWindow W L s with
      | .fault f => .fault f
      | .error => .error out
      | .endOfData L' rest => .done L' rest out
      | .ok L' rest =>
        if L'.reachedPlanned then .done L' rest out
        else if !L'.allowTarget then
          windowLoop W fuel L'.flush.1 rest (out ++ L'.flush.2)
        else windowLoop W fuel L' rest out

/-- `DecodeChunk` from the loop over windows on (src/vcdecoder.cc:899-924). -/
def decodeChunkWindows (W : Nat) (L : Level) (s : Bytes) : ChunkResult :=
  match windowLoop W (s.length + 2) L s [] with
  | .fault f => .fault f
  | .error out => .error ({ L with unparsed := [], decoded := [] } : Level).reset out
  | .done L' rest out => endChunk L' [] rest out

/-- The part of `ReadCustomCodeTable` after the nested `DecodeChunk` (src/vcdecoder.cc:824-847), and the rest of
`DecodeChunk`. -/
def afterCodeTableChunk (W : Nat) (L : Level) (n : Level) (ns : List Level) (s text : Bytes) : ChunkResult :=
  let str := L.tableString ++ text
  let fail (L : Level) : ChunkResult :=
    .error ({ L with unparsed := [], decoded := [], tableString := str } : Level).reset []
  if str.length < codeTableSize then
    endChunk { L with tableString := str } (n :: ns) [] []
  else if !n.isComplete (!ns.isEmpty) then fail L
  else if h : str.length = codeTableSize then
    if n.unparsed.length > s.length then .fault .assertion
    else
      let rest := s.drop (s.length - n.unparsed.length)
      let t := CodeTable.ofBytes str h
      let maxMode := (L.cache.map AddrCache.lastMode).getD 0
      decodeChunkWindows W
        { L with tableString := [], table := if t.validate maxMode then t else L.table } rest
  else fail L

/-- `DecodeChunk` (src/vcdecoder.cc:880-925), with `ReadCustomCodeTable` (lines 808-848). -/
def decodeChunkFuel (W : Nat) : (fuel : Nat) → Level → List Level → (data : Bytes) → ChunkResult
  | 0, _, _, _ => .fault .diverge
  | fuel + 1, L, nested, data =>
    if !L.started then .error L.reset []
    else
      let s := L.unparsed ++ data
      let fail (L : Level) : ChunkResult :=
        .error ({ L with unparsed := [], decoded := [] } : Level).reset []
      let readCustomCodeTable (L : Level) (nested : List Level) (s : Bytes) : ChunkResult :=
        match nested with
        | [] => decodeChunkWindows W L s
        | n :: ns =>
          match decodeChunkFuel W fuel n ns s with
          | .fault f => .fault f
          | .error _ _ => fail L
          | .ok n' ns' text => afterCodeTableChunk W L n' ns' s text
      match L.cache with
      | some _ => readCustomCodeTable L nested s
      | none =>
        match readFileHeader s with
        | .error => fail L
        | .endOfData => endChunk L nested s []
        | .ok hdr rest =>
          match hdr.caches with
          | none =>
            readCustomCodeTable
              { L with version := hdr.version, cache := some AddrCache.newDefault } nested rest
          | some (near, same) =>
            readCustomCodeTable
              { L with version := hdr.version, cache := some (AddrCache.new near same),
                       tableString := [] } [Level.forCodeTable] rest

/-- `VCDiffStreamingDecoder::DecodeChunk` (src/vcdecoder.cc:1403-1408). -/
def decodeChunk (W : Nat) (d : Decoder) (data : Bytes) : ChunkResult :=
  decodeChunkFuel W (d.depthBound data) d.top d.nested data

/-- One API call, as `Decoder.call`. Only `DecodeChunk` computes with sizes. -/
def call (W : Nat) (d : Decoder) : DecoderCall → Except Fault (DecoderReply × Decoder)
  | .chunk data =>
    match decodeChunk W d data with
    | .ok L nested out => .ok (⟨true, out⟩, { top := L, nested := nested })
    | .error L out => .ok (⟨false, out⟩, { top := L, nested := [] })
    | .fault f => .error f
  | c => d.call c

/-- A sequence of API calls: the replies and the final state, or the first fault. -/
def calls (W : Nat) (d : Decoder) : List DecoderCall → Except Fault (List DecoderReply × Decoder)
  | [] => .ok ([], d)
  | c :: cs =>
    match call W d c with
    | .error f => .error f
    | .ok (r, d') =>
      match calls W d' cs with
      | .error f => .error f
      | .ok (rs, d'') => .ok (r :: rs, d'')

end Vcd.Word

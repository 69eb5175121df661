import Verif.Model.SimpleDecoder

/-!
# The work done by the decoder (src/vcdecoder.cc and what it calls)

The functions of `Model.Decoder` and of the parts it uses again, each returning also a number of steps. `Verif.Proof.DecodeWork`
shows that without the numbers they are the same functions.

A step is one iteration of a loop, one byte looked at by a parser, one byte copied to `decoded_target_`, to the output string or to
`unparsed_bytes_`, one byte summed by the checksum, one element of the address cache cleared, or one entry of a code table copied or
checked. Between two steps the program executes a bounded number of statements without loops.

Not counted: what a `std::string` does to grow (`append` takes an amortized constant time per byte; what `decoded_target_.reserve`,
src/vcdecoder.cc:1102-1107, copies depends on the library: with one that allocates exactly what is asked for, each window
copies the target data so far), and log messages.
-/

namespace Vcd

/-- Steps taken before those of a computation. -/
def stepsThen {α : Type} (n : Nat) (x : α × Nat) : α × Nat := (x.1, n + x.2)

/-! ## Parsing -/

/-- `parseVarintLoop` (src/varint_bigendian.cc:43-56): one step for each byte. -/
def parseVarintLoopW (maxVal : Nat) : Nat → Bytes → ParseResult × Nat
  | _, [] => (.endOfData, 0)
  | result, b :: bs =>
    let result := result + (b &&& 0x7F).toNat
    if b &&& 0x80 = 0 then (.ok result bs, 1)
    else if result > maxVal >>> 7 then (.error, 1)
    else stepsThen 1 (parseVarintLoopW maxVal (result <<< 7) bs)

/-- `parseVarint` (src/varint_bigendian.cc:36-57). -/
def parseVarintW (maxVal : Nat) (buf : Bytes) : ParseResult × Nat := parseVarintLoopW maxVal 0 buf

/-- `Parsed.bind` (src/headerparser.h:204-227). -/
def bindW {α β : Type} (p : Parsed α × Nat) (f : α → Bytes → Parsed β × Nat) : Parsed β × Nat :=
  match p.1 with
  | .ok v rest => stepsThen p.2 (f v rest)
  | .endOfData => (.endOfData, p.2)
  | .error => (.error, p.2)

/-- `parseByte` (src/headerparser.cc:87-98). -/
def parseByteW : Bytes → Parsed UInt8 × Nat
  | [] => (.endOfData, 0)
  | b :: rest => (.ok b rest, 1)

/-- `parseInt32` (src/headerparser.cc:100-121). -/
def parseInt32W (s : Bytes) : Parsed Nat × Nat :=
  match parseVarintW maxVal32 s with
  | (.ok v rest, n) => (.ok v rest, n)
  | (.endOfData, n) => (.endOfData, n)
  | (.error, n) => (.error, n)

/-- `parseUInt32` (src/headerparser.cc:127-166). -/
def parseUInt32W (s : Bytes) : Parsed Nat × Nat :=
  match parseVarintW maxVal64 s with
  | (.ok v rest, n) => (if v > 0xFFFFFFFF then .error else .ok v rest, n)
  | (.endOfData, n) => (.endOfData, n)
  | (.error, n) => (.error, n)

/-- `parseSize` (src/headerparser.cc:168-176). -/
def parseSizeW (s : Bytes) : Parsed Nat × Nat := parseInt32W s

/-- `parseSourceSegment` (src/headerparser.cc:178-217). -/
def parseSourceSegmentW (fromSize : Nat) (s : Bytes) : Parsed (Nat × Nat) × Nat :=
  bindW (parseSizeW s) fun len s =>
    if len > fromSize then (.error, 0)
    else bindW (parseSizeW s) fun pos s =>
      if pos ≥ fromSize ∧ len > 0 then (.error, 0)
      else if pos + len > fromSize then (.error, 0)
      else (.ok (len, pos) s, 0)

/-- `parseWinIndicator` (src/headerparser.cc:219-258). -/
def parseWinIndicatorW (dictSize decodedSize : Nat) (allowTarget : Bool) (s : Bytes) :
    Parsed (UInt8 × Nat × Nat) × Nat :=
  bindW (parseByteW s) fun ind s =>
    let flags := ind &&& (vcdSource ||| vcdTarget)
    if flags = vcdSource then
      bindW (parseSourceSegmentW dictSize s) fun lp s => (.ok (ind, lp.1, lp.2) s, 0)
    else if flags = vcdTarget then
      if !allowTarget then (.error, 0)
      else bindW (parseSourceSegmentW decodedSize s) fun lp s => (.ok (ind, lp.1, lp.2) s, 0)
    else if flags = vcdSource ||| vcdTarget then (.error, 0)
    else (.ok (ind, 0, 0) s, 0)

/-- `parseDeltaIndicator` (src/headerparser.cc:286-298). -/
def parseDeltaIndicatorW (s : Bytes) : Parsed Unit × Nat :=
  bindW (parseByteW s) fun b s => if b &&& 7 ≠ 0 then (.error, 0) else (.ok () s, 0)

/-- `parseSectionLengths` (src/headerparser.cc:300-345). -/
def parseSectionLengthsW (hasChecksum : Bool) (deltaLen : Nat) (deltaStart : Bytes) (s : Bytes) :
    Parsed SectionLengths × Nat :=
  bindW (parseSizeW s) fun dataLen s =>
  bindW (parseSizeW s) fun instLen s =>
  bindW (parseSizeW s) fun addrLen s =>
  bindW (if hasChecksum then bindW (parseUInt32W s) fun c s => (.ok (some c) s, 0) else (.ok none s, 0))
    fun checksum s =>
      let headerLen := deltaStart.length - s.length
      if deltaLen ≠ headerLen + dataLen + instLen + addrLen then (.error, 0)
      else (.ok { dataLen, instLen, addrLen, checksum } s, 0)

/-- `readHeader` (src/vcdecoder.cc:1008-1122). The source segment is not copied: the program keeps a pointer to it. -/
def readHeaderW (L : Level) (s : Bytes) : Parsed WinHeader × Nat :=
  bindW (parseWinIndicatorW L.dict.length L.decoded.length L.allowTarget s) fun isp s =>
    let hasChecksum := L.allowExtensions && (isp.1 &&& vcdChecksum != 0)
    bindW (parseSizeW s) fun deltaLen deltaStart =>
    bindW (parseSizeW deltaStart) fun targetLen s =>
      if L.wouldExceed targetLen then (.error, 0)
      else
        bindW (parseDeltaIndicatorW s) fun _ s =>
        bindW (parseSectionLengthsW hasChecksum deltaLen deltaStart s) fun lens s =>
          let interleaved := L.allowExtensions && lens.dataLen == 0 && lens.addrLen == 0
          if !interleaved && s.length < lens.dataLen + lens.instLen + lens.addrLen then (.endOfData, 0)
          else
            let source :=
              if isp.1 &&& vcdSource ≠ 0 then L.dict.drop isp.2.2
              else if isp.1 &&& vcdTarget ≠ 0 then L.decoded.drop isp.2.2
              else []
            (.ok { srcLen := isp.2.1, source := source.take isp.2.1, targetLen := targetLen,
                   checksum := lens.checksum, interleaved := interleaved,
                   dataLen := lens.dataLen, instLen := lens.instLen, addrLen := lens.addrLen } s, 0)

/-- `fetchHalf` (src/decodetable.cc:61-90): one step for each iteration. -/
def fetchHalfW (t : CodeTable) : Bytes → Option UInt8 → Option (Half × Option UInt8 × Bytes) × Nat
  | s, some op => (some (t.second op, none, s), 1)
  | [], none => (none, 1)
  | op :: s, none =>
    let pending := if (t.second op).inst ≠ vcdNoop then some op else none
    let h := t.first op
    if h.inst = vcdNoop then stepsThen 1 (fetchHalfW t s pending)
    else (some (h, pending, s), 1)

/-- `getNextInstruction` (src/decodetable.cc:47-110). -/
def getNextInstructionW (t : CodeTable) (pending : Option UInt8) (s : Bytes) : NextInstruction × Nat :=
  match fetchHalfW t s pending with
  | (none, n) => (.endOfData [] none, n)
  | (some (h, pending', s'), n) =>
    if h.size = 0 then
      match parseVarintW maxVal32 s' with
      | (.error, m) => (.error, n + m)
      | (.endOfData, m) => (.endOfData s pending, n + m)
      | (.ok size rest, m) => (.inst h.inst size h.mode rest pending', n + m)
    else (.inst h.inst h.size.toNat h.mode s' pending', n)

/-- `decodeAddress` (src/addrcache.cc:265-317). -/
def AddrCache.decodeAddressW (c : AddrCache) (here : Int) (mode : Nat) (stream : Bytes) : DecodeResult × Nat :=
  if here < 0 then (.error, 0)
  else
    match stream with
    | [] => (.endOfData, 0)
    | b :: bs =>
      if c.isSameMode mode then
        match c.same[(mode - c.firstSameMode) * 256 + b.toNat]? with
        | none => (.fault .cacheOob, 1)
        | some a => (c.commitDecoded here a bs, 1)
      else
        match parseVarintW maxVal32 (b :: bs) with
        | (.error, n) => (.error, n)
        | (.endOfData, n) => (.endOfData, n)
        | (.ok enc rest, n) =>
          if mode = 0 then (c.commitDecoded here enc rest, n)
          else if mode = 1 then (c.commitDecoded here (here - enc) rest, n)
          else if c.isNearMode mode then
            match c.near[mode - 2]? with
            | none => (.fault .cacheOob, n)
            | some a =>
              if a + enc > int32Max then (.fault .nearOverflow, n)
              else (c.commitDecoded here ((a + enc : Nat) : Int) rest, n)
          else (.error, n)

/-! ## Window body -/

/-- `copyTarget` (src/vcdecoder.cc:1221-1229): one step for each iteration and one for each byte copied. -/
def copyTargetW (env : BodyEnv) : (fuel : Nat) → (decoded : Bytes) → (address tbd size : Nat) →
    Except Fault Bytes × Nat
  | 0, _, _, _, _ => (.error .diverge, 0)
  | fuel + 1, decoded, address, tbd, size =>
    if size > szSub tbd address then
      let n := szSub tbd address
      match readRange decoded (env.startPos + address) n with
      | .error f => (.error f, 1)
      | .ok bytes =>
        match appendTarget env decoded bytes with
        | .error f => (.error f, 1 + n)
        | .ok decoded => stepsThen (1 + n) (copyTargetW env fuel decoded (address + n) (tbd + n) (size - n))
    else
      (do let bytes ← readRange decoded (env.startPos + address) size
          appendTarget env decoded bytes, 1 + size)

/-- `copyBytes` (src/vcdecoder.cc:1202-1230): one step for each byte copied, and those of `copyTargetW`. -/
def copyBytesW (env : BodyEnv) (decoded : Bytes) (tbd address size : Nat) : Except Fault Bytes × Nat :=
  if address + size ≤ env.hdr.srcLen then
    (do let bytes ← readRange env.hdr.source address size
        appendTarget env decoded bytes, size)
  else if address < env.hdr.srcLen then
    let n := env.hdr.srcLen - address
    match (do let bytes ← readRange env.hdr.source address n
              appendTarget env decoded bytes : Except Fault Bytes) with
    | .error f => (.error f, n)
    | .ok decoded => stepsThen n (copyTargetW env (size - n + 1) decoded 0 (tbd + n) (size - n))
  else
    copyTargetW env (size + 1) decoded (address - env.hdr.srcLen) tbd size

/-- `decodeAdd` (src/vcdecoder.cc:1155-1163): one step for each byte copied. -/
def decodeAddW (env : BodyEnv) (cache : AddrCache) (decoded operand : Bytes) (size : Nat) : Exec × Nat :=
  if size > operand.length then (.endOfData, 0)
  else (.ofAppend (operand.drop size) cache (appendTarget env decoded (operand.take size)), size)

/-- `decodeRun` (src/vcdecoder.cc:1165-1173): one step for each byte written. -/
def decodeRunW (env : BodyEnv) (cache : AddrCache) (decoded operand : Bytes) (size : Nat) : Exec × Nat :=
  match operand with
  | [] => (.endOfData, 0)
  | b :: rest => (.ofAppend rest cache (appendTarget env decoded (List.replicate size b)), size)

/-- `decodeCopy` (src/vcdecoder.cc:1175-1231). -/
def decodeCopyW (env : BodyEnv) (cache : AddrCache) (decoded operand : Bytes) (size : Nat) (mode : UInt8) : Exec × Nat :=
  let tbd := Level.targetBytesDecoded env.startPos decoded
  match cache.decodeAddressW (toInt32 (env.hdr.srcLen + tbd)) mode.toNat operand with
  | (.error, n) => (.error, n)
  | (.endOfData, n) => (.endOfData, n)
  | (.fault f, n) => (.fault f, n)
  | (.ok address rest cache', n) =>
    (.ofAppend rest cache' (copyBytesW env decoded tbd address size).1, n + (copyBytesW env decoded tbd address size).2)

/-- `execute` (src/vcdecoder.cc:1269-1284). -/
def executeW (env : BodyEnv) (b : Body) (type : UInt8) (size : Nat) (mode : UInt8) (instRest : Bytes) : Exec × Nat :=
  let dataStream := if env.hdr.interleaved then instRest else b.data
  let addrStream := if env.hdr.interleaved then instRest else b.addr
  if type = vcdAdd then decodeAddW env b.cache b.decoded dataStream size
  else if type = vcdRun then decodeRunW env b.cache b.decoded dataStream size
  else if type = vcdCopy then decodeCopyW env b.cache b.decoded addrStream size mode
  else (.error, 0)

/-- `bodyLoop` (src/vcdecoder.cc:1241-1295): one step for each test of the loop's condition, and those of its body. -/
def bodyLoopW (env : BodyEnv) : (fuel : Nat) → Body → BodyResult × Nat
  | 0, _ => (.fault .diverge, 0)
  | fuel + 1, b =>
    let tbd := Level.targetBytesDecoded env.startPos b.decoded
    if tbd < env.hdr.targetLen then
      match getNextInstructionW env.table b.pending b.inst with
      | (.endOfData rest pending, n) => (.endOfData { b with inst := rest, pending := pending }, 1 + n)
      | (.error, n) => (.error, 1 + n)
      | (.inst type size mode instRest pending, n) =>
        if size > env.hdr.targetLen ∨ size + tbd > env.hdr.targetLen then (.error, 1 + n)
        else
          match executeW env b type size mode instRest with
          | (.endOfData, m) => (.endOfData b, 1 + n + m)
          | (.error, m) => (.error, 1 + n + m)
          | (.fault f, m) => (.fault f, 1 + n + m)
          | (.ok rest cache decoded, m) =>
            stepsThen (1 + n + m) (bodyLoopW env fuel (b.afterExec env type instRest pending rest cache decoded))
    else (.ok b, 1)

/-- `decodeBody` (src/vcdecoder.cc:1233-1337): one step for each byte of the window if it has a checksum. -/
def decodeBodyW (env : BodyEnv) (b : Body) : BodyResult × Nat :=
  match bodyLoopW env (2 * b.inst.length + 2) b with
  | (.ok b, n) =>
    let window := b.decoded.drop env.startPos
    if Level.targetBytesDecoded env.startPos b.decoded ≠ env.hdr.targetLen then (.error, n)
    else
      let m := n + (if env.hdr.checksum.isSome then (window.take env.hdr.targetLen).length else 0)
      if env.hdr.checksum.any fun c => computeAdler32 (window.take env.hdr.targetLen) != c then (.error, m)
      else if b.inst ≠ [] then (.error, m)
      else if env.hdr.interleaved then (.ok b, m)
      else if b.data ≠ [] then (.error, m)
      else if b.addr ≠ [] then (.error, m)
      else (.ok b, m)
  | r => r

/-! ## Windows -/

/-- `decodeWindowBody` (src/vcdecoder.cc:1373-1390). -/
def decodeWindowBodyW (L : Level) (w : OpenWindow) (cache : AddrCache) (s : Bytes) : WinResult × Nat :=
  let env : BodyEnv := { table := L.table, hdr := w.hdr, startPos := L.startPos }
  if w.hdr.interleaved then
    let avail := s.take w.expected
    let b : Body := { pending := w.pending, inst := avail, data := [], addr := [], cache := cache,
                      decoded := L.decoded }
    match decodeBodyW env b with
    | (.fault f, n) => (.fault f, n)
    | (.error, n) => (.error, n)
    | (.ok b', n) =>
      let parsed := avail.length - b'.inst.length
      (.ok { L with cache := some b'.cache, decoded := b'.decoded, win := none,
                    startPos := b'.decoded.length } (s.drop parsed), n)
    | (.endOfData b', n) =>
      let parsed := avail.length - b'.inst.length
      if w.expected - parsed > 0 then
        (.endOfData { L with cache := some b'.cache, decoded := b'.decoded,
                             win := some { w with expected := w.expected - parsed,
                                                  pending := b'.pending } } (s.drop parsed), n)
      else (.error, n)
  else
    let data := s.take w.hdr.dataLen
    let inst := (s.drop w.hdr.dataLen).take w.hdr.instLen
    let addr := (s.drop (w.hdr.dataLen + w.hdr.instLen)).take w.hdr.addrLen
    let b : Body := { pending := w.pending, inst, data, addr, cache := cache, decoded := L.decoded }
    match decodeBodyW env b with
    | (.fault f, n) => (.fault f, n)
    | (.error, n) => (.error, n)
    | (.endOfData _, n) => (.error, n)
    | (.ok b', n) =>
      (.ok { L with cache := some b'.cache, decoded := b'.decoded, win := none,
                    startPos := b'.decoded.length }
        (s.drop (w.hdr.dataLen + w.hdr.instLen + w.hdr.addrLen)), n)

/-- The number of elements `VCDiffAddressCache::Init` clears (src/addrcache.cc:81-88). -/
def AddrCache.cells (c : AddrCache) : Nat := c.nearSize + c.sameSize * 256

/-- `decodeWindow` (src/vcdecoder.cc:1339-1390): one step, those for the header and the body, and one for each element of the address
cache that is cleared. -/
def decodeWindowW (L : Level) (s : Bytes) : WinResult × Nat :=
  match L.win with
  | none =>
    match readHeaderW L s with
    | (.endOfData, n) => (.endOfData L s, 1 + n)
    | (.error, n) => (.error, 1 + n)
    | (.ok hdr rest, n) =>
      match L.cache with
      | none => (.error, 1 + n)
      | some c =>
        match c.init with
        | none => (.error, 1 + n)
        | some cache =>
          stepsThen (1 + n + c.cells) (decodeWindowBodyW { L with total := L.total + hdr.targetLen }
            { hdr := hdr, expected := hdr.instLen, pending := none } cache rest)
  | some w =>
    if !w.hdr.interleaved then (.error, 1)
    else
      match L.cache with
      | none => (.error, 1)
      | some cache => stepsThen 1 (decodeWindowBodyW L w cache s)

/-- `readFileHeader` (src/vcdecoder.cc:690-781): one step for each of the (at most five) fixed bytes, and those for the two sizes. -/
def readFileHeaderW (s : Bytes) : Parsed FileHeader × Nat :=
  match checkMagic s with
  | none => (.error, min s.length 5)
  | some false => (.endOfData, min s.length 5)
  | some true =>
    let version := s.getD 3 0
    let indicator := s.getD 4 0
    stepsThen (min s.length 5) <|
      if indicator &&& 1 ≠ 0 then (.error, 0)
      else if indicator &&& 2 ≠ 0 then
        bindW (parseInt32W (s.drop 5)) fun near rest =>
        bindW (parseInt32W rest) fun same rest =>
          if near > 255 then (.error, 0)
          else if same > 255 then (.error, 0)
          else (.ok { version, caches := some (near, same) } rest, 0)
      else (.ok { version, caches := none } (s.drop 5), 0)

/-! ## Chunks -/

/-- `windowLoop` (src/vcdecoder.cc:900-915): one step for each test of the loop's condition, those of `DecodeWindow`, and one for each
byte output by `FlushDecodedTarget`. -/
def windowLoopW : (fuel : Nat) → Level → Bytes → (out : Bytes) → WindowsResult × Nat
  | 0, _, _, _ => (.fault .diverge, 0)
  | fuel + 1, L, s, out =>
    if s = [] then (.done L s out, 1)
    else
      match decodeWindowW L s with
      | (.fault f, n) => (.fault f, 1 + n)
      | (.error, n) => (.error out, 1 + n)
      | (.endOfData L' rest, n) => (.done L' rest out, 1 + n)
      | (.ok L' rest, n) =>
        if L'.reachedPlanned then (.done L' rest out, 1 + n)
        else if !L'.allowTarget then
          stepsThen (1 + n + L'.flush.2.length) (windowLoopW fuel L'.flush.1 rest (out ++ L'.flush.2))
        else stepsThen (1 + n) (windowLoopW fuel L' rest out)

/-- `endChunk` (src/vcdecoder.cc:921-924): one step for each byte kept and for each byte output. -/
def endChunkW (L : Level) (nested : List Level) (rest out : Bytes) : ChunkResult × Nat :=
  (endChunk L nested rest out, rest.length + (L.decoded.length - L.outPos))

/-- `decodeChunkWindows` (src/vcdecoder.cc:899-924). -/
def decodeChunkWindowsW (L : Level) (s : Bytes) : ChunkResult × Nat :=
  match windowLoopW (s.length + 2) L s [] with
  | (.fault f, n) => (.fault f, n)
  | (.error out, n) => (.error ({ L with unparsed := [], decoded := [] } : Level).reset out, n)
  | (.done L' rest out, n) => stepsThen n (endChunkW L' [] rest out)

/-- `afterCodeTableChunk` (src/vcdecoder.cc:824-847): one step for each byte of the new table when it is copied from the string, when
it is checked (src/codetable.cc:231-272) and when it is copied to the reader. -/
def afterCodeTableChunkW (L : Level) (n : Level) (ns : List Level) (s text : Bytes) : ChunkResult × Nat :=
  let str := L.tableString ++ text
  let fail (L : Level) : ChunkResult :=
    .error ({ L with unparsed := [], decoded := [], tableString := str } : Level).reset []
  if str.length < codeTableSize then
    endChunkW { L with tableString := str } (n :: ns) [] []
  else if !n.isComplete (!ns.isEmpty) then (fail L, 0)
  else if h : str.length = codeTableSize then
    if n.unparsed.length > s.length then (.fault .assertion, 0)
    else
      let rest := s.drop (s.length - n.unparsed.length)
      let t := CodeTable.ofBytes str h
      let maxMode := (L.cache.map AddrCache.lastMode).getD 0
      stepsThen (3 * codeTableSize) (decodeChunkWindowsW
        { L with tableString := [], table := if t.validate maxMode then t else L.table } rest)
  else (fail L, 0)

/-- `decodeChunkFuel` (src/vcdecoder.cc:880-925, 808-848). If there are bytes from earlier calls, the new ones are appended to them;
all of them are counted, because the string may have to be moved. -/
def decodeChunkFuelW : (fuel : Nat) → Level → List Level → (data : Bytes) → ChunkResult × Nat
  | 0, _, _, _ => (.fault .diverge, 0)
  | fuel + 1, L, nested, data =>
    if !L.started then (.error L.reset [], 1)
    else
      let s := L.unparsed ++ data
      let fail (L : Level) : ChunkResult :=
        .error ({ L with unparsed := [], decoded := [] } : Level).reset []
      let readCustomCodeTable (L : Level) (nested : List Level) (s : Bytes) : ChunkResult × Nat :=
        match nested with
        | [] => decodeChunkWindowsW L s
        | n :: ns =>
          match decodeChunkFuelW fuel n ns s with
          | (.fault f, k) => (.fault f, k)
          | (.error _ _, k) => (fail L, k)
          | (.ok n' ns' text, k) => stepsThen k (afterCodeTableChunkW L n' ns' s text)
      stepsThen (1 + (if L.unparsed = [] then 0 else s.length)) <|
        match L.cache with
        | some _ => readCustomCodeTable L nested s
        | none =>
          match readFileHeaderW s with
          | (.error, k) => (fail L, k)
          | (.endOfData, k) => stepsThen k (endChunkW L nested s [])
          | (.ok hdr rest, k) =>
            stepsThen k <|
              match hdr.caches with
              | none =>
                readCustomCodeTable
                  { L with version := hdr.version, cache := some AddrCache.newDefault } nested rest
              | some (near, same) =>
                readCustomCodeTable
                  { L with version := hdr.version, cache := some (AddrCache.new near same),
                           tableString := [] } [Level.forCodeTable] rest

namespace Decoder

/-- `decodeChunk` (src/vcdecoder.cc:1403-1408). -/
def decodeChunkW (d : Decoder) (data : Bytes) : ChunkResult × Nat :=
  decodeChunkFuelW (d.depthBound data) d.top d.nested data

/-- The number of steps of one `DecodeChunk`. -/
def chunkSteps (d : Decoder) (data : Bytes) : Nat := (d.decodeChunkW data).2

/-- The number of steps of a sequence of calls: those of the calls of `DecodeChunk`. (The others have no loops. Dictionaries are
not copied; `StartDecoding` keeps a pointer, src/vcdecoder.cc:657.) -/
def callsSteps (d : Decoder) : List DecoderCall → Nat
  | [] => 0
  | c :: cs =>
    (match c with
      | .chunk data => d.chunkSteps data
      | _ => 1) +
    (match d.call c with
      | .error _ => 0
      | .ok (_, d') => d'.callsSteps cs)

/-- The number of steps of `VCDiffDecoder::Decode` (src/vcdecoder.cc:1428-1440). -/
def decodeToSteps (d : Decoder) (dict encoding : Bytes) : Nat := 1 + (d.start dict).chunkSteps encoding

end Decoder
end Vcd

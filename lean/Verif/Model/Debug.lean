import Verif.Model.Decoder

/-!
# Debug builds of the decoder: `VCD_DFATAL` (src/logging.h:25-46)

`VCD_DFATAL << ... << VCD_ENDL` logs a message. In a build with `NDEBUG` the code after it is then executed; that is what
`Verif.Model.Decoder` and the modules below it model. In a build without `NDEBUG` the message is followed by `exit(1)`.

Up to the first such place the two builds do the same. The functions below say which place, if any, is the first one that
the execution of a function of the decoder comes to; they follow the functions with the same names without `Site`, and
use these for the state in which the next part of the function is entered.

Places that are not here, because the model has no state in which their condition could be met: src/vcdecoder.cc:814
(`custom_code_table_` is set together with the nested decoder), :1236 (`DecodeBody` is entered at the input position),
:1342 (`parent_` is set by the constructor), src/headerparser.cc:53 (a position before the start of the chunk), :262, :279
and :316 (order of calls of the header parser, which is fixed in `ReadHeader`, see `Vcd.readHeader`).
-/

namespace Vcd

/-- The places where the decoder uses `VCD_DFATAL`. -/
inductive Site where
  /-- src/vcdecoder.cc:654: `StartDecoding() called twice without FinishDecoding()`. -/
  | startTwice
  /-- src/vcdecoder.cc:885: `DecodeChunk() called without StartDecoding()`. -/
  | notStarted
  /-- src/vcdecoder.cc:483: `SetAllowVcdTarget() called after StartDecoding()`. -/
  | allowTargetLate
  /-- src/vcdecoder.cc:773: `Near cache size ... is invalid`. -/
  | nearSize
  /-- src/vcdecoder.cc:778: `Same cache size ... is invalid`. -/
  | sameSize
  /-- src/vcdecoder.cc:1355: `Error initializing address cache`. -/
  | cacheInit
  /-- src/addrcache.cc:270: `DecodeAddress was passed a negative value for here_address`. -/
  | negativeHere
  /-- src/addrcache.cc:304: `Invalid mode value ... passed to DecodeAddress`. -/
  | invalidMode
  /-- src/vcdecoder.cc:1195: `unexpected address ... returned from DecodeAddress`. -/
  | address
  /-- src/vcdecoder.cc:1281: `Unexpected instruction type ... in opcode stream`. -/
  | instructionType
  /-- src/decodetable.h:111: `last_instruction_start past end of instructions_and_sizes in UnGetInstruction`. -/
  | ungetPosition
  /-- src/decodetable.h:117: `two pending instructions in a row in UnGetInstruction`. -/
  | ungetPending
  /-- src/vcdecoder.cc:1364: `Resumed decoding of a delta file window when interleaved format is not being used`. -/
  | resumed
  /-- src/headerparser.cc:42: `position advanced by ... bytes, current unparsed size ...`. -/
  | advance
  /-- src/headerparser.cc:59: `new data position ... is beyond end of data`. -/
  | setPosition
  /-- src/headerparser.cc:69: `specified number of remaining bytes ... is greater than unparsed data size`. -/
  | finishExcept
  /-- src/vcdecoder.cc:418: `Decoded data size ... exceeds planned target file size`. -/
  | planned
  /-- src/vcdecoder.cc:833: `Decoded custom code table size (...) does not match size of a code table`. -/
  | tableSize
  deriving DecidableEq, Repr

/-- `DecodeAddress` (src/addrcache.cc:265-317). -/
def AddrCache.decodeAddressSite (c : AddrCache) (here : Int) (mode : Nat) (stream : Bytes) : Option Site :=
  if here < 0 then some .negativeHere
  else
    match stream with
    | [] => none
    | b :: bs =>
      if c.isSameMode mode then none
      else
        match parseVarint32 (b :: bs) with
        | .ok _ _ => if mode = 0 ∨ mode = 1 ∨ c.isNearMode mode then none else some .invalidMode
        | _ => none

/-- `DecodeCopy` up to the address check (src/vcdecoder.cc:1175-1201). -/
def decodeCopySite (env : BodyEnv) (cache : AddrCache) (decoded operand : Bytes) (mode : UInt8) : Option Site :=
  let here := toInt32 (env.hdr.srcLen + Level.targetBytesDecoded env.startPos decoded)
  (cache.decodeAddressSite here mode.toNat operand).or
    (match cache.decodeAddress here mode.toNat operand with
     | .ok address _ _ => if (address : Int) > here then some .address else none
     | _ => none)

/-- The `switch (instruction)` of `DecodeBody` (src/vcdecoder.cc:1269-1284). `DecodeAdd` and `DecodeRun` advance by a
number of bytes they have just compared with the number of bytes there are. -/
def executeSite (env : BodyEnv) (b : Body) (type mode : UInt8) (instRest : Bytes) : Option Site :=
  if type = vcdAdd then none
  else if type = vcdRun then none
  else if type = vcdCopy then
    decodeCopySite env b.cache b.decoded (if env.hdr.interleaved then instRest else b.addr) mode
  else some .instructionType

/-- `UnGetInstruction` (src/decodetable.h:108-122): the position and pending second instruction to go back to, and the
present ones. -/
def ungetSite (last : Bytes) (lastPending : Option UInt8) (now : Bytes) (pending : Option UInt8) : Option Site :=
  if last.length < now.length then some .ungetPosition
  else if pending.isSome && lastPending.isSome then some .ungetPending
  else none

/-- `GetNextInstruction` (src/decodetable.cc:47-110), which calls `UnGetInstruction` if the size is incomplete. -/
def getNextInstructionSite (t : CodeTable) (pending : Option UInt8) (s : Bytes) : Option Site :=
  match fetchHalf t s pending with
  | none => none
  | some (h, pending', s') =>
    if h.size = 0 then
      match parseVarint32 s' with
      | .endOfData => ungetSite s pending s' pending'
      | _ => none
    else none

/-- The loop of `DecodeBody` (src/vcdecoder.cc:1241-1295). -/
def bodyLoopSite (env : BodyEnv) : (fuel : Nat) → Body → Option Site
  | 0, _ => none
  | fuel + 1, b =>
    let tbd := Level.targetBytesDecoded env.startPos b.decoded
    if tbd < env.hdr.targetLen then
      (getNextInstructionSite env.table b.pending b.inst).or
        (match getNextInstruction env.table b.pending b.inst with
         | .inst type size mode instRest pending =>
           if size > env.hdr.targetLen ∨ size + tbd > env.hdr.targetLen then none
           else
             (executeSite env b type mode instRest).or
               (match execute env b type size mode instRest with
                | .endOfData => ungetSite b.inst b.pending instRest pending
                | .ok rest cache decoded =>
                  bodyLoopSite env fuel (b.afterExec env type instRest pending rest cache decoded)
                | _ => none)
         | _ => none)
    else none

/-- `DecodeBody` with the updates of `parseable_chunk` (src/vcdecoder.cc:1233-1337): `Advance` in
`UpdateInstructionPointer` (lines 1124-1132), or `SetPosition` (line 1331). -/
def decodeWindowBodySite (L : Level) (w : OpenWindow) (cache : AddrCache) (s : Bytes) : Option Site :=
  let env : BodyEnv := { table := L.table, hdr := w.hdr, startPos := L.startPos }
  if w.hdr.interleaved then
    let avail := s.take w.expected
    let b : Body := { pending := w.pending, inst := avail, data := [], addr := [], cache := cache,
                      decoded := L.decoded }
    let advance (b' : Body) : Option Site :=
      if b'.inst.length > avail.length ∨ avail.length - b'.inst.length > s.length then some .advance else none
    (bodyLoopSite env (2 * b.inst.length + 2) b).or
      (match decodeBody env b with
       | .ok b' => advance b'
       | .endOfData b' => advance b'
       | _ => none)
  else
    let data := s.take w.hdr.dataLen
    let inst := (s.drop w.hdr.dataLen).take w.hdr.instLen
    let addr := (s.drop (w.hdr.dataLen + w.hdr.instLen)).take w.hdr.addrLen
    let b : Body := { pending := w.pending, inst, data, addr, cache := cache, decoded := L.decoded }
    (bodyLoopSite env (2 * b.inst.length + 2) b).or
      (match decodeBody env b with
       | .ok _ => if w.hdr.dataLen + w.hdr.instLen + w.hdr.addrLen > s.length then some .setPosition else none
       | _ => none)

/-- `DecodeWindow` (src/vcdecoder.cc:1339-1390) with the `Advance` at the end of `ReadHeader` (lines 1117-1118). -/
def decodeWindowSite (L : Level) (s : Bytes) : Option Site :=
  match L.win with
  | none =>
    match readHeader L s with
    | .ok hdr rest =>
      if rest.length > s.length then some .advance
      else
        match L.cache.bind AddrCache.init with
        | none => some .cacheInit
        | some cache =>
          decodeWindowBodySite { L with total := L.total + hdr.targetLen }
            { hdr := hdr, expected := hdr.instLen, pending := none } cache rest
    | _ => none
  | some w =>
    if !w.hdr.interleaved then some .resumed
    else
      match L.cache with
      | none => none
      | some cache => decodeWindowBodySite L w cache s

/-- `ReadDeltaFileHeader` and `InitCustomCodeTable` (src/vcdecoder.cc:690-806) with the `Advance` at the end
(lines 749-756). -/
def readFileHeaderSite (s : Bytes) : Option Site :=
  match checkMagic s with
  | some true =>
    let indicator := s.getD 4 0
    if indicator &&& 1 ≠ 0 then none
    else if indicator &&& 2 ≠ 0 then
      match parseInt32 (s.drop 5) with
      | .ok near rest =>
        match parseInt32 rest with
        | .ok same rest =>
          if near > 255 then some .nearSize
          else if same > 255 then some .sameSize
          else if rest.length > s.length then some .advance
          else none
        | _ => none
      | _ => none
    else if 5 > s.length then some .advance
    else none
  | _ => none

/-- `ReachedPlannedTargetFileSize` (src/vcdecoder.cc:408-425). -/
def Level.plannedSite (L : Level) : Option Site :=
  match L.planned with
  | none => none
  | some planned => if L.total > planned then some .planned else none

/-- `IsDecodingComplete` (src/vcdecoder.cc:445-469). -/
def Level.isCompleteSite (L : Level) (hasNested : Bool) : Option Site :=
  match L.cache with
  | none => none
  | some _ => if hasNested then none else if L.win.isSome then none else L.plannedSite

/-- The loop over windows in `DecodeChunk` (src/vcdecoder.cc:900-915). -/
def windowLoopSite : (fuel : Nat) → Level → Bytes → Option Site
  | 0, _, _ => none
  | fuel + 1, L, s =>
    if s = [] then none
    else
      (decodeWindowSite L s).or
        (match decodeWindow L s with
         | .ok L' rest =>
           L'.plannedSite.or
             (if L'.reachedPlanned then none
              else if !L'.allowTarget then windowLoopSite fuel L'.flush.1 rest
              else windowLoopSite fuel L' rest)
         | _ => none)

/-- The part of `ReadCustomCodeTable` after the nested `DecodeChunk` has succeeded (src/vcdecoder.cc:824-847), and the
loop over windows. -/
def afterCodeTableChunkSite (L : Level) (n : Level) (ns : List Level) (s text : Bytes) : Option Site :=
  let str := L.tableString ++ text
  if str.length < codeTableSize then none
  else
    (n.isCompleteSite (!ns.isEmpty)).or
      (if !n.isComplete (!ns.isEmpty) then none
       else if h : str.length = codeTableSize then
         if n.unparsed.length > s.length then some .finishExcept
         else
           let rest := s.drop (s.length - n.unparsed.length)
           let t := CodeTable.ofBytes str h
           let maxMode := (L.cache.map AddrCache.lastMode).getD 0
           windowLoopSite (rest.length + 2)
             { L with tableString := [], table := if t.validate maxMode then t else L.table } rest
       else some .tableSize)

/-- `DecodeChunk` (src/vcdecoder.cc:880-925) with `ReadCustomCodeTable` (lines 808-848). `fuel` bounds the nesting
depth. The nested decoder that `InitCustomCodeTable` makes is new, so that its `StartDecoding` is not refused. -/
def decodeChunkSiteFuel : (fuel : Nat) → Level → List Level → (data : Bytes) → Option Site
  | 0, _, _, _ => none
  | fuel + 1, L, nested, data =>
    if !L.started then some .notStarted
    else
      let s := L.unparsed ++ data
      let readCustomCodeTable (L : Level) (nested : List Level) (s : Bytes) : Option Site :=
        match nested with
        | [] => windowLoopSite (s.length + 2) L s
        | n :: ns =>
          (decodeChunkSiteFuel fuel n ns s).or
            (match decodeChunkFuel fuel n ns s with
             | .ok n' ns' text => afterCodeTableChunkSite L n' ns' s text
             | _ => none)
      match L.cache with
      | some _ => readCustomCodeTable L nested s
      | none =>
        (readFileHeaderSite s).or
          (match readFileHeader s with
           | .ok hdr rest =>
             match hdr.caches with
             | none =>
               readCustomCodeTable
                 { L with version := hdr.version, cache := some AddrCache.newDefault } nested rest
             | some (near, same) =>
               readCustomCodeTable
                 { L with version := hdr.version, cache := some (AddrCache.new near same),
                          tableString := [] } [Level.forCodeTable] rest
           | _ => none)

namespace Decoder

/-- `VCDiffStreamingDecoder::DecodeChunk` (src/vcdecoder.cc:1403-1408). -/
def decodeChunkSite (d : Decoder) (data : Bytes) : Option Site :=
  decodeChunkSiteFuel (d.depthBound data) d.top d.nested data

/-- The first place with `VCD_DFATAL` that a call comes to: `StartDecoding` (src/vcdecoder.cc:651-664), `DecodeChunk`,
`FinishDecoding` (lines 929-944), `SetAllowVcdTarget` (lines 481-488); `SetMaximumTargetFileSize` and
`SetMaximumTargetWindowSize` (lines 378-392) have none. -/
def callSite (d : Decoder) : DecoderCall → Option Site
  | .start _ => if d.top.started then some .startTwice else none
  | .chunk data => d.decodeChunkSite data
  | .finish => if d.top.started then d.top.isCompleteSite (!d.nested.isEmpty) else none
  | .setAllowTarget _ => if d.top.started then some .allowTargetLate else none
  | .setMaxFile _ => none
  | .setMaxWin _ => none

end Decoder

/-- The outcome of calls in a debug build: the process has ended with `exit(1)` (src/logging.h:30), or what the calls do
in a release build. -/
inductive DebugResult (α : Type) where
  | exits (site : Site)
  | returns (r : α)
  | fault (f : Fault)
  deriving DecidableEq

namespace Decoder

/-- One API call in a debug build. -/
def debugCall (d : Decoder) (c : DecoderCall) : DebugResult (DecoderReply × Decoder) :=
  match d.callSite c with
  | some site => .exits site
  | none =>
    match d.call c with
    | .ok r => .returns r
    | .error f => .fault f

/-- A sequence of API calls in a debug build. -/
def debugCalls (d : Decoder) : List DecoderCall → DebugResult (List DecoderReply × Decoder)
  | [] => .returns ([], d)
  | c :: cs =>
    match d.debugCall c with
    | .exits site => .exits site
    | .fault f => .fault f
    | .returns (r, d') =>
      match d'.debugCalls cs with
      | .exits site => .exits site
      | .fault f => .fault f
      | .returns (rs, d'') => .returns (r :: rs, d'')

end Decoder
end Vcd

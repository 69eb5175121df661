import Verif.Model.Decoder
import Verif.Model.Encoder

/-!
# Output strings (src/google/output_string.h), and what the decoder and the encoder do with them

`Model.Decoder` and `Model.Writer` describe the text that is output. Here is the sequence of
operations on the output string in which it is output, with the requests for space
(`ReserveAdditionalBytes`).
-/

namespace Vcd

/-- An operation of `OutputStringInterface` (src/google/output_string.h:47-60) that changes the string's
contents or capacity; `push_back` is an `append` of one byte. -/
inductive OutOp where
  | append (bytes : Bytes)
  | reserve (additional : Nat)
  deriving DecidableEq, Repr

/-- What can be observed on the output string, and `window`: the size of a further target window has
been read from the delta file. -/
inductive OutEvent where
  | window
  | op (o : OutOp)
  deriving DecidableEq, Repr

namespace Level

/-- `target_window_length_` while no window is open (`!found_header_`) and `s` is what is left to
parse (src/vcdecoder.cc:1075-1083; src/headerparser.cc:260-275): it is set by `ReadHeader` even if the
header turns out to be incomplete, and 0 after `Reset`, here `none`. -/
def lengthRead (L : Level) (s : Bytes) : Option Nat :=
  match (parseWinIndicator L.dict.length L.decoded.length L.allowTarget s).bind fun _ s =>
      (parseSize s).bind fun _ s => parseSize s with
  | .ok n _ => some n
  | _ => none

/-- `TargetBytesRemaining` (src/vcdecoder.cc:1138-1145). -/
def targetBytesRemaining (L : Level) (rest : Bytes) : Nat :=
  match L.win with
  | some w => if w.hdr.targetLen = 0 then 0 else szSub w.hdr.targetLen (targetBytesDecoded L.startPos L.decoded)
  | none =>
    match L.lengthRead rest with
    | none => 0
    | some n => if n = 0 then 0 else szSub n (targetBytesDecoded L.startPos L.decoded)

/-- The operations of `AppendNewOutputText` (src/vcdecoder.cc:860-878). -/
def appendNewOps (L : Level) (rest : Bytes) : List OutOp :=
  let text := L.decoded.drop L.outPos
  if text.length > 0 then
    (if L.targetBytesRemaining rest > 0 then [.reserve (text.length + L.targetBytesRemaining rest)] else []) ++
      [.append text]
  else []

end Level

/-- The events of the loop over windows in `DecodeChunk` (`windowLoop`), and the state at its end, if it
ends without an error. `seen`: the size of the window that comes first has been read in an earlier
call. `FlushDecodedTarget` (src/vcdecoder.cc:850-858) appends without a reservation. -/
def windowLoopEvents : (fuel : Nat) → (seen : Bool) → Level → Bytes → List OutEvent × Option (Level × Bytes)
  | 0, _, _, _ => ([], none)
  | fuel + 1, seen, L, s =>
    if s = [] then ([], some (L, s))
    else
      let begun := if L.win.isNone && !seen && (L.lengthRead s).isSome then [OutEvent.window] else []
      match decodeWindow L s with
      | .fault _ => (begun, none)
      | .error => (begun, none)
      | .endOfData L' rest => (begun, some (L', rest))
      | .ok L' rest =>
        if L'.reachedPlanned then (begun, some (L', rest))
        else if !L'.allowTarget then
          let r := windowLoopEvents fuel false L'.flush.1 rest
          (begun ++ .op (.append L'.flush.2) :: r.1, r.2)
        else
          let r := windowLoopEvents fuel false L' rest
          (begun ++ r.1, r.2)

/-- The events of `DecodeChunk` from the loop over windows on (`decodeChunkWindows`). -/
def chunkWindowsEvents (seen : Bool) (L : Level) (s : Bytes) : List OutEvent :=
  let r := windowLoopEvents (s.length + 2) seen L s
  r.1 ++
    match r.2 with
    | none => []
    | some (L', rest) => (L'.appendNewOps rest).map .op

/-- The events of `DecodeChunk` while a custom code table is being read (`afterCodeTableChunk`): the
nested decoder writes to a string of its own (src/vcdecoder.cc:811-813). -/
def codeTableEvents (L n : Level) (ns : List Level) (s : Bytes) : List OutEvent :=
  match Decoder.decodeChunk { top := n, nested := ns } s with
  | .ok n' ns' text =>
    let str := L.tableString ++ text
    if str.length < codeTableSize then []
    else if !n'.isComplete (!ns'.isEmpty) then []
    else if h : str.length = codeTableSize then
      if n'.unparsed.length > s.length then []
      else
        let rest := s.drop (s.length - n'.unparsed.length)
        let t := CodeTable.ofBytes str h
        let maxMode := (L.cache.map AddrCache.lastMode).getD 0
        chunkWindowsEvents false
          { L with tableString := [], table := if t.validate maxMode then t else L.table } rest
    else []
  | _ => []

/-- The events of one `DecodeChunk` (`decodeChunkFuel`). -/
def Decoder.chunkEvents (d : Decoder) (data : Bytes) : List OutEvent :=
  let L := d.top
  if !L.started then []
  else
    let s := L.unparsed ++ data
    match L.cache with
    | some _ =>
      match d.nested with
      | [] => chunkWindowsEvents (L.lengthRead L.unparsed).isSome L s
      | n :: ns => codeTableEvents L n ns s
    | none =>
      match readFileHeader s with
      | .ok hdr rest =>
        match hdr.caches with
        | none => chunkWindowsEvents false { L with version := hdr.version, cache := some AddrCache.newDefault } rest
        | some (near, same) =>
          codeTableEvents
            { L with version := hdr.version, cache := some (AddrCache.new near same), tableString := [] }
            Level.forCodeTable [] rest
      | _ => []

/-- The events of a sequence of API calls, up to a fault. Only `DecodeChunk` has an output string. -/
def Decoder.events (d : Decoder) : List DecoderCall → List OutEvent
  | [] => []
  | c :: cs =>
    (match c with
     | .chunk data => d.chunkEvents data
     | _ => []) ++
    match d.call c with
    | .error _ => []
    | .ok (_, d') => d'.events cs

/-! ## The encoder -/

namespace Writer

/-- `delta_window_size` (src/encodetable.cc:313-318). -/
def windowSize (w : Writer) : Nat :=
  w.deltaLength + 1 + sizeLength w.dictionarySize + sizeLength 0 + sizeLength w.deltaLength

/-- The operations of `Output` on the output string (src/encodetable.cc:319-360). -/
def outputOps (w : Writer) : Except Fault (List OutOp) :=
  if w.inst = [] then .ok []
  else do
    let indicator : UInt8 := if w.checksum.isSome then 0x05 else 0x01
    let dictionarySize ← sizeBytes w.dictionarySize
    let position ← sizeBytes 0
    let length ← sizeBytes w.deltaLength
    let target ← sizeBytes w.targetLength
    let dataLength ← sizeBytes w.data.length
    let instLength ← sizeBytes w.inst.length
    let addrLength ← sizeBytes w.addr.length
    let checksum ← checksumBytes w.checksum
    .ok ([.reserve w.windowSize, .append [indicator], .append dictionarySize, .append position, .append length,
      .append target, .append [0x00], .append dataLength, .append instLength, .append addrLength] ++
      (if w.checksum.isSome then [.append checksum] else []) ++
      [.append w.data, .append w.inst, .append w.addr])

/-- The operations on the output string of a sequence of calls from the engine. -/
def callsOps (w : Writer) : List CoderCall → Except Fault (List OutOp)
  | [] => .ok []
  | c :: cs => do
    let ops ← match c with
      | .output => w.outputOps
      | _ => .ok []
    match w.call c with
    | .error f => .error f
    | .ok (_, w') => (w'.callsOps cs).map (ops ++ ·)

end Writer

/-- The operations of the JSON writer on the output string in a sequence of calls from the engine: each `Output` is one
`append` (src/jsonwriter.cc:36-40), and nothing else has the string. -/
def JsonWriter.callsOps (w : JsonWriter) : List CoderCall → List OutOp
  | [] => []
  | c :: cs =>
    (match c with
     | .output => [.append w.output]
     | _ => []) ++ (w.call c).2.callsOps cs

/-- The operations of `EncodeChunk` on the output string (src/vcencoder.cc:136-153); none if the call is refused. -/
def Encoder.chunkOps (e : Encoder) (data : Bytes) : Except Fault (List OutOp) :=
  if !e.allowed then .ok []
  else
    match e.coder with
    | .binary w =>
      let w := if e.flags &&& 2 ≠ 0 then w.addChecksum (computeAdler32 data) else w
      match e.engine.encode e.lookForTargetMatches data with
      | .error f => .error f
      | .ok calls => w.callsOps calls
    | .json w =>
      if !JsonWriter.isAscii data then .ok []
      else
        match e.engine.encode e.lookForTargetMatches data with
        | .error f => .error f
        | .ok calls => .ok (w.callsOps calls)

end Vcd

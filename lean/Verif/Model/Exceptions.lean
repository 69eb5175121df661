import Verif.Model.OutputString
import Verif.Model.SimpleDecoder

/-!
# Exceptions

The library catches no exceptions. They come from the caller's output string, and from `std::string`, `std::vector` and `new` when memory runs out.
Here are the members of decoders and encoders after an exception has passed through a call.

For the decoder: an operation on the output string of `DecodeChunk` throws. (For exceptions in other places the theorem about decoders holds of all
states, so no definition is needed.) For the encoder: an operation on the output string, or an append to a string of the writer, throws.
An append to a string of the writer that throws leaves this string as it was, which `std::string` guarantees; an append to the caller's
string may have appended some of its bytes. That the hash table of the target (`target_hash`, src/vcdiffengine.cc:158-168) is then never
deleted is not modelled.
-/

namespace Vcd

/-! ## The decoder -/

/-- How the loop over windows of `DecodeChunk` ends if the operation number `k` (from 0) on the output string throws. -/
inductive LoopStop where
  /-- The exception comes from `FlushDecodedTarget`. -/
  | thrown (L : Level)
  /-- The loop ends before that, as in `windowLoopEvents`, with `k` operations to go before the exception. -/
  | ended (r : Option (Level × Bytes)) (k : Nat)

/-- The loop over windows (src/vcdecoder.cc:900-916), as in `windowLoopEvents`. The `append` of `FlushDecodedTarget` (lines 852-854) comes
before its assignments. -/
def windowLoopThrow : (fuel : Nat) → Level → Bytes → (k : Nat) → LoopStop
  | 0, _, _, k => .ended none k
  | fuel + 1, L, s, k =>
    if s = [] then .ended (some (L, s)) k
    else
      match decodeWindow L s with
      | .fault _ => .ended none k
      | .error => .ended none k
      | .endOfData L' rest => .ended (some (L', rest)) k
      | .ok L' rest =>
        if L'.reachedPlanned then .ended (some (L', rest)) k
        else if !L'.allowTarget then
          match k with
          | 0 => .thrown L'
          | k + 1 => windowLoopThrow fuel L'.flush.1 rest k
        else windowLoopThrow fuel L' rest k

/-- `DecodeChunk` from the loop over windows on (src/vcdecoder.cc:899-924). `buffer` is what `unparsed_bytes_` contains during the loop; it is
assigned to before `AppendNewOutputText` (lines 921-923), which reserves and appends before it moves `decoded_target_output_position_`
(lines 870-876). `none` if there is no such operation. -/
def chunkWindowsThrow (buffer : Bytes) (L : Level) (s : Bytes) (k : Nat) : Option Level :=
  match windowLoopThrow (s.length + 2) L s k with
  | .thrown L' => some { L' with unparsed := buffer }
  | .ended none _ => none
  | .ended (some (L', rest)) k =>
    if k < (L'.appendNewOps rest).length then some { L' with unparsed := rest } else none

/-- `DecodeChunk` while a custom code table is being read, as in `codeTableEvents`. -/
def codeTableThrow (buffer : Bytes) (L n : Level) (ns : List Level) (s : Bytes) (k : Nat) : Option Level :=
  match Decoder.decodeChunk { top := n, nested := ns } s with
  | .ok n' ns' text =>
    let str := L.tableString ++ text
    if str.length < codeTableSize then none
    else if !n'.isComplete (!ns'.isEmpty) then none
    else if h : str.length = codeTableSize then
      if n'.unparsed.length > s.length then none
      else
        let rest := s.drop (s.length - n'.unparsed.length)
        let t := CodeTable.ofBytes str h
        let maxMode := (L.cache.map AddrCache.lastMode).getD 0
        chunkWindowsThrow buffer { L with tableString := [], table := if t.validate maxMode then t else L.table } rest k
    else none
  | _ => none

/-- The decoder after a call of `DecodeChunk` (src/vcdecoder.cc:880-925) in which operation number `k` on the output string throws; `none` if there is
no such operation. New data are appended to `unparsed_bytes_` if there are some in it (lines 890-894). -/
def Decoder.chunkThrow (d : Decoder) (data : Bytes) (k : Nat) : Option Decoder :=
  let L := d.top
  if !L.started then none
  else
    let s := L.unparsed ++ data
    let buffer := if L.unparsed = [] then [] else s
    (match L.cache with
    | some _ =>
      match d.nested with
      | [] => chunkWindowsThrow buffer L s k
      | n :: ns => codeTableThrow buffer L n ns s k
    | none =>
      match readFileHeader s with
      | .ok hdr rest =>
        match hdr.caches with
        | none => chunkWindowsThrow buffer { L with version := hdr.version, cache := some AddrCache.newDefault } rest k
        | some (near, same) =>
          codeTableThrow buffer { L with version := hdr.version, cache := some (AddrCache.new near same), tableString := [] }
            Level.forCodeTable [] rest k
      | _ => none).map fun L => { top := L, nested := [] }

/-- What has been appended to the output string when operation number `k` throws, if this is an append and the string has then taken `part` of its
bytes. -/
def appendedBefore (ops : List OutOp) (k part : Nat) : Bytes :=
  ((ops.take k).flatMap fun
    | .append bytes => bytes
    | .reserve _ => []) ++
  match ops[k]? with
  | some (.append bytes) => bytes.take part
  | _ => []

/-- The operations of `DecodeChunk` on the output string. -/
def Decoder.chunkOps (d : Decoder) (data : Bytes) : List OutOp :=
  (d.chunkEvents data).filterMap fun
    | .op o => some o
    | .window => none

/-- The decoder of a `VCDiffDecoder` after a call of `Decode` (src/vcdecoder.cc:1428-1440) in which operation number `k` on the target string throws
(operations from `DecodeChunk` on; there are none in `FinishDecoding`). -/
def Decoder.decodeToThrow (d : Decoder) (dict encoding : Bytes) (k : Nat) : Option Decoder := (d.start dict).chunkThrow encoding k

/-! ## The encoder -/

namespace Writer

/-- The members at the points of `EncodeInstruction` (src/encodetable.cc:171-235) where a string grows: before the size of a compound
instruction is appended (line 212), before an opcode is (lines 221, 233), and before its size is (line 235). -/
def instructionPoints (w : Writer) (inst : UInt8) (size mode : Nat) : Except Fault (List Writer) :=
  match w.map with
  | none => .error .assertion
  | some m =>
    match w.compound m inst size mode with
    | .error f => .error f
    | .ok (some (i, op, explicit)) => .ok (if explicit then [{ w with inst := w.inst.set i op, lastOpcode := none }] else [])
    | .ok none =>
      match lookupFirst m inst size mode with
      | .error f => .error f
      | .ok (op, explicit) =>
        .ok (w :: if explicit then [{ w with inst := w.inst ++ [op], lastOpcode := some w.inst.length }] else [])

/-- The members at the points where a string of the writer grows in a call from the engine, or where the output string is used:
`Add`, `Run`: in `EncodeInstruction`, and before the data are appended (src/encodetable.cc:237-241, 268-272). `Copy`: the same, after
the address cache has been updated (lines 254-264). `Output`: nothing is changed before the last use of the output string
(lines 307-370). -/
def points (w : Writer) : CoderCall → Except Fault (List Writer)
  | .add bytes => do
    let ps ← w.instructionPoints vcdAdd bytes.length 0
    let w1 ← w.encodeInstruction vcdAdd bytes.length 0
    .ok (ps ++ [w1])
  | .run size _ => do
    let ps ← w.instructionPoints vcdRun size 0
    let w1 ← w.encodeInstruction vcdRun size 0
    .ok (ps ++ [w1])
  | .copy offset size =>
    match w.cache.encodeAddress offset (toInt32 (w.dictionarySize + w.targetLength)) with
    | .fault f => .error f
    | .ok mode _ cache => do
      let ps ← { w with cache }.instructionPoints vcdCopy size mode
      let w1 ← { w with cache }.encodeInstruction vcdCopy size mode
      .ok (ps ++ [w1])
  | .output => .ok [w]

/-- An exception in a sequence of calls from the engine: what has been appended to the output string, and the members then. -/
inductive Throws : Writer → List CoderCall → Bytes → Writer → Prop
  /-- It comes from a string of the writer. -/
  | here {w w' : Writer} {c : CoderCall} {cs : List CoderCall} {ps : List Writer} :
      c ≠ .output → w.points c = .ok ps → w' ∈ ps → Throws w (c :: cs) [] w'
  /-- It comes from the output string, which has taken some bytes of the window. -/
  | output {w w' : Writer} {cs : List CoderCall} {part window : Bytes} {ps : List Writer} :
      w.points .output = .ok ps → w' ∈ ps → (if w.inst = [] then .ok [] else w.windowBytes) = .ok window → part <+: window →
      Throws w (.output :: cs) part w'
  /-- It comes later. -/
  | later {w w1 w' : Writer} {c : CoderCall} {cs : List CoderCall} {out part : Bytes} :
      w.call c = .ok (out, w1) → Throws w1 cs part w' → Throws w (c :: cs) (out ++ part) w'

end Writer

namespace JsonWriter

/-- The same for the JSON writer (src/jsonwriter.cc:36-40, 74-105): some bytes of an instruction are in its string; or the output string throws, after
`output_called_` has been set. -/
inductive Throws : JsonWriter → List CoderCall → Bytes → JsonWriter → Prop
  | here {w : JsonWriter} {c : CoderCall} {cs : List CoderCall} {text : Bytes} :
      c ≠ .output → w.output ++ text <+: (w.call c).2.output → Throws w (c :: cs) [] { w with output := w.output ++ text }
  | output {w : JsonWriter} {cs : List CoderCall} {part : Bytes} :
      part <+: w.output → Throws w (.output :: cs) part { w with outputCalled := true }
  | later {w w' : JsonWriter} {c : CoderCall} {cs : List CoderCall} {part : Bytes} :
      Throws (w.call c).2 cs part w' → Throws w (c :: cs) ((w.call c).1 ++ part) w'

end JsonWriter

namespace Encoder

/-- An exception in `EncodeChunk` (src/vcencoder.cc:136-153): what has been appended to the output string, and the members then. -/
inductive ChunkThrows (e : Encoder) (data : Bytes) : Bytes → Encoder → Prop
  /-- It comes before the first call of the engine to the writer (the hash table of the target is allocated,
  src/vcdiffengine.cc:160-165). -/
  | early {w : Writer} : e.allowed = true → e.coder = .binary w →
      ChunkThrows e data [] { e with coder := .binary (if e.flags &&& 2 ≠ 0 then w.addChecksum (computeAdler32 data) else w) }
  | earlyJson {w : JsonWriter} : e.allowed = true → e.coder = .json w → JsonWriter.isAscii data = true → ChunkThrows e data [] e
  /-- It comes from one of the strings. -/
  | writer {w w' : Writer} {calls : List CoderCall} {out : Bytes} : e.allowed = true → e.coder = .binary w →
      e.engine.encode e.lookForTargetMatches data = .ok calls →
      (if e.flags &&& 2 ≠ 0 then w.addChecksum (computeAdler32 data) else w).Throws calls out w' →
      ChunkThrows e data out { e with coder := .binary w' }
  | json {w w' : JsonWriter} {calls : List CoderCall} {out : Bytes} : e.allowed = true → e.coder = .json w → JsonWriter.isAscii data = true →
      e.engine.encode e.lookForTargetMatches data = .ok calls → w.Throws calls out w' →
      ChunkThrows e data out { e with coder := .json w' }

/-- An exception in `StartEncoding` (src/vcencoder.cc:119-134) of a binary format. In `Init` (src/encodetable.cc:102-120) the instruction map is
allocated after the size of the dictionary has been set, and the address cache after that; or the output string throws in `WriteHeader`, when the
writer has been initialised. -/
inductive StartThrows (e : Encoder) : Bytes → Encoder → Prop
  | map {w : Writer} : e.coder = .binary w → w.map = none →
      StartThrows e [] { e with coder := .binary { w with dictionarySize := e.engine.dictionary.length } }
  | cache {w : Writer} {m : InstructionMap} : e.coder = .binary w →
      w.map = some m ∨ w.map = none ∧ InstructionMap.build w.table w.maxMode = some m →
      StartThrows e [] { e with coder := .binary { w with dictionarySize := e.engine.dictionary.length, map := some m } }
  | header {w w' : Writer} {part : Bytes} : e.coder = .binary w → w.init e.engine.dictionary.length = .ok (true, w') →
      part <+: Writer.header e.flags → StartThrows e part { e with coder := .binary w' }

end Encoder
end Vcd

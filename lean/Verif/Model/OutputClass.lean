import Verif.Model.OutputString
import Verif.Model.SimpleDecoder

/-!
# Output classes of the caller (src/google/output_string.h)

`OutputStringInterface` is an abstract class: the methods of the encoder and of the decoder whose names end in `ToInterface` use
whatever the caller has derived from it. In `Model.Encoder` and `Model.Decoder` the output is the text that is appended. Here are the calls
of the methods of the interface, on an object whose methods are arbitrary.
-/

namespace Vcd

/-- A class derived from `OutputStringInterface` (src/google/output_string.h:44-57): the states of an object, and its methods. `append` is given the
text itself for pointer and length. `size` returns a `size_t`. An object whose methods throw is in `Model.Exceptions`. -/
structure OutClass (σ : Type) where
  append : σ → Bytes → σ
  clear : σ → σ
  pushBack : σ → UInt8 → σ
  reserve : σ → Nat → σ
  size : σ → UInt64

/-- A string class that `OutputString` can wrap, such as `std::string` (src/google/output_string.h:59-63). -/
structure StringClass (σ : Type) where
  append : σ → Bytes → σ
  clear : σ → σ
  pushBack : σ → UInt8 → σ
  reserve : σ → UInt64 → σ
  size : σ → UInt64

/-- `OutputString<StringClass>` (src/google/output_string.h:64-105). -/
def StringClass.output {σ : Type} (S : StringClass σ) : OutClass σ where
  append := S.append
  clear := S.clear
  pushBack := S.pushBack
  reserve o n := S.reserve o (S.size o + UInt64.ofNat n)
  size := S.size

/-- `OutputCrope` (src/output_string_crope.h:31-38): `ReserveAdditionalBytes` does nothing. -/
def StringClass.outputCrope {σ : Type} (S : StringClass σ) : OutClass σ := { S.output with reserve := fun o _ => o }

variable {σ : Type} (C : OutClass σ)

/-- `VCDiffCodeTableWriter::Output` (src/encodetable.cc:307-386): the object afterwards, how often the message of lines 361-366 is written
(`calculated length of the delta encoding ... does not match actual length`), and the new state. The message is `VCD_DFATAL`: in a debug build the
process ends with it. -/
def Writer.outputTo (w : Writer) (o : σ) : Except Fault (σ × Nat × Writer) := do
  let r : σ × Nat ←
    if w.inst = [] then .ok (o, 0)
    else do
      let dictionarySize ← sizeBytes w.dictionarySize
      let position ← sizeBytes 0
      let length ← sizeBytes w.deltaLength
      let target ← sizeBytes w.targetLength
      let dataLength ← sizeBytes w.data.length
      let instLength ← sizeBytes w.inst.length
      let addrLength ← sizeBytes w.addr.length
      let checksum ← checksumBytes w.checksum
      let o := C.reserve o w.windowSize
      let o := C.pushBack o (if w.checksum.isSome then 0x05 else 0x01)
      let o := C.append o dictionarySize
      let o := C.append o position
      let o := C.append o length
      let before := C.size o
      let o := C.append o target
      let o := C.pushBack o 0x00
      let o := C.append o dataLength
      let o := C.append o instLength
      let o := C.append o addrLength
      let o := if w.checksum.isSome then C.append o checksum else o
      let o := C.append o w.data
      let o := C.append o w.inst
      let o := C.append o w.addr
      let after := C.size o
      .ok (o, if UInt64.ofNat w.deltaLength ≠ after - before then 1 else 0)
  match (if w.inst = [] then w else { w with data := [], inst := [], addr := [] }).init w.dictionarySize with
  | .error f => .error f
  | .ok (false, _) => .error .assertion
  | .ok (true, w) => .ok (r.1, r.2, w)

/-- The calls from the engine (src/vcdiffengine.cc); `Output` is the only one that is given the output object. -/
def Writer.callsTo (w : Writer) (o : σ) : List CoderCall → Except Fault (σ × Nat × Writer)
  | [] => .ok (o, 0, w)
  | .output :: cs => do
    let (o, n, w) ← w.outputTo C o
    let (o, m, w) ← w.callsTo o cs
    .ok (o, n + m, w)
  | c :: cs => do
    let (_, w) ← w.call c
    w.callsTo o cs

/-- The same with the JSON writer: `Output` (src/jsonwriter.cc:36-40). -/
def JsonWriter.callsTo (w : JsonWriter) (o : σ) : List CoderCall → σ × JsonWriter
  | [] => (o, w)
  | .output :: cs => w.flush.2.callsTo (C.append o w.output) cs
  | c :: cs => (w.call c).2.callsTo o cs

namespace Encoder

/-- `StartEncoding` (src/vcencoder.cc:119-134), with `WriteHeader` (src/encodetable.cc:123-132, src/google/jsonwriter.h): the result, the object
and the new state. -/
def startTo (e : Encoder) (o : σ) : Except Fault (Bool × σ × Encoder) :=
  match e.coder with
  | .binary w =>
    match w.init e.engine.dictionary.length with
    | .error f => .error f
    | .ok (false, w) => .ok (false, o, { e with coder := .binary w })
    | .ok (true, w) => .ok (true, C.append o (Writer.header e.flags), { e with coder := .binary w, allowed := true })
  | .json w =>
    if JsonWriter.isAscii e.engine.dictionary then .ok (true, o, { e with coder := .json w.init, allowed := true })
    else .ok (false, o, { e with coder := .json w.init })

/-- `EncodeChunk` (src/vcencoder.cc:136-153), also with the number of messages (`Writer.outputTo`). -/
def chunkTo (e : Encoder) (data : Bytes) (o : σ) : Except Fault (Bool × σ × Nat × Encoder) :=
  if !e.allowed then .ok (false, o, 0, e)
  else
    match e.coder with
    | .binary w =>
      let w := if e.flags &&& 2 ≠ 0 then w.addChecksum (computeAdler32 data) else w
      match e.engine.encode e.lookForTargetMatches data with
      | .error f => .error f
      | .ok calls => (w.callsTo C o calls).map fun (o, n, w) => (true, o, n, { e with coder := .binary w })
    | .json w =>
      if !JsonWriter.isAscii data then .ok (false, o, 0, e)
      else
        match e.engine.encode e.lookForTargetMatches data with
        | .error f => .error f
        | .ok calls =>
          let r := w.callsTo C o calls
          .ok (true, r.1, 0, { e with coder := .json r.2 })

/-- `FinishEncoding` (src/vcencoder.cc:155-164; src/google/encodetable.h:112, src/jsonwriter.cc:42-46). -/
def finishTo (e : Encoder) (o : σ) : Bool × σ × Encoder :=
  if !e.allowed then (false, o, e)
  else
    match e.coder with
    | .binary _ => (true, o, { e with allowed := false })
    | .json w => (true, if w.outputCalled then C.append o [0x5D] else o, { e with allowed := false })

/-- One API call of the streaming encoder: the result, the object, the number of messages and the new state. -/
def callTo (e : Encoder) (o : σ) : EncoderCall → Except Fault (Bool × σ × Nat × Encoder)
  | .start => (e.startTo C o).map fun (r, o, e) => (r, o, 0, e)
  | .chunk data => e.chunkTo C data o
  | .finish => let (r, o, e) := e.finishTo C o; .ok (r, o, 0, e)

/-- A sequence of API calls with the same output object: the results, the object, the number of messages and the new state. -/
def callsTo (e : Encoder) (o : σ) : List EncoderCall → Except Fault (List Bool × σ × Nat × Encoder)
  | [] => .ok ([], o, 0, e)
  | c :: cs => do
    let (r, o, n, e) ← e.callTo C o c
    let (rs, o, m, e) ← e.callsTo o cs
    .ok (r :: rs, o, n + m, e)

end Encoder

/-- `VCDiffEncoder::EncodeToInterface` (src/vcencoder.cc:205-225): the result, the object, the number of messages and the new state. -/
def SimpleEncoder.encodeTo (s : SimpleEncoder) (target : Bytes) (o : σ) : Except Fault (Bool × σ × Nat × SimpleEncoder) :=
  let o := C.clear o
  match s.streaming with
  | .error f => .error f
  | .ok none => .ok (false, o, 0, s)
  | .ok (some e) => do
    let (r, o, n1, e) ← e.callTo C o .start
    if r = false then .ok (false, o, n1, { s with encoder := some e })
    else
      let (r, o, n2, e) ← e.callTo C o (.chunk target)
      if r = false then .ok (false, o, n1 + n2, { s with encoder := some e })
      else
        let (r, o, n3, e) ← e.callTo C o .finish
        .ok (r, o, n1 + n2 + n3, { s with encoder := some e })

/-- The operations of the decoder on its output object (`Model.OutputString`), one after the other. The decoder uses `append` and
`ReserveAdditionalBytes` only (src/vcdecoder.cc:850-878). -/
def OutClass.perform (o : σ) : List OutEvent → σ
  | [] => o
  | .window :: es => OutClass.perform o es
  | .op (.append bytes) :: es => OutClass.perform (C.append o bytes) es
  | .op (.reserve n) :: es => OutClass.perform (C.reserve o n) es

/-- One API call of the streaming decoder with an output object: the result, the object and the new state. `DecodeChunk` alone is given the
object (src/vcdecoder.cc:1396-1401). -/
def Decoder.callTo (d : Decoder) (o : σ) (c : DecoderCall) : Except Fault (Bool × σ × Decoder) :=
  match d.call c with
  | .error f => .error f
  | .ok (r, d') =>
    .ok (r.ret, (match c with
      | .chunk data => C.perform o (d.chunkEvents data)
      | _ => o), d')

/-- A sequence of API calls with the same output object. -/
def Decoder.callsTo (d : Decoder) (o : σ) : List DecoderCall → Except Fault (List Bool × σ × Decoder)
  | [] => .ok ([], o, d)
  | c :: cs => do
    let (r, o, d) ← d.callTo C o c
    let (rs, o, d) ← d.callsTo o cs
    .ok (r :: rs, o, d)

/-- `VCDiffDecoder::DecodeToInterface` (src/vcdecoder.cc:1428-1440): the result, the object and the new state. -/
def Decoder.decodeToClass (d : Decoder) (dict encoding : Bytes) (o : σ) : Except Fault (Bool × σ × Decoder) := do
  let o := C.clear o
  let (_, o, d) ← d.callTo C o (.start dict)
  let (r, o, d) ← d.callTo C o (.chunk encoding)
  if r = false then .ok (false, o, d)
  else d.callTo C o .finish

end Vcd

import Verif.Model.WriterInterface

/-!
# What the encoder writes to the standard error stream (src/logging.h)

The functions here say which messages the function of the same name without `Log` writes, in their order. The texts of the messages are left out.
The other messages of the encoder are `VCD_DFATAL`, and faults in the model.
-/

namespace Vcd

/-- The messages of the encoder. -/
inductive EncoderMessage where
  /-- src/encodetable.cc:187, a warning: `EncodeInstruction() called for two ADD instructions in a row`. -/
  | twoAdds
  /-- src/encodetable.cc:309, a warning: `Empty input; no delta window produced`. -/
  | emptyInput
  /-- src/encodetable.cc:371, a warning: `Empty target window`. -/
  | emptyWindow
  /-- src/addrcache.cc:76: `Using near cache size ... would exceed maximum number of COPY modes`. -/
  | cacheSizes
  /-- src/vcencoder.cc:122, `VCD_DFATAL`: `Internal error: Initialization of code table writer failed`. -/
  | initFailed
  /-- src/jsonwriter.cc:119: `JSON writer does not allow non-ASCII characters in dictionary`. -/
  | jsonDictionary
  /-- src/vcencoder.cc:128: `Dictionary not valid for writer`. -/
  | dictionaryInvalid
  /-- src/vcencoder.cc:141: `EncodeChunk called before StartEncoding`. -/
  | chunkBeforeStart
  /-- src/jsonwriter.cc:127: `JSON writer does not allow non-ASCII characters in target`. -/
  | jsonTarget
  /-- src/vcencoder.cc:145: `Target chunk not valid for writer`. -/
  | chunkInvalid
  /-- src/vcencoder.cc:158: `FinishEncoding called before StartEncoding`. -/
  | finishBeforeStart
  /-- src/vcencoder.cc:211: `Error initializing HashedDictionary`, after the messages of src/vcdiffengine.cc:53 and of src/blockhash.cc. -/
  | hashFailed
  deriving DecidableEq, Repr

/-- The messages with which the encoder itself, not its writer, refuses a call (src/vcencoder.cc). -/
def EncoderMessage.refusal : EncoderMessage → Bool
  | initFailed | dictionaryInvalid | chunkBeforeStart | chunkInvalid | finishBeforeStart | hashFailed => true
  | _ => false

/-- A message under a condition. -/
def noteIf (c : Prop) [Decidable c] (m : EncoderMessage) : List EncoderMessage := if c then [m] else []

namespace Writer

/-- The messages of a call from the engine: `EncodeInstruction` for an ADD, whose check looks at `code_table_data_->inst1` of the last opcode
(src/encodetable.cc:180-189), and `Output` (lines 307-310, 371-373). -/
def callLog (w : Writer) : CoderCall → List EncoderMessage
  | .add _ =>
    match w.lastOpcode with
    | none => []
    | some i =>
      match w.inst[i]? with
      | none => []
      | some lastOpcode => noteIf ((w.table.first lastOpcode).inst = vcdAdd) .twoAdds
  | .copy _ _ => []
  | .run _ _ => []
  | .output => if w.inst = [] then [.emptyInput] else noteIf (w.targetLength = 0) .emptyWindow

/-- The messages of a sequence of calls, up to the first fault. -/
def callsLog (w : Writer) : List CoderCall → List EncoderMessage
  | [] => []
  | c :: cs =>
    w.callLog c ++
      match w.call c with
      | .error _ => []
      | .ok (_, w) => w.callsLog cs

end Writer

namespace Encoder

/-- `StartEncoding` (src/vcencoder.cc:119-134), with `Init` (src/encodetable.cc:115, src/addrcache.cc:71-82) and `VerifyDictionary`
(src/encodetable.cc:388-391, src/jsonwriter.cc:112-122) of the writer. -/
def startLog (e : Encoder) : List EncoderMessage :=
  match e.coder with
  | .binary w =>
    match w.init e.engine.dictionary.length with
    | .ok (false, _) => [.cacheSizes, .initFailed]
    | _ => []
  | .json _ => [.jsonDictionary] ++ noteIf (JsonWriter.isAscii e.engine.dictionary = false) .dictionaryInvalid

/-- `EncodeChunk` (src/vcencoder.cc:136-153), with `VerifyChunk` of the writer (src/encodetable.cc:393-396, src/jsonwriter.cc:124-130); the methods
that the engine calls write nothing in the JSON writer. -/
def chunkLog (e : Encoder) (data : Bytes) : List EncoderMessage :=
  if !e.allowed then [.chunkBeforeStart]
  else
    match e.coder with
    | .binary w =>
      let w := if e.flags &&& 2 ≠ 0 then w.addChecksum (computeAdler32 data) else w
      match e.engine.encode e.lookForTargetMatches data with
      | .error _ => []
      | .ok calls => w.callsLog calls
    | .json _ => [.jsonTarget] ++ noteIf (JsonWriter.isAscii data = false) .chunkInvalid

/-- `FinishEncoding` (src/vcencoder.cc:155-164). -/
def finishLog (e : Encoder) : List EncoderMessage := noteIf (e.allowed = false) .finishBeforeStart

/-- The messages of an API call. -/
def callLog (e : Encoder) : EncoderCall → List EncoderMessage
  | .start => e.startLog
  | .chunk data => e.chunkLog data
  | .finish => e.finishLog

/-- The messages of a sequence of API calls, up to the first fault. -/
def callsLog (e : Encoder) : List EncoderCall → List EncoderMessage
  | [] => []
  | c :: cs =>
    e.callLog c ++
      match e.call c with
      | .ok (_, e') => e'.callsLog cs
      | .error _ => []

end Encoder

/-- `VCDiffEncoder::EncodeToInterface` (src/vcencoder.cc:205-225). -/
def SimpleEncoder.encodeLog (s : SimpleEncoder) (target : Bytes) : List EncoderMessage :=
  match s.streaming with
  | .error _ => []
  | .ok none => [.hashFailed]
  | .ok (some e) =>
    e.callLog .start ++
      match e.call .start with
      | .error _ => []
      | .ok (r1, e) =>
        if r1.ret = false then []
        else
          e.callLog (.chunk target) ++
            match e.call (.chunk target) with
            | .error _ => []
            | .ok (r2, e) => if r2.ret = false then [] else e.callLog .finish

/-- The messages of an encoder with a writer of the caller (src/vcencoder.cc:119-164), without those that the writer itself may write. -/
def StreamEncoder.callLog {σ : Type} (e : StreamEncoder σ) : EncoderCall → List EncoderMessage
  | .start =>
    match e.writer.init e.state e.engine.dictionary.length with
    | .error _ => []
    | .ok (false, _) => [.initFailed]
    | .ok (true, s) =>
      match e.writer.verifyDictionary s e.engine.dictionary with
      | .ok (false, _) => [.dictionaryInvalid]
      | _ => []
  | .chunk data =>
    if !e.allowed then [.chunkBeforeStart]
    else
      match e.writer.verifyChunk e.state data with
      | .ok (false, _) => [.chunkInvalid]
      | _ => []
  | .finish => noteIf (e.allowed = false) .finishBeforeStart

end Vcd

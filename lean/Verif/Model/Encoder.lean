import Verif.Model.Writer
import Verif.Model.JsonWriter
import Verif.Model.Adler

/-!
# The streaming encoder (src/google/vcencoder.h, src/vcencoder.cc)
-/

namespace Vcd

/-- The `CodeTableWriterInterface` of an encoder: one of the two writers of the library. -/
inductive Coder where
  | binary (w : Writer)
  | json (w : JsonWriter)
  deriving DecidableEq

/-- `create_writer` (src/vcencoder.cc:44-55): `VCD_FORMAT_INTERLEAVED = 1`, `VCD_FORMAT_JSON = 4`
(src/google/format_extension_flags.h). -/
def createWriter (flags : Nat) : Coder :=
  if flags &&& 4 ≠ 0 then .json {} else .binary (Writer.new (flags &&& 1 != 0))

/-- `VCDiffStreamingEncoderImpl` (src/vcencoder.cc:69-106). -/
structure Encoder where
  engine : Engine
  coder : Coder
  flags : Nat
  lookForTargetMatches : Bool
  allowed : Bool := false
  deriving DecidableEq

namespace Encoder

/-- The constructors (src/vcencoder.cc:108-117, 166-186), with the writer made by `create_writer`. -/
def new (engine : Engine) (flags : Nat) (lookForTargetMatches : Bool) : Encoder :=
  { engine, coder := createWriter flags, flags, lookForTargetMatches }

/-- `StartEncoding` (src/vcencoder.cc:119-134): the result, the bytes appended to the output string and
the new state. A writer that cannot be initialised is `VCD_DFATAL`, here as in a release build `false`; the writer made by the
constructor can be initialised (`Writer.init_ready`). -/
def start (e : Encoder) : Except Fault (Bool × Bytes × Encoder) :=
  match e.coder with
  | .binary w =>
    match w.init e.engine.dictionary.length with
    | .error f => .error f
    | .ok (false, w) => .ok (false, [], { e with coder := .binary w })
    | .ok (true, w) => .ok (true, Writer.header e.flags, { e with coder := .binary w, allowed := true })
  | .json w =>
    if JsonWriter.isAscii e.engine.dictionary then
      .ok (true, [], { e with coder := .json w.init, allowed := true })
    else .ok (false, [], { e with coder := .json w.init })

/-- `EncodeChunk` (src/vcencoder.cc:136-153). `VCD_FORMAT_CHECKSUM = 2`. `AddChecksum` does nothing in
the JSON writer. -/
def chunk (e : Encoder) (data : Bytes) : Except Fault (Bool × Bytes × Encoder) :=
  if !e.allowed then .ok (false, [], e)
  else
    match e.coder with
    | .binary w =>
      let w := if e.flags &&& 2 ≠ 0 then w.addChecksum (computeAdler32 data) else w
      match e.engine.encode e.lookForTargetMatches data with
      | .error f => .error f
      | .ok calls =>
        match w.calls calls with
        | .error f => .error f
        | .ok (out, w) => .ok (true, out, { e with coder := .binary w })
    | .json w =>
      if !JsonWriter.isAscii data then .ok (false, [], e)
      else
        match e.engine.encode e.lookForTargetMatches data with
        | .error f => .error f
        | .ok calls =>
          let r := w.calls calls
          .ok (true, r.1, { e with coder := .json r.2 })

/-- `FinishEncoding` (src/vcencoder.cc:155-164); nothing is output in the binary formats
(src/google/encodetable.h:112). -/
def finish (e : Encoder) : Bool × Bytes × Encoder :=
  if !e.allowed then (false, [], e)
  else
    match e.coder with
    | .binary _ => (true, [], { e with allowed := false })
    | .json w => (true, w.finish, { e with allowed := false })

end Encoder

/-- A call of a public method of `VCDiffStreamingEncoder` (src/google/vcencoder.h). -/
inductive EncoderCall where
  | start
  | chunk (data : Bytes)
  | finish
  deriving DecidableEq, Repr

/-- What the caller sees of a call. -/
structure EncoderReply where
  ret : Bool
  out : Bytes
  deriving DecidableEq, Repr

/-- One API call. -/
def Encoder.call (e : Encoder) : EncoderCall → Except Fault (EncoderReply × Encoder)
  | .start => e.start.map fun r => (⟨r.1, r.2.1⟩, r.2.2)
  | .chunk data => (e.chunk data).map fun r => (⟨r.1, r.2.1⟩, r.2.2)
  | .finish => .ok (⟨e.finish.1, e.finish.2.1⟩, e.finish.2.2)

/-- A sequence of API calls. -/
def Encoder.calls (e : Encoder) : List EncoderCall → Except Fault (List EncoderReply × Encoder)
  | [] => .ok ([], e)
  | c :: cs =>
    match e.call c with
    | .error f => .error f
    | .ok (r, e') =>
      match e'.calls cs with
      | .error f => .error f
      | .ok (rs, e'') => .ok (r :: rs, e'')

/-- A complete encode with a new streaming encoder: `HashedDictionary::Init()`, then `StartEncoding`,
`EncodeChunk` for each chunk and `FinishEncoding`; `some` of the bytes output if every call returns
`true`. -/
def encode (dict : Bytes) (flags : Nat) (lookForTargetMatches : Bool) (chunks : List Bytes) :
    Except Fault (Option Bytes) :=
  match Engine.init dict with
  | .error f => .error f
  | .ok none => .ok none
  | .ok (some engine) =>
    match (Encoder.new engine flags lookForTargetMatches).calls
        ([.start] ++ chunks.map .chunk ++ [.finish]) with
    | .error f => .error f
    | .ok (rs, _) => .ok (if rs.all (·.ret) then some (rs.flatMap (·.out)) else none)

/-- `VCDiffEncoder` (src/google/vcencoder.h:217-261, src/vcencoder.cc:205-225). -/
structure SimpleEncoder where
  dictionary : Bytes
  encoder : Option Encoder := none
  flags : Nat := 0
  lookForTargetMatches : Bool := true
  deriving DecidableEq

/-- The streaming encoder of a `VCDiffEncoder`, created at the first use with the settings of that moment
(src/vcencoder.cc:209-217). `none` if `HashedDictionary::Init` fails. -/
def SimpleEncoder.streaming (s : SimpleEncoder) : Except Fault (Option Encoder) :=
  match s.encoder with
  | some e => .ok (some e)
  | none =>
    match Engine.init s.dictionary with
    | .error f => .error f
    | .ok none => .ok none
    | .ok (some engine) => .ok (some (Encoder.new engine s.flags s.lookForTargetMatches))

/-- `VCDiffEncoder::EncodeToInterface` (src/vcencoder.cc:205-225): the result, the contents of the
output string afterwards and the new state. The output string is cleared first. -/
def SimpleEncoder.encode (s : SimpleEncoder) (target : Bytes) : Except Fault (Bool × Bytes × SimpleEncoder) :=
  match s.streaming with
  | .error f => .error f
  | .ok none => .ok (false, [], s)
  | .ok (some e) =>
    match e.call .start with
    | .error f => .error f
    | .ok (r1, e) =>
      if r1.ret = false then .ok (false, r1.out, { s with encoder := some e })
      else
        match e.call (.chunk target) with
        | .error f => .error f
        | .ok (r2, e) =>
          if r2.ret = false then .ok (false, r1.out ++ r2.out, { s with encoder := some e })
          else
            match e.call .finish with
            | .error f => .error f
            | .ok (r3, e) => .ok (r3.ret, r1.out ++ r2.out ++ r3.out, { s with encoder := some e })

/-- A call of a public method of `VCDiffEncoder` (src/google/vcencoder.h:231-252). -/
inductive SimpleCall where
  | setFormatFlags (flags : Nat)
  | setTargetMatching (on : Bool)
  | encode (target : Bytes)
  deriving DecidableEq, Repr

/-- One call; for `Encode`, the result and the contents of the output string. -/
def SimpleEncoder.call (s : SimpleEncoder) : SimpleCall → Except Fault (Option (Bool × Bytes) × SimpleEncoder)
  | .setFormatFlags flags => .ok (none, { s with flags })
  | .setTargetMatching on => .ok (none, { s with lookForTargetMatches := on })
  | .encode target => (s.encode target).map fun r => (some (r.1, r.2.1), r.2.2)

/-- A sequence of calls: the results and the new state. -/
def SimpleEncoder.calls (s : SimpleEncoder) : List SimpleCall → Except Fault (List (Option (Bool × Bytes)) × SimpleEncoder)
  | [] => .ok ([], s)
  | c :: cs =>
    match s.call c with
    | .error f => .error f
    | .ok (r, s') => (s'.calls cs).map fun p => (r :: p.1, p.2)

end Vcd

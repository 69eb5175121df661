import Verif.Model.Encoder

/-!
# Encoders with a writer of the caller

The second constructor of `VCDiffStreamingEncoder` takes any implementation of `CodeTableWriterInterface`.
Here the encoder is modelled for an arbitrary one. (`Vcd.Encoder` is the encoder with one of the two writers of
the library; it is an instance of this one, see `Props.library_encoder_is_instance`.)
-/

namespace Vcd

/-- The virtual methods of `CodeTableWriterInterface` (src/google/codetablewriter_interface.h:41-79), for an
object with the state `σ`. Methods with a parameter `out` return the bytes they append to it.
`VerifyDictionary` and `VerifyChunk` are `const`; they can still change `mutable` members or other objects, so they
have a new state, too. -/
structure WriterInterface (σ : Type) where
  init : σ → Nat → Except Fault (Bool × σ)
  writeHeader : σ → Nat → Except Fault (Bytes × σ)
  add : σ → Bytes → Except Fault σ
  copy : σ → Int → Nat → Except Fault σ
  run : σ → Nat → UInt8 → Except Fault σ
  addChecksum : σ → Nat → Except Fault σ
  output : σ → Except Fault (Bytes × σ)
  finishEncoding : σ → Except Fault (Bytes × σ)
  verifyDictionary : σ → Bytes → Except Fault (Bool × σ)
  verifyChunk : σ → Bytes → Except Fault (Bool × σ)

/-- One call from the engine: the bytes appended to the output string and the new state. -/
def WriterInterface.call {σ : Type} (w : WriterInterface σ) (s : σ) : CoderCall → Except Fault (Bytes × σ)
  | .add bytes => (w.add s bytes).map fun s => ([], s)
  | .copy offset size => (w.copy s offset size).map fun s => ([], s)
  | .run size byte => (w.run s size byte).map fun s => ([], s)
  | .output => w.output s

/-- A sequence of calls. -/
def WriterInterface.calls {σ : Type} (w : WriterInterface σ) (s : σ) : List CoderCall → Except Fault (Bytes × σ)
  | [] => .ok ([], s)
  | c :: cs =>
    match w.call s c with
    | .error f => .error f
    | .ok (out, s) => (w.calls s cs).map fun r => (out ++ r.1, r.2)

/-- `VCDiffStreamingEncoderImpl` (src/vcencoder.cc:69-106), made by the second constructor
(src/vcencoder.cc:178-186). -/
structure StreamEncoder (σ : Type) where
  engine : Engine
  writer : WriterInterface σ
  state : σ
  flags : Nat
  lookForTargetMatches : Bool
  allowed : Bool := false

namespace StreamEncoder
variable {σ : Type}

/-- `StartEncoding` (src/vcencoder.cc:119-134). A writer that cannot be initialised is `VCD_DFATAL`; it goes on
with `return false`. -/
def start (e : StreamEncoder σ) : Except Fault (EncoderReply × StreamEncoder σ) :=
  match e.writer.init e.state e.engine.dictionary.length with
  | .error f => .error f
  | .ok (false, s) => .ok (⟨false, []⟩, { e with state := s })
  | .ok (true, s) =>
    match e.writer.verifyDictionary s e.engine.dictionary with
    | .error f => .error f
    | .ok (false, s) => .ok (⟨false, []⟩, { e with state := s })
    | .ok (true, s) =>
      match e.writer.writeHeader s e.flags with
      | .error f => .error f
      | .ok (out, s) => .ok (⟨true, out⟩, { e with state := s, allowed := true })

/-- `EncodeChunk` (src/vcencoder.cc:136-153). `VCD_FORMAT_CHECKSUM = 2`. -/
def chunk (e : StreamEncoder σ) (data : Bytes) : Except Fault (EncoderReply × StreamEncoder σ) :=
  if !e.allowed then .ok (⟨false, []⟩, e)
  else
    match e.writer.verifyChunk e.state data with
    | .error f => .error f
    | .ok (false, s) => .ok (⟨false, []⟩, { e with state := s })
    | .ok (true, s) =>
    match (if e.flags &&& 2 ≠ 0 then e.writer.addChecksum s (computeAdler32 data) else .ok s) with
    | .error f => .error f
    | .ok s =>
      match e.engine.encode e.lookForTargetMatches data with
      | .error f => .error f
      | .ok calls =>
        match e.writer.calls s calls with
        | .error f => .error f
        | .ok (out, s) => .ok (⟨true, out⟩, { e with state := s })

/-- `FinishEncoding` (src/vcencoder.cc:155-164). -/
def finish (e : StreamEncoder σ) : Except Fault (EncoderReply × StreamEncoder σ) :=
  if !e.allowed then .ok (⟨false, []⟩, e)
  else
    match e.writer.finishEncoding e.state with
    | .error f => .error f
    | .ok (out, s) => .ok (⟨true, out⟩, { e with state := s, allowed := false })

/-- One API call. -/
def call (e : StreamEncoder σ) : EncoderCall → Except Fault (EncoderReply × StreamEncoder σ)
  | .start => e.start
  | .chunk data => e.chunk data
  | .finish => e.finish

/-- A sequence of API calls. -/
def calls (e : StreamEncoder σ) : List EncoderCall → Except Fault (List EncoderReply × StreamEncoder σ)
  | [] => .ok ([], e)
  | c :: cs =>
    match e.call c with
    | .error f => .error f
    | .ok (r, e) =>
      match e.calls cs with
      | .error f => .error f
      | .ok (rs, e) => .ok (r :: rs, e)

end StreamEncoder

/-- The writers of the library as implementations of the interface: `VCDiffCodeTableWriter`
(src/google/encodetable.h:44-119; `VerifyDictionary` and `VerifyChunk`, src/encodetable.cc:388-396, return
`true`) and `JSONCodeTableWriter` (src/google/jsonwriter.h, src/jsonwriter.cc; `WriteHeader`,
src/jsonwriter.cc:107-110, and `AddChecksum`, src/google/jsonwriter.h:61, do nothing). -/
def libraryWriter : WriterInterface Coder where
  init
    | .binary w, size => (w.init size).map fun r => (r.1, .binary r.2)
    | .json w, _ => .ok (true, .json w.init)
  writeHeader
    | .binary w, flags => .ok (Writer.header flags, .binary w)
    | .json w, _ => .ok ([], .json w)
  add
    | .binary w, bytes => (w.add bytes).map .binary
    | .json w, bytes => .ok (.json (w.add bytes))
  copy
    | .binary w, offset, size => (w.copy offset size).map .binary
    | .json w, offset, size => .ok (.json (w.copy offset size))
  run
    | .binary w, size, byte => (w.run size byte).map .binary
    | .json w, size, byte => .ok (.json (w.run size byte))
  addChecksum
    | .binary w, checksum => .ok (.binary (w.addChecksum checksum))
    | .json w, _ => .ok (.json w)
  output
    | .binary w => w.output.map fun r => (r.1, .binary r.2)
    | .json w => .ok (w.flush.1, .json w.flush.2)
  finishEncoding
    | .binary w => .ok ([], .binary w)
    | .json w => .ok (w.finish, .json w)
  verifyDictionary
    | .binary w, _ => .ok (true, .binary w)
    | .json w, dictionary => .ok (JsonWriter.isAscii dictionary, .json w)
  verifyChunk
    | .binary w, _ => .ok (true, .binary w)
    | .json w, chunk => .ok (JsonWriter.isAscii chunk, .json w)

end Vcd

import Verif.Model.WriterInterface
import Verif.Spec.Encoder
import Verif.Spec.Engine
import Verif.Spec.Adler

/-!
# What the implementor of a writer can rely on

The calls a writer gets from an encoder are described by events. `WriterSession` says which events a sequence of
API calls may cause, and how the results of the API calls depend on what the writer does.
-/

namespace Vcd.Spec

/-- A call of a method of a writer, with its result or the bytes it appends to the output string. -/
inductive Event where
  | init (dictionarySize : Nat) (ok : Bool)
  | verifyDictionary (dictionary : Bytes) (ok : Bool)
  | writeHeader (flags : Nat) (out : Bytes)
  | verifyChunk (chunk : Bytes) (ok : Bool)
  | addChecksum (checksum : Nat)
  | add (bytes : Bytes)
  | copy (offset : Int) (size : Nat)
  | run (size : Nat) (byte : UInt8)
  | output (out : Bytes)
  | finishEncoding (out : Bytes)
  deriving DecidableEq, Repr

/-- The event for an instruction. -/
def Op.event : Op → Event
  | .add bytes => .add bytes
  | .run b n => .run n b
  | .copy a n => .copy (a : Int) n

/-- `ops` are instructions that build the chunk `data` from the dictionary: ADDs of at least one byte, each
followed by a COPY if it is not the last, and COPYs of at least 32 bytes that stay within the dictionary or,
with target matching, start in the part of the chunk that precedes them. -/
structure Describes (dict : Bytes) (matching : Bool) (ops : List Op) (data : Bytes) : Prop where
  exec : execOps dict ops = dict ++ data
  emittable : ∀ pre op post, ops = pre ++ op :: post → Emittable dict.length matching (execOps dict pre).length op
  noAddAdd : ∀ pre a b post, ops = pre ++ Op.add a :: b :: post → ∃ x n, b = .copy x n

/-- The calls an encoder with this dictionary and these settings makes in one API call, and the reply. The
two Booleans say whether encoding is allowed before and afterwards. -/
inductive Answered (dict : Bytes) (flags : Nat) (matching : Bool) :
    Bool → EncoderCall → List Event → EncoderReply → Bool → Prop
  /-- `StartEncoding` -/
  | start {b out} : Answered dict flags matching b .start
      [.init dict.length true, .verifyDictionary dict true, .writeHeader flags out] ⟨true, out⟩ true
  /-- the writer cannot be initialised -/
  | noInit {b} : Answered dict flags matching b .start [.init dict.length false] ⟨false, []⟩ b
  /-- the writer does not accept the dictionary -/
  | badDictionary {b} : Answered dict flags matching b .start
      [.init dict.length true, .verifyDictionary dict false] ⟨false, []⟩ b
  /-- `EncodeChunk` when encoding is not allowed -/
  | chunkRefused {data} : Answered dict flags matching false (.chunk data) [] ⟨false, []⟩ false
  /-- the writer does not accept the chunk -/
  | badChunk {data} : Answered dict flags matching true (.chunk data) [.verifyChunk data false] ⟨false, []⟩ true
  /-- `EncodeChunk` with no data -/
  | emptyChunk : Answered dict flags matching true (.chunk [])
      ([.verifyChunk [] true] ++ if flags &&& 2 ≠ 0 then [.addChecksum (adlerOf [])] else []) ⟨true, []⟩ true
  /-- `EncodeChunk` with data -/
  | chunk {data ops out} : data ≠ [] → Describes dict matching ops data →
      Answered dict flags matching true (.chunk data)
        ([.verifyChunk data true] ++ (if flags &&& 2 ≠ 0 then [.addChecksum (adlerOf data)] else []) ++
          ops.map Op.event ++ [.output out]) ⟨true, out⟩ true
  /-- `FinishEncoding` when encoding is not allowed -/
  | finishRefused : Answered dict flags matching false .finish [] ⟨false, []⟩ false
  /-- `FinishEncoding` -/
  | finish {out} : Answered dict flags matching true .finish [.finishEncoding out] ⟨true, out⟩ false

/-- The same for a sequence of API calls. -/
inductive WriterSession (dict : Bytes) (flags : Nat) (matching : Bool) :
    Bool → List EncoderCall → List Event → List EncoderReply → Prop
  | nil {b} : WriterSession dict flags matching b [] [] []
  | cons {b c es r b' cs es' rs} : Answered dict flags matching b c es r b' →
      WriterSession dict flags matching b' cs es' rs →
      WriterSession dict flags matching b (c :: cs) (es ++ es') (r :: rs)

/-- The results of two calls are the same and the new states are related. -/
def AlikeResult {σ τ α : Type} (R : σ → τ → Prop) : Except Fault (α × σ) → Except Fault (α × τ) → Prop
  | .ok (a, s), .ok (b, t) => a = b ∧ R s t
  | .error f, .error g => f = g
  | _, _ => False

/-- The new states after two calls without a result are related. -/
def AlikeState {σ τ : Type} (R : σ → τ → Prop) : Except Fault σ → Except Fault τ → Prop
  | .ok s, .ok t => R s t
  | .error f, .error g => f = g
  | _, _ => False

/-- A writer that passes all calls on to another one and keeps a list of them: the caller's way to "gather
some statistics". -/
def recording {σ : Type} (w : WriterInterface σ) : WriterInterface (σ × List Event) where
  init s size := (w.init s.1 size).map fun r => (r.1, r.2, s.2 ++ [.init size r.1])
  writeHeader s flags := (w.writeHeader s.1 flags).map fun r => (r.1, r.2, s.2 ++ [.writeHeader flags r.1])
  add s bytes := (w.add s.1 bytes).map fun r => (r, s.2 ++ [.add bytes])
  copy s offset size := (w.copy s.1 offset size).map fun r => (r, s.2 ++ [.copy offset size])
  run s size byte := (w.run s.1 size byte).map fun r => (r, s.2 ++ [.run size byte])
  addChecksum s checksum := (w.addChecksum s.1 checksum).map fun r => (r, s.2 ++ [.addChecksum checksum])
  output s := (w.output s.1).map fun r => (r.1, r.2, s.2 ++ [.output r.1])
  finishEncoding s := (w.finishEncoding s.1).map fun r => (r.1, r.2, s.2 ++ [.finishEncoding r.1])
  verifyDictionary s dictionary :=
    (w.verifyDictionary s.1 dictionary).map fun r => (r.1, r.2, s.2 ++ [.verifyDictionary dictionary r.1])
  verifyChunk s chunk := (w.verifyChunk s.1 chunk).map fun r => (r.1, r.2, s.2 ++ [.verifyChunk chunk r.1])

/-- Two writers that cannot be told apart by the encoder when their states are related by `R`: every method
has the same results and the same output, and leads to related states; or both go wrong in the same way. -/
structure Alike {σ τ : Type} (R : σ → τ → Prop) (w : WriterInterface σ) (v : WriterInterface τ) : Prop where
  init : ∀ s t n, R s t → AlikeResult R (w.init s n) (v.init t n)
  writeHeader : ∀ s t n, R s t → AlikeResult R (w.writeHeader s n) (v.writeHeader t n)
  add : ∀ s t bs, R s t → AlikeState R (w.add s bs) (v.add t bs)
  copy : ∀ s t a n, R s t → AlikeState R (w.copy s a n) (v.copy t a n)
  run : ∀ s t n b, R s t → AlikeState R (w.run s n b) (v.run t n b)
  addChecksum : ∀ s t n, R s t → AlikeState R (w.addChecksum s n) (v.addChecksum t n)
  output : ∀ s t, R s t → AlikeResult R (w.output s) (v.output t)
  finishEncoding : ∀ s t, R s t → AlikeResult R (w.finishEncoding s) (v.finishEncoding t)
  verifyDictionary : ∀ s t bs, R s t → AlikeResult R (w.verifyDictionary s bs) (v.verifyDictionary t bs)
  verifyChunk : ∀ s t bs, R s t → AlikeResult R (w.verifyChunk s bs) (v.verifyChunk t bs)

/-- No method of the writer goes wrong, in any state. -/
structure Total {σ : Type} (w : WriterInterface σ) : Prop where
  init : ∀ s n, ∃ r, w.init s n = .ok r
  writeHeader : ∀ s n, ∃ r, w.writeHeader s n = .ok r
  add : ∀ s bs, ∃ r, w.add s bs = .ok r
  copy : ∀ s a n, ∃ r, w.copy s a n = .ok r
  run : ∀ s n b, ∃ r, w.run s n b = .ok r
  addChecksum : ∀ s n, ∃ r, w.addChecksum s n = .ok r
  output : ∀ s, ∃ r, w.output s = .ok r
  finishEncoding : ∀ s, ∃ r, w.finishEncoding s = .ok r
  verifyDictionary : ∀ s bs, ∃ r, w.verifyDictionary s bs = .ok r
  verifyChunk : ∀ s bs, ∃ r, w.verifyChunk s bs = .ok r

/-- The target bytes for which there are instructions among the events. -/
def bytesDescribed (es : List Event) : Nat :=
  (es.map fun
    | .add bytes => bytes.length
    | .copy _ size => size
    | .run size _ => size
    | _ => 0).sum

/-- The bytes of the chunks that were accepted. -/
def bytesAccepted (cs : List EncoderCall) (rs : List EncoderReply) : Nat :=
  ((cs.zip rs).map fun
    | (.chunk data, ⟨true, _⟩) => data.length
    | _ => 0).sum

end Vcd.Spec

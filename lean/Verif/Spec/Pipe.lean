import Verif.Model.Decoder
import Verif.Model.Encoder

/-!
# A sender and a receiver connected by a channel
-/

namespace Vcd.Spec

/-- A sender with a `VCDiffStreamingEncoder`, a channel with the bytes sent and not yet delivered, and a receiver with a
`VCDiffStreamingDecoder`; `sent` is the target given to the encoder so far, `received` what the decoder has output so far. -/
structure Pipe where
  encoder : Encoder
  channel : Bytes
  decoder : Decoder
  sent : Bytes := []
  received : Bytes := []

/-- What can happen: the sender encodes a chunk and sends the output, or the next `n` bytes of the channel (or all, if they are
fewer) are delivered to the receiver, who decodes them as a chunk. -/
inductive PipeEvent where
  | send (data : Bytes)
  | deliver (n : Nat)

/-- One event; `none` if the library returns `false` or faults. -/
def Pipe.step (p : Pipe) : PipeEvent → Option Pipe
  | .send data =>
    match p.encoder.call (.chunk data) with
    | .ok (⟨true, out⟩, e) => some { p with encoder := e, channel := p.channel ++ out, sent := p.sent ++ data }
    | _ => none
  | .deliver n =>
    match p.decoder.call (.chunk (p.channel.take n)) with
    | .ok (⟨true, out⟩, d) => some { p with decoder := d, channel := p.channel.drop n, received := p.received ++ out }
    | _ => none

/-- Events in any order. -/
def Pipe.run (p : Pipe) : List PipeEvent → Option Pipe
  | [] => some p
  | ev :: evs => match p.step ev with
    | some p' => p'.run evs
    | none => none

/-- The beginning: `StartEncoding`, whose output is sent, and `StartDecoding`. -/
def Pipe.open (e : Encoder) (d : Decoder) (dict : Bytes) : Option Pipe :=
  match e.call .start, d.call (.start dict) with
  | .ok (⟨true, out⟩, e'), .ok (⟨true, _⟩, d') => some { encoder := e', channel := out, decoder := d' }
  | _, _ => none

/-- The chunks sent, in order. -/
def chunksSent : List PipeEvent → List Bytes
  | [] => []
  | .send data :: evs => data :: chunksSent evs
  | .deliver _ :: evs => chunksSent evs

end Vcd.Spec

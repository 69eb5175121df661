import Verif.Model.Debug
import Verif.Spec.Decoder

/-!
# How the decoder is to be called, and what a debug build may add to that

`google/vcdecoder.h` asks for `StartDecoding`, then any number of `DecodeChunk`s until one of them returns false, then
`FinishDecoding`; and for `SetAllowVcdTarget` outside of that.
-/

namespace Vcd.Spec

/-- Whether a file is being decoded after one more call with this reply. -/
def activeStep (a : Bool) : DecoderCall × DecoderReply → Bool
  | (.start _, _) => true
  | (.chunk _, r) => a && r.ret
  | (.finish, _) => false
  | _ => a

/-- Whether a file is being decoded after these calls with these replies. -/
def active (h : List (DecoderCall × DecoderReply)) : Bool := h.foldl activeStep false

/-- The message for a call that is out of place: `StartDecoding` or `SetAllowVcdTarget` while a file is being decoded,
`DecodeChunk` while none is. -/
def misuse (a : Bool) : DecoderCall → Option Site
  | .start _ => if a then some .startTwice else none
  | .setAllowTarget _ => if a then some .allowTargetLate else none
  | .chunk _ => if a then none else some .notStarted
  | _ => none

/-- What a release build does, as a result of a debug build. -/
def asRelease {α : Type} : Except Fault α → DebugResult α
  | .ok r => .returns r
  | .error f => .fault f

/-- Where the process ended. -/
def exitsAt {α : Type} : DebugResult α → Option Site
  | .exits x => some x
  | _ => none

end Vcd.Spec

import Verif.Model.Decoder

/-!
# Vocabulary for statements about decoder call sequences

Only bytes of the delta, API calls and API replies occur here.
-/

namespace Vcd.Spec

/-- Everything appended to the output string by a sequence of calls. -/
def allOut (rs : List DecoderReply) : Bytes := (rs.map DecoderReply.out).flatten

/-- Byte `i` of a delta file is acceptable for this library: the magic number `D6 C3 C4`, then the
version `0` or `'S'`, then a header indicator without the secondary-compression bit
(RFC 3284 section 4.1). -/
def headerByteOk (i : Nat) (b : UInt8) : Prop :=
  match i with
  | 0 => b = 0xD6
  | 1 => b = 0xC3
  | 2 => b = 0xC4
  | 3 => b = 0 ∨ b = 0x53
  | 4 => b &&& 1 = 0
  | _ => True

/-- The bytes seen so far cannot be the beginning of a supported delta file. -/
def HeaderBad (s : Bytes) : Prop := ∃ i b, s[i]? = some b ∧ ¬ headerByteOk i b

/-- The delta file announces a custom code table (bit 1 of the header indicator). -/
def CustomTable (s : Bytes) : Prop := ∃ b, s[4]? = some b ∧ b &&& 2 ≠ 0

/-- The delta file uses the SDCH extensions (version byte `'S'`). -/
def Extended (s : Bytes) : Prop := s[3]? = some 0x53

/-- A call other than `StartDecoding` and `FinishDecoding`. -/
def DecoderCall.inner : DecoderCall → Bool
  | .start _ => false
  | .finish => false
  | _ => true

/-- One use of a decoder: setters (or chunks fed too early), `StartDecoding`, chunks and setters in
any order, `FinishDecoding`. -/
structure Session where
  pre : List DecoderCall
  dict : Bytes
  body : List DecoderCall
  pre_inner : ∀ c ∈ pre, DecoderCall.inner c = true
  body_inner : ∀ c ∈ body, DecoderCall.inner c = true

/-- The calls of a session. -/
def Session.calls (s : Session) : List DecoderCall :=
  s.pre ++ .start s.dict :: (s.body ++ [.finish])

/-- The delta bytes among a list of calls. -/
def streamOf : List DecoderCall → Bytes
  | [] => []
  | .chunk data :: cs => data ++ streamOf cs
  | _ :: cs => streamOf cs

/-- The delta bytes fed in a session. -/
def Session.stream (s : Session) : Bytes := streamOf s.body

/-- The three settings of a decoder: maximum target file size, maximum target window size, and whether
windows may take their source from earlier target data. -/
structure Settings where
  maxFile : Nat := 67108864
  maxWindow : Nat := 67108864
  allowTarget : Bool := true

/-- Effect of a call on the settings, as the interface documents it (`SetMaximumTargetWindowSize`
refuses values above 2^31 - 1; `SetAllowVcdTarget` is only to be called before decoding). -/
def Settings.step (s : Settings) : DecoderCall → Settings
  | .setMaxFile n => { s with maxFile := n }
  | .setMaxWin n => if n ≤ 2147483647 then { s with maxWindow := n } else s
  | .setAllowTarget b => { s with allowTarget := b }
  | _ => s

/-- Effect of a list of calls on the settings. -/
def Settings.after (s : Settings) (cs : List DecoderCall) : Settings := cs.foldl Settings.step s

/-- A new decoder with the given settings. -/
def configured (s : Settings) : Decoder :=
  { top := { maxFile := s.maxFile, maxWin := s.maxWindow, allowTarget := s.allowTarget } }

/-- A decoder with the given settings that is new but for one thing: the code table it uses for files that
bring none is `t`. -/
def leftWith (s : Settings) (t : CodeTable) : Decoder :=
  { top := { (configured s).top with table := t } }

end Vcd.Spec

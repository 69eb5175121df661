import Verif.Model.Encoder

/-!
# The call-order protocol of an encoder
-/

namespace Vcd.Spec

/-- What a caller sees: `StartEncoding` outputs `header`; while encoding is allowed, `EncodeChunk` outputs
`window` of the chunk and `FinishEncoding` outputs nothing and ends the permission; otherwise both fail and
output nothing. The first argument says whether encoding is allowed. -/
def protocol (header : Bytes) (window : Bytes → Bytes) : Bool → List EncoderCall → List EncoderReply
  | _, [] => []
  | _, .start :: cs => ⟨true, header⟩ :: protocol header window true cs
  | true, .chunk data :: cs => ⟨true, window data⟩ :: protocol header window true cs
  | false, .chunk _ :: cs => ⟨false, []⟩ :: protocol header window false cs
  | true, .finish :: cs => ⟨true, []⟩ :: protocol header window false cs
  | false, .finish :: cs => ⟨false, []⟩ :: protocol header window false cs

/-- Every chunk in a list of calls satisfies `p`. -/
def EachChunk (p : Bytes → Prop) (cs : List EncoderCall) : Prop := ∀ data, .chunk data ∈ cs → p data

/-- The format flags and target matching in force at the first `Encode` of a list of calls, given those at
its beginning. -/
def settingsFrom (flags : Nat) (matching : Bool) : List SimpleCall → Nat × Bool
  | .setFormatFlags flags :: cs => settingsFrom flags matching cs
  | .setTargetMatching on :: cs => settingsFrom flags on cs
  | _ => (flags, matching)

/-- The same for a new `VCDiffEncoder`. -/
def firstSettings (cs : List SimpleCall) : Nat × Bool := settingsFrom 0 true cs

end Vcd.Spec

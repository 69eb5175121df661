import Verif.Model.Release

/-!
# Rules for the use of a `HashedDictionary` and an encoder (src/google/vcencoder.h:43-49)

"Init() must be called before using the HashedDictionary as an argument to the VCDiffStreamingEncoder", and once.
-/

namespace Vcd.Spec

/-- Whether a sequence of calls breaks the rules: `Init` a second time, or `EncodeChunk` in an encoding under way before `Init`.
`takesDict` and `takes` say whether the format takes the dictionary and a chunk (JSON takes only ASCII); `inited` and
`started` say whether `Init` has been called and whether encoding has been started and not finished since. -/
def misused (takesDict : Bool) (takes : Bytes → Bool) : (inited started : Bool) → List PairCall → Bool
  | _, _, [] => false
  | inited, started, .init :: cs => inited || misused takesDict takes true started cs
  | inited, started, .encoder .start :: cs => misused takesDict takes inited (started || takesDict) cs
  | inited, started, .encoder (.chunk data) :: cs =>
    (started && takes data && !inited) || misused takesDict takes inited started cs
  | inited, _, .encoder .finish :: cs => misused takesDict takes inited false cs

/-- The chunks of a sequence of calls. -/
def EachPairChunk (p : Bytes → Prop) (cs : List PairCall) : Prop := ∀ data, .encoder (.chunk data) ∈ cs → p data

/-- What a caller sees of a build in which `VCD_DFATAL` does not exit: as `protocol` (`Spec.Encoder`), but `Init` succeeds once, and in an
encoding that is under way before it the chunks are taken and not encoded. -/
def releaseProtocol (header : Bytes) (window : Bytes → Bytes) : (inited started : Bool) → List PairCall → List EncoderReply
  | _, _, [] => []
  | inited, started, .init :: cs => ⟨!inited, []⟩ :: releaseProtocol header window true started cs
  | inited, _, .encoder .start :: cs => ⟨true, header⟩ :: releaseProtocol header window inited true cs
  | inited, started, .encoder (.chunk data) :: cs =>
    ⟨started, if started && inited then window data else []⟩ :: releaseProtocol header window inited started cs
  | inited, started, .encoder .finish :: cs => ⟨started, []⟩ :: releaseProtocol header window inited false cs

end Vcd.Spec

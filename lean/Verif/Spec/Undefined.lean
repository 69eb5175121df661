import Verif.Spec.Varint
import Verif.Model.Decoder

/-!
# Bits of a delta file that RFC 3284 leaves undefined

RFC 3284, sections 4.2 and 4.3: a window begins with `Win_Indicator`; with VCD_SOURCE or VCD_TARGET the length and the position of the
source segment follow; then the length of the delta encoding, the length of the target window and `Delta_Indicator`.
-/

namespace Vcd.Spec

/-- `w` is what precedes `Delta_Indicator` in a window. -/
def BeforeDeltaIndicator (w : Bytes) : Prop :=
  ∃ ind segment deltaLength targetLength, w = ind :: (segment ++ deltaLength ++ targetLength) ∧
    (if ind &&& 3 = 0 then segment = [] else ∃ length position, segment = length ++ position ∧ IsVarint length ∧ IsVarint position) ∧
    IsVarint deltaLength ∧ IsVarint targetLength

/-- What the caller sees of the calls. -/
def callerSees (d : Decoder) (cs : List DecoderCall) : Except Fault (List DecoderReply) := (d.calls cs).map Prod.fst

end Vcd.Spec

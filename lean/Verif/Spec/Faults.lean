import Verif.Spec.Rfc

/-!
# Specification: which deltas can make the decoder leave its address cache
-/

namespace Vcd.Spec

/-- Somewhere in the bytes there is what can be read as a file header that announces a custom code table
and 254 NEAR slots: `ind` is the header indicator, `nb` the number of NEAR slots. -/
def AnnouncesNear254 (bytes : Bytes) : Prop :=
  ∃ (pre : Bytes) (v ind : UInt8) (nb post : Bytes), bytes = pre ++ ([0xD6, 0xC3, 0xC4, v, ind] ++ nb ++ post) ∧
    (v = 0 ∨ v = 0x53) ∧ ind &&& 2 ≠ 0 ∧ NumCode nb 254

end Vcd.Spec

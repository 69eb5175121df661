import Verif.Spec.Rfc

/-!
# Decoding with another dictionary
-/

namespace Vcd.Spec

/-- The source segment of the window `w` is the first `d` bytes of the dictionary (RFC 3284, section 4.2). -/
def SourceIs (d : Nat) (w : Bytes) : Prop :=
  ∃ (ind : UInt8) (lb pb rest : Bytes), w = [ind] ++ lb ++ pb ++ rest ∧ ind &&& 3 = 1 ∧ NumCode lb d ∧ NumCode pb 0

/-- The number of places at which two strings of the same length have different bytes. -/
def wrongBytes (a b : Bytes) : Nat := (a.zip b).countP fun p => p.1 != p.2

end Vcd.Spec

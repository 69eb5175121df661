import Verif.Model.Basic

/-!
# Specification of the rolling hash
-/

namespace Vcd.Spec

/-- The bytes of a window as the digits, most significant first, of a number in base 257. -/
def polynomial (window : Bytes) : Nat := window.foldl (fun acc b => acc * 257 + b.toNat) 0

/-- The hash of a window: that number modulo `2^23`. -/
def windowHash (window : Bytes) : Nat := polynomial window % 8388608

end Vcd.Spec

import Verif.Spec.Engine

/-!
# Specification for C84: data that repeat themselves
-/

namespace Vcd.Spec
open Vcd

/-- The data repeat the first `p` bytes to the end: every byte but the first `p` is the one `p` bytes before it. -/
def Repeats (p : Nat) (data : Bytes) : Prop := ∀ i, i + p < data.length → data[i + p]? = data[i]?

/-- No 32 bytes of the first are 32 bytes of the second. -/
def NothingShared (a b : Bytes) : Prop := ∀ i j, i + 32 ≤ a.length → j + 32 ≤ b.length → (a.drop i).take 32 ≠ (b.drop j).take 32

end Vcd.Spec

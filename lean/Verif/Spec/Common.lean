import Verif.Spec.Rfc

/-!
# Deltas that every decoder can read

Delta files as RFC 3284 and the library agree on them (`strict`): with the default code table, and without bits in the header, window and delta
indicators whose meaning is not defined. `ext` is whether the file is in the version with the extensions.
-/

namespace Vcd.Spec

/-- The window indicator has no bits but those for a source segment (0 and 1) and, with the extensions, a checksum (2), and the delta
indicator has none at all. -/
def DefinedBits (ext : Bool) (w : Bytes) : Prop :=
  ∃ R : Reading w, R.ind &&& (if ext = true then 0xF8 else 0xFC) = 0 ∧ R.di = 0

/-- Windows, behind the target `prev`, and the target they stand for. -/
inductive CommonWindows (ext : Bool) (s : Settings) (dict : Bytes) : Bytes → Bytes → Bytes → Prop
  | nil {prev} : CommonWindows ext s dict prev [] []
  | cons {prev w T ws Ts} : WindowCode defaultCoding ext strict s dict prev w T → DefinedBits ext w →
      CommonWindows ext s dict (prev ++ T) ws Ts → CommonWindows ext s dict prev (w ++ ws) (T ++ Ts)

/-- A delta file and its target. -/
inductive CommonFile (s : Settings) (dict : Bytes) : Bytes → Bytes → Prop
  | standard {ws T} : CommonWindows false s dict [] ws T → CommonFile s dict ([0xD6, 0xC3, 0xC4, 0, 0] ++ ws) T
  | extended {ws T} : CommonWindows true s dict [] ws T → CommonFile s dict ([0xD6, 0xC3, 0xC4, 0x53, 0] ++ ws) T

end Vcd.Spec
